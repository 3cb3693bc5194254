import Verif.Proof.Format
import Verif.Thm.Copy
import Verif.Proof.Blas
import Mathlib.Tactic.IntervalCases
/-!
# Theorems on printing (C86)
-/
namespace Rstsr
open Spec

section
variable {α : Type}

theorem empty_ok {c : PrintCfg α} {R : List Axis} (h0 : ∃ x ∈ R, x.dim = 0) : ∀ (B : List Axis) (idx : List Nat) (off : Int) (out : List Char),
    c.layout.axes = B.reverse ++ R → idx.length = B.length → (∀ p x, (p, x) ∈ idx.zip B → p < x.dim) →
    c.Leads ⟨off, idx, out⟩ (.done (out ++ ['[', ']'])) := by
  induction R with
  | nil => obtain ⟨x, hx, -⟩ := h0; cases hx
  | cons x R ih =>
    intro B idx off out hA hl hr
    have hat := cfg_at hA
    have hnd : c.layout.ndim = idx.length + R.length + 1 := by
      unfold Layout.ndim; rw [hA, hl]; simp; omega
    by_cases hR : R = []
    · subst hR
      have hx : x.dim = 0 := by obtain ⟨y, hy, h⟩ := h0; simp at hy; rw [← hy, h]
      apply Leads.step
      unfold PrintCfg.step
      simp only
      rw [if_neg (by omega), if_neg (not_at_end hA hl hr), if_neg (by simp at hnd; omega), hnd, Nat.add_sub_cancel, hl, List.length_nil, Nat.add_zero, hat.1, if_pos hx]
      rfl
    · have hlen : R.length ≠ 0 := by simpa using hR
      have hstep : c.Leads ⟨off, idx, out⟩ (.again ⟨off, 0 :: idx, out⟩) := by
        apply Leads.step
        unfold PrintCfg.step
        simp only
        rw [if_neg (by omega), if_neg (not_at_end hA hl hr), if_pos (by omega)]
        simp [pure, Except.pure]
      refine Leads.trans hstep ?_
      by_cases hx : x.dim = 0
      · apply Leads.step
        unfold PrintCfg.step
        simp only
        rw [if_neg (by omega), if_pos ⟨by simp, by simp [hl, hat.1, hx]⟩]
        rfl
      · refine ih ?_ (x :: B) (0 :: idx) off out (by rw [hA]; simp) (by simp [hl]) ?_
        · obtain ⟨y, hy, h⟩ := h0
          rcases List.mem_cons.1 hy with rfl | hy
          · exact absurd h hx
          · exact ⟨y, hy, h⟩
        · intro q y h
          rw [List.zip_cons_cons, List.mem_cons] at h
          rcases h with h | h
          · cases h; omega
          · exact hr q y h

theorem leads_print {most few : Nat} {fmt : α → List Char} {t : Tensor α} {txt : List Char}
    (h : (⟨t.data, t.layout, most, few, fmt⟩ : PrintCfg α).Leads ⟨t.layout.offset, [], []⟩ (.done txt)) :
    ∃ N, ∀ n, N ≤ n → t.print most few fmt n = some (.ok txt) := by
  obtain ⟨k, hk⟩ := h
  refine ⟨k, fun n hn => ?_⟩
  have := hk (n - k)
  rw [Nat.sub_add_cancel hn] at this
  exact this

/-- A tensor without elements prints as `[]`. -/
theorem C86_empty (most few : Nat) (fmt : α → List Char) (t : Tensor α) (h0 : 0 ∈ t.arr.shape) :
    ∃ N, ∀ n, N ≤ n → t.print most few fmt n = some (.ok ['[', ']']) := by
  refine leads_print (empty_ok (R := t.layout.axes) ?_ [] [] _ [] rfl rfl (by simp))
  obtain ⟨x, hx, h⟩ := List.mem_map.1 (show 0 ∈ t.layout.axes.map (·.dim) from h0)
  exact ⟨x, hx, h⟩

/-- The text of a tensor is that of its array: `Display` shows shape and elements in logical order whatever the layout. It ends, after `N` calls at most. -/
theorem C86_text_partial (most few : Nat) (hf : few ≠ 0) (fmt : α → List Char) (t : Tensor α) (ht : t.WF) (g : List Nat → α)
    (hg : ∀ idx, InRange idx t.arr.shape → t.arr.elem idx = some (g idx)) :
    ∃ N, ∀ n, N ≤ n → t.print most few fmt n = some (.ok (arrayText most few t.arr.shape fun idx => fmt (g idx))) := by
  have hh : (⟨t.data, t.layout, most, few, fmt⟩ : PrintCfg α).Holds t.layout.axes t.layout.offset g := by
    intro r hr
    have h1 := hg r hr
    have h2 := ht.fit.nonneg r hr
    have h3 := elem_pos (d := t.data) ht.fit (i := r) hr
    rw [show (⟨t.data, t.layout⟩ : Tensor α) = t from rfl, h1] at h3
    have h4 : t.layout.addr r = t.layout.offset + dot r t.layout.axes := addr_eq ..
    exact ⟨h4 ▸ h2, h4 ▸ h3.symm⟩
  unfold arrayText
  by_cases h0 : 0 ∈ t.arr.shape
  · rw [if_pos h0]
    exact C86_empty most few fmt t h0
  · rw [if_neg h0]
    apply leads_print
    by_cases hs : t.layout.axes = []
    · apply Leads.step
      unfold PrintCfg.step
      have h := hh [] (by rw [hs]; trivial)
      rw [dot_nil_left, Int.add_zero] at h
      have hnd : t.layout.ndim = 0 := by unfold Layout.ndim; rw [hs]; rfl
      simp only
      rw [if_pos hnd, elem_ok (x := g []) h.1 h.2]
      have : t.arr.shape = [] := by show t.layout.axes.map (·.dim) = []; rw [hs]; rfl
      rw [this]
      rfl
    · have := writes_all (c := ⟨t.data, t.layout, most, few, fmt⟩) hf hs (fun x hx h => h0 (List.mem_map.2 ⟨x, hx, h⟩)) [] [] _ g [] rfl rfl (by simp) hh
      simp only [PrintCfg.after, openText, closeText, lasts, List.takeWhile_nil, List.length_nil, List.zip_nil_left, List.replicate_zero, if_true,
        List.append_nil, List.nil_append, Nat.sub_zero] at this
      exact this

/-- Two tensors with the same array have the same text, whatever their layouts are. -/
theorem C86_layout_partial (most few : Nat) (hf : few ≠ 0) (fmt : α → List Char) (a b : Tensor α) (ha : a.WF) (hb : b.WF) (h : a.arr.Same b.arr) :
    ∃ N, ∀ n, N ≤ n → a.print most few fmt n = b.print most few fmt n ∧ ∃ txt, a.print most few fmt n = some (.ok txt) := by
  by_cases hne : Nonempty α
  · have hx : ∀ idx, ∃ x, InRange idx a.arr.shape → a.arr.elem idx = some x ∧ b.arr.elem idx = some x := fun idx => by
      by_cases hi : InRange idx a.arr.shape
      · obtain ⟨x, h1, h2⟩ := h.2 idx hi; exact ⟨x, fun _ => ⟨h1, h2⟩⟩
      · exact ⟨hne.some, fun hi' => absurd hi' hi⟩
    choose g hg using hx
    obtain ⟨N, hN⟩ := C86_text_partial most few hf fmt a ha g fun idx hi => (hg idx hi).1
    obtain ⟨M, hM⟩ := C86_text_partial most few hf fmt b hb g fun idx hi => (hg idx (h.1 ▸ hi)).2
    refine ⟨max N M, fun n hn => ?_⟩
    rw [hN n (by omega), hM n (by omega), h.1]
    exact ⟨rfl, _, rfl⟩
  · have h0 : 0 ∈ a.arr.shape := by
      by_contra h0
      obtain ⟨x, -⟩ := h.2 _ (inRange_zeros fun d hd => Nat.pos_of_ne_zero fun e => h0 (e ▸ hd))
      exact hne ⟨x⟩
    obtain ⟨N, hN⟩ := C86_empty most few fmt a h0
    obtain ⟨M, hM⟩ := C86_empty most few fmt b (h.1 ▸ h0)
    refine ⟨max N M, fun n hn => ?_⟩
    rw [hN n (by omega), hM n (by omega)]
    exact ⟨rfl, _, rfl⟩

theorem count_flatMap_eq {ι : Type} (l : List ι) (f : ι → List Char) (h : ∀ x ∈ l, (f x).count '[' = (f x).count ']') :
    (l.flatMap f).count '[' = (l.flatMap f).count ']' := by
  induction l with
  | nil => rfl
  | cons x l ih => rw [List.flatMap_cons, List.count_append, List.count_append, h x (by simp), ih fun y hy => h y (by simp [hy])]

theorem count_intercalate_eq (s : List Char) (l : List (List Char)) (hs : s.count '[' = s.count ']') (h : ∀ x ∈ l, x.count '[' = x.count ']') :
    (s.intercalate l).count '[' = (s.intercalate l).count ']' := by
  cases l with
  | nil => rfl
  | cons x l =>
    rw [intercalate_cons, List.count_append, List.count_append, h x (by simp), count_flatMap_eq]
    intro y hy
    rw [List.count_append, List.count_append, hs, h y (by simp [hy])]

theorem count_gap (d rank : Nat) : (between rank ++ List.replicate d ' ').count '[' = (between rank ++ List.replicate d ' ').count ']' := by
  unfold between
  split <;> simp [List.count_replicate]

theorem count_render (most few : Nat) (shape : List Nat) : ∀ (d : Nat) (text : List Nat → List Char) (_ : ∀ idx, (text idx).count '[' = (text idx).count ']'),
    (render most few d shape text).count '[' = (render most few d shape text).count ']' := by
  induction shape with
  | nil => intro d text h; exact h []
  | cons n rest ih =>
    intro d text h
    match rest, ih with
    | [], _ =>
      simp only [render, renderRow, List.count_append]
      rw [count_flatMap_eq]
      · simp; omega
      · intro i _
        cases i with
        | none => rfl
        | some i => simpa using h [i]
    | m :: rest, ih =>
      simp only [render, List.count_append]
      rw [count_intercalate_eq _ _ (count_gap _ _)]
      · simp; omega
      · intro x hx
        obtain ⟨i, -, rfl⟩ := List.mem_map.1 hx
        cases i with
        | none => rfl
        | some i => exact ih (d + 1) (fun r => text (i :: r)) fun r => h (i :: r)

/-- Numbers of opening and closing brackets are the same. -/
theorem C86_brackets (most few : Nat) (shape : List Nat) (text : List Nat → List Char) (h : ∀ idx, '[' ∉ text idx ∧ ']' ∉ text idx) :
    (arrayText most few shape text).count '[' = (arrayText most few shape text).count ']' := by
  unfold arrayText
  split
  · rfl
  · exact count_render _ _ _ _ _ fun idx => by rw [List.count_eq_zero.2 (h idx).1, List.count_eq_zero.2 (h idx).2]

/-- Characters that are not part of an element. -/
def frame : List Char := ['[', ']', ' ', '\n']

theorem filter_frame {l : List Char} (h : ∀ c ∈ l, c ∈ frame) : l.filter (· ∉ frame) = [] := by
  rw [List.filter_eq_nil_iff]
  intro c hc
  simpa using h c hc

theorem filter_text {l : List Char} (h : ∀ c ∈ l, c ∉ frame) : l.filter (· ∉ frame) = l := by
  rw [List.filter_eq_self]
  intro c hc
  simpa using h c hc

theorem filter_render (most few : Nat) (shape : List Nat) (h0 : 0 ∉ shape) (hs : ∀ n ∈ shape, n < most) :
    ∀ (d : Nat) (text : List Nat → List Char) (_ : ∀ idx, ∀ c ∈ text idx, c ∉ frame),
    (render most few d shape text).filter (· ∉ frame) = (allC shape).flatMap text := by
  induction shape with
  | nil => intro d text h; rw [render, filter_text (h [])]; simp [allC]
  | cons n rest ih =>
    intro d text h
    have hn := hs n (by simp)
    have hn0 : n ≠ 0 := fun e => h0 (by simp [e])
    have ih := ih (fun h => h0 (by simp [h])) fun k hk => hs k (by simp [hk])
    have e1 : (['['] : List Char).filter (· ∉ frame) = [] := by decide
    have e2 : ([']'] : List Char).filter (· ∉ frame) = [] := by decide
    have hall : (allC (n :: rest)).flatMap text = (List.range n).flatMap fun i => (allC rest).flatMap fun r => text (i :: r) := by
      simp only [allC, List.flatMap_assoc, List.flatMap_map]
    rw [hall]
    match rest, ih with
    | [], _ =>
      simp only [render, renderRow, List.filter_append, e1, e2, List.nil_append, List.append_nil]
      rw [decide_eq_true (show n ≤ max most (2 * few + 1) by omega), shownOf, if_pos rfl, List.flatMap_map, List.filter_flatMap]
      congr 1
      funext i
      simp [allC, frame]
      have := filter_text (h [i])
      simpa [frame] using this
    | m :: rest, ih =>
      simp only [render, List.filter_append, e1, e2, List.nil_append, List.append_nil]
      rw [decide_eq_true (show n < most ∨ n < 2 * few from .inl hn), shownOf, if_pos rfl]
      obtain ⟨k, rfl⟩ := Nat.exists_eq_succ_of_ne_zero hn0
      rw [List.range_succ_eq_map, List.map_cons, List.map_cons, intercalate_cons, List.filter_append, List.flatMap_cons]
      simp only [Option.map_some, Option.getD_some]
      rw [ih _ _ fun r => h (0 :: r), List.filter_flatMap]
      simp only [List.map_map, List.flatMap_map]
      congr 2
      funext i
      rw [List.filter_append, filter_frame, List.nil_append]
      · exact ih _ _ fun r => h (i.succ :: r)
      · intro c hc
        rcases List.mem_append.1 hc with hc | hc
        · unfold between at hc
          split at hc <;> (simp at hc; simp [frame, hc])
        · simp [frame, (List.mem_replicate.1 hc).2]

/-- Nothing is left out of small arrays: without brackets and white space, the text is that of all elements in row-major order. -/
theorem C86_all (most few : Nat) (shape : List Nat) (h0 : 0 ∉ shape) (hs : ∀ n ∈ shape, n < most) (text : List Nat → List Char)
    (h : ∀ idx, ∀ c ∈ text idx, c ∉ ['[', ']', ' ', '\n']) :
    (arrayText most few shape text).filter (· ∉ ['[', ']', ' ', '\n']) = (allC shape).flatMap text := by
  unfold arrayText
  rw [if_neg h0]
  exact filter_render most few shape h0 hs 0 text h

/-- Along every axis, an ellipsis stands for something that is left out, and whatever is left out is marked by one, if `MAX_PRINT` is more than twice `MIN_PRINT`. -/
theorem C86_ellipsis_partial (most few n : Nat) (h : 2 * few < most) :
    (none ∈ shownOf (decide (n < most ∨ n < 2 * few)) few n ↔ ∃ p < n, some p ∉ shownOf (decide (n < most ∨ n < 2 * few)) few n) ∧
      (none ∈ shownOf (decide (n ≤ max most (2 * few + 1))) few n ↔ ∃ p < n, some p ∉ shownOf (decide (n ≤ max most (2 * few + 1))) few n) := by
  have key : ∀ b : Bool, (b = false → 2 * few < n) → (none ∈ shownOf b few n ↔ ∃ p < n, some p ∉ shownOf b few n) := by
    intro b hb
    cases b with
    | true =>
      simp only [shownOf, if_true]
      constructor
      · intro h; simp at h
      · rintro ⟨p, hp, h⟩; exact absurd (List.mem_map.2 ⟨p, List.mem_range.2 hp, rfl⟩) h
    | false =>
      have := hb rfl
      simp only [shownOf]
      constructor
      · intro _
        refine ⟨few, by omega, ?_⟩
        simp [List.mem_range'_1]
        omega
      · intro _; simp
  constructor
  · apply key; intro h; simp at h; omega
  · apply key; intro h; simp at h; omega

/-- Otherwise it may stand for nothing. -/
theorem C86_false_ellipsis (few : Nat) : none ∈ shownOf (decide (2 * few < 2 * few ∨ 2 * few < 2 * few)) few (2 * few) ∧
    ∀ p < 2 * few, some p ∈ shownOf (decide (2 * few < 2 * few ∨ 2 * few < 2 * few)) few (2 * few) := by
  constructor
  · simp [shownOf]
  · intro p hp
    simp [shownOf, List.mem_range'_1]
    omega

/-- Nine rows of one element. -/
def rows9 : Tensor Nat := ⟨List.range 9, ⟨[⟨9, 1⟩, ⟨1, 1⟩], 0⟩⟩
def digit (n : Nat) : List Char := [Char.ofNat (48 + n)]

/-- With `MIN_PRINT` zero brackets are left open, and all rows but the first one are missing. -/
theorem C86_false_few : ∃ t : Tensor Nat, t.WF ∧ (∃ N, ∀ n, N ≤ n → t.print 8 0 digit n = some (.ok "[[ 0]\n ...\n".toList)) :=
  ⟨rows9, ⟨by decide, rfl⟩, leads_print ⟨4, fun n => rfl⟩⟩

/-! ## The hypotheses are met -/

/-- A transposed tensor: the text is that of the numbers in logical order. -/
def flipT : Tensor Nat := ⟨List.range 6, ⟨[⟨3, 1⟩, ⟨2, 3⟩], 0⟩⟩
example : ∃ N, ∀ n, N ≤ n → flipT.print 8 3 digit n = some (.ok "[[ 0 3]\n [ 1 4]\n [ 2 5]]".toList) := by
  have := C86_text_partial 8 3 (by decide) digit flipT ⟨by decide, rfl⟩ (fun idx => idx.getD 0 0 + 3 * idx.getD 1 0) (by
    intro idx h
    match idx, h with
    | [i, j], h =>
      obtain ⟨h1, h2⟩ := inRange2.1 h
      interval_cases i <;> interval_cases j <;> rfl)
  exact this
example : ∃ N, ∀ n, N ≤ n → rows9.print 8 3 digit n = some (.ok "[[ 0]\n [ 1]\n [ 2]\n ...\n [ 6]\n [ 7]\n [ 8]]".toList) := leads_print ⟨8, fun n => rfl⟩
example := C86_layout_partial 8 3 (by decide) digit flipT ⟨[0, 3, 1, 4, 2, 5], ⟨[⟨3, 2⟩, ⟨2, 1⟩], 0⟩⟩ ⟨by decide, rfl⟩ ⟨by decide, rfl⟩ ⟨rfl, by
  intro idx h
  match idx, h with
  | [i, j], h =>
    obtain ⟨h1, h2⟩ := inRange2.1 h
    interval_cases i <;> interval_cases j <;> exact ⟨_, rfl, rfl⟩⟩
example := C86_empty 8 3 digit ⟨[], ⟨[⟨2, 0⟩, ⟨0, 1⟩, ⟨3, 1⟩], 0⟩⟩ (by decide)
example := C86_brackets 8 3 [2, 10, 3] (fun _ => ['7', '.']) (by simp)
example := C86_all 8 3 [2, 7, 3] (by decide) (by decide) (fun _ => ['7', '.']) (by simp)
example := C86_ellipsis_partial 8 3 9 (by decide)

end
end Rstsr
