import Verif.Model.LayoutText
import Verif.Spec.LayoutText
import Verif.Thm.Core
/-!
# Theorems on the text of layouts (C107)
-/
namespace Rstsr
open Spec

/-! ## Reading numbers and lists back -/

theorem natText_inj {m n : Nat} (h : natText m = natText n) : m = n := by
  have := congrArg (fun l => Nat.ofDigitChars 10 l 0) h
  simpa [natText, Nat.ofDigitChars_ten_toDigits] using this

theorem natText_digit {n : Nat} {c : Char} (h : c ∈ natText n) : c.isDigit = true :=
  Nat.isDigit_of_mem_toDigits (by decide) (by decide) h

theorem natText_ne_nil (n : Nat) : natText n ≠ [] := Nat.toDigits_ne_nil

theorem not_mem_natText {n : Nat} {c : Char} (h : c.isDigit = false) : c ∉ natText n := fun hm => by
  rw [natText_digit hm] at h; cases h

theorem intText_inj {i j : Int} (h : intText i = intText j) : i = j := by
  have key : ∀ n m : Nat, '-' :: natText n ≠ natText m := fun n m hh =>
    not_mem_natText (n := m) (c := '-') (by decide) (by rw [← hh]; simp)
  unfold intText at h
  split at h <;> split at h
  · rw [List.cons_inj_right] at h; have := natText_inj h; omega
  · exact absurd h (key _ _)
  · exact absurd h.symm (key _ _)
  · have := natText_inj h; omega

theorem intText_ne_nil (i : Int) : intText i ≠ [] := by
  unfold intText; split
  · simp
  · exact natText_ne_nil _

theorem not_mem_intText {i : Int} {c : Char} (h : c.isDigit = false) (h' : c ≠ '-') : c ∉ intText i := by
  unfold intText; split
  · simp [h', not_mem_natText h]
  · exact not_mem_natText h

theorem split_at {γ : Type} {c : γ} {a b x y : List γ} (ha : c ∉ a) (hb : c ∉ b) (h : a ++ c :: x = b ++ c :: y) : a = b ∧ x = y := by
  induction a generalizing b with
  | nil => cases b with
    | nil => simpa using h
    | cons d b => simp at h hb; exact absurd h.1 hb.1
  | cons d a ih => cases b with
    | nil => simp at h ha; exact absurd h.1.symm ha.1
    | cons e b =>
      simp only [List.cons_append, List.cons.injEq, List.mem_cons, not_or] at h ha hb
      obtain ⟨rfl, h⟩ := h
      obtain ⟨rfl, rfl⟩ := ih ha.2 hb.2 h
      exact ⟨rfl, rfl⟩

theorem commaText_inj : ∀ {xs ys : List (List Char)}, (∀ x ∈ xs, x ≠ [] ∧ ',' ∉ x) → (∀ y ∈ ys, y ≠ [] ∧ ',' ∉ y) →
    commaText xs = commaText ys → xs = ys
  | [], [], _, _, _ => rfl
  | [], [y], _, hy, h => absurd h.symm (hy y (by simp)).1
  | [], y :: z :: r, _, hy, h => by simp [commaText] at h
  | [x], [], hx, _, h => absurd h (hx x (by simp)).1
  | x :: w :: r, [], hx, _, h => by simp [commaText] at h
  | [x], [y], _, _, h => by simpa [commaText] using h
  | [x], y :: z :: r, hx, _, h => by
    have := (hx x (by simp)).2
    simp only [commaText] at h
    rw [h] at this; simp at this
  | x :: w :: r, [y], _, hy, h => by
    have := (hy y (by simp)).2
    simp only [commaText] at h
    rw [← h] at this; simp at this
  | x :: w :: r, y :: z :: s, hx, hy, h => by
    simp only [commaText] at h
    obtain ⟨rfl, h⟩ := split_at (hx x (by simp)).2 (hy y (by simp)).2 h
    rw [commaText_inj (fun x hm => hx x (List.mem_cons_of_mem _ hm)) (fun x hm => hy x (List.mem_cons_of_mem _ hm))
      (by simpa using h)]

theorem not_mem_commaText {c : Char} (h1 : c ≠ ',') (h2 : c ≠ ' ') : ∀ {xs : List (List Char)}, (∀ x ∈ xs, c ∉ x) → c ∉ commaText xs
  | [], _ => by simp [commaText]
  | [x], h => h x (by simp)
  | x :: y :: r, h => by
    simp only [commaText, List.mem_append, List.mem_cons, not_or]
    exact ⟨h x (by simp), h1, h2, not_mem_commaText h1 h2 fun z hz => h z (List.mem_cons_of_mem _ hz)⟩

theorem nl_not_mem_contigText (l : Layout) : '\n' ∉ l.contigText := by
  unfold Layout.contigText
  dsimp only
  generalize l.cContig = a, l.cPrefer = b, l.fContig = c, l.fPrefer = d
  split
  · decide
  · cases a <;> cases b <;> cases c <;> cases d <;> decide

/-- The text of a layout says everything: layouts with the same text have the same shape, strides and offset, and the same kind of
type. -/
theorem C107_text_determines (dyn dyn' : Bool) (l m : Layout) (h : l.debugText dyn = m.debugText dyn') :
    dyn = dyn' ∧ l.shape = m.shape ∧ l.stride = m.stride ∧ l.offset = m.offset := by
  unfold Layout.debugText sliceText at h
  simp only [List.append_assoc, List.cons_append, List.nil_append] at h
  obtain ⟨-, h⟩ := split_at (not_mem_natText (by decide)) (not_mem_natText (by decide)) h
  simp only [List.cons.injEq, true_and] at h
  obtain ⟨hd, h⟩ := split_at (by cases dyn <;> decide) (by cases dyn' <;> decide) h
  have hd : dyn = dyn' := by cases dyn <;> cases dyn' <;> first | rfl | simp at hd
  simp only [List.cons.injEq, true_and] at h
  obtain ⟨-, h⟩ := split_at (nl_not_mem_contigText l) (nl_not_mem_contigText m) h
  simp only [List.cons.injEq, true_and] at h
  have c1 : ∀ l : Layout, ']' ∉ commaText (l.shape.map natText) := fun l => not_mem_commaText (by decide) (by decide) (by
    intro x hx; obtain ⟨n, -, rfl⟩ := List.mem_map.1 hx; exact not_mem_natText (by decide))
  have c2 : ∀ l : Layout, ']' ∉ commaText (l.stride.map intText) := fun l => not_mem_commaText (by decide) (by decide) (by
    intro x hx; obtain ⟨n, -, rfl⟩ := List.mem_map.1 hx; exact not_mem_intText (by decide) (by decide))
  obtain ⟨h1, h⟩ := split_at (c1 l) (c1 m) h
  simp only [List.cons.injEq, true_and] at h
  obtain ⟨h2, h⟩ := split_at (c2 l) (c2 m) h
  simp only [List.cons.injEq, true_and] at h
  have d1 : ∀ l : Layout, ∀ x ∈ l.shape.map natText, x ≠ [] ∧ ',' ∉ x := by
    intro l x hx; obtain ⟨n, -, rfl⟩ := List.mem_map.1 hx; exact ⟨natText_ne_nil _, not_mem_natText (by decide)⟩
  have d2 : ∀ l : Layout, ∀ x ∈ l.stride.map intText, x ≠ [] ∧ ',' ∉ x := by
    intro l x hx; obtain ⟨n, -, rfl⟩ := List.mem_map.1 hx; exact ⟨intText_ne_nil _, not_mem_intText (by decide) (by decide)⟩
  exact ⟨hd, (List.map_injective_iff.2 fun _ _ => natText_inj) (commaText_inj (d1 l) (d1 m) h1),
    (List.map_injective_iff.2 fun _ _ => intText_inj) (commaText_inj (d2 l) (d2 m) h2), intText_inj h⟩

/-! ## The letters -/

theorem preferLoop_pos : ∀ (as : List Axis) (last : Int), 1 ≤ last → (Layout.preferLoop last as = true ↔
    (last :: ((as.filter fun a => a.dim ≠ 1).map Axis.str)).Pairwise (· ≤ ·))
  | [], _, _ => by simp [Layout.preferLoop]
  | a :: as, last, h => by
    unfold Layout.preferLoop
    by_cases hd : a.dim = 1
    · rw [if_neg (by simpa using hd), if_neg (by omega), preferLoop_pos as last h]
      simp [hd]
    · rw [if_pos hd]
      by_cases hs : a.str < last
      · rw [if_pos hs]
        simp [hd]
        intro h1
        omega
      · rw [if_neg hs, if_neg (by omega), preferLoop_pos as a.str (by omega)]
        simp only [List.filter_cons, hd, ne_eq, not_false_eq_true, decide_true, if_true, List.map_cons, List.pairwise_cons,
          List.mem_cons, forall_eq_or_imp]
        constructor
        · rintro ⟨h1, h2⟩
          exact ⟨⟨by omega, fun b hb => le_trans (by omega) (h1 b hb)⟩, h1, h2⟩
        · exact fun h => h.2

theorem zip_axes (as : List Axis) : (as.map Axis.dim).zip (as.map Axis.str) = as.map fun a => (a.dim, a.str) := by
  induction as with
  | nil => rfl
  | cons a as ih => simp [ih]

theorem preferLoop_iff (as : List Axis) : Layout.preferLoop 0 as = true ↔ ColumnLike (as.map Axis.dim) (as.map Axis.str) := by
  unfold ColumnLike
  rw [zip_axes]
  have e : (((as.map fun a => (a.dim, a.str)).filter fun a => a.1 ≠ 1).map Prod.snd) = (as.filter fun a => a.dim ≠ 1).map Axis.str := by
    rw [List.filter_map, List.map_map]; rfl
  rw [e]
  cases as with
  | nil => simp [Layout.preferLoop]
  | cons a as =>
    unfold Layout.preferLoop
    by_cases hd : a.dim = 1
    · rw [if_neg (by simpa using hd), if_pos rfl, preferLoop_pos as 1 le_rfl]
      simp [hd]
      exact ⟨fun h => ⟨h.2, fun b hb hn => h.1 _ b hb hn rfl⟩, fun h => ⟨fun s b hb hn hs => hs ▸ h.2 b hb hn, h.1⟩⟩
    · rw [if_pos hd]
      by_cases hs : a.str = 1
      · rw [if_neg (by omega), if_neg (by omega), preferLoop_pos as _ (by omega)]
        simp [hd, hs]
        exact fun h _ b hb hn => h _ b hb hn rfl
      · have : (if a.str < 0 then false else if (0 : Int) = 0 ∧ a.str ≠ 1 then false else Layout.preferLoop a.str as) = false := by
          split
          · rfl
          · rw [if_pos ⟨rfl, hs⟩]
        rw [this]
        simp [hd, hs]

theorem size_ne_zero {l : Layout} (hz : 0 ∉ l.shape) : l.size ≠ 0 := 
  size_ne_zero_iff.2 fun d hd => Nat.pos_of_ne_zero fun h0 => hz (h0 ▸ hd)

theorem fPrefer_iff (l : Layout) (hz : 0 ∉ l.shape) : l.fPrefer = true ↔ ColumnLike l.shape l.stride := by
  unfold Layout.fPrefer
  by_cases h : l.ndim = 0
  · have : l.axes = [] := List.length_eq_zero_iff.1 h
    rw [if_pos (Or.inl h)]
    simp [ColumnLike, Layout.shape, Layout.stride, this]
  · rw [if_neg (by simp [h, size_ne_zero hz]), preferLoop_iff]
    rfl

theorem cPrefer_iff (l : Layout) (hz : 0 ∉ l.shape) : l.cPrefer = true ↔ ColumnLike l.shape.reverse l.stride.reverse := by
  unfold Layout.cPrefer
  by_cases h : l.ndim = 0
  · have : l.axes = [] := List.length_eq_zero_iff.1 h
    rw [if_pos (Or.inl h)]
    simp [ColumnLike, Layout.shape, Layout.stride, this]
  · rw [if_neg (by simp [h, size_ne_zero hz]), preferLoop_iff]
    simp [Layout.shape, Layout.stride]

/-- `f_prefer` and `c_prefer` of a layout with elements. -/
theorem C107_prefer (l : Layout) (hz : 0 ∉ l.shape) :
    (l.fPrefer = true ↔ ColumnLike l.shape l.stride) ∧ (l.cPrefer = true ↔ ColumnLike l.shape.reverse l.stride.reverse) :=
  ⟨fPrefer_iff l hz, cPrefer_iff l hz⟩

theorem natText_eq (n : Nat) : natText n = (toString n).toList := by
  rw [Nat.toString_eq_repr, Nat.toList_repr]; rfl

theorem intText_eq (i : Int) : intText i = (toString i).toList := by
  unfold intText
  cases i with
  | ofNat n =>
    rw [if_neg (by simp), natText_eq]; rfl
  | negSucc n =>
    rw [if_pos (Int.negSucc_lt_zero n), natText_eq]
    show _ = ("-" ++ toString (n + 1)).toList
    rw [String.toList_append]; rfl

theorem commaText_eq : ∀ xs : List String, commaText (xs.map String.toList) = (", ".intercalate xs).toList
  | [] => rfl
  | [x] => by simp [commaText]
  | x :: y :: r => by
    have := commaText_eq (y :: r)
    simp only [List.map_cons] at this
    simp only [List.map_cons, commaText, this, String.toList_intercalate]
    simp [List.intercalate]

/-- The text, with the word on the order of the elements: `C` and `F` say that every element lies at the offset plus its rank in row-major or
column-major order, `c` and `f` that the rows or columns are in order with possible gaps. -/
theorem C107_text (dyn : Bool) (l : Layout) : ∃ w : String,
    l.debugText dyn = (layoutText dyn w l.shape l.stride l.offset).toList ∧
      OrderWord (∀ idx, InRange idx l.shape → l.addr idx = l.offset + rankC l.shape idx) (ColumnLike l.shape.reverse l.stride.reverse)
        (∀ idx, InRange idx l.shape → l.addr idx = l.offset + rankF l.shape idx) (ColumnLike l.shape l.stride) l.shape w := by
  refine ⟨String.ofList l.contigText, ?_, ?_⟩
  · have e1 : l.ndim = l.shape.length := by simp [Layout.ndim, Layout.shape]
    have e2 := commaText_eq (l.shape.map toString)
    have e3 := commaText_eq (l.stride.map toString)
    rw [List.map_map] at e2 e3
    unfold Layout.debugText sliceText layoutText
    rw [show (String.toList ∘ toString : Nat → List Char) = natText from funext fun n => (natText_eq n).symm] at e2
    rw [show (String.toList ∘ toString : Int → List Char) = intText from funext fun n => (intText_eq n).symm] at e3
    simp only [String.toList_append, ← e2, ← e3, String.toList_ofList, e1, ← natText_eq, ← intText_eq]
    cases dyn <;> simp
  · unfold OrderWord
    by_cases hz : 0 ∈ l.shape
    · left
      refine ⟨hz, ?_⟩
      have : l.size = 0 := prod_eq_zero_of hz
      unfold Layout.contigText
      rw [if_pos this]
    · right
      rw [← C06_c_contig_iff l hz, ← C06_f_contig_iff l hz, ← fPrefer_iff l hz, ← cPrefer_iff l hz]
      unfold Layout.contigText
      rw [if_neg (size_ne_zero hz)]
      simp only [hz, not_false_eq_true, true_and, String.toList_ofList]
      cases l.cContig <;> cases l.cPrefer <;> cases l.fContig <;> cases l.fPrefer <;> simp

/-- A matrix by rows with gaps, whose rank is not fixed. -/
example : String.ofList ((⟨[⟨2, 5⟩, ⟨1, -7⟩, ⟨3, 1⟩], 4⟩ : Layout).debugText true) =
    "3-Dim (dyn), contiguous: c\nshape: [2, 1, 3], stride: [5, -7, 1], offset: 4" := by decide +kernel

/-- A vector is contiguous in both orders, and a scalar has no axes. -/
example : String.ofList ((⟨[⟨10, 1⟩], 0⟩ : Layout).debugText false) = "1-Dim, contiguous: CcFf\nshape: [10], stride: [1], offset: 0" := by
  decide +kernel
example : String.ofList ((⟨[], 3⟩ : Layout).debugText false) = "0-Dim, contiguous: CcFf\nshape: [], stride: [], offset: 3" := by
  decide +kernel
example : String.ofList ((⟨[⟨2, -1⟩, ⟨0, 1⟩], 3⟩ : Layout).debugText false) =
    "2-Dim, contiguous: Empty\nshape: [2, 0], stride: [-1, 1], offset: 3" := by decide +kernel
example : String.ofList ((⟨[⟨2, -1⟩, ⟨12, 2⟩], 3⟩ : Layout).debugText false) =
    "2-Dim, contiguous: Custom\nshape: [2, 12], stride: [-1, 2], offset: 3" := by decide +kernel

end Rstsr
