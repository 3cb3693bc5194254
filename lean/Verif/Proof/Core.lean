import Verif.Proof.Bounds
import Verif.Proof.Strides
import Verif.Proof.Rank
import Verif.Model.Tensor
/-! # Lemmas about `Layout::new`, `index_f`, `index_uncheck`, equality, axis checks -/
namespace Rstsr
open Spec

theorem newAxes_ok {axes : List Axis} {off : Int} {l : Layout} :
    Layout.newAxes axes off = .ok l ↔ l = ⟨axes, off⟩ ∧ (∃ b, l.boundsIndex = .ok b) ∧
      l.checkStrides true = .ok () := by
  unfold Layout.newAxes
  constructor
  · intro h
    obtain ⟨b, hb, h⟩ := bind_ok.1 h
    obtain ⟨u, hu, h⟩ := bind_ok.1 h
    cases h
    exact ⟨rfl, ⟨b, hb⟩, hu⟩
  · rintro ⟨rfl, ⟨b, hb⟩, hu⟩
    simp [hb, hu]

theorem new_ok {shape : List Nat} {stride : List Int} {off : Int} {l : Layout} :
    Layout.new shape stride off = .ok l ↔ shape.length = stride.length ∧ l.shape = shape ∧
      l.stride = stride ∧ l.offset = off ∧ (∃ b, l.boundsIndex = .ok b) ∧
      l.checkStrides true = .ok () := by
  unfold Layout.new
  constructor
  · intro h
    split at h
    · rename_i hl
      rw [newAxes_ok] at h
      obtain ⟨rfl, h1, h2⟩ := h
      exact ⟨hl, mkAxes_dims hl, mkAxes_str hl, rfl, h1, h2⟩
    · split at h
      · cases h
      · split at h
        · cases h
        · split at h <;> cases h
  · rintro ⟨hl, rfl, rfl, rfl, h1, h2⟩
    rw [if_pos hl, newAxes_ok]
    refine ⟨?_, h1, h2⟩
    simp only [Layout.shape, Layout.stride, mkAxes_shape_stride]

theorem size_ne_zero_iff {l : Layout} : l.size ≠ 0 ↔ ∀ d ∈ dims l.axes, 0 < d := prod_ne_zero_iff

theorem size_ne_zero_of_inRange {l : Layout} {idx : List Nat} (h : InRange idx l.shape) : l.size ≠ 0 :=
  h.prod_pos.ne'

theorem noOverlap_of_checkStrides {l : Layout} (h : l.checkStrides true = .ok ()) (hs : l.size ≠ 0) :
    NoOverlap l.axes := by
  rcases checkStrides_iff.1 h with h | h
  · exact absurd h hs
  · exact h

theorem diffs_get {is js : List Nat} {as : List Axis} (h1 : is.length = as.length)
    (h2 : js.length = as.length) {k : Nat} (hk : k < as.length) :
    (as[k], ((is[k]'(by omega) : Nat) : Int) - (js[k]'(by omega) : Nat)) ∈ diffs is js as := by
  induction as generalizing is js k with
  | nil => simp at hk
  | cons a as ih =>
    cases is with
    | nil => simp at h1
    | cons i is =>
      cases js with
      | nil => simp at h2
      | cons j js =>
        cases k with
        | zero => simp [diffs]
        | succ k =>
          simp only [diffs, List.getElem_cons_succ, List.mem_cons]
          exact Or.inr (ih (by simpa using h1) (by simpa using h2) (by simpa using hk))

/-- The no-alias law for every layout that passes the stride check. -/
theorem checkStrides_inj {l : Layout} (hc : l.checkStrides true = .ok ()) {i j : List Nat}
    (hi : InRange i l.shape) (hj : InRange j l.shape) (h : l.addr i = l.addr j)
    (k : Nat) (s : Int) (hs : l.stride[k]? = some s) (h0 : s ≠ 0) : i[k]? = j[k]? := by
  have hno := noOverlap_of_checkStrides hc (size_ne_zero_of_inRange hi)
  have l1 : i.length = l.axes.length := by simpa [Layout.shape] using hi.length_eq
  have l2 : j.length = l.axes.length := by simpa [Layout.shape] using hj.length_eq
  rw [addr_eq, addr_eq] at h
  obtain ⟨hk, hk'⟩ := List.getElem?_eq_some_iff.1 hs
  have hk2 : k < l.axes.length := by simpa [Layout.stride] using hk
  have := noOverlap_inj hno hi hj (by linarith) _ (diffs_get l1 l2 hk2)
    (by simp [Layout.stride] at hk'; simpa [hk'] using h0)
  rw [List.getElem?_eq_getElem (by omega), List.getElem?_eq_getElem (by omega)]
  simp only at this
  congr 1
  omega

/-! ## `index_f` -/

theorem indexLoop_ok {pos : Int} {index : List Int} {axes : List Axis} {p : Int}
    (hl : index.length = axes.length) :
    Layout.indexLoop pos index axes = .ok p ↔
      ∃ idx, List.Forall₂ (fun (i : Int) (nd : Nat × Nat) =>
          ((nd.1 : Int) = i ∨ i < 0 ∧ (nd.1 : Int) = i + nd.2)) index (idx.zip (dims axes)) ∧
        InRange idx (dims axes) ∧ p = pos + dot idx axes := by
  induction index generalizing pos axes with
  | nil =>
    have : axes = [] := by cases axes <;> simp_all
    subst this
    simp only [Layout.indexLoop, List.map_nil, inRange_nil_right, List.zip_nil_right]
    constructor
    · intro h; cases h; exact ⟨[], .nil, rfl, by simp⟩
    · rintro ⟨idx, _, rfl, rfl⟩; simp
  | cons i is ih =>
    cases axes with
    | nil => simp at hl
    | cons a as =>
      unfold Layout.indexLoop
      dsimp only
      generalize hw : (if i < 0 then i + (a.dim : Int) else i) = w
      split
      · rename_i hr
        rw [ih (by simpa using hl)]
        have hwn : ((w.toNat : Nat) : Int) = w := by omega
        constructor
        · rintro ⟨idx, h1, h2, h3⟩
          refine ⟨w.toNat :: idx, ?_, ?_, ?_⟩
          · simp only [List.map_cons, List.zip_cons_cons]
            refine .cons ?_ h1
            show ((w.toNat : Nat) : Int) = i ∨ i < 0 ∧ ((w.toNat : Nat) : Int) = i + a.dim
            rw [hwn]
            split at hw
            · rename_i hneg; exact Or.inr ⟨hneg, hw.symm⟩
            · exact Or.inl hw.symm
          · exact ⟨(by omega : w.toNat < a.dim), h2⟩
          · rw [dot_cons, hwn, h3]; ring
        · rintro ⟨idx, h1, h2, h3⟩
          cases idx with
          | nil => simp at h2
          | cons n ns =>
            simp only [List.map_cons, List.zip_cons_cons, List.forall₂_cons] at h1
            simp only [List.map_cons, inRange_cons] at h2
            refine ⟨ns, h1.2, h2.2, ?_⟩
            have : (n : Int) = w := by
              have := h1.1
              split at hw <;> omega
            rw [h3, dot_cons, this]; ring
      · rename_i hr
        constructor
        · intro h; cases h
        · rintro ⟨idx, h1, h2, h3⟩
          exfalso
          cases idx with
          | nil => simp at h2
          | cons n ns =>
            simp only [List.map_cons, List.zip_cons_cons, List.forall₂_cons] at h1
            simp only [List.map_cons, inRange_cons] at h2
            apply hr
            have := h1.1
            split at hw <;> omega

theorem wraps_iff {index : List Int} {shape idx : List Nat} (hr : InRange idx shape) :
    Wraps index shape idx ↔ List.Forall₂ (fun (i : Int) (nd : Nat × Nat) =>
          ((nd.1 : Int) = i ∨ i < 0 ∧ (nd.1 : Int) = i + nd.2)) index (idx.zip shape) := by
  induction shape generalizing index idx with
  | nil =>
    rw [inRange_nil_right] at hr; subst hr
    cases index <;> simp [Wraps]
  | cons d ds ih =>
    cases idx with
    | nil => simp at hr
    | cons n ns =>
      cases index with
      | nil => simp [Wraps]
      | cons i is =>
        simp only [Wraps, List.zip_cons_cons, List.forall₂_cons, ih hr.2]
        have : ((n : Int) = if i < 0 then i + (d : Int) else i) ↔
            ((n : Int) = i ∨ i < 0 ∧ (n : Int) = i + d) := by
          split <;> omega
        rw [this]

theorem _root_.Spec.Wraps.length_eq {index : List Int} {shape idx : List Nat} (h : Wraps index shape idx) :
    index.length = shape.length ∧ idx.length = shape.length := by
  induction index generalizing shape idx with
  | nil => cases shape <;> cases idx <;> simp_all [Wraps]
  | cons i is ih =>
    cases shape with
    | nil => simp [Wraps] at h
    | cons d ds =>
      cases idx with
      | nil => simp [Wraps] at h
      | cons n ns => have := ih h.2; simp [this]

theorem exists_wraps_iff {index : List Int} {shape : List Nat} :
    (∃ idx, Wraps index shape idx ∧ InRange idx shape) ↔
      List.Forall₂ (fun (i : Int) (d : Nat) => -(d : Int) ≤ i ∧ i < d) index shape := by
  induction index generalizing shape with
  | nil =>
    cases shape with
    | nil => exact ⟨fun _ => .nil, fun _ => ⟨[], trivial, trivial⟩⟩
    | cons d ds => simp [Wraps]
  | cons i is ih =>
    cases shape with
    | nil => simp [Wraps]
    | cons d ds =>
      rw [List.forall₂_cons, ← ih]
      constructor
      · rintro ⟨_ | ⟨n, ns⟩, h, h'⟩
        · simp at h'
        · have h1 := h.1
          have h2 := h'.1
          refine ⟨?_, ns, h.2, h'.2⟩
          split at h1 <;> omega
      · rintro ⟨hb, ns, h, h'⟩
        refine ⟨(if i < 0 then i + (d : Int) else i).toNat :: ns, ⟨?_, h⟩, ⟨?_, h'⟩⟩
        · split <;> omega
        · split <;> omega

theorem indexLoop_error {pos : Int} {index : List Int} {axes : List Axis} {e : Err}
    (h : Layout.indexLoop pos index axes = .error e) : e = .indexError := by
  induction index generalizing pos axes with
  | nil => cases axes <;> simp [Layout.indexLoop] at h
  | cons i is ih =>
    cases axes with
    | nil => simp [Layout.indexLoop] at h
    | cons a as =>
      unfold Layout.indexLoop at h
      dsimp only at h
      split at h <;> split at h <;> first | exact ih h | (cases h; rfl)

theorem foldl_dot (axes : List Axis) (idx : List Nat) (pos : Int) :
    (axes.zip idx).foldl (fun pos p => pos + p.1.str * (p.2 : Int)) pos = pos + dot idx axes := by
  induction axes generalizing idx pos with
  | nil => simp
  | cons a as ih =>
    cases idx with
    | nil => simp
    | cons i is => simp only [List.zip_cons_cons, List.foldl_cons, ih, dot_cons]; ring

theorem indexUncheck_eq {l : Layout} {idx : List Nat} (h : idx.length = l.ndim) :
    l.indexUncheck idx = .ok (l.addr idx) := by
  rw [addr_eq]
  obtain ⟨axes, off⟩ := l
  simp only [Layout.ndim] at h
  unfold Layout.indexUncheck
  match axes, idx, h with
  | [], [], _ => simp
  | [a], [i], _ => simp [mul_comm]
  | [a, b], [i, j], _ => simp [mul_comm, add_assoc]
  | [a, b, c], [i, j, k], _ => simp [mul_comm, add_assoc]
  | [a, b, c, d], [i, j, k, m], _ => simp [mul_comm, add_assoc]
  | a :: b :: c :: d :: e :: as, idx, _ => simp only [foldl_dot]

/-! ## Equality of layouts -/

theorem eqLoop_iff {as bs : List Axis} (h : as.length = bs.length) (hpos : ∀ d ∈ dims as, 0 < d) :
    Layout.eqLoop as bs = true ↔ dims as = dims bs ∧ ∀ idx, InRange idx (dims as) →
      dot idx as = dot idx bs := by
  induction as generalizing bs with
  | nil => cases bs <;> simp_all [Layout.eqLoop]
  | cons a as ih =>
    cases bs with
    | nil => simp at h
    | cons b bs =>
      have hp' : ∀ d ∈ dims as, 0 < d := fun d hd => hpos d (by simp at hd ⊢; exact Or.inr hd)
      have ha : 0 < a.dim := hpos a.dim (by simp)
      unfold Layout.eqLoop
      simp only [List.map_cons, List.cons.injEq]
      split
      · rename_i h1; simp [h1]
      · rename_i h1
        have h1 : a.dim = b.dim := by omega
        split
        · rename_i h2
          simp only [Bool.false_eq_true, false_iff]
          rintro ⟨_, h3⟩
          have := h3 (1 :: List.replicate (dims as).length 0) ⟨by omega, inRange_zeros hp'⟩
          simp [dot_zeros] at this
          exact h2.2.2 this
        · rename_i h2
          rw [ih (by simpa using h) hp']
          constructor
          · rintro ⟨h3, h4⟩
            refine ⟨⟨h1, h3⟩, ?_⟩
            rintro (_ | ⟨i, is⟩) hin
            · simp at hin
            · rw [dot_cons, dot_cons, h4 is hin.2]
              have : (i : Int) * a.str = i * b.str := by
                by_cases h5 : a.dim = 1
                · have : i = 0 := by have := hin.1; omega
                  simp [this]
                · have : a.str = b.str := by
                    by_contra h6; exact h2 ⟨h5, by omega, h6⟩
                  rw [this]
              rw [this]
          · rintro ⟨⟨_, h3⟩, h4⟩
            refine ⟨h3, fun idx hin => ?_⟩
            have := h4 (0 :: idx) ⟨ha, hin⟩
            simpa using this

theorem eqLoop_dims {as bs : List Axis} (h : as.length = bs.length)
    (he : Layout.eqLoop as bs = true) : dims as = dims bs := by
  induction as generalizing bs with
  | nil => cases bs <;> simp_all
  | cons a as ih =>
    cases bs with
    | nil => simp at h
    | cons b bs =>
      unfold Layout.eqLoop at he
      split at he
      · cases he
      · split at he
        · cases he
        · rename_i h1 _
          simp only [List.map_cons]
          have := ih (by simpa using h) he
          simp only [dims] at this
          rw [this, not_not.1 h1]

end Rstsr
