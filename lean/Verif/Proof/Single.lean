import Verif.Proof.Axes
/-! # Changing, removing and inserting one axis -/
namespace Spec

theorem inRange_set {shape j : List Nat} {a n p : Nat} (ha : a < shape.length)
    (hj : InRange j (shape.set a n)) :
    j.getD a 0 < n ∧ (p < shape.getD a 0 → InRange (j.set a p) shape) := by
  induction shape generalizing j a with
  | nil => simp at ha
  | cons d ds ih =>
    cases j with
    | nil => cases a <;> simp at hj
    | cons i is =>
      cases a with
      | zero => simp only [List.set_cons_zero, inRange_cons] at hj; simpa using ⟨hj.1, fun h => ⟨h, hj.2⟩⟩
      | succ a =>
        simp only [List.set_cons_succ, inRange_cons] at hj
        have := ih (by simpa using ha) hj.2
        refine ⟨by simpa using this.1, fun h => ?_⟩
        simp only [List.set_cons_succ, inRange_cons]
        exact ⟨hj.1, this.2 (by simpa using h)⟩

theorem inRange_set_iff {shape i : List Nat} {a n p : Nat} (hi : InRange i shape) (hp : p < n) :
    InRange (i.set a p) (shape.set a n) := by
  induction shape generalizing i a with
  | nil => rw [inRange_nil_right] at hi; subst hi; simp
  | cons d ds ih =>
    cases i with
    | nil => simp at hi
    | cons i is =>
      cases a with
      | zero => simpa using ⟨hp, hi.2⟩
      | succ a => simpa using ⟨hi.1, ih hi.2⟩

theorem InRange.getD {shape i : List Nat} (h : InRange i shape) {a : Nat} (ha : a < shape.length) :
    i.getD a 0 < shape.getD a 0 := by
  rw [inRange_iff_get] at h
  have h1 : a < i.length := by omega
  simpa [List.getD_eq_getElem?_getD, h1, ha] using h.2 a h1 ha

theorem inRange_insertIdx {shape j : List Nat} {a p : Nat} (ha : a < shape.length)
    (hj : InRange j (shape.eraseIdx a)) (hp : p < shape.getD a 0) :
    InRange (j.insertIdx a p) shape := by
  induction shape generalizing j a with
  | nil => simp at ha
  | cons d ds ih =>
    cases a with
    | zero => simpa using ⟨by simpa using hp, by simpa using hj⟩
    | succ a =>
      cases j with
      | nil => simp at hj
      | cons i is =>
        simp only [List.eraseIdx_cons_succ, inRange_cons] at hj
        simp only [List.insertIdx_succ_cons, inRange_cons]
        exact ⟨hj.1, ih (by simpa using ha) hj.2 (by simpa using hp)⟩

theorem inRange_eraseIdx {shape i : List Nat} {a : Nat} (hi : InRange i shape) :
    InRange (i.eraseIdx a) (shape.eraseIdx a) := by
  induction shape generalizing i a with
  | nil => rw [inRange_nil_right] at hi; subst hi; simp
  | cons d ds ih =>
    cases i with
    | nil => simp at hi
    | cons i is =>
      cases a with
      | zero => simpa using hi.2
      | succ a => simpa using ⟨hi.1, ih hi.2⟩

theorem inRange_insertIdx' {shape i : List Nat} {a d p : Nat} (hi : InRange i shape)
    (ha : a ≤ shape.length) (hp : p < d) : InRange (i.insertIdx a p) (shape.insertIdx a d) := by
  induction shape generalizing i a with
  | nil => rw [inRange_nil_right] at hi; subst hi; simp at ha; subst ha; simpa using hp
  | cons e ds ih =>
    cases i with
    | nil => simp at hi
    | cons i is =>
      cases a with
      | zero => simpa using ⟨hp, hi.1, hi.2⟩
      | succ a =>
        simp only [List.insertIdx_succ_cons, inRange_cons]
        exact ⟨hi.1, ih hi.2 (by simpa using ha)⟩

end Spec

namespace Rstsr
open Spec

theorem dot_set_axes {j : List Nat} {axes : List Axis} {a : Nat} {y : Axis} (ha : a < axes.length)
    (hj : j.length = axes.length) :
    dot j (axes.set a y) = dot j axes + (j.getD a 0 : Nat) * (y.str - (axes.getD a default).str) := by
  induction axes generalizing j a with
  | nil => simp at ha
  | cons x xs ih =>
    cases j with
    | nil => simp at hj
    | cons i is =>
      cases a with
      | zero => simp; ring
      | succ a =>
        have := ih (j := is) (a := a) (by simpa using ha) (by simpa using hj)
        simp only [List.set_cons_succ, dot_cons, this, List.getD_cons_succ]; ring

theorem dot_set_idx {j : List Nat} {axes : List Axis} {a p : Nat} (ha : a < axes.length)
    (hj : j.length = axes.length) :
    dot (j.set a p) axes = dot j axes + ((p : Int) - (j.getD a 0 : Nat)) * (axes.getD a default).str := by
  induction axes generalizing j a with
  | nil => simp at ha
  | cons x xs ih =>
    cases j with
    | nil => simp at hj
    | cons i is =>
      cases a with
      | zero => simp; ring
      | succ a =>
        have := ih (j := is) (a := a) (by simpa using ha) (by simpa using hj)
        simp only [List.set_cons_succ, dot_cons, this, List.getD_cons_succ]; ring

theorem dot_insertIdx {j : List Nat} {axes : List Axis} {a p : Nat} (ha : a < axes.length)
    (hj : j.length + 1 = axes.length) :
    dot (j.insertIdx a p) axes = dot j (axes.eraseIdx a) + p * (axes.getD a default).str := by
  induction axes generalizing j a with
  | nil => simp at ha
  | cons x xs ih =>
    cases a with
    | zero => simp; ring
    | succ a =>
      cases j with
      | nil => simp at hj ha; subst hj; simp at ha
      | cons i is =>
        have := ih (j := is) (a := a) (by simpa using ha) (by simpa using hj)
        simp only [List.insertIdx_succ_cons, dot_cons, this, List.getD_cons_succ, List.eraseIdx_cons_succ]
        ring

theorem dot_insertIdx_both {i : List Nat} {axes : List Axis} {a p : Nat} {y : Axis} (ha : a ≤ axes.length)
    (hi : i.length = axes.length) :
    dot (i.insertIdx a p) (axes.insertIdx a y) = dot i axes + p * y.str := by
  induction axes generalizing i a with
  | nil => simp at ha hi; subst ha; subst hi; simp
  | cons x xs ih =>
    cases i with
    | nil => simp at hi
    | cons i is =>
      cases a with
      | zero => simp; ring
      | succ a =>
        have := ih (i := is) (a := a) (by simpa using ha) (by simpa using hi)
        simp only [List.insertIdx_succ_cons, dot_cons, this]; ring

/-- Least contribution of one axis to a position. -/
def lo1 (a : Axis) : Int := if a.str > 0 then 0 else a.str * ((a.dim : Int) - 1)

@[simp] theorem loSum_cons (a : Axis) (as : List Axis) : loSum (a :: as) = lo1 a + loSum as := rfl
@[simp] theorem loSum_nil : loSum [] = 0 := rfl

theorem loSum_append (as bs : List Axis) : loSum (as ++ bs) = loSum as + loSum bs := by
  induction as with
  | nil => simp
  | cons a as ih => simp [ih]; ring

theorem lo1_nonpos {a : Axis} (h : a.dim ≠ 0) : lo1 a ≤ 0 := by
  unfold lo1
  split
  · exact le_refl _
  · have : (0 : Int) ≤ (a.dim : Int) - 1 := by omega
    nlinarith

theorem lo1_le {a : Axis} {p : Int} (h0 : 0 ≤ p) (h1 : p ≤ (a.dim : Int) - 1) : lo1 a ≤ a.str * p := by
  unfold lo1
  split
  · rename_i h; exact Int.mul_nonneg (by omega) h0
  · rename_i h
    have : 0 ≤ -a.str := by omega
    nlinarith

theorem loSum_set {axes : List Axis} {a : Nat} {y : Axis} (ha : a < axes.length) :
    loSum (axes.set a y) = loSum axes - lo1 (axes.getD a default) + lo1 y := by
  induction axes generalizing a with
  | nil => simp at ha
  | cons x xs ih =>
    cases a with
    | zero => simp; ring
    | succ a =>
      have := ih (a := a) (by simpa using ha)
      simp only [List.set_cons_succ, loSum_cons, this, List.getD_cons_succ]; ring

theorem loSum_eraseIdx {axes : List Axis} {a : Nat} (ha : a < axes.length) :
    loSum (axes.eraseIdx a) = loSum axes - lo1 (axes.getD a default) := by
  induction axes generalizing a with
  | nil => simp at ha
  | cons x xs ih =>
    cases a with
    | zero => simp
    | succ a =>
      have := ih (a := a) (by simpa using ha)
      simp only [List.eraseIdx_cons_succ, loSum_cons, this, List.getD_cons_succ]; ring

theorem loSum_insertIdx {axes : List Axis} {a : Nat} {y : Axis} (ha : a ≤ axes.length) :
    loSum (axes.insertIdx a y) = loSum axes + lo1 y := by
  induction axes generalizing a with
  | nil => simp at ha; subst ha; simp
  | cons x xs ih =>
    cases a with
    | zero => simp; ring
    | succ a =>
      have := ih (a := a) (by simpa using ha)
      simp only [List.insertIdx_succ_cons, loSum_cons, this]; ring

theorem dims_set (axes : List Axis) (a : Nat) (y : Axis) : dims (axes.set a y) = (dims axes).set a y.dim := by
  simp only [dims, List.map_set]

theorem dims_eraseIdx (axes : List Axis) (a : Nat) : dims (axes.eraseIdx a) = (dims axes).eraseIdx a := by
  simp only [dims, List.eraseIdx_map]

theorem dims_insertIdx (axes : List Axis) (a : Nat) (y : Axis) :
    dims (axes.insertIdx a y) = (dims axes).insertIdx a y.dim := by
  simp only [dims]
  induction axes generalizing a with
  | nil => cases a <;> simp
  | cons x xs ih => cases a <;> simp [ih]

theorem dims_getD (axes : List Axis) (a : Nat) : (dims axes).getD a 0 = (axes.getD a default).dim := by
  simp only [dims, List.getD_eq_getElem?_getD, List.getElem?_map]
  cases axes[a]? <;> rfl

theorem getD_mem {axes : List Axis} {a : Nat} (ha : a < axes.length) : axes.getD a default ∈ axes := by
  rw [List.getD_eq_getElem?_getD, List.getElem?_eq_getElem ha]; exact List.getElem_mem ha

theorem forall₂_set {R : Axis → Axis → Prop} (hr : ∀ a, R a a) {axes : List Axis} {a : Nat} {y : Axis}
    (h : a < axes.length → R y (axes.getD a default)) : List.Forall₂ R (axes.set a y) axes := by
  induction axes generalizing a with
  | nil => simp
  | cons x xs ih =>
    cases a with
    | zero =>
      simp only [List.set_cons_zero, List.forall₂_cons]
      exact ⟨by simpa using h, List.forall₂_same.2 fun x _ => hr x⟩
    | succ a =>
      simp only [List.set_cons_succ, List.forall₂_cons]
      exact ⟨hr x, ih fun h' => by simpa using h (by simpa using h')⟩

/-- Acceptance without the empty-list special case. -/
theorem accepted_of_pos {l : Layout} (h : 0 ∈ dims l.axes ∨ (0 ≤ l.offset + loSum l.axes ∧ NoOverlap l.axes)) :
    Accepted l := accepted_iff.2 (Or.inr h)

/-- `Accepted` without the special treatment of rank 0; the two agree when the offset is not negative. -/
def Good (l : Layout) : Prop := 0 ∈ dims l.axes ∨ (0 ≤ l.offset + loSum l.axes ∧ NoOverlap l.axes)

theorem Good.accepted {l : Layout} (h : Good l) : Accepted l := accepted_of_pos h

theorem Accepted.cases {l : Layout} (h : Accepted l) (hz : 0 ∉ dims l.axes) (hne : l.axes ≠ []) :
    0 ≤ l.offset + loSum l.axes ∧ NoOverlap l.axes := by
  rcases accepted_iff.1 h with h | h | h
  · exact absurd h hne
  · exact absurd h hz
  · exact h

theorem noOverlap_nil : NoOverlap [] := ⟨[], by simp, trivial⟩

theorem Accepted.noOverlap {l : Layout} (h : Accepted l) (hz : 0 ∉ dims l.axes) : NoOverlap l.axes := by
  rcases accepted_iff.1 h with h | h | h
  · rw [h]; exact noOverlap_nil
  · exact absurd h hz
  · exact h.2

theorem Accepted.lo {l : Layout} (h : Accepted l) (ho : 0 ≤ l.offset) (hz : 0 ∉ dims l.axes) :
    0 ≤ l.offset + loSum l.axes := by
  rcases accepted_iff.1 h with h | h | h
  · rw [h]; simpa using ho
  · exact absurd h hz
  · exact h.1

theorem Accepted.good {l : Layout} (h : Accepted l) (ho : 0 ≤ l.offset) : Good l := by
  by_cases hz : 0 ∈ dims l.axes
  · exact Or.inl hz
  · exact Or.inr ⟨h.lo ho hz, h.noOverlap hz⟩

theorem Good.perm {A B : List Axis} {off : Int} (hp : A.Perm B) (h : Good ⟨B, off⟩) : Good ⟨A, off⟩ := by
  rcases h with h | ⟨h1, h2⟩
  · exact Or.inl ((hp.map _).mem_iff.2 h)
  · exact Or.inr ⟨by rw [loSum_perm hp]; exact h1, h2.perm hp⟩

/-- Narrowing one axis to `n` positions `start, start+step, …` inside it keeps the layout acceptable. -/
theorem narrow_good {l : Layout} (h : Accepted l) {a n : Nat} {start step : Int}
    (ha : a < l.axes.length) (hs : step ≠ 0)
    (hn : n ≠ 0 → 0 ≤ start ∧ start ≤ ((l.axes.getD a default).dim : Int) - 1 ∧
      0 ≤ start + ((n : Int) - 1) * step ∧
      start + ((n : Int) - 1) * step ≤ ((l.axes.getD a default).dim : Int) - 1) :
    Good ⟨l.axes.set a ⟨n, (l.axes.getD a default).str * step⟩,
      l.offset + (l.axes.getD a default).str * start⟩ := by
  generalize hx : l.axes.getD a default = x at *
  unfold Good
  simp only [dims_set]
  by_cases hz : 0 ∈ (dims l.axes).set a n
  · exact Or.inl hz
  right
  have hn0 : n ≠ 0 := by
    rintro rfl
    exact hz (List.mem_iff_getElem?.2 ⟨a, by simp [ha]⟩)
  obtain ⟨h1, h2, h3, h4⟩ := hn hn0
  have hz0 : 0 ∉ dims l.axes := by
    intro hmem
    obtain ⟨k, hk⟩ := List.mem_iff_getElem?.1 hmem
    by_cases hka : k = a
    · subst hka
      have : (dims l.axes).getD k 0 = 0 := by simp [List.getD_eq_getElem?_getD, hk]
      rw [dims_getD, hx] at this
      omega
    · exact hz (List.mem_iff_getElem?.2 ⟨k, by rw [List.getElem?_set_ne (Ne.symm hka)]; exact hk⟩)
  obtain ⟨g1, g2⟩ := h.cases hz0 (by intro e; rw [e] at ha; simp at ha)
  constructor
  · rw [loSum_set ha, hx]
    have e1 : lo1 x ≤ x.str * start + lo1 ⟨n, x.str * step⟩ := by
      have k1 := lo1_le (a := x) h1 h2
      have k2 := lo1_le (a := x) h3 h4
      show lo1 x ≤ x.str * start + (if x.str * step > 0 then 0 else x.str * step * ((n : Int) - 1))
      split
      · simpa using k1
      · have e2 : x.str * start + x.str * step * ((n : Int) - 1) = x.str * (start + ((n : Int) - 1) * step) := by
          ring
        rw [e2]; exact k2
    omega
  · apply NoOverlap.subAxes _ g2
    apply forall₂_set SubAxis.refl
    intro _
    rw [hx]
    intro hess
    simp only [Axis.ess, Bool.and_eq_true, decide_eq_true_eq] at hess ⊢
    have hs0 : x.str ≠ 0 := by rintro e; rw [e] at hess; simp at hess
    have hspan : ((n - 1 : Nat) : Int) * step.natAbs ≤ (x.dim : Int) - 1 := by
      have hcast : ((n - 1 : Nat) : Int) = (n : Int) - 1 := by omega
      rw [hcast]
      rcases Int.natAbs_eq step with e | e
      · rw [← e]; omega
      · have : (step.natAbs : Int) = -step := by omega
        rw [this]; have := h1; nlinarith
    have hstep : 1 ≤ step.natAbs := by omega
    have hspan' : (n - 1) * step.natAbs ≤ x.dim - 1 := by
      have : (((n - 1) * step.natAbs : Nat) : Int) ≤ ((x.dim - 1 : Nat) : Int) := by
        rw [Nat.cast_mul]; omega
      exact_mod_cast this
    refine ⟨⟨?_, hs0⟩, ?_, ?_⟩
    · have : 1 ≤ (n - 1) * step.natAbs := Nat.mul_pos (by omega) (by omega)
      omega
    · rw [Int.natAbs_mul]; exact Nat.le_mul_of_pos_right _ (by omega)
    · rw [Int.natAbs_mul]
      calc (n - 1) * (x.str.natAbs * step.natAbs) = (n - 1) * step.natAbs * x.str.natAbs := by ring
        _ ≤ (x.dim - 1) * x.str.natAbs := Nat.mul_le_mul_right _ hspan'

theorem erase_good {l : Layout} (h : Accepted l) {a : Nat} {p : Int} (ha : a < l.axes.length)
    (h0 : 0 ≤ p) (h1 : p < (l.axes.getD a default).dim) :
    Good ⟨l.axes.eraseIdx a, l.offset + (l.axes.getD a default).str * p⟩ := by
  unfold Good
  by_cases hz : 0 ∈ dims (l.axes.eraseIdx a)
  · exact Or.inl hz
  right
  have hz0 : 0 ∉ dims l.axes := by
    intro hmem
    obtain ⟨x, hx, hx0⟩ := List.mem_map.1 hmem
    obtain ⟨k, hk⟩ := List.mem_iff_getElem?.1 hx
    by_cases hka : k = a
    · subst hka
      simp only [List.getD_eq_getElem?_getD, hk, Option.getD_some] at h1
      omega
    · exact hz (List.mem_map.2 ⟨x, by
        rw [List.mem_eraseIdx_iff_getElem?]; exact ⟨k, hka, hk⟩, hx0⟩)
  obtain ⟨g1, g2⟩ := h.cases hz0 (by intro e; rw [e] at ha; simp at ha)
  refine ⟨?_, g2.sublist (List.eraseIdx_sublist ..)⟩
  simp only
  rw [loSum_eraseIdx ha]
  have := lo1_le (a := l.axes.getD a default) h0 (by omega)
  omega

theorem insert_good {l : Layout} (h : Good l) {a : Nat} {s : Int}
    (ha : a ≤ l.axes.length) : Good ⟨l.axes.insertIdx a ⟨1, s⟩, l.offset⟩ := by
  unfold Good
  have hp := List.perm_insertIdx (⟨1, s⟩ : Axis) l.axes ha
  by_cases hz : 0 ∈ dims l.axes
  · left
    simp only
    rw [dims, (hp.map _).mem_iff]
    exact List.mem_cons_of_mem _ hz
  · right
    obtain ⟨g1, g2⟩ := h.resolve_left hz
    simp only
    refine ⟨?_, ?_⟩
    · rw [loSum_insertIdx ha]; simp [lo1]; exact g1
    · refine NoOverlap.perm hp ?_
      obtain ⟨L, hL, hs⟩ := g2
      exact ⟨L, by simpa [Axis.ess] using hL, hs⟩

end Rstsr
