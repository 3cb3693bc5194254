import Verif.Proof.Index
/-! # Lemmas about `boundsIndex` -/
namespace Rstsr
open Spec

/-- Smallest value of `dot` over the in-range indices. -/
def loSum : List Axis → Int
  | [] => 0
  | a :: as => (if a.str > 0 then 0 else a.str * ((a.dim : Int) - 1)) + loSum as

/-- Largest value of `dot` over the in-range indices. -/
def hiSum : List Axis → Int
  | [] => 0
  | a :: as => (if a.str > 0 then a.str * ((a.dim : Int) - 1) else 0) + hiSum as

theorem boundsLoop_eq_none {axes : List Axis} {mn mx : Int} :
    Layout.boundsLoop mn mx axes = none ↔ 0 ∈ dims axes := by
  induction axes generalizing mn mx with
  | nil => simp [Layout.boundsLoop]
  | cons a as ih =>
    unfold Layout.boundsLoop
    by_cases h : a.dim = 0
    · simp [h]
    · have h' : (0 : Nat) ≠ a.dim := fun e => h e.symm
      split
      · contradiction
      · split <;> simp [ih, h']

theorem boundsLoop_eq_some {axes : List Axis} {mn mx : Int} (h : 0 ∉ dims axes) :
    Layout.boundsLoop mn mx axes = some (mn + loSum axes, mx + hiSum axes) := by
  induction axes generalizing mn mx with
  | nil => simp [Layout.boundsLoop, loSum, hiSum]
  | cons a as ih =>
    have h0 : a.dim ≠ 0 := by rintro e; apply h; simp [e]
    have h' : 0 ∉ dims as := by intro e; apply h; simp at e ⊢; exact Or.inr e
    unfold Layout.boundsLoop
    rw [if_neg h0]
    split
    · rename_i hs
      rw [ih h']; simp only [loSum, hiSum, if_pos hs]; congr 2 <;> ring
    · rename_i hs
      rw [ih h']; simp only [loSum, hiSum, if_neg hs]; congr 2 <;> ring

theorem dot_bounds {axes : List Axis} {idx : List Nat} (h : InRange idx (dims axes)) :
    loSum axes ≤ dot idx axes ∧ dot idx axes ≤ hiSum axes := by
  induction axes generalizing idx with
  | nil => simp [loSum, hiSum]
  | cons a as ih =>
    cases idx with
    | nil => simp at h
    | cons i is =>
      simp only [List.map_cons, inRange_cons] at h
      have := ih h.2
      have hi : (i : Int) ≤ (a.dim : Int) - 1 := by omega
      have hi0 : (0 : Int) ≤ i := by omega
      simp only [loSum, hiSum, dot_cons]
      split <;> constructor <;> nlinarith

/-- Index attaining the minimum. -/
def loIdx : List Axis → List Nat
  | [] => []
  | a :: as => (if a.str > 0 then 0 else a.dim - 1) :: loIdx as

/-- Index attaining the maximum. -/
def hiIdx : List Axis → List Nat
  | [] => []
  | a :: as => (if a.str > 0 then a.dim - 1 else 0) :: hiIdx as

theorem loIdx_spec {axes : List Axis} (h : 0 ∉ dims axes) :
    InRange (loIdx axes) (dims axes) ∧ dot (loIdx axes) axes = loSum axes := by
  induction axes with
  | nil => simp [loIdx, loSum]
  | cons a as ih =>
    have h0 : a.dim ≠ 0 := by rintro e; apply h; simp [e]
    have h' : 0 ∉ dims as := by intro e; apply h; simp at e ⊢; exact Or.inr e
    obtain ⟨h1, h2⟩ := ih h'
    simp only [loIdx, loSum, List.map_cons, inRange_cons, dot_cons, h1, h2, and_true]
    split
    · exact ⟨by omega, by simp⟩
    · refine ⟨by omega, ?_⟩
      rw [Nat.cast_sub (by omega)]; push_cast; ring

theorem hiIdx_spec {axes : List Axis} (h : 0 ∉ dims axes) :
    InRange (hiIdx axes) (dims axes) ∧ dot (hiIdx axes) axes = hiSum axes := by
  induction axes with
  | nil => simp [hiIdx, hiSum]
  | cons a as ih =>
    have h0 : a.dim ≠ 0 := by rintro e; apply h; simp [e]
    have h' : 0 ∉ dims as := by intro e; apply h; simp at e ⊢; exact Or.inr e
    obtain ⟨h1, h2⟩ := ih h'
    simp only [hiIdx, hiSum, List.map_cons, inRange_cons, dot_cons, h1, h2, and_true]
    split
    · refine ⟨by omega, ?_⟩
      rw [Nat.cast_sub (by omega)]; push_cast; ring
    · exact ⟨by omega, by simp⟩

theorem loSum_nonpos {axes : List Axis} (h : 0 ∉ dims axes) : loSum axes ≤ 0 := by
  have h1 := inRange_zeros (shape := dims axes) (fun d hd => by
    refine Nat.pos_of_ne_zero ?_; rintro rfl; exact h hd)
  have := (dot_bounds h1).1
  simpa [dot_zeros] using this

/-- `boundsIndex` without zero-length axes, for a layout with non-negative offset. -/
theorem boundsIndex_of_pos {l : Layout} (h : 0 ∉ l.shape) (ho : 0 ≤ l.offset) :
    l.boundsIndex = if 0 ≤ l.offset + loSum l.axes
      then .ok (l.offset + loSum l.axes, l.offset + hiSum l.axes + 1)
      else .error .valueOutOfRange := by
  unfold Layout.boundsIndex
  split
  · rename_i h0
    have : l.axes = [] := List.length_eq_zero_iff.1 h0
    simp [this, loSum, hiSum, ho]
  · rw [boundsLoop_eq_some h]

theorem boundsIndex_of_zero {l : Layout} (h : 0 ∈ l.shape) :
    l.boundsIndex = .ok (l.offset, l.offset) := by
  unfold Layout.boundsIndex
  split
  · rename_i h0
    have : l.axes = [] := List.length_eq_zero_iff.1 h0
    simp [Layout.shape, this] at h
  · rw [boundsLoop_eq_none.2 h]

/-- A successful `boundsIndex` bounds every in-range index (no hypothesis on the offset needed). -/
theorem boundsIndex_sound {l : Layout} {mn mx : Int} (h : l.boundsIndex = .ok (mn, mx))
    {idx : List Nat} (hi : InRange idx l.shape) : mn ≤ l.addr idx ∧ l.addr idx < mx := by
  have hz : 0 ∉ dims l.axes := fun e => absurd (hi.pos 0 e) (by simp)
  have hb := dot_bounds hi
  rw [addr_eq]
  unfold Layout.boundsIndex at h
  split at h
  · rename_i h0
    have : l.axes = [] := List.length_eq_zero_iff.1 h0
    cases h
    simp [this]
  · rw [boundsLoop_eq_some hz] at h
    simp only at h
    split at h
    · cases h; constructor <;> omega
    · cases h

end Rstsr
