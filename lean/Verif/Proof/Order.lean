import Verif.Proof.Reshape
/-! # Lemmas about the lists of all indices in an order -/
namespace Rstsr
open Spec

theorem mem_allC {shape idx : List Nat} : idx ∈ allC shape ↔ InRange idx shape := by
  induction shape generalizing idx with
  | nil => simp [allC, inRange_nil_right]
  | cons d ds ih =>
    simp only [allC, List.mem_flatMap, List.mem_range, List.mem_map]
    constructor
    · rintro ⟨i, hi, is, his, rfl⟩
      exact ⟨hi, ih.1 his⟩
    · intro h
      cases idx with
      | nil => simp at h
      | cons i is => exact ⟨i, h.1, is, ih.2 h.2, rfl⟩

theorem mem_allF {shape idx : List Nat} : idx ∈ allF shape ↔ InRange idx shape := by
  induction shape generalizing idx with
  | nil => simp [allF, inRange_nil_right]
  | cons d ds ih =>
    simp only [allF, List.mem_flatMap, List.mem_range, List.mem_map]
    constructor
    · rintro ⟨is, his, i, hi, rfl⟩
      exact ⟨hi, ih.1 his⟩
    · intro h
      cases idx with
      | nil => simp at h
      | cons i is => exact ⟨is, ih.2 h.2, i, h.1, rfl⟩

theorem mem_all {o : Order} {shape idx : List Nat} : idx ∈ all o shape ↔ InRange idx shape := by
  cases o
  · exact mem_allC
  · exact mem_allF

theorem range_mul_flatMap (a b : Nat) :
    ((List.range a).flatMap fun i => (List.range b).map fun j => i * b + j) = List.range (a * b) := by
  induction a with
  | zero => simp
  | succ a ih =>
    rw [List.range_succ, List.flatMap_append, ih, Nat.succ_mul, List.range_add]
    simp

theorem map_rank_allC (shape : List Nat) : (allC shape).map (rankC shape) = List.range shape.prod := by
  induction shape with
  | nil => rfl
  | cons d ds ih =>
    simp only [allC, List.map_flatMap, List.map_map, List.prod_cons]
    rw [← range_mul_flatMap]
    congr 1
    funext i
    rw [← ih, List.map_map]
    rfl

theorem map_rank_allF (shape : List Nat) : (allF shape).map (rankF shape) = List.range shape.prod := by
  induction shape with
  | nil => rfl
  | cons d ds ih =>
    simp only [allF, List.map_flatMap, List.map_map, List.prod_cons]
    rw [Nat.mul_comm, ← range_mul_flatMap, ← ih, List.flatMap_map]
    congr 1
    funext is
    apply List.map_congr_left
    intro i _
    simp [Nat.mul_comm, Nat.add_comm]

theorem map_rank_all (o : Order) (shape : List Nat) : (all o shape).map (rank o shape) = List.range shape.prod := by
  cases o
  · exact map_rank_allC shape
  · exact map_rank_allF shape

theorem length_all (o : Order) (shape : List Nat) : (all o shape).length = shape.prod := by
  have := congrArg List.length (map_rank_all o shape)
  simpa using this

theorem rank_all_getElem {o : Order} {shape : List Nat} {k : Nat} (h : k < (all o shape).length) :
    rank o shape (all o shape)[k] = k := by
  have h2 : k < ((all o shape).map (rank o shape)).length := by simpa using h
  have : ((all o shape).map (rank o shape))[k] = k := by
    simp [map_rank_all]
  simpa using this

theorem nodup_all (o : Order) (shape : List Nat) : (all o shape).Nodup := by
  apply List.Nodup.of_map (rank o shape)
  rw [map_rank_all]
  exact List.nodup_range

theorem all_getElem?_rank {o : Order} {shape idx : List Nat} (h : InRange idx shape) :
    (all o shape)[rank o shape idx]? = some idx := by
  have hl : rank o shape idx < (all o shape).length := by rw [length_all]; exact rank_lt h
  rw [List.getElem?_eq_getElem hl]
  congr 1
  exact rank_inj (mem_all.1 (List.getElem_mem hl)) h (rank_all_getElem hl)

/-- Two enumerations of the same length agree when elements of equal rank agree. -/
theorem all_map_congr {β : Type} {o o' : Order} {s t : List Nat} {f g : List Nat → β} (hp : s.prod = t.prod)
    (h : ∀ i j, InRange i s → InRange j t → rank o s i = rank o' t j → f i = g j) :
    (all o s).map f = (all o' t).map g := by
  apply List.ext_getElem
  · simp [length_all, hp]
  · intro k h1 h2
    simp only [List.length_map] at h1 h2
    simp only [List.getElem_map]
    exact h _ _ (mem_all.1 (List.getElem_mem h1)) (mem_all.1 (List.getElem_mem h2))
      (by rw [rank_all_getElem, rank_all_getElem])

end Rstsr
