import Verif.Proof.Elementwise
import Verif.Thm.Views
import Verif.Spec.Reduce
/-! # The parts of a tensor along a set of axes -/
namespace Rstsr
open Spec

theorem getD_idxOf {S : List Nat} {f : Nat → Nat} {a : Nat} (h : a ∈ S) : (S.map f).getD (S.idxOf a) 0 = f a := by
  have hlt := List.idxOf_lt_length_of_mem h
  rw [List.getD_eq_getElem?_getD, List.getElem?_map, List.getElem?_eq_getElem hlt, List.getElem_idxOf hlt]
  rfl

theorem mem_otherAxes {n : Nat} {S : List Nat} {a : Nat} : a ∈ otherAxes n S ↔ a < n ∧ a ∉ S := by
  simp [otherAxes]

theorem mergeIndex_take {n : Nat} {S k : List Nat} (hS : ∀ a ∈ S, a < n) (hk : k.length = n) :
    mergeIndex n S (takeAxes S k) (takeAxes (otherAxes n S) k) = k := by
  have e1 : takeAxes S k = pickIdx k S := takeAxes_eq (by rw [hk]; exact hS)
  have e2 : takeAxes (otherAxes n S) k = pickIdx k (otherAxes n S) :=
    takeAxes_eq (by rw [hk]; intro a ha; exact (mem_otherAxes.1 ha).1)
  rw [e1, e2]
  unfold mergeIndex pickIdx
  have : ∀ a ∈ List.range n, (if a ∈ S then (S.map fun p => k.getD p 0).getD (S.idxOf a) 0
      else ((otherAxes n S).map fun p => k.getD p 0).getD ((otherAxes n S).idxOf a) 0) = k.getD a 0 := by
    intro a ha
    split
    · rename_i h; rw [getD_idxOf h]
    · rename_i h; rw [getD_idxOf (mem_otherAxes.2 ⟨List.mem_range.1 ha, h⟩)]
  rw [List.map_congr_left this, ← hk, map_getD_range]

section
variable {α : Type}

/-- Facts about the split of a tensor's layout: the axes `S`, the others, and the layout of every part. -/
theorem split_facts {t : Tensor α} (h : t.WF) {axes : List Int} {lax lrest : Layout}
    (hs : t.layout.dimSplitAxes axes = .ok (lax, lrest)) :
    let S := axes.map (normAxis t.arr.shape.length)
    lrest.shape = takeAxes (otherAxes t.arr.shape.length S) t.arr.shape ∧
    lrest.Valid ∧ 0 ≤ lrest.offset ∧ lax.shape = takeAxes S t.arr.shape ∧
    (0 ∉ t.arr.shape → 0 ∉ lrest.shape ∧ 0 ∉ lax.shape) ∧ ∀ j, InRange j lrest.shape →
      0 ≤ lrest.addr j ∧
      ∀ i, InRange i lax.shape → InRange (mergeIndex t.arr.shape.length S i j) t.arr.shape ∧
        lax.addr i + lrest.addr j - t.layout.offset = t.layout.addr (mergeIndex t.arr.shape.length S i j) := by
  intro S
  have hn : t.layout.ndim = t.arr.shape.length := by
    show t.layout.axes.length = (t.layout.axes.map _).length
    simp
  obtain ⟨h1, h2, h3, h4, h5, h6⟩ := C52_split_axes t.layout lax lrest axes hs
  rw [hn] at h1 h2 h5 h6
  have hv : lrest.Valid := by
    unfold Layout.dimSplitAxes at hs
    obtain ⟨v, hv, hs⟩ := bind_ok.1 hs
    obtain ⟨a', ha', hs⟩ := bind_ok.1 hs
    obtain ⟨b', hb', hs⟩ := bind_ok.1 hs
    obtain ⟨k, rfl⟩ := accepted_of_newAxes hb'
    cases hs
    exact valid_iff.2 k
  have hS : ∀ a ∈ S, a < t.arr.shape.length := by
    unfold Layout.dimSplitAxes at hs
    obtain ⟨v, hv, hs⟩ := bind_ok.1 hs
    obtain ⟨g1, -, -⟩ := normalizeAxes_ok.1 hv
    intro a ha
    obtain ⟨b, hb, rfl⟩ := List.mem_map.1 ha
    rw [← hn]
    exact normAxis_lt (g1 b hb)
  have hzz : 0 ∉ t.arr.shape → 0 ∉ lrest.shape ∧ 0 ∉ lax.shape := by
    intro hz
    rw [h1, h2]
    constructor
    · intro hm
      obtain ⟨k, -, hk⟩ := List.mem_filterMap.1 hm
      exact hz (List.mem_of_getElem? hk)
    · intro hm
      obtain ⟨k, -, hk⟩ := List.mem_filterMap.1 hm
      exact hz (List.mem_of_getElem? hk)
  refine ⟨h2, hv, by rw [h4]; exact h.1, h1, hzz, fun j hj => ⟨?_, fun i hi => ?_⟩⟩
  · have hf : Fit lrest.shape lrest := ⟨hv, by rw [h4]; exact h.1, rfl⟩
    exact hf.nonneg j hj
  · obtain ⟨k, hk, rfl, rfl⟩ := h6 i j hi hj
    have hk' : InRange k t.arr.shape := hk
    rw [mergeIndex_take hS hk'.length_eq]
    exact ⟨hk, by have := (h5 k hk).2.2; rw [this]⟩

end
end Rstsr
