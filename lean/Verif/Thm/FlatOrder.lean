import Verif.Thm.Rearrange
import Verif.Thm.Copy
import Verif.Thm.AxesIter
/-!
# C28: the flat order (flag `B`), which layouts it accepts and what it visits

`C28_flat_partial` and `C28_flat_accept` are about layouts without negative strides and without stride 0.
For the others the flag goes wrong in the code: `C28_default_rank0_witness` (negative stride) and
`C28_false_flat_gaps` (a repeated axis beside a gap).
-/
namespace Rstsr
open Spec

theorem loSum_nonneg_strides {axes : List Axis} (h : ∀ x ∈ axes.map (·.str), (0 : Int) ≤ x) : loSum axes = 0 := by
  induction axes with
  | nil => rfl
  | cons a as ih =>
    simp only [List.map_cons, List.mem_cons, forall_eq_or_imp] at h
    unfold loSum
    rw [ih h.2]
    split
    · rfl
    · have : a.str = 0 := by omega
      simp [this]

/-- The storage positions of a layout without a stride 0 are all different. -/
theorem positions_nodup {l : Layout} (hl : l.Valid) (ho : 0 ≤ l.offset) (hb : (0 : Int) ∉ l.stride) :
    ((all .C l.shape).map l.addr).Nodup := by
  have hb' : l.isBroadcasted = false := by unfold Layout.isBroadcasted; simpa using hb
  have hf : Fit l.shape l := ⟨hl, ho, rfl⟩
  refine List.Nodup.map_on ?_ (nodup_all _ _)
  intro i hi j hj e
  have hi := mem_all.1 hi
  have hj := mem_all.1 hj
  refine pos_inj hf hb' hi hj ?_
  unfold Layout.pos
  rw [e]

theorem flat_bounds {l : Layout} (hz : 0 ∉ l.shape) (ho : 0 ≤ l.offset) (hn : ∀ x ∈ l.stride, (0 : Int) ≤ x) :
    ∃ mx, l.boundsIndex = .ok (l.offset, mx) := by
  refine ⟨l.offset + hiSum l.axes + 1, ?_⟩
  rw [boundsIndex_of_pos hz ho, loSum_nonneg_strides hn, if_pos (by omega), Int.add_zero]

theorem flat_range_nodup (n : Nat) (off : Int) : ((List.range n).map fun (t : Nat) => off + (t : Int)).Nodup := by
  refine List.Nodup.map_on ?_ List.nodup_range
  intro a _ b _ e
  simpa using e

/-- A layout that the flag `B` accepts: the flat layout visits the storage position of every element exactly
once. -/
theorem C28_flat_partial (dflt : Order) (l m : Layout) (hl : l.Valid) (ho : 0 ≤ l.offset) (hb : (0 : Int) ∉ l.stride)
    (hn : ∀ x ∈ l.stride, (0 : Int) ≤ x) (h : l.toColMajor dflt .B = .ok m) :
    ∃ e : List (List Nat), e.Perm (all .C l.shape) ∧ (all .F m.shape).map m.addr = e.map l.addr := by
  unfold Layout.toColMajor Layout.flatB at h
  simp only at h
  by_cases hz : 0 ∈ l.shape
  · rw [boundsIndex_of_zero hz] at h
    have hs : l.size = 0 := size_zero_iff.2 hz
    simp only [ok_bind, hs] at h
    split at h
    · cases h
    split at h
    · cases h
    cases h
    refine ⟨[], ?_, ?_⟩
    · have : (all .C l.shape).length = 0 := by rw [length_all]; exact hs
      rw [List.length_eq_zero_iff.1 this]
    · have := flat_positions 0 (l.ndim - 1) l.offset ((0 : Nat) : Int)
      simpa using this
  · obtain ⟨mx, hbd⟩ := flat_bounds hz ho hn
    rw [hbd] at h
    simp only [ok_bind] at h
    split at h
    · cases h
    rename_i hsz
    split at h
    · cases h
    cases h
    have hsz : mx - l.offset = l.size := by simpa using hsz
    rw [flat_positions]
    refine exists_perm_map (List.Perm.symm ?_)
    refine List.Subperm.perm_of_length_le (List.Nodup.subperm (positions_nodup hl ho hb) ?_) ?_
    · intro p hp
      obtain ⟨i, hi, rfl⟩ := List.mem_map.1 hp
      have hi := mem_all.1 hi
      obtain ⟨h1, h2⟩ := boundsIndex_sound hbd hi
      refine List.mem_map.2 ⟨(l.addr i - l.offset).toNat, List.mem_range.2 (by omega), by omega⟩
    · simp [length_all]; exact le_rfl

/-- The flag `B` accepts a layout exactly when the cells from the first element on, as many as there are
elements, all belong to it: a layout with holes is refused. -/
theorem C28_flat_accept (dflt : Order) (l : Layout) (hl : l.Valid) (ho : 0 ≤ l.offset) (hb : (0 : Int) ∉ l.stride)
    (hn : ∀ x ∈ l.stride, (0 : Int) ≤ x) (hz : 0 ∉ l.shape) (hr : l.shape ≠ []) :
    (∃ m, l.toColMajor dflt .B = .ok m) ↔
      ∀ k : Nat, k < l.shape.prod → Addressed l.stride l.offset l.shape (l.offset.toNat + k) := by
  constructor
  · rintro ⟨m, h⟩ k hk
    obtain ⟨e, he, h2⟩ := C28_flat_partial dflt l m hl ho hb hn h
    have hm : (l.offset + (k : Int)) ∈ (all .F m.shape).map m.addr := by
      unfold Layout.toColMajor Layout.flatB at h
      simp only at h
      obtain ⟨mx, hbd⟩ := flat_bounds hz ho hn
      rw [hbd] at h
      simp only [ok_bind] at h
      split at h
      · cases h
      split at h
      · cases h
      cases h
      rw [flat_positions]
      exact List.mem_map.2 ⟨k, List.mem_range.2 hk, rfl⟩
    rw [h2] at hm
    obtain ⟨i, hi, e3⟩ := List.mem_map.1 hm
    refine ⟨i, mem_all.1 (he.mem_iff.1 hi), ?_⟩
    show l.addr i = _
    rw [e3]; push_cast; omega
  · intro h
    obtain ⟨mx, hbd⟩ := flat_bounds hz ho hn
    obtain ⟨-, -, ⟨i, hi, hmx⟩⟩ := C02_bounds_exact l hz ho _ _ hbd
    have hp : ((List.range l.size).map fun (t : Nat) => l.offset + (t : Int)).Perm ((all .C l.shape).map l.addr) := by
      refine List.Subperm.perm_of_length_le (List.Nodup.subperm (flat_range_nodup _ _) ?_) ?_
      · intro p hp
        obtain ⟨k, hk, rfl⟩ := List.mem_map.1 hp
        obtain ⟨j, hj, e⟩ := h k (List.mem_range.1 hk)
        have e : l.addr j = ((l.offset.toNat + k : Nat) : Int) := e
        exact List.mem_map.2 ⟨j, mem_all.2 hj, by rw [e]; push_cast; omega⟩
      · simp [length_all]; exact le_rfl
    have h1 : mx - 1 ∈ (List.range l.size).map fun (t : Nat) => l.offset + (t : Int) :=
      hp.mem_iff.2 (List.mem_map.2 ⟨i, mem_all.2 hi, hmx⟩)
    obtain ⟨k, hk, e1⟩ := List.mem_map.1 h1
    have hk := List.mem_range.1 hk
    obtain ⟨j, hj, e2⟩ := h (l.size - 1) (show l.size - 1 < l.size by omega)
    have h3 := (boundsIndex_sound hbd hj).2
    have e2 : l.addr j = ((l.offset.toNat + (l.size - 1) : Nat) : Int) := e2
    refine ⟨⟨⟨l.size, 1⟩ :: List.replicate (l.ndim - 1) ⟨1, l.size⟩, l.offset⟩, ?_⟩
    unfold Layout.toColMajor Layout.flatB
    simp only [hbd, ok_bind]
    rw [if_neg (by omega), if_neg]
    intro h0
    apply hr
    have : l.axes = [] := List.length_eq_zero_iff.1 h0
    simp [Layout.shape, this]

/-- A transposed block, stored without holes, is accepted; the same block with a wider row is refused. -/
example : (⟨[⟨2, 1⟩, ⟨3, 2⟩], 5⟩ : Layout).Valid ∧
    (⟨[⟨2, 1⟩, ⟨3, 2⟩], 5⟩ : Layout).toColMajor .C .B = .ok ⟨[⟨6, 1⟩, ⟨1, 6⟩], 5⟩ ∧
    (⟨[⟨2, 1⟩, ⟨3, 3⟩], 5⟩ : Layout).Valid ∧
    (⟨[⟨2, 1⟩, ⟨3, 3⟩], 5⟩ : Layout).toColMajor .C .B = .error .invalidLayout := by
  refine ⟨by decide, by decide, by decide, by decide⟩

/-- With a repeated axis beside a gap the span can equal the number of elements by accident: the layout is
accepted, and the flat layout visits cells that belong to no element. -/
theorem C28_false_flat_gaps :
    (⟨[⟨2, 3⟩, ⟨2, 0⟩], 0⟩ : Layout).Valid ∧
    (⟨[⟨2, 3⟩, ⟨2, 0⟩], 0⟩ : Layout).toColMajor .C .B = .ok ⟨[⟨4, 1⟩, ⟨1, 4⟩], 0⟩ ∧
    positions .F ⟨[⟨4, 1⟩, ⟨1, 4⟩], 0⟩ = [0, 1, 2, 3] ∧
    positions .C ⟨[⟨2, 3⟩, ⟨2, 0⟩], 0⟩ = [0, 0, 3, 3] := by
  refine ⟨by decide, by decide, by decide, by decide⟩

end Rstsr
