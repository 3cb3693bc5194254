import Verif.Proof.Machine
import Mathlib.Algebra.Order.BigOperators.Group.List
import Verif.Thm.Parallel
/-!
# Theorems on layouts with the integers of the machine (C98)

`FitsWord` (`Spec/Word.lean`): the number of elements and the positions are numbers of `isize`. `m` is any build: any
number of bits, with or without overflow checks.
-/
namespace Rstsr
open Spec

section
variable {α : Type}

namespace Machine

/-- What the loops need. -/
theorem of_fits {m : Machine} {l : Layout} (h : FitsWord m.w l.shape l.stride l.offset) :
    0 < m.w ∧ (∀ a ∈ l.axes, a.dim < 2 ^ (m.w - 1)) ∧ Room m l.offset l.axes ∧ HasIsize m.w l.offset ∧ HasIsize m.w 0 ∧
      (l.shape.map (max 1)).prod < 2 ^ m.w := by
  have hc := h.count
  have h1 := one_le_prod_max l.shape
  have hw : 0 < m.w := by
    rcases Nat.eq_zero_or_pos m.w with e | e
    · rw [e] at hc; simp at hc; omega
    · exact e
  have hu := h.up
  have hd := h.down
  have hp := h.pos
  refine ⟨hw, ?_, ?_, ?_, ?_, ?_⟩
  · intro a ha
    exact Nat.lt_of_le_of_lt (le_prod_max (List.mem_map_of_mem ha)) hc
  · refine ⟨?_, hd, hu, ?_⟩
    · have : (upOf l.axes : Int) < 2 ^ (m.w - 1) := by
        have : l.offset + (upOf l.axes : Int) < 2 ^ (m.w - 1) := hu
        omega
      rw [powCast] at this
      exact_mod_cast this
    · have : downOf l.axes < 2 ^ (m.w - 1) := hd
      rw [powCast]
      omega
  · unfold HasIsize
    rw [powCast] at hu ⊢
    omega
  · unfold HasIsize
    rw [powCast]
    omega
  · have := two_pow hw
    omega

theorem size_ok {m : Machine} {l : Layout} (h : FitsWord m.w l.shape l.stride l.offset) : m.size l = .ok l.size := by
  unfold size
  rw [product_ok (by rw [Nat.one_mul]; exact (of_fits h).2.2.2.2.2), Nat.one_mul]
  rfl

theorem boundsIndex_ok {m : Machine} {l : Layout} (h : FitsWord m.w l.shape l.stride l.offset) :
    m.boundsIndex l = l.boundsIndex.map fun b => (b.1.toNat, b.2.toNat) := by
  obtain ⟨hw, hd, hr, ho, hz, -⟩ := of_fits h
  have hp := h.pos
  unfold boundsIndex Layout.boundsIndex
  split
  · rw [usize_ok (by
      have := two_pow hw
      have := ho.2
      rw [powCast] at this
      omega)]
    simp only [ok_bind, pure_eq_ok, Except.map]
    congr 2
    omega
  · rw [asIsize_ok hw ho, boundsLoop_ok hw hd hr hr hz]
    simp only [ok_bind]
    by_cases h0 : 0 ∈ dims l.axes
    · rw [boundsLoop_eq_none.2 h0]; rfl
    · rw [boundsLoop_eq_some h0]
      obtain ⟨e1, e2⟩ := hi_lo_eq h0
      rw [e1, e2]
      simp only
      have hu := hr.hi
      split
      · rename_i hlo
        have hhi : l.offset + (upOf l.axes : Int) < 2 ^ (m.w - 1) := hu
        rw [asUsize_ok hw hlo (by omega), asUsize_ok hw (by omega) hhi, usize_ok (by
          have := two_pow hw
          rw [powCast] at hhi
          omega)]
        simp only [ok_bind, pure_eq_ok, Except.map]
        congr 2
        omega
      · rfl

theorem checkStrides_ok {m : Machine} {l : Layout} (h : FitsWord m.w l.shape l.stride l.offset) (sz : Bool) :
    m.checkStrides l sz = l.checkStrides sz := by
  obtain ⟨hw, hd, hr, ho, hz, -⟩ := of_fits h
  unfold checkStrides Layout.checkStrides
  rw [size_ok h]
  simp only [ok_bind]
  split
  · rfl
  · have hs : ∀ a ∈ l.axes, 1 < a.dim → (a.str.natAbs : Int) < 2 ^ (m.w - 1) := by
      intro a ha hdim
      have h1 : (a.dim - 1) * a.str.toNat ≤ upOf l.axes := by
        rw [upOf_sum]; exact List.le_sum_of_mem (List.mem_map_of_mem ha)
      have h2 : (a.dim - 1) * (-a.str).toNat ≤ downOf l.axes := by
        rw [downOf_sum]; exact List.le_sum_of_mem (List.mem_map_of_mem ha)
      have h3 : a.str.toNat ≤ (a.dim - 1) * a.str.toNat := Nat.le_mul_of_pos_left _ (by omega)
      have h4 : (-a.str).toNat ≤ (a.dim - 1) * (-a.str).toNat := Nat.le_mul_of_pos_left _ (by omega)
      have h5 := hr.up
      have h6 := hr.down
      rw [powCast]
      omega
    rw [sortedAxes_ok hs]
    simp only [ok_bind]
    refine strideLoop_ok sz ?_
    have h1 : span (Layout.sortedAxes l.axes) ≤ span l.axes := by
      unfold Layout.sortedAxes
      rw [span_perm (List.perm_insertionSort _ _)]
      exact span_filter _ _
    have h2 := span_eq l.axes
    have h3 := hr.up
    have h4 := hr.down
    have h5 := two_pow hw
    omega

end Machine

/-- **Layouts that fit in the machine**: whatever the number of bits and with or without overflow checks, the size, the
bounds, the checks of strides and of storage, the contiguity and the positions are those of unbounded integers.
Missing: layouts that do not fit, where the code goes wrong (`C98_false_...`). -/
theorem C98_layout_partial (m : Machine) (l : Layout) (h : FitsWord m.w l.shape l.stride l.offset) :
    m.size l = .ok l.size ∧
    m.boundsIndex l = l.boundsIndex.map (fun b => (b.1.toNat, b.2.toNat)) ∧
    (∀ z, m.checkStrides l z = l.checkStrides z) ∧
    (∀ data : List α, m.newF data l = Tensor.newF data l) ∧
    m.contig .C l = .ok l.cContig ∧ m.contig .F l = .ok l.fContig ∧
    (∀ idx, (∀ i ∈ idx, HasIsize m.w i) → m.indexF l idx = l.indexF idx) ∧
    (∀ idx, InRange idx l.shape → m.indexUncheck l idx = .ok (position l.stride l.offset idx)) := by
  obtain ⟨hw, hd, hr, ho, hz, hc⟩ := Machine.of_fits h
  have hp := h.pos
  have hb := Machine.boundsIndex_ok h
  refine ⟨Machine.size_ok h, hb, Machine.checkStrides_ok h, ?_, ?_, ?_, ?_, ?_⟩
  · intro data
    unfold Machine.newF Tensor.newF
    rw [Machine.checkStrides_ok h, hb]
    cases l.checkStrides true with
    | error e => rfl
    | ok u =>
      simp only [ok_bind]
      cases hx : l.boundsIndex with
      | error e => rfl
      | ok b =>
        simp only [Except.map, ok_bind]
        have : b.2.toNat ≤ data.length ↔ b.2 ≤ data.length := by omega
        simp only [this]
  · unfold Machine.contig Machine.ndimOfContig Layout.cContig Layout.ndimOfCContig
    rw [Machine.size_ok h]
    by_cases h0 : l.ndim = 0
    · simp only [h0, true_or, if_true, ok_bind, pure_eq_ok]
    · simp only [h0, false_or, if_false, ok_bind]
      split
      · rfl
      · have := Machine.contigLoop_ok (as := l.axes.reverse) (acc := 1) hw (fun a ha => hd a (List.mem_reverse.1 ha)) (by
          rw [Nat.one_mul]
          have : ((dims l.axes.reverse).map (max 1)).Perm (l.shape.map (max 1)) :=
            (((List.reverse_perm _).map _).map _)
          rw [this.prod_eq]
          exact h.count)
        rw [Nat.cast_one] at this
        rw [this]; rfl
  · unfold Machine.contig Machine.ndimOfContig Layout.fContig Layout.ndimOfFContig
    rw [Machine.size_ok h]
    by_cases h0 : l.ndim = 0
    · simp only [h0, true_or, if_true, ok_bind, pure_eq_ok]
    · simp only [h0, false_or, if_false, ok_bind]
      split
      · rfl
      · have := Machine.contigLoop_ok (as := l.axes) (acc := 1) hw hd (by rw [Nat.one_mul]; exact h.count)
        rw [Nat.cast_one] at this
        rw [this]; rfl
  · intro idx hi
    unfold Machine.indexF Layout.indexF
    split
    · rfl
    · rw [Machine.asIsize_ok hw ho, Machine.indexLoop_ok hw hd hr hi]
      cases hx : Layout.indexLoop l.offset idx l.axes with
      | error e => rfl
      | ok p =>
        simp only [ok_bind]
        split
        · rename_i h0
          have : p < 2 ^ (m.w - 1) := by
            have h1 := Machine.indexLoop_le hx
            have h2 := hr.hi
            omega
          rw [Machine.asUsize_ok hw h0 this]
        · rfl
  · intro idx hi
    unfold Machine.indexUncheck
    rw [Machine.asIsize_ok hw ho, Machine.posLoop_ok hw hd hr hi, ← addr_eq]
    rfl

/-- A tensor with elements fits in the machine if its storage and the number of its elements do. -/
theorem C98_tensor (m : Machine) (t : Tensor α) (w : t.WF) (hne : 0 ∉ t.arr.shape) (hs : ∀ s ∈ t.layout.stride, HasIsize m.w s)
    (hd : t.data.length < 2 ^ (m.w - 1)) (hn : t.arr.shape.prod < 2 ^ (m.w - 1) ∨ (0 : Int) ∉ t.layout.stride) :
    FitsWord m.w t.layout.shape t.layout.stride t.layout.offset := by
  obtain ⟨mn, mx, hb, hmx, -⟩ := WF_bounds w
  have hne' : 0 ∉ t.layout.shape := hne
  have hb' := boundsIndex_of_pos hne' w.1
  rw [hb] at hb'
  obtain ⟨e1, e2⟩ := Machine.hi_lo_eq hne'
  rw [e1, e2] at hb'
  split at hb'
  · rename_i hlo
    cases hb'
    refine ⟨w.1, hs, ?_, ?_, ?_⟩
    · rw [map_max_one hne']
      rcases hn with hn | hn
      · exact hn
      · refine Nat.lt_of_le_of_lt ?_ hd
        have hnd : ((all .C t.layout.shape).map t.layout.pos).Nodup :=
          (nodup_all .C _).map_on fun i hi j hj e => w.inj hn i j (mem_all.1 hi) (mem_all.1 hj) e
        have hsub : ((all .C t.layout.shape).map t.layout.pos) ⊆ List.range t.data.length := by
          intro k hk
          obtain ⟨i, hi, rfl⟩ := List.mem_map.1 hk
          exact List.mem_range.2 (w.covers i (mem_all.1 hi))
        have := (hnd.subperm hsub).length_le
        rwa [List.length_map, length_all, List.length_range] at this
    · show t.layout.offset + (Machine.upOf t.layout.axes : Int) < 2 ^ (m.w - 1)
      rw [Machine.powCast]
      omega
    · show Machine.downOf t.layout.axes < 2 ^ (m.w - 1)
      have := offset_le w.1 hb
      omega
  · cases hb'

/-- **New tensors**: if the number of elements is an `isize` (zero lengths counted as one), creation asks for exactly as
many cells as there are elements, and the element at `idx` is the one at its place in the order.
Missing: other shapes, where creation goes wrong (`C98_false_create`). -/
theorem C98_create_partial (m : Machine) (fixed : Bool) (o : Order) (shape : List Nat)
    (h : (shape.map (max 1)).prod < 2 ^ (m.w - 1)) :
    ∃ l, m.create fixed o shape = .ok (l, shape.prod) ∧ l.shape = shape ∧ l.offset = 0 ∧
      FitsWord m.w l.shape l.stride l.offset ∧
      ∀ idx, InRange idx shape → m.indexUncheck l idx = .ok (rank o shape idx : Int) := by
  have hf := Machine.contig_fits (w := m.w) fixed o shape h
  have hw := (Machine.of_fits hf).1
  have hsh := contigLayout_shape fixed o shape 0
  obtain ⟨-, mn, hb⟩ := contigLayout_bounds fixed o shape
  refine ⟨_, ?_, hsh, contigLayout_offset _ _ _ _, hf, ?_⟩
  · unfold Machine.create
    rw [Machine.newContig_ok hw fixed o h]
    simp only [ok_bind]
    rw [Machine.boundsIndex_ok hf, hb]
    simp only [Except.map, ok_bind, pure_eq_ok, Int.toNat_natCast]
  · intro idx hi
    have := (C98_layout_partial (α := Unit) m _ hf).2.2.2.2.2.2.2 idx (by rw [hsh]; exact hi)
    rw [this, ← (contigLayout_addr fixed o shape 0 hi).trans (Int.zero_add _)]
    rfl

/-- **With overflow checks nothing wrong is accepted**: if a build with overflow checks accepts a storage and a layout,
the tensor is one whose elements lie in the storage, for all lengths of `isize` and all offsets.
Missing: lengths beyond `isize` (`C98_false_cast`) and builds without the checks (`C98_false_accept`). -/
theorem C98_checked_partial (m : Machine) (hc : m.checked = true) (hw : 0 < m.w) (data : List α) (l : Layout) (t : Tensor α)
    (hd : ∀ d ∈ l.shape, d < 2 ^ (m.w - 1)) (h0 : 0 ≤ l.offset) (h1 : l.offset < 2 ^ m.w)
    (h : m.newF data l = .ok t) : t = ⟨data, l⟩ ∧ t.WF := by
  have key : Tensor.newF data l = .ok t := by
    unfold Machine.newF at h
    unfold Tensor.newF
    obtain ⟨u, e1, h⟩ := bind_ok.1 h
    obtain ⟨b, e2, h⟩ := bind_ok.1 h
    rw [Machine.checkStrides_inv hc e1,
      Machine.boundsIndex_inv hc hw (fun a ha => hd _ (List.mem_map_of_mem ha)) h0 h1 e2]
    simp only [ok_bind]
    simpa using h
  have e : t = ⟨data, l⟩ := by
    unfold Tensor.newF at key
    obtain ⟨u, e1, key⟩ := bind_ok.1 key
    obtain ⟨⟨mn, mx⟩, e2, key⟩ := bind_ok.1 key
    simp only at key
    split at key
    · simpa using key.symm
    · cases key
  refine ⟨e, ?_⟩
  subst e
  exact ⟨h0, key⟩

/-- **With overflow checks creation is right or panics**, for all lengths of `isize`. -/
theorem C98_checked_create_partial (m : Machine) (hc : m.checked = true) (hw : 1 < m.w) (fixed : Bool) (o : Order)
    (shape : List Nat) (l : Layout) (n : Nat) (hd : ∀ d ∈ shape, d < 2 ^ (m.w - 1)) (h : m.create fixed o shape = .ok (l, n)) :
    l.shape = shape ∧ l.offset = 0 ∧ n = shape.prod ∧
      ∀ idx, InRange idx shape → position l.stride l.offset idx = (rank o shape idx : Int) := by
  unfold Machine.create at h
  obtain ⟨l', e1, h⟩ := bind_ok.1 h
  obtain ⟨b, e2, h⟩ := bind_ok.1 h
  cases h
  have hl : l = contigLayout fixed o shape 0 := Machine.newContig_inv hc hw hd e1
  have hsh : l.shape = shape := by rw [hl, contigLayout_shape]
  have hoff : l.offset = 0 := by rw [hl, contigLayout_offset]
  obtain ⟨-, mn, hb⟩ := contigLayout_bounds fixed o shape
  have h3 := Machine.boundsIndex_inv hc (by omega) (l := l) (fun a ha => hd _ (by rw [← hsh]; exact List.mem_map_of_mem ha))
    (by rw [hoff]) (by rw [hoff]; positivity) e2
  rw [hl, hb] at h3
  refine ⟨hsh, hoff, ?_, ?_⟩
  · have : (shape.prod : Int) = (b.2 : Int) := by
      have := Except.ok.inj h3
      exact congrArg Prod.snd this
    exact_mod_cast this.symm
  · intro idx hi
    have := contigLayout_addr fixed o shape 0 hi
    rw [Int.zero_add, ← hl] at this
    exact this

/-- **False in general**: without overflow checks a new tensor of shape `[2^32, 2^32]` asks for no cells at all; with
them, creation panics instead of returning an error. -/
theorem C98_false_create :
    (∃ l, (Machine.mk 64 false).create false .F [2 ^ 32, 2 ^ 32] = .ok (l, 0) ∧ l.shape = [2 ^ 32, 2 ^ 32]) ∧
    (Machine.mk 64 true).create false .F [2 ^ 32, 2 ^ 32] = .error .panic := by
  refine ⟨⟨_, rfl, rfl⟩, rfl⟩

/-- **False in general**: without overflow checks a layout of shape `[5]` and stride `2^62` is accepted for a storage
of one cell, although the second element lies at position `2^62`. -/
theorem C98_false_accept :
    (Machine.mk 64 false).newF [7] ⟨[⟨5, 2 ^ 62⟩], 0⟩ = .ok ⟨[7], ⟨[⟨5, 2 ^ 62⟩], 0⟩⟩ ∧
    InRange [1] [5] ∧ position [2 ^ 62] 0 [1] = 2 ^ 62 ∧ (Machine.mk 64 true).newF [7] ⟨[⟨5, 2 ^ 62⟩], 0⟩ = .error .panic := by
  refine ⟨rfl, by decide, by decide, rfl⟩

/-- **False in general, also with overflow checks**: the length `2^64 - 1` counts as `-1`. -/
theorem C98_false_cast :
    (Machine.mk 64 true).newF [1, 2, 3] ⟨[⟨2 ^ 64 - 1, -1⟩], 0⟩ = .ok ⟨[1, 2, 3], ⟨[⟨2 ^ 64 - 1, -1⟩], 0⟩⟩ ∧
    InRange [1] [2 ^ 64 - 1] ∧ position [-1] 0 [1] = -1 := by
  refine ⟨rfl, by decide, by decide⟩

/-- **False in general**: with overflow checks a layout without elements panics if the product of its other lengths is
too big, although no element and no storage is asked for. -/
theorem C98_false_empty :
    (Machine.mk 64 true).newF ([] : List Nat) ⟨[⟨2 ^ 40, 0⟩, ⟨2 ^ 40, 0⟩, ⟨0, 0⟩], 0⟩ = .error .panic ∧
    Tensor.newF ([] : List Nat) ⟨[⟨2 ^ 40, 0⟩, ⟨2 ^ 40, 0⟩, ⟨0, 0⟩], 0⟩ = .ok ⟨[], ⟨[⟨2 ^ 40, 0⟩, ⟨2 ^ 40, 0⟩, ⟨0, 0⟩], 0⟩⟩ := by
  refine ⟨rfl, rfl⟩

/-- **False in general**: one cell broadcast to `[2^32, 2^32]` has size zero without overflow checks. -/
theorem C98_false_broadcast :
    (Machine.mk 64 false).newF [7] ⟨[⟨2 ^ 32, 0⟩, ⟨2 ^ 32, 0⟩], 0⟩ = .ok ⟨[7], ⟨[⟨2 ^ 32, 0⟩, ⟨2 ^ 32, 0⟩], 0⟩⟩ ∧
    (Machine.mk 64 false).size ⟨[⟨2 ^ 32, 0⟩, ⟨2 ^ 32, 0⟩], 0⟩ = .ok 0 ∧ InRange [0, 0] [2 ^ 32, 2 ^ 32] := by
  refine ⟨rfl, rfl, by decide⟩

/-- Non-vacuity: a reversed and transposed layout fits in 64 bits, and in 4 bits. -/
example : FitsWord 64 [2, 3] [1, -2] 4 ∧ FitsWord 4 [2, 3] [1, -2] 4 := by
  refine ⟨⟨by decide, by decide, by decide, by decide, by decide⟩, ⟨by decide, by decide, by decide, by decide, by decide⟩⟩

/-- Non-vacuity: a tensor with its storage. -/
example : ∃ t : Tensor Nat, t.WF ∧ 0 ∉ t.arr.shape ∧ (∀ s ∈ t.layout.stride, HasIsize 64 s) ∧ t.data.length < 2 ^ 63 ∧
    (0 : Int) ∉ t.layout.stride :=
  ⟨⟨[1, 2, 3, 4, 5, 6], ⟨[⟨2, 1⟩, ⟨3, -2⟩], 4⟩⟩, ⟨by decide, rfl⟩, by decide, by decide, by decide, by decide⟩

/-- Non-vacuity: shapes of new tensors, also without elements. -/
example : ([2 ^ 20, 0, 2 ^ 30].map (max 1)).prod < 2 ^ 63 ∧
    ((Machine.mk 64 true).create false .C [3, 4]).isOk = true := by
  refine ⟨by decide, rfl⟩

/-- Non-vacuity of the theorems with overflow checks: accepted although the layout does not fit (`reachUp` of an empty
layout). -/
example : (Machine.mk 64 true).newF ([] : List Nat) ⟨[⟨0, 2 ^ 62⟩, ⟨9, 2 ^ 62⟩], 3⟩ =
    .error .valueOutOfRange ∧
    ((Machine.mk 64 true).newF [1, 2, 3] ⟨[⟨0, 2 ^ 62⟩, ⟨9, 2 ^ 62⟩], 3⟩).isOk = true := by
  refine ⟨rfl, rfl⟩

end
end Rstsr
