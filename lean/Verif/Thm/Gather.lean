import Verif.Proof.Gather
/-!
# Theorems on gathering functions (C46, C57)

`Spec.InRange`, `Spec.AxisOk` and `Spec.normAxis` (an index counted from the end when negative) are the
specification; `t.arr` is the array a tensor stands for.
-/
namespace Rstsr
open Spec

section
variable {α : Type}

theorem checkIndex_ok {n k : Nat} {i : Int} : Tensor.checkIndex n i = .ok k ↔ AxisOk n i ∧ k = normAxis n i := by
  unfold Tensor.checkIndex AxisOk normAxis
  dsimp only
  split <;> split <;> simp_all <;> omega

theorem checkIndex_error {n : Nat} {i : Int} (h : ¬ AxisOk n i) : Tensor.checkIndex n i = .error .indexError := by
  unfold Tensor.checkIndex
  unfold AxisOk at h
  dsimp only
  rw [if_neg]
  split <;> omega

theorem mapM_error {α β : Type} {f : α → Res β} {e : Err} {xs : List α} (h : ∀ x ∈ xs, (∃ y, f x = .ok y) ∨ f x = .error e)
    (hx : ∃ x ∈ xs, f x = .error e) : xs.mapM f = .error e := by
  induction xs with
  | nil => simp at hx
  | cons x xs ih =>
    rw [List.mapM_cons]
    rcases h x List.mem_cons_self with ⟨y, hy⟩ | hy
    · rw [hy, ok_bind, ih (fun z hz => h z (List.mem_cons_of_mem _ hz)) ?_]
      · rfl
      · obtain ⟨z, hz, e⟩ := hx
        rcases List.mem_cons.1 hz with rfl | hz
        · rw [hy] at e; cases e
        · exact ⟨z, hz, e⟩
    · rw [hy]; rfl

theorem checkIndices_ok {n : Nat} {is : List Int} (h : ∀ i ∈ is, AxisOk n i) :
    is.mapM (Tensor.checkIndex n) = .ok (is.map (normAxis n)) :=
  mapM_eq_map fun i hi => checkIndex_ok.2 ⟨h i hi, rfl⟩

theorem checkIndices_error {n : Nat} {is : List Int} (h : ∃ i ∈ is, ¬ AxisOk n i) :
    is.mapM (Tensor.checkIndex n) = .error .indexError := by
  refine mapM_error (fun i _ => ?_) ?_
  · by_cases hi : AxisOk n i
    · exact .inl ⟨_, checkIndex_ok.2 ⟨hi, rfl⟩⟩
    · exact .inr (checkIndex_error hi)
  · obtain ⟨i, h1, h2⟩ := h
    exact ⟨i, h1, checkIndex_error h2⟩

/-! ## C46: `index_select`, `take` -/

/-- `t.index_select(axis, indices)` for an axis that is not empty: the axis gets one entry per index, and
entry `k` holds the slice of `t` at `indices[k]`, counted from the end if negative. Missing for the full
claim: the empty index list on an axis of length 0 (see `C46_empty_axis_rejected`). -/
theorem C46_index_select_partial (dflt dev : Order) (t : Tensor α) (axis : Int) (indices : List Int) (ht : t.WF)
    (hax : AxisOk t.arr.shape.length axis)
    (hd : t.arr.shape.getD (normAxis t.arr.shape.length axis) 0 ≠ 0)
    (hi : ∀ i ∈ indices, AxisOk (t.arr.shape.getD (normAxis t.arr.shape.length axis) 0) i) :
    ∃ r, t.indexSelect dflt dev axis indices = .ok r ∧ r.WF ∧
      r.arr.shape = t.arr.shape.set (normAxis t.arr.shape.length axis) indices.length ∧
      ∀ idx, InRange idx r.arr.shape →
        ∃ i, indices[idx.getD (normAxis t.arr.shape.length axis) 0]? = some i ∧
        ∃ x, t.arr.elem (idx.set (normAxis t.arr.shape.length axis)
            (normAxis (t.arr.shape.getD (normAxis t.arr.shape.length axis) 0) i)) = some x ∧
          r.arr.elem idx = some x := by
  have hnd : t.layout.ndim = t.layout.shape.length := by simp [Layout.ndim, Layout.shape]
  have hax : AxisOk t.layout.shape.length axis := hax
  show ∃ r : Tensor α, _ ∧ _ ∧ r.arr.shape = t.layout.shape.set (normAxis t.layout.shape.length axis) _ ∧ ∀ idx : List Nat, _ →
    ∃ i, indices[idx.getD (normAxis t.layout.shape.length axis) 0]? = some i ∧
      ∃ x, t.arr.elem (idx.set (normAxis t.layout.shape.length axis)
            (normAxis (t.layout.shape.getD (normAxis t.layout.shape.length axis) 0) i)) = some x ∧ _
  have hd : t.layout.shape.getD (normAxis t.layout.shape.length axis) 0 ≠ 0 := hd
  have hi : ∀ i ∈ indices, AxisOk (t.layout.shape.getD (normAxis t.layout.shape.length axis) 0) i := hi
  have hlt : normAxis t.layout.shape.length axis < t.layout.shape.length := normAxis_lt hax
  generalize hA : normAxis t.layout.shape.length axis = ax at *
  generalize hD : t.layout.shape.getD ax 0 = d at *
  have hlen : (indices.map (normAxis d)).length = indices.length := List.length_map _
  have T := tight_newContig dev (t.layout.shape.set ax (indices.map (normAxis d)).length)
  have hsh := shape_newContig dev (t.layout.shape.set ax (indices.map (normAxis d)).length)
  obtain ⟨c', k1, k2⟩ := select_writes dflt dev (ids := indices.map (normAxis d)) hlt ht.fit ht.covers
    (by
      intro i hi'
      obtain ⟨j, hj, rfl⟩ := List.mem_map.1 hi'
      rw [hD]
      exact normAxis_lt (hi j hj)) (by rw [hD]; exact hd)
    (c := uninit (Layout.newContig dev (t.layout.shape.set ax (indices.map (normAxis d)).length)).size)
    (by simp [uninit]) some
  generalize hlc : Layout.newContig dev (t.layout.shape.set ax (indices.map (normAxis d)).length) = lc at *
  obtain ⟨data, d1, d2, d3, d4, d5⟩ := fresh_finish T (c := c') (by rw [k2.len]; simp [uninit])
    (fun idx x => ∃ i, indices[idx.getD ax 0]? = some i ∧ t.arr.elem (idx.set ax (normAxis d i)) = some x) (by
      intro idx hidx
      rw [hsh] at hidx
      obtain ⟨j, q, hj, hq, rfl⟩ := (inRange_set_split hlt).1 hidx
      have hjl : ax ≤ j.length := by
        have := hj.length_eq
        rw [List.length_eraseIdx_of_lt hlt] at this
        omega
      simp only [getD_insertIdx hjl, set_insertIdx hjl]
      have hq' : q < indices.length := by omega
      have hin : InRange (j.insertIdx ax (normAxis d indices[q])) t.layout.shape :=
        inRange_insertIdx hlt hj (by rw [hD]; exact normAxis_lt (hi _ (List.getElem_mem _)))
      obtain ⟨x, hx1, hx2⟩ := ht.get hin
      have hg : (indices.map (normAxis d)).getD q 0 = normAxis d indices[q] := by
        rw [List.getD_eq_getElem?_getD, List.getElem?_map, List.getElem?_eq_getElem hq']; rfl
      refine ⟨x, ⟨indices[q], List.getElem?_eq_getElem hq', hx2⟩, k2.set _ _ ⟨j, q, hj, hq, rfl, x, ?_, rfl⟩⟩
      rw [hg]; exact hx1)
  refine ⟨⟨data, lc⟩, ?_, d4, ?_, ?_⟩
  · unfold Tensor.indexSelect
    rw [hnd, checkAxis_ok.2 ⟨hax, rfl⟩, ok_bind, hA, getD_dim, hD, checkIndices_ok hi, ok_bind]
    simp only [hlc, k1, ok_bind, d1, d3]
  · show lc.shape = _
    rw [hsh, hlen]
  · intro idx hidx
    obtain ⟨x, ⟨i, e1, e2⟩, e3⟩ := d5 idx hidx
    exact ⟨i, e1, x, e2, e3⟩

/-- An index outside the axis is rejected. -/
theorem C46_index_error (dflt dev : Order) (t : Tensor α) (axis : Int) (indices : List Int)
    (hax : AxisOk t.arr.shape.length axis)
    (hi : ∃ i ∈ indices, ¬ AxisOk (t.arr.shape.getD (normAxis t.arr.shape.length axis) 0) i) :
    t.indexSelect dflt dev axis indices = .error .indexError := by
  have hnd : t.layout.ndim = t.layout.shape.length := by simp [Layout.ndim, Layout.shape]
  have hax : AxisOk t.layout.shape.length axis := hax
  unfold Tensor.indexSelect
  rw [hnd, checkAxis_ok.2 ⟨hax, rfl⟩, ok_bind, getD_dim]
  rw [show (indices.mapM (Tensor.checkIndex (t.layout.shape.getD (normAxis t.layout.shape.length axis) 0))) = _ from
    checkIndices_error hi]
  rfl

/-- An axis that the tensor does not have is rejected. -/
theorem C46_axis_error (dflt dev : Order) (t : Tensor α) (axis : Int) (indices : List Int)
    (hax : ¬ AxisOk t.arr.shape.length axis) : ∃ e, t.indexSelect dflt dev axis indices = .error e := by
  have hnd : t.layout.ndim = t.layout.shape.length := by simp [Layout.ndim, Layout.shape]
  have hax : ¬ AxisOk t.layout.shape.length axis := hax
  unfold Tensor.indexSelect
  cases h : checkAxis axis t.layout.ndim with
  | error e => exact ⟨e, rfl⟩
  | ok k =>
    rw [hnd] at h
    exact absurd (checkAxis_ok.1 h).1 hax

/-- The code rejects the empty index list on an axis of length 0, although no index is out of range: a
disagreement with the claim. -/
theorem C46_empty_axis_rejected (dflt dev : Order) (t : Tensor α) (axis : Int)
    (hax : AxisOk t.arr.shape.length axis)
    (hd : t.arr.shape.getD (normAxis t.arr.shape.length axis) 0 = 0) :
    t.indexSelect dflt dev axis [] = .error .indexError := by
  have hnd : t.layout.ndim = t.layout.shape.length := by simp [Layout.ndim, Layout.shape]
  have hax : AxisOk t.layout.shape.length axis := hax
  have hd : t.layout.shape.getD (normAxis t.layout.shape.length axis) 0 = 0 := hd
  have hlt := normAxis_lt hax
  have hsh := shape_newContig dev (t.layout.shape.set (normAxis t.layout.shape.length axis) 0)
  have hl : (Layout.newContig dev (t.layout.shape.set (normAxis t.layout.shape.length axis) 0)).ndim = t.layout.shape.length := by
    have := congrArg List.length hsh
    simpa [Layout.ndim, Layout.shape] using this
  unfold Tensor.indexSelect
  rw [hnd, checkAxis_ok.2 ⟨hax, rfl⟩, ok_bind]
  have h0 : ∀ n, ([] : List Int).mapM (Tensor.checkIndex n) = .ok [] := fun n => rfl
  rw [h0]
  simp only [ok_bind, List.length_nil]
  unfold indexSelectKernel
  rw [if_neg (by rw [hl, hnd]; simp), if_neg (by rw [hl]; omega), if_neg (by
    rw [getD_dim, hsh, List.getD_eq_getElem?_getD, List.getElem?_set_self hlt]; simp), if_pos (by
    rw [getD_dim, hd]; simp)]
  rfl

/-- Exactly the calls described above succeed. -/
theorem C46_accept_iff (dflt dev : Order) (t : Tensor α) (axis : Int) (indices : List Int) (ht : t.WF) :
    (∃ r, t.indexSelect dflt dev axis indices = .ok r) ↔ AxisOk t.arr.shape.length axis ∧
      t.arr.shape.getD (normAxis t.arr.shape.length axis) 0 ≠ 0 ∧
      ∀ i ∈ indices, AxisOk (t.arr.shape.getD (normAxis t.arr.shape.length axis) 0) i := by
  constructor
  · rintro ⟨r, h⟩
    by_cases h1 : AxisOk t.arr.shape.length axis
    · have h2 : ∀ i ∈ indices, AxisOk (t.arr.shape.getD (normAxis t.arr.shape.length axis) 0) i := by
        by_contra hn
        push Not at hn
        rw [C46_index_error dflt dev t axis indices h1 hn] at h
        cases h
      refine ⟨h1, ?_, h2⟩
      intro h3
      cases indices with
      | nil => rw [C46_empty_axis_rejected dflt dev t axis h1 h3] at h; cases h
      | cons i is =>
        have := h2 i List.mem_cons_self
        unfold AxisOk at this
        omega
    · obtain ⟨e, he⟩ := C46_axis_error dflt dev t axis indices h1
      rw [he] at h; cases h
  · rintro ⟨h1, h2, h3⟩
    obtain ⟨r, hr, -⟩ := C46_index_select_partial dflt dev t axis indices ht h1 h2 h3
    exact ⟨r, hr⟩

/-- A transposed 3×2 view with offset: rows -1, 0, 0. -/
example : (⟨[9, 1, 2, 3, 4, 5, 6], ⟨[⟨3, 1⟩, ⟨2, 3⟩], 1⟩⟩ : Tensor Nat).indexSelect .C .C 0 [-1, 0, 0] =
    .ok ⟨[3, 6, 1, 4, 1, 4], ⟨[⟨3, 2⟩, ⟨2, 1⟩], 0⟩⟩ := by decide
/-- The same on the contiguous axis of the result. -/
example : (⟨[9, 1, 2, 3, 4, 5, 6], ⟨[⟨2, 3⟩, ⟨3, 1⟩], 1⟩⟩ : Tensor Nat).indexSelect .C .C 1 [-1, 0, 0] =
    .ok ⟨[3, 1, 1, 6, 4, 4], ⟨[⟨2, 3⟩, ⟨3, 1⟩], 0⟩⟩ := by decide
example : (⟨[9, 1, 2, 3, 4, 5, 6], ⟨[⟨3, 1⟩, ⟨2, 3⟩], 1⟩⟩ : Tensor Nat).WF := ⟨by decide, rfl⟩
example : (⟨[1, 2, 3], ⟨[⟨3, 1⟩], 0⟩⟩ : Tensor Nat).indexSelect .C .C 0 [1, 3] = .error .indexError := by decide
example : (⟨[1, 2, 3], ⟨[⟨3, 1⟩], 0⟩⟩ : Tensor Nat).indexSelect .C .C 0 [] = .ok ⟨[], ⟨[⟨0, 1⟩], 0⟩⟩ := by decide

/-! ## C57: `bool_select` -/

theorem maskRows_eq (mask : List Bool) :
    ((mask.zipIdx.filter (·.1)).map fun p => (p.2 : Int)) =
      (((mask.zipIdx.filter (·.1)).map fun p => p.2).map fun k : Nat => (k : Int)) := by
  rw [List.map_map]; rfl

theorem maskRows_sorted (mask : List Bool) (k : Nat) :
    (((mask.zipIdx k).filter (·.1)).map fun p => p.2).Pairwise (· < ·) := by
  have : ((mask.zipIdx k).map fun p => p.2).Pairwise (· < ·) := by
    have e : ((mask.zipIdx k).map fun p => p.2) = List.range' k mask.length := by
      simpa using List.zipIdx_map_snd k mask
    rw [e]
    exact List.pairwise_lt_range'
  rw [List.pairwise_map] at this ⊢
  exact this.sublist List.filter_sublist

theorem mem_maskRows (mask : List Bool) (p : Nat) :
    p ∈ ((mask.zipIdx.filter (·.1)).map fun p => p.2) ↔ mask[p]? = some true := by
  simp only [List.mem_map, List.mem_filter, Prod.exists]
  constructor
  · rintro ⟨b, q, ⟨h1, h2⟩, rfl⟩
    rw [List.mem_zipIdx_iff_getElem?] at h1
    have h2 : b = true := h2
    subst h2
    exact h1
  · intro h
    exact ⟨true, p, ⟨List.mem_zipIdx_iff_getElem?.2 h, rfl⟩, rfl⟩

/-- `t.bool_select(axis, mask)` with one entry per position of a non-empty axis: the slices at the positions
`rows` where the mask is true, in increasing order. Missing for the full claim: the empty axis. -/
theorem C57_bool_select_partial (dflt dev : Order) (t : Tensor α) (axis : Int) (mask : List Bool) (ht : t.WF)
    (hax : AxisOk t.arr.shape.length axis)
    (hm : mask.length = t.arr.shape.getD (normAxis t.arr.shape.length axis) 0) (hne : mask ≠ []) :
    ∃ (r : Tensor α) (rows : List Nat), t.boolSelect dflt dev axis mask = .ok r ∧ r.WF ∧
      rows.Pairwise (· < ·) ∧ (∀ p, p ∈ rows ↔ mask[p]? = some true) ∧
      r.arr.shape = t.arr.shape.set (normAxis t.arr.shape.length axis) rows.length ∧
      ∀ idx, InRange idx r.arr.shape → ∃ p, rows[idx.getD (normAxis t.arr.shape.length axis) 0]? = some p ∧
        ∃ x, t.arr.elem (idx.set (normAxis t.arr.shape.length axis) p) = some x ∧ r.arr.elem idx = some x := by
  have hpos : 0 < mask.length := List.length_pos_iff.2 hne
  obtain ⟨r, h1, h2, h3, h4⟩ := C46_index_select_partial dflt dev t axis
    (((mask.zipIdx.filter (·.1)).map fun p => p.2).map fun k : Nat => (k : Int)) ht hax (by omega) (by
      intro i hi
      obtain ⟨k, hk, rfl⟩ := List.mem_map.1 hi
      rw [mem_maskRows] at hk
      have := (List.getElem?_eq_some_iff.1 hk).1
      exact ⟨by omega, by omega⟩)
  refine ⟨r, (mask.zipIdx.filter (·.1)).map fun p => p.2, ?_, h2, maskRows_sorted mask 0, mem_maskRows mask, ?_, ?_⟩
  · unfold Tensor.boolSelect
    rw [maskRows_eq]; exact h1
  · rw [h3, List.length_map]
  · intro idx hidx
    obtain ⟨i, e1, x, e2, e3⟩ := h4 idx hidx
    rw [List.getElem?_map] at e1
    cases e4 : ((mask.zipIdx.filter (·.1)).map fun p => p.2)[idx.getD (normAxis t.arr.shape.length axis) 0]? with
    | none => rw [e4] at e1; cases e1
    | some p =>
      rw [e4] at e1
      cases e1
      rw [normAxis_ofNat] at e2
      exact ⟨p, rfl, x, e2, e3⟩

/-- A mask with a true entry beyond the axis is rejected. -/
theorem C57_beyond_axis (dflt dev : Order) (t : Tensor α) (axis : Int) (mask : List Bool)
    (hax : AxisOk t.arr.shape.length axis) (p : Nat) (hp : mask[p]? = some true)
    (hlt : t.arr.shape.getD (normAxis t.arr.shape.length axis) 0 ≤ p) :
    t.boolSelect dflt dev axis mask = .error .indexError := by
  unfold Tensor.boolSelect
  rw [maskRows_eq]
  refine C46_index_error dflt dev t axis _ hax ⟨p, List.mem_map.2 ⟨p, (mem_maskRows mask p).2 hp, rfl⟩, ?_⟩
  unfold AxisOk
  omega

/-- The length of the mask is not compared with the axis: masks that are too short or too long in false
entries are accepted. -/
theorem C57_mask_length_unchecked :
    (⟨[1, 2, 3], ⟨[⟨3, 1⟩], 0⟩⟩ : Tensor Nat).boolSelect .C .C 0 [false, true] = .ok ⟨[2], ⟨[⟨1, 1⟩], 0⟩⟩ ∧
    (⟨[1, 2, 3], ⟨[⟨3, 1⟩], 0⟩⟩ : Tensor Nat).boolSelect .C .C 0 [false, true, false, false, false] =
      .ok ⟨[2], ⟨[⟨1, 1⟩], 0⟩⟩ := by decide

example : (⟨[1, 2, 3, 4, 5, 6], ⟨[⟨2, 3⟩, ⟨3, 1⟩], 0⟩⟩ : Tensor Nat).boolSelect .C .F (-1) [true, false, true] =
    .ok ⟨[1, 4, 3, 6], ⟨[⟨2, 1⟩, ⟨2, 2⟩], 0⟩⟩ := by decide

end
end Rstsr
