import Verif.Proof.Concat
import Verif.Thm.Gather
/-!
# Theorems on joining and splitting tensors (C47)

`Spec.InRange`, `Spec.AxisOk` and `Spec.normAxis` are the specification; `t.arr` is the array a tensor
stands for. `idx.set ax v` replaces coordinate `ax`, `idx.insertIdx ax v` puts a new coordinate in front of
it and `shape.eraseIdx ax` leaves the axis out.
-/
namespace Rstsr
open Spec

section
variable {α : Type}

theorem insertIdx_eraseIdx_getD {s : List Nat} {a : Nat} (h : a < s.length) : (s.eraseIdx a).insertIdx a (s.getD a 0) = s := by
  rw [List.getD_eq_getElem?_getD, List.getElem?_eq_getElem h, Option.getD_some, List.insertIdx_eraseIdx_getElem]

theorem elem_congr {d : List α} {l m : Layout} {i j : List Nat} (h : m.addr j = l.addr i) :
    (⟨d, m⟩ : Tensor α).arr.elem j = (⟨d, l⟩ : Tensor α).arr.elem i := by
  show (if m.addr j < 0 then none else d[(m.addr j).toNat]?) = if l.addr i < 0 then none else d[(l.addr i).toNat]?
  rw [h]

theorem sum_ones {β : Type} (L : List β) : (L.map fun _ => 1).sum = L.length := by
  induction L with
  | nil => rfl
  | cons x xs ih => rw [List.map_cons, List.sum_cons, ih, List.length_cons]; omega

/-! ## concat -/

/-- `concat(ts, axis)`: tensors that agree in every other axis are laid one after another on the axis. The
axis gets the sum of the lengths, tensor number `p` starts where the tensors before it end, and the result
has no other elements. -/
theorem C47_concat (dflt dev : Order) (ts : List (Tensor α)) (axis : Int) (shape : List Nat) (hne : ts ≠ [])
    (hax : AxisOk shape.length axis) (hwf : ∀ t ∈ ts, t.WF)
    (hts : ∀ t ∈ ts, t.arr.shape = shape.set (normAxis shape.length axis) (t.arr.shape.getD (normAxis shape.length axis) 0)) :
    ∃ r, Tensor.concat dflt dev ts axis = .ok r ∧ r.WF ∧
      r.arr.shape = shape.set (normAxis shape.length axis) ((ts.map fun t => t.arr.shape.getD (normAxis shape.length axis) 0).sum) ∧
      (∀ (p : Nat) (t : Tensor α), ts[p]? = some t → ∀ idx, InRange idx t.arr.shape →
        ∃ x, t.arr.elem idx = some x ∧
          r.arr.elem (idx.set (normAxis shape.length axis)
            (((ts.take p).map fun t => t.arr.shape.getD (normAxis shape.length axis) 0).sum +
              idx.getD (normAxis shape.length axis) 0)) = some x) ∧
      ∀ idx, InRange idx r.arr.shape → ∃ (p : Nat) (t : Tensor α) (i : List Nat), ts[p]? = some t ∧ InRange i t.arr.shape ∧
        idx = i.set (normAxis shape.length axis)
            (((ts.take p).map fun t => t.arr.shape.getD (normAxis shape.length axis) 0).sum +
              i.getD (normAxis shape.length axis) 0) := by
  obtain ⟨t0, us, rfl⟩ := List.exists_cons_of_ne_nil hne
  have hlt : normAxis shape.length axis < shape.length := normAxis_lt hax
  generalize hA : normAxis shape.length axis = ax at *
  have hlen : (shape.eraseIdx ax).length + 1 = shape.length := by rw [List.length_eraseIdx_of_lt hlt]; omega
  have hset : ∀ v, shape.set ax v = (shape.eraseIdx ax).insertIdx ax v := by
    intro v
    conv_lhs => rw [← insertIdx_eraseIdx_getD hlt]
    exact set_insertIdx (by omega)
  have hsh : ∀ t ∈ t0 :: us, t.layout.shape = (shape.eraseIdx ax).insertIdx ax (axLen ax t) := fun t ht => by
    rw [← hset]; exact hts t ht
  obtain ⟨r, h1, h2, h3, -, h4⟩ := concat_ok dflt dev (t0 := t0) (ts := us) (axis := axis) (ax := ax)
    (rest := shape.eraseIdx ax) (by rw [hlen]; exact hax) (by rw [hlen, hA]) fun t ht => ⟨hwf t ht, hsh t ht⟩
  have split : ∀ (s : List Nat) v i, s = (shape.eraseIdx ax).insertIdx ax v → InRange i s →
      ∃ j q, InRange j (shape.eraseIdx ax) ∧ q < v ∧ i = j.insertIdx ax q := by
    intro s v i hs hi
    rw [hs, ← hset] at hi
    exact (inRange_set_split hlt).1 hi
  refine ⟨r, h1, h2, ?_, ?_, ?_⟩
  · rw [hset]; exact h3
  · intro p t hp idx hi
    obtain ⟨j, q, k1, k2, rfl⟩ := split _ _ idx (hsh t (List.mem_of_getElem? hp)) hi
    have hj : ax ≤ j.length := by have := k1.length_eq; omega
    rw [getD_insertIdx hj, set_insertIdx hj]
    exact h4 p t hp j q k1 k2
  · intro idx hi
    obtain ⟨j, q, k1, k2, rfl⟩ := split _ _ idx h3 hi
    have hj : ax ≤ j.length := by have := k1.length_eq; omega
    obtain ⟨p, d, s, g1, g2, g3⟩ := locate k2
    rw [List.getElem?_map] at g1
    cases g4 : (t0 :: us)[p]? with
    | none => rw [g4] at g1; cases g1
    | some t =>
      rw [g4] at g1
      cases g1
      refine ⟨p, t, j.insertIdx ax s, g4, ?_, ?_⟩
      · show InRange _ t.layout.shape
        rw [hsh t (List.mem_of_getElem? g4)]
        exact inRange_insertIdx' k1 (by omega) g2
      · rw [getD_insertIdx hj, set_insertIdx hj, g3, List.map_take]
        rfl

/-- What `concat` accepts: at least one tensor, all of the same rank and equal outside the axis, and an
axis of that rank. -/
theorem C47_concat_accept_iff (dflt dev : Order) (ts : List (Tensor α)) (axis : Int) (hwf : ∀ t ∈ ts, t.WF) :
    (∃ r, Tensor.concat dflt dev ts axis = .ok r) ↔
      ∃ t0 ∈ ts, AxisOk t0.arr.shape.length axis ∧ ∀ t ∈ ts, t.arr.shape.length = t0.arr.shape.length ∧
        t.arr.shape.eraseIdx (normAxis t0.arr.shape.length axis) = t0.arr.shape.eraseIdx (normAxis t0.arr.shape.length axis) := by
  have nd : ∀ t : Tensor α, t.layout.ndim = t.layout.shape.length := by intro t; simp [Layout.ndim, Layout.shape]
  constructor
  · rintro ⟨r, h⟩
    cases ts with
    | nil => cases h
    | cons t0 us =>
      simp only [Tensor.concat] at h
      split at h
      · cases h
      · split at h
        · cases h
        · rename_i h1 h2
          obtain ⟨ax, h3, h⟩ := bind_ok.1 h
          obtain ⟨h4, h5⟩ := checkAxis_ok.1 h3
          split at h
          · cases h
          · rename_i h6
            simp only [List.any_eq_true, not_exists, not_and, decide_eq_true_eq, not_not] at h2 h6
            subst h5
            rw [nd] at h4 h6
            exact ⟨t0, List.mem_cons_self, h4, fun t ht => ⟨by have := h2 t ht; rw [nd, nd] at this; exact this, h6 t ht⟩⟩
  · rintro ⟨t0, h0, hax, h⟩
    obtain ⟨r, hr, -⟩ := C47_concat dflt dev ts axis t0.arr.shape (List.ne_nil_of_mem h0) hax hwf (by
      intro t ht
      obtain ⟨h1, h2⟩ := h t ht
      have hlt := normAxis_lt hax
      generalize normAxis t0.arr.shape.length axis = ax at *
      conv_rhs => rw [← insertIdx_eraseIdx_getD hlt]
      rw [set_insertIdx (by rw [List.length_eraseIdx_of_lt hlt]; omega), ← h2, insertIdx_eraseIdx_getD (by omega)])
    exact ⟨r, hr⟩

/-- The empty list is rejected, by `concat`, `stack`, `hstack` and `vstack` alike. -/
theorem C47_empty_list (dflt dev : Order) (axis : Int) :
    Tensor.concat dflt dev ([] : List (Tensor α)) axis = .error .invalidValue ∧
    Tensor.stack dflt dev ([] : List (Tensor α)) axis = .error .invalidValue ∧
    Tensor.hstack dflt dev ([] : List (Tensor α)) = .error .invalidValue ∧
    Tensor.vstack dflt dev ([] : List (Tensor α)) = .error .invalidValue := ⟨rfl, rfl, rfl, rfl⟩

/-! ## stack -/

theorem expand_one {t : Tensor α} (ht : t.WF) {ax : Nat} (hax : ax ≤ t.layout.shape.length) :
    ∃ m, t.layout.expandDims (some [(ax : Int)]) = .ok m ∧ m.shape = t.layout.shape.insertIdx ax 1 ∧
      (⟨t.data, m⟩ : Tensor α).WF ∧ ∀ j, InRange j t.layout.shape → m.addr (j.insertIdx ax 0) = t.layout.addr j := by
  have hnd : t.layout.ndim = t.layout.shape.length := by simp [Layout.ndim, Layout.shape]
  have hG := (valid_iff.1 ht.fit.valid).good ht.1
  have hok : AxisOk (t.layout.ndim + 1) (ax : Int) := ⟨by omega, by omega⟩
  obtain ⟨m, hm⟩ := ((C11_insert_one t.layout ht.fit.valid ht.1 ax).1).2 hok
  obtain ⟨h1, h2⟩ := (C11_insert_one t.layout ht.fit.valid ht.1 ax).2 m hm
  obtain ⟨-, s, hs, -⟩ := (dimInsert_ok hG).1 hm
  rw [normAxis_ofNat] at h1 h2 hs
  refine ⟨m, ?_, h1, ?_, h2⟩
  · unfold Layout.expandDims
    rw [normalizeAxes_ok.2 ⟨by simpa using hok, by simp, rfl⟩, ok_bind]
    simp only [Option.getD_some, List.map_cons, List.map_nil, List.length_singleton, normAxis_ofNat]
    simp only [if_true, List.insertionSort_cons, List.insertionSort_nil, List.orderedInsert_nil, List.map_cons, List.map_nil]
    show (t.layout.dimInsert (ax : Int) >>= fun l => .ok l) = _
    rw [hm]; rfl
  · subst hs
    refine wf_of_sub ht (insert_good hG (by unfold Layout.ndim at hnd; omega)) ?_ ht.1 ?_
    · intro j hj
      rw [h1] at hj
      have hj' : InRange j ((t.layout.shape.insertIdx ax 0).set ax 1) := by rw [set_insertIdx hax]; exact hj
      obtain ⟨j', q, g1, g2, rfl⟩ := (inRange_set_split (by rw [List.length_insertIdx_of_le_length hax]; omega)).1 hj'
      rw [List.eraseIdx_insertIdx_self] at g1
      obtain rfl : q = 0 := by omega
      exact ⟨j', g1, h2 j' g1⟩
    · intro hz
      obtain ⟨-, -, -, -, h⟩ := WF_bounds ht
      exact h

/-- `stack(ts, axis)` of tensors of one shape: a new axis with one entry per tensor, and entry `p` is tensor
number `p`. The axis may be any of the `ndim + 1` places. -/
theorem C47_stack (dflt dev : Order) (ts : List (Tensor α)) (axis : Int) (shape : List Nat) (hne : ts ≠ [])
    (hax : AxisOk (shape.length + 1) axis) (hwf : ∀ t ∈ ts, t.WF) (hts : ∀ t ∈ ts, t.arr.shape = shape) :
    ∃ r, Tensor.stack dflt dev ts axis = .ok r ∧ r.WF ∧
      r.arr.shape = shape.insertIdx (normAxis (shape.length + 1) axis) ts.length ∧
      ∀ (p : Nat) (t : Tensor α), ts[p]? = some t → ∀ idx, InRange idx shape →
        ∃ x, t.arr.elem idx = some x ∧ r.arr.elem (idx.insertIdx (normAxis (shape.length + 1) axis) p) = some x := by
  obtain ⟨t0, us, rfl⟩ := List.exists_cons_of_ne_nil hne
  have hle : normAxis (shape.length + 1) axis ≤ shape.length := Nat.lt_succ_iff.1 (normAxis_lt hax)
  have hts : ∀ t ∈ t0 :: us, t.layout.shape = shape := hts
  have hnd : t0.layout.ndim = shape.length := by
    rw [← hts t0 List.mem_cons_self]; simp [Layout.ndim, Layout.shape]
  have hchk : checkAxisInsert axis t0.layout.ndim = .ok (normAxis (shape.length + 1) axis) := by
    rw [hnd]; exact checkAxisInsert_ok.2 ⟨hax, rfl⟩
  generalize normAxis (shape.length + 1) axis = ax at *
  have hex : ∀ t : Tensor α, ∃ u : Tensor α, t ∈ t0 :: us → (t.layout.expandDims (some [(ax : Int)]) >>= fun l => pure (⟨t.data, l⟩ : Tensor α)) = .ok u ∧
      u.WF ∧ u.layout.shape = shape.insertIdx ax 1 ∧ ∀ j, InRange j shape → u.arr.elem (j.insertIdx ax 0) = t.arr.elem j := by
    intro t
    by_cases ht : t ∈ t0 :: us
    · obtain ⟨m, h1, h2, h3, h4⟩ := expand_one (hwf t ht) (ax := ax) (by rw [hts t ht]; exact hle)
      rw [hts t ht] at h2 h4
      refine ⟨⟨t.data, m⟩, fun _ => ⟨by rw [h1]; rfl, h3, h2, fun j hj => ?_⟩⟩
      exact elem_congr (h4 j hj)
    · exact ⟨t, fun h => absurd h ht⟩
  choose g hg using hex
  have hlen : ∀ u ∈ (t0 :: us).map g, axLen ax u = 1 := by
    intro u hu
    obtain ⟨t, ht, rfl⟩ := List.mem_map.1 hu
    unfold axLen
    rw [(hg t ht).2.2.1, getD_insertIdx hle]
  have hsum : ∀ p, ((((t0 :: us).map g).take p).map (axLen ax)).sum = min p (t0 :: us).length := by
    intro p
    rw [List.map_congr_left (g := fun _ => 1) fun u hu => hlen u (List.mem_of_mem_take hu)]
    rw [sum_ones, List.length_take, List.length_map]
  obtain ⟨r, h1, h2, h3, -, h4⟩ := concat_ok dflt dev (t0 := g t0) (ts := us.map g) (axis := (ax : Int)) (ax := ax)
    (rest := shape) ⟨by omega, by omega⟩ (normAxis_ofNat _ _).symm (by
      intro u hu
      have hu : u ∈ (t0 :: us).map g := hu
      rw [hlen u hu]
      obtain ⟨t, ht, rfl⟩ := List.mem_map.1 hu
      exact ⟨(hg t ht).2.1, (hg t ht).2.2.1⟩)
  refine ⟨r, ?_, h2, ?_, ?_⟩
  · simp only [Tensor.stack]
    rw [if_neg, hchk, ok_bind]
    · rw [mapM_eq_map (f := fun t : Tensor α => t.layout.expandDims (some [(ax : Int)]) >>= fun l => pure (⟨t.data, l⟩ : Tensor α))
        (g := g) fun t ht => (hg t ht).1, ok_bind]
      exact h1
    · simp only [List.any_eq_true, not_exists, not_and, decide_eq_true_eq, not_not]
      intro t ht
      rw [hts t ht, hts t0 List.mem_cons_self]
  · show r.layout.shape = _
    rw [h3]
    have := hsum (t0 :: us).length
    rw [List.take_of_length_le (by simp)] at this
    rw [← List.map_cons, this]
    simp
  · intro p t hp idx hi
    have ht : t ∈ t0 :: us := List.mem_of_getElem? hp
    obtain ⟨x, k1, k2⟩ := h4 p (g t) (by rw [← List.map_cons, List.getElem?_map, hp]; rfl) idx 0 hi (by
      rw [hlen _ (List.mem_map_of_mem ht)]; omega)
    have hps : p < (t0 :: us).length := by
      by_contra hc
      rw [List.getElem?_eq_none (by omega)] at hp
      cases hp
    rw [← List.map_cons, hsum, Nat.min_eq_left (Nat.le_of_lt hps)] at k2
    rw [(hg t ht).2.2.2 idx hi] at k1
    exact ⟨x, k1, k2⟩

/-- What `stack` accepts: at least one tensor, all of one shape, and one of the `ndim + 1` places. -/
theorem C47_stack_accept_iff (dflt dev : Order) (ts : List (Tensor α)) (axis : Int) (hwf : ∀ t ∈ ts, t.WF) :
    (∃ r, Tensor.stack dflt dev ts axis = .ok r) ↔
      ∃ t0 ∈ ts, AxisOk (t0.arr.shape.length + 1) axis ∧ ∀ t ∈ ts, t.arr.shape = t0.arr.shape := by
  constructor
  · rintro ⟨r, h⟩
    cases ts with
    | nil => cases h
    | cons t0 us =>
      simp only [Tensor.stack] at h
      split at h
      · cases h
      · rename_i h1
        obtain ⟨ax, h3, h⟩ := bind_ok.1 h
        simp only [List.any_eq_true, not_exists, not_and, decide_eq_true_eq, not_not] at h1
        have := (checkAxisInsert_ok.1 h3).1
        exact ⟨t0, List.mem_cons_self, by simpa [Layout.ndim, Layout.shape, Tensor.arr] using this, h1⟩
  · rintro ⟨t0, h0, hax, h⟩
    obtain ⟨r, hr, -⟩ := C47_stack dflt dev ts axis t0.arr.shape (List.ne_nil_of_mem h0) hax hwf h
    exact ⟨r, hr⟩

/-! ## unstack -/

/-- `unstack(t, axis)`: one tensor per position on the axis, without that axis; entry `p` has the elements
of `t` at position `p`. All are views of the storage of `t`. -/
theorem C47_unstack (t : Tensor α) (axis : Int) (ht : t.WF) (hax : AxisOk t.arr.shape.length axis) :
    ∃ us, Tensor.unstack t axis = .ok us ∧ us.length = t.arr.shape.getD (normAxis t.arr.shape.length axis) 0 ∧
      ∀ (p : Nat) (u : Tensor α), us[p]? = some u → u.data = t.data ∧
        u.arr.shape = t.arr.shape.eraseIdx (normAxis t.arr.shape.length axis) ∧
        (0 ∉ t.arr.shape → u.WF) ∧
        ∀ idx, InRange idx u.arr.shape →
          ∃ x, t.arr.elem (idx.insertIdx (normAxis t.arr.shape.length axis) p) = some x ∧ u.arr.elem idx = some x := by
  have hax : AxisOk t.layout.shape.length axis := hax
  show ∃ us : List (Tensor α), _ ∧ us.length = t.layout.shape.getD (normAxis t.layout.shape.length axis) 0 ∧
    ∀ (p : Nat) (u : Tensor α), _ → _ ∧ u.layout.shape = t.layout.shape.eraseIdx (normAxis t.layout.shape.length axis) ∧
     (0 ∉ t.layout.shape → u.WF) ∧ ∀ idx, InRange idx u.layout.shape →
          ∃ x, t.arr.elem (idx.insertIdx (normAxis t.layout.shape.length axis) p) = some x ∧ _
  have hnd : t.layout.ndim = t.layout.shape.length := by simp [Layout.ndim, Layout.shape]
  have hlt := normAxis_lt hax
  have hchk : checkAxis axis t.layout.ndim = .ok (normAxis t.layout.shape.length axis) := by
    rw [hnd]; exact checkAxis_ok.2 ⟨hax, rfl⟩
  generalize normAxis t.layout.shape.length axis = ax at *
  have hna : normAxis t.layout.ndim (ax : Int) = ax := normAxis_ofNat _ _
  have hok : AxisOk t.layout.ndim (ax : Int) := ⟨by omega, by omega⟩
  have hex : ∀ p : Nat, ∃ u : Tensor α, p < t.layout.shape.getD ax 0 →
      (t.layout.dimSelect (ax : Int) (p : Int) >>= fun l => pure (⟨t.data, l⟩ : Tensor α)) = .ok u ∧ u.data = t.data ∧
        u.layout.shape = t.layout.shape.eraseIdx ax ∧ (0 ∉ t.layout.shape → u.WF) ∧
        ∀ idx, InRange idx u.layout.shape → ∃ x, t.arr.elem (idx.insertIdx ax p) = some x ∧ u.arr.elem idx = some x := by
    intro p
    by_cases hp : p < t.layout.shape.getD ax 0
    · obtain ⟨m, hm⟩ := (C10_accept_iff t.layout ht.fit.valid (ax : Int) (p : Int)).2 ⟨hok, by
        rw [hna]; exact ⟨by omega, by omega⟩⟩
      obtain ⟨h1, h2⟩ := C10_select_element t.layout m ht.fit.valid _ _ hm
      rw [hna, normAxis_ofNat] at h2
      rw [hna] at h1
      refine ⟨⟨t.data, m⟩, fun _ => ⟨by rw [hm]; rfl, rfl, h1, ?_, ?_⟩⟩
      · intro hz
        have hz' : 0 ∉ m.shape := by
          rw [h1]
          exact fun h => hz (List.mem_of_mem_eraseIdx h)
        have hv := valid_iff.1 (C10_result_valid t.layout m _ _ hm)
        have ho : 0 ≤ m.offset := by
          have hi := inRange_zeros (shape := m.shape) fun d hd => Nat.pos_of_ne_zero fun e => hz' (e ▸ hd)
          obtain ⟨g1, g2⟩ := h2 _ hi
          have h5 := C22_valid_nonNegative t.layout ht.fit.valid ht.1 _ g1
          change 0 ≤ t.layout.addr _ at h5
          rw [← g2, addr_eq] at h5
          have h6 := dot_zeros m.shape.length m.axes
          omega
        exact wf_of_sub ht (hv.good ho) (fun j hj => ⟨_, h2 j hj⟩) ho fun h => absurd h hz'
      · intro idx hi
        obtain ⟨g1, g2⟩ := h2 idx hi
        obtain ⟨x, -, k2⟩ := ht.get g1
        exact ⟨x, k2, (elem_congr g2).trans k2⟩
    · exact ⟨t, fun h => absurd h hp⟩
  choose g hg using hex
  refine ⟨(List.range (t.layout.shape.getD ax 0)).map g, ?_, by simp, ?_⟩
  · unfold Tensor.unstack
    rw [if_neg (by omega), hchk, ok_bind]
    simp only [getD_dim]
    exact mapM_eq_map (f := fun i : Nat => t.layout.dimSelect (ax : Int) (i : Int) >>= fun l => pure (⟨t.data, l⟩ : Tensor α))
      fun p hp => (hg p (List.mem_range.1 hp)).1
  · intro p u hu
    rw [List.getElem?_map] at hu
    by_cases hp : p < t.layout.shape.getD ax 0
    · rw [List.getElem?_range hp] at hu
      cases hu
      exact (hg p hp).2
    · rw [List.getElem?_eq_none (by rw [List.length_range]; omega)] at hu
      cases hu

/-- A scalar cannot be unstacked, nor an axis the tensor does not have. -/
theorem C47_unstack_rejects (t : Tensor α) (axis : Int) :
    (t.arr.shape = [] → Tensor.unstack t axis = .error .invalidLayout) ∧
    (t.arr.shape ≠ [] → ¬ AxisOk t.arr.shape.length axis → Tensor.unstack t axis = .error .axisError) := by
  have hnd : t.layout.ndim = t.arr.shape.length := by simp [Layout.ndim, Layout.shape, Tensor.arr]
  constructor
  · intro h
    unfold Tensor.unstack
    rw [if_pos (by rw [hnd, h]; rfl)]
  · intro h h2
    unfold Tensor.unstack
    rw [if_neg (by rw [hnd]; exact fun e => h (List.length_eq_zero_iff.1 e)), hnd]
    have : checkAxis axis t.arr.shape.length = .error .axisError := by
      unfold checkAxis
      unfold AxisOk at h2
      dsimp only
      rw [if_neg]
      split <;> omega
    rw [this]; rfl

/-- `unstack(stack(ts, axis), axis)` returns the tensors that were stacked. -/
theorem C47_unstack_stack (dflt dev : Order) (ts : List (Tensor α)) (axis : Int) (shape : List Nat) (hne : ts ≠ [])
    (hax : AxisOk (shape.length + 1) axis) (hwf : ∀ t ∈ ts, t.WF) (hts : ∀ t ∈ ts, t.arr.shape = shape) :
    ∃ r us, Tensor.stack dflt dev ts axis = .ok r ∧ Tensor.unstack r axis = .ok us ∧ us.length = ts.length ∧
      ∀ (p : Nat) (t u : Tensor α), ts[p]? = some t → us[p]? = some u → t.arr.Same u.arr := by
  obtain ⟨r, h1, h2, h3, h4⟩ := C47_stack dflt dev ts axis shape hne hax hwf hts
  have hle : normAxis (shape.length + 1) axis ≤ shape.length := Nat.lt_succ_iff.1 (normAxis_lt hax)
  have hl : r.arr.shape.length = shape.length + 1 := by rw [h3, List.length_insertIdx_of_le_length hle]
  obtain ⟨us, k1, k2, k3⟩ := C47_unstack r axis h2 (by rw [hl]; exact hax)
  rw [hl] at k2 k3
  rw [h3, getD_insertIdx hle] at k2
  refine ⟨r, us, h1, k1, k2, ?_⟩
  intro p t u hp hu
  obtain ⟨-, g2, -, g4⟩ := k3 p u hu
  rw [h3, List.eraseIdx_insertIdx_self] at g2
  have hs := hts t (List.mem_of_getElem? hp)
  refine ⟨by rw [g2, hs], fun idx hi => ?_⟩
  rw [hs] at hi
  obtain ⟨x, e1, e2⟩ := g4 idx (by rw [g2]; exact hi)
  obtain ⟨y, f1, f2⟩ := h4 p t hp idx hi
  rw [e1] at f2
  cases f2
  exact ⟨x, f1, e2⟩

/-! ## hstack, vstack -/

theorem mapM_congr_left {β γ : Type} {f g : β → Res γ} {xs : List β} (h : ∀ x ∈ xs, f x = g x) : xs.mapM f = xs.mapM g := by
  induction xs with
  | nil => rfl
  | cons x xs ih =>
    rw [List.mapM_cons, List.mapM_cons, h x List.mem_cons_self, ih fun y hy => h y (List.mem_cons_of_mem _ hy)]

/-- `hstack` of vectors joins them end to end; of tensors of higher rank, along axis 1. -/
theorem C47_hstack (dflt dev : Order) (ts : List (Tensor α)) (t0 : Tensor α) (h0 : ts[0]? = some t0)
    (hr : ∀ t ∈ ts, t.arr.shape ≠ []) :
    Tensor.hstack dflt dev ts = Tensor.concat dflt dev ts (if t0.arr.shape.length = 1 then 0 else 1) := by
  have nd : ∀ t : Tensor α, t.layout.ndim = t.arr.shape.length := by intro t; simp [Layout.ndim, Layout.shape, Tensor.arr]
  have h : ts.mapM Tensor.atleast1d = .ok ts := by
    rw [mapM_congr_left (g := fun t => .ok (id t)), mapM_eq_map (g := id) fun _ _ => rfl, List.map_id]
    intro t ht
    unfold Tensor.atleast1d
    split
    · rename_i h
      rw [nd] at h
      exact absurd (List.length_eq_zero_iff.1 h) (hr t ht)
    · rfl
  unfold Tensor.hstack
  rw [h, ok_bind]
  cases ts with
  | nil => simp at h0
  | cons t ts =>
    simp at h0
    subst h0
    simp only [nd]

/-- `hstack` of scalars makes a vector of them. -/
theorem C47_hstack_scalars (dflt dev : Order) (ts : List (Tensor α)) (hne : ts ≠ []) (hwf : ∀ t ∈ ts, t.WF)
    (hs : ∀ t ∈ ts, t.arr.shape = []) :
    ∃ r, Tensor.hstack dflt dev ts = .ok r ∧ r.WF ∧ r.arr.shape = [ts.length] ∧
      ∀ (p : Nat) (t : Tensor α), ts[p]? = some t → ∃ x, t.arr.elem [] = some x ∧ r.arr.elem [p] = some x := by
  obtain ⟨r, h1, h2, h3, h4⟩ := C47_stack dflt dev ts 0 [] hne ⟨by omega, by simp⟩ hwf hs
  refine ⟨r, ?_, h2, h3, fun p t hp => h4 p t hp [] trivial⟩
  rw [← h1]
  have nd : ∀ t ∈ ts, t.layout.ndim = 0 := by
    intro t ht
    have : t.layout.shape = [] := hs t ht
    unfold Layout.shape at this
    unfold Layout.ndim
    exact List.length_eq_zero_iff.2 (List.map_eq_nil_iff.1 this)
  have e : ∀ t ∈ ts, Tensor.atleast1d t = (t.layout.expandDims (some [((0 : Nat) : Int)]) >>= fun l => pure (⟨t.data, l⟩ : Tensor α)) := by
    intro t ht
    unfold Tensor.atleast1d
    rw [nd t ht]
    rfl
  obtain ⟨t0, us, rfl⟩ := List.exists_cons_of_ne_nil hne
  unfold Tensor.hstack
  simp only [Tensor.stack]
  rw [if_neg, nd t0 List.mem_cons_self, show checkAxisInsert 0 0 = .ok 0 from rfl, ok_bind, mapM_congr_left e]
  · cases hm : (t0 :: us).mapM fun t => (t.layout.expandDims (some [((0 : Nat) : Int)]) >>= fun l => pure (⟨t.data, l⟩ : Tensor α)) with
    | error x => rfl
    | ok vs =>
      rw [ok_bind, ok_bind]
      cases vs with
      | nil => rfl
      | cons v vs =>
        have hv : v.layout.ndim = 1 := by
          rw [List.mapM_cons] at hm
          obtain ⟨v', k1, k2⟩ := bind_ok.1 hm
          obtain ⟨vs', -, k3⟩ := bind_ok.1 k2
          obtain ⟨m, g1, g2, -⟩ := expand_one (hwf t0 List.mem_cons_self) (ax := 0) (by omega)
          rw [g1] at k1
          cases k1
          cases k3
          have := congrArg List.length g2
          have hs0 : t0.layout.shape = [] := hs t0 List.mem_cons_self
          rw [hs0] at this
          simpa [Layout.shape, Layout.ndim] using this
        simp only [hv, if_true]
        rfl
  · simp only [List.any_eq_true, not_exists, not_and, decide_eq_true_eq, not_not]
    intro t ht
    exact (hs t ht).trans (hs t0 List.mem_cons_self).symm

/-- `vstack` of tensors of rank 2 and more joins them along axis 0. -/
theorem C47_vstack (dflt dev : Order) (ts : List (Tensor α)) (hr : ∀ t ∈ ts, 2 ≤ t.arr.shape.length) :
    Tensor.vstack dflt dev ts = Tensor.concat dflt dev ts 0 := by
  have nd : ∀ t : Tensor α, t.layout.ndim = t.arr.shape.length := by intro t; simp [Layout.ndim, Layout.shape, Tensor.arr]
  have h : ts.mapM Tensor.atleast2d = .ok ts := by
    rw [mapM_congr_left (g := fun t => .ok (id t)), mapM_eq_map (g := id) fun _ _ => rfl, List.map_id]
    intro t ht
    have h2 := hr t ht
    unfold Tensor.atleast2d
    split
    · rename_i h; rw [nd] at h; omega
    · rename_i h; rw [nd] at h; omega
    · rfl
  unfold Tensor.vstack
  rw [h, ok_bind]
  cases ts <;> rfl

/-- `vstack` of vectors of one length makes them the rows of a matrix. -/
theorem C47_vstack_rows (dflt dev : Order) (ts : List (Tensor α)) (n : Nat) (hne : ts ≠ []) (hwf : ∀ t ∈ ts, t.WF)
    (hs : ∀ t ∈ ts, t.arr.shape = [n]) :
    ∃ r, Tensor.vstack dflt dev ts = .ok r ∧ r.WF ∧ r.arr.shape = [ts.length, n] ∧
      ∀ (p : Nat) (t : Tensor α), ts[p]? = some t → ∀ k < n, ∃ x, t.arr.elem [k] = some x ∧ r.arr.elem [p, k] = some x := by
  obtain ⟨r, h1, h2, h3, h4⟩ := C47_stack dflt dev ts 0 [n] hne ⟨by omega, by simp⟩ hwf hs
  refine ⟨r, ?_, h2, h3, fun p t hp k hk => h4 p t hp [k] ⟨hk, trivial⟩⟩
  rw [← h1]
  have nd : ∀ t ∈ ts, t.layout.ndim = 1 := by
    intro t ht
    have := congrArg List.length (hs t ht)
    simpa [Layout.shape, Layout.ndim, Tensor.arr] using this
  have e : ∀ t ∈ ts, Tensor.atleast2d t = (t.layout.expandDims (some [((0 : Nat) : Int)]) >>= fun l => pure (⟨t.data, l⟩ : Tensor α)) := by
    intro t ht
    unfold Tensor.atleast2d
    rw [nd t ht]
    rfl
  obtain ⟨t0, us, rfl⟩ := List.exists_cons_of_ne_nil hne
  unfold Tensor.vstack
  simp only [Tensor.stack]
  rw [if_neg, nd t0 List.mem_cons_self, show checkAxisInsert 0 1 = .ok 0 from rfl, ok_bind, mapM_congr_left e]
  · cases hm : (t0 :: us).mapM fun t => (t.layout.expandDims (some [((0 : Nat) : Int)]) >>= fun l => pure (⟨t.data, l⟩ : Tensor α)) with
    | error x => rfl
    | ok vs =>
      rw [ok_bind, ok_bind]
      cases vs <;> rfl
  · simp only [List.any_eq_true, not_exists, not_and, decide_eq_true_eq, not_not]
    intro t ht
    exact (hs t ht).trans (hs t0 List.mem_cons_self).symm

end

/-! ## Examples -/

/-- Two matrices of different widths, the second a transposed view. -/
example : ∃ r, Tensor.concat .C .C [(⟨[1, 2, 3, 4], ⟨[⟨2, 2⟩, ⟨2, 1⟩], 0⟩⟩ : Tensor Int), ⟨[5, 6, 7, 8, 9, 10], ⟨[⟨2, 1⟩, ⟨3, 2⟩], 0⟩⟩] (-1) = .ok r ∧
    r.layout.shape = [2, 5] ∧ r.data = [1, 2, 5, 7, 9, 3, 4, 6, 8, 10] := ⟨_, rfl, by decide, rfl⟩

/-- The hypotheses of `C47_concat` hold for these. -/
example : ∀ t ∈ [(⟨[1, 2, 3, 4], ⟨[⟨2, 2⟩, ⟨2, 1⟩], 0⟩⟩ : Tensor Int), ⟨[5, 6, 7, 8, 9, 10], ⟨[⟨2, 1⟩, ⟨3, 2⟩], 0⟩⟩],
    t.WF ∧ t.arr.shape = [2, 0].set (normAxis 2 (-1)) (t.arr.shape.getD (normAxis 2 (-1)) 0) := by
  intro t ht
  simp only [List.mem_cons, List.not_mem_nil, or_false] at ht
  rcases ht with rfl | rfl
  · exact ⟨⟨by decide, rfl⟩, by decide⟩
  · exact ⟨⟨by decide, rfl⟩, by decide⟩

/-- Two vectors stacked as columns, one of them read backwards. -/
example : ∃ r, Tensor.stack .C .C [(⟨[1, 2, 3], ⟨[⟨3, 1⟩], 0⟩⟩ : Tensor Int), ⟨[4, 5, 6], ⟨[⟨3, -1⟩], 2⟩⟩] (-1) = .ok r ∧
    r.layout.shape = [3, 2] ∧ r.data = [1, 6, 2, 5, 3, 4] := ⟨_, rfl, by decide, rfl⟩

example : ∃ us, Tensor.unstack (⟨[1, 2, 3, 4, 5, 6], ⟨[⟨3, 2⟩, ⟨2, 1⟩], 0⟩⟩ : Tensor Int) 1 = .ok us ∧
    us.map (·.layout) = [⟨[⟨3, 2⟩], 0⟩, ⟨[⟨3, 2⟩], 1⟩] := ⟨_, rfl, by decide⟩

/-- Different widths in the other axis are rejected. -/
example : Tensor.concat .C .C [(⟨[1, 2, 3, 4], ⟨[⟨2, 2⟩, ⟨2, 1⟩], 0⟩⟩ : Tensor Int), ⟨[5, 6, 7, 8, 9, 10], ⟨[⟨2, 1⟩, ⟨3, 2⟩], 0⟩⟩] 0 =
    .error .invalidLayout := by decide

end Rstsr
