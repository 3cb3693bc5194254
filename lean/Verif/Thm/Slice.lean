import Verif.Proof.MultiSlice
/-!
# Theorems C09, C10, C12: slicing and integer selection

`l.Valid` says that `Layout::new` accepts the layout's own shape, strides and offset.
-/
namespace Rstsr
open Spec

theorem getD_dim (l : Layout) (a : Nat) : (l.axes.getD a default).dim = l.shape.getD a 0 :=
  (dims_getD l.axes a).symm

/-! ## C09: one slice -/

/-- Acceptance: the axis is legal and the step is not 0. -/
theorem C09_accept_iff (l : Layout) (hl : l.Valid) (axis : Int) (s : SliceI) :
    (∃ m, l.dimNarrow axis s = .ok m) ↔ AxisOk l.ndim axis ∧ s.step ≠ some 0 := by
  constructor
  · rintro ⟨m, h⟩; exact dimNarrow_ok_axis h
  · rintro ⟨h1, h2⟩
    obtain ⟨m, n, start, h, -⟩ := dimNarrow_spec (valid_iff.1 hl) h1 h2
    exact ⟨m, h⟩

/-- A zero step is refused on every legal axis. -/
theorem C09_zero_step (l : Layout) (axis : Int) (s : SliceI) (hax : AxisOk l.ndim axis)
    (hs : s.step = some 0) : l.dimNarrow axis s = .error .invalidValue := by
  unfold Layout.dimNarrow
  rw [checkAxis_ok.2 ⟨hax, rfl⟩]
  obtain ⟨a, b, c⟩ := s
  simp only at hs
  subst hs
  simp

/-- The Python law. Missing for the full claim: negative steps with the literal stop `-1` or a start
below `-len` (see `C09_stop_minus_one_differs` and `C09_low_start_differs`). -/
theorem C09_slice_partial (l m : Layout) (hl : l.Valid) (axis : Int) (s : SliceI)
    (h : l.dimNarrow axis s = .ok m) (len : Nat)
    (hlen : l.shape[normAxis l.ndim axis]? = some len) (hpy : PyOk len s) :
    ∃ n, PyCount len s.start s.stop (s.step.getD 1) n ∧
      m.shape = l.shape.set (normAxis l.ndim axis) n ∧
      ∀ j k, InRange j m.shape → j[normAxis l.ndim axis]? = some k →
        0 ≤ pyPos len s.start (s.step.getD 1) k ∧ pyPos len s.start (s.step.getD 1) k < len ∧
        m.addr j = l.addr (j.set (normAxis l.ndim axis) (pyPos len s.start (s.step.getD 1) k).toNat) := by
  obtain ⟨h1, h2⟩ := dimNarrow_ok_axis h
  obtain ⟨m', n, start, h3, h4, h5⟩ := dimNarrow_spec (valid_iff.1 hl) h1 h2
  obtain rfl : m = m' := by rw [h] at h3; exact Except.ok.inj h3
  have hd : (l.axes.getD (normAxis l.ndim axis) default).dim = len := by
    rw [getD_dim, List.getD_eq_getElem?_getD, hlen]; rfl
  rw [hd] at h5
  obtain ⟨h6, h7⟩ := h5 hpy
  refine ⟨n, h6, h4.shape, ?_⟩
  intro j k hj hk
  obtain ⟨-, e2, e3, e4⟩ := h4.elem hj
  have hkd : j.getD (normAxis l.ndim axis) 0 = k := by rw [List.getD_eq_getElem?_getD, hk]; rfl
  rw [hkd] at e2 e3 e4
  have hn : n ≠ 0 := by
    have hla : normAxis l.ndim axis < m.shape.length := by
      rw [← hj.length_eq]; exact (List.getElem?_eq_some_iff.1 hk).1
    have := hj.getD hla
    rw [h4.shape] at this hla
    rw [List.getD_eq_getElem?_getD, List.getD_eq_getElem?_getD, List.getElem?_set_self (by simpa using hla)] at this
    simp only [Option.getD_some] at this
    omega
  rw [h7 hn, hd] at *
  exact ⟨e3, e4, e2⟩

/-- Every slice, whatever its bounds, shows equally spaced positions of the axis: the first is `start`,
the spacing is the step, all of them are on the axis, and nothing else changes. -/
theorem C09_subsequence (l m : Layout) (hl : l.Valid) (axis : Int) (s : SliceI)
    (h : l.dimNarrow axis s = .ok m) :
    ∃ (n : Nat) (start : Int), m.shape = l.shape.set (normAxis l.ndim axis) n ∧
      ∀ j k, InRange j m.shape → j[normAxis l.ndim axis]? = some k →
        0 ≤ start + k * s.step.getD 1 ∧
        start + k * s.step.getD 1 < (l.shape.getD (normAxis l.ndim axis) 0 : Nat) ∧
        m.addr j = l.addr (j.set (normAxis l.ndim axis) (start + k * s.step.getD 1).toNat) := by
  obtain ⟨h1, h2⟩ := dimNarrow_ok_axis h
  obtain ⟨m', n, start, h3, h4, h5⟩ := dimNarrow_spec (valid_iff.1 hl) h1 h2
  obtain rfl : m = m' := by rw [h] at h3; exact Except.ok.inj h3
  refine ⟨n, start, h4.shape, ?_⟩
  intro j k hj hk
  obtain ⟨-, e2, e3, e4⟩ := h4.elem hj
  have hkd : j.getD (normAxis l.ndim axis) 0 = k := by rw [List.getD_eq_getElem?_getD, hk]; rfl
  rw [hkd] at e2 e3 e4
  rw [← getD_dim]
  exact ⟨e3, e4, e2⟩

/-- The result is again acceptable to `Layout::new`. -/
theorem C09_result_valid (l m : Layout) (hl : l.Valid) (axis : Int) (s : SliceI)
    (h : l.dimNarrow axis s = .ok m) : m.Valid := by
  obtain ⟨h1, h2⟩ := dimNarrow_ok_axis h
  obtain ⟨m', n, start, h3, h4, h5⟩ := dimNarrow_spec (valid_iff.1 hl) h1 h2
  obtain rfl : m = m' := by rw [h] at h3; exact Except.ok.inj h3
  exact valid_iff.2 (h4.good (valid_iff.1 hl)).accepted

/-- rstsr differs from Python: `4:-1:-1` on an axis of length 5 is empty in Python, rstsr shows all
five positions. -/
theorem C09_stop_minus_one_differs :
    PyCount 5 (some 4) (some (-1)) (-1) 0 ∧
    (⟨[⟨5, 1⟩], 0⟩ : Layout).dimNarrow 0 ⟨some 4, some (-1), some (-1)⟩ = .ok ⟨[⟨5, -1⟩], 4⟩ := by
  refine ⟨?_, by decide⟩
  intro k; unfold PyHas pyStart pyStop pyClamp; simp

/-- rstsr differs from Python: `-9::-1` on an axis of length 5 is empty in Python, rstsr shows the first
element. -/
theorem C09_low_start_differs :
    PyCount 5 (some (-9)) none (-1) 0 ∧
    (⟨[⟨5, 1⟩], 0⟩ : Layout).dimNarrow 0 ⟨some (-9), none, some (-1)⟩ = .ok ⟨[⟨1, -1⟩], 0⟩ := by
  refine ⟨?_, by decide⟩
  intro k; unfold PyHas pyStart pyStop pyClamp; simp

example : (⟨[⟨2, 12⟩, ⟨6, -2⟩], 11⟩ : Layout).Valid := by decide
example : (⟨[⟨2, 12⟩, ⟨6, -2⟩], 11⟩ : Layout).dimNarrow (-1) ⟨some (-2), some 0, some (-2)⟩
    = .ok ⟨[⟨2, 12⟩, ⟨2, 4⟩], 3⟩ := by decide
example : PyOk 6 ⟨some (-2), some 0, some (-2)⟩ := by
  intro _; exact ⟨by decide, by intro v hv; cases hv; decide⟩
example : PyCount 6 (some (-2)) (some 0) (-2) 2 := by
  intro k; unfold PyHas pyStart pyStop pyClamp; simp; omega
example : (⟨[⟨6, 1⟩], 0⟩ : Layout).dimNarrow 0 ⟨none, none, some 0⟩ = .error .invalidValue := by decide

/-! ## C10: integer selection -/

/-- Acceptance: axis and index are both legal. -/
theorem C10_accept_iff (l : Layout) (hl : l.Valid) (axis index : Int) :
    (∃ m, l.dimSelect axis index = .ok m) ↔
      AxisOk l.ndim axis ∧ AxisOk (l.shape.getD (normAxis l.ndim axis) 0) index := by
  simp only [dimSelect_ok (valid_iff.1 hl), getD_dim]
  exact ⟨fun ⟨_, h1, h2, _⟩ => ⟨h1, h2⟩, fun ⟨h1, h2⟩ => ⟨_, h1, h2, rfl⟩⟩

/-- The axis is dropped and the element at `j` is the old element with the selected coordinate inserted. -/
theorem C10_select_element (l m : Layout) (hl : l.Valid) (axis index : Int)
    (h : l.dimSelect axis index = .ok m) :
    m.shape = l.shape.eraseIdx (normAxis l.ndim axis) ∧
    ∀ j, InRange j m.shape →
      InRange (j.insertIdx (normAxis l.ndim axis) (normAxis (l.shape.getD (normAxis l.ndim axis) 0) index)) l.shape ∧
      m.addr j = l.addr (j.insertIdx (normAxis l.ndim axis)
        (normAxis (l.shape.getD (normAxis l.ndim axis) 0) index)) := by
  obtain ⟨h1, h2, rfl⟩ := (dimSelect_ok (valid_iff.1 hl)).1 h
  have hla : normAxis l.ndim axis < l.axes.length := normAxis_lt h1
  have hsh : (⟨l.axes.eraseIdx (normAxis l.ndim axis), l.offset +
      (l.axes.getD (normAxis l.ndim axis) default).str *
        (normAxis (l.axes.getD (normAxis l.ndim axis) default).dim index : Nat)⟩ : Layout).shape
      = l.shape.eraseIdx (normAxis l.ndim axis) := dims_eraseIdx _ _
  refine ⟨hsh, ?_⟩
  intro j hj
  rw [hsh] at hj
  have hls : normAxis l.ndim axis < l.shape.length := by simpa [Layout.shape] using hla
  have hjl : j.length + 1 = l.axes.length := by
    have := hj.length_eq
    rw [List.length_eraseIdx_of_lt hls] at this
    have hs : l.shape.length = l.axes.length := by simp [Layout.shape]
    omega
  rw [getD_dim] at h2
  refine ⟨?_, ?_⟩
  · exact inRange_insertIdx hls hj (by
      have := normAxis_lt h2
      simpa [List.getD_eq_getElem?_getD, hls] using this)
  · rw [addr_eq, addr_eq, dot_insertIdx hla (by omega), getD_dim]
    ring

/-- The result is again acceptable to `Layout::new`. -/
theorem C10_result_valid (l m : Layout) (axis index : Int)
    (h : l.dimSelect axis index = .ok m) : m.Valid := by
  rw [valid_iff]
  unfold Layout.dimSelect at h
  obtain ⟨a, _, h⟩ := bind_ok.1 h
  dsimp only at h
  generalize (if index < 0 then ((l.axes.getD a default).dim : Int) + index else index) = t at h
  split at h
  · exact (accepted_of_newAxes h).1
  · cases h

/-- An index outside the axis is an index error. -/
theorem C10_index_error (l : Layout) (axis index : Int) (hax : AxisOk l.ndim axis)
    (hi : ¬ AxisOk (l.shape.getD (normAxis l.ndim axis) 0) index) :
    l.dimSelect axis index = .error .indexError := by
  unfold Layout.dimSelect
  rw [checkAxis_ok.2 ⟨hax, rfl⟩, ok_bind]
  unfold AxisOk at hi
  rw [← getD_dim] at hi
  dsimp only
  rw [if_neg]
  split <;> omega

example : (⟨[⟨2, 12⟩, ⟨6, -2⟩], 11⟩ : Layout).dimSelect (-1) (-2) = .ok ⟨[⟨2, 12⟩], 3⟩ := by decide
example : (⟨[⟨2, 12⟩, ⟨6, -2⟩], 11⟩ : Layout).dimSelect 1 6 = .error .indexError := by decide

/-! ## C12: a list of entries -/

theorem expand_used (ix : List Indexer) (k : Nat) (h1 : ix.count .ellipsis ≤ 1) :
    usedAxes (expand ix k) = usedAxes ix + k := by
  have hrep : ∀ k, usedAxes (List.replicate k (.slice ⟨none, none, none⟩)) = k := by
    intro k; induction k with
    | zero => rfl
    | succ k ih => rw [List.replicate_succ, usedAxes, ih]
  unfold expand
  split
  · rename_i h
    obtain ⟨A, B, rfl, hA⟩ := List.eq_append_cons_of_mem h
    have hB : .ellipsis ∉ B := by
      intro hB
      have := List.count_pos_iff.2 hB
      simp only [List.count_append, List.count_cons_self] at h1
      omega
    rw [List.flatMap_append, List.flatMap_cons, flatMap_noEll hA, flatMap_noEll hB, if_pos rfl]
    simp only [usedAxes_append, hrep, usedAxes]
    omega
  · rw [usedAxes_append, hrep]

theorem dimSlice_cases (l : Layout) (hl : l.Valid) (ix : List Indexer) :
    (l.dimSlice ix) = if ix.count .ellipsis ≤ 1 then
      if usedAxes ix ≤ l.ndim then
        (Layout.sliceLoop l l.ndim (expand ix (l.ndim - usedAxes ix)).reverse >>= fun p =>
          if p.2 = 0 then .ok p.1 else .error .miscellaneous)
      else .error .valueOutOfRange
      else .error .invalidValue := by
  unfold Layout.dimSlice
  rw [show Layout.newAxes l.axes l.offset = .ok l from valid_iff.1 hl, ok_bind]
  rcases count_fill ix with ⟨h1, e, h2, h3⟩ | ⟨h1, h2⟩
  · rw [h2, ok_bind, if_pos h1]
    dsimp only
    rw [h3]
  · rw [h2, if_neg (by omega)]; rfl

/-- Acceptance: at most one ellipsis, not more slices and integers than axes, and, once the ellipsis is
expanded to the missing full slices, every step non-zero and every integer in range. -/
theorem C12_accept_iff (l : Layout) (hl : l.Valid) (ho : 0 ≤ l.offset) (ix : List Indexer) :
    (∃ m, l.dimSlice ix = .ok m) ↔
      ix.count .ellipsis ≤ 1 ∧ usedAxes ix ≤ l.ndim ∧
      Legal (expand ix (l.ndim - usedAxes ix)) l.shape := by
  have hG := (valid_iff.1 hl).good ho
  rw [dimSlice_cases l hl]
  by_cases h1 : ix.count .ellipsis ≤ 1
  · by_cases h2 : usedAxes ix ≤ l.ndim
    · rw [if_pos h1, if_pos h2]
      simp only [h1, h2, true_and]
      have hL : (⟨l.axes ++ [], l.offset⟩ : Layout) = l := by simp
      constructor
      · rintro ⟨m, h⟩
        obtain ⟨p, h3, -⟩ := bind_ok.1 h
        have := sliceLoop_legal (expand ix (l.ndim - usedAxes ix)).reverse (P := l.axes) (Q := [])
          (off := l.offset) (by rw [hL]; exact hG) (by
            rw [usedAxes_reverse, expand_used ix _ h1]; show _ = l.ndim; omega) (r := p) (by
            rw [hL]; exact h3)
        rw [List.reverse_reverse] at this; exact this
      · intro h3
        obtain ⟨P', off', h4, -⟩ := sliceLoop_spec (expand ix (l.ndim - usedAxes ix)).reverse
          (P := l.axes) (Q := []) (off := l.offset) (by rw [hL]; exact hG) (by rw [List.reverse_reverse]; exact h3)
        rw [hL] at h4
        refine ⟨⟨P' ++ [], off'⟩, ?_⟩
        have h4' : Layout.sliceLoop l (l.ndim : Int) (expand ix (l.ndim - usedAxes ix)).reverse = _ := h4
        rw [h4']; rfl
    · rw [if_pos h1, if_neg h2]
      constructor
      · rintro ⟨m, h⟩; cases h
      · rintro ⟨_, h, _⟩; exact absurd h h2
  · rw [if_neg h1]
    constructor
    · rintro ⟨m, h⟩; cases h
    · rintro ⟨h, _⟩; exact absurd h h1

/-- Two ellipses are an invalid value; too many slices and integers are out of range. -/
theorem C12_rejections (l : Layout) (hl : l.Valid) (ix : List Indexer) :
    (2 ≤ ix.count .ellipsis → l.dimSlice ix = .error .invalidValue) ∧
    (ix.count .ellipsis ≤ 1 → l.ndim < usedAxes ix → l.dimSlice ix = .error .valueOutOfRange) := by
  rw [dimSlice_cases l hl]
  exact ⟨fun h => by rw [if_neg (by omega)], fun h1 h2 => by rw [if_pos h1, if_neg (by omega)]⟩

theorem dimSlice_elem (l m : Layout) (hl : l.Valid) (ho : 0 ≤ l.offset) (ix : List Indexer)
    (h : l.dimSlice ix = .ok m) :
    Good m ∧
    (AllPyOk (expand ix (l.ndim - usedAxes ix)) l.shape →
      OutShape (expand ix (l.ndim - usedAxes ix)) l.shape m.shape) ∧
    ∀ j, InRange j m.shape → ∃ i, InRange i l.shape ∧ m.addr j = l.addr i ∧
      (AllPyOk (expand ix (l.ndim - usedAxes ix)) l.shape →
        i = srcIndex (expand ix (l.ndim - usedAxes ix)) l.shape j) := by
  have hG := (valid_iff.1 hl).good ho
  obtain ⟨h1, h2, h3⟩ := (C12_accept_iff l hl ho ix).1 ⟨m, h⟩
  rw [dimSlice_cases l hl, if_pos h1, if_pos h2] at h
  have hL : (⟨l.axes ++ [], l.offset⟩ : Layout) = l := by simp
  obtain ⟨P', off', h4, h5, -, h6, h7⟩ := sliceLoop_spec (expand ix (l.ndim - usedAxes ix)).reverse
    (P := l.axes) (Q := []) (off := l.offset) (by rw [hL]; exact hG) (by rw [List.reverse_reverse]; exact h3)
  rw [hL] at h4
  have h4' : Layout.sliceLoop l (l.ndim : Int) (expand ix (l.ndim - usedAxes ix)).reverse = _ := h4
  rw [h4'] at h
  simp only [List.append_nil, List.reverse_reverse] at h h5 h6 h7
  have hm : m = ⟨P', off'⟩ := by
    have : (Except.ok (⟨P', off'⟩ : Layout) : Res Layout) = .ok m := h
    cases this; rfl
  subst hm
  exact ⟨h5, h6, fun j hj => by
    obtain ⟨i, g1, g2, g3⟩ := h7 j hj
    exact ⟨i, g1, by rw [addr_mk, addr_eq]; exact g2, g3⟩⟩

/-- Entry-by-entry law: the shape and the old index of every element. Missing for the full claim: the
negative-step slices of `C09_slice_partial`. -/
theorem C12_slice_partial (l m : Layout) (hl : l.Valid) (ho : 0 ≤ l.offset) (ix : List Indexer)
    (h : l.dimSlice ix = .ok m) (hpy : AllPyOk (expand ix (l.ndim - usedAxes ix)) l.shape) :
    OutShape (expand ix (l.ndim - usedAxes ix)) l.shape m.shape ∧
    ∀ j, InRange j m.shape →
      InRange (srcIndex (expand ix (l.ndim - usedAxes ix)) l.shape j) l.shape ∧
      m.addr j = l.addr (srcIndex (expand ix (l.ndim - usedAxes ix)) l.shape j) := by
  obtain ⟨-, h1, h2⟩ := dimSlice_elem l m hl ho ix h
  refine ⟨h1 hpy, fun j hj => ?_⟩
  obtain ⟨i, g1, g2, g3⟩ := h2 j hj
  rw [← g3 hpy]
  exact ⟨g1, g2⟩

/-- Whatever the entries, the result is acceptable to `Layout::new` and every element of it is an
element of the original. -/
theorem C12_result_valid (l m : Layout) (hl : l.Valid) (ho : 0 ≤ l.offset) (ix : List Indexer)
    (h : l.dimSlice ix = .ok m) :
    m.Valid ∧ ∀ j, InRange j m.shape → ∃ i, InRange i l.shape ∧ m.addr j = l.addr i := by
  obtain ⟨h0, -, h2⟩ := dimSlice_elem l m hl ho ix h
  refine ⟨valid_iff.2 h0.accepted, fun j hj => ?_⟩
  obtain ⟨i, g1, g2, -⟩ := h2 j hj
  exact ⟨i, g1, g2⟩

example : (⟨[⟨2, 60⟩, ⟨3, 20⟩, ⟨4, 5⟩, ⟨5, 1⟩], 0⟩ : Layout).dimSlice
    [.select 1, .insert, .ellipsis, .slice ⟨some 4, none, some (-2)⟩]
    = .ok ⟨[⟨1, 20⟩, ⟨3, 20⟩, ⟨4, 5⟩, ⟨3, -2⟩], 64⟩ := by decide
example : (⟨[⟨2, 60⟩, ⟨3, 20⟩, ⟨4, 5⟩, ⟨5, 1⟩], 0⟩ : Layout).Valid := by decide
example : expand [.select 1, .insert, .ellipsis, .slice ⟨some 4, none, some (-2)⟩] 2
    = [.select 1, .insert, .slice ⟨none, none, none⟩, .slice ⟨none, none, none⟩,
      .slice ⟨some 4, none, some (-2)⟩] := by decide
example : srcIndex [.select 1, .insert, .slice ⟨none, none, none⟩, .slice ⟨none, none, none⟩,
      .slice ⟨some 4, none, some (-2)⟩] [2, 3, 4, 5] [0, 2, 3, 1] = [1, 2, 3, 2] := by decide
example : AllPyOk [.select 1, .insert, .slice ⟨none, none, none⟩, .slice ⟨none, none, none⟩,
      .slice ⟨some 4, none, some (-2)⟩] [2, 3, 4, 5] := by
  refine ⟨fun h => by simp at h, fun h => by simp at h, fun _ => ⟨by decide, ?_⟩, trivial⟩
  intro v hv; cases hv; decide
example : (⟨[⟨2, 1⟩], 0⟩ : Layout).dimSlice [.ellipsis, .ellipsis] = .error .invalidValue := by decide
example : (⟨[⟨2, 1⟩], 0⟩ : Layout).dimSlice [.select 0, .select 0] = .error .valueOutOfRange := by decide

end Rstsr
