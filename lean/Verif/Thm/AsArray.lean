import Verif.Model.AsArray
import Verif.Proof.Gather
import Verif.Thm.Copy
import Verif.Thm.Perm
import Verif.Thm.Chain
import Verif.Proof.Blas
/-!
# Theorems on tensors made of given values (C90) and views of another shape (C91)
-/
namespace Rstsr
open Spec

section
variable {α : Type}

/-! ## Contiguous layouts of both kinds of ranks -/

theorem contigLayout_eq (fixed : Bool) (o : Order) (s : List Nat) (off : Int) (hz : 0 ∉ s) :
    contigLayout fixed o s off = match o with | .C => .newCContig s off | .F => .newFContig s off := by
  have h := C05_fixed_eq_dynamic s off hz
  cases o <;> cases fixed <;> simp [contigLayout, h]

theorem contigLayout_shape (fixed : Bool) (o : Order) (s : List Nat) (off : Int) : (contigLayout fixed o s off).shape = s := by
  cases o <;> cases fixed
  · exact shape_newCContig _ _
  · simp only [contigLayout, if_true, Layout.newCContigFixed, Layout.shape]
    exact mkAxes_dims (by simp [strideCContigFixed, fStrides_length])
  · exact shape_newFContig _ _
  · simp only [contigLayout, if_true, Layout.newFContigFixed, Layout.shape]
    exact mkAxes_dims (by simp [strideFContigFixed, fStrides_length])

theorem contigLayout_offset (fixed : Bool) (o : Order) (s : List Nat) (off : Int) : (contigLayout fixed o s off).offset = off := by
  cases o <;> cases fixed <;> rfl

theorem contigLayout_addr (fixed : Bool) (o : Order) (s : List Nat) (off : Int) {idx : List Nat} (hi : InRange idx s) :
    (contigLayout fixed o s off).addr idx = off + rank o s idx := by
  have hz : 0 ∉ s := fun h => absurd (hi.pos 0 h) (by simp)
  rw [contigLayout_eq fixed o s off hz]
  cases o
  · exact addr_newCContig hi.length_eq
  · exact addr_newFContig hi.length_eq

theorem contigLayout_bounds (fixed : Bool) (o : Order) (s : List Nat) :
    (contigLayout fixed o s 0).Valid ∧ ∃ mn, (contigLayout fixed o s 0).boundsIndex = .ok (mn, (s.prod : Int)) := by
  by_cases hz : 0 ∈ s
  · have hz' : 0 ∈ (contigLayout fixed o s 0).shape := by rwa [contigLayout_shape]
    refine ⟨valid_iff.2 (Good.accepted (Or.inl hz')), 0, ?_⟩
    rw [boundsIndex_of_zero hz', contigLayout_offset, prod_eq_zero_of hz]
    rfl
  · rw [contigLayout_eq fixed o s 0 hz]
    cases o
    · have h := tight_newC s
      obtain ⟨mn, hb⟩ := h.bounds
      exact ⟨h.valid, mn, by simpa [Layout.size, shape_newCContig] using hb⟩
    · have h := tight_newF s
      obtain ⟨mn, hb⟩ := h.bounds
      exact ⟨h.valid, mn, by simpa [Layout.size, shape_newFContig] using hb⟩

theorem newF_contig (fixed : Bool) (o : Order) (v : List α) (s : List Nat) :
    Tensor.newF v (contigLayout fixed o s 0) = if s.prod ≤ v.length then .ok ⟨v, contigLayout fixed o s 0⟩ else .error .valueOutOfRange := by
  obtain ⟨hv, mn, hb⟩ := contigLayout_bounds fixed o s
  have := (newAxes_ok.1 (valid_iff.1 hv)).2.2
  unfold Tensor.newF
  rw [this]
  simp only [ok_bind, hb]
  by_cases h : s.prod ≤ v.length
  · rw [if_pos h, if_pos (by exact_mod_cast h)]
  · rw [if_neg h, if_neg (by exact_mod_cast h)]

/-! ## C90: values given as a vector, a slice, a number or a nested array -/

/-- A vector with a shape: accepted exactly if there are enough values (of other lengths only shorter ones are refused); the element at an index is the value
whose place in the vector is the rank of the index in the default order of the device. -/
theorem C90_shape_partial (fixed : Bool) (dflt : Order) (v : List α) (s : List Nat) :
    (s.prod ≤ v.length → ∃ t, asarrayShape fixed dflt v s = .ok t ∧ t.WF ∧ t.data = v ∧ t.arr.shape = s ∧
      ∀ idx, InRange idx s → t.arr.elem idx = v[rank dflt s idx]?) ∧
    (v.length < s.prod → asarrayShape fixed dflt v s = .error .valueOutOfRange) := by
  constructor
  · intro h
    have hn := newF_contig fixed dflt v s
    rw [if_pos h] at hn
    have hw : (⟨v, contigLayout fixed dflt s 0⟩ : Tensor α).WF := ⟨by rw [contigLayout_offset], hn⟩
    refine ⟨_, hn, hw, rfl, contigLayout_shape _ _ _ _, fun idx hi => ?_⟩
    rw [elem_pos (s := s) (by have := hw.fit; simpa [contigLayout_shape] using this) hi]
    unfold Layout.pos
    rw [contigLayout_addr fixed dflt s 0 hi]
    simp
  · intro h
    unfold asarrayShape asarrayLayout
    rw [newF_contig, if_neg (by omega)]

/-- C90 fails for vectors that are too long: they are accepted, and what is left over is ignored. -/
theorem C90_false_length : ∃ (v : List Nat) (s : List Nat) (t : Tensor Nat), v.length ≠ s.prod ∧ asarrayShape true .C v s = .ok t ∧ t.arr.shape = s :=
  ⟨[1, 2, 3, 4, 5, 6, 7], [2, 3], ⟨[1, 2, 3, 4, 5, 6, 7], ⟨[⟨2, 3⟩, ⟨3, 1⟩], 0⟩⟩, by decide, rfl, rfl⟩

/-- A vector by itself. -/
theorem C90_vec (v : List α) : ∃ t, asarrayVec v = .ok t ∧ t.WF ∧ t.data = v ∧ t.arr.shape = [v.length] ∧ ∀ k, k < v.length → t.arr.elem [k] = v[k]? := by
  obtain ⟨t, h1, h2, h3, h4, h5⟩ := (C90_shape_partial false .C v [v.length]).1 (by simp)
  refine ⟨t, h1, h2, h3, h4, fun k hk => ?_⟩
  rw [h5 [k] (by simpa [InRange] using hk)]
  simp [rank, rankC]

/-- … and back: `to_vec` of it is the vector. -/
theorem C90_vec_round_trip (dflt : Order) (v : List α) : ∃ t, asarrayVec v = .ok t ∧ Tensor.toVec dflt t = .ok v ∧ Tensor.intoVec dflt t = .ok v := by
  obtain ⟨t, h1, h2, _, h4, h5⟩ := C90_vec v
  obtain ⟨w, e1, e2, e3⟩ := C56_to_vec dflt t h2 v.length h4
  obtain ⟨w', e1', e2', e3'⟩ := C56_into_vec dflt t h2 v.length h4
  have hw : w = v := List.ext_getElem? fun k => by
    by_cases hk : k < v.length
    · rw [e3 k hk, h5 k hk]
    · rw [List.getElem?_eq_none (by omega), List.getElem?_eq_none (by omega)]
  have hw' : w' = v := List.ext_getElem? fun k => by
    by_cases hk : k < v.length
    · rw [e3' k hk, h5 k hk]
    · rw [List.getElem?_eq_none (by omega), List.getElem?_eq_none (by omega)]
  exact ⟨t, h1, hw ▸ e1, hw' ▸ e1'⟩

/-- A vector with a layout: if accepted, the element at an index is the value at the position the layout gives, which is inside the vector; a layout one of whose
positions is outside of the vector is an error. -/
theorem C90_layout (v : List α) (l : Layout) (ho : 0 ≤ l.offset) :
    (∀ t, asarrayLayout v l = .ok t → t.WF ∧ t.data = v ∧ t.arr.shape = l.shape ∧ ∀ idx, InRange idx l.shape →
      0 ≤ position l.stride l.offset idx ∧ ∃ x, v[(position l.stride l.offset idx).toNat]? = some x ∧ t.arr.elem idx = some x) ∧
    (∀ idx, InRange idx l.shape → (position l.stride l.offset idx < 0 ∨ (v.length : Int) ≤ position l.stride l.offset idx) →
      ∀ t, asarrayLayout v l ≠ .ok t) := by
  constructor
  · intro t h
    have ht : t = ⟨v, l⟩ := by
      unfold asarrayLayout Tensor.newF at h
      obtain ⟨_, -, h⟩ := bind_ok.1 h
      obtain ⟨⟨_, mx⟩, -, h⟩ := bind_ok.1 h
      dsimp only at h
      split at h
      · cases h; rfl
      · cases h
    subst ht
    have hw : (⟨v, l⟩ : Tensor α).WF := ⟨ho, h⟩
    refine ⟨hw, rfl, rfl, fun idx hi => ?_⟩
    have hb := C03_in_bounds v l _ ho h idx hi
    obtain ⟨x, h1, h2⟩ := hw.get hi
    exact ⟨hb.1, x, h1, h2⟩
  · intro idx hi hout
    exact C03_reject v l ho idx hi hout

/-- A number: a tensor without axes. -/
theorem C90_scalar (x : α) : ∃ t, asarrayScalar x = .ok t ∧ t.WF ∧ t.arr.shape = [] ∧ t.arr.elem [] = some x ∧ Tensor.toScalar t = .ok x :=
  ⟨⟨[x], ⟨[], 0⟩⟩, rfl, ⟨Int.le_refl 0, rfl⟩, rfl, rfl, rfl⟩

theorem flatMap_finRange_getElem? (n k : Nat) (f : Fin n → List α) (hf : ∀ i, (f i).length = k) (i j : Nat) (hi : i < n) (hj : j < k) :
    ((List.finRange n).flatMap f)[i * k + j]? = (f ⟨i, hi⟩)[j]? := by
  induction n generalizing i with
  | zero => omega
  | succ n ih =>
    rw [List.finRange_succ, List.flatMap_cons, List.flatMap_map]
    cases i with
    | zero =>
      rw [List.getElem?_append_left (by rw [hf]; omega)]
      simp
    | succ i =>
      rw [List.getElem?_append_right (by rw [hf]; nlinarith)]
      have := ih (fun x => f x.succ) (fun x => hf _) i (by omega)
      rw [hf, show (i + 1) * k + j - k = i * k + j by rw [Nat.add_mul, Nat.one_mul]; omega, this]
      rfl

theorem nestedCells_length (s : List Nat) (arr : NestedArr α s) : (nestedCells s arr).length = s.prod := by
  induction s with
  | nil => rfl
  | cons n s ih =>
    simp only [nestedCells, List.length_flatMap, List.prod_cons]
    rw [List.map_congr_left (g := fun _ => s.prod) (fun i _ => ih (arr i))]
    simp

theorem nestedCells_at (s : List Nat) (arr : NestedArr α s) {idx : List Nat} (hi : InRange idx s) : (nestedCells s arr)[rankC s idx]? = NestedArr.at s arr idx := by
  induction s generalizing idx with
  | nil =>
    cases idx with
    | nil => rfl
    | cons => simp [InRange] at hi
  | cons n s ih =>
    cases idx with
    | nil => simp [InRange] at hi
    | cons i idx =>
      obtain ⟨h1, h2⟩ := inRange_cons.1 hi
      have hk : rankC s idx < s.prod := rank_lt (o := .C) h2
      rw [nestedCells, rankC, flatMap_finRange_getElem? n s.prod _ (fun i => nestedCells_length s (arr i)) i _ h1 hk, ih _ h2]
      simp [NestedArr.at, h1]

/-- A nested array: the element at `[i, j, …]` is `arr[i][j]…`. -/
theorem C90_nested (s : List Nat) (arr : NestedArr α s) : ∃ t, fromNested s arr = .ok t ∧ t.WF ∧ t.arr.shape = s ∧ t.data.length = s.prod ∧
    ∀ idx, InRange idx s → ∃ x, NestedArr.at s arr idx = some x ∧ t.arr.elem idx = some x := by
  have hl := nestedCells_length s arr
  obtain ⟨t, h1, h2, h3, h4, h5⟩ := (C90_shape_partial true .C (nestedCells s arr) s).1 (by omega)
  refine ⟨t, ?_, h2, h4, by rw [h3, hl], fun idx hi => ?_⟩
  · have : (contigLayout true .C s 0).size = (nestedCells s arr).length := by rw [Layout.size, contigLayout_shape, hl]
    unfold fromNested
    rw [this, List.take_length]
    have h1 : asarrayLayout (nestedCells s arr) (contigLayout true .C s 0) = .ok t := h1
    rw [h1]
    rfl
  · have h := h5 idx hi
    obtain ⟨x, _, hx⟩ := h2.get (by rw [← h4] at hi; exact hi)
    rw [hx] at h
    refine ⟨x, ?_, hx⟩
    rw [← nestedCells_at s arr hi]
    exact h.symm

/-! ## C91: views of another shape or rank -/

/-- `to_compatible_shape` shows the same memory in the new shape with the elements in the same sequence, or is an error; the error is raised only if the numbers
of elements differ or no strides over this memory could do it. -/
theorem C91_compatible (a : Tensor α) (ha : a.WF) (shape : List Nat) (o : Order) :
    (∃ c, a.intoCompatibleShape (shape.map Int.ofNat) o = .ok c ∧ c.data = a.data ∧ c.WF ∧ c.arr.shape = shape ∧ a.arr.SameSequence o c.arr) ∨
    (a.intoCompatibleShape (shape.map Int.ofNat) o = .error .invalidValue ∧ a.arr.shape.prod ≠ shape.prod) ∨
    (a.intoCompatibleShape (shape.map Int.ofNat) o = .error .invalidLayout ∧
      ∀ stride : List Int, stride.length = shape.length → ¬ ∀ i j, InRange i a.arr.shape → InRange j shape →
        rank o a.arr.shape i = rank o shape j → position stride a.layout.offset j = position a.layout.stride a.layout.offset i) := by
  have hsub := subst_self shape a.layout.size
  unfold Tensor.intoCompatibleShape
  simp only [hsub, ok_bind]
  cases hr : a.layout.reshapeable shape o with
  | error e =>
    obtain ⟨rfl, h⟩ := (C19_error_iff a.layout ha.1 shape o e).1 hr
    exact .inr (.inl ⟨rfl, h⟩)
  | ok q =>
    cases q with
    | some m => exact .inl ⟨⟨a.data, m⟩, rfl, rfl, reshape_view ha hr⟩
    | none => exact .inr (.inr ⟨rfl, fun stride hl => C19_none_needs_copy a.layout shape o hr stride hl⟩)

/-- It succeeds where `reshape` without permission to copy does, with the same result, also with a length left open. -/
theorem C91_compatible_is_reshape (a : Tensor α) (shape : List Int) (o : Order) :
    (a.intoCompatibleShape shape o).toOption = (a.changeShape shape o (some false)).toOption := by
  unfold Tensor.intoCompatibleShape Tensor.changeShape
  cases hs : substituteNegatives shape a.layout.size with
  | error e => rfl
  | ok s =>
    simp only [ok_bind]
    rw [if_neg (by simp)]
    cases hr : a.layout.reshapeable s o with
    | error e => rfl
    | ok q => cases q <;> rfl

/-- Contiguous in one of the orders. -/
def Layout.contigBy (l : Layout) : Order → Bool
  | .C => l.cContig
  | .F => l.fContig

theorem assume_contig_same (fixed : Bool) {a : Tensor α} (ha : a.WF) (o : Order) (s : List Nat) (hs : a.layout.size = s.prod)
    (hc : a.layout.contigBy o = true) :
    let c : Tensor α := ⟨a.data, contigLayout fixed o s a.layout.offset⟩
    c.WF ∧ c.arr.shape = s ∧ a.arr.SameSequence o c.arr := by
  intro c
  have hsame : SameL o a.layout (contigLayout fixed o s a.layout.offset) := by
    refine ⟨by rw [hs, Layout.size, contigLayout_shape], fun i j hi hj e => ?_⟩
    rw [contigLayout_shape] at hj e
    have hz : 0 ∉ a.layout.shape := fun h => absurd (hi.pos 0 h) (by simp)
    rw [contigLayout_addr fixed o s _ hj, ← e]
    cases o
    · exact ((C06_c_contig_iff a.layout hz).1 hc i hi).symm
    · exact ((C06_f_contig_iff a.layout hz).1 hc i hi).symm
  have hgood : Good (contigLayout fixed o s a.layout.offset) := by
    refine good_of_sub ha.good hsame.sub fun _ hzm => ?_
    have hz : 0 ∉ s := by
      have : dims (contigLayout fixed o s a.layout.offset).axes = s := contigLayout_shape _ _ _ _
      rwa [this] at hzm
    rw [contigLayout_eq fixed o s _ hz]
    cases o
    · exact noOverlap_newC _ (pos_of_not_mem hz)
    · exact noOverlap_newF _ (pos_of_not_mem hz)
  obtain ⟨_, _, _, _, hao⟩ := WF_bounds ha
  have hw : c.WF := wf_of_sub ha hgood hsame.sub (by rw [contigLayout_offset]; exact ha.1) (fun _ => by rw [contigLayout_offset]; exact hao)
  refine ⟨hw, contigLayout_shape _ _ _ _, hsame.1, fun i j hi hj e => ?_⟩
  have hj : InRange j c.layout.shape := hj
  obtain ⟨x, hx, hx'⟩ := ha.get hi
  refine ⟨x, hx', ?_⟩
  rw [elem_pos hw.fit hj, ← hx]
  show a.data[(contigLayout fixed o s a.layout.offset).pos j]? = _
  unfold Layout.pos
  rw [hsame.2 i j hi hj e]

/-- `into_shape_assume_contig` (deprecated): accepted exactly if the numbers of elements are equal and the tensor is contiguous in the default order, that is (unless
it is empty) its elements follow each other in memory in this order; then the elements are the same sequence, in the same memory. -/
theorem C91_assume_contig (fixed : Bool) (dflt : Order) (a : Tensor α) (ha : a.WF) (s : List Nat) :
    ((∃ c, a.intoShapeAssumeContig fixed dflt s = .ok c) ↔ a.arr.shape.prod = s.prod ∧
      ∀ idx, InRange idx a.arr.shape → position a.layout.stride a.layout.offset idx = a.layout.offset + rank dflt a.arr.shape idx) ∧
    (∀ c, a.intoShapeAssumeContig fixed dflt s = .ok c → c.data = a.data ∧ c.WF ∧ c.arr.shape = s ∧ a.arr.SameSequence dflt c.arr) ∧
    (∀ e, a.intoShapeAssumeContig fixed dflt s = .error e → e = .invalidLayout) := by
  have hcont : a.layout.contigBy dflt = true ↔
      ∀ idx, InRange idx a.arr.shape → position a.layout.stride a.layout.offset idx = a.layout.offset + rank dflt a.arr.shape idx := by
    by_cases hz : 0 ∈ a.layout.shape
    · have := C06_empty_contig a.layout hz
      constructor
      · intro _ idx hi
        exact absurd (hi.pos 0 hz) (by simp)
      · intro _
        cases dflt
        · exact this.2
        · exact this.1
    · cases dflt
      · exact C06_c_contig_iff a.layout hz
      · exact C06_f_contig_iff a.layout hz
  by_cases hs : a.layout.size = s.prod
  · by_cases hc : a.layout.contigBy dflt = true
    · have he : a.intoShapeAssumeContig fixed dflt s = .ok ⟨a.data, contigLayout fixed dflt s a.layout.offset⟩ := by
        unfold Tensor.intoShapeAssumeContig
        rw [if_neg (by simpa using hs)]
        cases dflt <;> simp only [Layout.contigBy] at hc <;> simp [hc]
      refine ⟨⟨fun _ => ⟨hs, hcont.1 hc⟩, fun _ => ⟨_, he⟩⟩, ?_, ?_⟩
      · intro c h
        rw [he] at h
        cases h
        exact ⟨rfl, assume_contig_same fixed ha dflt s hs hc⟩
      · intro e h
        rw [he] at h
        cases h
    · have he : a.intoShapeAssumeContig fixed dflt s = .error .invalidLayout := by
        unfold Tensor.intoShapeAssumeContig
        rw [if_neg (by simpa using hs)]
        cases dflt <;> simp only [Layout.contigBy] at hc <;> simp [hc]
      refine ⟨⟨fun ⟨c, h⟩ => (by rw [he] at h; cases h), fun h => absurd (hcont.2 h.2) hc⟩, ?_, ?_⟩
      · intro c h
        rw [he] at h
        cases h
      · intro e h
        rw [he] at h
        cases h
        rfl
  · have he : a.intoShapeAssumeContig fixed dflt s = .error .invalidLayout := by
      unfold Tensor.intoShapeAssumeContig
      rw [if_pos (by simpa using hs)]
    refine ⟨⟨fun ⟨c, h⟩ => (by rw [he] at h; cases h), fun h => absurd h.1 hs⟩, ?_, ?_⟩
    · intro c h
      rw [he] at h
      cases h
    · intro e h
      rw [he] at h
      cases h
      rfl

/-- `into_dim`, `to_dim`, `into_dyn`: nothing changes, and a fixed rank other than that of the tensor is an error. -/
theorem C91_into_dim (a : Tensor α) (n : Nat) :
    a.intoDim none = .ok a ∧ (a.arr.shape.length = n → a.intoDim (some n) = .ok a) ∧ (a.arr.shape.length ≠ n → a.intoDim (some n) = .error .invalidLayout) := by
  have : a.arr.shape.length = a.layout.ndim := by simp [Tensor.arr, Layout.shape, Layout.ndim]
  rw [this]
  exact ⟨rfl, fun h => if_pos h, fun h => if_neg h⟩

/-- `matrix_transpose`: the last two indices change places, in the same memory; a tensor with fewer than two axes is an error. -/
theorem C91_matrix_transpose (a : Tensor α) (ha : a.WF) (s : List Nat) (m n : Nat) (hs : a.arr.shape = s ++ [m, n]) :
    ∃ c, a.matrixTranspose = .ok c ∧ c.data = a.data ∧ c.WF ∧ c.arr.shape = s ++ [n, m] ∧
      ∀ b i j, InRange b s → i < n → j < m → ∃ x, c.arr.elem (b ++ [i, j]) = some x ∧ a.arr.elem (b ++ [j, i]) = some x := by
  have hs' : a.layout.shape = s ++ [m, n] := hs
  generalize hl : a.layout = l at hs'
  obtain ⟨axes, off⟩ := l
  have hd : axes.map Axis.dim = s ++ [m, n] := hs'
  obtain ⟨A, B, rfl, hA, hB⟩ := List.map_eq_append_iff.1 hd
  match B, hB with
  | [x, y], hB =>
    simp only [List.map_cons, List.map_nil, List.cons.injEq, and_true] at hB
    obtain ⟨rfl, rfl⟩ := hB
    subst hA
    have hsw : a.layout.swapaxes (-1) (-2) = .ok ⟨A ++ [y, x], off⟩ := by
      rw [hl]
      refine swapaxes_ok.2 ⟨?_, ?_, ?_⟩
      · simp [AxisOk, Layout.ndim]; omega
      · simp [AxisOk, Layout.ndim]; omega
      · have h1 : normAxis (⟨A ++ [x, y], off⟩ : Layout).ndim (-1) = A.length + 1 := by simp [normAxis, Layout.ndim]; omega
        have h2 : normAxis (⟨A ++ [x, y], off⟩ : Layout).ndim (-2) = A.length := by simp [normAxis, Layout.ndim]
        rw [h1, h2]
        simp
    have hrun : runViews a.layout [.swapaxes (-1) (-2)] = .ok ⟨A ++ [y, x], off⟩ := by
      simp only [runViews]
      show (a.layout.swapaxes (-1) (-2) >>= _) = _
      rw [hsw]
      rfl
    obtain ⟨hg, hsub⟩ := runViews_keeps (newF_good ha.1 ha.2) (distinctRun_of_no_diagonal (by simp) _) hrun
    obtain ⟨_, _, _, _, hao⟩ := WF_bounds ha
    have hoff : a.layout.offset = off := by rw [hl]
    have hw : (⟨a.data, ⟨A ++ [y, x], off⟩⟩ : Tensor α).WF := wf_of_sub ha hg hsub (hoff ▸ ha.1) (fun _ => hoff ▸ hao)
    have hsh : (⟨A ++ [y, x], off⟩ : Layout).shape = A.map Axis.dim ++ [y.dim, x.dim] := by simp [Layout.shape]
    refine ⟨⟨a.data, ⟨A ++ [y, x], off⟩⟩, by rw [Tensor.matrixTranspose, hsw]; rfl, rfl, hw, hsh, fun b i j hb hi hj => ?_⟩
    have hlen : b.length = A.length := by simpa using hb.length_eq
    have h1 : InRange (b ++ [j, i]) a.layout.shape := by
      rw [hl]
      exact hs' ▸ (inRange_append (by simpa using hlen)).2 ⟨hb, inRange2.2 ⟨hj, hi⟩⟩
    have h2 : InRange (b ++ [i, j]) (⟨A ++ [y, x], off⟩ : Layout).shape := by
      rw [hsh]
      exact (inRange_append (by simpa using hlen)).2 ⟨hb, inRange2.2 ⟨hi, hj⟩⟩
    obtain ⟨v, hv, hv'⟩ := ha.get h1
    refine ⟨v, ?_, hv'⟩
    rw [elem_pos hw.fit h2, ← hv]
    unfold Layout.pos
    have : (⟨A ++ [y, x], off⟩ : Layout).addr (b ++ [i, j]) = a.layout.addr (b ++ [j, i]) := by
      rw [hl, addr_mk, addr_mk, dot_append hlen, dot_append hlen]
      simp [dot]
      ring
    rw [this]

/-- … and fewer than two axes are an error. -/
theorem C91_matrix_transpose_reject (a : Tensor α) (h : a.arr.shape.length < 2) : ∀ c, a.matrixTranspose ≠ .ok c := by
  intro c hc
  unfold Tensor.matrixTranspose at hc
  obtain ⟨l, h1, _⟩ := bind_ok.1 hc
  obtain ⟨h2, h3, _⟩ := swapaxes_ok.1 h1
  have : a.arr.shape.length = a.layout.ndim := by simp [Tensor.arr, Layout.shape, Layout.ndim]
  simp only [AxisOk] at h3
  omega

/-! ## The hypotheses are met -/

example := (C90_shape_partial true .F [1, 2, 3, 4, 5, 6] [2, 3]).1 (by decide)
example : (asarrayShape true .F [1, 2, 3, 4, 5, 6] [2, 3]).toOption.map (fun t => t.arr.elem [0, 2]) = some (some 5) := by decide
example := (C90_shape_partial true .F [1, 2, 3, 4, 5] [2, 3]).2 (by decide)
example := C90_layout [1, 2, 3, 4, 5, 6, 7] ⟨[⟨2, 3⟩, ⟨3, -1⟩], 2⟩ (by decide)
example : ∃ t, asarrayLayout [1, 2, 3, 4, 5, 6, 7] ⟨[⟨2, 3⟩, ⟨3, -1⟩], 2⟩ = .ok t := ⟨_, rfl⟩
example := C90_nested [2, 3] (fun i j => (10 * i + j : Nat))
example : NestedArr.at [2, 3] (fun i j => (10 * i + j : Nat)) [1, 2] = some 12 := rfl
example := C91_compatible (⟨List.range 6, ⟨[⟨2, 3⟩, ⟨3, 1⟩], 0⟩⟩ : Tensor Nat) ⟨Int.le_refl 0, rfl⟩ [3, 2] .C
example : ((⟨List.range 6, ⟨[⟨2, 3⟩, ⟨3, 1⟩], 0⟩⟩ : Tensor Nat).intoCompatibleShape [3, -1] .C).toOption.map (fun t => t.layout) = some ⟨[⟨3, 2⟩, ⟨2, 1⟩], 0⟩ := by decide
example : (⟨List.range 6, ⟨[⟨3, 1⟩, ⟨2, 3⟩], 0⟩⟩ : Tensor Nat).intoCompatibleShape [6] .C = .error .invalidLayout := rfl
example := (C91_assume_contig true .C (⟨List.range 8, ⟨[⟨2, 3⟩, ⟨3, 1⟩], 2⟩⟩ : Tensor Nat) ⟨by decide, rfl⟩ [3, 2]).2.1 _ rfl
example := C91_matrix_transpose (⟨List.range 12, ⟨[⟨2, 6⟩, ⟨2, 3⟩, ⟨3, 1⟩], 0⟩⟩ : Tensor Nat) ⟨Int.le_refl 0, rfl⟩ [2] 2 3 rfl
example := C91_matrix_transpose_reject (⟨List.range 3, ⟨[⟨3, 1⟩], 0⟩⟩ : Tensor Nat) (by decide)
example := C91_into_dim (⟨List.range 6, ⟨[⟨2, 3⟩, ⟨3, 1⟩], 0⟩⟩ : Tensor Nat) 2

end
end Rstsr
