import Verif.Proof.Diagonal
import Verif.Thm.Slice
/-!
# Theorems C11, C14, C15, C52: unit axes, flip, diagonal, axis splitting
-/
namespace Rstsr
open Spec

/-! ## C11: inserting and removing unit axes -/

/-- `dim_insert` (one new axis): accepted exactly for the `ndim + 1` legal places; the new axis has
length 1 and no element moves. -/
theorem C11_insert_one (l : Layout) (hl : l.Valid) (ho : 0 ≤ l.offset) (axis : Int) :
    ((∃ m, l.dimInsert axis = .ok m) ↔ AxisOk (l.ndim + 1) axis) ∧
    ∀ m, l.dimInsert axis = .ok m →
      m.shape = l.shape.insertIdx (normAxis (l.ndim + 1) axis) 1 ∧
      ∀ i, InRange i l.shape → m.addr (i.insertIdx (normAxis (l.ndim + 1) axis) 0) = l.addr i := by
  have hG := (valid_iff.1 hl).good ho
  refine ⟨⟨fun ⟨m, h⟩ => ((dimInsert_ok hG).1 h).1, fun h => ⟨_, (dimInsert_ok hG).2 ⟨h, _, rfl, rfl⟩⟩⟩, ?_⟩
  intro m h
  obtain ⟨h1, s, rfl, -⟩ := (dimInsert_ok hG).1 h
  refine ⟨dims_insertIdx _ _ _, fun i hi => ?_⟩
  have h2 : normAxis (l.ndim + 1) axis ≤ l.axes.length := Nat.lt_succ_iff.1 (normAxis_lt h1)
  rw [addr_mk, addr_eq, dot_insertIdx_both h2 (by simpa [Layout.shape] using hi.length_eq)]
  simp

/-- `expand_dims`: accepted exactly for legal, repetition-free axes of the result. -/
theorem C11_expand_accept_iff (l : Layout) (hl : l.Valid) (ho : 0 ≤ l.offset) (axes : List Int) :
    (∃ m, l.expandDims (some axes) = .ok m) ↔
      (∀ a ∈ axes, AxisOk (l.ndim + axes.length) a) ∧ (axes.map (normAxis (l.ndim + axes.length))).Nodup := by
  unfold Layout.expandDims
  simp only [Option.getD_some]
  constructor
  · rintro ⟨m, h⟩
    obtain ⟨v, hv, _⟩ := bind_ok.1 h
    obtain ⟨h1, h2, _⟩ := normalizeAxes_ok.1 hv
    exact ⟨h1, h2 rfl⟩
  · rintro ⟨h1, h2⟩
    rw [normalizeAxes_ok.2 ⟨h1, fun _ => h2, rfl⟩, ok_bind]
    simp only [if_true]
    have hp := List.perm_insertionSort (· ≤ ·) (axes.map (normAxis (l.ndim + axes.length)))
    obtain ⟨m, hm, _⟩ := expand_fold (A := (axes.map (normAxis (l.ndim + axes.length))).insertionSort (· ≤ ·))
      (((sorted_insertionSort _).and (hp.nodup_iff.2 h2)).imp fun h => by omega)
      ((valid_iff.1 hl).good ho) (by
        intro a ha
        obtain ⟨b, hb, rfl⟩ := List.mem_map.1 (hp.mem_iff.1 ha)
        simpa using normAxis_lt (h1 b hb))
    exact ⟨m, hm⟩

/-- `expand_dims`: the listed axes of the result have length 1, removing them gives back the old shape
and strides, and every element stays at its storage position. -/
theorem C11_expand_element (l m : Layout) (hl : l.Valid) (ho : 0 ≤ l.offset) (axes : List Int)
    (h : l.expandDims (some axes) = .ok m) :
    m.Valid ∧ m.ndim = l.ndim + axes.length ∧
    (∀ a ∈ axes, m.shape[normAxis m.ndim a]? = some 1) ∧
    dropAxes (axes.map (normAxis m.ndim)) m.shape = l.shape ∧
    dropAxes (axes.map (normAxis m.ndim)) m.stride = l.stride ∧ m.offset = l.offset ∧
    ∀ j, InRange j m.shape → InRange (dropAxes (axes.map (normAxis m.ndim)) j) l.shape ∧
      m.addr j = l.addr (dropAxes (axes.map (normAxis m.ndim)) j) := by
  obtain ⟨h1, h2⟩ := (C11_expand_accept_iff l hl ho axes).1 ⟨m, h⟩
  unfold Layout.expandDims at h
  simp only [Option.getD_some] at h
  rw [normalizeAxes_ok.2 ⟨h1, fun _ => h2, rfl⟩, ok_bind] at h
  simp only [if_true] at h
  have hp := List.perm_insertionSort (· ≤ ·) (axes.map (normAxis (l.ndim + axes.length)))
  obtain ⟨m', g1, g2, g3, g4, g5, g6, g7⟩ := expand_fold (A := (axes.map (normAxis (l.ndim + axes.length))).insertionSort (· ≤ ·))
    (((sorted_insertionSort _).and (hp.nodup_iff.2 h2)).imp fun h => by omega)
    ((valid_iff.1 hl).good ho) (by
      intro a ha
      obtain ⟨b, hb, rfl⟩ := List.mem_map.1 (hp.mem_iff.1 ha)
      simpa using normAxis_lt (h1 b hb))
  obtain rfl : m = m' := by rw [h] at g1; exact Except.ok.inj g1
  have hn : m.ndim = l.ndim + axes.length := by simpa using g4
  rw [hn]
  have hc : ∀ {α : Type} (xs : List α), dropAxes ((axes.map (normAxis (l.ndim + axes.length))).insertionSort (· ≤ ·)) xs
      = dropAxes (axes.map (normAxis (l.ndim + axes.length))) xs := fun xs => dropAxes_congr (fun x => hp.mem_iff) xs
  rw [hc] at g5
  refine ⟨valid_iff.2 g2.accepted, rfl, ?_, ?_, ?_, g3, ?_⟩
  · intro a ha
    have := g6 _ (hp.mem_iff.2 (List.mem_map_of_mem ha))
    simpa [Layout.shape] using this
  · rw [Layout.shape, dropAxes_map, g5]; rfl
  · rw [Layout.stride, dropAxes_map, g5]; rfl
  · intro j hj
    have := g7 j hj
    rw [hc] at this
    exact this

/-- `squeeze` with legal axes: accepted exactly when no axis is repeated and all have length 1. -/
theorem C11_squeeze_accept_iff (l : Layout) (hl : l.Valid) (axes : List Int)
    (hax : ∀ a ∈ axes, AxisOk l.ndim a) :
    (∃ m, l.squeeze (some axes) = .ok m) ↔
      (axes.map (normAxis l.ndim)).Nodup ∧ ∀ a ∈ axes, l.shape[normAxis l.ndim a]? = some 1 := by
  simp only [squeeze_ok (valid_iff.1 hl) hax]
  exact ⟨fun ⟨_, h1, h2, _⟩ => ⟨h1, h2⟩, fun ⟨h1, h2⟩ => ⟨_, h1, h2, rfl⟩⟩

/-- `squeeze` removes exactly the listed axes and every element stays at its storage position. -/
theorem C11_squeeze_element (l m : Layout) (hl : l.Valid) (axes : List Int)
    (hax : ∀ a ∈ axes, AxisOk l.ndim a) (h : l.squeeze (some axes) = .ok m) :
    m.shape = dropAxes (axes.map (normAxis l.ndim)) l.shape ∧
    m.stride = dropAxes (axes.map (normAxis l.ndim)) l.stride ∧ m.offset = l.offset ∧
    ∀ i, InRange i l.shape → InRange (dropAxes (axes.map (normAxis l.ndim)) i) m.shape ∧
      m.addr (dropAxes (axes.map (normAxis l.ndim)) i) = l.addr i := by
  obtain ⟨h1, h2, rfl⟩ := (squeeze_ok (valid_iff.1 hl) hax m).1 h
  refine ⟨(dropAxes_map _ _ _).symm, (dropAxes_map _ _ _).symm, rfl, ?_⟩
  intro i hi
  have := dropF_dot (n := 0) (A := axes.map (normAxis l.ndim)) (axes := l.axes) (i := i) (by
    intro a ha _ x hx
    obtain ⟨b, hb, rfl⟩ := List.mem_map.1 ha
    have := h2 b hb
    simp only [Layout.shape, List.getElem?_map, Nat.sub_zero] at this hx
    rw [hx] at this
    simpa using this) hi
  exact ⟨this.1, by rw [addr_mk, addr_eq]; congr 1; exact this.2⟩

/-- `squeeze` without an argument removes all axes of length 1. -/
theorem C11_squeeze_all (l : Layout) (hl : l.Valid) :
    ∃ m, l.squeeze none = .ok m ∧ m.shape = l.shape.filter (· ≠ 1) ∧ m.offset = l.offset ∧
      ∀ i, InRange i l.shape →
        m.addr (dropAxes ((List.range l.ndim).filter fun k => l.shape[k]? = some 1) i) = l.addr i := by
  unfold Layout.squeeze
  simp only
  have he : ((List.range l.ndim).filter fun i => (l.axes.getD i default).dim = 1)
      = (List.range l.ndim).filter fun k => l.shape[k]? = some 1 := by
    apply List.filter_congr
    intro k hk
    have hk : k < l.axes.length := by simpa [Layout.ndim] using hk
    simp [Layout.shape, List.getD_eq_getElem?_getD, hk]
  rw [he]
  generalize hA : ((List.range l.ndim).filter fun k => l.shape[k]? = some 1) = A
  have hmem : ∀ k, k ∈ A ↔ l.shape[k]? = some 1 := by
    intro k
    rw [← hA]
    simp only [List.mem_filter, List.mem_range, decide_eq_true_eq, and_iff_right_iff_imp]
    intro h
    have := (List.getElem?_eq_some_iff.1 h).1
    simpa [Layout.shape, Layout.ndim] using this
  have hs : A.reverse.Pairwise (· > ·) := by
    rw [List.pairwise_reverse, ← hA]
    exact List.pairwise_lt_range.filter _
  refine ⟨_, (squeeze_fold hs (valid_iff.1 hl) (by
    intro a ha
    have := (List.getElem?_eq_some_iff.1 ((hmem a).1 (List.mem_reverse.1 ha))).1
    simpa [Layout.shape, Layout.ndim] using this) _).2 ⟨fun a ha => (hmem a).1 (List.mem_reverse.1 ha), rfl⟩, ?_, rfl, ?_⟩
  · show dims (dropAxes _ l.axes) = _
    rw [dims, ← dropAxes_map]
    have key : ∀ (xs : List Nat) (n : Nat), (∀ k, k < xs.length → (n + k ∈ A.reverse ↔ xs[k]? = some 1)) →
        dropF n A.reverse xs = xs.filter (· ≠ 1) := by
      intro xs
      induction xs with
      | nil => intro n _; rfl
      | cons x xs ih =>
        intro n hk
        have h0 := hk 0 (by simp)
        simp only [Nat.add_zero, List.getElem?_cons_zero, Option.some.injEq] at h0
        rw [dropF_cons, List.filter_cons, ih (n + 1) (by
          intro k hk'
          have := hk (k + 1) (by simpa using hk')
          rw [List.getElem?_cons_succ] at this
          rw [← this]; congr! 1; omega)]
        by_cases hx : x = 1 <;> simp [hx, h0]
    exact key _ 0 (by
      intro k _
      rw [List.mem_reverse, hmem]; simp [Layout.shape])
  · intro i hi
    have := dropF_dot (n := 0) (A := A.reverse) (axes := l.axes) (i := i) (by
      intro a ha _ x hx
      have := (hmem a).1 (List.mem_reverse.1 ha)
      simp only [Layout.shape, List.getElem?_map, Nat.sub_zero] at this hx
      rw [hx] at this
      simpa using this) hi
    rw [addr_mk, addr_eq]; congr 1
    rw [dropAxes_congr (B := A.reverse) (fun x => by simp)]
    exact this.2

/-- `squeeze` undoes `expand_dims`. -/
theorem C11_squeeze_expand (l m : Layout) (hl : l.Valid) (ho : 0 ≤ l.offset) (axes : List Int)
    (h : l.expandDims (some axes) = .ok m) : m.squeeze (some axes) = .ok l := by
  obtain ⟨h1, h2⟩ := (C11_expand_accept_iff l hl ho axes).1 ⟨m, h⟩
  obtain ⟨g1, g2, g3, g4, g5, g6, -⟩ := C11_expand_element l m hl ho axes h
  rw [← g2] at h1 h2
  refine (squeeze_ok (valid_iff.1 g1) h1 l).2 ⟨h2, g3, ?_⟩
  obtain ⟨ax, off⟩ := l
  congr 1
  · rw [Layout.shape, dropAxes_map] at g4
    rw [Layout.stride, dropAxes_map] at g5
    have key : ∀ (xs ys : List Axis), xs.map (·.dim) = ys.map (·.dim) → xs.map (·.str) = ys.map (·.str) → xs = ys := by
      intro xs
      induction xs with
      | nil => intro ys h _; cases ys <;> simp_all
      | cons x xs ih =>
        intro ys h h'
        cases ys with
        | nil => simp at h
        | cons y ys =>
          simp only [List.map_cons, List.cons.injEq] at h h'
          obtain ⟨a, b⟩ := x
          obtain ⟨c, d⟩ := y
          simp only at h h'
          rw [ih ys h.2 h'.2, h.1, h'.1]
    exact (key _ _ g4 g5).symm
  · exact g6.symm

/-- Removing an axis whose length is not 1 is refused. -/
theorem C11_squeeze_rejects (l : Layout) (hl : l.Valid) (axes : List Int) (hax : ∀ a ∈ axes, AxisOk l.ndim a)
    (a : Int) (ha : a ∈ axes) (hd : l.shape[normAxis l.ndim a]? ≠ some 1) :
    ∃ e, l.squeeze (some axes) = .error e := by
  cases h : l.squeeze (some axes) with
  | error e => exact ⟨e, rfl⟩
  | ok m => exact absurd (((C11_squeeze_accept_iff l hl axes hax).1 ⟨m, h⟩).2 a ha) hd

/-- The hypothesis that the axes are legal is needed: `-4` is not an axis of a rank-3 layout, yet
`squeeze` accepts it next to a legal one (only the largest axis is tested). -/
theorem C11_squeeze_out_of_range_accepted :
    ¬ AxisOk 3 (-4) ∧ (⟨[⟨1, 1⟩, ⟨1, 1⟩, ⟨1, 1⟩], 0⟩ : Layout).squeeze (some [0, -4]) = .ok ⟨[⟨1, 1⟩], 0⟩ := by
  refine ⟨by unfold AxisOk; omega, by decide⟩

example : (⟨[⟨2, 3⟩, ⟨3, 1⟩], 4⟩ : Layout).expandDims (some [0, -1])
    = .ok ⟨[⟨1, 3⟩, ⟨2, 3⟩, ⟨3, 1⟩, ⟨1, 1⟩], 4⟩ := by decide
example : (⟨[⟨1, 3⟩, ⟨2, 3⟩, ⟨3, 1⟩, ⟨1, 1⟩], 4⟩ : Layout).squeeze (some [0, -1])
    = .ok ⟨[⟨2, 3⟩, ⟨3, 1⟩], 4⟩ := by decide
example : (⟨[⟨1, 3⟩, ⟨2, 3⟩, ⟨3, 1⟩, ⟨1, 1⟩], 4⟩ : Layout).squeeze none
    = .ok ⟨[⟨2, 3⟩, ⟨3, 1⟩], 4⟩ := by decide
example : (⟨[⟨2, 3⟩, ⟨3, 1⟩], 4⟩ : Layout).Valid := by decide
example : (⟨[⟨2, 3⟩, ⟨3, 1⟩], 4⟩ : Layout).squeeze (some [0]) = .error .invalidValue := by decide

/-! ## C14: flip -/

/-- `flip` with an axis list is accepted exactly when the axes are legal and not repeated. -/
theorem C14_flip_accept_iff (l : Layout) (hl : l.Valid) (axes : List Int) :
    (∃ m, l.flip (some axes) = .ok m) ↔
      (∀ a ∈ axes, AxisOk l.ndim a) ∧ (axes.map (normAxis l.ndim)).Nodup := by
  unfold Layout.flip
  simp only
  constructor
  · rintro ⟨m, h⟩
    obtain ⟨v, hv, _⟩ := bind_ok.1 h
    obtain ⟨h1, h2, _⟩ := normalizeAxes_ok.1 hv
    exact ⟨h1, h2 rfl⟩
  · rintro ⟨h1, h2⟩
    rw [normalizeAxes_ok.2 ⟨h1, fun _ => h2, rfl⟩, ok_bind]
    simp only [if_true]
    have hp := List.perm_insertionSort (· ≤ ·) (axes.map (normAxis l.ndim))
    obtain ⟨m, hm, _⟩ := flip_fold (hp.nodup_iff.2 h2) (valid_iff.1 hl) (by
        intro a ha
        obtain ⟨b, hb, rfl⟩ := List.mem_map.1 (hp.mem_iff.1 ha)
        exact normAxis_lt (h1 b hb))
    exact ⟨m, hm⟩

theorem flipIndex_congr {A B : List Nat} (h : ∀ x, x ∈ A ↔ x ∈ B) (shape idx : List Nat) :
    flipIndex A shape idx = flipIndex B shape idx := by
  unfold flipIndex; simp [h]

/-- The shape is kept and the element at `j` is the old element with the listed coordinates mirrored. -/
theorem C14_flip_element (l m : Layout) (hl : l.Valid) (axes : List Int) (h : l.flip (some axes) = .ok m) :
    m.Valid ∧ m.shape = l.shape ∧ ∀ j, InRange j l.shape →
      InRange (flipIndex (axes.map (normAxis l.ndim)) l.shape j) l.shape ∧
      m.addr j = l.addr (flipIndex (axes.map (normAxis l.ndim)) l.shape j) := by
  obtain ⟨h1, h2⟩ := (C14_flip_accept_iff l hl axes).1 ⟨m, h⟩
  unfold Layout.flip at h
  simp only at h
  rw [normalizeAxes_ok.2 ⟨h1, fun _ => h2, rfl⟩, ok_bind] at h
  simp only [if_true] at h
  have hp := List.perm_insertionSort (· ≤ ·) (axes.map (normAxis l.ndim))
  obtain ⟨m', g1, g2, g3, g4⟩ := flip_fold (hp.nodup_iff.2 h2) (valid_iff.1 hl) (by
      intro a ha
      obtain ⟨b, hb, rfl⟩ := List.mem_map.1 (hp.mem_iff.1 ha)
      exact normAxis_lt (h1 b hb))
  obtain rfl : m = m' := by rw [h] at g1; exact Except.ok.inj g1
  refine ⟨valid_iff.2 g2, g3, fun j hj => ⟨flipIndex_inRange hj, ?_⟩⟩
  rw [g4 j hj, flipIndex_congr fun x => hp.mem_iff]

/-- `flip` without an argument mirrors every axis. -/
theorem C14_flip_all (l : Layout) (hl : l.Valid) :
    ∃ m, l.flip none = .ok m ∧ m.Valid ∧ m.shape = l.shape ∧ ∀ j, InRange j l.shape →
      m.addr j = l.addr (flipIndex (List.range l.ndim) l.shape j) := by
  obtain ⟨m', g1, g2, g3, g4⟩ := flip_fold (List.nodup_range (n := l.ndim)) (valid_iff.1 hl) (by simp)
  exact ⟨m', g1, valid_iff.2 g2, g3, g4⟩

/-- Flipping twice restores every element. -/
theorem C14_flip_twice (l m k : Layout) (hl : l.Valid) (axes : List Int) (h : l.flip (some axes) = .ok m)
    (h' : m.flip (some axes) = .ok k) :
    k.shape = l.shape ∧ ∀ j, InRange j l.shape → k.addr j = l.addr j := by
  obtain ⟨g1, g2, g3⟩ := C14_flip_element l m hl axes h
  obtain ⟨_, k2, k3⟩ := C14_flip_element m k g1 axes h'
  have hn : m.ndim = l.ndim := by
    have := congrArg List.length g2; simpa [Layout.shape, Layout.ndim] using this
  refine ⟨by rw [k2, g2], fun j hj => ?_⟩
  rw [(k3 j (by rw [g2]; exact hj)).2, hn, g2]
  rw [(g3 _ (flipIndex_inRange hj)).2, flipIndex_flipIndex hj]

/-- Flipping a second time is always possible. -/
theorem C14_flip_again (l m : Layout) (hl : l.Valid) (axes : List Int) (h : l.flip (some axes) = .ok m) :
    ∃ k, m.flip (some axes) = .ok k := by
  obtain ⟨g1, g2, -⟩ := C14_flip_element l m hl axes h
  have hn : m.ndim = l.ndim := by
    have := congrArg List.length g2; simpa [Layout.shape, Layout.ndim] using this
  rw [C14_flip_accept_iff m g1, hn]
  exact (C14_flip_accept_iff l hl axes).1 ⟨m, h⟩

example : (⟨[⟨2, 12⟩, ⟨0, 4⟩, ⟨4, -1⟩], 5⟩ : Layout).flip (some [-1, 0])
    = .ok ⟨[⟨2, -12⟩, ⟨0, 4⟩, ⟨4, 1⟩], 14⟩ := by decide
example : flipIndex [2, 0] [2, 3, 4] [0, 1, 1] = [1, 1, 2] := by decide
example : (⟨[⟨2, 12⟩, ⟨3, 4⟩, ⟨4, -1⟩], 5⟩ : Layout).Valid := by decide

/-! ## C15: diagonal -/

/-- Every accepted diagonal of two different axes: the two axes are replaced by a last one, element `t`
of which is the old element at coordinates `(t, t+k)` (or `(t-k, t)` for negative `k`); the new axis
is never longer than the diagonal. -/
theorem C15_diagonal_element (l m : Layout) (hl : l.Valid) (ho : 0 ≤ l.offset) (off ax1 ax2 : Option Int)
    (hne : normAxis l.ndim (ax1.getD 0) ≠ normAxis l.ndim (ax2.getD 1))
    (h : l.diagonal off ax1 ax2 = .ok m) :
    m.Valid ∧ ∃ n, n ≤ diagLen (l.shape.getD (normAxis l.ndim (ax1.getD 0)) 0)
        (l.shape.getD (normAxis l.ndim (ax2.getD 1)) 0) (off.getD 0) ∧
      m.shape = dropAxes [normAxis l.ndim (ax1.getD 0), normAxis l.ndim (ax2.getD 1)] l.shape ++ [n] ∧
      ∀ (r : List Nat) (t : Nat), InRange (r ++ [t]) m.shape →
        ∃ i, InRange i l.shape ∧ m.addr (r ++ [t]) = l.addr i ∧
          i[normAxis l.ndim (ax1.getD 0)]? = some (t + max 0 (-(off.getD 0))).toNat ∧
          i[normAxis l.ndim (ax2.getD 1)]? = some (t + max 0 (off.getD 0)).toNat ∧
          dropAxes [normAxis l.ndim (ax1.getD 0), normAxis l.ndim (ax2.getD 1)] i = r := by
  obtain ⟨h1, h2, h3, h4, h5⟩ := (diagonal_ok ((valid_iff.1 hl).good ho) hne).1 h
  refine ⟨valid_iff.2 (diagonal_good h).accepted,
    (codeDiagLen (l.axes.getD (normAxis l.ndim (ax1.getD 0)) default).dim
      (l.axes.getD (normAxis l.ndim (ax2.getD 1)) default).dim (off.getD 0)).toNat, ?_, ?_, ?_⟩
  · rw [← getD_dim, ← getD_dim]; exact codeDiagLen_le
  · rw [h4]; simp [Layout.shape, dropAxes_map]
  · intro r t hrt
    have hsh : m.shape = dims (dropAxes [normAxis l.ndim (ax1.getD 0), normAxis l.ndim (ax2.getD 1)] l.axes) ++
        [(codeDiagLen (l.axes.getD (normAxis l.ndim (ax1.getD 0)) default).dim
          (l.axes.getD (normAxis l.ndim (ax2.getD 1)) default).dim (off.getD 0)).toNat] := by
      rw [h4]; simp [Layout.shape]
    rw [hsh] at hrt
    obtain ⟨i, g1, g2, g3, g4, g5⟩ := diagonal_sub (off := m.offset) (k := off.getD 0) hne (normAxis_lt h1) (normAxis_lt h2) rfl (by
      intro hn0
      unfold codeDiagLen at hn0
      rw [h5]
      split_ifs at hn0 ⊢ with q1 q2
      · rw [show max 0 (-(off.getD 0)) = -(off.getD 0) by omega, show max 0 (off.getD 0) = 0 by omega]; ring
      · rw [show max 0 (-(off.getD 0)) = 0 by omega, show max 0 (off.getD 0) = off.getD 0 by omega]; ring
      · simp at hn0) r t hrt
    refine ⟨i, g1, ?_, g2, g3, g4⟩
    rw [← g5, h4, addr_mk]

/-- Acceptance and length. Missing for the full claim: super-diagonals `k ≥ 0` with `d1 ≤ k < d2` (empty
instead of non-empty) and `d2 < k < d1` (panic instead of empty). -/
theorem C15_diagonal_length_partial (l : Layout) (hl : l.Valid) (ho : 0 ≤ l.offset) (off ax1 ax2 : Option Int)
    (h1 : AxisOk l.ndim (ax1.getD 0)) (h2 : AxisOk l.ndim (ax2.getD 1))
    (hne : normAxis l.ndim (ax1.getD 0) ≠ normAxis l.ndim (ax2.getD 1)) (d1 d2 : Nat)
    (hd1 : l.shape[normAxis l.ndim (ax1.getD 0)]? = some d1)
    (hd2 : l.shape[normAxis l.ndim (ax2.getD 1)]? = some d2)
    (hk : off.getD 0 < 0 ∨ (off.getD 0 < d1 ∧ off.getD 0 ≤ d2) ∨ (d1 ≤ off.getD 0 ∧ d2 ≤ off.getD 0)) :
    ∃ m, l.diagonal off ax1 ax2 = .ok m ∧
      m.shape = dropAxes [normAxis l.ndim (ax1.getD 0), normAxis l.ndim (ax2.getD 1)] l.shape ++
        [diagLen d1 d2 (off.getD 0)] := by
  have e1 : (l.axes.getD (normAxis l.ndim (ax1.getD 0)) default).dim = d1 := by
    rw [getD_dim, List.getD_eq_getElem?_getD, hd1]; rfl
  have e2 : (l.axes.getD (normAxis l.ndim (ax2.getD 1)) default).dim = d2 := by
    rw [getD_dim, List.getD_eq_getElem?_getD, hd2]; rfl
  have hlen : 0 ≤ codeDiagLen d1 d2 (off.getD 0) ∧ (codeDiagLen d1 d2 (off.getD 0)).toNat = diagLen d1 d2 (off.getD 0) := by
    unfold codeDiagLen diagLen; split_ifs <;> omega
  have hG := (valid_iff.1 hl).good ho
  -- the layout the code builds is good, so the code accepts it
  have hok : ∃ m, l.diagonal off ax1 ax2 = .ok m := diagonal_accepts hG hne h1 h2 (by rw [e1, e2]; exact hlen.1)
  obtain ⟨m, hm⟩ := hok
  refine ⟨m, hm, ?_⟩
  obtain ⟨_, _, _, h4, _⟩ := (diagonal_ok hG hne).1 hm
  rw [h4]
  simp only [Layout.shape, List.map_append, List.map_cons, List.map_nil, ← dropAxes_map]
  rw [e1, e2, hlen.2]

/-- Fewer than two axes are refused. -/
theorem C15_diagonal_rank (l : Layout) (off ax1 ax2 : Option Int) (h : l.ndim < 2) :
    l.diagonal off ax1 ax2 = .error .invalidLayout := by
  unfold Layout.diagonal; rw [if_pos h]

/-- Third super-diagonal of a 2×5 matrix: two elements by definition, none by the code. -/
theorem C15_wide_super_diagonal_lost :
    diagLen 2 5 3 = 2 ∧ (⟨[⟨2, 5⟩, ⟨5, 1⟩], 0⟩ : Layout).diagonal (some 3) none none = .ok ⟨[⟨0, 6⟩], 0⟩ := by
  decide

/-- Third super-diagonal of a 5×2 matrix: empty by definition, a negative length in the code. -/
theorem C15_tall_super_diagonal_panics :
    diagLen 5 2 3 = 0 ∧ (⟨[⟨5, 2⟩, ⟨2, 1⟩], 0⟩ : Layout).diagonal (some 3) none none = .error .panic := by
  decide

/-- The hypothesis that the axes differ is needed: on dynamic ranks equal axes are accepted and the
result leaves the storage of the original (3×3 at positions 0…8; position 12 is addressed). -/
theorem C15_equal_axes_out_of_bounds :
    (⟨[⟨3, 3⟩, ⟨3, 1⟩], 0⟩ : Layout).diagonal none (some 0) (some 0) = .ok ⟨[⟨3, 1⟩, ⟨3, 6⟩], 0⟩ ∧
    (⟨[⟨3, 1⟩, ⟨3, 6⟩], 0⟩ : Layout).addr [0, 2] = 12 ∧
    (⟨[⟨3, 3⟩, ⟨3, 1⟩], 0⟩ : Layout).boundsIndex = .ok (0, 9) := by decide

example : (⟨[⟨3, 20⟩, ⟨2, 10⟩, ⟨5, -2⟩], 9⟩ : Layout).diagonal (some (-1)) (some (-1)) (some 0)
    = .ok ⟨[⟨2, 10⟩, ⟨3, 18⟩], 7⟩ := by decide
example : (⟨[⟨3, 20⟩, ⟨2, 10⟩, ⟨5, -2⟩], 9⟩ : Layout).Valid := by decide

/-! ## C52: splitting the axes -/

/-- `dim_split_at`: accepted exactly for places between axes; each full index is one pair of partial
indices and the position is the sum of both, the offset counted once. -/
theorem C52_split_at (l : Layout) (axis : Int) :
    ((∃ p, l.dimSplitAt axis = .ok p) ↔ -(l.ndim : Int) ≤ axis ∧ axis ≤ l.ndim) ∧
    ∀ a b, l.dimSplitAt axis = .ok (a, b) →
      l.shape = a.shape ++ b.shape ∧ a.offset = l.offset ∧ b.offset = l.offset ∧
      a.ndim = (if axis < 0 then (l.ndim : Int) + axis else axis).toNat ∧
      ∀ i j, InRange i a.shape → InRange j b.shape →
        InRange (i ++ j) l.shape ∧ l.addr (i ++ j) = a.addr i + b.addr j - l.offset := by
  unfold Layout.dimSplitAt
  dsimp only
  generalize hn : (if axis < 0 then (l.ndim : Int) + axis else axis) = n
  have hr : (n ≥ 0 ∧ n ≤ l.ndim) ↔ -(l.ndim : Int) ≤ axis ∧ axis ≤ l.ndim := by
    rw [← hn]; split <;> omega
  constructor
  · rw [← hr]
    split <;> simp_all
  · intro a b h
    split at h
    · rename_i hc
      cases h
      have hnl : n.toNat ≤ l.axes.length := by
        have : (l.ndim : Int) = l.axes.length := rfl
        omega
      refine ⟨by simp [Layout.shape], rfl, rfl, by simp [Layout.ndim, hnl], ?_⟩
      intro i j hi hj
      have hil : i.length = (l.axes.take n.toNat).length := by simpa [Layout.shape] using hi.length_eq
      refine ⟨?_, ?_⟩
      · have : l.shape = (l.axes.take n.toNat).map (·.dim) ++ (l.axes.drop n.toNat).map (·.dim) := by
          rw [← List.map_append, List.take_append_drop]; rfl
        rw [this, inRange_append (by simpa using hil)]
        exact ⟨hi, hj⟩
      · rw [addr_eq, addr_mk, addr_mk]
        conv_lhs => rw [← List.take_append_drop n.toNat l.axes]
        rw [dot_append hil]; ring
    · cases h

example : (⟨[⟨2, 12⟩, ⟨3, 4⟩, ⟨4, -1⟩], 5⟩ : Layout).dimSplitAt (-1)
    = .ok (⟨[⟨2, 12⟩, ⟨3, 4⟩], 5⟩, ⟨[⟨4, -1⟩], 5⟩) := by rfl

theorem takeAxes_eq {A i : List Nat} (h : ∀ a ∈ A, a < i.length) : takeAxes A i = pickIdx i A := by
  unfold takeAxes pickIdx
  induction A with
  | nil => rfl
  | cons a A ih =>
    have ha := h a (by simp)
    rw [List.filterMap_cons, ih fun b hb => h b (by simp [hb]), List.map_cons,
      List.getD_eq_getElem?_getD, List.getElem?_eq_getElem ha]
    rfl

theorem takeAxes_dims {A : List Nat} {axes : List Axis} (h : ∀ a ∈ A, a < axes.length) :
    takeAxes A (dims axes) = dims (pick axes A) := by
  rw [takeAxes_eq (by simpa using h), dims_pick]; rfl

theorem loSum_sub {A B : List Axis} (h : (A ++ B).Perm C) (hz : 0 ∉ dims C) : loSum C ≤ loSum A := by
  rw [← loSum_perm h, loSum_append]
  have : loSum B ≤ 0 := loSum_nonpos fun hb => hz <| by
    have : (dims (A ++ B)).Perm (dims C) := h.map _
    rw [← this.mem_iff]; simp only [dims, List.map_append, List.mem_append]; right; exact hb
  omega

/-- `dim_split_axes`: on a layout with no zero length it is accepted exactly for legal axes without
repetition. -/
theorem C52_split_axes_accept_iff (l : Layout) (hl : l.Valid) (ho : 0 ≤ l.offset) (hz : 0 ∉ l.shape)
    (axes : List Int) :
    (∃ p, l.dimSplitAxes axes = .ok p) ↔
      (∀ a ∈ axes, AxisOk l.ndim a) ∧ (axes.map (normAxis l.ndim)).Nodup := by
  unfold Layout.dimSplitAxes
  constructor
  · rintro ⟨p, h⟩
    obtain ⟨v, hv, _⟩ := bind_ok.1 h
    obtain ⟨h1, h2, _⟩ := normalizeAxes_ok.1 hv
    exact ⟨h1, h2 rfl⟩
  · rintro ⟨h1, h2⟩
    rw [normalizeAxes_ok.2 ⟨h1, fun _ => h2, rfl⟩, ok_bind]
    simp only [Bool.false_eq_true, if_false]
    rw [otherAxes_contains]
    have hlt : ∀ a ∈ axes.map (normAxis l.ndim), a < l.ndim := by
      intro a ha
      obtain ⟨b, hb, rfl⟩ := List.mem_map.1 ha
      exact normAxis_lt (h1 b hb)
    have hp : (pick l.axes (axes.map (normAxis l.ndim) ++ otherAxes l.ndim (axes.map (normAxis l.ndim)))).Perm l.axes :=
      pick_perm (append_otherAxes_perm h2 hlt)
    have hsplit : pick l.axes (axes.map (normAxis l.ndim) ++ otherAxes l.ndim (axes.map (normAxis l.ndim)))
        = pick l.axes (axes.map (normAxis l.ndim)) ++ pick l.axes (otherAxes l.ndim (axes.map (normAxis l.ndim))) := by
      simp [pick]
    rw [hsplit] at hp
    rcases (valid_iff.1 hl).good ho with h | ⟨g1, g2⟩
    · exact absurd h hz
    · have ga : Good ⟨pick l.axes (axes.map (normAxis l.ndim)), l.offset⟩ := Or.inr ⟨by
        have := loSum_sub hp hz
        simp only; omega, (g2.perm hp).sublist (List.sublist_append_left _ _)⟩
      have gb : Good ⟨pick l.axes (otherAxes l.ndim (axes.map (normAxis l.ndim))), l.offset⟩ := Or.inr ⟨by
        have := loSum_sub (List.perm_append_comm.trans hp) hz
        simp only; omega, (g2.perm hp).sublist (List.sublist_append_right _ _)⟩
      have ea := ga.accepted.new
      have eb := gb.accepted.new
      unfold pick at ea eb
      rw [ea, ok_bind, eb]
      exact ⟨_, rfl⟩

/-- Laws of the two layouts made of the axes `S` and of the others. -/
theorem split_laws {l : Layout} {S : List Nat} (hnd : S.Nodup) (hlt : ∀ a ∈ S, a < l.axes.length) :
    dims (pick l.axes S) = takeAxes S l.shape ∧
    dims (pick l.axes (otherAxes l.ndim S)) = takeAxes (otherAxes l.ndim S) l.shape ∧
    (∀ k, InRange k l.shape →
      InRange (takeAxes S k) (dims (pick l.axes S)) ∧
      InRange (takeAxes (otherAxes l.ndim S) k) (dims (pick l.axes (otherAxes l.ndim S))) ∧
      l.addr k = l.offset + dot (takeAxes S k) (pick l.axes S) +
        dot (takeAxes (otherAxes l.ndim S) k) (pick l.axes (otherAxes l.ndim S))) ∧
    (∀ i j, InRange i (dims (pick l.axes S)) → InRange j (dims (pick l.axes (otherAxes l.ndim S))) →
      ∃ k, InRange k l.shape ∧ takeAxes S k = i ∧ takeAxes (otherAxes l.ndim S) k = j) := by
  have hlt2 : ∀ a ∈ otherAxes l.ndim S, a < l.axes.length := by
    intro a ha
    simp only [otherAxes, List.mem_filter, List.mem_range] at ha
    exact ha.1
  have hp : (S ++ otherAxes l.ndim S).Perm (List.range l.axes.length) := append_otherAxes_perm hnd hlt
  have hpick : pick l.axes (S ++ otherAxes l.ndim S) = pick l.axes S ++ pick l.axes (otherAxes l.ndim S) := by
    simp [pick]
  have hpickI : ∀ k, pickIdx k (S ++ otherAxes l.ndim S) = pickIdx k S ++ pickIdx k (otherAxes l.ndim S) := by
    intro k; simp [pickIdx]
  refine ⟨(takeAxes_dims hlt).symm, (takeAxes_dims hlt2).symm, ?_, ?_⟩
  · intro k hk
    have hkl : k.length = l.axes.length := by simpa [Layout.shape] using hk.length_eq
    rw [takeAxes_eq (by rw [hkl]; exact hlt), takeAxes_eq (by rw [hkl]; exact hlt2)]
    obtain ⟨g1, g2⟩ := pick_addr hp hk
    rw [hpick, hpickI] at g1 g2
    simp only [dims, List.map_append] at g1
    rw [inRange_append (by simp [pickIdx, pick])] at g1
    rw [dot_append (by simp [pickIdx, pick])] at g2
    refine ⟨g1.1, g1.2, ?_⟩
    rw [addr_eq, ← g2]
    ring
  · intro i j hi hj
    have hij : InRange (i ++ j) (dims (pick l.axes (S ++ otherAxes l.ndim S))) := by
      rw [hpick]; simp only [dims, List.map_append]
      rw [inRange_append (by have := hi.length_eq; simpa [pick] using this)]
      exact ⟨hi, hj⟩
    obtain ⟨k, g1, g2, -⟩ := pick_addr_inv hp hij
    have hkl : k.length = l.axes.length := by simpa using g1.length_eq
    rw [hpickI] at g2
    have hil : (pickIdx k S).length = i.length := by
      have := hi.length_eq
      simp only [List.length_map] at this
      simp [pickIdx, pick, this]
    obtain ⟨e1, e2⟩ := List.append_inj g2 hil
    exact ⟨k, g1, by rw [takeAxes_eq (by rw [hkl]; exact hlt)]; exact e1,
      by rw [takeAxes_eq (by rw [hkl]; exact hlt2)]; exact e2⟩

/-- `dim_split_axes`: the two layouts have the lengths and strides of the selected axes (in the order
given) and of the other axes, and both start at the old offset. Every full index is exactly one pair
of partial indices, and its position is the sum of both with the offset counted once. -/
theorem C52_split_axes (l a b : Layout) (axes : List Int) (h : l.dimSplitAxes axes = .ok (a, b)) :
    a.shape = takeAxes (axes.map (normAxis l.ndim)) l.shape ∧
    b.shape = takeAxes (otherAxes l.ndim (axes.map (normAxis l.ndim))) l.shape ∧
    a.offset = l.offset ∧ b.offset = l.offset ∧
    (∀ k, InRange k l.shape →
      InRange (takeAxes (axes.map (normAxis l.ndim)) k) a.shape ∧
      InRange (takeAxes (otherAxes l.ndim (axes.map (normAxis l.ndim))) k) b.shape ∧
      l.addr k = a.addr (takeAxes (axes.map (normAxis l.ndim)) k) +
        b.addr (takeAxes (otherAxes l.ndim (axes.map (normAxis l.ndim))) k) - l.offset) ∧
    (∀ i j, InRange i a.shape → InRange j b.shape → ∃ k, InRange k l.shape ∧
      takeAxes (axes.map (normAxis l.ndim)) k = i ∧
      takeAxes (otherAxes l.ndim (axes.map (normAxis l.ndim))) k = j) := by
  unfold Layout.dimSplitAxes at h
  obtain ⟨v, hv, h⟩ := bind_ok.1 h
  obtain ⟨h1, h2, rfl⟩ := normalizeAxes_ok.1 hv
  simp only [Bool.false_eq_true, if_false] at h
  obtain ⟨a', ha', h⟩ := bind_ok.1 h
  obtain ⟨b', hb', h⟩ := bind_ok.1 h
  obtain ⟨-, rfl⟩ := accepted_of_newAxes ha'
  obtain ⟨-, rfl⟩ := accepted_of_newAxes hb'
  rw [otherAxes_contains] at *
  cases h
  have hlt : ∀ a ∈ axes.map (normAxis l.ndim), a < l.axes.length := by
    intro a ha
    obtain ⟨b, hb, rfl⟩ := List.mem_map.1 ha
    exact normAxis_lt (h1 b hb)
  obtain ⟨g1, g2, g3, g4⟩ := split_laws (l := l) (h2 rfl) hlt
  refine ⟨g1, g2, rfl, rfl, fun k hk => ?_, g4⟩
  obtain ⟨e1, e2, e3⟩ := g3 k hk
  refine ⟨e1, e2, ?_⟩
  rw [e3, addr_mk, addr_mk]
  unfold pick; ring

example : (⟨[⟨2, 12⟩, ⟨3, 4⟩, ⟨4, -1⟩], 5⟩ : Layout).dimSplitAxes [-1, 0]
    = .ok (⟨[⟨4, -1⟩, ⟨2, 12⟩], 5⟩, ⟨[⟨3, 4⟩], 5⟩) := by rfl
/-- On layouts with a zero length the split can be refused, so the hypothesis above is needed. -/
example : (⟨[⟨2, 1⟩, ⟨3, 1⟩, ⟨0, 1⟩], 0⟩ : Layout).Valid ∧
    (⟨[⟨2, 1⟩, ⟨3, 1⟩, ⟨0, 1⟩], 0⟩ : Layout).dimSplitAxes [0, 1] = .error .invalidLayout := by decide

end Rstsr
