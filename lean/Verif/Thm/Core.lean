import Verif.Proof.Core
/-!
# Theorems C01 – C06, C27, C53: layouts, bounds, lookup, contiguity

`l.addr idx` is by definition `Spec.position l.stride l.offset idx` and `Spec.InRange idx l.shape`
says that `idx` is a multi-index of the layout.
-/
namespace Rstsr
open Spec

/-! ## C01: accepted layouts never alias -/

/-- Two in-range indices at the same position agree on every axis whose stride is not 0. -/
theorem C01_no_alias (shape : List Nat) (stride : List Int) (offset : Int) (l : Layout)
    (hnew : Layout.new shape stride offset = .ok l) (i j : List Nat)
    (hi : InRange i shape) (hj : InRange j shape)
    (heq : position stride offset i = position stride offset j)
    (k : Nat) (s : Int) (hs : stride[k]? = some s) (h0 : s ≠ 0) : i[k]? = j[k]? := by
  obtain ⟨_, rfl, rfl, rfl, _, hc⟩ := new_ok.1 hnew
  exact checkStrides_inj hc hi hj heq k s hs h0

/-- Without stride-0 axes the map from indices to positions is injective. -/
theorem C01_injective (shape : List Nat) (stride : List Int) (offset : Int) (l : Layout)
    (hnew : Layout.new shape stride offset = .ok l) (hz : 0 ∉ stride) (i j : List Nat)
    (hi : InRange i shape) (hj : InRange j shape)
    (heq : position stride offset i = position stride offset j) : i = j := by
  have hlen := (new_ok.1 hnew).1
  apply List.ext_getElem?
  intro k
  by_cases hk : k < stride.length
  · refine C01_no_alias shape stride offset l hnew i j hi hj heq k stride[k]
      (List.getElem?_eq_getElem hk) ?_
    intro h; apply hz; rw [← h]; exact List.getElem_mem hk
  · rw [List.getElem?_eq_none (by have := hi.length_eq; omega),
      List.getElem?_eq_none (by have := hj.length_eq; omega)]

example : ∃ l, Layout.new [3, 2, 4] [8, -30, 2] 40 = .ok l := ⟨_, rfl⟩
example : Layout.new [3, 2] [1, 2] 0 = .error .invalidLayout := by decide
/-- A stride-0 axis really does share storage, so the hypothesis on the stride is needed. -/
example : ∃ l, Layout.new [3, 2] [0, 1] 0 = .ok l ∧ l.addr [0, 1] = l.addr [2, 1] := ⟨_, rfl, by decide⟩

/-! ## C02: reported bounds are exact -/

/-- Without zero lengths, a successful result is the exact range of addressed positions. -/
theorem C02_bounds_exact (l : Layout) (hz : 0 ∉ l.shape) (hoff : 0 ≤ l.offset) (mn mx : Int)
    (h : l.boundsIndex = .ok (mn, mx)) :
    (∀ idx, InRange idx l.shape → mn ≤ l.addr idx ∧ l.addr idx < mx) ∧
    (∃ idx, InRange idx l.shape ∧ l.addr idx = mn) ∧
    (∃ idx, InRange idx l.shape ∧ l.addr idx = mx - 1) := by
  refine ⟨fun idx hi => boundsIndex_sound h hi, ?_⟩
  rw [boundsIndex_of_pos hz hoff] at h
  split at h
  · cases h
    exact ⟨⟨loIdx l.axes, (loIdx_spec hz).1, by rw [addr_eq, (loIdx_spec hz).2]⟩,
      ⟨hiIdx l.axes, (hiIdx_spec hz).1, by rw [addr_eq, (hiIdx_spec hz).2]; ring⟩⟩
  · cases h

/-- Zero lengths give the empty range at the offset. -/
theorem C02_bounds_empty (l : Layout) (hz : 0 ∈ l.shape) :
    l.boundsIndex = .ok (l.offset, l.offset) := boundsIndex_of_zero hz

/-- The call fails exactly when some in-range index would address a negative position. -/
theorem C02_bounds_error_iff (l : Layout) (hoff : 0 ≤ l.offset) (e : Err) :
    l.boundsIndex = .error e ↔
      e = .valueOutOfRange ∧ ∃ idx, InRange idx l.shape ∧ l.addr idx < 0 := by
  by_cases hz : 0 ∈ l.shape
  · rw [boundsIndex_of_zero hz]
    refine ⟨fun h => (nomatch h), ?_⟩
    rintro ⟨_, idx, hi, _⟩
    exact absurd (hi.pos 0 hz) (by simp)
  · rw [boundsIndex_of_pos hz hoff]
    constructor
    · intro h
      split at h
      · cases h
      · rename_i h1
        cases h
        exact ⟨rfl, loIdx l.axes, (loIdx_spec hz).1, by rw [addr_eq, (loIdx_spec hz).2]; omega⟩
    · rintro ⟨rfl, idx, hi, hneg⟩
      rw [addr_eq] at hneg
      have := (dot_bounds hi).1
      rw [if_neg (by omega)]

example : (⟨[⟨3, -2⟩, ⟨2, 7⟩], 5⟩ : Layout).boundsIndex = .ok (1, 13) := by decide
example : (⟨[⟨3, -2⟩, ⟨2, 7⟩], 3⟩ : Layout).boundsIndex = .error .valueOutOfRange := by decide

/-! ## C04: index lookup -/

/-- Accepted indices and their result (positions are non-negative by the type of `p`). -/
theorem C04_index_ok_iff (l : Layout) (index : List Int) (p : Nat) :
    l.indexF index = .ok p ↔
      ∃ idx, Wraps index l.shape idx ∧ InRange idx l.shape ∧ (p : Int) = l.addr idx := by
  unfold Layout.indexF
  split
  · rename_i hl
    refine ⟨fun h => (nomatch h), ?_⟩
    rintro ⟨idx, hw, _⟩
    have := hw.length_eq.1
    simp [Layout.shape, Layout.ndim] at this hl
    exact absurd this hl
  · rename_i hl
    have hl : index.length = l.axes.length := by simpa [Layout.ndim] using hl
    rw [bind_ok]
    constructor
    · rintro ⟨q, hq, h⟩
      obtain ⟨idx, h1, h2, h3⟩ := (indexLoop_ok hl).1 hq
      refine ⟨idx, (wraps_iff h2).2 h1, h2, ?_⟩
      split at h
      · cases h; rw [addr_eq]; omega
      · cases h
    · rintro ⟨idx, h1, h2, h3⟩
      refine ⟨p, (indexLoop_ok hl).2 ⟨idx, (wraps_iff h2).1 h1, h2, by rw [h3, addr_eq]⟩, ?_⟩
      simp

/-- The accept boundary: one entry per axis, each in `-d ≤ i < d`. -/
theorem C04_index_accept_iff (l : Layout) (hpos : ∀ idx, InRange idx l.shape → 0 ≤ l.addr idx)
    (index : List Int) :
    (∃ p, l.indexF index = .ok p) ↔
      List.Forall₂ (fun (i : Int) (d : Nat) => -(d : Int) ≤ i ∧ i < d) index l.shape := by
  rw [← exists_wraps_iff]
  constructor
  · rintro ⟨p, h⟩
    obtain ⟨idx, h1, h2, _⟩ := (C04_index_ok_iff l index p).1 h
    exact ⟨idx, h1, h2⟩
  · rintro ⟨idx, h1, h2⟩
    exact ⟨(l.addr idx).toNat, (C04_index_ok_iff l index _).2
      ⟨idx, h1, h2, by have := hpos idx h2; omega⟩⟩

/-- The rejection kinds: wrong number of entries, or an entry out of range. -/
theorem C04_index_error (l : Layout) (hpos : ∀ idx, InRange idx l.shape → 0 ≤ l.addr idx)
    (index : List Int) (e : Err) (h : l.indexF index = .error e) :
    (index.length ≠ l.ndim ∧ e = .invalidLayout) ∨ (index.length = l.ndim ∧ e = .indexError) := by
  unfold Layout.indexF at h
  split at h
  · rename_i hl; cases h; exact Or.inl ⟨hl, rfl⟩
  · rename_i hl
    refine Or.inr ⟨by omega, ?_⟩
    rw [bind_error] at h
    rcases h with h | ⟨q, hq, h⟩
    · exact indexLoop_error h
    · exfalso
      obtain ⟨idx, h1, h2, h3⟩ := (indexLoop_ok (by simpa [Layout.ndim] using hl)).1 hq
      have := hpos idx h2
      rw [addr_eq, ← h3] at this
      rw [if_pos this] at h
      cases h

/-- The unchecked lookup, with its unrolled cases, computes the same position. -/
theorem C04_index_uncheck (l : Layout) (idx : List Nat) (h : idx.length = l.shape.length) :
    l.indexUncheck idx = .ok (l.addr idx) :=
  indexUncheck_eq (by simpa [Layout.shape, Layout.ndim] using h)

example : ∀ idx, InRange idx (⟨[⟨3, -2⟩, ⟨2, 7⟩], 5⟩ : Layout).shape →
    0 ≤ (⟨[⟨3, -2⟩, ⟨2, 7⟩], 5⟩ : Layout).addr idx := fun idx h =>
  Int.le_trans (by decide : (0:Int) ≤ 1) (boundsIndex_sound (mn := 1) (mx := 13) (by decide) h).1
example : (⟨[⟨3, -2⟩, ⟨2, 7⟩], 5⟩ : Layout).indexF [-1, 1] = .ok 8 := by decide
example : (⟨[⟨3, -2⟩, ⟨2, 7⟩], 5⟩ : Layout).indexF [-4, 1] = .error .indexError := by decide

/-! ## C03: tensor construction implies in-bounds access -/

/-- Every in-range index of a constructed tensor is inside its storage. -/
theorem C03_in_bounds {α : Type} (data : List α) (l : Layout) (t : Tensor α) (hoff : 0 ≤ l.offset)
    (h : Tensor.newF data l = .ok t) (idx : List Nat) (hi : InRange idx l.shape) :
    0 ≤ l.addr idx ∧ l.addr idx < data.length := by
  unfold Tensor.newF at h
  obtain ⟨_, _, h⟩ := bind_ok.1 h
  obtain ⟨⟨mn, mx⟩, hb, h⟩ := bind_ok.1 h
  have hs := boundsIndex_sound hb hi
  have hz : 0 ∉ l.shape := fun e => absurd (hi.pos 0 e) (by simp)
  rw [boundsIndex_of_pos hz hoff] at hb
  dsimp only at h
  split at h
  · split at hb
    · cases hb; constructor <;> omega
    · cases hb
  · cases h

/-- Element access on a constructed tensor succeeds on every in-range index, through the checked
and the unchecked accessor, and both return the storage cell at the element's position. -/
theorem C03_access_ok {α : Type} (data : List α) (l : Layout) (t : Tensor α) (hoff : 0 ≤ l.offset)
    (h : Tensor.newF data l = .ok t) (idx : List Nat) (hi : InRange idx l.shape) :
    ∃ v, data[(l.addr idx).toNat]? = some v ∧ t.indexF (idx.map Int.ofNat) = .ok v ∧
      t.indexUncheck idx = .ok v := by
  have hin : ∀ idx, InRange idx l.shape → 0 ≤ l.addr idx := fun idx hi =>
    (C03_in_bounds data l t hoff h idx hi).1
  have hb := C03_in_bounds data l t hoff h idx hi
  have ht : t = ⟨data, l⟩ := by
    unfold Tensor.newF at h
    obtain ⟨_, _, h⟩ := bind_ok.1 h
    obtain ⟨⟨_, _⟩, _, h⟩ := bind_ok.1 h
    dsimp only at h
    split at h
    · cases h; rfl
    · cases h
  subst ht
  have hlt : (l.addr idx).toNat < data.length := by omega
  refine ⟨data[(l.addr idx).toNat], List.getElem?_eq_getElem hlt, ?_, ?_⟩
  · unfold Tensor.indexF
    have hw : Wraps (idx.map Int.ofNat) l.shape idx := by
      have : ∀ (idx shape : List Nat), InRange idx shape → Wraps (idx.map Int.ofNat) shape idx := by
        intro idx
        induction idx with
        | nil => intro shape h; cases shape <;> simp_all [Wraps]
        | cons i is ih =>
          intro shape h
          cases shape with
          | nil => simp at h
          | cons d ds => exact ⟨by simp, ih ds h.2⟩
      exact this idx l.shape hi
    have : l.indexF (idx.map Int.ofNat) = .ok (l.addr idx).toNat :=
      (C04_index_ok_iff l _ _).2 ⟨idx, hw, hi, by omega⟩
    simp [this, List.getElem?_eq_getElem hlt]
  · unfold Tensor.indexUncheck
    simp only [indexUncheck_eq (l := l) (idx := idx)
      (by simpa [Layout.shape, Layout.ndim] using hi.length_eq), ok_bind]
    rw [if_neg (by omega), List.getElem?_eq_getElem hlt]

/-- Construction is refused whenever some element would lie outside the storage. -/
theorem C03_reject {α : Type} (data : List α) (l : Layout) (hoff : 0 ≤ l.offset)
    (idx : List Nat) (hi : InRange idx l.shape)
    (hout : l.addr idx < 0 ∨ (data.length : Int) ≤ l.addr idx) :
    ∀ t, Tensor.newF data l ≠ .ok t := by
  intro t h
  have := C03_in_bounds data l t hoff h idx hi
  omega

example : ∃ t, Tensor.newF [10, 20, 30, 40, 50, 60, 70] ⟨[⟨2, 3⟩, ⟨3, -1⟩], 2⟩ = .ok t := ⟨_, rfl⟩

/-! ## C05: contiguous layouts are dense bijections -/

/-- Row-major: shape as requested, address is offset plus row-major rank. -/
theorem C05_c_contig_addr (shape : List Nat) (offset : Int) :
    (Layout.newCContig shape offset).shape = shape ∧
    ∀ idx, InRange idx shape →
      (Layout.newCContig shape offset).addr idx = offset + rankC shape idx :=
  ⟨shape_newCContig _ _, fun _ h => addr_newCContig h.length_eq⟩

/-- Column-major: shape as requested, address is offset plus column-major rank. -/
theorem C05_f_contig_addr (shape : List Nat) (offset : Int) :
    (Layout.newFContig shape offset).shape = shape ∧
    ∀ idx, InRange idx shape →
      (Layout.newFContig shape offset).addr idx = offset + rankF shape idx :=
  ⟨shape_newFContig _ _, fun _ h => addr_newFContig h.length_eq⟩

/-- Row-major layouts address each of `offset … offset+size-1` exactly once. -/
theorem C05_c_contig_bijective (shape : List Nat) (offset p : Int) :
    (offset ≤ p ∧ p < offset + shape.prod) ↔
      ∃! idx, InRange idx shape ∧ (Layout.newCContig shape offset).addr idx = p := by
  constructor
  · rintro ⟨h1, h2⟩
    obtain ⟨idx, hi, hr⟩ := exists_rankC (shape := shape) (k := (p - offset).toNat) (by omega)
    refine ⟨idx, ⟨hi, by rw [addr_newCContig hi.length_eq, hr]; omega⟩, ?_⟩
    rintro j ⟨hj, hj'⟩
    apply rankC_inj hj hi
    rw [addr_newCContig hj.length_eq] at hj'
    omega
  · rintro ⟨idx, ⟨hi, h⟩, _⟩
    rw [addr_newCContig hi.length_eq] at h
    have := rankC_lt hi
    omega

/-- Column-major layouts address each of `offset … offset+size-1` exactly once. -/
theorem C05_f_contig_bijective (shape : List Nat) (offset p : Int) :
    (offset ≤ p ∧ p < offset + shape.prod) ↔
      ∃! idx, InRange idx shape ∧ (Layout.newFContig shape offset).addr idx = p := by
  constructor
  · rintro ⟨h1, h2⟩
    obtain ⟨idx, hi, hr⟩ := exists_rankF (shape := shape) (k := (p - offset).toNat) (by omega)
    refine ⟨idx, ⟨hi, by rw [addr_newFContig hi.length_eq, hr]; omega⟩, ?_⟩
    rintro j ⟨hj, hj'⟩
    apply rankF_inj hj hi
    rw [addr_newFContig hj.length_eq] at hj'
    omega
  · rintro ⟨idx, ⟨hi, h⟩, _⟩
    rw [addr_newFContig hi.length_eq] at h
    have := rankF_lt hi
    omega

theorem map_max_one {shape : List Nat} (h : 0 ∉ shape) : shape.map (max 1) = shape := by
  conv_rhs => rw [← List.map_id shape]
  apply List.map_congr_left
  intro d hd
  have : d ≠ 0 := by rintro rfl; exact h hd
  simp; omega

/-- The fixed-rank constructors give the same layouts when no length is 0 … -/
theorem C05_fixed_eq_dynamic (shape : List Nat) (offset : Int) (h : 0 ∉ shape) :
    Layout.newCContigFixed shape offset = Layout.newCContig shape offset ∧
    Layout.newFContigFixed shape offset = Layout.newFContig shape offset := by
  simp [Layout.newCContigFixed, Layout.newCContig, strideCContigFixed, strideCContig,
    Layout.newFContigFixed, Layout.newFContig, strideFContigFixed, strideFContig, map_max_one h]

/-- … and differ in the strides (not in any element) when one is 0. -/
example : Layout.newCContigFixed [2, 0, 3] 0 ≠ Layout.newCContig [2, 0, 3] 0 := by decide

example : (Layout.newCContig [2, 3] 7).addr [1, 2] = 12 ∧ (Layout.newFContig [2, 3] 7).addr [1, 2] = 12
    ∧ (Layout.newFContig [2, 3] 7).addr [1, 0] = 8 := by decide

/-! ## C06: contiguity tests -/

theorem ndim_of_f_contig_iff {l : Layout} (hz : 0 ∉ l.shape) {m : Nat} (hm : m ≤ l.shape.length) :
    m ≤ l.ndimOfFContig ↔ ∀ idx, InRange idx (l.shape.take m) →
      position (l.stride.take m) l.offset idx = l.offset + rankF (l.shape.take m) idx := by
  have hpos : ∀ d ∈ dims l.axes, 0 < d := fun d hd =>
    Nat.pos_of_ne_zero (by rintro rfl; exact hz hd)
  have hm' : m ≤ l.axes.length := by simpa [Layout.shape] using hm
  have key : m ≤ l.ndimOfFContig ↔ m ≤ Layout.contigLoop 1 l.axes := by
    unfold Layout.ndimOfFContig
    split
    · rename_i h
      rcases h with h | h
      · have : l.axes = [] := List.length_eq_zero_iff.1 h
        have hm0 : m = 0 := by simpa [this] using hm'
        simp [hm0]
      · exact absurd h (size_ne_zero_iff.2 hpos)
    · exact Iff.rfl
  rw [key, contigLoop_iff hm' hpos]
  have e1 : dims (l.axes.take m) = l.shape.take m := by simp [Layout.shape, List.map_take]
  have e2 : ∀ idx, position (l.stride.take m) l.offset idx = l.offset + dot idx (l.axes.take m) := by
    intro idx
    rw [← addr_mk (l.axes.take m) l.offset idx]
    simp [Layout.addr, Layout.stride, List.map_take]
  simp only [e1, e2, one_mul]
  constructor
  · intro h idx hi; rw [h idx hi]
  · intro h idx hi; have := h idx hi; omega

/-- `ndim_of_f_contig` is the largest number of leading axes that are column-major contiguous. -/
theorem C06_ndim_of_f_contig (l : Layout) (hz : 0 ∉ l.shape) (m : Nat) (hm : m ≤ l.shape.length) :
    m ≤ l.ndimOfFContig ↔ ∀ idx, InRange idx (l.shape.take m) →
      position (l.stride.take m) l.offset idx = l.offset + rankF (l.shape.take m) idx :=
  ndim_of_f_contig_iff hz hm

theorem reverse_ndim (l : Layout) : l.reverseAxes.ndimOfFContig = l.ndimOfCContig := by
  simp [Layout.ndimOfFContig, Layout.ndimOfCContig, Layout.reverseAxes, Layout.ndim, Layout.size,
    Layout.shape]

/-- `ndim_of_c_contig` is the largest number of trailing axes that are row-major contiguous. -/
theorem C06_ndim_of_c_contig (l : Layout) (hz : 0 ∉ l.shape) (m : Nat) (hm : m ≤ l.shape.length) :
    m ≤ l.ndimOfCContig ↔ ∀ idx, InRange idx (l.shape.drop (l.ndim - m)) →
      position (l.stride.drop (l.ndim - m)) l.offset idx
        = l.offset + rankC (l.shape.drop (l.ndim - m)) idx := by
  have hrs : l.reverseAxes.shape = l.shape.reverse := by simp [Layout.reverseAxes, Layout.shape]
  have hrt : l.reverseAxes.stride = l.stride.reverse := by simp [Layout.reverseAxes, Layout.stride]
  have hn : l.ndim = l.shape.length := by simp [Layout.ndim, Layout.shape]
  have hn' : l.ndim = l.stride.length := by simp [Layout.ndim, Layout.stride]
  rw [← reverse_ndim, ndim_of_f_contig_iff (l := l.reverseAxes) (by rw [hrs]; simpa using hz)
    (by rw [hrs]; simpa using hm), hrs, hrt]
  have e1 : l.shape.reverse.take m = (l.shape.drop (l.ndim - m)).reverse := by
    rw [List.take_reverse, hn]
  have e2 : l.stride.reverse.take m = (l.stride.drop (l.ndim - m)).reverse := by
    rw [List.take_reverse, hn']
  rw [e1, e2]
  show (∀ idx, _ → position _ l.offset idx = l.offset + _) ↔ _
  have hp : ∀ (t : List Int) (idx : List Nat), idx.length = t.length →
      position t.reverse l.offset idx.reverse = position t l.offset idx := by
    intro t idx h
    unfold position
    rw [← List.reverse_zipWith h, List.sum_reverse]
  have hlen : (l.stride.drop (l.ndim - m)).length = (l.shape.drop (l.ndim - m)).length := by
    simp [← hn, ← hn']
  constructor
  · intro h idx hi
    have := h idx.reverse hi.reverse
    rw [hp _ _ (by rw [hlen]; exact hi.length_eq)] at this
    rw [this, rankC_eq hi.length_eq]
  · intro h idx hi
    have hi' : InRange idx.reverse (l.shape.drop (l.ndim - m)) := by simpa using hi.reverse
    have := h idx.reverse hi'
    rw [← hp _ _ (by rw [hlen]; exact hi'.length_eq), rankC_eq hi'.length_eq] at this
    simpa using this

/-- `f_contig` is true exactly when every element lies at the offset plus its column-major rank. -/
theorem C06_f_contig_iff (l : Layout) (hz : 0 ∉ l.shape) :
    l.fContig = true ↔ ∀ idx, InRange idx l.shape → l.addr idx = l.offset + rankF l.shape idx := by
  have hn : l.ndim = l.shape.length := by simp [Layout.ndim, Layout.shape]
  have hle : l.ndimOfFContig ≤ l.ndim := by
    unfold Layout.ndimOfFContig
    split
    · exact le_refl _
    · exact contigLoop_le _ _
  have := C06_ndim_of_f_contig l hz l.shape.length (le_refl _)
  have hst : l.shape.length = l.stride.length := by simp [Layout.shape, Layout.stride]
  rw [List.take_length, hst, List.take_length, ← hst, ← hn] at this
  unfold Layout.fContig
  rw [beq_iff_eq]
  constructor
  · intro h; exact this.1 (le_of_eq h)
  · intro h; exact le_antisymm (this.2 h) hle

/-- `c_contig` is true exactly when every element lies at the offset plus its row-major rank. -/
theorem C06_c_contig_iff (l : Layout) (hz : 0 ∉ l.shape) :
    l.cContig = true ↔ ∀ idx, InRange idx l.shape → l.addr idx = l.offset + rankC l.shape idx := by
  have hn : l.ndim = l.shape.length := by simp [Layout.ndim, Layout.shape]
  have hle : l.ndimOfCContig ≤ l.ndim := by
    unfold Layout.ndimOfCContig
    split
    · exact le_refl _
    · exact le_trans (contigLoop_le _ _) (by simp [Layout.ndim])
  have := C06_ndim_of_c_contig l hz l.shape.length (le_refl _)
  rw [← hn, Nat.sub_self, List.drop_zero, List.drop_zero] at this
  unfold Layout.cContig
  rw [beq_iff_eq]
  constructor
  · intro h; exact this.1 (le_of_eq h)
  · intro h; exact le_antisymm (this.2 h) hle

/-- Layouts with a zero length count as contiguous in both orders. -/
theorem C06_empty_contig (l : Layout) (hz : 0 ∈ l.shape) : l.fContig = true ∧ l.cContig = true := by
  have : l.size = 0 := prod_eq_zero_of hz
  simp [Layout.fContig, Layout.cContig, Layout.ndimOfFContig, Layout.ndimOfCContig, this]

example : (⟨[⟨2, 3⟩, ⟨1, 77⟩, ⟨3, 1⟩], 4⟩ : Layout).cContig = true := by decide
example : (⟨[⟨2, 3⟩, ⟨1, 77⟩, ⟨3, 1⟩], 4⟩ : Layout).fContig = false := by decide
example : (⟨[⟨2, 100⟩, ⟨3, 4⟩, ⟨4, 1⟩], 4⟩ : Layout).ndimOfCContig = 2 := by decide

/-! ## C27: unravel and ravel -/

/-- Column-major unravelling (dynamic rank) inverts the column-major rank. -/
theorem C27_unravel_f (shape : List Nat) (k : Nat) (h : k < shape.prod) :
    ∃ idx, unravelF shape k = .ok idx ∧ InRange idx shape ∧ rankF shape idx = k :=
  unravelLoop_spec h

/-- Row-major unravelling (dynamic rank) inverts the row-major rank. -/
theorem C27_unravel_c (shape : List Nat) (k : Nat) (h : k < shape.prod) :
    ∃ idx, unravelC shape k = .ok idx ∧ InRange idx shape ∧ rankC shape idx = k := by
  obtain ⟨idx, h1, h2, h3⟩ := unravelLoop_spec (shape := shape.reverse) (k := k) (by simpa using h)
  refine ⟨idx.reverse, by simp [unravelC, h1], by simpa using h2.reverse, ?_⟩
  rw [rankC_eq (by simpa using h2.length_eq)]
  simpa using h3

theorem divP_ok {x d : Nat} (h : d ≠ 0) : divP x d = .ok (x / d) := by simp [divP, h]
theorem modP_ok {x d : Nat} (h : d ≠ 0) : modP x d = .ok (x % d) := by simp [modP, h]

/-- The fixed-rank unrolled code agrees with the loop. -/
theorem C27_unravel_f_fixed (shape : List Nat) (k : Nat) (hz : 0 ∉ shape) :
    unravelFFixed shape k = unravelF shape k := by
  unfold unravelFFixed unravelF
  split
  · rfl
  · rfl
  · rename_i a b
    have ha : a ≠ 0 := by rintro rfl; simp at hz
    simp [unravelLoop, ha, divP_ok, modP_ok]
  · rename_i a b c
    have ha : a ≠ 0 := by rintro rfl; simp at hz
    have hb : b ≠ 0 := by rintro rfl; simp at hz
    simp [unravelLoop, ha, hb, divP_ok, modP_ok, Nat.div_div_eq_div_mul,
      Nat.mod_mul_right_div_self]
  · rename_i a b c d
    have ha : a ≠ 0 := by rintro rfl; simp at hz
    have hb : b ≠ 0 := by rintro rfl; simp at hz
    have hc : c ≠ 0 := by rintro rfl; simp at hz
    simp [unravelLoop, ha, hb, hc, divP_ok, modP_ok, Nat.div_div_eq_div_mul,
      Nat.mod_mul_right_div_self]
    rw [Nat.mul_assoc a b c, Nat.mod_mul_right_div_self]
    exact ⟨Nat.mod_mul_right_mod _ _ _, Nat.mod_mul_right_mod _ _ _⟩
  · rfl

/-- The fixed-rank unrolled code agrees with the loop. -/
theorem C27_unravel_c_fixed (shape : List Nat) (k : Nat) (hz : 0 ∉ shape) :
    unravelCFixed shape k = unravelC shape k := by
  unfold unravelCFixed unravelC
  split
  · rfl
  · rfl
  · rename_i a b
    have hb : b ≠ 0 := by rintro rfl; simp at hz
    simp [unravelLoop, hb, divP_ok, modP_ok]
  · rename_i a b c
    have hc : c ≠ 0 := by rintro rfl; simp at hz
    have hb : b ≠ 0 := by rintro rfl; simp at hz
    simp [unravelLoop, hc, hb, divP_ok, modP_ok, Nat.div_div_eq_div_mul,
      Nat.mod_mul_left_div_self, Nat.mul_comm]
  · rename_i a b c d
    have hd : d ≠ 0 := by rintro rfl; simp at hz
    have hb : b ≠ 0 := by rintro rfl; simp at hz
    have hc : c ≠ 0 := by rintro rfl; simp at hz
    have e1 : ∀ x : Nat, x % (b * c * d) % (c * d) = x % (c * d) := fun x => by
      rw [Nat.mul_assoc]; exact Nat.mod_mul_left_mod _ _ _
    have e2 : b * c * d = c * d * b := by ring
    simp only [unravelLoop, hb, hc, hd, divP_ok, modP_ok, List.reverse_cons, List.reverse_nil,
      List.nil_append, List.cons_append, ne_eq, Nat.mul_ne_zero_iff, not_false_iff, and_self,
      ok_bind, pure_eq_ok, if_false, e1]
    simp only [e2, Nat.div_div_eq_div_mul, Nat.mod_mul_right_div_self, Nat.mul_comm c d,
      Nat.mod_mul_right_mod]
  · rfl

/-- Combined: for positions below the size all four functions return the unique index of that rank. -/
theorem C27_unravel_fixed_rank (shape : List Nat) (k : Nat) (h : k < shape.prod) :
    (∃ idx, unravelFFixed shape k = .ok idx ∧ InRange idx shape ∧ rankF shape idx = k) ∧
    (∃ idx, unravelCFixed shape k = .ok idx ∧ InRange idx shape ∧ rankC shape idx = k) := by
  have hz : 0 ∉ shape := by intro h0; rw [prod_eq_zero_of h0] at h; omega
  rw [C27_unravel_f_fixed shape k hz, C27_unravel_c_fixed shape k hz]
  exact ⟨C27_unravel_f shape k h, C27_unravel_c shape k h⟩

/-- Ravel after unravel and unravel after ravel: unravelling the rank of an index returns it. -/
theorem C27_unravel_of_rank (shape idx : List Nat) (h : InRange idx shape) :
    unravelF shape (rankF shape idx) = .ok idx ∧ unravelC shape (rankC shape idx) = .ok idx := by
  obtain ⟨i, h1, h2, h3⟩ := C27_unravel_f shape _ (rankF_lt h)
  obtain ⟨j, h4, h5, h6⟩ := C27_unravel_c shape _ (rankC_lt h)
  rw [h1, h4, rankF_inj h2 h h3, rankC_inj h5 h h6]
  exact ⟨rfl, rfl⟩

example : unravelCFixed [2, 3, 4, 5] 119 = .ok [1, 2, 3, 4] := by decide
/-- With a zero length the code divides by zero (reached through `split_at` on empty layouts). -/
example : unravelF [0, 3] 0 = .error .panic := by decide

/-! ## C53: layout equality -/

/-- Equal layouts have the same shape and the same position for every index. -/
theorem C53_eq_sound (l m : Layout) (h : l.beqLayout m = true) :
    l.shape = m.shape ∧ ∀ idx, InRange idx l.shape → l.addr idx = m.addr idx := by
  unfold Layout.beqLayout at h
  split at h
  · cases h
  · split at h
    · cases h
    · rename_i h1 h2
      have hl : l.axes.length = m.axes.length := by simpa [Layout.ndim] using h1
      refine ⟨eqLoop_dims hl h, fun idx hi => ?_⟩
      rw [addr_eq, addr_eq, not_not.1 h2, ((eqLoop_iff hl hi.pos).1 h).2 idx hi]

/-- Layouts with at least one element and the same element positions compare equal. -/
theorem C53_eq_complete (l m : Layout) (hz : 0 ∉ l.shape) (hs : l.shape = m.shape)
    (h : ∀ idx, InRange idx l.shape → l.addr idx = m.addr idx) : l.beqLayout m = true := by
  have hpos : ∀ d ∈ dims l.axes, 0 < d := fun d hd =>
    Nat.pos_of_ne_zero (by rintro rfl; exact hz hd)
  have hl : l.axes.length = m.axes.length := by
    have := congrArg List.length hs
    simpa [Layout.shape] using this
  have ho : l.offset = m.offset := by
    have := h _ (inRange_zeros hpos)
    simpa [addr_eq, dot_zeros] using this
  unfold Layout.beqLayout
  rw [if_neg (by simp [Layout.ndim, hl]), if_neg (by simp [ho])]
  refine (eqLoop_iff hl hpos).2 ⟨hs, fun idx hi => ?_⟩
  have := h idx hi
  rw [addr_eq, addr_eq, ho] at this
  omega

example : (⟨[⟨2, 3⟩, ⟨1, 7⟩], 4⟩ : Layout).beqLayout ⟨[⟨2, 3⟩, ⟨1, -5⟩], 4⟩ = true := by decide
example : (⟨[⟨2, 3⟩, ⟨2, 7⟩], 4⟩ : Layout).beqLayout ⟨[⟨2, 3⟩, ⟨2, -5⟩], 4⟩ = false := by decide

end Rstsr
