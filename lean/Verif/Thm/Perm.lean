import Verif.Proof.MoveAxis
/-!
# Theorems C48, C07, C08: axis arguments, transpose, reverse, swap, moveaxis
-/
namespace Rstsr
open Spec

/-! ## C48: axis-argument normalisation -/

/-- Acceptance: every entry legal and, when duplicates are forbidden, no axis named twice. -/
theorem C48_normalize_accept_iff (axes : List Int) (ndim : Nat) (allowDup sort : Bool) :
    (∃ v, normalizeAxes (some axes) ndim allowDup sort = .ok v) ↔
      (∀ a ∈ axes, AxisOk ndim a) ∧ (allowDup = false → (axes.map (normAxis ndim)).Nodup) := by
  simp only [normalizeAxes_ok]
  exact ⟨fun ⟨_, h1, h2, _⟩ => ⟨h1, h2⟩, fun ⟨h1, h2⟩ => ⟨_, h1, h2, rfl⟩⟩

/-- Result without sorting: each entry becomes the axis number it stands for, in place. -/
theorem C48_normalize_unsorted (axes : List Int) (ndim : Nat) (allowDup : Bool) (v : List Nat)
    (h : normalizeAxes (some axes) ndim allowDup false = .ok v) :
    v = axes.map (normAxis ndim) ∧ ∀ a ∈ v, a < ndim := by
  obtain ⟨h1, _, h3⟩ := normalizeAxes_ok.1 h
  refine ⟨by simpa using h3, ?_⟩
  subst h3
  simp only [Bool.false_eq_true, if_false, List.mem_map, forall_exists_index, and_imp]
  rintro _ a ha rfl
  exact normAxis_lt (h1 a ha)

/-- Result with sorting: the same axis numbers in increasing order. -/
theorem C48_normalize_sorted (axes : List Int) (ndim : Nat) (allowDup : Bool) (v : List Nat)
    (h : normalizeAxes (some axes) ndim allowDup true = .ok v) :
    v.Perm (axes.map (normAxis ndim)) ∧ v.Pairwise (· ≤ ·) := by
  obtain ⟨_, _, h3⟩ := normalizeAxes_ok.1 h
  simp only [if_true] at h3
  subst h3
  exact ⟨List.perm_insertionSort _ _, sorted_insertionSort _⟩

/-- A missing axes argument is refused. -/
theorem C48_normalize_none (ndim : Nat) (allowDup sort : Bool) :
    normalizeAxes none ndim allowDup sort = .error .invalidValue := rfl

/-- Each kind of refusal: an illegal entry is an axis error, a repeated axis an invalid value. -/
theorem C48_normalize_error (axes : List Int) (ndim : Nat) (allowDup sort : Bool) (e : Err)
    (h : normalizeAxes (some axes) ndim allowDup sort = .error e) :
    (e = .axisError ∧ ∃ a ∈ axes, ¬ AxisOk ndim a) ∨
    (e = .invalidValue ∧ allowDup = false ∧ ¬ (axes.map (normAxis ndim)).Nodup) := by
  have hacc := C48_normalize_accept_iff axes ndim allowDup sort
  unfold normalizeAxes at h
  simp only at h
  rcases bind_error.1 h with h' | ⟨u, hu, h'⟩
  · left
    have : ∀ {as : List Int}, checkAxes as ndim = .error e → e = .axisError ∧ ∃ a ∈ as, ¬ AxisOk ndim a := by
      intro as
      induction as with
      | nil => intro h; simp [checkAxes] at h
      | cons a as ih =>
        intro h
        simp only [checkAxes, List.mapM_cons] at h
        rcases bind_error.1 h with h1 | ⟨b, _, h1⟩
        · obtain ⟨h2, h3⟩ := checkAxis_error h1
          exact ⟨h2, a, by simp, h3⟩
        · rcases bind_error.1 h1 with h2 | ⟨c, _, h2⟩
          · obtain ⟨h3, x, hx, h4⟩ := ih h2
            exact ⟨h3, x, by simp [hx], h4⟩
          · cases h2
    exact this h'
  · right
    obtain ⟨h1, rfl⟩ := checkAxes_ok.1 hu
    have hno : ¬ ∃ v, normalizeAxes (some axes) ndim allowDup sort = .ok v := by
      rintro ⟨v, hv⟩
      unfold normalizeAxes at hv
      simp only at hv
      rw [h] at hv; cases hv
    rw [hacc] at hno
    have hd : ¬ (allowDup = false → (axes.map (normAxis ndim)).Nodup) := fun h2 => hno ⟨h1, h2⟩
    rw [Classical.not_imp] at hd
    refine ⟨?_, hd⟩
    generalize (if sort = true then (axes.map (normAxis ndim)).insertionSort (· ≤ ·)
      else axes.map (normAxis ndim)) = w at h'
    split at h' <;> cases h'
    rfl

example : normalizeAxes (some [-1, 0]) 3 false false = .ok [2, 0] := by decide
example : normalizeAxes (some [-1, 0]) 3 false true = .ok [0, 2] := by decide
example : normalizeAxes (some [-1, 2]) 3 false true = .error .invalidValue := by decide
example : normalizeAxes (some [-4]) 3 false true = .error .axisError := by decide

/-! ## C07: transpose -/

/-- Acceptance: the axes are legal and name every axis exactly once. -/
theorem C07_transpose_accept_iff (l : Layout) (axes : List Int) :
    (∃ m, l.transpose axes = .ok m) ↔
      (∀ a ∈ axes, AxisOk l.ndim a) ∧ (axes.map (normAxis l.ndim)).Perm (List.range l.ndim) := by
  simp only [transpose_ok]
  exact ⟨fun ⟨_, h1, h2, _⟩ => ⟨h1, h2⟩, fun ⟨h1, h2⟩ => ⟨_, h1, h2, rfl⟩⟩

/-- The element of the result at `j` is the old element whose `axes[k]`-th coordinate is `j[k]`. -/
theorem C07_transpose_element (l m : Layout) (axes : List Int) (h : l.transpose axes = .ok m)
    (j : List Nat) (hj : InRange j m.shape) :
    ∃ i, InRange i l.shape ∧ m.addr j = l.addr i ∧
      ∀ (k : Nat) (a : Int), axes[k]? = some a → j[k]? = i[normAxis l.ndim a]? := by
  obtain ⟨h1, h2, rfl⟩ := transpose_ok.1 h
  obtain ⟨i, hi, rfl, hd⟩ := pick_addr_inv h2 hj
  refine ⟨i, hi, by rw [addr_mk, addr_eq, hd], ?_⟩
  intro k a ha
  have hlt := normAxis_lt (h1 a (List.mem_of_getElem? ha))
  have hil : i.length = l.ndim := by simpa [Layout.ndim, Layout.shape] using hi.length_eq
  simp only [pickIdx, List.getElem?_map, ha, Option.map_some, List.getD_eq_getElem?_getD]
  rw [List.getElem?_eq_getElem (by omega)]; rfl

/-- Conversely every old element appears, at the coordinates picked by `axes`. -/
theorem C07_transpose_covers (l m : Layout) (axes : List Int) (h : l.transpose axes = .ok m)
    (i : List Nat) (hi : InRange i l.shape) :
    ∃ j, InRange j m.shape ∧ m.addr j = l.addr i ∧
      ∀ (k : Nat) (a : Int), axes[k]? = some a → j[k]? = i[normAxis l.ndim a]? := by
  obtain ⟨h1, h2, rfl⟩ := transpose_ok.1 h
  obtain ⟨hj, hd⟩ := pick_addr h2 hi
  refine ⟨_, hj, by rw [addr_mk, addr_eq, hd], ?_⟩
  intro k a ha
  have hlt := normAxis_lt (h1 a (List.mem_of_getElem? ha))
  have hil : i.length = l.ndim := by simpa [Layout.ndim, Layout.shape] using hi.length_eq
  simp only [pickIdx, List.getElem?_map, ha, Option.map_some, List.getD_eq_getElem?_getD]
  rw [List.getElem?_eq_getElem (by omega)]; rfl

/-- Axis `k` of the result has the length of old axis `axes[k]`. -/
theorem C07_transpose_shape (l m : Layout) (axes : List Int) (h : l.transpose axes = .ok m) :
    m.shape.length = l.shape.length ∧
      ∀ (k : Nat) (a : Int), axes[k]? = some a → m.shape[k]? = l.shape[normAxis l.ndim a]? := by
  obtain ⟨h1, h2, rfl⟩ := transpose_ok.1 h
  refine ⟨by have := h2.length_eq; simpa [Layout.shape, pick, Layout.ndim] using this, ?_⟩
  intro k a ha
  have hlt := normAxis_lt (h1 a (List.mem_of_getElem? ha))
  have hl : normAxis l.ndim a < l.axes.length := hlt
  simp only [Layout.shape, pick, List.getElem?_map, ha, Option.map_some, List.getD_eq_getElem?_getD]
  rw [List.getElem?_eq_getElem hl]; rfl

/-- Transposing keeps a layout acceptable to `Layout::new`. -/
theorem C07_transpose_accepted (l m : Layout) (axes : List Int) (h : l.transpose axes = .ok m)
    (hl : Layout.new l.shape l.stride l.offset = .ok l) :
    Layout.new m.shape m.stride m.offset = .ok m := by
  obtain ⟨h1, h2, rfl⟩ := transpose_ok.1 h
  have := (accepted_new hl).perm (A := pick l.axes (axes.map (normAxis l.ndim))) (pick_perm h2)
  obtain ⟨_, h3, h4⟩ := newAxes_ok.1 this
  exact new_ok.2 ⟨by simp [Layout.shape, Layout.stride], rfl, rfl, rfl, h3, h4⟩

example : (⟨[⟨2, 12⟩, ⟨3, 4⟩, ⟨4, -1⟩], 5⟩ : Layout).transpose [-1, 0, 1]
    = .ok ⟨[⟨4, -1⟩, ⟨2, 12⟩, ⟨3, 4⟩], 5⟩ := by decide
example : (⟨[⟨2, 12⟩, ⟨3, 4⟩, ⟨4, -1⟩], 5⟩ : Layout).transpose [0, 0, 1] = .error .invalidValue := by
  decide
example : Layout.new [2, 3, 4] [12, 4, -1] 5 = .ok ⟨[⟨2, 12⟩, ⟨3, 4⟩, ⟨4, -1⟩], 5⟩ := by decide

/-! ## C08: reverse_axes, swapaxes, moveaxis -/

/-- `reverse_axes` is the transpose by the reversed axis list … -/
theorem C08_reverse_axes_eq_transpose (l : Layout) :
    l.transpose ((List.range l.ndim).reverse.map Int.ofNat) = .ok l.reverseAxes := by
  have hm : ((List.range l.ndim).reverse.map Int.ofNat).map (normAxis l.ndim) = (List.range l.ndim).reverse := by
    rw [List.map_map]
    conv_rhs => rw [← List.map_id (List.range l.ndim).reverse]
    exact List.map_congr_left fun a _ => normAxis_ofNat _ a
  refine transpose_ok.2 ⟨?_, ?_, ?_⟩
  · intro a ha
    obtain ⟨b, hb, rfl⟩ := List.mem_map.1 ha
    exact axisOk_ofNat (by simpa using hb)
  · rw [hm]; exact List.reverse_perm _
  · rw [hm, Layout.reverseAxes, pick, List.map_reverse, Layout.ndim, map_getD_range]

/-- … so its element at the reversed index is the old element … -/
theorem C08_reverse_axes_element (l : Layout) (i : List Nat) (hi : InRange i l.shape) :
    InRange i.reverse l.reverseAxes.shape ∧ l.reverseAxes.addr i.reverse = l.addr i := by
  refine ⟨by simpa [Layout.reverseAxes, Layout.shape, ← List.map_reverse] using hi.reverse, ?_⟩
  rw [Layout.reverseAxes, addr_mk, dot_reverse (by simpa [Layout.shape] using hi.length_eq), addr_eq]

/-- … and it is an involution. -/
theorem C08_reverse_axes_involutive (l : Layout) : l.reverseAxes.reverseAxes = l := by
  simp [Layout.reverseAxes]

theorem set_set_getD {α : Type} (L : List α) (d : α) (i j k : Nat) (hi : i < L.length) (hj : j < L.length) :
    ((L.set i (L.getD j d)).set j (L.getD i d))[k]? =
      L[if k = i then j else if k = j then i else k]? := by
  rw [List.getElem?_set, List.getElem?_set]
  by_cases h1 : j = k
  · subst h1
    by_cases h2 : j = i
    · subst h2; simp [hi, List.getD_eq_getElem?_getD]
    · simp [h2, hi, hj, List.getD_eq_getElem?_getD]
  · by_cases h2 : i = k
    · subst h2; simp [h1, hj, hi, List.getD_eq_getElem?_getD]
    · simp [h1, h2, Ne.symm h1, Ne.symm h2]

theorem swapaxes_ok {l m : Layout} {a b : Int} :
    l.swapaxes a b = .ok m ↔ AxisOk l.ndim a ∧ AxisOk l.ndim b ∧
      m = ⟨(l.axes.set (normAxis l.ndim a) (l.axes.getD (normAxis l.ndim b) default)).set
        (normAxis l.ndim b) (l.axes.getD (normAxis l.ndim a) default), l.offset⟩ := by
  unfold Layout.swapaxes
  constructor
  · intro h
    obtain ⟨x, hx, h⟩ := bind_ok.1 h
    obtain ⟨y, hy, h⟩ := bind_ok.1 h
    obtain ⟨h1, rfl⟩ := checkAxis_ok.1 hx
    obtain ⟨h2, rfl⟩ := checkAxis_ok.1 hy
    cases h
    exact ⟨h1, h2, rfl⟩
  · rintro ⟨h1, h2, rfl⟩
    rw [checkAxis_ok.2 ⟨h1, rfl⟩, checkAxis_ok.2 ⟨h2, rfl⟩]; rfl

/-- `swapaxes` accepts exactly two legal axes and exchanges them, leaving the others in place. -/
theorem C08_swapaxes_axes (l : Layout) (a b : Int) :
    (∃ m, l.swapaxes a b = .ok m) ↔ AxisOk l.ndim a ∧ AxisOk l.ndim b := by
  simp only [swapaxes_ok]
  exact ⟨fun ⟨_, h1, h2, _⟩ => ⟨h1, h2⟩, fun ⟨h1, h2⟩ => ⟨_, h1, h2, rfl⟩⟩

/-- Lengths and strides after `swapaxes`. -/
theorem C08_swapaxes_shape (l m : Layout) (a b : Int) (h : l.swapaxes a b = .ok m) (k : Nat) :
    m.offset = l.offset ∧
    m.shape[k]? = l.shape[if k = normAxis l.ndim a then normAxis l.ndim b
      else if k = normAxis l.ndim b then normAxis l.ndim a else k]? ∧
    m.stride[k]? = l.stride[if k = normAxis l.ndim a then normAxis l.ndim b
      else if k = normAxis l.ndim b then normAxis l.ndim a else k]? := by
  obtain ⟨h1, h2, rfl⟩ := swapaxes_ok.1 h
  have e := set_set_getD l.axes default (normAxis l.ndim a) (normAxis l.ndim b) k (normAxis_lt h1)
    (normAxis_lt h2)
  refine ⟨rfl, ?_, ?_⟩
  · simp only [Layout.shape, List.getElem?_map, e]
  · simp only [Layout.stride, List.getElem?_map, e]

/-- `swapaxes` is the transpose by the transposition of the two axes. -/
theorem C08_swapaxes_eq_transpose (l : Layout) (a b : Int) (ha : AxisOk l.ndim a) (hb : AxisOk l.ndim b) :
    l.swapaxes a b = l.transpose ((List.range l.ndim).map fun k =>
      ((if k = normAxis l.ndim a then normAxis l.ndim b
        else if k = normAxis l.ndim b then normAxis l.ndim a else k : Nat) : Int)) := by
  have la := normAxis_lt ha
  have lb := normAxis_lt hb
  obtain ⟨m, hm⟩ := (C08_swapaxes_axes l a b).2 ⟨ha, hb⟩
  rw [hm]
  obtain ⟨_, _, rfl⟩ := swapaxes_ok.1 hm
  symm
  generalize hA : normAxis l.ndim a = A at *
  generalize hB : normAxis l.ndim b = B at *
  have hmap : (((List.range l.ndim).map fun k => ((if k = A then B else if k = B then A else k : Nat) : Int)).map
      (normAxis l.ndim)) = (List.range l.ndim).map fun k => if k = A then B else if k = B then A else k := by
    rw [List.map_map]
    exact List.map_congr_left fun k _ => normAxis_ofNat _ _
  refine transpose_ok.2 ⟨?_, ?_, ?_⟩
  · intro x hx
    obtain ⟨k, hk, rfl⟩ := List.mem_map.1 hx
    have hk : k < l.ndim := by simpa using hk
    apply axisOk_ofNat
    split
    · exact lb
    · split
      · exact la
      · exact hk
  · rw [hmap]
    apply perm_range_of
    · simp
    · intro x hx
      obtain ⟨k, hk, rfl⟩ := List.mem_map.1 hx
      have hk : k < l.ndim := by simpa using hk
      split
      · exact lb
      · split
        · exact la
        · exact hk
    · rw [List.nodup_map_iff_inj_on List.nodup_range]
      intro x _ y _ hxy
      split at hxy <;> split at hxy <;> (try split at hxy) <;> (try split at hxy) <;> omega
  · rw [hmap]
    congr 1
    apply List.ext_getElem?
    intro k
    rw [set_set_getD _ _ _ _ _ la lb]
    simp only [pick, List.map_map, List.getElem?_map]
    by_cases hk : k < l.axes.length
    · simp only [Layout.ndim, List.getElem?_range hk, Option.map_some, Function.comp,
        List.getD_eq_getElem?_getD]
      have : (if k = A then B else if k = B then A else k) < l.axes.length := by
        split
        · exact lb
        · split
          · exact la
          · exact hk
      rw [List.getElem?_eq_getElem this]; rfl
    · have h1 : k ≠ A := by rintro rfl; exact hk la
      have h2 : k ≠ B := by rintro rfl; exact hk lb
      rw [show (List.range l.ndim)[k]? = none from List.getElem?_eq_none (by rw [List.length_range]; exact Nat.not_lt.1 hk)]
      rw [if_neg h1, if_neg h2, List.getElem?_eq_none (Nat.not_lt.1 hk)]; rfl

/-- `swapaxes` undoes itself. -/
theorem C08_swapaxes_involutive (l m : Layout) (a b : Int) (h : l.swapaxes a b = .ok m) :
    m.swapaxes a b = .ok l := by
  obtain ⟨h1, h2, hm⟩ := swapaxes_ok.1 h
  have la := normAxis_lt h1
  have lb := normAxis_lt h2
  have hn : m.ndim = l.ndim := by rw [hm]; simp [Layout.ndim]
  have e1 := fun k => set_set_getD l.axes default _ _ k la lb
  refine swapaxes_ok.2 ⟨by rw [hn]; exact h1, by rw [hn]; exact h2, ?_⟩
  rw [hn]
  obtain ⟨ax, off⟩ := l
  have hmo : m.offset = off := by rw [hm]
  have hma : ∀ k, m.axes[k]? = ax[if k = normAxis (Layout.ndim ⟨ax, off⟩) a then
      normAxis (Layout.ndim ⟨ax, off⟩) b else if k = normAxis (Layout.ndim ⟨ax, off⟩) b then
      normAxis (Layout.ndim ⟨ax, off⟩) a else k]? := by rw [hm]; exact e1
  rw [hmo]
  congr 1
  apply List.ext_getElem?
  intro k
  have hml : m.axes.length = ax.length := hn
  rw [set_set_getD _ _ _ _ _ (by rw [hml]; exact la) (by rw [hml]; exact lb), hma]
  congr 1
  split <;> split <;> (try split) <;> (try split) <;> omega

/-- `swapaxes` does not depend on the order of its arguments. -/
theorem C08_swapaxes_symmetric (l m : Layout) (a b : Int) (h : l.swapaxes a b = .ok m) :
    l.swapaxes b a = .ok m := by
  obtain ⟨h1, h2, rfl⟩ := swapaxes_ok.1 h
  refine swapaxes_ok.2 ⟨h2, h1, ?_⟩
  congr 1
  apply List.ext_getElem?
  intro k
  have la : normAxis l.ndim a < l.axes.length := normAxis_lt h1
  have lb : normAxis l.ndim b < l.axes.length := normAxis_lt h2
  rw [set_set_getD _ _ _ _ _ la lb, set_set_getD _ _ _ _ _ lb la]
  congr 1
  split <;> split <;> omega

/-- `moveaxis` accepts exactly legal, repetition-free source and destination lists of one length. -/
theorem C08_moveaxis_accept_iff (l : Layout) (src dst : List Int) :
    (∃ m, l.moveaxis (some src) (some dst) = .ok m) ↔
      (∀ a ∈ src, AxisOk l.ndim a) ∧ (src.map (normAxis l.ndim)).Nodup ∧
      (∀ a ∈ dst, AxisOk l.ndim a) ∧ (dst.map (normAxis l.ndim)).Nodup ∧ src.length = dst.length := by
  simp only [moveaxis_ok]
  constructor
  · rintro ⟨m, h1, h2, h3, h4, h5, _⟩; exact ⟨h1, h2, h3, h4, h5⟩
  · rintro ⟨h1, h2, h3, h4, h5⟩
    have hlt : ∀ (v : List Int), (∀ a ∈ v, AxisOk l.ndim a) → ∀ a ∈ v.map (normAxis l.ndim), a < l.ndim := by
      intro v hv a ha
      obtain ⟨b, hb, rfl⟩ := List.mem_map.1 ha
      exact normAxis_lt (hv b hb)
    obtain ⟨F, hF, hM⟩ := movePerm_exists h2 h4 (hlt _ h1) (hlt _ h3) (by simpa using h5)
    exact ⟨_, h1, h2, h3, h4, h5, F, hF, hM, rfl⟩

/-- `moveaxis` is a transpose that puts source axis `t` at destination `t` and keeps the order of
all other axes: the old axis shown at new axis `k` is `order[k]`. -/
theorem C08_moveaxis_order (l m : Layout) (src dst : List Int)
    (h : l.moveaxis (some src) (some dst) = .ok m) :
    ∃ order : List Nat, order.Perm (List.range l.ndim) ∧
      l.transpose (order.map Int.ofNat) = .ok m ∧
      (∀ (t : Nat) (s d : Int), src[t]? = some s → dst[t]? = some d → order[normAxis l.ndim d]? = some (normAxis l.ndim s)) ∧
      (otherAxes l.ndim (dst.map (normAxis l.ndim))).map (fun k => order[k]?)
        = (otherAxes l.ndim (src.map (normAxis l.ndim))).map some := by
  obtain ⟨h1, h2, h3, h4, h5, F, hF, hM, rfl⟩ := moveaxis_ok.1 h
  have hmap : (F.map Int.ofNat).map (normAxis l.ndim) = F := by
    rw [List.map_map]
    conv_rhs => rw [← List.map_id F]
    exact List.map_congr_left fun a _ => normAxis_ofNat _ a
  refine ⟨F, hM.perm, transpose_ok.2 ⟨?_, by rw [hmap]; exact hM.perm, by rw [hmap]⟩, ?_, hM.kept⟩
  · intro a ha
    obtain ⟨b, hb, rfl⟩ := List.mem_map.1 ha
    exact axisOk_ofNat (by simpa using hM.perm.mem_iff.1 hb)
  · intro t s d hs hd
    exact hM.moved t _ _ (by simp [hs]) (by simp [hd])

/-- Exchanging source and destination undoes `moveaxis`. -/
theorem C08_moveaxis_inverse (l m : Layout) (src dst : List Int)
    (h : l.moveaxis (some src) (some dst) = .ok m) : m.moveaxis (some dst) (some src) = .ok l := by
  obtain ⟨h1, h2, h3, h4, h5, F, hF, hM, hm⟩ := moveaxis_ok.1 h
  have hn : m.ndim = l.ndim := by
    rw [hm]; simp only [Layout.ndim, pick_length]
    simpa [Layout.ndim] using hM.perm.length_eq
  obtain ⟨m', hm'⟩ := (C08_moveaxis_accept_iff m dst src).2
    (by rw [hn]; exact ⟨h3, h4, h1, h2, h5.symm⟩)
  rw [hm']
  obtain ⟨_, _, _, _, _, G, _, hG, rfl⟩ := moveaxis_ok.1 hm'
  rw [hn] at hG
  obtain ⟨ax, off⟩ := l
  rw [hm]
  congr 2
  have hGl : G.length = ax.length := by simpa [Layout.ndim] using hG.perm.length_eq
  apply List.ext_getElem
  · simp [pick_length, hGl]
  · intro i g1 g2
    obtain ⟨k, hk1, hk2⟩ := movePerm_comp hM hG (by simpa using h5) (i := i) g2
    have e1 : (pick (pick ax F) G)[i]? = some ((pick ax F).getD k default) := by
      simp [pick, hk1]
    have e2 : (pick ax F).getD k default = ax[i] := by
      simp only [pick, List.getD_eq_getElem?_getD, List.getElem?_map, hk2, Option.map_some,
        Option.getD_some, List.getElem?_eq_getElem g2]
    rw [e2, List.getElem?_eq_getElem g1] at e1
    exact Option.some.inj e1

example : (⟨[⟨2, 60⟩, ⟨3, 20⟩, ⟨4, 5⟩, ⟨5, 1⟩], 0⟩ : Layout).moveaxis (some [0, -1]) (some [2, 0])
    = .ok ⟨[⟨5, 1⟩, ⟨3, 20⟩, ⟨2, 60⟩, ⟨4, 5⟩], 0⟩ := by decide
example : (⟨[⟨2, 60⟩, ⟨3, 20⟩, ⟨4, 5⟩], 0⟩ : Layout).swapaxes 0 (-1)
    = .ok ⟨[⟨4, 5⟩, ⟨3, 20⟩, ⟨2, 60⟩], 0⟩ := by decide

end Rstsr
