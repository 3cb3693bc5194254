import Verif.Model.Elementwise
import Verif.Proof.BinaryLayout
import Verif.Thm.Chain
/-! # Lemmas for the element-wise tensor operations -/
namespace Rstsr
open Spec

section
variable {α β γ ι : Type}

/-! ## Tensors -/

theorem element_eq {data : List α} {l : Layout} {idx : List Nat} (h : 0 ≤ l.addr idx) :
    element data l.stride l.offset idx = data[l.pos idx]? := by
  unfold element
  exact if_neg (not_lt.2 h)

theorem Tensor.WF.good {t : Tensor α} (h : t.WF) : Good t.layout := newF_good h.1 h.2

theorem Tensor.WF.fit {t : Tensor α} (h : t.WF) : Fit t.layout.shape t.layout :=
  ⟨valid_iff.2 h.good.accepted, h.1, rfl⟩

theorem Tensor.WF.get {t : Tensor α} (h : t.WF) {idx : List Nat} (hi : InRange idx t.layout.shape) :
    ∃ x, t.data[t.layout.pos idx]? = some x ∧ t.arr.elem idx = some x := by
  obtain ⟨h1, h2⟩ := C03_in_bounds t.data t.layout t h.1 h.2 idx hi
  have hp : t.layout.pos idx < t.data.length := by unfold Layout.pos; omega
  refine ⟨_, List.getElem?_eq_getElem hp, ?_⟩
  show element _ _ _ _ = _
  rw [element_eq h1, List.getElem?_eq_getElem hp]

theorem Tensor.WF.full {t : Tensor α} (h : t.WF) : t.arr.Full := fun _ hi => by
  obtain ⟨x, _, hx⟩ := h.get hi
  exact ⟨x, hx⟩

theorem newF_ok {data : List α} {l : Layout} (hv : l.Valid) {mn mx : Int} (hb : l.boundsIndex = .ok (mn, mx))
    (hm : mx ≤ data.length) : Tensor.newF data l = .ok ⟨data, l⟩ := by
  have := (newAxes_ok.1 (valid_iff.1 hv)).2.2
  unfold Tensor.newF
  rw [this]
  simp only [ok_bind, hb]
  rw [if_pos hm]

theorem Tensor.WF.of_data {t : Tensor α} (h : t.WF) {data : List α} (hd : data.length = t.data.length) :
    (⟨data, t.layout⟩ : Tensor α).WF := by
  refine ⟨h.1, ?_⟩
  have h2 := h.2
  unfold Tensor.newF at h2 ⊢
  obtain ⟨_, e1, h2⟩ := bind_ok.1 h2
  obtain ⟨⟨mn, mx⟩, e2, h2⟩ := bind_ok.1 h2
  rw [e1]
  simp only [ok_bind, e2]
  by_cases hle : mx ≤ t.data.length
  · rw [if_pos (by rw [hd]; exact hle)]
  · simp only [if_neg hle] at h2
    cases h2

/-! ## Loops -/

theorem runAll_write' {p : ι → Nat} {st : ι → List γ → Res (List γ)} {xs : List ι} {c : List γ}
    (hin : ∀ i ∈ xs, p i < c.length) (W : ι → γ → Prop)
    (hst : ∀ i ∈ xs, ∃ w, W i w ∧ ∀ c, st i c = modifyAt c (p i) fun _ => w)
    (hag : ∀ i ∈ xs, ∀ j ∈ xs, p i = p j → ∀ w w', W i w → W j w' → w = w') :
    ∃ c', runAll st xs c = .ok c' ∧ c'.length = c.length ∧
      (∀ i ∈ xs, ∀ w, W i w → c'[p i]? = some w) ∧ (∀ k, k ∉ xs.map p → c'[k]? = c[k]?) := by
  by_cases hx : xs = []
  · subst hx; exact ⟨c, rfl, rfl, by simp, by simp⟩
  · obtain ⟨i0, hi0⟩ := List.exists_mem_of_ne_nil _ hx
    obtain ⟨w0, _⟩ := hst i0 hi0
    have : Nonempty γ := ⟨w0⟩
    choose! w hw hs using hst
    obtain ⟨c', h1, h2, h3, h4⟩ := runAll_write p w xs c hin fun i hi j hj e => hag i hi j hj e _ _ (hw i hi) (hw j hj)
    refine ⟨c', by rw [runAll_congr hs]; exact h1, h2, ?_, h4⟩
    intro i hi v hv
    rw [h3 i hi, hag i hi i hi rfl _ _ (hw i hi) hv]

theorem runAll_modify' {p : ι → Nat} {st : ι → List γ → Res (List γ)} {xs : List ι} {c : List γ}
    (hin : ∀ i ∈ xs, p i < c.length) (G : ι → (γ → γ) → Prop)
    (hst : ∀ i ∈ xs, ∃ g, G i g ∧ ∀ c, st i c = modifyAt c (p i) g) (hnd : (xs.map p).Nodup) :
    ∃ c', runAll st xs c = .ok c' ∧ c'.length = c.length ∧
      (∀ i ∈ xs, ∃ g, G i g ∧ c'[p i]? = (c[p i]?).map g) ∧ (∀ k, k ∉ xs.map p → c'[k]? = c[k]?) := by
  have : ∀ i : ι, ∃ g : γ → γ, i ∈ xs → G i g ∧ ∀ c, st i c = modifyAt c (p i) g := fun i => by
    by_cases hi : i ∈ xs
    · obtain ⟨g, hg⟩ := hst i hi
      exact ⟨g, fun _ => hg⟩
    · exact ⟨id, fun h => absurd h hi⟩
  choose g hg using this
  have hw := fun i hi => (hg i hi).1
  have hs := fun i hi => (hg i hi).2
  obtain ⟨c', h1, h2, h3, h4⟩ := runAll_modify p g xs c hin hnd
  exact ⟨c', by rw [runAll_congr hs]; exact h1, h2, fun i hi => ⟨g i, hw i hi, h3 i hi⟩, h4⟩

/-! ## Kernels -/

/-- Storage `a` holds an element for every index of the layout. -/
def Covers (s : List Nat) (l : Layout) (a : List α) : Prop := ∀ i, InRange i s → l.pos i < a.length

theorem Covers.get {s : List Nat} {l : Layout} {a : List α} (h : Covers s l a) {i : List Nat} (hi : InRange i s) :
    ∃ x, a[l.pos i]? = some x := ⟨_, List.getElem?_eq_getElem (h i hi)⟩

theorem Tensor.WF.covers {t : Tensor α} (h : t.WF) : Covers t.layout.shape t.layout t.data := by
  intro i hi
  obtain ⟨h1, h2⟩ := C03_in_bounds t.data t.layout t h.1 h.2 i hi
  unfold Layout.pos; omega

/-- Cells not addressed by the layout. -/
theorem frame_of {s : List Nat} {e : List (List Nat)} (he : e.Perm (all .C s)) {l : Layout} {c c' : List γ}
    (h : ∀ k, k ∉ e.map l.pos → c'[k]? = c[k]?) :
    ∀ k, (∀ i, InRange i s → l.pos i ≠ k) → c'[k]? = c[k]? := by
  intro k hk
  apply h
  intro hm
  obtain ⟨i, hi, e1⟩ := List.mem_map.1 hm
  exact hk i (mem_all.1 (he.mem_iff.1 hi)) e1

theorem write3 (dflt : Order) {s : List Nat} {lc la lb : Layout} (hc : Fit s lc) (ha : Fit s la) (hb : Fit s lb)
    {c : List γ} {a : List α} {b : List β} (cc : Covers s lc c) (ca : Covers s la a) (cb : Covers s lb b)
    (hag : ∀ i j, InRange i s → InRange j s → lc.pos i = lc.pos j → la.pos i = la.pos j ∧ lb.pos i = lb.pos j)
    (w : α → β → γ) :
    ∃ c', opMutcRefaRefb dflt c lc a la b lb (fun _ x y => w x y) = .ok c' ∧ c'.length = c.length ∧
      (∀ i, InRange i s → ∀ x y, a[la.pos i]? = some x → b[lb.pos i]? = some y → c'[lc.pos i]? = some (w x y)) ∧
      ∀ k, (∀ i, InRange i s → lc.pos i ≠ k) → c'[k]? = c[k]? := by
  obtain ⟨e, he, hk⟩ := opMutcRefaRefb_eq dflt hc ha hb c a b fun _ x y => w x y
  have hmem : ∀ i, i ∈ e ↔ InRange i s := fun i => he.mem_iff.trans mem_all
  obtain ⟨c', h1, h2, h3, h4⟩ := runAll_write' (p := lc.pos) (xs := e) (c := c)
    (st := fun i => step3 a b (fun _ x y => w x y) (lc.pos i) (la.pos i) (lb.pos i))
    (fun i hi => cc i ((hmem i).1 hi))
    (fun i v => ∃ x y, a[la.pos i]? = some x ∧ b[lb.pos i]? = some y ∧ v = w x y)
    (fun i hi => by
      obtain ⟨x, hx⟩ := ca.get ((hmem i).1 hi)
      obtain ⟨y, hy⟩ := cb.get ((hmem i).1 hi)
      exact ⟨w x y, ⟨x, y, hx, hy, rfl⟩, fun c => step3_ok hx hy c⟩)
    (by
      rintro i hi j hj hp v v' ⟨x, y, hx, hy, rfl⟩ ⟨x', y', hx', hy', rfl⟩
      obtain ⟨e1, e2⟩ := hag i j ((hmem i).1 hi) ((hmem j).1 hj) hp
      rw [e1, hx'] at hx
      rw [e2, hy'] at hy
      cases hx; cases hy; rfl)
  exact ⟨c', by rw [hk]; exact h1, h2, fun i hi x y hx hy => h3 i ((hmem i).2 hi) _ ⟨x, y, hx, hy, rfl⟩,
    frame_of he h4⟩

theorem write2 (dflt : Order) {s : List Nat} {lc la : Layout} (hc : Fit s lc) (ha : Fit s la)
    {c : List γ} {a : List α} (cc : Covers s lc c) (ca : Covers s la a)
    (hag : ∀ i j, InRange i s → InRange j s → lc.pos i = lc.pos j → la.pos i = la.pos j) (w : α → γ) :
    ∃ c', opMutaRefb dflt c lc a la (fun _ x => w x) = .ok c' ∧ c'.length = c.length ∧
      (∀ i, InRange i s → ∀ x, a[la.pos i]? = some x → c'[lc.pos i]? = some (w x)) ∧
      ∀ k, (∀ i, InRange i s → lc.pos i ≠ k) → c'[k]? = c[k]? := by
  obtain ⟨e, he, hk⟩ := opMutaRefb_eq dflt hc ha c a fun _ x => w x
  have hmem : ∀ i, i ∈ e ↔ InRange i s := fun i => he.mem_iff.trans mem_all
  obtain ⟨c', h1, h2, h3, h4⟩ := runAll_write' (p := lc.pos) (xs := e) (c := c)
    (st := fun i => step2 a (fun _ x => w x) (lc.pos i) (la.pos i))
    (fun i hi => cc i ((hmem i).1 hi))
    (fun i v => ∃ x, a[la.pos i]? = some x ∧ v = w x)
    (fun i hi => by
      obtain ⟨x, hx⟩ := ca.get ((hmem i).1 hi)
      exact ⟨w x, ⟨x, hx, rfl⟩, fun c => step2_ok hx c⟩)
    (by
      rintro i hi j hj hp v v' ⟨x, hx, rfl⟩ ⟨x', hx', rfl⟩
      have e1 := hag i j ((hmem i).1 hi) ((hmem j).1 hj) hp
      rw [e1, hx'] at hx
      cases hx; rfl)
  exact ⟨c', by rw [hk]; exact h1, h2, fun i hi x hx => h3 i ((hmem i).2 hi) _ ⟨x, hx, rfl⟩, frame_of he h4⟩

/-- Distinct indices of an accepted layout without zero strides have distinct cells. -/
theorem pos_inj {s : List Nat} {l : Layout} (h : Fit s l) (hb : l.isBroadcasted = false) {i j : List Nat}
    (hi : InRange i s) (hj : InRange j s) (e : l.pos i = l.pos j) : i = j := by
  have hz : 0 ∉ l.shape := fun hz => absurd ((h.shape ▸ hi : InRange i l.shape).pos 0 hz) (by simp)
  have hg := ((valid_iff.1 h.valid).good h.off).resolve_left hz
  have hs : dims l.axes = s := h.shape
  have n1 := h.nonneg i hi
  have n2 := h.nonneg j hj
  have hd : dot i l.axes = dot j l.axes := by
    unfold Layout.pos at e
    rw [addr_eq] at e n1
    rw [addr_eq] at e n2
    omega
  have li := hi.length_eq
  have lj := hj.length_eq
  apply ext_getD (by omega)
  intro k hki
  have hk : k < l.axes.length := by
    have : l.axes.length = s.length := by rw [← hs]; simp
    omega
  · refine noOverlap_getD hg.2 (hs ▸ hi) (hs ▸ hj) hd hk ?_
    intro h0
    have : (0 : Int) ∈ l.stride := by
      rw [← h0]; exact List.mem_map_of_mem (getD_mem hk)
    unfold Layout.isBroadcasted at hb
    simp [this] at hb

theorem modify2 (dflt : Order) {s : List Nat} {lc la : Layout} (hc : Fit s lc) (ha : Fit s la)
    {c : List γ} {a : List α} (cc : Covers s lc c) (ca : Covers s la a)
    (hinj : ∀ i j, InRange i s → InRange j s → lc.pos i = lc.pos j → i = j) (f : γ → α → γ) :
    ∃ c', opMutaRefb dflt c lc a la f = .ok c' ∧ c'.length = c.length ∧
      (∀ i, InRange i s → ∀ v x, c[lc.pos i]? = some v → a[la.pos i]? = some x → c'[lc.pos i]? = some (f v x)) ∧
      ∀ k, (∀ i, InRange i s → lc.pos i ≠ k) → c'[k]? = c[k]? := by
  obtain ⟨e, he, hk⟩ := opMutaRefb_eq dflt hc ha c a f
  have hmem : ∀ i, i ∈ e ↔ InRange i s := fun i => he.mem_iff.trans mem_all
  obtain ⟨c', h1, h2, h3, h4⟩ := runAll_modify' (p := lc.pos) (xs := e) (c := c)
    (st := fun i => step2 a f (lc.pos i) (la.pos i))
    (fun i hi => cc i ((hmem i).1 hi))
    (fun i g => ∃ x, a[la.pos i]? = some x ∧ g = fun v => f v x)
    (fun i hi => by
      obtain ⟨x, hx⟩ := ca.get ((hmem i).1 hi)
      exact ⟨_, ⟨x, hx, rfl⟩, fun c => step2_ok hx c⟩)
    ((he.nodup_iff.2 (nodup_all _ _)).map_on fun i hi j hj => hinj i j ((hmem i).1 hi) ((hmem j).1 hj))
  refine ⟨c', by rw [hk]; exact h1, h2, fun i hi v x hv hx => ?_, frame_of he h4⟩
  obtain ⟨g, ⟨x', hx', rfl⟩, hg⟩ := h3 i ((hmem i).2 hi)
  rw [hx] at hx'
  cases hx'
  rw [hg, hv]; rfl

theorem modify1 (dflt : Order) {s : List Nat} {l : Layout} (h : Fit s l) {c : List γ} (cc : Covers s l c) (f : γ → γ) :
    ∃ c', opMuta dflt c l f = .ok c' ∧ c'.length = c.length ∧
      (∀ i, InRange i s → c'[l.pos i]? = (c[l.pos i]?).map f) ∧
      ∀ k, (∀ i, InRange i s → l.pos i ≠ k) → c'[k]? = c[k]? := by
  obtain ⟨ps, hnd, hm, hk⟩ := opMuta_eq dflt h c f
  obtain ⟨c', h1, h2, h3, h4⟩ := runAll_modify (fun i : Nat => i) (fun _ => f) ps c
    (fun i hi => by obtain ⟨j, hj, rfl⟩ := (hm i).1 hi; exact cc j hj) (by simpa using hnd)
  refine ⟨c', by rw [hk]; exact h1, h2, fun i hi => h3 _ ((hm _).2 ⟨i, hi, rfl⟩), fun k hk' => h4 k ?_⟩
  intro hmem
  obtain ⟨i, hi, rfl⟩ := List.mem_map.1 hmem
  obtain ⟨j, hj, e⟩ := (hm i).1 hi
  exact hk' j hj e

theorem fill1_of (dflt : Order) {s : List Nat} {l : Layout} (hv : l.Valid) (hs : l.shape = s)
    (hn0 : ∀ i, InRange i s → 0 ≤ l.addr i) {c : List γ} (cc : Covers s l c) (v : γ) :
    ∃ c', fill dflt c l v = .ok c' ∧ c'.length = c.length ∧
      (∀ i, InRange i s → c'[l.pos i]? = some v) ∧
      ∀ k, (∀ i, InRange i s → l.pos i ≠ k) → c'[k]? = c[k]? := by
  obtain ⟨ps, hnd, hm, hk⟩ := fill_eq_of dflt hv hs hn0 c v
  obtain ⟨c', h1, h2, h3, h4⟩ := runAll_write (fun i : Nat => i) (fun _ => v) ps c
    (fun i hi => by obtain ⟨j, hj, rfl⟩ := (hm i).1 hi; exact cc j hj) (fun _ _ _ _ _ => rfl)
  refine ⟨c', by rw [hk]; exact h1, h2, fun i hi => h3 _ ((hm _).2 ⟨i, hi, rfl⟩), fun k hk' => h4 k ?_⟩
  intro hmem
  obtain ⟨i, hi, rfl⟩ := List.mem_map.1 hmem
  obtain ⟨j, hj, e⟩ := (hm i).1 hi
  exact hk' j hj e

theorem fill1 (dflt : Order) {s : List Nat} {l : Layout} (h : Fit s l) {c : List γ} (cc : Covers s l c) (v : γ) :
    ∃ c', fill dflt c l v = .ok c' ∧ c'.length = c.length ∧
      (∀ i, InRange i s → c'[l.pos i]? = some v) ∧
      ∀ k, (∀ i, InRange i s → l.pos i ≠ k) → c'[k]? = c[k]? :=
  fill1_of dflt h.valid h.shape h.nonneg cc v

/-! ## Building a new tensor -/

theorem assumeInit_ok {c : List (Option γ)} (h : ∀ k < c.length, ∃ v, c[k]? = some (some v)) :
    ∃ d, assumeInit c = .ok d ∧ d.length = c.length ∧ ∀ (k : Nat) (v : γ), c[k]? = some (some v) → d[k]? = some v := by
  induction c with
  | nil => exact ⟨[], rfl, rfl, by simp⟩
  | cons x c ih =>
    obtain ⟨v, hv⟩ := h 0 (by simp)
    simp only [List.getElem?_cons_zero, Option.some.injEq] at hv
    subst hv
    obtain ⟨d, h1, h2, h3⟩ := ih fun k hk => h (k + 1) (by simpa using hk)
    refine ⟨v :: d, by simp [assumeInit, h1], by simp [h2], ?_⟩
    intro k u hu
    cases k with
    | zero => simpa using hu
    | succ k => exact h3 k u (by simpa using hu)

theorem build_ok {lc : Layout} (hd : Dense lc) (kernel : List (Option γ) → Res (List (Option γ)))
    (W : List Nat → γ → Prop) (hW : ∀ i, InRange i lc.shape → ∃ v, W i v)
    (hk : ∀ c : List (Option γ), Covers lc.shape lc c → ∃ c', kernel c = .ok c' ∧ c'.length = c.length ∧
      ∀ i, InRange i lc.shape → ∀ v, W i v → c'[lc.pos i]? = some (some v)) :
    ∃ t, Tensor.build lc kernel = .ok t ∧ t.layout = lc ∧ t.WF ∧
      ∀ i, InRange i lc.shape → ∀ v, W i v → t.arr.elem i = some v := by
  obtain ⟨hv, n, hb, hlt, hsur⟩ := hd.spec
  have hlen : (uninit (n : Int) : List (Option γ)).length = n := by simp [uninit]
  obtain ⟨c', e1, e2, e3⟩ := hk (uninit (n : Int)) fun i hi => by rw [hlen]; exact hlt i hi
  obtain ⟨d, d1, d2, d3⟩ := assumeInit_ok (c := c') (fun k hk => by
    rw [e2, hlen] at hk
    obtain ⟨i, hi, rfl⟩ := hsur k hk
    obtain ⟨v, hv⟩ := hW i hi
    exact ⟨v, e3 i hi v hv⟩)
  have hnew : Tensor.newF d lc = .ok ⟨d, lc⟩ := newF_ok hv hb (by rw [d2, e2, hlen])
  have hoff : 0 ≤ lc.offset := by rw [hd.off]
  refine ⟨⟨d, lc⟩, ?_, rfl, ⟨hoff, hnew⟩, ?_⟩
  · unfold Tensor.build
    simp only [hb, ok_bind, e1, d1]
    exact hnew
  · intro i hi v hwv
    show element _ _ _ _ = _
    rw [element_eq (C22_valid_nonNegative lc hv hoff i hi)]
    exact d3 _ _ (e3 i hi v hwv)

theorem Dense.fit {l : Layout} (h : Dense l) {s : List Nat} (hs : l.shape = s) : Fit s l :=
  ⟨h.spec.1, by rw [h.off], hs⟩

end
end Rstsr
