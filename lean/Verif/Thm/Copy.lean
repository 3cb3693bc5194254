import Verif.Proof.Copy
/-!
# Theorems on assignment and copies (C21, C33, C34, C35, C36, C56)

`Arr.Same`, `Arr.SameSequence`, `Addressed` and `ChangedOnly` are defined in `Spec/Tensor.lean`.
-/
namespace Rstsr
open Spec

section
variable {α β γ : Type}

theorem changed_of {l : Layout} {s : List Nat} (h : Fit s l) {c c' : List γ} (hl : c'.length = c.length)
    (hf : ∀ k, (∀ i, InRange i s → l.pos i ≠ k) → c'[k]? = c[k]?) :
    ChangedOnly (Addressed l.stride l.offset l.shape) c c' := by
  refine ⟨hl, fun k hk => hf k fun i hi e => hk ⟨i, h.shape ▸ hi, ?_⟩⟩
  have h0 := h.nonneg i hi
  show l.addr i = _
  unfold Layout.pos at e
  omega

/-! ## C33: assignment -/

/-- `a.assign(b)`: no axis of `a` has stride 0 and `b` can be stretched to the shape of `a`. -/
theorem C33_assign_partial (dflt : Order) (fixed : Bool) (a : Tensor α) (b : Tensor β) (cast : β → α) (ha : a.WF) (hb : b.WF)
    (hz : (0 : Int) ∉ a.layout.stride) (h : BroadcastOf dflt a.arr.shape b.arr.shape a.arr.shape) :
    ∃ c, Tensor.assignF dflt fixed a b cast = .ok c ∧ c.WF ∧ c.layout = a.layout ∧
      (∀ idx, InRange idx a.arr.shape → ∃ y, b.arr.elem (stretchIndex dflt b.arr.shape idx) = some y ∧
        c.arr.elem idx = some (cast y)) ∧
      ChangedOnly (Addressed a.layout.stride a.layout.offset a.layout.shape) a.data c.data := by
  obtain ⟨lb, g⟩ := toFirst_ok (l1 := a.layout) (l2 := b.layout) h
  have hz' : a.layout.isBroadcasted = false := by unfold Layout.isBroadcasted; simpa using hz
  obtain ⟨-, fa, fb, ca, cb, -, gb⟩ := bc_facts ha hb g
  obtain ⟨d, e1, e2, e3, e4⟩ := assign2 dflt fa fb ca cb
    (fun i j hi hj e => by rw [pos_inj fa hz' hi hj e]) cast
  refine ⟨⟨d, a.layout⟩, ?_, ha.of_data e2, rfl, ?_, changed_of fa e2 e4⟩
  · unfold Tensor.assignF
    rw [if_neg (by simp [hz'])]
    simp only [g, ok_bind, ne_eq, not_true_eq_false, decide_false, Bool.and_false, e1]
    rfl
  · intro idx hi
    obtain ⟨y, h1, h2⟩ := gb idx hi
    refine ⟨y, h2, ?_⟩
    rw [elem_pos fa hi]
    exact e3 idx hi y h1

/-- A destination in which several indices may share a cell is rejected, for `assign` and for `fill`. -/
theorem C33_broadcast_destination (dflt : Order) (fixed : Bool) (a : Tensor α) (b : Tensor β) (cast : β → α) (v : α)
    (hz : (0 : Int) ∈ a.layout.stride) :
    Tensor.assignF dflt fixed a b cast = .error .invalidLayout ∧ Tensor.fillF dflt a v = .error .invalidLayout := by
  have hz' : a.layout.isBroadcasted = true := by unfold Layout.isBroadcasted; simpa using hz
  exact ⟨by unfold Tensor.assignF; rw [if_pos hz'], by unfold Tensor.fillF; rw [if_pos hz']⟩

/-- Shapes that cannot be broadcast are rejected. -/
theorem C33_incompatible (dflt : Order) (fixed : Bool) (a : Tensor α) (b : Tensor β) (cast : β → α)
    (h : ¬ Compatible dflt a.arr.shape b.arr.shape) : Tensor.assignF dflt fixed a b cast = .error .invalidLayout := by
  unfold Tensor.assignF
  split
  · rfl
  · have : a.layout.broadcastToFirst b.layout dflt = .error .invalidLayout := by
      have h0 : ¬ BroadcastOf dflt a.layout.shape b.layout.shape a.layout.shape := fun h' => h (compatible_of h')
      rcases toFirst_no h0 with e | ⟨m1, m2, e, _⟩
      · exact e
      · exact absurd ((C17_accept_iff a.layout b.layout dflt).1 ⟨(m1, m2), e⟩) h
    rw [this]; rfl

/-- The source may be larger than the destination: `[1, 3]` is accepted as destination of `[2, 3]`, and the
last row wins. A user who relies on a shape error here is wrong. -/
theorem C33_larger_source_accepted :
    ∃ a b : Tensor Nat, a.WF ∧ b.WF ∧ a.arr.shape = [1, 3] ∧ b.arr.shape = [2, 3] ∧
      (Tensor.assignF .C true a b id).map Tensor.data = .ok [4, 5, 6] :=
  ⟨⟨[0, 0, 0], ⟨[⟨1, 3⟩, ⟨3, 1⟩], 0⟩⟩, ⟨[1, 2, 3, 4, 5, 6], ⟨[⟨2, 3⟩, ⟨3, 1⟩], 0⟩⟩,
    ⟨by decide, by decide⟩, ⟨by decide, by decide⟩, rfl, rfl, by decide⟩

/-- `a.fill(v)` sets exactly the elements of `a`. -/
theorem C33_fill (dflt : Order) (a : Tensor α) (v : α) (ha : a.WF) (hz : (0 : Int) ∉ a.layout.stride) :
    ∃ c, Tensor.fillF dflt a v = .ok c ∧ c.WF ∧ c.layout = a.layout ∧
      (∀ idx, InRange idx a.arr.shape → c.arr.elem idx = some v) ∧
      ChangedOnly (Addressed a.layout.stride a.layout.offset a.layout.shape) a.data c.data := by
  have hz' : a.layout.isBroadcasted = false := by unfold Layout.isBroadcasted; simpa using hz
  obtain ⟨d, e1, e2, e3, e4⟩ := fill1 dflt ha.fit ha.covers v
  refine ⟨⟨d, a.layout⟩, ?_, ha.of_data e2, rfl, ?_, changed_of ha.fit e2 e4⟩
  · unfold Tensor.fillF
    rw [if_neg (by simp [hz']), e1]; rfl
  · intro idx hi
    rw [elem_pos ha.fit hi]
    exact e3 idx hi

/-! ## C34: copy between different shapes -/

/-- The kernel behind `to_layout` and `reshape`: the destination's `k`-th element becomes the source's
`k`-th element, and no other cell changes. -/
theorem C34_arbitrary (dflt o : Order) (c : Tensor γ) (a : Tensor α) (cast : α → γ) (hc : c.WF) (ha : a.WF)
    (hz : (0 : Int) ∉ c.layout.stride) (hsz : c.arr.shape.prod = a.arr.shape.prod) :
    ∃ d, assignArbitrary dflt c.data c.layout a.data a.layout o cast = .ok d ∧
      (∀ i j, InRange i c.arr.shape → InRange j a.arr.shape → rank o c.arr.shape i = rank o a.arr.shape j →
        ∃ x, a.arr.elem j = some x ∧ (⟨d, c.layout⟩ : Tensor γ).arr.elem i = some (cast x)) ∧
      ChangedOnly (Addressed c.layout.stride c.layout.offset c.layout.shape) c.data d := by
  have hz' : c.layout.isBroadcasted = false := by unfold Layout.isBroadcasted; simpa using hz
  obtain ⟨_, _, _, _, hco⟩ := WF_bounds hc
  obtain ⟨_, _, _, _, hao⟩ := WF_bounds ha
  obtain ⟨d, e1, e2, e3, e4⟩ := assignArbitrary2 dflt o hc.fit ha.fit hsz hc.covers ha.covers hco hao
    (fun i j hi hj e => pos_inj hc.fit hz' hi hj e) cast
  refine ⟨d, e1, ?_, changed_of hc.fit e2 e4⟩
  intro i j hi hj e
  obtain ⟨x, h1, h2⟩ := ha.get hj
  refine ⟨x, h2, ?_⟩
  rw [elem_pos hc.fit hi]
  exact e3 i j hi hj e x h1

/-! ## C35: copies -/

theorem newF_layout {d : List α} {l : Layout} {t : Tensor α} (h : Tensor.newF d l = .ok t) : t.layout = l := by
  unfold Tensor.newF at h
  obtain ⟨_, -, h⟩ := bind_ok.1 h
  obtain ⟨⟨_, _⟩, -, h⟩ := bind_ok.1 h
  dsimp only at h
  split at h
  · cases h; rfl
  · cases h

theorem forArrayCopy_order {dflt : Order} {l m : Layout} {o : IterOrder} (h : l.forArrayCopy dflt o = .ok m) :
    (o = .C → ∀ idx, InRange idx l.shape → m.addr idx = rank .C l.shape idx) ∧
    (o = .F → ∀ idx, InRange idx l.shape → m.addr idx = rank .F l.shape idx) := by
  constructor <;> rintro rfl idx hi <;> cases h
  · rw [addr_newCContig hi.length_eq]; simp; rfl
  · rw [addr_newFContig hi.length_eq]; simp; rfl

/-- `asarray` of a reference, for every order flag it accepts: same shape, same elements, and the storage
has exactly as many cells as there are elements. The flags `C` and `F` store the elements in that order. -/
theorem C35_asarray (dflt : Order) (a : Tensor α) (ha : a.WF) (o : IterOrder)
    (ho : o = .C ∨ o = .F ∨ o = .A ∨ o = .K) :
    ∃ c, Tensor.asarray dflt a o = .ok c ∧ c.WF ∧ a.arr.Same c.arr ∧ c.data.length = a.arr.shape.prod ∧
      (o = .C → ∀ idx, InRange idx a.arr.shape → position c.layout.stride c.layout.offset idx = rank .C a.arr.shape idx) ∧
      (o = .F → ∀ idx, InRange idx a.arr.shape → position c.layout.stride c.layout.offset idx = rank .F a.arr.shape idx) := by
  obtain ⟨m, h1, h2, h3, h4⟩ := forArrayCopy_spec dflt ha.fit.valid o ho
  have ht := h3.tight fun hz => h4 (h2 ▸ hz)
  obtain ⟨c, d, e1, e2, e3, e4⟩ := fresh_same dflt ht ha h2 (fun x : α => x)
  have hw : (⟨d, m⟩ : Tensor α).WF := ht.wf e3
  refine ⟨⟨d, m⟩, ?_, hw, same_of ha (h3.fit h2) e4, ?_, (forArrayCopy_order h1).1, (forArrayCopy_order h1).2⟩
  · unfold Tensor.asarray
    have e1 : assign dflt (uninit (m.size : Int)) m a.data a.layout some = .ok c := e1
    simp only [h1, ok_bind, e1, e2]
    exact hw.2
  · show d.length = a.layout.shape.prod
    rw [e3, ← h2]; rfl

/-- The flags `B` and `G` make no sense for a copy and are rejected. -/
theorem C35_asarray_reject (dflt : Order) (a : Tensor α) (o : IterOrder) (ho : o = .B ∨ o = .G) :
    Tensor.asarray dflt a o = .error .invalidLayout ∨ Tensor.asarray dflt a o = .error .invalidValue := by
  rcases ho with rfl | rfl <;> simp [Tensor.asarray, Layout.forArrayCopy, error_bind]

/-- A layout equal to that of the tensor shows the same elements. -/
theorem same_of_beq {a : Tensor α} (ha : a.WF) {l : Layout} (hl : Good l) (h : a.layout.beqLayout l = true) :
    (⟨a.data, l⟩ : Tensor α).WF ∧ a.arr.Same (⟨a.data, l⟩ : Tensor α).arr := by
  obtain ⟨h1, h2⟩ := C53_eq_sound _ _ h
  have ho : a.layout.offset = l.offset := by
    unfold Layout.beqLayout at h
    split at h
    · cases h
    · split at h
      · cases h
      · rename_i h'; simpa using h'
  obtain ⟨_, _, _, _, hao⟩ := WF_bounds ha
  have hw := wf_of_sub ha hl (fun j hj => ⟨j, h1 ▸ hj, (h2 j (h1 ▸ hj)).symm⟩) (ho ▸ ha.1) (fun _ => ho ▸ hao)
  refine ⟨hw, h1.symm, fun i hi => ?_⟩
  obtain ⟨x, hx, hx'⟩ := ha.get hi
  refine ⟨x, hx', ?_⟩
  have hi' : InRange i l.shape := h1 ▸ hi
  rw [elem_pos (hw.fit) hi', ← hx]
  show a.data[l.pos i]? = _
  unfold Layout.pos
  rw [h2 i hi]

/-- `asarray` of an owned tensor: the same elements, packed into the first cells of the storage, in the
order asked for. -/
theorem C35_asarray_owned (dflt : Order) (a : Tensor α) (ha : a.WF) (o : IterOrder)
    (ho : o = .C ∨ o = .F ∨ o = .A ∨ o = .K) :
    ∃ c, Tensor.asarrayOwned dflt a o = .ok c ∧ c.WF ∧ a.arr.Same c.arr ∧
      (∀ idx, InRange idx a.arr.shape → position c.layout.stride c.layout.offset idx < a.arr.shape.prod) ∧
      (o = .C → ∀ idx, InRange idx a.arr.shape → position c.layout.stride c.layout.offset idx = rank .C a.arr.shape idx) ∧
      (o = .F → ∀ idx, InRange idx a.arr.shape → position c.layout.stride c.layout.offset idx = rank .F a.arr.shape idx) := by
  obtain ⟨c, h1, h2, h3, h4, h5, h6⟩ := C35_asarray dflt a ha o ho
  have h7 : ∀ idx, InRange idx a.arr.shape → c.layout.addr idx < a.arr.shape.prod := by
    intro idx hi
    have := (C03_in_bounds c.data c.layout c h2.1 h2.2 idx (by
      have : c.layout.shape = a.arr.shape := h3.1
      rw [this]; exact hi)).2
    rw [h4] at this
    exact this
  unfold Tensor.asarray at h1
  obtain ⟨m, e, h1⟩ := bind_ok.1 h1
  have hm : c.layout = m := by
    obtain ⟨_, -, h1⟩ := bind_ok.1 h1
    obtain ⟨_, -, h1⟩ := bind_ok.1 h1
    exact newF_layout h1
  unfold Tensor.asarrayOwned
  rw [e]
  simp only [ok_bind]
  split
  · rename_i hb
    obtain ⟨b1, b2⟩ := C53_eq_sound _ _ hb
    have hs : m.shape = a.layout.shape := b1
    have key : ∀ idx, InRange idx a.arr.shape → a.layout.addr idx = c.layout.addr idx := by
      intro idx hi
      have hi : InRange idx a.layout.shape := hi
      rw [hm, b2 idx (hs ▸ hi)]
    refine ⟨a, rfl, ha, ⟨rfl, fun i hi => by obtain ⟨x, -, hx⟩ := ha.get hi; exact ⟨x, hx, hx⟩⟩, ?_, ?_, ?_⟩
    · intro idx hi
      exact lt_of_eq_of_lt (key idx hi) (h7 idx hi)
    · intro hC idx hi
      exact (key idx hi).trans (h5 hC idx hi)
    · intro hF idx hi
      exact (key idx hi).trans (h6 hF idx hi)
  · exact ⟨c, h1, h2, h3, h7, h5, h6⟩

theorem seq_of_same {o : Order} {a b : Tensor α} (h : a.arr.Same b.arr) : a.arr.SameSequence o b.arr := by
  refine ⟨by rw [h.1], fun i j hi hj e => ?_⟩
  rw [h.1] at hj e
  have := rank_inj hi hj e
  subst this
  exact h.2 i hi

theorem changeLayout_tight (dflt : Order) {a : Tensor α} (ha : a.WF) {l : Layout} {n : Nat} (ht : Tight l n)
    (hsz : a.layout.size = l.size) :
    ∃ c, Tensor.changeLayout dflt a l = .ok c ∧ c.layout = l ∧ c.WF ∧ a.arr.SameSequence dflt c.arr := by
  unfold Tensor.changeLayout
  rw [if_neg (by simpa using hsz)]
  by_cases hb : a.layout.beqLayout l = true
  · rw [if_pos hb]
    obtain ⟨h1, h2⟩ := same_of_beq ha ((valid_iff.1 ht.valid).good ht.off) hb
    exact ⟨_, rfl, rfl, h1, seq_of_same h2⟩
  · rw [if_neg hb]
    obtain ⟨mn, hbd⟩ := ht.bounds
    obtain ⟨c, d, e1, e2, e3, e4⟩ := fresh_arbitrary dflt dflt ht ha hsz.symm (fun x : α => x)
    have e1 : assignArbitrary dflt (uninit (n : Int)) l a.data a.layout dflt some = .ok c := e1
    refine ⟨⟨d, l⟩, ?_, rfl, ht.wf e3, hsz, ?_⟩
    · simp only [hbd, ok_bind, e1, e2]
    · intro i j hi hj e
      have hj : InRange j l.shape := hj
      obtain ⟨x, h1, h2⟩ := ha.get hi
      refine ⟨x, h2, ?_⟩
      rw [elem_pos ht.fit hj]
      exact e4 j i hj hi e.symm x h1

/-- `to_layout` to any layout that passes the checks, has no stride 0 and leaves no hole below its upper
bound: the result has that layout and the `k`-th element is unchanged for every `k`. -/
theorem C35_to_layout_partial (dflt : Order) (a : Tensor α) (ha : a.WF) (l : Layout) (hl : l.Valid) (ho : 0 ≤ l.offset)
    (hz : (0 : Int) ∉ l.stride) (hsz : a.arr.shape.prod = l.shape.prod)
    (hholes : ∀ mn mx, l.boundsIndex = .ok (mn, mx) → ∀ k : Nat, (k : Int) < mx → Addressed l.stride l.offset l.shape k) :
    ∃ c, Tensor.changeLayout dflt a l = .ok c ∧ c.layout = l ∧ c.WF ∧ a.arr.SameSequence dflt c.arr := by
  have hz' : l.isBroadcasted = false := by unfold Layout.isBroadcasted; simpa using hz
  have hg := (valid_iff.1 hl).good ho
  have hf : Fit l.shape l := ⟨hl, ho, rfl⟩
  have hbd : ∃ mn mx, l.boundsIndex = .ok (mn, mx) := by
    rcases hg with hz | ⟨h1, _⟩
    · exact ⟨_, _, boundsIndex_of_zero hz⟩
    · by_cases hz : 0 ∈ l.shape
      · exact ⟨_, _, boundsIndex_of_zero hz⟩
      · exact ⟨_, _, by rw [boundsIndex_of_pos hz ho, if_pos h1]⟩
  obtain ⟨mn, mx, hb⟩ := hbd
  have hmx : 0 ≤ mx := ho.trans (offset_le ho hb)
  obtain ⟨n, rfl⟩ := Int.eq_ofNat_of_zero_le hmx
  have ht : Tight l n := ⟨hl, ho, ⟨mn, hb⟩, fun i hi => by
      have := boundsIndex_sound hb hi
      have := hf.nonneg i hi
      unfold Layout.pos; omega,
    fun k hk => by
      obtain ⟨i, hi, e⟩ := hholes mn n hb k (by omega)
      refine ⟨i, hi, ?_⟩
      have e : l.addr i = k := e
      unfold Layout.pos; omega,
    fun i j hi hj e => pos_inj hf hz' hi hj e⟩
  exact changeLayout_tight dflt ha ht hsz

/-- A different number of elements is rejected. -/
theorem C35_to_layout_reject (dflt : Order) (a : Tensor α) (l : Layout) (h : a.arr.shape.prod ≠ l.shape.prod) :
    Tensor.changeLayout dflt a l = .error .invalidLayout := by
  unfold Tensor.changeLayout
  exact if_pos h

/-- With a target layout that has holes, cells never written are taken as initialised (undefined behaviour
in Rust; the panic error in the model). -/
theorem C35_to_layout_holes :
    ∃ (a : Tensor Nat) (l : Layout), a.WF ∧ l.Valid ∧ 0 ≤ l.offset ∧ (0 : Int) ∉ l.stride ∧
      Tensor.changeLayout .C a l = .error .panic :=
  ⟨⟨[1, 2], ⟨[⟨2, 1⟩], 0⟩⟩, ⟨[⟨2, 2⟩], 0⟩, ⟨by decide, by decide⟩, by decide, by decide, by decide, by decide⟩

/-- `to_contig`: same shape, same elements, contiguous in the order asked for. -/
theorem C35_to_contig (dflt : Order) (a : Tensor α) (ha : a.WF) (o : Order) :
    ∃ c, Tensor.changeContig dflt a o = .ok c ∧ c.WF ∧ a.arr.Same c.arr ∧
      ∀ idx, InRange idx a.arr.shape → position c.layout.stride c.layout.offset idx = rank o a.arr.shape idx := by
  unfold Tensor.changeContig
  cases o
  · obtain ⟨c, h1, h2, h3, h4⟩ := changeLayout_tight dflt ha (tight_newC a.layout.shape) (by simp [Layout.size, shape_newCContig])
    have hs : c.arr.shape = a.arr.shape := by
      show c.layout.shape = _; rw [h2, shape_newCContig]; rfl
    refine ⟨c, h1, h3, same_of_seq hs h4, fun idx hi => ?_⟩
    have hi : InRange idx a.layout.shape := hi
    rw [h2]
    show (Layout.newCContig a.layout.shape 0).addr idx = _
    rw [addr_newCContig hi.length_eq]; simp; rfl
  · obtain ⟨c, h1, h2, h3, h4⟩ := changeLayout_tight dflt ha (tight_newF a.layout.shape) (by simp [Layout.size, shape_newFContig])
    have hs : c.arr.shape = a.arr.shape := by
      show c.layout.shape = _; rw [h2, shape_newFContig]; rfl
    refine ⟨c, h1, h3, same_of_seq hs h4, fun idx hi => ?_⟩
    have hi : InRange idx a.layout.shape := hi
    rw [h2]
    show (Layout.newFContig a.layout.shape 0).addr idx = _
    rw [addr_newFContig hi.length_eq]; simp; rfl

/-- `into_owned`, `to_owned`, `clone`. -/
theorem C35_into_owned (dflt : Order) (a : Tensor α) (ha : a.WF) :
    ∃ c, Tensor.intoOwned dflt a = .ok c ∧ c.WF ∧ a.arr.Same c.arr ∧ c.data.length = a.arr.shape.prod := by
  obtain ⟨mn, mx, hb, -, -⟩ := WF_bounds ha
  unfold Tensor.intoOwned
  simp only [hb, ok_bind]
  split
  · rename_i h
    refine ⟨a, rfl, ha, ⟨rfl, fun i hi => by obtain ⟨x, -, hx⟩ := ha.get hi; exact ⟨x, hx, hx⟩⟩, ?_⟩
    have : (a.data.length : Int) = (a.layout.size : Int) := by omega
    exact_mod_cast this
  · obtain ⟨c, h1, h2, h3, h4, -⟩ := C35_asarray dflt a ha .K (by simp)
    exact ⟨c, h1, h2, h3, h4⟩

/-! ## C21: reshape -/

theorem subst_self (shape : List Nat) (n : Nat) : substituteNegatives (shape.map Int.ofNat) n = .ok shape := by
  rw [C20_no_negative _ _ (by simp)]
  simp [Function.comp_def]

theorem reshape_view {a : Tensor α} (ha : a.WF) {shape : List Nat} {o : Order} {m : Layout}
    (h : a.layout.reshapeable shape o = .ok (some m)) :
    (⟨a.data, m⟩ : Tensor α).WF ∧ (⟨a.data, m⟩ : Tensor α).arr.shape = shape ∧
      a.arr.SameSequence o (⟨a.data, m⟩ : Tensor α).arr := by
  obtain ⟨h1, h2⟩ := reshapeable_some h
  have ho := reshapeable_offset h
  obtain ⟨_, _, _, _, hao⟩ := WF_bounds ha
  have hw := wf_of_sub ha (reshapeable_good ha.good h) h2.sub (ho ▸ ha.1) (fun _ => ho ▸ hao)
  refine ⟨hw, h1, h2.1, fun i j hi hj e => ?_⟩
  have hj : InRange j m.shape := hj
  obtain ⟨x, hx, hx'⟩ := ha.get hi
  refine ⟨x, hx', ?_⟩
  rw [elem_pos hw.fit hj, ← hx]
  show a.data[m.pos j]? = _
  unfold Layout.pos
  rw [h2.2 i j hi hj e]

def freshLayout (o : Order) (shape : List Nat) : Layout :=
  match o with
  | .C => Layout.newCContig shape 0
  | .F => Layout.newFContig shape 0

theorem reshape_copy {a : Tensor α} (ha : a.WF) {shape : List Nat} (o : Order) (hsz : a.arr.shape.prod = shape.prod) :
    ∃ c, (assignArbitrary o (uninit (freshLayout o shape).size) (freshLayout o shape) a.data a.layout o some >>= fun c =>
      assumeInit c >>= fun c => .ok (⟨c, freshLayout o shape⟩ : Tensor α)) = .ok c ∧ c.WF ∧ c.arr.shape = shape ∧
      a.arr.SameSequence o c.arr := by
  have key : ∀ l : Layout, l.shape = shape → Tight l l.size →
      ∃ c, (assignArbitrary o (uninit l.size) l a.data a.layout o some >>= fun c =>
        assumeInit c >>= fun c => .ok (⟨c, l⟩ : Tensor α)) = .ok c ∧ c.WF ∧ c.arr.shape = shape ∧
        a.arr.SameSequence o c.arr := by
    intro l hs ht
    have hsz' : l.size = a.layout.size := by
      have h1 : l.size = shape.prod := by rw [← hs]; rfl
      rw [h1]; exact hsz.symm
    obtain ⟨c, d, e1, e2, e3, e4⟩ := fresh_arbitrary o o ht ha hsz' (fun x : α => x)
    have e1 : assignArbitrary o (uninit (l.size : Int)) l a.data a.layout o some = .ok c := e1
    refine ⟨⟨d, l⟩, by rw [e1, ok_bind, e2]; rfl, ht.wf e3, hs, hsz'.symm, ?_⟩
    intro i j hi hj e
    have hj : InRange j l.shape := hj
    obtain ⟨x, h1, h2⟩ := ha.get hi
    refine ⟨x, h2, ?_⟩
    rw [elem_pos ht.fit hj]
    exact e4 j i hj hi e.symm x h1
  cases o
  · exact key _ (shape_newCContig _ _) (tight_newC shape)
  · exact key _ (shape_newFContig _ _) (tight_newF shape)

/-- With the copy flag unset or set, reshaping to any shape with as many elements succeeds. The copy flag
only decides whether new storage is made. -/
theorem C21_reshape (a : Tensor α) (ha : a.WF) (shape : List Nat) (o : Order) (copy : Option Bool)
    (hcopy : copy ≠ some false) (hsz : a.arr.shape.prod = shape.prod) :
    ∃ c, Tensor.changeShape a (shape.map Int.ofNat) o copy = .ok c ∧ c.WF ∧ c.arr.shape = shape ∧
      a.arr.SameSequence o c.arr := by
  have hsub := subst_self shape a.layout.size
  by_cases hc : copy = some true
  · obtain ⟨c, h1, h2⟩ := reshape_copy ha o hsz
    refine ⟨c, ?_, h2⟩
    unfold Tensor.changeShape
    simp only [hsub, ok_bind, if_pos hc, if_neg hcopy]
    exact h1
  · cases hr : a.layout.reshapeable shape o with
    | error e => exact absurd hsz ((C19_error_iff a.layout ha.1 shape o e).1 hr).2
    | ok q =>
      cases q with
      | some m =>
        refine ⟨⟨a.data, m⟩, ?_, reshape_view ha hr⟩
        unfold Tensor.changeShape
        simp only [hsub, ok_bind, if_neg hc, hr]
      | none =>
        obtain ⟨c, h1, h2⟩ := reshape_copy ha o hsz
        refine ⟨c, ?_, h2⟩
        unfold Tensor.changeShape
        simp only [hsub, ok_bind, if_neg hc, hr, if_neg hcopy]
        exact h1

/-- With `copy = false` the result uses the same storage, or there is an error; the error is raised only
if the numbers of elements differ or no strides over this storage show the elements in the new shape. -/
theorem C21_no_copy (a : Tensor α) (ha : a.WF) (shape : List Nat) (o : Order) :
    (∃ c, Tensor.changeShape a (shape.map Int.ofNat) o (some false) = .ok c ∧ c.data = a.data ∧ c.WF ∧
      c.arr.shape = shape ∧ a.arr.SameSequence o c.arr) ∨
    (Tensor.changeShape a (shape.map Int.ofNat) o (some false) = .error .invalidValue ∧
      (a.arr.shape.prod ≠ shape.prod ∨
        ∀ stride : List Int, stride.length = shape.length → ¬ ∀ i j, InRange i a.arr.shape → InRange j shape →
          rank o a.arr.shape i = rank o shape j →
          position stride a.layout.offset j = position a.layout.stride a.layout.offset i)) := by
  have hsub := subst_self shape a.layout.size
  unfold Tensor.changeShape
  simp only [hsub, ok_bind]
  rw [if_neg (by simp)]
  cases hr : a.layout.reshapeable shape o with
  | error e =>
    obtain ⟨rfl, h⟩ := (C19_error_iff a.layout ha.1 shape o e).1 hr
    exact .inr ⟨rfl, .inl h⟩
  | ok q =>
    cases q with
    | some m => exact .inl ⟨⟨a.data, m⟩, rfl, rfl, reshape_view ha hr⟩
    | none => exact .inr ⟨rfl, .inr fun stride hl => C19_none_needs_copy a.layout shape o hr stride hl⟩

/-- A different number of elements is rejected, except with `copy = true`. -/
theorem C21_reject_unless_copy (a : Tensor α) (ha : a.WF) (shape : List Nat) (o : Order) (copy : Option Bool)
    (hc : copy ≠ some true) (h : a.arr.shape.prod ≠ shape.prod) :
    Tensor.changeShape a (shape.map Int.ofNat) o copy = .error .invalidValue := by
  have hsub := subst_self shape a.layout.size
  unfold Tensor.changeShape
  simp only [hsub, ok_bind]
  rw [if_neg hc, (C19_error_iff a.layout ha.1 shape o .invalidValue).2 ⟨rfl, h⟩]
  rfl

/-- With `copy = true` the number of elements is not checked: six elements are cut down to four, and a
larger shape reads past the end. -/
theorem C21_copy_unchecked :
    ∃ a : Tensor Nat, a.WF ∧ a.arr.shape = [2, 3] ∧
      (Tensor.changeShape a [2, 2] .C (some true)).map Tensor.data = .ok [1, 2, 3, 4] ∧
      Tensor.changeShape a [2, 4] .C (some true) = .error .panic :=
  ⟨⟨[1, 2, 3, 4, 5, 6], ⟨[⟨2, 3⟩, ⟨3, 1⟩], 0⟩⟩, ⟨by decide, by decide⟩, rfl, by decide, by decide⟩

/-! ## C36: in-place map -/

theorem noOverlap_dropStill {axes : List Axis} (h : NoOverlap axes) : NoOverlap (axes.map Layout.dropStill) := by
  obtain ⟨L, h1, h2⟩ := h
  refine ⟨L, ?_, h2⟩
  have : (axes.map Layout.dropStill).filter Axis.ess = axes.filter Axis.ess := by
    clear h1 h2
    induction axes with
    | nil => rfl
    | cons x xs ih =>
      rw [List.map_cons]
      by_cases hx : x.ess = true
      · have : Layout.dropStill x = x := by
          simp only [Axis.ess, Bool.and_eq_true, decide_eq_true_eq] at hx
          have h1 : x.dim ≠ 1 := by omega
          simp [Layout.dropStill, Layout.still, hx.2, h1]
        rw [this, List.filter_cons_of_pos hx, List.filter_cons_of_pos hx, ih]
      · have : (Layout.dropStill x).ess = false := by
          unfold Layout.dropStill
          split
          · rfl
          · simpa using hx
        rw [List.filter_cons_of_neg (by simp [this]), List.filter_cons_of_neg hx, ih]
  rw [this]; exact h1

/-- `mapi(f)`: in place, `f` is applied once to every stored element, also when several indices share a
cell. -/
theorem C36_map_inplace (dflt : Order) (a : Tensor α) (f : α → α) (ha : a.WF) :
    ∃ c, Tensor.mapInplace dflt a f = .ok c ∧ c.WF ∧ c.layout = a.layout ∧ IsMap f a.arr c.arr ∧
      ChangedOnly (Addressed a.layout.stride a.layout.offset a.layout.shape) a.data c.data := by
  obtain ⟨g, p, hg, -, hmem⟩ := greedy_drop_positions (valid_iff.1 ha.fit.valid) .C .C
  have hsub : ∀ j, InRange j g.shape → ∃ i, InRange i a.layout.shape ∧ g.addr j = a.layout.addr i := by
    intro j hj
    obtain ⟨i, hi, e⟩ := List.mem_map.1 ((hmem _).1 (List.mem_map_of_mem (mem_all.2 hj)))
    exact ⟨i, mem_all.1 hi, e.symm⟩
  have hsup : ∀ i, InRange i a.layout.shape → ∃ j, InRange j g.shape ∧ g.addr j = a.layout.addr i := by
    intro i hi
    obtain ⟨j, hj, e⟩ := List.mem_map.1 ((hmem _).2 (List.mem_map_of_mem (mem_all.2 hi)))
    exact ⟨j, mem_all.1 hj, e⟩
  have hoff : g.offset = a.layout.offset := by
    by_cases hs : a.layout.size = 0
    · rw [greedy_zero _ hs] at hg; cases hg; rfl
    · obtain ⟨p', -, h⟩ := greedy_drop hs
      rw [h] at hg; cases hg; rfl
  have hgood : Good g := by
    by_cases hs : a.layout.size = 0
    · rw [greedy_zero _ hs] at hg; cases hg; exact ha.good
    · refine good_of_sub ha.good hsub fun hz _ => ?_
      obtain ⟨p', hp, h⟩ := greedy_drop hs
      rw [h] at hg; cases hg
      exact noOverlap_dropStill ((ha.good.resolve_left hz).2.perm (pick_perm hp))
  obtain ⟨_, _, _, _, hao⟩ := WF_bounds ha
  have hw : (⟨a.data, g⟩ : Tensor α).WF := wf_of_sub ha hgood hsub (hoff ▸ ha.1) (fun _ => hoff ▸ hao)
  obtain ⟨d, e1, e2, e3, e4⟩ := modify1 dflt hw.fit hw.covers f
  refine ⟨⟨d, a.layout⟩, ?_, ha.of_data e2, rfl, ⟨rfl, ?_⟩, changed_of ha.fit e2 ?_⟩
  · unfold Tensor.mapInplace
    simp only [hg, ok_bind, e1]; rfl
  · intro i hi
    have hi : InRange i a.layout.shape := hi
    obtain ⟨x, h1, h2⟩ := ha.get hi
    refine ⟨x, h2, ?_⟩
    rw [elem_pos ha.fit hi]
    obtain ⟨j, hj, e⟩ := hsup i hi
    have hp : g.pos j = a.layout.pos i := by unfold Layout.pos; rw [e]
    have := e3 j hj
    simp only [hp] at this
    rw [this, h1]; rfl
  · intro k hk
    refine e4 k fun j hj e => ?_
    obtain ⟨i, hi, e'⟩ := hsub j hj
    refine hk i hi ?_
    rw [← e]
    show _ = g.pos j
    unfold Layout.pos; rw [e']

/-! ## C56: scalars and vectors -/

/-- `to_scalar` returns the element of a tensor with one element. -/
theorem C56_to_scalar (a : Tensor α) (ha : a.WF) (h : a.arr.shape.prod = 1) :
    ∃ x, Tensor.toScalar a = .ok x ∧ (∃ idx, InRange idx a.arr.shape) ∧
      ∀ idx, InRange idx a.arr.shape → a.arr.elem idx = some x := by
  have h : a.layout.shape.prod = 1 := h
  have hz : 0 ∉ a.layout.shape := fun hz => by rw [prod_eq_zero_of hz] at h; cases h
  have h0 := inRange_zeros fun d hd => Nat.pos_of_ne_zero fun e => hz (e ▸ hd)
  obtain ⟨x, h1, h2⟩ := ha.get h0
  have hone : ∀ i, InRange i a.layout.shape → i = List.replicate a.layout.shape.length 0 := by
    intro i hi
    have h3 := rank_lt (o := .F) hi
    have h4 := rank_lt (o := .F) h0
    exact rank_inj (o := .F) hi h0 (by omega)
  have hp : a.layout.pos (List.replicate a.layout.shape.length 0) = a.layout.offset.toNat := by
    unfold Layout.pos
    rw [addr_eq]
    have e : dot (List.replicate (dims a.layout.axes).length 0) a.layout.axes = 0 := by
      generalize a.layout.axes = axes
      induction axes with
      | nil => rfl
      | cons a as ih => simpa [List.replicate_succ] using ih
    have : a.layout.shape.length = (dims a.layout.axes).length := rfl
    rw [this, e]; simp
  refine ⟨x, ?_, ⟨_, h0⟩, fun i hi => by rw [hone i hi]; exact h2⟩
  unfold Tensor.toScalar
  rw [if_neg (by simpa [Layout.size] using h), if_neg (by have := ha.1; omega), ← hp]
  unfold readAt
  rw [h1]

theorem C56_to_scalar_reject (a : Tensor α) (h : a.arr.shape.prod ≠ 1) :
    Tensor.toScalar a = .error .invalidLayout := if_pos h

/-- `to_vec` returns the elements of a one-dimensional tensor in index order. -/
theorem C56_to_vec (dflt : Order) (a : Tensor α) (ha : a.WF) (n : Nat) (h : a.arr.shape = [n]) :
    ∃ v, Tensor.toVec dflt a = .ok v ∧ v.length = n ∧ ∀ k < n, v[k]? = a.arr.elem [k] := by
  have h : a.layout.shape = [n] := h
  have hs : a.layout.size = n := by simp [Layout.size, h]
  have ht := tight_newC [n]
  have hsz : (Layout.newCContig [n] 0).size = n := by simp [Layout.size, shape_newCContig]
  obtain ⟨c, d, e1, e2, e3, e4⟩ := fresh_same dflt ht ha (by rw [shape_newCContig, h]) (fun x : α => x)
  rw [hsz] at e1 e3
  have e1 : assign dflt (uninit (n : Int)) (Layout.newCContig [n] 0) a.data a.layout some = .ok c := e1
  refine ⟨d, ?_, e3, ?_⟩
  · unfold Tensor.toVec
    have hnd : a.layout.ndim = 1 := by
      have := congrArg List.length h
      simpa [Layout.shape, Layout.ndim] using this
    rw [if_neg (by simp [hnd])]
    simp only [hs, e1, ok_bind, e2]
  · intro k hk
    have hi : InRange [k] [n] := by simp [hk]
    obtain ⟨x, h1, h2⟩ := ha.get (h ▸ hi)
    rw [h2]
    have := e4 [k] (by rw [shape_newCContig]; exact hi) x h1
    have hp : (Layout.newCContig [n] 0).pos [k] = k := by
      unfold Layout.pos
      rw [addr_newCContig (s := [n]) (idx := [k]) rfl]
      simp [rankC]
    rwa [hp] at this

theorem C56_to_vec_reject (dflt : Order) (a : Tensor α) (h : a.arr.shape.length ≠ 1) :
    Tensor.toVec dflt a = .error .invalidLayout ∧ Tensor.intoVec dflt a = .error .invalidLayout := by
  have : a.layout.ndim ≠ 1 := by simpa [Tensor.arr, Layout.shape, Layout.ndim] using h
  exact ⟨by unfold Tensor.toVec; rw [if_pos this], by unfold Tensor.intoVec; rw [if_pos this]⟩

/-- `into_vec` gives the same vector, whether or not it reuses the storage. -/
theorem C56_into_vec (dflt : Order) (a : Tensor α) (ha : a.WF) (n : Nat) (h : a.arr.shape = [n]) :
    ∃ v, Tensor.intoVec dflt a = .ok v ∧ v.length = n ∧ ∀ k < n, v[k]? = a.arr.elem [k] := by
  have hv := C56_to_vec dflt a ha n h
  have h : a.layout.shape = [n] := h
  have hs : a.layout.size = n := by simp [Layout.size, h]
  obtain ⟨mn, mx, hb, -, -⟩ := WF_bounds ha
  have hnd : a.layout.ndim = 1 := by
    have := congrArg List.length h
    simpa [Layout.shape, Layout.ndim] using this
  unfold Tensor.intoVec
  rw [if_neg (by simp [hnd])]
  simp only [hb, ok_bind]
  split
  · rename_i hc
    obtain ⟨c1, c2, c3, c4⟩ := hc
    refine ⟨a.data, rfl, by omega, fun k hk => ?_⟩
    have hi : InRange [k] a.layout.shape := by rw [h]; simp [hk]
    obtain ⟨x, h1, h2⟩ := ha.get hi
    rw [h2, ← h1]
    congr 1
    have hz : 0 ∉ a.layout.shape := by rw [h]; simp; omega
    obtain ⟨y, hy⟩ : ∃ y, a.layout.axes = [y] := List.length_eq_one_iff.1 hnd
    have hyn : y.dim = n := by
      have := h
      unfold Layout.shape at this
      rw [hy] at this
      simpa using this
    have hst : a.layout.stride.getD 0 0 = y.str := by unfold Layout.stride; rw [hy]; rfl
    rw [hst] at c4
    rw [boundsIndex_of_pos hz ha.1, hy] at hb
    split at hb
    · simp only [loSum, hiSum, Except.ok.injEq, Prod.mk.injEq] at hb
      obtain ⟨b1, b2⟩ := hb
      unfold Layout.pos
      rw [addr_eq, hy]
      rw [hyn] at b2
      rw [if_pos c4] at b1 b2
      have e : dot [k] [y] = (k : Int) * y.str := by simp [dot]
      rw [e]
      have hoff : a.layout.offset = 0 := by omega
      rw [hoff] at b2 ⊢
      by_cases hn1 : n = 1
      · have : k = 0 := by omega
        subst this; simp
      · have h1 : (y.str - 1) * ((n : Int) - 1) = 0 := by
          have : y.str * ((n : Int) - 1) + 1 = n := by omega
          rw [Int.sub_mul]; omega
        have h2 : y.str = 1 := by
          rcases Int.mul_eq_zero.1 h1 with h | h <;> omega
        rw [h2]; simp
    · cases hb
  · exact hv

/-! ## Concrete cases -/

example : (Tensor.assignF .C true exView exRow id).map Tensor.data = .ok [0, 10, 20, 30, 10, 20, 30, 7] := by decide
example : (Tensor.fillF .C exView 9).map Tensor.data = .ok [0, 9, 9, 9, 9, 9, 9, 7] := by decide
example := C33_assign_partial .C true exView exRow id exView_wf exRow_wf (by decide) exFits
example := C33_fill .C exView 9 exView_wf (by decide)
example : (Tensor.asarray .C exView .K).map Tensor.data = .ok [4, 5, 6, 1, 2, 3] := by decide
example : (Tensor.asarray .C exView .C).map Tensor.data = .ok [4, 5, 6, 1, 2, 3] := by decide
example : (Tensor.asarray .C exView .F).map Tensor.data = .ok [4, 1, 5, 2, 6, 3] := by decide
example : (Tensor.asarrayOwned .C exView .F).map Tensor.data = .ok [4, 1, 5, 2, 6, 3] := by decide
example : (Tensor.changeLayout .C exView ⟨[⟨3, -1⟩, ⟨2, 3⟩], 2⟩).map Tensor.data = .ok [2, 6, 4, 3, 1, 5] := by decide
example := C35_to_layout_partial .C exView exView_wf ⟨[⟨3, -1⟩, ⟨2, 3⟩], 2⟩ (by decide) (by decide) (by decide) (by decide)
  (fun mn mx h k hk => by
    have : mx = 6 := by
      have e : (⟨[⟨3, -1⟩, ⟨2, 3⟩], 2⟩ : Layout).boundsIndex = .ok (0, 6) := by decide
      rw [e] at h; cases h; rfl
    subst this
    match k, hk with
    | 0, _ => exact ⟨[2, 0], by decide, by decide⟩
    | 1, _ => exact ⟨[1, 0], by decide, by decide⟩
    | 2, _ => exact ⟨[0, 0], by decide, by decide⟩
    | 3, _ => exact ⟨[2, 1], by decide, by decide⟩
    | 4, _ => exact ⟨[1, 1], by decide, by decide⟩
    | 5, _ => exact ⟨[0, 1], by decide, by decide⟩
    | (n + 6), h => omega)
example : (Tensor.changeContig .C exView .F).map Tensor.data = .ok [4, 1, 5, 2, 6, 3] := by decide
example : (Tensor.intoOwned .C exView).map Tensor.data = .ok [4, 5, 6, 1, 2, 3] := by decide
example : (Tensor.changeShape exView [3, 2] .C none).map Tensor.data = .ok [4, 5, 6, 1, 2, 3] := by decide
example : (Tensor.changeShape exView [3, -1] .F none).map Tensor.data = .ok [4, 1, 5, 2, 6, 3] := by decide
example : (Tensor.changeShape exView [2, 1, 3] .C (some false)).map Tensor.data = .ok exView.data := by decide
example : Tensor.changeShape exView [3, 2] .C (some false) = .error .invalidValue := by decide
example := C21_reshape exView exView_wf [3, 2] .C none (by decide) (by decide)
example := C21_reshape exView exView_wf [6] .F (some true) (by decide) (by decide)
example : (Tensor.mapInplace .C exView (· * 2)).map Tensor.data = .ok [0, 2, 4, 6, 8, 10, 12, 7] := by decide
example : (Tensor.mapInplace .C ⟨[5, 6], ⟨[⟨3, 0⟩, ⟨2, 1⟩], 0⟩⟩ (· * 2)).map Tensor.data = .ok [10, 12] := by decide
example : Tensor.toScalar (⟨[5, 6], ⟨[⟨1, 9⟩, ⟨1, -4⟩], 1⟩⟩ : Tensor Nat) = .ok 6 := by decide
example : Tensor.toVec .C (⟨[5, 6, 7, 8, 9], ⟨[⟨3, -2⟩], 4⟩⟩ : Tensor Nat) = .ok [9, 7, 5] := by decide
example : Tensor.intoVec .C (⟨[5, 6, 7], ⟨[⟨3, 1⟩], 0⟩⟩ : Tensor Nat) = .ok [5, 6, 7] := by decide
example : Tensor.intoVec .C (⟨[5, 6, 7], ⟨[⟨3, -1⟩], 2⟩⟩ : Tensor Nat) = .ok [7, 6, 5] := by decide

end
end Rstsr
