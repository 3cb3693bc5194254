import Verif.Proof.BroadcastSame
/-!
# Theorems on element-wise operations (C30, C31, C32, C33, C36)

`Tensor.WF` says that the checked constructor accepts the tensor; the specifications `IsMap`, `IsMap2`,
`ChangedOnly` and `Addressed` are in `Spec/Tensor.lean`.
-/
namespace Rstsr
open Spec

section
variable {α β γ : Type}

/-! ## C31: output buffers -/

/-- The output layout of a binary operation has the common shape, passes the checks, needs a buffer of
`n` cells, every index lies in the buffer and every cell of the buffer belongs to an index. -/
theorem C31_output_layout (la lb : Layout) (o : Order) (hs : la.shape = lb.shape) :
    ∃ m n, Layout.forBinaryOp la lb o = .ok m ∧ m.shape = la.shape ∧ m.Valid ∧ m.boundsIndex = .ok (0, (n : Nat)) ∧
      (∀ idx, InRange idx la.shape → 0 ≤ position m.stride m.offset idx ∧ position m.stride m.offset idx < (n : Nat)) ∧
      ∀ k, k < n → Addressed m.stride m.offset m.shape k := by
  obtain ⟨m, h1, h2, h3, _⟩ := forBinaryOp_spec hs o
  obtain ⟨hv, n, hb, hlt, hsur⟩ := h3.spec
  have hf := h3.fit h2
  refine ⟨m, n, h1, h2, hv, hb, ?_, ?_⟩
  · intro idx hi
    have h0 := hf.nonneg idx hi
    have := hlt idx (h2 ▸ hi)
    unfold Layout.pos at this
    have e : position m.stride m.offset idx = m.addr idx := rfl
    rw [e]
    omega
  · intro k hk
    obtain ⟨idx, hi, e⟩ := hsur k hk
    have h0 := hf.nonneg idx (h2 ▸ hi)
    refine ⟨idx, hi, ?_⟩
    have e' : position m.stride m.offset idx = m.addr idx := rfl
    unfold Layout.pos at e
    rw [e']
    omega

/-- After the kernel has run on the uninitialised buffer every cell of it is initialised. -/
theorem C31_all_written (dflt : Order) (a : Tensor α) (b : Tensor β) (ha : a.WF) (hb : b.WF) (f : α → β → γ)
    (la lb : Layout) (h : a.layout.broadcast b.layout dflt = .ok (la, lb)) :
    ∃ m n c, Layout.forBinaryOp la lb dflt = .ok m ∧ m.boundsIndex = .ok (0, (n : Nat)) ∧
      opMutcRefaRefb dflt (uninit (n : Nat)) m a.data la b.data lb (fun _ x y => some (f x y)) = .ok c ∧
      c.length = n ∧ ∀ x ∈ c, ∃ v, x = some v := by
  obtain ⟨-, fa, fb, ca, cb, ga, gb⟩ := bc_facts ha hb h
  obtain ⟨m, h1, h2, h3, h4⟩ := forBinaryOp_spec (fa.shape.trans fb.shape.symm) dflt
  obtain ⟨hv, n, hbn, hlt, hsur⟩ := h3.spec
  have hlen : (uninit (n : Nat) : List (Option γ)).length = n := by simp [uninit]
  have hcov : Covers la.shape m (uninit (n : Nat) : List (Option γ)) := fun i hi => by
    rw [hlen]; exact hlt i (h2 ▸ hi)
  obtain ⟨c, e1, e2, e3, -⟩ := write3 dflt (h3.fit h2) fa fb hcov ca cb h4 fun x y => some (f x y)
  refine ⟨m, n, c, h1, hbn, e1, by rw [e2, hlen], ?_⟩
  intro x hx
  obtain ⟨k, hk, rfl⟩ := List.mem_iff_getElem.1 hx
  rw [e2, hlen] at hk
  obtain ⟨i, hi, rfl⟩ := hsur k hk
  obtain ⟨u, hu, _⟩ := ga i (h2 ▸ hi)
  obtain ⟨v, hv, _⟩ := gb i (h2 ▸ hi)
  have := e3 i (h2 ▸ hi) u v hu hv
  rw [List.getElem?_eq_some_iff] at this
  obtain ⟨_, e⟩ := this
  exact ⟨_, e⟩

example : Layout.forBinaryOp ⟨[⟨2, 3⟩, ⟨3, 1⟩, ⟨1, 9⟩], 0⟩ ⟨[⟨2, 0⟩, ⟨3, 1⟩, ⟨1, 0⟩], 4⟩ .C =
    .ok ⟨[⟨2, 3⟩, ⟨3, 1⟩, ⟨1, 1⟩], 0⟩ := by decide
example : Layout.forBinaryOp ⟨[⟨2, 1⟩, ⟨3, 0⟩], 0⟩ ⟨[⟨2, 1⟩, ⟨3, 0⟩], 4⟩ .C = .ok ⟨[⟨2, 1⟩, ⟨3, 0⟩], 0⟩ := by decide

/-! ## C30: binary operations -/

theorem binary_of_layout (dflt : Order) {a : Tensor α} {b : Tensor β} (ha : a.WF) (hb : b.WF) (f : α → β → γ)
    {la lb lc : Layout} (h : a.layout.broadcast b.layout dflt = .ok (la, lb)) (hd : Dense lc)
    (hs : lc.shape = la.shape)
    (hag : ∀ i j, InRange i la.shape → InRange j la.shape → lc.pos i = lc.pos j → la.pos i = la.pos j ∧ lb.pos i = lb.pos j) :
    ∃ c, Tensor.build lc (fun c => opMutcRefaRefb dflt c lc a.data la b.data lb fun _ x y => some (f x y)) = .ok c ∧
      c.WF ∧ IsMap2 dflt f a.arr b.arr c.arr := by
  obtain ⟨hbc, fa, fb, ca, cb, ga, gb⟩ := bc_facts ha hb h
  obtain ⟨t, e1, e2, e3, e4⟩ := build_ok hd
    (fun c => opMutcRefaRefb dflt c lc a.data la b.data lb fun _ x y => some (f x y))
    (fun i v => ∃ x y, a.data[la.pos i]? = some x ∧ b.data[lb.pos i]? = some y ∧ v = f x y)
    (fun i hi => by
      obtain ⟨x, hx, _⟩ := ga i (hs ▸ hi)
      obtain ⟨y, hy, _⟩ := gb i (hs ▸ hi)
      exact ⟨f x y, x, y, hx, hy, rfl⟩)
    (fun c hc => by
      obtain ⟨c', k1, k2, k3, -⟩ := write3 dflt (hd.fit hs) fa fb (hs ▸ hc) ca cb hag fun x y => some (f x y)
      refine ⟨c', k1, k2, ?_⟩
      rintro i hi v ⟨x, y, hx, hy, rfl⟩
      exact k3 i (hs ▸ hi) x y hx hy)
  refine ⟨t, e1, e3, ?_, ?_⟩
  · show BroadcastOf dflt a.layout.shape b.layout.shape t.layout.shape
    rw [e2, hs]; exact hbc
  · intro idx hi
    have hi' : InRange idx la.shape := by
      have : t.arr.shape = la.shape := by show t.layout.shape = _; rw [e2, hs]
      rwa [this] at hi
    obtain ⟨x, hx, hx'⟩ := ga idx hi'
    obtain ⟨y, hy, hy'⟩ := gb idx hi'
    exact ⟨x, y, hx', hy', e4 idx (hs ▸ hi') _ ⟨x, y, hx, hy, rfl⟩⟩

/-- `&a op &b` (and `map_binary`, `op_refa_refb_func`): compatible operands give the broadcast shape with
`f` at every index; the result is again a well-formed tensor. -/
theorem C30_binary (dflt : Order) (a : Tensor α) (b : Tensor β) (f : α → β → γ) (ha : a.WF) (hb : b.WF)
    (hc : Compatible dflt a.arr.shape b.arr.shape) :
    ∃ c, Tensor.binary dflt a b f = .ok c ∧ c.WF ∧ IsMap2 dflt f a.arr b.arr c.arr := by
  obtain ⟨⟨la, lb⟩, h⟩ := (C17_accept_iff a.layout b.layout dflt).2 hc
  obtain ⟨-, fa, fb, -⟩ := bc_facts ha hb h
  obtain ⟨m, h1, h2, h3, h4⟩ := forBinaryOp_spec (fa.shape.trans fb.shape.symm) dflt
  obtain ⟨c, e1, e2⟩ := binary_of_layout dflt ha hb f h h3 h2 h4
  refine ⟨c, ?_, e2⟩
  unfold Tensor.binary
  simp only [h, ok_bind, h1]
  exact e1

theorem C30_reject (dflt : Order) (a : Tensor α) (b : Tensor β) (f : α → β → γ)
    (hc : ¬ Compatible dflt a.arr.shape b.arr.shape) : Tensor.binary dflt a b f = .error .invalidLayout := by
  have h := C17_reject a.layout b.layout dflt hc
  unfold Tensor.binary
  rw [h]; rfl

/-- A dense layout without zero strides stores different indices in different cells. -/
theorem dense_inj {l : Layout} (h : Dense l) (hs : 0 ∉ l.shape → ∀ x ∈ l.axes, x.str ≠ 0) {i j : List Nat}
    (hi : InRange i l.shape) (hj : InRange j l.shape) (e : l.pos i = l.pos j) : i = j := by
  refine pos_inj (h.fit rfl) ?_ hi hj e
  have hz : 0 ∉ l.shape := fun hz => absurd (hi.pos 0 hz) (by simp)
  unfold Layout.isBroadcasted
  by_contra hc
  simp only [Bool.not_eq_false, List.contains_iff_mem, Layout.stride] at hc
  obtain ⟨x, hx, e⟩ := List.mem_map.1 hc
  exact hs hz x hx e

theorem newCContig_nonzero (s : List Nat) (hz : 0 ∉ s) (x : Axis) (hx : x ∈ (Layout.newCContig s 0).axes) :
    x.str ≠ 0 := by
  obtain ⟨m, e, -, -, h⟩ := forArrayCopy_spec .C (l := Layout.newCContig s 0) (dense_newCContig s).spec.1 .C (by simp)
  simp only [Layout.forArrayCopy, shape_newCContig] at e
  cases e
  exact h (by rwa [shape_newCContig]) x hx

theorem newFContig_nonzero (s : List Nat) (hz : 0 ∉ s) (x : Axis) (hx : x ∈ (Layout.newFContig s 0).axes) :
    x.str ≠ 0 := by
  obtain ⟨m, e, -, -, h⟩ := forArrayCopy_spec .C (l := Layout.newFContig s 0) (dense_newFContig s).spec.1 .F (by simp)
  simp only [Layout.forArrayCopy, shape_newFContig] at e
  cases e
  exact h (by rwa [shape_newFContig]) x hx

/-- `maximum`, `equal`, `pow`, …: the operations that choose the output layout by the copy rule. -/
theorem C30_binary_common (dflt : Order) (a : Tensor α) (b : Tensor β) (f : α → β → γ) (ha : a.WF) (hb : b.WF)
    (hc : Compatible dflt a.arr.shape b.arr.shape) :
    ∃ c, Tensor.binaryCommon dflt a b f = .ok c ∧ c.WF ∧ IsMap2 dflt f a.arr b.arr c.arr := by
  obtain ⟨⟨la, lb⟩, h⟩ := (C17_accept_iff a.layout b.layout dflt).2 hc
  obtain ⟨-, fa, fb, -⟩ := bc_facts ha hb h
  obtain ⟨ma, a1, a2, a3, a4⟩ := forArrayCopy_spec dflt fa.valid .K (by simp)
  obtain ⟨mb, b1, b2, b3, b4⟩ := forArrayCopy_spec dflt fb.valid .K (by simp)
  unfold Tensor.binaryCommon
  simp only [h, ok_bind, a1, b1]
  have key : ∀ lc : Layout, Dense lc → lc.shape = la.shape → (0 ∉ lc.shape → ∀ x ∈ lc.axes, x.str ≠ 0) →
      ∃ c, Tensor.build lc (fun c => opMutcRefaRefb dflt c lc a.data la b.data lb fun _ x y => some (f x y)) = .ok c ∧
        c.WF ∧ IsMap2 dflt f a.arr b.arr c.arr := by
    intro lc hd hs hn
    refine binary_of_layout dflt ha hb f h hd hs fun i j hi hj e => ?_
    have := dense_inj hd hn (hs ▸ hi) (hs ▸ hj) e
    subst this
    exact ⟨rfl, rfl⟩
  split
  · exact key ma a3 a2 fun hz => a4 (a2 ▸ hz)
  · cases dflt
    · exact key _ (dense_newCContig _) (shape_newCContig _ _) (fun hz => newCContig_nonzero la.shape (by rwa [shape_newCContig] at hz))
    · exact key _ (dense_newFContig _) (shape_newFContig _ _) (fun hz => newFContig_nonzero la.shape (by rwa [shape_newFContig] at hz))

theorem C30_reject_common (dflt : Order) (a : Tensor α) (b : Tensor β) (f : α → β → γ)
    (hc : ¬ Compatible dflt a.arr.shape b.arr.shape) : Tensor.binaryCommon dflt a b f = .error .invalidLayout := by
  have h := C17_reject a.layout b.layout dflt hc
  unfold Tensor.binaryCommon
  rw [h]; rfl

/-- The in-place kernel on a destination that the second operand can be stretched to. -/
theorem inplace2 (dflt : Order) {a : Tensor α} {b : Tensor β} (ha : a.WF) (hb : b.WF)
    (hz : a.layout.isBroadcasted = false) (f : α → β → α) {lb : Layout}
    (h : a.layout.broadcast b.layout dflt = .ok (a.layout, lb)) :
    ∃ d, opMutaRefb dflt a.data a.layout b.data lb f = .ok d ∧ (⟨d, a.layout⟩ : Tensor α).WF ∧
      IsMap2 dflt f a.arr b.arr (⟨d, a.layout⟩ : Tensor α).arr ∧
      ChangedOnly (Addressed a.layout.stride a.layout.offset a.layout.shape) a.data d := by
  obtain ⟨hbc, fa, fb, ca, cb, ga, gb⟩ := bc_facts ha hb h
  obtain ⟨d, e1, e2, e3, e4⟩ := modify2 dflt fa fb ca cb (fun i j hi hj e => pos_inj fa hz hi hj e) f
  refine ⟨d, e1, ha.of_data e2, ⟨hbc, ?_⟩, e2, ?_⟩
  · intro idx hi
    have hi : InRange idx a.layout.shape := hi
    obtain ⟨x, hx, hx'⟩ := ga idx hi
    obtain ⟨y, hy, hy'⟩ := gb idx hi
    refine ⟨x, y, hx', hy', ?_⟩
    show element _ _ _ _ = _
    rw [element_eq (fa.nonneg idx hi)]
    exact e3 idx hi x y hx hy
  · intro k hk
    refine e4 k fun i hi e => hk ⟨i, hi, ?_⟩
    have h0 := fa.nonneg i hi
    show a.layout.addr i = _
    unfold Layout.pos at e
    omega

theorem isMap2_swap {o : Order} {f : α → β → γ} {A : Arr α} {B : Arr β} {C : Arr γ}
    (h : IsMap2 o (fun y x => f x y) B A C) : IsMap2 o f A B C :=
  ⟨broadcastOf_comm h.1, fun idx hi => by
    obtain ⟨y, x, hy, hx, hc⟩ := h.2 idx hi
    exact ⟨x, y, hx, hy, hc⟩⟩

/-- `a op &b` with owned `a`: same result, whether or not the storage of `a` is reused. -/
theorem C30_binary_consume_left (dflt : Order) (a : Tensor α) (b : Tensor β) (f : α → β → α) (ha : a.WF) (hb : b.WF)
    (hc : Compatible dflt a.arr.shape b.arr.shape) :
    ∃ c, Tensor.binaryConsumeL dflt a b f = .ok c ∧ c.WF ∧ IsMap2 dflt f a.arr b.arr c.arr := by
  unfold Tensor.binaryConsumeL
  split
  · exact C30_binary dflt a b f ha hb hc
  · rename_i hz
    obtain ⟨⟨la, lb⟩, h⟩ := (C17_accept_iff a.layout b.layout dflt).2 hc
    rw [show a.layout.broadcastToFirst b.layout dflt = _ from h]
    dsimp only
    split
    · exact C30_binary dflt a b f ha hb hc
    · rename_i hq
      have := (beq_broadcast h).1 (by simpa using hq)
      subst this
      obtain ⟨d, e1, e2, e3, -⟩ := inplace2 dflt ha hb (by simpa using hz) f h
      exact ⟨⟨d, a.layout⟩, by rw [e1]; rfl, e2, e3⟩

/-- `&a op b` with owned `b`. -/
theorem C30_binary_consume_right (dflt : Order) (a : Tensor α) (b : Tensor β) (f : α → β → β) (ha : a.WF) (hb : b.WF)
    (hc : Compatible dflt a.arr.shape b.arr.shape) :
    ∃ c, Tensor.binaryConsumeR dflt a b f = .ok c ∧ c.WF ∧ IsMap2 dflt f a.arr b.arr c.arr := by
  unfold Tensor.binaryConsumeR
  split
  · exact C30_binary dflt a b f ha hb hc
  · rename_i hz
    have hc' : Compatible dflt b.layout.shape a.layout.shape := by
      obtain ⟨s, hs⟩ := (C16_accept_iff _ _ _).2 hc
      exact compatible_of (broadcastOf_comm ((C16_shape_iff _ _ _ _).1 hs))
    obtain ⟨⟨lb, la⟩, h⟩ := (C17_accept_iff b.layout a.layout dflt).2 hc'
    rw [show b.layout.broadcastToFirst a.layout dflt = _ from h]
    dsimp only
    split
    · exact C30_binary dflt a b f ha hb hc
    · rename_i hq
      have := (beq_broadcast h).1 (by simpa using hq)
      subst this
      obtain ⟨d, e1, e2, e3, -⟩ := inplace2 dflt hb ha (by simpa using hz) (fun y x => f x y) h
      exact ⟨⟨d, b.layout⟩, by rw [e1]; rfl, e2, isMap2_swap e3⟩

/-- `a op b`, both owned. -/
theorem C30_binary_consume (dflt : Order) (a b : Tensor α) (f : α → α → α) (ha : a.WF) (hb : b.WF)
    (hc : Compatible dflt a.arr.shape b.arr.shape) :
    ∃ c, Tensor.binaryConsume dflt a b f = .ok c ∧ c.WF ∧ IsMap2 dflt f a.arr b.arr c.arr := by
  unfold Tensor.binaryConsume
  dsimp only
  split
  · exact C30_binary_consume_left dflt a b f ha hb hc
  · split
    · exact C30_binary_consume_right dflt a b f ha hb hc
    · exact C30_binary dflt a b f ha hb hc

theorem C30_reject_consume (dflt : Order) (a b : Tensor α) (f : α → α → α)
    (hc : ¬ Compatible dflt a.arr.shape b.arr.shape) :
    Tensor.binaryConsumeL dflt a b f = .error .invalidLayout ∧
    Tensor.binaryConsumeR dflt a b f = .error .invalidLayout ∧
    Tensor.binaryConsume dflt a b f = .error .invalidLayout := by
  have h1 : a.layout.broadcastToFirst b.layout dflt = .error .invalidLayout := C17_reject a.layout b.layout dflt hc
  have h2 : b.layout.broadcastToFirst a.layout dflt = .error .invalidLayout := by
    apply C17_reject
    intro hc'
    obtain ⟨s, hs⟩ := (C16_accept_iff _ _ _).2 hc'
    exact hc (compatible_of (broadcastOf_comm ((C16_shape_iff _ _ _ _).1 hs)))
  have h3 := C30_reject dflt a b f hc
  refine ⟨?_, ?_, ?_⟩
  · unfold Tensor.binaryConsumeL; rw [h1]; simp [h3]
  · unfold Tensor.binaryConsumeR; rw [h2]; simp [h3]
  · unfold Tensor.binaryConsume; simp [h1, h2, h3]

/-- `op_with_output(&a, &b, &mut c)`: writes `f` at every index of `c` and nothing else. -/
theorem C30_binary_output (dflt : Order) (c : Tensor γ) (a : Tensor α) (b : Tensor β) (f : α → β → γ)
    (hc : c.WF) (ha : a.WF) (hb : b.WF) (hz : (0 : Int) ∉ c.layout.stride)
    (h1 : BroadcastOf dflt c.arr.shape a.arr.shape c.arr.shape) (h2 : BroadcastOf dflt c.arr.shape b.arr.shape c.arr.shape) :
    ∃ r, Tensor.binaryOutput dflt c a b f = .ok r ∧ r.WF ∧ r.layout = c.layout ∧
      ChangedOnly (Addressed c.layout.stride c.layout.offset c.layout.shape) c.data r.data ∧
      ∀ idx, InRange idx c.arr.shape → ∃ x y, a.arr.elem (stretchIndex dflt a.arr.shape idx) = some x ∧
        b.arr.elem (stretchIndex dflt b.arr.shape idx) = some y ∧ r.arr.elem idx = some (f x y) := by
  obtain ⟨la, g1⟩ := toFirst_ok (l1 := c.layout) (l2 := a.layout) h1
  obtain ⟨lb, g2⟩ := toFirst_ok (l1 := c.layout) (l2 := b.layout) h2
  obtain ⟨-, fc, fa, cc, ca, -, ga⟩ := bc_facts hc ha g1
  obtain ⟨-, -, fb, -, cb, -, gb⟩ := bc_facts hc hb g2
  have hz' : c.layout.isBroadcasted = false := by
    unfold Layout.isBroadcasted; simpa using hz
  obtain ⟨d, e1, e2, e3, e4⟩ := write3 dflt fc fa fb cc ca cb (fun i j hi hj e => by
    have := pos_inj fc hz' hi hj e; subst this; exact ⟨rfl, rfl⟩) f
  refine ⟨⟨d, c.layout⟩, ?_, hc.of_data e2, rfl, ⟨e2, ?_⟩, ?_⟩
  · unfold Tensor.binaryOutput
    simp only [g1, g2, ok_bind, beqLayout_refl, e1]
    rfl
  · intro k hk
    refine e4 k fun i hi e => hk ⟨i, hi, ?_⟩
    have h0 := fc.nonneg i hi
    show c.layout.addr i = _
    unfold Layout.pos at e
    omega
  · intro idx hi
    obtain ⟨x, hx, hx'⟩ := ga idx hi
    obtain ⟨y, hy, hy'⟩ := gb idx hi
    refine ⟨x, y, hx', hy', ?_⟩
    show element _ _ _ _ = _
    rw [element_eq (fc.nonneg idx hi)]
    exact e3 idx hi x y hx hy

theorem C30_output_reject (dflt : Order) (c : Tensor γ) (a : Tensor α) (b : Tensor β) (f : α → β → γ)
    (h : ¬ (BroadcastOf dflt c.arr.shape a.arr.shape c.arr.shape ∧ BroadcastOf dflt c.arr.shape b.arr.shape c.arr.shape)) :
    Tensor.binaryOutput dflt c a b f = .error .invalidLayout := by
  unfold Tensor.binaryOutput
  by_cases h1 : BroadcastOf dflt c.arr.shape a.arr.shape c.arr.shape
  · have h2 : ¬ BroadcastOf dflt c.layout.shape b.layout.shape c.layout.shape := fun h2 => h ⟨h1, h2⟩
    obtain ⟨la, g1⟩ := toFirst_ok (l1 := c.layout) (l2 := a.layout) h1
    simp only [g1, ok_bind, beqLayout_refl]
    rcases toFirst_no h2 with e | ⟨m1, m2, e, hq⟩
    · rw [e]; rfl
    · rw [e]; simp [hq]
  · rcases toFirst_no (l1 := c.layout) (l2 := a.layout) h1 with e | ⟨m1, m2, e, hq⟩
    · rw [e]; rfl
    · rw [e]; simp [hq]

/-- Everything that builds a copy-layout tensor from one operand. -/
theorem build_map (dflt : Order) {a : Tensor α} (ha : a.WF) (f : α → γ) :
    ∃ c, Tensor.map dflt a f = .ok c ∧ c.WF ∧ IsMap f a.arr c.arr := by
  obtain ⟨m, h1, h2, h3, h4⟩ := forArrayCopy_spec dflt ha.fit.valid .K (by simp)
  have hn : 0 ∉ m.shape → ∀ x ∈ m.axes, x.str ≠ 0 := fun hz => h4 (h2 ▸ hz)
  obtain ⟨t, e1, e2, e3, e4⟩ := build_ok h3
    (fun c => opMutaRefb dflt c m a.data a.layout fun _ x => some (f x))
    (fun i v => ∃ x, a.data[a.layout.pos i]? = some x ∧ v = f x)
    (fun i hi => by
      obtain ⟨x, hx, _⟩ := ha.get (h2 ▸ hi)
      exact ⟨f x, x, hx, rfl⟩)
    (fun c hc => by
      obtain ⟨c', k1, k2, k3, -⟩ := write2 dflt (h3.fit h2) ha.fit (h2 ▸ hc) ha.covers
        (fun i j hi hj e => by
          have := dense_inj h3 hn (h2 ▸ hi) (h2 ▸ hj) e
          subst this; rfl) fun x => some (f x)
      refine ⟨c', k1, k2, ?_⟩
      rintro i hi v ⟨x, hx, rfl⟩
      exact k3 i (h2 ▸ hi) x hx)
  refine ⟨t, ?_, e3, ?_, ?_⟩
  · unfold Tensor.map
    rw [h1]; exact e1
  · show t.layout.shape = _
    rw [e2]; exact h2
  · intro idx hi
    obtain ⟨x, hx, hx'⟩ := ha.get hi
    exact ⟨x, hx', e4 idx (by rw [h2]; exact hi) _ ⟨x, hx, rfl⟩⟩

/-- `&a op number`. -/
theorem C30_number_right (dflt : Order) (a : Tensor α) (b : β) (f : α → β → γ) (ha : a.WF) :
    ∃ c, Tensor.binaryNumB dflt a b f = .ok c ∧ c.WF ∧ IsMap (fun x => f x b) a.arr c.arr :=
  build_map dflt ha fun x => f x b

/-- `number op &b`. -/
theorem C30_number_left (dflt : Order) (a : α) (b : Tensor β) (f : α → β → γ) (hb : b.WF) :
    ∃ c, Tensor.binaryNumA dflt a b f = .ok c ∧ c.WF ∧ IsMap (fun y => f a y) b.arr c.arr :=
  build_map dflt hb fun y => f a y

/-! ## C36: unary maps -/

/-- `map`, `&a.sin()`, … -/
theorem C36_map (dflt : Order) (a : Tensor α) (f : α → γ) (ha : a.WF) :
    ∃ c, Tensor.map dflt a f = .ok c ∧ c.WF ∧ IsMap f a.arr c.arr := build_map dflt ha f

theorem inplace1 (dflt : Order) {a : Tensor α} (ha : a.WF) (f : α → α) :
    ∃ d, opMuta dflt a.data a.layout f = .ok d ∧ (⟨d, a.layout⟩ : Tensor α).WF ∧
      IsMap f a.arr (⟨d, a.layout⟩ : Tensor α).arr ∧
      ChangedOnly (Addressed a.layout.stride a.layout.offset a.layout.shape) a.data d := by
  obtain ⟨d, e1, e2, e3, e4⟩ := modify1 dflt ha.fit ha.covers f
  refine ⟨d, e1, ha.of_data e2, ⟨rfl, ?_⟩, e2, ?_⟩
  · intro idx hi
    have hi : InRange idx a.layout.shape := hi
    obtain ⟨x, hx, hx'⟩ := ha.get hi
    refine ⟨x, hx', ?_⟩
    show element _ _ _ _ = _
    rw [element_eq (ha.fit.nonneg idx hi)]
    show d[a.layout.pos idx]? = _
    rw [e3 idx hi, hx]; rfl
  · intro k hk
    refine e4 k fun i hi e => hk ⟨i, hi, ?_⟩
    have h0 := ha.fit.nonneg i hi
    show a.layout.addr i = _
    unfold Layout.pos at e
    omega

/-- Owned argument (`a.sin()`): in place, `f` is applied once to every stored element, also when
several indices share a cell. -/
theorem C36_unary_consume (dflt : Order) (a : Tensor α) (f : α → α) (ha : a.WF) :
    ∃ c, Tensor.unaryConsume dflt a f = .ok c ∧ c.WF ∧ c.layout = a.layout ∧ IsMap f a.arr c.arr ∧
      ChangedOnly (Addressed a.layout.stride a.layout.offset a.layout.shape) a.data c.data := by
  obtain ⟨d, e1, e2, e3, e4⟩ := inplace1 dflt ha f
  exact ⟨⟨d, a.layout⟩, by unfold Tensor.unaryConsume; rw [e1]; rfl, e2, rfl, e3, e4⟩

/-! ## C32: in-place binary operations -/

/-- `a op= number` and `a op number` with owned `a`. -/
theorem C32_assign_number (dflt : Order) (a : Tensor α) (b : β) (f : α → β → α) (ha : a.WF) :
    ∃ c, Tensor.assignNum dflt a b f = .ok c ∧ c.WF ∧ c.layout = a.layout ∧ IsMap (fun x => f x b) a.arr c.arr ∧
      ChangedOnly (Addressed a.layout.stride a.layout.offset a.layout.shape) a.data c.data := by
  obtain ⟨d, e1, e2, e3, e4⟩ := inplace1 dflt ha fun x => f x b
  exact ⟨⟨d, a.layout⟩, by unfold Tensor.assignNum; simp only [opMutaNumb, e1]; rfl, e2, rfl, e3, e4⟩

/-- `a op= &b`: `b` can be stretched to the shape of `a`, no axis of `a` has stride 0. -/
theorem C32_assign_op (dflt : Order) (a : Tensor α) (b : Tensor β) (f : α → β → α) (ha : a.WF) (hb : b.WF)
    (hz : (0 : Int) ∉ a.layout.stride) (h : BroadcastOf dflt a.arr.shape b.arr.shape a.arr.shape) :
    ∃ c, Tensor.assignOp dflt a b f = .ok c ∧ c.WF ∧ c.layout = a.layout ∧ IsMap2 dflt f a.arr b.arr c.arr ∧
      ChangedOnly (Addressed a.layout.stride a.layout.offset a.layout.shape) a.data c.data := by
  obtain ⟨lb, g⟩ := toFirst_ok (l1 := a.layout) (l2 := b.layout) h
  have hz' : a.layout.isBroadcasted = false := by
    unfold Layout.isBroadcasted; simpa using hz
  obtain ⟨d, e1, e2, e3, e4⟩ := inplace2 dflt ha hb hz' f g
  refine ⟨⟨d, a.layout⟩, ?_, e2, rfl, e3, e4⟩
  unfold Tensor.assignOp
  simp only [g, ok_bind, beqLayout_refl, e1]
  rfl

/-- If `b` cannot be stretched to `a`, the operation fails before any cell is written. -/
theorem C32_assign_op_reject (dflt : Order) (a : Tensor α) (b : Tensor β) (f : α → β → α)
    (h : ¬ BroadcastOf dflt a.arr.shape b.arr.shape a.arr.shape) :
    Tensor.assignOp dflt a b f = .error .invalidLayout := by
  unfold Tensor.assignOp
  rcases toFirst_no (l1 := a.layout) (l2 := b.layout) h with e | ⟨m1, m2, e, hq⟩
  · rw [e]; rfl
  · rw [e]; simp [hq]

/-- With a stride-0 destination the operation is accepted, and applied once per index to the shared cell. -/
theorem C32_zero_stride_destination :
    ∃ a b : Tensor Nat, a.WF ∧ b.WF ∧ (Tensor.assignOp .C a b (· + ·)).map Tensor.data = .ok [8] :=
  ⟨⟨[1], ⟨[⟨2, 0⟩], 0⟩⟩, ⟨[3, 4], ⟨[⟨2, 1⟩], 0⟩⟩, ⟨by decide, by decide⟩, ⟨by decide, by decide⟩, by decide⟩

/-! ## Concrete cases -/

/-- A 2×3 view with negative row stride at offset 4 of an eight-cell buffer, a row and a column. -/
def exView : Tensor Nat := ⟨[0, 1, 2, 3, 4, 5, 6, 7], ⟨[⟨2, -3⟩, ⟨3, 1⟩], 4⟩⟩
def exRow : Tensor Nat := ⟨[10, 20, 30], ⟨[⟨3, 1⟩], 0⟩⟩
def exCol : Tensor Nat := ⟨[100, 0, 200], ⟨[⟨2, 2⟩, ⟨1, 7⟩], 0⟩⟩

theorem exView_wf : exView.WF := ⟨by decide, by decide⟩
theorem exRow_wf : exRow.WF := ⟨by decide, by decide⟩
theorem exCol_wf : exCol.WF := ⟨by decide, by decide⟩

theorem exCompat : Compatible .C exView.arr.shape exRow.arr.shape := by rw [← C16_accept_iff]; exact ⟨[2, 3], by decide⟩
theorem exFits : BroadcastOf .C exView.arr.shape exRow.arr.shape exView.arr.shape := by rw [← C16_shape_iff]; decide

example : (Tensor.binary .C exView exRow (· + ·)).map Tensor.data = .ok [14, 25, 36, 11, 22, 33] := by decide
example : (Tensor.binary .C exCol exRow (· + ·)).map Tensor.data = .ok [110, 120, 130, 210, 220, 230] := by decide
example : (Tensor.binaryConsumeL .C exView exRow (· + ·)).map Tensor.data = .ok [0, 11, 22, 33, 14, 25, 36, 7] := by decide
example : (Tensor.binaryConsumeR .C exRow exView (· - ·)).map Tensor.data = .ok [0, 9, 18, 27, 6, 15, 24, 7] := by decide
example : (Tensor.binaryConsume .C exRow exView (· - ·)).map Tensor.data = .ok [0, 9, 18, 27, 6, 15, 24, 7] := by decide
example : (Tensor.assignOp .C exView exRow (· + ·)).map Tensor.data = .ok [0, 11, 22, 33, 14, 25, 36, 7] := by decide
example : (Tensor.binaryOutput .C exView exCol exRow (· + ·)).map Tensor.data =
    .ok [0, 210, 220, 230, 110, 120, 130, 7] := by decide
example : Tensor.assignOp .C exRow exView (· + ·) = .error .invalidLayout := by decide
example : (Tensor.map .C exView (· * 2)).map Tensor.data = .ok [8, 10, 12, 2, 4, 6] := by decide
example : (Tensor.unaryConsume .C exView (· * 2)).map Tensor.data = .ok [0, 2, 4, 6, 8, 10, 12, 7] := by decide
example : (Tensor.unaryConsume .C ⟨[5], ⟨[⟨3, 0⟩], 0⟩⟩ (· * 2)).map Tensor.data = .ok [10] := by decide
example := C30_binary .C exView exRow (· + ·) exView_wf exRow_wf exCompat
example := C32_assign_op .C exView exRow (· + ·) exView_wf exRow_wf (by decide) exFits

end
end Rstsr
