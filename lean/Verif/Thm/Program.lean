import Verif.Proof.Program
import Verif.Thm.Concat
import Verif.Thm.ReduceAxes
import Verif.Thm.Matmul
/-!
# C99: programs of views, reads and writes
-/
namespace Rstsr
open Spec

variable {α : Type}

/-! ## Operations with operands whose elements have cells of their own -/

theorem Tensor.Distinct.pos_inj {t : Tensor α} (hd : t.Distinct) (hw : t.WF) {i j : List Nat}
    (hi : InRange i t.layout.shape) (hj : InRange j t.layout.shape) (e : t.layout.pos i = t.layout.pos j) : i = j := by
  refine hd i j hi hj ?_
  have h1 := hw.fit.nonneg i hi
  have h2 := hw.fit.nonneg j hj
  unfold Layout.pos at e
  show t.layout.addr i = t.layout.addr j
  omega

theorem assignOp_distinct (dflt : Order) (a : Tensor α) (b : Tensor α) (f : α → α → α) (ha : a.WF) (hb : b.WF)
    (hd : a.Distinct) (h : BroadcastOf dflt a.arr.shape b.arr.shape a.arr.shape) :
    ∃ c, Tensor.assignOp dflt a b f = .ok c ∧ c.layout = a.layout ∧ IsMap2 dflt f a.arr b.arr c.arr ∧
      ChangedOnly (Addressed a.layout.stride a.layout.offset a.layout.shape) a.data c.data := by
  obtain ⟨lb, g⟩ := toFirst_ok (l1 := a.layout) (l2 := b.layout) h
  obtain ⟨hbc, fa, fb, ca, cb, ga, gb⟩ := bc_facts ha hb g
  obtain ⟨d, e1, e2, e3, e4⟩ := modify2 dflt fa fb ca cb (fun i j hi hj e => hd.pos_inj ha hi hj e) f
  refine ⟨⟨d, a.layout⟩, ?_, rfl, ⟨hbc, fun idx hi => ?_⟩, changed_of fa e2 e4⟩
  · unfold Tensor.assignOp
    simp only [g, ok_bind, beqLayout_refl, e1]
    rfl
  · have hi : InRange idx a.layout.shape := hi
    obtain ⟨x, hx, hx'⟩ := ga idx hi
    obtain ⟨y, hy, hy'⟩ := gb idx hi
    refine ⟨x, y, hx', hy', ?_⟩
    rw [elem_pos fa hi]
    exact e3 idx hi x y hx hy

theorem build_layout {γ : Type} {lc : Layout} {k : List (Option γ) → Res (List (Option γ))} {t : Tensor γ}
    (h : Tensor.build lc k = .ok t) : t.layout = lc := by
  unfold Tensor.build at h
  obtain ⟨⟨_, n⟩, -, h⟩ := bind_ok.1 h
  obtain ⟨c, -, h⟩ := bind_ok.1 h
  obtain ⟨d, -, h⟩ := bind_ok.1 h
  unfold Tensor.newF at h
  obtain ⟨_, -, h⟩ := bind_ok.1 h
  obtain ⟨b, -, h⟩ := bind_ok.1 h
  dsimp only at h
  split at h
  · cases h; rfl
  · cases h

theorem distinct_of_pos {t : Tensor α}
    (h : ∀ i j, InRange i t.layout.shape → InRange j t.layout.shape → t.layout.pos i = t.layout.pos j → i = j) :
    t.Distinct := fun i j hi hj e => h i j hi hj (by
  have e : t.layout.addr i = t.layout.addr j := e
  unfold Layout.pos; rw [e])

theorem map_distinct (dflt : Order) (a : Tensor α) (f : α → α) (ha : a.WF) :
    ∃ c, Tensor.map dflt a f = .ok c ∧ c.WF ∧ c.Distinct ∧ IsMap f a.arr c.arr := by
  obtain ⟨c, h1, h2, h3⟩ := C36_map dflt a f ha
  refine ⟨c, h1, h2, ?_, h3⟩
  obtain ⟨m, e1, e2, e3, e4⟩ := forArrayCopy_spec dflt ha.fit.valid .K (by simp)
  unfold Tensor.map at h1
  rw [e1, ok_bind] at h1
  have hl := build_layout h1
  refine distinct_of_pos fun i j hi hj e => ?_
  rw [hl] at hi hj e
  exact dense_inj e3 (fun hz => e4 (e2 ▸ hz)) hi hj e

theorem inRange_alignL {o : Order} {i s : List Nat} (h : InRange i s) : InRange (alignL o i) (alignL o s) := by
  cases o
  · exact h.reverse
  · exact h

theorem stretchF_getD {c i : List Nat} {k : Nat} (hc : k < c.length) (hi : k < i.length) :
    (stretchF c i).getD k 0 = if c.getD k 1 = 1 then 0 else i.getD k 0 := by
  unfold stretchF
  simp [List.getD_eq_getElem?_getD, List.getElem?_zipWith, List.getElem?_eq_getElem hc, List.getElem?_eq_getElem hi]

/-- An index of the common shape is known from the indices of the two operands. -/
theorem stretch_both {o : Order} {a b s i j : List Nat} (h : BroadcastOf o a b s) (hi : InRange i s) (hj : InRange j s)
    (ea : stretchIndex o a i = stretchIndex o a j) (eb : stretchIndex o b i = stretchIndex o b j) : i = j := by
  obtain ⟨hl, hk⟩ := h
  have li := hi.length_eq
  have lj := hj.length_eq
  have ri := inRange_alignL (o := o) hi
  have rj := inRange_alignL (o := o) hj
  have key : ∀ (c : List Nat), c.length ≤ s.length → stretchIndex o c i = stretchIndex o c j →
      ∀ k < s.length, axisAt o s k = axisAt o c k → (alignL o i).getD k 0 = (alignL o j).getD k 0 := by
    intro c hc e k hks hax
    have bi := ri.getD (a := k) (by simpa using hks)
    have bj := rj.getD (a := k) (by simpa using hks)
    have hs1 : (alignL o s).getD k 0 = axisAt o s k := by
      rw [axisAt_eq, List.getD_eq_getElem?_getD, List.getD_eq_getElem?_getD,
        List.getElem?_eq_getElem (by simpa using hks)]; rfl
    rw [hs1] at bi bj
    by_cases h1 : axisAt o c k = 1
    · omega
    · have hkc : k < c.length := by
        by_contra hn
        apply h1
        rw [axisAt_eq, List.getD_eq_getElem?_getD, List.getElem?_eq_none (by simpa using hn)]; rfl
      have e' := congrArg (alignL o) e
      rw [stretchIndex_eq (by omega), stretchIndex_eq (by omega)] at e'
      have := congrArg (fun x => List.getD x k 0) e'
      simp only [stretchF_getD (c := alignL o c) (i := alignL o i) (by simpa using hkc) (by simp; omega),
        stretchF_getD (c := alignL o c) (i := alignL o j) (by simpa using hkc) (by simp; omega)] at this
      rw [← axisAt_eq, if_neg h1, if_neg h1] at this
      exact this
  have hij : alignL o i = alignL o j := by
    apply List.ext_getElem (by simp; omega)
    intro k h1 h2
    have hks : k < s.length := by simp at h1; omega
    have : (alignL o i).getD k 0 = (alignL o j).getD k 0 := by
      rcases (hk k hks).2.2 with e | e
      · exact key a (by omega) ea k hks e
      · exact key b (by omega) eb k hks e
    simpa [List.getD_eq_getElem?_getD, List.getElem?_eq_getElem h1, List.getElem?_eq_getElem h2] using this
  have := congrArg (alignL o) hij
  simpa using this

theorem stretch_inRange {o : Order} {a b s i : List Nat} (h : BroadcastOf o a b s) (hi : InRange i s) :
    InRange (stretchIndex o a i) a := by
  have hs : ∀ x : List Nat, (⟨x.map fun d => ⟨d, 1⟩, 0⟩ : Layout).shape = x := fun x => by
    simp [Layout.shape, Function.comp_def]
  obtain ⟨⟨la, lb⟩, g⟩ := (C17_accept_iff (⟨a.map fun d => ⟨d, 1⟩, 0⟩ : Layout) ⟨b.map fun d => ⟨d, 1⟩, 0⟩ o).2 (by
    rw [hs, hs]; exact compatible_of h)
  obtain ⟨g1, -, g3⟩ := C17_broadcast_layout _ _ la lb o g
  rw [hs, hs] at g1
  have := (g3 i (broadcastOf_unique h g1 ▸ hi)).1.1
  rwa [hs] at this

theorem binary_distinct (dflt : Order) (a b : Tensor α) (f : α → α → α) (ha : a.WF) (hb : b.WF)
    (da : a.Distinct) (db : b.Distinct) (hc : Compatible dflt a.arr.shape b.arr.shape) :
    ∃ c, Tensor.binary dflt a b f = .ok c ∧ c.WF ∧ c.Distinct ∧ IsMap2 dflt f a.arr b.arr c.arr := by
  obtain ⟨c, h1, h2, h3⟩ := C30_binary dflt a b f ha hb hc
  refine ⟨c, h1, h2, ?_, h3⟩
  obtain ⟨⟨la, lb⟩, h⟩ := (C17_accept_iff a.layout b.layout dflt).2 hc
  obtain ⟨-, fa, fb, -⟩ := bc_facts ha hb h
  obtain ⟨g1, g2, g3⟩ := C17_broadcast_layout _ _ _ _ _ h
  obtain ⟨m, q1, q2, q3, q4⟩ := forBinaryOp_spec (fa.shape.trans fb.shape.symm) dflt
  unfold Tensor.binary at h1
  simp only [h, ok_bind, q1] at h1
  have hl := build_layout h1
  refine distinct_of_pos fun i j hi hj e => ?_
  rw [hl, q2] at hi hj
  rw [hl] at e
  obtain ⟨e1, e2⟩ := q4 i j hi hj e
  obtain ⟨⟨a1, a2⟩, b1, b2⟩ := g3 i hi
  obtain ⟨⟨a3, a4⟩, b3, b4⟩ := g3 j hj
  refine stretch_both g1 hi hj (da.pos_inj ha a1 a3 ?_) (db.pos_inj hb b1 b3 ?_)
  · unfold Layout.pos at e1 ⊢; rw [← a2, ← a4]; exact e1
  · unfold Layout.pos at e2 ⊢; rw [← b2, ← b4]; exact e2

/-! ## Lists of tensors and of arrays -/

theorem holds_at {ts : List (Tensor α)} {σ : List (Arr α)} (h : List.Forall₂ HoldsArr ts σ) {k : Nat} {A : Arr α}
    (hk : σ[k]? = some A) : ∃ t, tensorAt ts k = .ok t ∧ ts[k]? = some t ∧ HoldsArr t A := by
  induction h generalizing k with
  | nil => simp at hk
  | cons h1 h2 ih =>
    cases k with
    | zero => cases hk; exact ⟨_, rfl, rfl, h1⟩
    | succ k =>
      obtain ⟨t, e1, e2, e3⟩ := ih (by simpa using hk)
      exact ⟨t, by unfold tensorAt at e1 ⊢; simpa using e1, by simpa using e2, e3⟩

theorem holds_set {ts : List (Tensor α)} {σ : List (Arr α)} (h : List.Forall₂ HoldsArr ts σ) (k : Nat) {t : Tensor α}
    {A : Arr α} (ht : HoldsArr t A) : List.Forall₂ HoldsArr (ts.set k t) (σ.set k A) := by
  induction h generalizing k with
  | nil => exact .nil
  | cons h1 h2 ih =>
    cases k with
    | zero => exact .cons ht h2
    | succ k => exact .cons h1 (ih k)

theorem holds_append {ts : List (Tensor α)} {σ : List (Arr α)} (h : List.Forall₂ HoldsArr ts σ) {t : Tensor α}
    {A : Arr α} (ht : HoldsArr t A) : List.Forall₂ HoldsArr (ts ++ [t]) (σ ++ [A]) := by
  induction h with
  | nil => exact .cons ht .nil
  | cons h1 h2 ih => exact .cons h1 ih

theorem same_get {A B : Arr α} (h : A.Same B) {i : List Nat} (hi : InRange i A.shape) : B.elem i = A.elem i := by
  obtain ⟨x, h1, h2⟩ := h.2 i hi
  rw [h1, h2]

theorem isMap_same {f : α → α} {A B C D : Arr α} (h : A.Same B) (h1 : IsMap f A C) (h2 : IsMap f B D) : C.Same D := by
  refine ⟨by rw [h2.1, h1.1, h.1], fun i hi => ?_⟩
  rw [h1.1] at hi
  obtain ⟨x, e1, e2⟩ := h1.2 i hi
  obtain ⟨y, e3, e4⟩ := h2.2 i (h.1 ▸ hi)
  rw [same_get h hi, e1] at e3
  cases e3
  exact ⟨_, e2, e4⟩

theorem isMap2_same {o : Order} {f : α → α → α} {A B A' B' C D : Arr α} (h : A.Same A') (h' : B.Same B')
    (h1 : IsMap2 o f A B C) (h2 : IsMap2 o f A' B' D) : C.Same D := by
  have hs : D.shape = C.shape := by
    have := h2.1
    rw [h.1, h'.1] at this
    exact broadcastOf_unique this h1.1
  refine ⟨hs, fun i hi => ?_⟩
  obtain ⟨x, y, e1, e2, e3⟩ := h1.2 i hi
  obtain ⟨x', y', f1, f2, f3⟩ := h2.2 i (hs ▸ hi)
  have r1 : A'.elem (stretchIndex o A'.shape i) = A.elem (stretchIndex o A.shape i) := by
    rw [h.1]; exact same_get h (stretch_inRange h1.1 hi)
  have r2 : B'.elem (stretchIndex o B'.shape i) = B.elem (stretchIndex o B.shape i) := by
    rw [h'.1]; exact same_get h' (stretch_inRange (broadcastOf_comm h1.1) hi)
  rw [r1, e1] at f1
  rw [r2, e2] at f2
  cases f1; cases f2
  exact ⟨_, e3, f3⟩

/-! ## Operations that make new storage -/

theorem Tight.distinct {t : Tensor α} {n : Nat} (h : Tight t.layout n) : t.Distinct :=
  distinct_of_pos fun i j hi hj e => h.inj i j hi hj e

theorem indexSelect_layout {o : Order} {t r : Tensor α} {axis : Int} {indices : List Int}
    (h : t.indexSelect o o axis indices = .ok r) : ∃ s, r.layout = Layout.newContig o s := by
  unfold Tensor.indexSelect at h
  obtain ⟨ax, -, h⟩ := bind_ok.1 h
  obtain ⟨ids, -, h⟩ := bind_ok.1 h
  obtain ⟨c, -, h⟩ := bind_ok.1 h
  obtain ⟨d, -, h⟩ := bind_ok.1 h
  exact ⟨_, newF_layout h⟩

theorem concat_layout {o : Order} {ts : List (Tensor α)} {r : Tensor α} {axis : Int}
    (h : Tensor.concat o o ts axis = .ok r) : ∃ s, r.layout = Layout.newContig o s := by
  unfold Tensor.concat at h
  split at h
  · cases h
  · split at h
    · cases h
    split at h
    · cases h
    obtain ⟨ax, -, h⟩ := bind_ok.1 h
    split at h
    · cases h
    obtain ⟨c, -, h⟩ := bind_ok.1 h
    obtain ⟨d, -, h⟩ := bind_ok.1 h
    cases h
    exact ⟨_, rfl⟩

theorem contig_distinct {o : Order} {r : Tensor α} (h : ∃ s, r.layout = Layout.newContig o s) : r.Distinct := by
  obtain ⟨s, e⟩ := h
  exact Tight.distinct (n := (Layout.newContig o s).size) (e ▸ tight_newContig o s)

theorem reshape_distinct {o : Order} {a c : Tensor α} {shape : List Nat} (hd : a.Distinct)
    (h : a.changeShape (shape.map Int.ofNat) o none = .ok c) : c.Distinct := by
  unfold Tensor.changeShape at h
  rw [subst_self shape a.layout.size, ok_bind, if_neg (by simp)] at h
  obtain ⟨q, hq, h⟩ := bind_ok.1 h
  cases q with
  | some m =>
    cases h
    exact fun i j hi hj e => C19_no_alias a.layout m shape o hq hd i j
      ((C19_reshape_order _ _ _ _ hq).1 ▸ hi) ((C19_reshape_order _ _ _ _ hq).1 ▸ hj) e
  | none =>
    simp only at h
    rw [if_neg (by simp)] at h
    obtain ⟨c1, -, h⟩ := bind_ok.1 h
    obtain ⟨c2, -, h⟩ := bind_ok.1 h
    cases h
    cases o
    · exact Tight.distinct (tight_newC shape)
    · exact Tight.distinct (tight_newF shape)

theorem asarray_distinct {o : Order} {a c : Tensor α} (ha : a.WF) (h : Tensor.asarray o a .K = .ok c) : c.Distinct := by
  obtain ⟨m, e1, e2, e3, e4⟩ := forArrayCopy_spec o ha.fit.valid .K (by simp)
  unfold Tensor.asarray at h
  rw [e1, ok_bind] at h
  obtain ⟨c1, -, h⟩ := bind_ok.1 h
  obtain ⟨c2, -, h⟩ := bind_ok.1 h
  have hl := newF_layout h
  refine distinct_of_pos fun i j hi hj e => ?_
  rw [hl] at hi hj e
  exact dense_inj e3 (fun hz => e4 (e2 ▸ hz)) hi hj e

theorem intoOwned_distinct {o : Order} {a c : Tensor α} (ha : a.WF) (hd : a.Distinct)
    (h : Tensor.intoOwned o a = .ok c) : c.Distinct := by
  unfold Tensor.intoOwned at h
  obtain ⟨⟨mn, mx⟩, -, h⟩ := bind_ok.1 h
  dsimp only at h
  split at h
  · cases h; exact hd
  · exact asarray_distinct ha h

theorem same_trans {A B C : Arr α} (h1 : A.Same B) (h2 : B.Same C) : A.Same C := by
  refine ⟨h2.1.trans h1.1, fun i hi => ?_⟩
  obtain ⟨x, e1, e2⟩ := h1.2 i hi
  obtain ⟨y, e3, e4⟩ := h2.2 i (h1.1 ▸ hi)
  rw [e2] at e3
  cases e3
  exact ⟨x, e1, e4⟩

/-- Reshaping equal arrays to one shape gives equal arrays. -/
theorem sameSequence_same {o : Order} {A B C D : Arr α} (h : A.Same B) (hs : C.shape = D.shape) (h1 : A.SameSequence o C)
    (h2 : B.SameSequence o D) : C.Same D := by
  refine ⟨hs.symm, fun j hj => ?_⟩
  obtain ⟨i, hi, e⟩ := exists_rank (o := o) (shape := A.shape) (k := rank o C.shape j) (by
    have := rank_lt (o := o) hj; have := h1.1; omega)
  obtain ⟨x, e1, e2⟩ := h1.2 i j hi hj e
  obtain ⟨y, e3, e4⟩ := h2.2 i j (h.1 ▸ hi) (hs ▸ hj) (by rw [h.1, ← hs]; exact e)
  rw [same_get h hi, e1] at e3
  cases e3
  exact ⟨x, e2, e4⟩

theorem same_elements {A B : Arr α} (h : A.Same B) : A.elements = B.elements := by
  unfold Arr.elements
  rw [h.1]
  refine List.filterMap_congr fun i hi => (same_get h (mem_all.1 hi)).symm

/-- Views of tensors that hold the arrays, one after the other. -/
theorem parts_ok {o : Order} {ts : List (Tensor α)} {σ : List (Arr α)} (h : List.Forall₂ HoldsArr ts σ)
    {parts : List (Nat × List ViewCall)} {Bs : List (Arr α)}
    (hp : List.Forall₂ (fun (p : Nat × List ViewCall) B => ∃ A s' R, σ[p.1]? = some A ∧ Path o p.2 A.shape s' R ∧ SeenThrough A s' R B) parts Bs) :
    ∃ as : List (Tensor α), (parts.mapM fun p => do
        let t ← tensorAt ts p.1
        t.viewed o p.2) = .ok as ∧ List.Forall₂ (fun a B => a.WF ∧ a.arr.Same B) as Bs := by
  induction hp with
  | nil => exact ⟨[], rfl, .nil⟩
  | @cons p B parts Bs hB _ ih =>
    obtain ⟨A, s', R, hA, hq, hS⟩ := hB
    obtain ⟨t, e1, -, ht⟩ := holds_at h hA
    obtain ⟨m, e2, wm, pm⟩ := viewed_ok ht hq
    obtain ⟨as, e3, e4⟩ := ih
    refine ⟨⟨t.data, m⟩ :: as, ?_, .cons ⟨wm, seen_same ht pm wm hS⟩ e4⟩
    rw [List.mapM_cons]
    simp only [e1, e2, ok_bind, e3]
    rfl

theorem forall₂_get {β γ : Type} {P : β → γ → Prop} {xs : List β} {ys : List γ} (h : List.Forall₂ P xs ys) {k : Nat} {x : β}
    (hk : xs[k]? = some x) : ∃ y, ys[k]? = some y ∧ P x y := by
  induction h generalizing k with
  | nil => simp at hk
  | cons h1 h2 ih =>
    cases k with
    | zero => cases hk; exact ⟨_, rfl, h1⟩
    | succ k => simpa using ih (by simpa using hk)

theorem forall₂_map_eq {β γ δ : Type} {P : β → γ → Prop} {xs : List β} {ys : List γ} (h : List.Forall₂ P xs ys) (f : β → δ) (g : γ → δ)
    (hfg : ∀ x y, P x y → f x = g y) : xs.map f = ys.map g := by
  induction h with
  | nil => rfl
  | cons h1 h2 ih => rw [List.map_cons, List.map_cons, hfg _ _ h1, ih]

/-! ## Sums along axes and matrix products -/

theorem distinct_unstretched {t : Tensor α} (hd : t.Distinct) (hz : 0 ∉ t.arr.shape) : Unstretched t := by
  refine ⟨hz, fun x hx h1 h0 => ?_⟩
  obtain ⟨k, hk, rfl⟩ := List.mem_iff_getElem.1 hx
  have hpos : ∀ d ∈ t.layout.shape, 0 < d := fun d hd => Nat.pos_of_ne_zero fun e => hz (e ▸ hd)
  have hr := inRange_zeros hpos
  have hl : t.layout.shape.length = t.layout.axes.length := by simp [Layout.shape]
  have hd0 : (t.layout.axes[k]).dim ≠ 0 := fun e => hz (e ▸ List.mem_map_of_mem hx)
  have hkz : k < (List.replicate t.layout.shape.length 0).length := by simp only [List.length_replicate]; omega
  have hr' : InRange ((List.replicate t.layout.shape.length 0).set k 1) t.layout.shape := by
    have hk' : k < t.layout.shape.length := by omega
    have h2 : t.layout.shape[k] = (t.layout.axes[k]).dim := by simp [Layout.shape]
    have h3 := inRange_set_iff (a := k) (n := t.layout.shape[k]) (p := 1) hr (by rw [h2]; omega)
    rwa [List.set_getElem_self hk'] at h3
  have := hd _ _ hr hr' (by
    show t.layout.addr _ = t.layout.addr _
    rw [addr_eq, addr_eq, dot_set_idx hk (by simp [hl])]
    simp [List.getD_eq_getElem?_getD, List.getElem?_eq_getElem hk, h0])
  have h2 := congrArg (fun l => l[k]?) this
  simp [hl, hk] at h2

/-- Sums along axes on the serial device, with cells of their own for all results. -/
theorem sumAxes_distinct (o : Order) (t : Tensor α) (h : t.WF) (hu : Unstretched t) (axes : List Int)
    (hax : LegalAxes t.arr.shape.length axes) (zero : α) (add : α → α → α)
    (m1 : ∀ x y z, add (add x y) z = add x (add y z)) (m2 : ∀ x y, add x y = add y x) (m3 : ∀ x, add zero x = x) :
    ∃ r, t.sumAxes o none zero add (some axes) = .ok (.done r) ∧ r.WF ∧ r.Distinct ∧
      t.arr.ReducedTo (some (axes.map (normAxis t.arr.shape.length))) (fun xs v => v = xs.foldl add zero) r.arr := by
  have hn : t.arr.shape.length = t.layout.ndim := by simp [Tensor.arr, Layout.shape, Layout.ndim]
  have M : Monoidal (sumR zero add).init (sumR zero add).f (sumR zero add).fSum := ⟨m1, m2, m3, fun a x => by
    show add a x = add a (add zero x)
    rw [m3]⟩
  obtain ⟨⟨ls, lm⟩, hd⟩ := (C52_split_axes_accept_iff t.layout h.fit.valid h.1 hu.1 axes).2 (by rw [← hn]; exact hax)
  obtain ⟨d, lo, h1, h2, h3, h4⟩ := reduceAxes_ok o h ⟨hu.1, hu.2⟩ hd M
  obtain ⟨lo', o1, st, -⟩ := split_setup o h ⟨hu.1, hu.2⟩ hd M
  have hlo : lo = lo' := by
    unfold reduceAxes at h1
    simp only [hd, o1, ok_bind] at h1
    obtain ⟨_, -, h1⟩ := bind_ok.1 h1
    obtain ⟨_, -, h1⟩ := bind_ok.1 h1
    obtain ⟨_, -, h1⟩ := bind_ok.1 h1
    obtain ⟨_, -, h1⟩ := bind_ok.1 h1
    cases h1; rfl
  subst hlo
  refine ⟨⟨d, lo⟩, ?_, h3, Tight.distinct st.tight, h2.trans (split_facts h hd).1, fun j hj => ⟨_, h4 j (h2 ▸ hj), rfl⟩⟩
  simp only [Tensor.sumAxes, Tensor.axesApi, Tensor.axesKernel, h1, ok_bind, h3.2]
  rfl

/-- Equal arrays have equal sums along axes. -/
theorem reduced_same {t : Tensor α} {B C : Arr α} {r : Tensor α} (h : t.WF) (hz : 0 ∉ t.arr.shape) {axes : List Int}
    (hax : LegalAxes t.arr.shape.length axes) (hs : t.arr.Same B) {f : List α → α}
    (h1 : t.arr.ReducedTo (some (axes.map (normAxis t.arr.shape.length))) (fun xs v => v = f xs) r.arr)
    (h2 : B.ReducedTo (some (axes.map (normAxis t.arr.shape.length))) (fun xs v => v = f xs) C) : r.arr.Same C := by
  have hn : t.arr.shape.length = t.layout.ndim := by simp [Tensor.arr, Layout.shape, Layout.ndim]
  obtain ⟨⟨ls, lm⟩, hd⟩ := (C52_split_axes_accept_iff t.layout h.fit.valid h.1 hz axes).2 (by rw [← hn]; exact hax)
  obtain ⟨s1, -, -, s4, -, s6⟩ := split_facts h hd
  obtain ⟨a1, a2⟩ := h1
  obtain ⟨b1, b2⟩ := h2
  rw [hs.1] at b1
  refine ⟨b1.trans a1.symm, fun j hj => ?_⟩
  obtain ⟨x, e1, rfl⟩ := a2 j hj
  obtain ⟨y, e2, rfl⟩ := b2 j (by rw [b1, ← a1]; exact hj)
  refine ⟨_, e1, ?_⟩
  rw [e2]
  congr 2
  refine (same_elements ⟨?_, fun i hi => ?_⟩).symm
  · show takeAxes _ B.shape = takeAxes _ t.arr.shape
    rw [hs.1]
  · have := ((s6 j (by rw [s1, ← a1]; exact hj)).2 i (by rw [s4]; exact hi)).1
    obtain ⟨x, g1, g2⟩ := hs.2 _ this
    refine ⟨x, g1, ?_⟩
    show B.elem (mergeIndex B.shape.length _ i j) = _
    rw [hs.1]
    exact g2

theorem matmul_serial {β γ : Type} {O : MatOps α β γ} {mul' : β → α → γ} {dev : Order} {fresh : Nat → γ} {a : Tensor α}
    {b : Tensor β} {alpha : γ} {c : Tensor γ} {w : Work γ} (h : a.matmul O mul' dev none fresh b alpha = .ok (c, w)) :
    ∃ d, w = .done d := by
  unfold Tensor.matmul at h
  obtain ⟨_, -, h⟩ := bind_ok.1 h
  obtain ⟨⟨_, _⟩, -, h⟩ := bind_ok.1 h
  obtain ⟨w', h', h⟩ := bind_ok.1 h
  cases h
  unfold Tensor.matmulFrom matmulOrder at h'
  cases dev <;>
  · simp only [matmulDevice] at h'
    obtain ⟨d, -, h'⟩ := bind_ok.1 h'
    cases h'
    exact ⟨d, rfl⟩

theorem isDot_unique [AddCommMonoid α] {mul : α → α → α} {K : Nat} {row col row' col' : Nat → Option α} {s s' : α}
    (hr : ∀ k < K, row k = row' k) (hc : ∀ k < K, col k = col' k) (h : IsDot mul K row col s) (h' : IsDot mul K row' col' s') :
    s = s' := by
  obtain ⟨x, y, e1, rfl⟩ := h
  obtain ⟨x', y', e2, rfl⟩ := h'
  refine congrArg List.sum (List.map_congr_left fun k hk => ?_)
  have hk := List.mem_range.1 hk
  have f1 := (e1 k hk).1
  have f2 := (e1 k hk).2
  rw [hr k hk, (e2 k hk).1] at f1
  rw [hc k hk, (e2 k hk).2] at f2
  rw [Option.some.inj f1, Option.some.inj f2]

theorem glue_split {o : Order} {idx bl core : List Nat} (h : InRange idx (glue o bl core)) :
    ∃ t c, idx = glue o t c ∧ InRange t bl ∧ InRange c core := by
  cases o with
  | C => obtain ⟨a, b, e, h1, h2⟩ := inRange_split h; exact ⟨a, b, e, h1, h2⟩
  | F => obtain ⟨a, b, e, h1, h2⟩ := inRange_split h; exact ⟨b, a, e, h2, h1⟩

/-! ## Statements -/

/-- One statement on tensors that hold arrays: either the tensors afterwards hold the arrays the statement
describes, or it is a `fill` or an `assign` and it is refused. -/
theorem step_ok (o : Order) (fixed : Bool) {s : Stmt α} {σ σ' : List (Arr α)} {ts : List (Tensor α)}
    (h : List.Forall₂ HoldsArr ts σ) (hs : StmtDoes o s σ σ') :
    (∃ ts', runStmt o fixed s ts = .ok ts' ∧ List.Forall₂ HoldsArr ts' σ') ∨
      (runStmt o fixed s ts = .error .invalidLayout ∧ s.Refuses) := by
  cases hs with
  | @fill k v x _ A A' s' R hA hp hw =>
    obtain ⟨t, e1, -, ht⟩ := holds_at h hA
    obtain ⟨m, e2, wm, pm⟩ := viewed_ok ht hp
    by_cases hz : (0 : Int) ∈ m.stride
    · refine Or.inr ⟨?_, trivial⟩
      have e3 := (C33_broadcast_destination o fixed (⟨t.data, m⟩ : Tensor α) (⟨t.data, m⟩ : Tensor α) id x hz).2
      simp only [runStmt, e1, e2, e3, ok_bind]
      rfl
    · obtain ⟨c, e3, -, e4, e5, e6⟩ := C33_fill o ⟨t.data, m⟩ x wm hz
      refine Or.inl ⟨_, by simp only [runStmt, e1, e2, e3, ok_bind]; rfl, holds_set h k ?_⟩
      refine written ht pm e4 e6 (fun j hj => ?_) hw
      have hj' : InRange j m.shape := pm.shape ▸ hj
      obtain ⟨y, -, hy⟩ := wm.get (idx := j) hj'
      exact ⟨y, x, hy, e5 j hj', fun y' e => e⟩
  | @mapInplace f k v _ A A' s' R hA hp hw =>
    obtain ⟨t, e1, -, ht⟩ := holds_at h hA
    obtain ⟨m, e2, wm, pm⟩ := viewed_ok ht hp
    obtain ⟨c, e3, -, e4, e5, e6⟩ := C36_map_inplace o ⟨t.data, m⟩ f wm
    refine Or.inl ⟨_, by simp only [runStmt, e1, e2, e3, ok_bind]; rfl, holds_set h k ?_⟩
    refine written ht pm e4 e6 (fun j hj => ?_) hw
    obtain ⟨x, f1, f2⟩ := e5.2 j (show InRange j m.shape from pm.shape ▸ hj)
    exact ⟨x, f x, f1, f2, fun y' e => e⟩
  | @opNumber f k v b _ A A' s' R hA hp hw =>
    obtain ⟨t, e1, -, ht⟩ := holds_at h hA
    obtain ⟨m, e2, wm, pm⟩ := viewed_ok ht hp
    obtain ⟨c, e3, -, e4, e5, e6⟩ := C32_assign_number o ⟨t.data, m⟩ b f wm
    refine Or.inl ⟨_, by simp only [runStmt, e1, e2, e3, ok_bind]; rfl, holds_set h k ?_⟩
    refine written ht pm e4 e6 (fun j hj => ?_) hw
    obtain ⟨x, f1, f2⟩ := e5.2 j (show InRange j m.shape from pm.shape ▸ hj)
    exact ⟨x, f x b, f1, f2, fun y' e => e⟩
  | @assign k v u w _ A A' s' R U B r' Q hne hA hp hU hq hB hbc hw =>
    obtain ⟨t, e1, -, ht⟩ := holds_at h hA
    obtain ⟨m, e2, wm, pm⟩ := viewed_ok ht hp
    obtain ⟨t2, d1, -, ht2⟩ := holds_at h hU
    obtain ⟨n, d2, wn, pn⟩ := viewed_ok ht2 hq
    by_cases hz : (0 : Int) ∈ m.stride
    · refine Or.inr ⟨?_, trivial⟩
      have e3 : Tensor.assignF o fixed ⟨t.data, m⟩ ⟨t2.data, n⟩ id = .error .invalidLayout := by
        unfold Tensor.assignF
        have hz' : m.isBroadcasted = true := by unfold Layout.isBroadcasted; simpa using hz
        rw [if_pos hz']
      simp only [runStmt, e1, e2, d1, d2, e3, ok_bind]
      rfl
    · obtain ⟨c, e3, -, e4, e5, e6⟩ := C33_assign_partial o fixed ⟨t.data, m⟩ ⟨t2.data, n⟩ id wm wn hz
        (by show BroadcastOf o m.shape n.shape m.shape; rw [pm.shape, pn.shape]; exact hbc)
      refine Or.inl ⟨_, by simp only [runStmt, e1, e2, d1, d2, e3, ok_bind]; rfl, holds_set h k ?_⟩
      refine written ht pm e4 e6 (fun j hj => ?_) hw
      have hj' : InRange j m.shape := pm.shape ▸ hj
      obtain ⟨x, -, hx⟩ := wm.get (idx := j) hj'
      obtain ⟨y, f1, f2⟩ := e5 j hj'
      refine ⟨x, y, hx, f2, fun y' hy' => ?_⟩
      have hsame := seen_same ht2 pn wn hB
      have hr : InRange (stretchIndex o r' j) r' := stretch_inRange (broadcastOf_comm hbc) hj
      have : B.elem (stretchIndex o r' j) = some y := by
        rw [same_get hsame (show InRange _ n.shape from pn.shape ▸ hr), ← f1]
        congr 2
        exact pn.shape.symm
      rw [this] at hy'
      exact (Option.some.inj hy').symm
  | @opAssign f k v u w _ A A' s' R U B r' Q hne hA hp h1 hU hq hB hbc hw =>
    obtain ⟨t, e1, -, ht⟩ := holds_at h hA
    obtain ⟨m, e2, wm, pm⟩ := viewed_ok ht hp
    obtain ⟨t2, d1, -, ht2⟩ := holds_at h hU
    obtain ⟨n, d2, wn, pn⟩ := viewed_ok ht2 hq
    obtain ⟨c, e3, e4, e5, e6⟩ := assignOp_distinct o ⟨t.data, m⟩ ⟨t2.data, n⟩ f wm wn (view_distinct ht pm h1)
      (by show BroadcastOf o m.shape n.shape m.shape; rw [pm.shape, pn.shape]; exact hbc)
    refine Or.inl ⟨_, by simp only [runStmt, e1, e2, d1, d2, e3, ok_bind]; rfl, holds_set h k ?_⟩
    refine written ht pm e4 e6 (fun j hj => ?_) hw
    have hj' : InRange j m.shape := pm.shape ▸ hj
    obtain ⟨x, y, f1, f2, f3⟩ := e5.2 j (by rw [show c.arr.shape = c.layout.shape from rfl, e4]; exact hj')
    have f1' : (⟨t.data, m⟩ : Tensor α).arr.elem j = some x := by
      rw [← f1]; congr 1; exact (stretchIndex_self hj').symm
    refine ⟨x, f x y, f1', f3, ?_⟩
    rintro y' ⟨b, hb, rfl⟩
    have hsame := seen_same ht2 pn wn hB
    have hr : InRange (stretchIndex o r' j) r' := stretch_inRange (broadcastOf_comm hbc) hj
    have : B.elem (stretchIndex o r' j) = some y := by
      rw [same_get hsame (show InRange _ n.shape from pn.shape ▸ hr), ← f2]
      congr 2
      exact pn.shape.symm
    rw [this] at hb
    cases hb; rfl
  | @map f k v _ A B C s' R hA hp hB hm =>
    obtain ⟨t, e1, -, ht⟩ := holds_at h hA
    obtain ⟨m, e2, wm, pm⟩ := viewed_ok ht hp
    obtain ⟨c, e3, e4, e5, e6⟩ := map_distinct o ⟨t.data, m⟩ f wm
    refine Or.inl ⟨_, by simp only [runStmt, e1, e2, e3, ok_bind], holds_append h ⟨e4, e5, ?_⟩⟩
    exact isMap_same (seen_same ht pm wm hB) e6 hm
  | @binary f k v u w _ A B s' R U D r' Q C hA hp h1 hB hU hq h2 hD hm =>
    obtain ⟨t, e1, -, ht⟩ := holds_at h hA
    obtain ⟨m, e2, wm, pm⟩ := viewed_ok ht hp
    obtain ⟨t2, d1, -, ht2⟩ := holds_at h hU
    obtain ⟨n, d2, wn, pn⟩ := viewed_ok ht2 hq
    have sB := seen_same ht pm wm hB
    have sD := seen_same ht2 pn wn hD
    obtain ⟨c, e3, e4, e5, e6⟩ := binary_distinct o ⟨t.data, m⟩ ⟨t2.data, n⟩ f wm wn (view_distinct ht pm h1)
      (view_distinct ht2 pn h2) (by rw [← sB.1, ← sD.1]; exact compatible_of hm.1)
    refine Or.inl ⟨_, by simp only [runStmt, e1, e2, d1, d2, e3, ok_bind], holds_append h ⟨e4, e5, ?_⟩⟩
    exact isMap2_same sB sD e6 hm
  | @intoShape k shape _ A C hA hC hq =>
    obtain ⟨t, e1, -, ht⟩ := holds_at h hA
    obtain ⟨c, e2, e3, e4, e5⟩ := C21_reshape t ht.wf shape o none (by simp) (by
      rw [← hC, ← hq.1]; exact congrArg List.prod ht.same.1.symm)
    refine Or.inl ⟨_, by simp only [runStmt, e1, e2, ok_bind], holds_set h k ⟨e3, reshape_distinct ht.distinct e2, ?_⟩⟩
    exact sameSequence_same ht.same (e4.trans hC.symm) e5 hq
  | @toShape k v shape _ A B C s' R hA hp h1 hB hC hq =>
    obtain ⟨t, e1, -, ht⟩ := holds_at h hA
    obtain ⟨m, e2, wm, pm⟩ := viewed_ok ht hp
    have sB := seen_same ht pm wm hB
    obtain ⟨c, e3, e4, e5, e6⟩ := C21_reshape ⟨t.data, m⟩ wm shape o none (by simp) (by
      rw [← hC, ← hq.1]; exact congrArg List.prod sB.1.symm)
    have dc := reshape_distinct (view_distinct ht pm h1) e3
    obtain ⟨d, g1, g2, g3, -⟩ := C35_into_owned o c e4
    refine Or.inl ⟨_, by simp only [runStmt, e1, e2, e3, g1, ok_bind], holds_append h ⟨g2, intoOwned_distinct e4 dc g1, ?_⟩⟩
    have hcC : c.arr.Same C := sameSequence_same sB (e5.trans hC.symm) e6 hq
    refine ⟨hcC.1.trans g3.1.symm, fun i hi => ?_⟩
    have hi' : InRange i c.arr.shape := g3.1 ▸ hi
    obtain ⟨x, f1, f2⟩ := g3.2 i hi'
    obtain ⟨y, f3, f4⟩ := hcC.2 i hi'
    rw [f1] at f3
    cases f3
    exact ⟨x, f2, f4⟩
  | @select k v axis indices _ A B C s' R hA hp hB hC =>
    obtain ⟨t, e1, -, ht⟩ := holds_at h hA
    obtain ⟨m, e2, wm, pm⟩ := viewed_ok ht hp
    have sB := seen_same ht pm wm hB
    obtain ⟨c1, c2, c3, c4, c5⟩ := hC
    rw [sB.1] at c1 c2 c3 c4 c5
    obtain ⟨c, e3, e4, e5, e6⟩ := C46_index_select_partial o o ⟨t.data, m⟩ axis indices wm c1 c2 c3
    refine Or.inl ⟨_, by simp only [runStmt, e1, e2, e3, ok_bind],
      holds_append h ⟨e4, contig_distinct (indexSelect_layout e3), c4.trans e5.symm, fun idx hi => ?_⟩⟩
    obtain ⟨i, f1, x, f2, f3⟩ := e6 idx hi
    obtain ⟨i', g1, g2⟩ := c5 idx (by rw [c4, ← e5]; exact hi)
    rw [f1] at g1
    cases g1
    refine ⟨x, f3, ?_⟩
    rw [g2, ← f2]
    refine same_get sB ?_
    rw [e5] at hi
    have hax := normAxis_lt c1
    obtain ⟨j, q, k1, k2, rfl⟩ := (inRange_set_split hax).1 hi
    have hj : normAxis (⟨t.data, m⟩ : Tensor α).arr.shape.length axis ≤ j.length := by
      have := k1.length_eq
      rw [List.length_eraseIdx_of_lt hax] at this
      omega
    rw [set_insertIdx hj]
    exact inRange_insertIdx hax k1 (normAxis_lt (c3 _ (List.mem_of_getElem? f1)))
  | @concat parts axis _ Bs C shape hp hC =>
    obtain ⟨as, e1, e2⟩ := parts_ok h hp
    obtain ⟨c1, c2, c3, c4, c5⟩ := hC
    have hmem : ∀ t ∈ as, ∃ B ∈ Bs, t.WF ∧ t.arr.Same B := fun t ht => by
      obtain ⟨k, hk⟩ := List.mem_iff_getElem?.1 ht
      obtain ⟨B, hB, hP⟩ := forall₂_get e2 hk
      exact ⟨B, List.mem_of_getElem? hB, hP⟩
    obtain ⟨c, e3, e4, e5, e6, e7⟩ := C47_concat o o as axis shape
      (by rintro rfl; cases e2; exact c1 rfl) c2 (fun t ht => (hmem t ht).choose_spec.2.1)
      (fun t ht => by
        obtain ⟨B, hB, -, hS⟩ := hmem t ht
        rw [← hS.1]
        exact c3 B hB)
    have hlen : ∀ (n : Nat), ((as.take n).map fun t => t.arr.shape.getD (normAxis shape.length axis) 0) =
        ((Bs.take n).map fun B => B.shape.getD (normAxis shape.length axis) 0) := fun n =>
      forall₂_map_eq (List.forall₂_take n e2) _ _ fun x y hxy => by rw [hxy.2.1]
    have hall : (as.map fun t => t.arr.shape.getD (normAxis shape.length axis) 0) =
        (Bs.map fun B => B.shape.getD (normAxis shape.length axis) 0) :=
      forall₂_map_eq e2 _ _ fun x y hxy => by rw [hxy.2.1]
    refine Or.inl ⟨_, by simp only [runStmt, e1, e3, ok_bind],
      holds_append h ⟨e4, contig_distinct (concat_layout e3), by rw [c4, e5, hall], fun idx hi => ?_⟩⟩
    obtain ⟨p, t, i, f1, f2, rfl⟩ := e7 idx hi
    obtain ⟨B, hB, -, hS⟩ := forall₂_get e2 f1
    obtain ⟨x, g1, g2⟩ := e6 p t f1 i f2
    refine ⟨x, g2, ?_⟩
    rw [hlen p, c5 p B hB i (hS.1 ▸ f2), same_get hS f2, g1]
  | @sum zero add k v _ A B C s' R m1 m2 m3 hA hp hB hC hx =>
    obtain ⟨t, e1, -, ht⟩ := holds_at h hA
    obtain ⟨m, e2, wm, pm⟩ := viewed_ok ht hp
    have e3 : (⟨t.data, m⟩ : Tensor α).sumAll o none zero add = .ok (B.elements.foldl add zero) := by
      unfold Tensor.sumAll
      rw [C38_reduce o none (fun _ h => by cases h) _ wm (sumR zero add) ⟨m1, m2, m3, fun a x => by
        show add a x = add a (add zero x)
        rw [m3]⟩, same_elements (seen_same ht pm wm hB)]
      rfl
    refine Or.inl ⟨ts ++ [⟨[B.elements.foldl add zero], ⟨[], 0⟩⟩], by simp only [runStmt, e1, e2, e3, ok_bind],
      holds_append (t := ⟨[B.elements.foldl add zero], ⟨[], 0⟩⟩) h ⟨⟨le_refl _, rfl⟩, ?_, hC, ?_⟩⟩
    · intro i j hi hj _
      cases i <;> cases j <;> simp_all [Layout.shape]
    · intro i hi
      have : i = [] := by cases i <;> simp_all [Tensor.arr, Layout.shape]
      subst this
      exact ⟨_, rfl, hx⟩

  | @sumAxes zero add k v axes _ A B C s' R m1 m2 m3 hA hp h1 hz hB hax hnd hC =>
    obtain ⟨t, e1, -, ht⟩ := holds_at h hA
    obtain ⟨m, e2, wm, pm⟩ := viewed_ok ht hp
    have hsh : (⟨t.data, m⟩ : Tensor α).arr.shape = s' := pm.shape
    have hl : LegalAxes (⟨t.data, m⟩ : Tensor α).arr.shape.length axes := by rw [hsh]; exact ⟨hax, hnd⟩
    have hz' : 0 ∉ (⟨t.data, m⟩ : Tensor α).arr.shape := by rw [hsh]; exact hz
    obtain ⟨r, e3, e4, e5, e6⟩ := sumAxes_distinct o ⟨t.data, m⟩ wm (distinct_unstretched (view_distinct ht pm h1) hz')
      axes hl zero add m1 m2 m3
    refine Or.inl ⟨ts ++ [r], by simp only [runStmt, e1, e2, e3, ok_bind], holds_append h ⟨e4, e5, ?_⟩⟩
    exact reduced_same wm hz' hl (seen_same ht pm wm hB) e6 (by rw [hsh]; exact hC)
  | @matmul S fresh k v u w _ A B s' R U D r' Q C bB bD bC rows cols K hA hp hz hB hU hq hz2 hD hS hr hC =>
    obtain ⟨t, e1, -, ht⟩ := holds_at h hA
    obtain ⟨m, e2, wm, pm⟩ := viewed_ok ht hp
    obtain ⟨t2, d1, -, ht2⟩ := holds_at h hU
    obtain ⟨n, d2, wn, pn⟩ := viewed_ok ht2 hq
    have sB := seen_same ht pm wm hB
    have sD := seen_same ht2 pn wn hD
    have hs1 : (⟨t.data, m⟩ : Tensor α).arr.shape = s' := pm.shape
    have hs2 : (⟨t2.data, n⟩ : Tensor α).arr.shape = r' := pn.shape
    have : Nonempty α := ⟨S.zero⟩
    obtain ⟨c, w', d, f1, f2, f3, f4, f5, f6⟩ := C42_matmul_partial (γ := α) (· * ·) (fun y x => x * y) (fun _ _ => rfl) o none
      (fun _ h => by cases h) fresh ⟨t.data, m⟩ ⟨t2.data, n⟩ wm wn C.shape bB bD bC rows cols K (by rw [hs1, hs2]; exact hS) hr
      (fun h0 => absurd h0 (by rw [hs1]; exact hz)) (fun h0 => absurd h0 (by rw [hs2]; exact hz2)) 1
    obtain ⟨d', rfl⟩ := matmul_serial f1
    have hd : d' = d := f2
    subst hd
    refine Or.inl ⟨ts ++ [⟨d', c.layout⟩], ?_, holds_append (t := ⟨d', c.layout⟩) h ⟨f3, ?_, f5.symm, fun idx hi => ?_⟩⟩
    · simp only [runStmt, e1, e2, d1, d2, ok_bind]
      erw [f1]
      rfl
    · exact Tight.distinct (n := (freshLayout o C.shape).size) (by rw [f4]; exact freshLayout_tight o C.shape)
    · rw [f5, hS.out] at hi
      obtain ⟨b, ij, rfl, hb, hij⟩ := glue_split hi
      obtain ⟨i, j, rfl, hi, hj⟩ := inRange_split hij
      obtain ⟨x, g1, g2⟩ := f6 b i j hb hi hj
      obtain ⟨y, g3, g4⟩ := hC b i j hb hi hj
      refine ⟨_, g2, ?_⟩
      rw [g4, one_mul]
      refine congrArg some (isDot_unique (fun k hk => ?_) (fun k hk => ?_) g3 g1)
      · refine same_get sB ?_
        rw [hs1, hS.left]
        exact inRange_glue (stretch_inRange hS.common hb) (by
          rw [inRange_append hi.length_eq]; exact ⟨hi, by simpa using hk⟩)
      · refine same_get sD ?_
        rw [hs2, hS.right]
        exact inRange_glue (stretch_inRange (broadcastOf_comm hS.common) hb) (by simpa using ⟨hk, hj⟩)

/-! ## C99 -/

/-- Programs of any length over any number of tensors. If the tensors hold the given arrays and the array
program takes the arrays to `σ'`, then the tensor program ends with tensors that hold `σ'` – whatever the
strides, offsets and storage of the tensors were – or it stops at a `fill` or `assign` that refuses its
destination. Missing for the full claim: views without elements. -/
theorem C99_program_partial (o : Order) (fixed : Bool) (p : List (Stmt α)) (σ σ' : List (Arr α))
    (ts : List (Tensor α)) (h : List.Forall₂ HoldsArr ts σ) (hp : Exec o p σ σ') :
    (∃ ts', runProgram o fixed p ts = .ok ts' ∧ List.Forall₂ HoldsArr ts' σ') ∨
      (runProgram o fixed p ts = .error .invalidLayout ∧ ∃ s ∈ p, s.Refuses) := by
  induction hp generalizing ts with
  | nil σ => exact Or.inl ⟨ts, rfl, h⟩
  | @cons s p σ τ ρ hs hp ih =>
    rcases step_ok o fixed h hs with ⟨ts1, e1, h1⟩ | ⟨e1, h1⟩
    · rcases ih ts1 h1 with ⟨ts2, e2, h2⟩ | ⟨e2, s', h2, h3⟩
      · exact Or.inl ⟨ts2, by simp only [runProgram, e1, ok_bind, e2], h2⟩
      · exact Or.inr ⟨by simp only [runProgram, e1, ok_bind, e2], s', List.mem_cons_of_mem _ h2, h3⟩
    · exact Or.inr ⟨by simp only [runProgram, e1]; rfl, s, List.mem_cons_self, h1⟩

/-- Programs without `fill` and `assign` are never refused. -/
theorem C99_program_total_partial (o : Order) (fixed : Bool) (p : List (Stmt α)) (σ σ' : List (Arr α))
    (ts : List (Tensor α)) (h : List.Forall₂ HoldsArr ts σ) (hp : Exec o p σ σ') (hr : ∀ s ∈ p, ¬ s.Refuses) :
    ∃ ts', runProgram o fixed p ts = .ok ts' ∧ List.Forall₂ HoldsArr ts' σ' := by
  rcases C99_program_partial o fixed p σ σ' ts h hp with h1 | ⟨-, s, h1, h2⟩
  · exact h1
  · exact absurd h2 (hr s h1)

/-- Two sets of tensors that hold the same arrays, with any layouts, stay indistinguishable: a program that
ends on both ends with the same arrays. -/
theorem C99_layout_independent_partial (o : Order) (p : List (Stmt α)) (σ σ' : List (Arr α))
    (ts us ts' us' : List (Tensor α)) (ht : List.Forall₂ HoldsArr ts σ) (hu : List.Forall₂ HoldsArr us σ)
    (hp : Exec o p σ σ') (et : runProgram o true p ts = .ok ts') (eu : runProgram o true p us = .ok us') :
    List.Forall₂ (fun t u => t.arr.Same u.arr) ts' us' := by
  rcases C99_program_partial o true p σ σ' ts ht hp with ⟨a, e1, h1⟩ | ⟨e1, -⟩
  · rcases C99_program_partial o true p σ σ' us hu hp with ⟨b, e2, h2⟩ | ⟨e2, -⟩
    · rw [et] at e1; rw [eu] at e2
      cases e1; cases e2
      clear et eu ht hu hp
      induction h1 generalizing us' with
      | nil => cases h2; exact .nil
      | cons q1 q2 ih =>
        cases h2 with
        | cons r1 r2 =>
          refine .cons ⟨?_, fun i hi => ?_⟩ (ih _ r2)
          · exact r1.same.1.symm.trans q1.same.1
          · obtain ⟨x, f1, f2⟩ := q1.same.2 i hi
            refine ⟨x, f1, ?_⟩
            have hsh := r1.same.1.symm.trans q1.same.1
            rw [← r1.elem (by
              have hi' := hi
              rw [← hsh] at hi'
              exact hi'), f2]
    · rw [eu] at e2; cases e2
  · rw [et] at e1; cases e1

/-- Without `OneToOne`: `t0.broadcast_to([2]) += t1` is accepted, and the one element 1 becomes neither
`1 + 3` nor `1 + 4`. -/
theorem C99_false_repeated :
    (runProgram .C true [.opAssign (· + ·) 0 [.broadcastTo [2]] 1 []]
      [(⟨[1], ⟨[⟨1, 1⟩], 0⟩⟩ : Tensor Int), ⟨[3, 4], ⟨[⟨2, 1⟩], 0⟩⟩]).map (fun ts => ts.map Tensor.data)
      = .ok [[8], [3, 4]] := by decide +kernel

/-! ## Concrete cases -/

theorem HoldsArr.full {t : Tensor α} {A : Arr α} (h : HoldsArr t A) : A.Full := fun i hi => by
  obtain ⟨x, -, h2⟩ := h.same.2 i (by
    have hi' := hi
    rw [h.same.1] at hi'
    exact hi')
  exact ⟨x, h2⟩

open Classical in
/-- Array programs can be run: a write through a view has a result. -/
theorem written_exists {A : Arr α} {s' : List Nat} {R : List Nat → List Nat → Prop} {W : List Nat → α → α → Prop}
    (hA : A.Full) (hW : ∀ j, InRange j s' → ∀ x, ∃ y, W j x y)
    (h1 : ∀ j j' i x y, InRange j s' → InRange j' s' → R j i → R j' i → W j x y → W j' x y) :
    ∃ A', A'.shape = A.shape ∧ A'.Full ∧ WrittenThrough A A' s' R W := by
  let e : List Nat → Option α := fun i =>
    if h : ∃ j, InRange j s' ∧ R j i then (A.elem i).map fun x => (hW h.choose h.choose_spec.1 x).choose else A.elem i
  refine ⟨⟨A.shape, e⟩, rfl, fun i hi => ?_, rfl, ?_, ?_⟩
  · obtain ⟨x, hx⟩ := hA i hi
    by_cases h : ∃ j, InRange j s' ∧ R j i
    · exact ⟨_, by simp only [e, dif_pos h, hx]; rfl⟩
    · exact ⟨x, by simp only [e, dif_neg h, hx]⟩
  · intro j i hj hi hr
    obtain ⟨x, hx⟩ := hA i hi
    have h : ∃ j, InRange j s' ∧ R j i := ⟨j, hj, hr⟩
    refine ⟨x, _, hx, by simp only [e, dif_pos h, hx]; rfl, ?_⟩
    exact h1 _ j i x _ h.choose_spec.1 hj h.choose_spec.2 hr (hW h.choose h.choose_spec.1 x).choose_spec
  · intro i _ hn
    have h : ¬ ∃ j, InRange j s' ∧ R j i := fun ⟨j, hj, hr⟩ => hn j hj hr
    simp only [e, dif_neg h]

/-- A 2×3 matrix stored by columns at offset 1 of eight cells, and a vector stored backwards. -/
def exProgTensors : List (Tensor Int) :=
  [⟨[0, 1, 2, 3, 4, 5, 6, 7], ⟨[⟨2, 1⟩, ⟨3, 2⟩], 1⟩⟩, ⟨[10, 20], ⟨[⟨2, -1⟩], 1⟩⟩]

/-- `t0.T += t1` (the vector runs along the rows of the transpose), then `t0[1].fill(7)`. -/
def exProg : List (Stmt Int) :=
  [.opAssign (· + ·) 0 [.reverseAxes] 1 [], .fill 0 [.slice [.select 1]] 7]

-- what the model computes: cell 0 and cell 7 are outside of the matrix
example : (runProgram .C true exProg exProgTensors).map (fun ts => ts.map Tensor.data)
    = .ok [[0, 21, 7, 23, 7, 25, 7, 7], [10, 20]] := by decide +kernel

theorem exProg_holds : List.Forall₂ HoldsArr exProgTensors (exProgTensors.map Tensor.arr) := by
  have inj : ∀ t ∈ exProgTensors, t.WF ∧ t.Distinct := by
    intro t ht
    simp only [exProgTensors, List.mem_cons, List.not_mem_nil, or_false] at ht
    have key : ∀ t : Tensor Int, t.WF → t.layout.isBroadcasted = false → t.WF ∧ t.Distinct := fun t hw hz =>
      ⟨hw, distinct_of_pos fun i j hi hj e => pos_inj hw.fit hz hi hj e⟩
    rcases ht with rfl | rfl
    · exact key _ ⟨by decide, rfl⟩ rfl
    · exact key _ ⟨by decide, rfl⟩ rfl
  have self : ∀ t : Tensor Int, t.WF → t.arr.Same t.arr := fun t hw => ⟨rfl, fun i hi => by
    obtain ⟨x, -, hx⟩ := hw.get (idx := i) hi
    exact ⟨x, hx, hx⟩⟩
  obtain ⟨a1, a2⟩ := inj _ (by simp [exProgTensors] : (⟨[0, 1, 2, 3, 4, 5, 6, 7], ⟨[⟨2, 1⟩, ⟨3, 2⟩], 1⟩⟩ : Tensor Int) ∈ exProgTensors)
  obtain ⟨b1, b2⟩ := inj _ (by simp [exProgTensors] : (⟨[10, 20], ⟨[⟨2, -1⟩], 1⟩⟩ : Tensor Int) ∈ exProgTensors)
  exact .cons ⟨a1, a2, self _ a1⟩ (.cons ⟨b1, b2, self _ b1⟩ .nil)

/-- The hypotheses of C99 hold for this program. -/
example : ∃ σ', Exec .C exProg (exProgTensors.map Tensor.arr) σ' := by
  have hh := exProg_holds
  simp only [exProgTensors, List.map_cons, List.map_nil] at hh ⊢
  generalize hA : (⟨[0, 1, 2, 3, 4, 5, 6, 7], ⟨[⟨2, 1⟩, ⟨3, 2⟩], 1⟩⟩ : Tensor Int).arr = A at hh ⊢
  generalize hB : (⟨[10, 20], ⟨[⟨2, -1⟩], 1⟩⟩ : Tensor Int).arr = B at hh ⊢
  have sA : A.shape = [2, 3] := by rw [← hA]; rfl
  have sB : B.shape = [2] := by rw [← hB]; rfl
  cases hh with
  | cons h1 h2 =>
  cases h2 with
  | cons h2 _ =>
  have fA : A.Full := h1.full
  have fB : B.Full := h2.full
  have p1 : Path .C [.reverseAxes] A.shape [3, 2] _ :=
    .cons (c := .reverseAxes) (m := [3, 2]) (by rw [sA]; rfl) (by decide) (.nil [3, 2])
  have one : OneToOne [3, 2] fun j i => ∃ k, InRange k [3, 2] ∧ k = j ∧ ViewCall.reverseAxes.At .C A.shape [3, 2] k i := by
    rintro j j' i - - ⟨k, -, rfl, e⟩ ⟨k', -, rfl, e'⟩
    simp only [ViewCall.At] at e e'
    rw [e] at e'
    exact List.reverse_injective e'
  have bc : BroadcastOf .C [3, 2] B.shape [3, 2] := by
    rw [sB]
    refine ⟨rfl, fun k hk => ?_⟩
    have hk : k = 0 ∨ k = 1 := by simp at hk; omega
    rcases hk with rfl | rfl <;> decide
  obtain ⟨A1, s1, f1, w1⟩ := written_exists (s' := [3, 2]) (W := fun j x y => ∃ b, B.elem (stretchIndex .C B.shape j) = some b ∧ y = x + b) fA
    (fun j hj x => by
      obtain ⟨b, hb⟩ := fB _ (stretch_inRange (broadcastOf_comm bc) hj)
      exact ⟨x + b, b, hb, rfl⟩)
    (fun j j' i x y hj hj' hr hr' hw => by rw [← one j j' i hj hj' hr hr']; exact hw)
  have p2 : Path .C [.slice [.select 1]] A1.shape [3] _ :=
    .cons (c := .slice [.select 1]) (m := [3])
      (by
        rw [s1, sA]
        refine ⟨by decide, by decide, ⟨⟨by decide, by decide⟩, by decide, trivial⟩, ?_, ?_⟩
        · exact ⟨fun h => absurd h (by decide), trivial⟩
        · refine ⟨fun k => ?_, trivial⟩
          simp [PyHas, pyStart, pyStop]) (by decide) (.nil [3])
  obtain ⟨A2, -, -, w2⟩ := written_exists (s' := [3]) (W := fun _ _ y => y = (7 : Int)) f1 (fun _ _ _ => ⟨7, rfl⟩)
    (fun _ _ _ _ _ _ _ _ _ h => h)
  exact ⟨_, .cons (.opAssign (by decide) rfl p1 one rfl (Path.nil B.shape)
    (B := B) ⟨rfl, fun j i _ _ e => by rw [e]⟩ bc w1)
    (.cons (.fill rfl p2 w2) (.nil _))⟩

/-- `t0 = t0.into_shape([3, 2])`, `t2 = concat([t0, t0.t().t()], 0)`, `t3 = t2.index_select(0, [-1, 0])`, `t4 = t3.sum()`,
`t5 = t3.t().to_shape([4])`. -/
def exMake : List (Stmt Int) :=
  [.intoShape 0 [3, 2], .concat [(0, []), (0, [.reverseAxes, .reverseAxes])] 0, .select 2 [] 0 [-1, 0], .sum 0 (· + ·) 3 [],
    .toShape 3 [.reverseAxes] [4]]

-- what the model computes, at both orders of the device
example : (runProgram .C true exMake exProgTensors).map (fun ts => ts.map Tensor.data)
    = .ok [[1, 3, 5, 2, 4, 6], [10, 20], [1, 3, 5, 2, 4, 6, 1, 3, 5, 2, 4, 6], [4, 6, 1, 3], [14], [4, 1, 6, 3]] := by decide +kernel
example : (runProgram .F true exMake exProgTensors).map (fun ts => ts.map Tensor.data)
    = .ok [[0, 1, 2, 3, 4, 5, 6, 7], [10, 20], [1, 2, 3, 1, 2, 3, 4, 5, 6, 4, 5, 6], [3, 1, 6, 4], [14], [3, 6, 1, 4]] := by decide +kernel

/-- The hypotheses of C99 hold for a program that reshapes, joins, selects and sums. -/
example : ∃ σ', Exec .C [.intoShape 0 [3, 2], .concat [(0, []), (0, [])] 0, .select 2 [] 0 [-1, 0], .sum 0 (· + ·) 3 [],
    .toShape 3 [] [4]] (exProgTensors.map Tensor.arr) σ' := by
  have see : ∀ A : Arr Int, SeenThrough A A.shape (fun j i => i = j) A := fun A => ⟨rfl, fun j i _ _ e => by rw [e]⟩
  have hw : (⟨[0, 1, 2, 3, 4, 5, 6, 7], ⟨[⟨2, 1⟩, ⟨3, 2⟩], 1⟩⟩ : Tensor Int).WF := ⟨by decide, rfl⟩
  obtain ⟨c, -, c1, c2, c3⟩ := C21_reshape _ hw [3, 2] .C none (by simp) rfl
  have ax1 : AxisOk [3, 2].length 0 := ⟨by decide, by decide⟩
  have ax2 : AxisOk [6, 2].length 0 := ⟨by decide, by decide⟩
  have ax3 : ∀ i ∈ ([-1, 0] : List Int), AxisOk ([6, 2].getD (normAxis [6, 2].length 0) 0) i := by
    intro i hi
    simp only [List.mem_cons, List.not_mem_nil, or_false] at hi
    rcases hi with rfl | rfl <;> exact ⟨by decide, by decide⟩
  obtain ⟨d, -, d1, d2, d3, -⟩ := C47_concat .C .C [c, c] 0 [3, 2] (by simp) ax1
    (by intro t ht; simp at ht; exact ht ▸ c1)
    (by intro t ht; simp at ht; rw [ht, c2]; rfl)
  have d2 : d.arr.shape = [6, 2] := by rw [d2]; simp [c2, normAxis]
  obtain ⟨e, -, e1, e2, e3⟩ := C46_index_select_partial .C .C d 0 [-1, 0] d1 (by rw [d2]; exact ax2) (by rw [d2]; decide)
    (by rw [d2]; exact ax3)
  have e2' : e.arr.shape = [2, 2] := by rw [e2, d2]; rfl
  obtain ⟨g, -, -, g2, g3⟩ := C21_reshape e e1 [4] .C none (by simp) (by
    show e.arr.shape.prod = ([4] : List Nat).prod
    rw [e2']; rfl)
  refine ⟨_, .cons (.intoShape rfl c2 c3) (.cons (.concat (Bs := [c.arr, c.arr]) (C := d.arr) (shape := [3, 2])
    (.cons ⟨c.arr, _, _, rfl, .nil _, see _⟩ (.cons ⟨c.arr, _, _, rfl, .nil _, see _⟩ .nil)) ?_)
    (.cons (.select (A := d.arr) (C := e.arr) rfl (.nil _) (see _) ?_)
    (.cons (.sum (A := e.arr) (C := ⟨[], fun _ => some (e.arr.elements.foldl (· + ·) 0)⟩) Int.add_assoc Int.add_comm Int.zero_add
      rfl (.nil _) (see _) rfl rfl)
    (.cons (.toShape (A := e.arr) rfl (.nil _) ?_ (see _) g2 g3) (.nil _)))))⟩
  · refine ⟨by simp, ax1, ?_, by rw [d2]; simp [c2, normAxis], fun p B hB idx hi => ?_⟩
    · intro B hB
      simp at hB
      rw [hB, c2]; rfl
    · have : ∃ t, [c, c][p]? = some t ∧ B = t.arr := by
        match p, hB with
        | 0, hB => exact ⟨c, rfl, by cases hB; rfl⟩
        | 1, hB => exact ⟨c, rfl, by cases hB; rfl⟩
      obtain ⟨t, ht, rfl⟩ := this
      obtain ⟨x, q1, q2⟩ := d3 p t ht idx hi
      have et : ([c.arr, c.arr].take p).map (fun B => B.shape.getD (normAxis [3, 2].length 0) 0) =
          ([c, c].take p).map (fun t => t.arr.shape.getD (normAxis [3, 2].length 0) 0) := by
        rw [show [c.arr, c.arr] = [c, c].map Tensor.arr from rfl, ← List.map_take, List.map_map]; rfl
      rw [et, q1, q2]
  · refine ⟨by rw [d2]; exact ax2, by rw [d2]; decide, by rw [d2]; exact ax3, e2, fun idx hi => ?_⟩
    obtain ⟨i, q1, x, q2, q3⟩ := e3 idx hi
    exact ⟨i, q1, by rw [q2, q3]⟩
  · rintro j j' i - - rfl rfl
    rfl

/-- `t2 = t0.t() % t1`, `t3 = t0.sum_axes(-1)`. The new storage held 99 by chance. -/
def exMat : List (Stmt Int) :=
  [.matmul inferInstance (fun _ => 99) 0 [.reverseAxes] 1 [], .sumAxes 0 (· + ·) 0 [] [-1]]

example : (runProgram .C true exMat exProgTensors).map (fun ts => ts.map Tensor.data)
    = .ok [[0, 1, 2, 3, 4, 5, 6, 7], [10, 20], [40, 100, 160], [9, 12]] := by decide +kernel
example : (runProgram .F true exMat exProgTensors).map (fun ts => ts.map Tensor.data)
    = .ok [[0, 1, 2, 3, 4, 5, 6, 7], [10, 20], [40, 100, 160], [9, 12]] := by decide +kernel

/-- The hypotheses of C99 hold for it. -/
example : ∃ σ', Exec .C exMat (exProgTensors.map Tensor.arr) σ' := by
  have hw : (⟨[0, 1, 2, 3, 4, 5, 6, 7], ⟨[⟨2, 1⟩, ⟨3, 2⟩], 1⟩⟩ : Tensor Int).WF := ⟨by decide, rfl⟩
  have ax : LegalAxes 2 [-1] := ⟨by intro a ha; simp at ha; subst ha; exact ⟨by decide, by decide⟩, by decide⟩
  have hu : Unstretched (⟨[0, 1, 2, 3, 4, 5, 6, 7], ⟨[⟨2, 1⟩, ⟨3, 2⟩], 1⟩⟩ : Tensor Int) := by
    refine ⟨by decide, fun x hx _ => ?_⟩
    simp only [List.mem_cons, List.not_mem_nil, or_false] at hx
    rcases hx with rfl | rfl <;> decide
  obtain ⟨r, -, -, -, r4⟩ := sumAxes_distinct .C _ hw hu [-1] ax 0 (· + ·) Int.add_assoc Int.add_comm Int.zero_add
  refine ⟨_, .cons (.matmul (A := (⟨[0, 1, 2, 3, 4, 5, 6, 7], ⟨[⟨2, 1⟩, ⟨3, 2⟩], 1⟩⟩ : Tensor Int).arr)
    (B := ⟨[3, 2], fun j => (⟨[0, 1, 2, 3, 4, 5, 6, 7], ⟨[⟨2, 1⟩, ⟨3, 2⟩], 1⟩⟩ : Tensor Int).arr.elem j.reverse⟩)
    (U := (⟨[10, 20], ⟨[⟨2, -1⟩], 1⟩⟩ : Tensor Int).arr) (D := (⟨[10, 20], ⟨[⟨2, -1⟩], 1⟩⟩ : Tensor Int).arr)
    (C := ⟨[3], fun i => [40, 100, 160][i.getD 0 0]?⟩) (bB := []) (bD := []) (bC := []) (rows := [3]) (cols := []) (K := 2)
    rfl (.cons (c := .reverseAxes) (m := [3, 2]) rfl (by decide) (.nil [3, 2])) (by decide) ?_ rfl (.nil [2]) (by decide) ?_
    ⟨rfl, rfl, rfl, by decide, by decide, by simp, by simp, ⟨rfl, fun k hk => absurd hk (by simp)⟩⟩ (by simp) ?_)
    (.cons (.sumAxes (A := (⟨[0, 1, 2, 3, 4, 5, 6, 7], ⟨[⟨2, 1⟩, ⟨3, 2⟩], 1⟩⟩ : Tensor Int).arr)
      (B := (⟨[0, 1, 2, 3, 4, 5, 6, 7], ⟨[⟨2, 1⟩, ⟨3, 2⟩], 1⟩⟩ : Tensor Int).arr) Int.add_assoc Int.add_comm Int.zero_add
      rfl (.nil [2, 3]) ?_ (by decide) ?_ ax.1 ax.2 r4) (.nil _))⟩
  · refine ⟨rfl, ?_⟩
    rintro j i - - ⟨k, -, rfl, rfl⟩
    rfl
  · exact ⟨rfl, fun j i _ _ e => by rw [e]⟩
  · intro b i j hb hi hj
    obtain rfl : b = [] := by cases b <;> simp_all
    obtain rfl : j = [] := by cases j <;> simp_all
    obtain ⟨p, rfl, hp⟩ : ∃ p, i = [p] ∧ p < 3 := by
      match i, hi with
      | [p], hi => exact ⟨p, rfl, hi.1⟩
    refine ⟨[40, 100, 160].getD p 0, ⟨fun k => ([[1, 2], [3, 4], [5, 6]].getD p []).getD k 0, fun k => [20, 10].getD k 0, ?_, ?_⟩, ?_⟩
    · intro k hk
      have c1 : p = 0 ∨ p = 1 ∨ p = 2 := by omega
      have c2 : k = 0 ∨ k = 1 := by omega
      rcases c1 with rfl | rfl | rfl <;> rcases c2 with rfl | rfl <;> exact ⟨rfl, rfl⟩
    · have : p = 0 ∨ p = 1 ∨ p = 2 := by omega
      rcases this with rfl | rfl | rfl <;> rfl
    · have : p = 0 ∨ p = 1 ∨ p = 2 := by omega
      rcases this with rfl | rfl | rfl <;> rfl
  · rintro j j' i - - rfl rfl
    rfl
  · exact ⟨rfl, fun j i _ _ e => by rw [e]⟩

end Rstsr
