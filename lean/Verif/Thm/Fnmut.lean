import Verif.Proof.Fnmut
import Verif.Thm.Copy
import Verif.Thm.Elementwise
/-!
# Theorems on maps with a function that has a state (C94)

`callAll` is defined in `Spec/Calls.lean`: the function is called with one argument after the other, each call
starting in the state that the call before it left.
-/
namespace Rstsr
open Spec

section
variable {σ α β γ : Type}

/-- `map_fnmut(f)`, `mapv_fnmut(f)`: the function is called once for every index, each call starting in the
state that the call before it left, and the result holds at every index what the call for that index
returned. -/
theorem C94_map (dflt : Order) (a : Tensor α) (f : σ → α → σ × γ) (s : σ) (ha : a.WF) :
    ∃ (calls : List (List Nat)) (xs : List α) (r : Tensor γ), calls.Perm (all .C a.arr.shape) ∧ calls.map a.arr.elem = xs.map some ∧
      a.mapFnmut dflt f s = .ok ((callAll f s xs).1, r) ∧ r.WF ∧ r.arr.shape = a.arr.shape ∧
      calls.map r.arr.elem = (callAll f s xs).2.map some := by
  obtain ⟨m, h1, h2, h3, h4⟩ := forArrayCopy_spec dflt (l := a.layout) ha.fit.valid .K (by simp)
  have hsh : a.layout.shape = m.shape := h2.symm
  obtain ⟨n, hbn⟩ : ∃ n : Nat, m.boundsIndex = .ok (0, (n : Int)) := by
    obtain ⟨-, n, h, -⟩ := h3.spec; exact ⟨n, h⟩
  obtain ⟨e, he, hk⟩ := callMutaRefb_eq dflt (h3.fit h2) ha.fit (s, (uninit (n : Int) : List (Option γ))) a.data
    fun s _ x => ((f s x).1, some (f s x).2)
  have hmem : ∀ i ∈ e, InRange i a.layout.shape := fun i hi => mem_all.1 (he.mem_iff.1 hi)
  obtain ⟨xs, hxs⟩ := map_some_of (f := a.arr.elem) (e := e) fun i hi => by
    obtain ⟨x, -, hx⟩ := ha.get (hmem i hi)
    exact ⟨x, hx⟩
  obtain ⟨n', c, d, k1, k2, k3, k4, k5, k6⟩ := calls_build h3 (e := e) (by rw [h2]; exact he)
    (fun i j hi hj e => dense_inj h3 (fun hz => h4 (h2 ▸ hz)) hi hj e) a.arr.elem xs hxs f s
    (fun i => callStep2 a.data (fun s _ x => ((f s x).1, some (f s x).2)) (m.pos i) (a.layout.pos i)) (by
      intro i hi x hx s d hd
      obtain ⟨y, hy, hy'⟩ := ha.get (idx := i) (h2 ▸ hi)
      have : a.arr.elem i = some y := hy'
      rw [this] at hx
      cases hx
      unfold callStep2
      simp only [readAt_ok.2 hy, readAt_ok.2 (List.getElem?_eq_getElem hd), ok_bind]
      rfl)
  rw [k1] at hbn
  cases hbn
  refine ⟨e, xs, ⟨d, m⟩, he, hxs, ?_, k5, h2, k6⟩
  unfold Tensor.mapFnmut
  simp only [h1, k1, ok_bind, hk, k2, k3, k4]
  rfl

/-- `mapb_fnmut(f)`, `mapvb_fnmut(f)`: the same over the common shape `t` of the operands. Missing: operands of
which two indices of the result read the same two stored elements, see `C94_false_shared`. -/
theorem C94_map_binary_partial (dflt : Order) (a : Tensor α) (b : Tensor β) (f : σ → α → β → σ × γ) (s : σ)
    (ha : a.WF) (hb : b.WF) (t : List Nat) (ht : BroadcastOf dflt a.arr.shape b.arr.shape t)
    (hsep : ∀ i j, InRange i t → InRange j t →
      a.layout.addr (stretchIndex dflt a.arr.shape i) = a.layout.addr (stretchIndex dflt a.arr.shape j) →
      b.layout.addr (stretchIndex dflt b.arr.shape i) = b.layout.addr (stretchIndex dflt b.arr.shape j) → i = j) :
    ∃ (calls : List (List Nat)) (xs : List (α × β)) (r : Tensor γ), calls.Perm (all .C t) ∧ r.arr.shape = t ∧
      (calls.map fun i => (a.arr.elem (stretchIndex dflt a.arr.shape i), b.arr.elem (stretchIndex dflt b.arr.shape i))) =
        xs.map (fun x => (some x.1, some x.2)) ∧
      a.mapbFnmut dflt b f s = .ok ((callAll (fun s x => f s x.1 x.2) s xs).1, r) ∧ r.WF ∧
      calls.map r.arr.elem = (callAll (fun s x => f s x.1 x.2) s xs).2.map some := by
  obtain ⟨⟨la, lb⟩, h⟩ := (C17_accept_iff a.layout b.layout dflt).2 (compatible_of ht)
  obtain ⟨hbc, fa, fb, ca, cb, ga, gb⟩ := bc_facts ha hb h
  obtain rfl := broadcastOf_unique hbc ht
  obtain ⟨-, -, hst⟩ := C17_broadcast_layout a.layout b.layout la lb dflt h
  obtain ⟨m, h1, h2, h3, h4⟩ := forBinaryOp_spec (fa.shape.trans fb.shape.symm) dflt
  obtain ⟨n, hbn⟩ : ∃ n : Nat, m.boundsIndex = .ok (0, (n : Int)) := by
    obtain ⟨-, n, h, -⟩ := h3.spec; exact ⟨n, h⟩
  obtain ⟨e, he, hk⟩ := callMutcRefaRefb_eq dflt (h3.fit h2) fa fb (s, (uninit (n : Int) : List (Option γ))) a.data
    b.data fun s _ x y => ((f s x y).1, some (f s x y).2)
  have hmem : ∀ i ∈ e, InRange i la.shape := fun i hi => mem_all.1 (he.mem_iff.1 hi)
  let arg : List Nat → Option (α × β) := fun i =>
    (a.arr.elem (stretchIndex dflt a.arr.shape i)).bind fun x =>
      (b.arr.elem (stretchIndex dflt b.arr.shape i)).map fun y => (x, y)
  have harg : ∀ i, InRange i la.shape → ∃ x y, a.data[la.pos i]? = some x ∧ b.data[lb.pos i]? = some y ∧
      a.arr.elem (stretchIndex dflt a.arr.shape i) = some x ∧ b.arr.elem (stretchIndex dflt b.arr.shape i) = some y ∧
      arg i = some (x, y) := by
    intro i hi
    obtain ⟨x, hx, hx'⟩ := ga i hi
    obtain ⟨y, hy, hy'⟩ := gb i hi
    have hx' : a.arr.elem (stretchIndex dflt a.arr.shape i) = some x := hx'
    have hy' : b.arr.elem (stretchIndex dflt b.arr.shape i) = some y := hy'
    exact ⟨x, y, hx, hy, hx', hy', by simp [arg, hx', hy']⟩
  obtain ⟨xs, hxs⟩ := map_some_of (f := arg) (e := e) fun i hi => by
    obtain ⟨x, y, -, -, -, -, hx⟩ := harg i (hmem i hi)
    exact ⟨_, hx⟩
  obtain ⟨n', c, d, k1, k2, k3, k4, k5, k6⟩ := calls_build h3 (e := e) (by rw [h2]; exact he)
    (fun i j hi hj e => by
      obtain ⟨e1, e2⟩ := h4 i j (h2 ▸ hi) (h2 ▸ hj) e
      have hi' : InRange i la.shape := h2 ▸ hi
      have hj' : InRange j la.shape := h2 ▸ hj
      obtain ⟨⟨-, a1⟩, -, b1⟩ := hst i hi'
      obtain ⟨⟨-, a2⟩, -, b2⟩ := hst j hj'
      have n1 := fa.nonneg i hi'
      have n2 := fa.nonneg j hj'
      have n3 := fb.nonneg i hi'
      have n4 := fb.nonneg j hj'
      unfold Layout.pos at e1 e2
      refine hsep i j hi' hj' ?_ ?_
      · show a.layout.addr (stretchIndex dflt a.layout.shape i) = a.layout.addr (stretchIndex dflt a.layout.shape j)
        rw [← a1, ← a2]; omega
      · show b.layout.addr (stretchIndex dflt b.layout.shape i) = b.layout.addr (stretchIndex dflt b.layout.shape j)
        rw [← b1, ← b2]; omega) arg xs hxs (fun s x => f s x.1 x.2) s
    (fun i => callStep3 a.data b.data (fun s _ x y => ((f s x y).1, some (f s x y).2)) (m.pos i) (la.pos i) (lb.pos i)) (by
      intro i hi x hx s d hd
      obtain ⟨u, v, hu, hv, -, -, he⟩ := harg i (h2 ▸ hi)
      rw [he] at hx
      cases hx
      unfold callStep3
      simp only [readAt_ok.2 hu, readAt_ok.2 hv, readAt_ok.2 (List.getElem?_eq_getElem hd), ok_bind]
      rfl)
  rw [k1] at hbn
  cases hbn
  refine ⟨e, xs, ⟨d, m⟩, he, h2, ?_, ?_, k5, k6⟩
  · have : (e.map arg).map (fun o => (o.map Prod.fst, o.map Prod.snd)) = (xs.map some).map fun o => (o.map Prod.fst, o.map Prod.snd) := by
      rw [hxs]
    rw [List.map_map, List.map_map] at this
    refine Eq.trans (List.map_congr_left fun i hi => ?_) this
    obtain ⟨u, v, -, -, hu, hv, he⟩ := harg i (hmem i hi)
    simp [hu, hv, he]
  · unfold Tensor.mapbFnmut
    simp only [h, h1, k1, ok_bind, hk, k2, k3, k4]
    rfl

/-- Operands of one shape, the first of them without shared cells: the function is called once for every index
and the result holds at every index what the call for that index returned. -/
theorem C94_map_binary_same_shape (dflt : Order) (a : Tensor α) (b : Tensor β) (f : σ → α → β → σ × γ) (s : σ)
    (ha : a.WF) (hb : b.WF) (hs : b.arr.shape = a.arr.shape) (h0 : (0 : Int) ∉ a.layout.stride) :
    ∃ (calls : List (List Nat)) (xs : List (α × β)) (r : Tensor γ), calls.Perm (all .C a.arr.shape) ∧
      r.arr.shape = a.arr.shape ∧
      (calls.map fun i => (a.arr.elem i, b.arr.elem i)) = xs.map (fun x => (some x.1, some x.2)) ∧
      a.mapbFnmut dflt b f s = .ok ((callAll (fun s x => f s x.1 x.2) s xs).1, r) ∧ r.WF ∧
      calls.map r.arr.elem = (callAll (fun s x => f s x.1 x.2) s xs).2.map some := by
  obtain ⟨calls, xs, r, h1, h2, h3, h4, h5, h6⟩ := C94_map_binary_partial dflt a b f s ha hb a.arr.shape
    (by rw [hs]; exact ⟨by simp, fun k _ => ⟨.inl rfl, .inl rfl, .inl rfl⟩⟩) (by
      intro i j hi hj e _
      rw [stretchIndex_self hi, stretchIndex_self hj] at e
      refine pos_inj ha.fit ?_ hi hj (by unfold Layout.pos; rw [e])
      unfold Layout.isBroadcasted
      rw [Bool.eq_false_iff]
      simpa using h0)
  refine ⟨calls, xs, r, h1, h2, ?_, h4, h5, h6⟩
  rw [← h3]
  refine List.map_congr_left fun i hi => ?_
  have hi : InRange i a.arr.shape := mem_all.1 (h1.mem_iff.1 hi)
  rw [stretchIndex_self hi, hs, stretchIndex_self hi]

/-- Operands whose shapes do not fit together are rejected before the function is called. -/
theorem C94_map_binary_reject (dflt : Order) (a : Tensor α) (b : Tensor β) (f : σ → α → β → σ × γ) (s : σ)
    (h : ¬ Compatible dflt a.arr.shape b.arr.shape) : a.mapbFnmut dflt b f s = .error .invalidLayout := by
  have h := C17_reject a.layout b.layout dflt h
  unfold Tensor.mapbFnmut
  rw [h]; rfl

/-- `mapi_fnmut(f)`, `mapvi_fnmut(f)`: in place. `cells` are the cells of the tensor in the order of the calls:
every cell that an index of the tensor addresses is in it once, also when several indices share the cell. -/
theorem C94_map_inplace (dflt : Order) (a : Tensor α) (f : σ → α → σ × α) (s : σ) (ha : a.WF) :
    ∃ (cells : List Nat) (xs : List α) (c : Tensor α), cells.Nodup ∧
      (∀ k, k ∈ cells ↔ Addressed a.layout.stride a.layout.offset a.layout.shape k) ∧
      (cells.map fun k => a.data[k]?) = xs.map some ∧
      a.mapiFnmut dflt f s = .ok ((callAll f s xs).1, c) ∧ c.WF ∧ c.layout = a.layout ∧
      (cells.map fun k => c.data[k]?) = (callAll f s xs).2.map some ∧
      ChangedOnly (Addressed a.layout.stride a.layout.offset a.layout.shape) a.data c.data := by
  obtain ⟨g, p, hg, -, hmem⟩ := greedy_drop_positions (valid_iff.1 ha.fit.valid) .C .C
  have hsub : ∀ j, InRange j g.shape → ∃ i, InRange i a.layout.shape ∧ g.addr j = a.layout.addr i := by
    intro j hj
    obtain ⟨i, hi, e⟩ := List.mem_map.1 ((hmem _).1 (List.mem_map_of_mem (mem_all.2 hj)))
    exact ⟨i, mem_all.1 hi, e.symm⟩
  have hsup : ∀ i, InRange i a.layout.shape → ∃ j, InRange j g.shape ∧ g.addr j = a.layout.addr i := by
    intro i hi
    obtain ⟨j, hj, e⟩ := List.mem_map.1 ((hmem _).2 (List.mem_map_of_mem (mem_all.2 hi)))
    exact ⟨j, mem_all.1 hj, e⟩
  have hoff : g.offset = a.layout.offset := by
    by_cases hs : a.layout.size = 0
    · rw [greedy_zero _ hs] at hg; cases hg; rfl
    · obtain ⟨p', -, h⟩ := greedy_drop hs
      rw [h] at hg; cases hg; rfl
  have hgood : Good g := by
    by_cases hs : a.layout.size = 0
    · rw [greedy_zero _ hs] at hg; cases hg; exact ha.good
    · refine good_of_sub ha.good hsub fun hz _ => ?_
      obtain ⟨p', hp, h⟩ := greedy_drop hs
      rw [h] at hg; cases hg
      exact noOverlap_dropStill ((ha.good.resolve_left hz).2.perm (pick_perm hp))
  obtain ⟨_, _, _, _, hao⟩ := WF_bounds ha
  have hw : (⟨a.data, g⟩ : Tensor α).WF := wf_of_sub ha hgood hsub (hoff ▸ ha.1) (fun _ => hoff ▸ hao)
  obtain ⟨ps, p1, p2, p3⟩ := callMuta_eq dflt hw.fit (s, a.data) f
  have hlt : ∀ k ∈ ps, k < a.data.length := by
    intro k hk
    obtain ⟨i, hi, rfl⟩ := (p2 k).1 hk
    exact hw.covers i hi
  obtain ⟨xs, hxs⟩ := map_some_of (f := fun k => a.data[k]?) (e := ps) fun k hk =>
    ⟨_, List.getElem?_eq_getElem (hlt k hk)⟩
  obtain ⟨d, e1, e2, e3, e4⟩ := runAll_calls id (fun k => a.data[k]?) f (fun i => callStep1 f i) ps xs hxs s a.data
    hlt (by simpa using p1) (by
      intro k hk x hx s d hd hv
      unfold callStep1
      simp only [id] at hv ⊢
      simp only [readAt_ok.2 (hv.trans hx), ok_bind]
      rfl)
  have haddr : ∀ k, k ∈ ps ↔ Addressed a.layout.stride a.layout.offset a.layout.shape k := by
    intro k
    rw [p2]
    constructor
    · rintro ⟨j, hj, rfl⟩
      obtain ⟨i, hi, e⟩ := hsub j hj
      refine ⟨i, hi, ?_⟩
      have h0 := ha.fit.nonneg i hi
      show a.layout.addr i = _
      unfold Layout.pos
      rw [e]
      omega
    · rintro ⟨i, hi, e⟩
      obtain ⟨j, hj, e'⟩ := hsup i hi
      refine ⟨j, hj, ?_⟩
      have : a.layout.addr i = k := e
      unfold Layout.pos
      rw [e', this]
      rfl
  refine ⟨ps, xs, ⟨d, a.layout⟩, p1, haddr, hxs, ?_, ha.of_data e2, rfl, e3, e2, ?_⟩
  · unfold Tensor.mapiFnmut
    simp only [hg, ok_bind, p3, e1]
    rfl
  · intro k hk
    exact e4 k (by simpa [haddr] using hk)

/-- Counts its calls, and returns the number of the call together with the argument. -/
def counting (s : Nat) (x : Nat) : Nat × Nat := (s + 1, 10 * x + s)

/-- Two operands that are both stretched along their axis: the function is called for each of the three
indices, but the result has one cell for the three of them, so it keeps what the last call returned. -/
theorem C94_false_shared :
    ∃ (a b : Tensor Nat) (r : Tensor Nat), a.WF ∧ b.WF ∧ a.arr.shape = [3] ∧ b.arr.shape = [3] ∧
      a.mapbFnmut .C b (fun s x y => counting s (x + y)) 0 = .ok (3, r) ∧
      (∀ k < 3, r.arr.elem [k] = some 32) ∧
      (callAll (fun s x => counting s x) 0 [3, 3, 3]).2 = [30, 31, 32] :=
  ⟨⟨[1], ⟨[⟨3, 0⟩], 0⟩⟩, ⟨[2], ⟨[⟨3, 0⟩], 0⟩⟩, ⟨[32], ⟨[⟨3, 0⟩], 0⟩⟩, ⟨Int.le_refl 0, rfl⟩, ⟨Int.le_refl 0, rfl⟩,
    rfl, rfl, rfl, by decide, rfl⟩

/-! A transposed view, an operand stretched along the first axis, and a view with shared cells. -/

example : (⟨[7, 8, 9, 1, 2, 3], ⟨[⟨3, 1⟩, ⟨2, 3⟩], 0⟩⟩ : Tensor Nat).WF := ⟨Int.le_refl 0, rfl⟩
example : ((⟨[7, 8, 9, 1, 2, 3], ⟨[⟨3, 1⟩, ⟨2, 3⟩], 0⟩⟩ : Tensor Nat).mapFnmut .C counting 0).map
    (fun r => (r.1, r.2.data)) = .ok (6, [70, 81, 92, 13, 24, 35]) := rfl
example : (⟨[7, 8, 9, 1, 2, 3], ⟨[⟨2, 3⟩, ⟨3, 1⟩], 0⟩⟩ : Tensor Nat).WF ∧
    (⟨[1, 0, 2], ⟨[⟨3, 1⟩], 0⟩⟩ : Tensor Nat).WF ∧
    ((⟨[7, 8, 9, 1, 2, 3], ⟨[⟨2, 3⟩, ⟨3, 1⟩], 0⟩⟩ : Tensor Nat).mapbFnmut .C ⟨[1, 0, 2], ⟨[⟨3, 1⟩], 0⟩⟩
      (fun s x y => counting s (x + y)) 0).map (fun r => (r.1, r.2.data)) = .ok (6, [80, 81, 112, 23, 24, 55]) :=
  ⟨⟨Int.le_refl 0, rfl⟩, ⟨Int.le_refl 0, rfl⟩, rfl⟩
example : BroadcastOf .C [2, 3] [3] [2, 3] := (C16_shape_iff _ _ _ _).1 rfl
example : ∀ i j, InRange i [2, 3] → InRange j [2, 3] →
    (⟨[⟨2, 3⟩, ⟨3, 1⟩], 0⟩ : Layout).addr (stretchIndex .C [2, 3] i) = (⟨[⟨2, 3⟩, ⟨3, 1⟩], 0⟩ : Layout).addr (stretchIndex .C [2, 3] j) →
    i = j := by
  intro i j hi hj
  exact (by decide : ∀ i ∈ all .C [2, 3], ∀ j ∈ all .C [2, 3],
    (⟨[⟨2, 3⟩, ⟨3, 1⟩], 0⟩ : Layout).addr (stretchIndex .C [2, 3] i) =
      (⟨[⟨2, 3⟩, ⟨3, 1⟩], 0⟩ : Layout).addr (stretchIndex .C [2, 3] j) → i = j)
    i (mem_all.2 hi) j (mem_all.2 hj)
example : (⟨[5, 6], ⟨[⟨3, 0⟩, ⟨2, 1⟩], 0⟩⟩ : Tensor Nat).WF ∧
    (⟨[5, 6], ⟨[⟨3, 0⟩, ⟨2, 1⟩], 0⟩⟩ : Tensor Nat).mapiFnmut .C counting 0 =
      .ok (2, ⟨[50, 61], ⟨[⟨3, 0⟩, ⟨2, 1⟩], 0⟩⟩) := ⟨⟨Int.le_refl 0, rfl⟩, rfl⟩
example : ¬ Compatible .C [2] [3] := fun h => by have := h 0; revert this; decide

end
end Rstsr
