import Verif.Proof.Arg
import Mathlib.Order.Lattice
import Mathlib.Tactic.NormNum
import Mathlib.Order.Defs.LinearOrder
/-!
# Theorems on argmin and argmax (C40)

`A.FirstBest better idx` (`Spec/Reduce.lean`): `idx` is in range, no element is better than the one there,
and all elements before it in row-major order are worse. `par = none` is the serial device, `par = some s`
the parallel one with an arbitrary plan of splits.
-/
namespace Rstsr
open Spec

section
variable {α : Type}

/-- The device is the serial one, or the parallel one with a plan that splits within the range. -/
def ArgDevice (par : Option Planner) : Prop := ∀ s, par = some s → s.Fits

theorem ArgDevice.serial : ArgDevice none := fun _ h => nomatch h

/-- There is only one first best index. -/
theorem C40_unique (A : Arr α) (_hA : A.Full) (better : α → α → Prop) (i j : List Nat) (hi : A.FirstBest better i)
    (hj : A.FirstBest better j) : i = j := by
  obtain ⟨i1, x, i2, i3, i4⟩ := hi
  obtain ⟨j1, y, j2, j3, j4⟩ := hj
  rcases Nat.lt_trichotomy (rank .C A.shape i) (rank .C A.shape j) with h | h | h
  · exact absurd (j4 i x i1 i2 h) (i3 j y j1 j2)
  · exact rank_inj i1 j1 h
  · exact absurd (i4 j y j1 j2 h) (j3 i x i1 i2)

theorem strictWeak_lt [LinearOrder α] : StrictWeak (fun x y : α => x < y) :=
  ⟨fun _ => lt_irrefl _, fun _ _ _ => lt_trans, fun x y z h => by
    by_cases h' : x < z
    · exact .inl h'
    · exact .inr (lt_of_le_of_lt (not_lt.1 h') h)⟩

theorem strictWeak_gt [LinearOrder α] : StrictWeak (fun x y : α => y < x) :=
  ⟨fun _ => lt_irrefl _, fun _ _ _ h1 h2 => lt_trans h2 h1, fun x y z h => by
    by_cases h' : z < x
    · exact .inl h'
    · exact .inr (lt_of_lt_of_le h (not_lt.1 h'))⟩

/-- For any comparison closures that implement a strict weak order (whatever the equality closure says): the
result is the first best index; empty tensors are rejected. -/
theorem C40_unraveled (F : ArgCmp α) (better : α → α → Prop) (hb : StrictWeak better) (hF : F.Impl better)
    (par : Option Planner) (hp : ArgDevice par) (t : Tensor α) (h : t.WF) :
    (0 ∈ t.arr.shape → unraveledArgAll par F t.data t.layout = .error .invalidLayout) ∧
    (0 ∉ t.arr.shape → ∃ idx, unraveledArgAll par F t.data t.layout = .ok idx ∧ t.arr.FirstBest better idx) := by
  constructor
  · intro hz
    exact unraveledArgAll_empty par t.data (size_zero_iff.2 hz)
  · intro hz
    refine unraveledArgAll_ok hb hF par hp (fun i hi => ?_) (fun h0 => hz (size_zero_iff.1 h0)) t.arr rfl fun i hi => ?_
    · obtain ⟨c1, c2⟩ := C03_in_bounds t.data t.layout t h.1 h.2 i hi
      have c1 : 0 ≤ t.layout.addr i := c1
      have c2 : t.layout.addr i < (t.data.length : Int) := c2
      unfold Layout.pos
      omega
    · obtain ⟨x, g1, g2⟩ := h.get hi
      rw [g1, g2]

theorem minCmp_impl [LinearOrder α] (eq : α → α → Bool) :
    (minCmp (fun x y : α => decide (x < y)) eq).Impl fun x y => x < y :=
  ⟨fun _ => rfl, fun x y h => by simp [minCmp, h], fun x y h => by simpa [minCmp] using h⟩

theorem maxCmp_impl [LinearOrder α] (eq : α → α → Bool) :
    (maxCmp (fun x y : α => decide (x < y)) eq).Impl fun x y => y < x :=
  ⟨fun _ => rfl, fun x y h => by simp [maxCmp, h], fun x y h => by simpa [maxCmp] using h⟩

/-- `unraveled_argmin` and `unraveled_argmax` of the whole tensor. -/
theorem C40_unraveled_argminmax [LinearOrder α] (eq : α → α → Bool) (par : Option Planner) (hp : ArgDevice par)
    (t : Tensor α) (h : t.WF) (hz : 0 ∉ t.arr.shape) :
    (∃ idx, t.unraveledArgminAll par (fun x y => decide (x < y)) eq = .ok idx ∧ t.arr.FirstBest (fun x y => x < y) idx) ∧
    (∃ idx, t.unraveledArgmaxAll par (fun x y => decide (x < y)) eq = .ok idx ∧ t.arr.FirstBest (fun x y => y < x) idx) :=
  ⟨(C40_unraveled _ _ strictWeak_lt (minCmp_impl eq) par hp t h).2 hz,
    (C40_unraveled _ _ strictWeak_gt (maxCmp_impl eq) par hp t h).2 hz⟩

/-- `argmin` and `argmax` of the whole tensor: the row-major rank of the first best index. -/
theorem C40_argminmax [LinearOrder α] (eq : α → α → Bool) (par : Option Planner) (hp : ArgDevice par)
    (t : Tensor α) (h : t.WF) (hz : 0 ∉ t.arr.shape) :
    (∃ idx, t.arr.FirstBest (fun x y => x < y) idx ∧
      t.argminAll par (fun x y => decide (x < y)) eq = .ok (rank .C t.arr.shape idx)) ∧
    (∃ idx, t.arr.FirstBest (fun x y => y < x) idx ∧
      t.argmaxAll par (fun x y => decide (x < y)) eq = .ok (rank .C t.arr.shape idx)) := by
  obtain ⟨⟨i, h1, h2⟩, ⟨j, h3, h4⟩⟩ := C40_unraveled_argminmax eq par hp t h hz
  constructor
  · refine ⟨i, h2, ?_⟩
    unfold Tensor.unraveledArgminAll at h1
    unfold Tensor.argminAll argAll
    rw [h1]
    simp only [ok_bind, pure_eq_ok]
    have hl : i.length = t.layout.shape.length := h2.1.length_eq
    rw [ravelIndex_eq .C hl]
    rfl
  · refine ⟨j, h4, ?_⟩
    unfold Tensor.unraveledArgmaxAll at h3
    unfold Tensor.argmaxAll argAll
    rw [h3]
    simp only [ok_bind, pure_eq_ok]
    have hl : j.length = t.layout.shape.length := h4.1.length_eq
    rw [ravelIndex_eq .C hl]
    rfl

/-- Empty tensors are rejected. -/
theorem C40_empty (lt eq : α → α → Bool) (par : Option Planner) (t : Tensor α) (hz : 0 ∈ t.arr.shape) :
    t.unraveledArgminAll par lt eq = .error .invalidLayout ∧ t.unraveledArgmaxAll par lt eq = .error .invalidLayout ∧
    t.argminAll par lt eq = .error .invalidLayout ∧ t.argmaxAll par lt eq = .error .invalidLayout := by
  have := fun F : ArgCmp α => unraveledArgAll_empty (F := F) par t.data (size_zero_iff.2 hz)
  unfold Tensor.argminAll Tensor.argmaxAll argAll
  rw [this, this]
  exact ⟨this _, this _, rfl, rfl⟩

/-! ## Along axes -/

/-- What an arg-reduction along the axes `S` must return: a tensor over the other axes whose elements are the
first best indices of the parts. -/
def ArgResult (better : α → α → Prop) (A : Arr α) (S : List Nat) (R : Arr (List Nat)) : Prop :=
  R.shape = takeAxes (otherAxes A.shape.length S) A.shape ∧
  ∀ j, InRange j R.shape → ∃ idx, R.elem j = some idx ∧ (A.slice S j).FirstBest better idx

/-- The same with row-major ranks within the part. -/
def ArgRankResult (better : α → α → Prop) (A : Arr α) (S : List Nat) (R : Arr Nat) : Prop :=
  R.shape = takeAxes (otherAxes A.shape.length S) A.shape ∧
  ∀ j, InRange j R.shape → ∃ idx, R.elem j = some (rank .C (takeAxes S A.shape) idx) ∧ (A.slice S j).FirstBest better idx

theorem axes_result {F : ArgCmp α} {better : α → α → Prop} (hb : StrictWeak better) (hF : F.Impl better)
    (dflt : Order) (par : Option Planner) (hp : ArgDevice par) {t : Tensor α} (h : t.WF) (hz : 0 ∉ t.arr.shape)
    {axes : List Int} {lax lrest : Layout} (hs : t.layout.dimSplitAxes axes = .ok (lax, lrest))
    (hpar : par ≠ none → 1024 ≤ t.layout.size → lax.toColMajor dflt .K = .ok lax) :
    (∃ r : Tensor (List Nat), (do
        let (out, _, lout) ← unraveledArgAxes dflt par F t.data t.layout axes
        Tensor.newF out lout) = .ok r ∧ r.WF ∧
      ArgResult better t.arr (axes.map (normAxis t.arr.shape.length)) r.arr) ∧
    (∃ r : Tensor Nat, (do
        let (out, lout) ← argAxes dflt par .C F t.data t.layout axes
        Tensor.newF out lout) = .ok r ∧ r.WF ∧
      ArgRankResult better t.arr (axes.map (normAxis t.arr.shape.length)) r.arr) := by
  obtain ⟨d, lout, h1, h2, h3, h4, h5⟩ := unraveledArgAxes_ok hb hF dflt par hp h hz hs hpar
  obtain ⟨s1, s2, s3, s4, s5, s6⟩ := split_facts h hs
  have hsh : ∀ {β : Type} (d : List β), (⟨d, lout⟩ : Tensor β).arr.shape = lrest.shape := fun d => h2
  constructor
  · have hw : (⟨d, lout⟩ : Tensor (List Nat)).WF := h3.wf h4
    refine ⟨⟨d, lout⟩, by rw [h1]; exact hw.2, hw, (hsh d).trans s1, fun j hj => ?_⟩
    rw [hsh] at hj
    obtain ⟨idx, e1, e2⟩ := h5 j hj
    refine ⟨idx, ?_, e2⟩
    rw [elem_pos h3.fit (by rw [h2]; exact hj)]
    exact e1
  · have hw : (⟨d.map (ravelIndex .C lax.shape), lout⟩ : Tensor Nat).WF := h3.wf (by rw [List.length_map, h4])
    refine ⟨⟨d.map (ravelIndex .C lax.shape), lout⟩, ?_, hw, (hsh _).trans s1, fun j hj => ?_⟩
    · unfold argAxes; rw [h1]; exact hw.2
    rw [hsh] at hj
    obtain ⟨idx, e1, e2⟩ := h5 j hj
    refine ⟨idx, ?_, e2⟩
    rw [elem_pos h3.fit (by rw [h2]; exact hj)]
    show (d.map (ravelIndex .C lax.shape))[lout.pos j]? = _
    have hl : idx.length = (takeAxes (axes.map (normAxis t.arr.shape.length)) t.arr.shape).length := e2.1.length_eq
    rw [List.getElem?_map, e1, Option.map_some, s4, ravelIndex_eq .C hl]

/-- `argmin` along axes on the serial device: for legal axes without repetition on a non-empty tensor. -/
theorem C40_argmin_axes [LinearOrder α] (eq : α → α → Bool) (dflt : Order) (t : Tensor α) (h : t.WF)
    (hz : 0 ∉ t.arr.shape) (axes : List Int) (ha : ∀ a ∈ axes, AxisOk t.arr.shape.length a)
    (hn : (axes.map (normAxis t.arr.shape.length)).Nodup) :
    (∃ r, t.unraveledArgminAxes dflt none (fun x y => decide (x < y)) eq axes = .ok r ∧ r.WF ∧
      ArgResult (fun x y => x < y) t.arr (axes.map (normAxis t.arr.shape.length)) r.arr) ∧
    (∃ r, t.argminAxes dflt none (fun x y => decide (x < y)) eq axes = .ok r ∧ r.WF ∧
      ArgRankResult (fun x y => x < y) t.arr (axes.map (normAxis t.arr.shape.length)) r.arr) := by
  have hd : t.layout.ndim = t.arr.shape.length := by
    show t.layout.axes.length = (t.layout.axes.map _).length
    simp
  obtain ⟨⟨lax, lrest⟩, hs⟩ := (C52_split_axes_accept_iff t.layout h.fit.valid h.1 hz axes).2
    ⟨by rw [hd]; exact ha, by rw [hd]; exact hn⟩
  exact axes_result strictWeak_lt (minCmp_impl eq) dflt none .serial h hz hs fun h => absurd rfl h

/-- `argmax` along axes on the serial device. -/
theorem C40_argmax_axes [LinearOrder α] (eq : α → α → Bool) (dflt : Order) (t : Tensor α) (h : t.WF)
    (hz : 0 ∉ t.arr.shape) (axes : List Int) (ha : ∀ a ∈ axes, AxisOk t.arr.shape.length a)
    (hn : (axes.map (normAxis t.arr.shape.length)).Nodup) :
    (∃ r, t.unraveledArgmaxAxes dflt none (fun x y => decide (x < y)) eq axes = .ok r ∧ r.WF ∧
      ArgResult (fun x y => y < x) t.arr (axes.map (normAxis t.arr.shape.length)) r.arr) ∧
    (∃ r, t.argmaxAxes dflt none (fun x y => decide (x < y)) eq axes = .ok r ∧ r.WF ∧
      ArgRankResult (fun x y => y < x) t.arr (axes.map (normAxis t.arr.shape.length)) r.arr) := by
  have hd : t.layout.ndim = t.arr.shape.length := by
    show t.layout.axes.length = (t.layout.axes.map _).length
    simp
  obtain ⟨⟨lax, lrest⟩, hs⟩ := (C52_split_axes_accept_iff t.layout h.fit.valid h.1 hz axes).2
    ⟨by rw [hd]; exact ha, by rw [hd]; exact hn⟩
  exact axes_result strictWeak_gt (maxCmp_impl eq) dflt none .serial h hz hs fun h => absurd rfl h

theorem toColMajor_single (dflt : Order) {l : Layout} (hl : l.Valid) {x : Axis} (hx : l.axes = [x]) (h0 : 0 ≤ x.str)
    (hz : x.dim ≠ 0) : l.toColMajor dflt .K = .ok l := by
  obtain ⟨ax, off⟩ := l
  simp only at hx
  subst hx
  have hs : (⟨[x], off⟩ : Layout).size ≠ 0 := by simpa [Layout.size, Layout.shape] using hz
  rw [Layout.toColMajor, greedy_keep (valid_iff.1 hl) hs]
  show Except.ok _ = _
  have e1 : greedyIndex ⟨[x], off⟩ = [0] := rfl
  have e2 : absAxis x = x := by
    cases x with
    | mk d s =>
      simp only at h0
      unfold absAxis
      rw [if_neg (by simp only; omega)]
  have e3 : loSum [x] = 0 := by simp [loSum]; intro h; omega
  simp only [e1, List.map_cons, List.map_nil, e2, e3, pick, List.getD_cons_zero, Int.add_zero]

theorem par_axis_keeps (dflt : Order) (t : Tensor α) (hz : 0 ∉ t.arr.shape) (axes : List Int)
    (ha : ∀ a ∈ axes, AxisOk t.arr.shape.length a)
    (hpar : t.arr.shape.prod < 1024 ∨ ∃ a, axes = [a] ∧ 0 ≤ t.layout.stride.getD (normAxis t.arr.shape.length a) 0)
    {lax lrest : Layout} (hs : t.layout.dimSplitAxes axes = .ok (lax, lrest)) (hbig : 1024 ≤ t.layout.size) :
    lax.toColMajor dflt .K = .ok lax := by
  have hd : t.layout.ndim = t.arr.shape.length := by
    show t.layout.axes.length = (t.layout.axes.map _).length
    simp
  rcases hpar with hc | ⟨a, rfl, h0⟩
  · have : t.layout.size = t.arr.shape.prod := rfl
    omega
  · have hx : lax.axes = [t.layout.axes.getD (normAxis t.arr.shape.length a) default] ∧ lax.Valid := by
      unfold Layout.dimSplitAxes at hs
      obtain ⟨v, hv, hs⟩ := bind_ok.1 hs
      obtain ⟨-, -, rfl⟩ := normalizeAxes_ok.1 hv
      obtain ⟨a', ha', hs⟩ := bind_ok.1 hs
      obtain ⟨b', hb', hs⟩ := bind_ok.1 hs
      obtain ⟨k, rfl⟩ := accepted_of_newAxes ha'
      cases hs
      rw [← hd]
      exact ⟨rfl, valid_iff.2 k⟩
    have hlt : normAxis t.arr.shape.length a < t.layout.axes.length := by
      have := normAxis_lt (ha a (by simp))
      rw [← hd] at this ⊢
      exact this
    have hmem : t.layout.axes.getD (normAxis t.arr.shape.length a) default ∈ t.layout.axes := by
      rw [List.getD_eq_getElem?_getD, List.getElem?_eq_getElem hlt, Option.getD_some]
      exact List.getElem_mem hlt
    refine toColMajor_single dflt hx.2 hx.1 ?_ fun h0 => hz ?_
    · have e : t.layout.stride = t.layout.axes.map Axis.str := rfl
      rw [e, List.getD_eq_getElem?_getD, List.getElem?_map, List.getElem?_eq_getElem hlt] at h0
      rw [List.getD_eq_getElem?_getD, List.getElem?_eq_getElem hlt]
      exact h0
    · rw [← h0]
      exact List.mem_map_of_mem hmem

/-- On the parallel device the claim holds for tensors below the parallel size (1024) and for reductions along one
axis whose stride is not negative. Missing: other reductions, for which it is false (the two witnesses below). -/
theorem C40_argmin_axes_par_partial [LinearOrder α] (eq : α → α → Bool) (dflt : Order) (s : Planner) (hp : s.Fits)
    (t : Tensor α) (h : t.WF) (hz : 0 ∉ t.arr.shape) (axes : List Int) (ha : ∀ a ∈ axes, AxisOk t.arr.shape.length a)
    (hn : (axes.map (normAxis t.arr.shape.length)).Nodup)
    (hpar : t.arr.shape.prod < 1024 ∨ ∃ a, axes = [a] ∧ 0 ≤ t.layout.stride.getD (normAxis t.arr.shape.length a) 0) :
    (∃ r, t.unraveledArgminAxes dflt (some s) (fun x y => decide (x < y)) eq axes = .ok r ∧ r.WF ∧
      ArgResult (fun x y => x < y) t.arr (axes.map (normAxis t.arr.shape.length)) r.arr) ∧
    (∃ r, t.argminAxes dflt (some s) (fun x y => decide (x < y)) eq axes = .ok r ∧ r.WF ∧
      ArgRankResult (fun x y => x < y) t.arr (axes.map (normAxis t.arr.shape.length)) r.arr) := by
  have hd : t.layout.ndim = t.arr.shape.length := by
    show t.layout.axes.length = (t.layout.axes.map _).length
    simp
  obtain ⟨⟨lax, lrest⟩, hs⟩ := (C52_split_axes_accept_iff t.layout h.fit.valid h.1 hz axes).2
    ⟨by rw [hd]; exact ha, by rw [hd]; exact hn⟩
  exact axes_result strictWeak_lt (minCmp_impl eq) dflt (some s) (fun _ e => by cases e; exact hp) h hz hs
    fun _ hbig => par_axis_keeps dflt t hz axes ha hpar hs hbig

/-- The same for the greatest element. -/
theorem C40_argmax_axes_par_partial [LinearOrder α] (eq : α → α → Bool) (dflt : Order) (s : Planner) (hp : s.Fits)
    (t : Tensor α) (h : t.WF) (hz : 0 ∉ t.arr.shape) (axes : List Int) (ha : ∀ a ∈ axes, AxisOk t.arr.shape.length a)
    (hn : (axes.map (normAxis t.arr.shape.length)).Nodup)
    (hpar : t.arr.shape.prod < 1024 ∨ ∃ a, axes = [a] ∧ 0 ≤ t.layout.stride.getD (normAxis t.arr.shape.length a) 0) :
    (∃ r, t.unraveledArgmaxAxes dflt (some s) (fun x y => decide (x < y)) eq axes = .ok r ∧ r.WF ∧
      ArgResult (fun x y => y < x) t.arr (axes.map (normAxis t.arr.shape.length)) r.arr) ∧
    (∃ r, t.argmaxAxes dflt (some s) (fun x y => decide (x < y)) eq axes = .ok r ∧ r.WF ∧
      ArgRankResult (fun x y => y < x) t.arr (axes.map (normAxis t.arr.shape.length)) r.arr) := by
  have hd : t.layout.ndim = t.arr.shape.length := by
    show t.layout.axes.length = (t.layout.axes.map _).length
    simp
  obtain ⟨⟨lax, lrest⟩, hs⟩ := (C52_split_axes_accept_iff t.layout h.fit.valid h.1 hz axes).2
    ⟨by rw [hd]; exact ha, by rw [hd]; exact hn⟩
  exact axes_result strictWeak_gt (maxCmp_impl eq) dflt (some s) (fun _ e => by cases e; exact hp) h hz hs
    fun _ hbig => par_axis_keeps dflt t hz axes ha hpar hs hbig

end

/-! ## Concrete cases and witnesses -/

def tieT : Tensor Nat := ⟨[3, 1, 2, 1, 5, 5], ⟨[⟨2, -3⟩, ⟨3, 1⟩], 3⟩⟩

example : tieT.WF ∧ 0 ∉ tieT.arr.shape ∧ tieT.arr.elements = [1, 5, 5, 3, 1, 2] := ⟨⟨by decide, rfl⟩, by decide, by decide⟩
example : tieT.unraveledArgminAll none (fun x y => decide (x < y)) (· == ·) = .ok [0, 0] ∧
    tieT.unraveledArgmaxAll none (fun x y => decide (x < y)) (· == ·) = .ok [0, 1] ∧
    tieT.argmaxAll none (fun x y => decide (x < y)) (· == ·) = .ok 1 := by decide
example : tieT.argminAxes .C none (fun x y => decide (x < y)) (· == ·) [-1] = .ok ⟨[0, 1], ⟨[⟨2, 1⟩], 0⟩⟩ := by decide
example : (∀ a ∈ [(-1 : Int)], AxisOk tieT.arr.shape.length a) ∧
    ([(-1 : Int)].map (normAxis tieT.arr.shape.length)).Nodup := by
  refine ⟨?_, by decide⟩
  intro a ha
  simp only [List.mem_singleton] at ha
  subst ha
  exact ⟨by decide, by decide⟩

/-- The plan that never splits. -/
def onePlan : Planner := fun _ => .run
theorem onePlan_fits : onePlan.Fits := fun _ => trivial
/-- The plan that splits once in the middle. -/
def twoPlan : Planner := fun n => .split (n / 2) .run .run
theorem twoPlan_fits : twoPlan.Fits := fun n => ⟨Nat.div_le_self n 2, trivial, trivial⟩
example : ArgDevice (some twoPlan) := fun _ e => by cases e; exact twoPlan_fits

/-- A vector of 1024 elements, seen in reverse. -/
def backT : Tensor Nat := ⟨List.replicate 1024 7, ⟨[⟨1024, -1⟩], 1023⟩⟩

theorem backT_wf : backT.WF := by
  refine ⟨by decide, ?_⟩
  unfold Tensor.newF
  rw [show backT.data.length = 1024 from List.length_replicate ..]
  rfl

theorem fold_second_panics {α : Type} (F : ArgCmp α) (a : List α) (p q : List Nat × Nat) (xs : List (List Nat × Nat))
    (hq : a.length ≤ q.2) : foldRes (F.fold a) none (p :: q :: xs) = .error .panic := by
  have hr : readAt a q.2 = .error .panic := by unfold readAt; rw [List.getElem?_eq_none hq]
  simp only [foldRes, ArgCmp.fold]
  cases h : readAt a p.2 with
  | error e =>
    have : e = .panic := by
      unfold readAt at h
      split at h
      · cases h
      · cases h; rfl
    subst this; rfl
  | ok v =>
    simp only [ok_bind, pure_eq_ok, hr]
    rfl

theorem range_two (n : Nat) : List.range (n + 2) = 0 :: 1 :: (List.range n).map (fun k => k + 2) := by
  rw [List.range_succ_eq_map, List.range_succ_eq_map, List.map_cons, List.map_map]
  rfl

/-- All axes reduced: one cell, one inner reduction. -/
theorem one_cell_par {α : Type} (F : ArgCmp α) (a : List α) (l : Layout) (axes : List Int) (s : Planner) (lax m : Layout) (off : Nat)
    (hs : ¬ l.size < reduceParSwitch) (e1 : l.dimSplitAxes axes = .ok (lax, ⟨[], off⟩)) (e2 : lax.toColMajor .C .K = .ok m)
    (e4 : Layout.toColMajorMany .C [⟨[], 0⟩, ⟨[], off⟩] .K = .ok [⟨[], 0⟩, ⟨[], off⟩]) (e5 : rowItems ⟨[], off⟩ = .ok [off])
    (e3 : (⟨[], off⟩ : Layout).forArrayCopy .C .K = .ok ⟨[], 0⟩) :
    reduceAxesUnraveledArgPar .C s F a l axes =
      (reduceAllUnraveledArgPar s F a ⟨m.axes, off⟩ >>= fun idx => .ok ([idx], m, ⟨[], 0⟩)) := by
  unfold reduceAxesUnraveledArgPar
  rw [if_neg hs]
  simp only [e1, e2, e3, e4, show rowItems ⟨[], 0⟩ = .ok [0] by decide, e5, ok_bind, List.zip_cons_cons,
    List.zip_nil_right, runAll]
  cases reduceAllUnraveledArgPar s F a ⟨m.axes, off⟩ <;> rfl

theorem one_cell {α : Type} (F : ArgCmp α) (a : List α) (l : Layout) (axes : List Int) (lax : Layout) (off : Nat)
    (hs : ¬ l.size = 0) (e1 : l.dimSplitAxes axes = .ok (lax, ⟨[], off⟩))
    (e4 : Layout.toColMajorMany .C [⟨[], 0⟩, ⟨[], off⟩] .K = .ok [⟨[], 0⟩, ⟨[], off⟩]) (e5 : rowItems ⟨[], off⟩ = .ok [off])
    (e3 : (⟨[], off⟩ : Layout).forArrayCopy .C .K = .ok ⟨[], 0⟩) :
    reduceAxesUnraveledArg .C F a l axes =
      (reduceAllUnraveledArg F a ⟨lax.axes, off⟩ >>= fun idx => .ok ([idx], lax, ⟨[], 0⟩)) := by
  unfold reduceAxesUnraveledArg
  rw [if_neg hs]
  simp only [e1, e3, e4, show rowItems ⟨[], 0⟩ = .ok [0] by decide, e5, ok_bind, List.zip_cons_cons,
    List.zip_nil_right, runAll]
  cases reduceAllUnraveledArg F a ⟨lax.axes, off⟩ <;> rfl

/-- Fails: on the parallel device `argmin` along the only axis of a reversed vector of 1024 elements panics
(the strides are made positive, then the offset of the reversed view is put back). -/
theorem C40_par_reversed_panics :
    backT.WF ∧ 0 ∉ backT.arr.shape ∧ (∀ a ∈ [(0 : Int)], AxisOk backT.arr.shape.length a) ∧
      ([(0 : Int)].map (normAxis backT.arr.shape.length)).Nodup ∧
      ∀ eq, backT.unraveledArgminAxes .C (some onePlan) (fun x y => decide (x < y)) eq [0] = .error .panic := by
  refine ⟨backT_wf, by decide, ?_, by decide, fun eq => ?_⟩
  · intro a ha
    simp only [List.mem_singleton] at ha
    subst ha
    exact ⟨by decide, by decide⟩
  have inner : ∀ eq, reduceAllUnraveledArgPar onePlan (minCmp (fun x y : Nat => decide (x < y)) eq) (List.replicate 1024 7)
      ⟨[⟨1024, 1⟩], 1023⟩ = .error .panic := by
    intro eq
    have hn : NonNegative (⟨[⟨1024, 1⟩], 1023⟩ : Layout) := by
      intro i hi
      show 0 ≤ (⟨[⟨1024, 1⟩], 1023⟩ : Layout).addr i
      match i, hi with
      | [k], _ => simp [addr_mk, dot]; omega
    obtain ⟨it, h1, h2, h3, h4, h5, h6⟩ := Iter.new_spec .C (⟨[⟨1024, 1⟩], 1023⟩ : Layout)
    have hidx : it.idxs = [0] :: [1] :: (List.range 1022).map fun k => [k + 2] := by
      rw [Iter.idxs, h3, h4, h5, h6, List.drop_zero, Nat.sub_zero, List.take_of_length_le]
      · show (List.range (1022 + 2)).flatMap (fun i => [[]].map (i :: ·)) = _
        rw [range_two]
        simp [List.map_eq_flatMap, List.flatMap_assoc]
      · rw [length_all]; exact Nat.le_refl _
    unfold reduceAllUnraveledArgPar
    rw [if_neg (by decide), if_neg (by decide), h1]
    simp only [ok_bind]
    show (ArgCmp.par _ _ _ .run it >>= _) = _
    rw [ArgCmp.par, collectIndexed_spec h2 (h3 ▸ hn) _ (Nat.lt_succ_self _), hidx, h3]
    simp only [ok_bind, List.map_cons]
    rw [fold_second_panics]
    · rfl
    · rw [List.length_replicate]; decide
  unfold Tensor.unraveledArgminAxes
  simp only [unraveledArgAxes]
  rw [one_cell_par _ backT.data backT.layout [0] onePlan ⟨[⟨1024, -1⟩], 1023⟩ ⟨[⟨1024, 1⟩], 0⟩ 1023
    (by decide) (by decide) (by decide) (by decide) (by decide) (by decide), Nat.cast_ofNat,
    show backT.data = List.replicate 1024 7 by unfold backT; with_reducible rfl, inner eq]
  simp only [error_bind]

/-- A row-major 32 × 32 matrix whose least element is at row 0, column 1. -/
def squareT : Tensor Nat := ⟨5 :: 0 :: List.replicate 1022 5, ⟨[⟨32, 32⟩, ⟨32, 1⟩], 0⟩⟩

theorem squareT_len : squareT.data.length = 1024 := by
  unfold squareT
  simp only [List.length_cons, List.length_replicate]

theorem squareT_wf : squareT.WF := by
  refine ⟨by decide, ?_⟩
  unfold Tensor.newF
  rw [squareT_len]
  rfl

theorem squareT_get {k : Nat} (hk : k < 1024) : squareT.data[k]? = some (if k = 1 then 0 else 5) := by
  unfold squareT
  match k with
  | 0 => rfl
  | 1 => rfl
  | k + 2 =>
    simp only [List.getElem?_cons_succ]
    rw [List.getElem?_replicate, if_pos (by omega), if_neg (by omega)]

/-- Fails: on the parallel device the coordinates come back in the order of the strides. The least element of
a row-major 32 × 32 matrix is at `[0, 1]` (the serial device says so); the parallel device says `[1, 0]`. -/
theorem C40_par_axes_swapped (eq : Nat → Nat → Bool) :
    squareT.WF ∧ squareT.arr.FirstBest (fun x y => x < y) [0, 1] ∧
    squareT.unraveledArgminAxes .C (some twoPlan) (fun x y => decide (x < y)) eq [0, 1] = .ok ⟨[[1, 0]], ⟨[], 0⟩⟩ ∧
    squareT.unraveledArgminAxes .C none (fun x y => decide (x < y)) eq [0, 1] = .ok ⟨[[0, 1]], ⟨[], 0⟩⟩ := by
  have two : ∀ {j : List Nat}, InRange j [32, 32] → ∃ r c, j = [r, c] ∧ r < 32 ∧ c < 32 := by
    intro j hj
    match j, hj with
    | [r, c], h => exact ⟨r, c, rfl, by simpa using h.1, by simpa using h.2.1⟩
  -- both layouts: the element at `[0, 1]` resp. `[1, 0]` is the only least one
  have best : ∀ (p q : Nat), p = 32 ∧ q = 1 ∨ p = 1 ∧ q = 32 → ∀ (A : Arr Nat), A.shape = [32, 32] →
      (∀ r c, r < 32 → c < 32 → A.elem [r, c] = some (if r * p + c * q = 1 then 0 else 5)) →
      ∀ idx, A.FirstBest (fun x y => x < y) idx ↔ idx = [if p = 1 then 1 else 0, if q = 1 then 1 else 0] := by
    intro p q hpq A hA he idx
    have hfull : A.Full := by
      intro j hj
      rw [hA] at hj
      obtain ⟨r, c, rfl, h1, h2⟩ := two hj
      exact ⟨_, he r c h1 h2⟩
    have hb : A.FirstBest (fun x y => x < y) [if p = 1 then 1 else 0, if q = 1 then 1 else 0] := by
      refine ⟨by rw [hA]; rcases hpq with ⟨rfl, rfl⟩ | ⟨rfl, rfl⟩ <;> decide, 0, ?_, fun j y hj hy => Nat.not_lt_zero y, ?_⟩
      · rw [he _ _ (by split <;> decide) (by split <;> decide)]
        rcases hpq with ⟨rfl, rfl⟩ | ⟨rfl, rfl⟩ <;> rfl
      · intro j y hj hy hlt
        rw [hA] at hj hlt
        obtain ⟨r, c, rfl, h1, h2⟩ := two hj
        rw [he r c h1 h2] at hy
        cases hy
        rw [if_neg]
        · decide
        · intro hc
          rcases hpq with ⟨rfl, rfl⟩ | ⟨rfl, rfl⟩
          · simp [rank, rankC] at hlt; omega
          · simp [rank, rankC] at hlt; omega
    exact ⟨fun h => C40_unique A hfull _ _ _ h hb, fun h => h ▸ hb⟩
  have inner : ∀ (par : Option Planner), ArgDevice par → ∀ (p q : Nat), p = 32 ∧ q = 1 ∨ p = 1 ∧ q = 32 →
      unraveledArgAll par (minCmp (fun x y : Nat => decide (x < y)) eq) squareT.data ⟨[⟨32, p⟩, ⟨32, q⟩], (0 : Nat)⟩ =
        .ok [if p = 1 then 1 else 0, if q = 1 then 1 else 0] := by
    intro par hp p q hpq
    have hpos : ∀ r c, (⟨[⟨32, p⟩, ⟨32, q⟩], (0 : Nat)⟩ : Layout).addr [r, c] = ((r * p + c * q : Nat) : Int) := by
      intro r c
      rw [addr_mk]
      simp [dot]
    have hlt : ∀ r c, r < 32 → c < 32 → r * p + c * q < 1024 := by
      intro r c h1 h2
      rcases hpq with ⟨rfl, rfl⟩ | ⟨rfl, rfl⟩ <;> omega
    have hcell : ∀ r c, r < 32 → c < 32 → squareT.data[(⟨[⟨32, p⟩, ⟨32, q⟩], (0 : Nat)⟩ : Layout).pos [r, c]]? =
        some (if r * p + c * q = 1 then 0 else 5) := by
      intro r c h1 h2
      unfold Layout.pos
      rw [hpos, Int.toNat_natCast, squareT_get (hlt r c h1 h2)]
    obtain ⟨idx, h1, h2⟩ := unraveledArgAll_ok strictWeak_lt (minCmp_impl eq) par hp (a := squareT.data)
      (l := ⟨[⟨32, p⟩, ⟨32, q⟩], (0 : Nat)⟩)
      (by
        intro i hi
        obtain ⟨r, c, rfl, h1, h2⟩ := two hi
        have := hlt r c h1 h2
        unfold Layout.pos
        rw [hpos, squareT_len]
        omega) (by show (32 * (32 * 1)) ≠ 0; decide)
      ⟨[32, 32], fun i => squareT.data[(⟨[⟨32, p⟩, ⟨32, q⟩], (0 : Nat)⟩ : Layout).pos i]?⟩ rfl (fun i hi => rfl)
    rw [h1, (best p q hpq _ rfl hcell idx).1 h2]
  refine ⟨squareT_wf, (best 32 1 (.inl ⟨rfl, rfl⟩) squareT.arr rfl ?_ _).2 rfl, ?_, ?_⟩
  · intro r c h1 h2
    show element squareT.data squareT.layout.stride squareT.layout.offset [r, c] = _
    have ha : squareT.layout.addr [r, c] = ((r * 32 + c * 1 : Nat) : Int) := by
      show (⟨[⟨32, 32⟩, ⟨32, 1⟩], 0⟩ : Layout).addr [r, c] = _
      rw [addr_mk]
      simp [dot]
    rw [element_eq (by rw [ha]; omega)]
    unfold Layout.pos
    rw [ha, Int.toNat_natCast, squareT_get (by omega)]
  · have := inner (some twoPlan) (fun _ e => by cases e; exact twoPlan_fits) 1 32 (.inr ⟨rfl, rfl⟩)
    have : reduceAllUnraveledArgPar twoPlan (minCmp (fun x y : Nat => decide (x < y)) eq) squareT.data
        ⟨[⟨32, 1⟩, ⟨32, 32⟩], (0 : Nat)⟩ = .ok [1, 0] := by
      simpa only [unraveledArgAll, Nat.cast_one, Nat.cast_ofNat, if_true, show ¬ (32 : Nat) = 1 by decide, if_false] using this
    unfold Tensor.unraveledArgminAxes
    simp only [unraveledArgAxes]
    rw [one_cell_par _ squareT.data squareT.layout [0, 1] twoPlan ⟨[⟨32, 32⟩, ⟨32, 1⟩], 0⟩ ⟨[⟨32, 1⟩, ⟨32, 32⟩], 0⟩ 0
      (by decide) (by decide) (by decide) (by decide) (by decide) (by decide), this]
    rfl
  · have := inner none .serial 32 1 (.inl ⟨rfl, rfl⟩)
    have : reduceAllUnraveledArg (minCmp (fun x y : Nat => decide (x < y)) eq) squareT.data
        ⟨[⟨32, 32⟩, ⟨32, 1⟩], (0 : Nat)⟩ = .ok [0, 1] := by
      simpa only [unraveledArgAll, Nat.cast_one, Nat.cast_ofNat, if_true, show ¬ (32 : Nat) = 1 by decide, if_false] using this
    unfold Tensor.unraveledArgminAxes
    simp only [unraveledArgAxes]
    rw [one_cell _ squareT.data squareT.layout [0, 1] ⟨[⟨32, 32⟩, ⟨32, 1⟩], 0⟩ 0
      (by decide) (by decide) (by decide) (by decide) (by decide), this]
    rfl

end Rstsr
