import Verif.Model.AxesIter
import Verif.Spec.Parts
import Verif.Proof.Slices
import Verif.Thm.Rearrange
import Verif.Thm.Matmul
/-!
# Property C52, second half: iterating over axes
-/
namespace Rstsr
open Spec
variable {α : Type}

/-- The order of the iterator for a definite order. -/
def IterOrder.of : Order → IterOrder
  | .C => .C
  | .F => .F

/-! ## The iterator and its two layouts -/

/-- The layout of the iterated axes. -/
def axesLayout (l : Layout) (A : List Nat) : Layout := ⟨pick l.axes A, l.offset⟩
/-- The layout of the other axes at a position. -/
def restLayout (l : Layout) (A : List Nat) (off : Int) : Layout := ⟨pick l.axes (otherAxes l.ndim A), off⟩

theorem axesFromEnd_eq {n : Nat} {axes : List Int} (h : ∀ a ∈ axes, AxisOk n a) :
    axesFromEnd n axes = (axes.map (normAxis n)).map fun k : Nat => (k : Int) := by
  unfold axesFromEnd
  rw [List.map_map]
  apply List.map_congr_left
  intro a ha
  have := h a ha
  unfold AxisOk at this
  simp only [Function.comp, normAxis]
  split <;> split <;> omega

theorem axesIter_eq (dflt : Order) (t : Tensor α) {axes : List Int} (hne : axes ≠ [])
    (hax : ∀ a ∈ axes, AxisOk t.layout.ndim a) (hnd : (axes.map (normAxis t.layout.ndim)).Nodup) (order : IterOrder) :
    t.axesIter dflt axes order =
      (Iter.ofOrder dflt (axesLayout t.layout (axes.map (normAxis t.layout.ndim))) order).bind fun it =>
        .ok ⟨it, ⟨t.data, restLayout t.layout (axes.map (normAxis t.layout.ndim)) t.layout.offset⟩⟩ := by
  unfold Tensor.axesIter
  simp only [axesFromEnd_eq hax]
  have hlt : ∀ a ∈ axes.map (normAxis t.layout.ndim), a < t.layout.axes.length := by
    intro a ha
    obtain ⟨b, hb, rfl⟩ := List.mem_map.1 ha
    exact normAxis_lt (hax b hb)
  have hA : axes.map (normAxis t.layout.ndim) ≠ [] := by simpa using hne
  generalize axes.map (normAxis t.layout.ndim) = A at *
  have e1 : axesChecked (A.map fun k : Nat => (k : Int)) = .ok () := by
    unfold axesChecked
    have h1 : ((A.map fun k : Nat => (k : Int)).head?.any (· < 0)) = false := by
      cases A <;> simp
    have h2 : (A.map fun k : Nat => (k : Int)).Nodup := hnd.map (fun a b h => by simpa using h)
    rw [h1, if_neg (by simp), if_neg (by simpa using hA), if_pos h2]
  have e2 : (A.map fun k : Nat => (k : Int)).mapM (axisAtOrPanic t.layout) = .ok (pick t.layout.axes A) := by
    unfold pick
    clear hnd hA e1
    induction A with
    | nil => rfl
    | cons a A ih =>
      have ha := hlt a (by simp)
      have : axisAtOrPanic t.layout (a : Int) = .ok (t.layout.axes.getD a default) := by
        unfold axisAtOrPanic
        rw [if_neg (by omega), Int.toNat_natCast, List.getElem?_eq_getElem ha, List.getD_eq_getElem?_getD,
          List.getElem?_eq_getElem ha]
        rfl
      simp only [List.map_cons, List.mapM_cons, this, ok_bind, ih fun b hb => hlt b (by simp [hb]), pure_eq_ok]
  have e3 : ((List.range t.layout.ndim).filter fun (k : Nat) => !(A.map fun k : Nat => (k : Int)).contains (k : Int))
      = otherAxes t.layout.ndim A := by
    unfold otherAxes; congr 1; funext a; simp
  have e4 : (otherAxes t.layout.ndim A).filterMap (fun k => t.layout.axes[k]?) = pick t.layout.axes (otherAxes t.layout.ndim A) := by
    have : ∀ k ∈ otherAxes t.layout.ndim A, k < t.layout.axes.length := fun k hk => (mem_otherAxes.1 hk).1
    unfold pick
    generalize otherAxes t.layout.ndim A = R at this
    induction R with
    | nil => rfl
    | cons a R ih =>
      have ha := this a (by simp)
      rw [List.filterMap_cons, ih fun b hb => this b (by simp [hb]), List.map_cons, List.getElem?_eq_getElem ha,
        List.getD_eq_getElem?_getD, List.getElem?_eq_getElem ha]
      rfl
  rw [e1, ok_bind, e2, ok_bind, e3, e4]
  rfl

/-- What the views are: the positions of the view at index `i` of the axes `A`. -/
structure Shows (t : Tensor α) (A i : List Nat) (v : Tensor α) : Prop where
  data : v.data = t.data
  shape : v.layout.shape = takeAxes (otherAxes t.arr.shape.length A) t.arr.shape
  addr : ∀ j, InRange j v.layout.shape → InRange (mergeIndex t.arr.shape.length A i j) t.arr.shape ∧
    v.layout.addr j = t.layout.addr (mergeIndex t.arr.shape.length A i j) ∧
    takeAxes A (mergeIndex t.arr.shape.length A i j) = i ∧
    takeAxes (otherAxes t.arr.shape.length A) (mergeIndex t.arr.shape.length A i j) = j

theorem Shows.same {t v : Tensor α} (h : t.WF) {A i : List Nat} (hs : Shows t A i v) : (t.arr.part A i).Same v.arr := by
  refine ⟨hs.shape, fun j hj => ?_⟩
  obtain ⟨h1, h2, -, -⟩ := hs.addr j (by rw [hs.shape]; exact hj)
  obtain ⟨x, -, hx⟩ := h.get h1
  refine ⟨x, hx, ?_⟩
  have : v.arr.elem j = t.arr.elem (mergeIndex t.arr.shape.length A i j) := by
    show element _ _ _ _ = element _ _ _ _
    unfold element
    have e : position v.layout.stride v.layout.offset j = position t.layout.stride t.layout.offset
      (mergeIndex t.arr.shape.length A i j) := h2
    rw [e, hs.data]
  rw [this, hx]

theorem ndim_arr (t : Tensor α) : t.layout.ndim = t.arr.shape.length := by
  show t.layout.axes.length = (t.layout.axes.map _).length
  simp

theorem shows_at {t : Tensor α} {A : List Nat} (hnd : A.Nodup) (hlt : ∀ a ∈ A, a < t.layout.axes.length)
    {i : List Nat} (hi : InRange i (axesLayout t.layout A).shape) (h0 : 0 ≤ (axesLayout t.layout A).addr i) :
    Shows t A i ⟨t.data, restLayout t.layout A ((axesLayout t.layout A).addr i).toNat⟩ := by
  obtain ⟨g1, g2, g3, g4⟩ := split_laws (l := t.layout) hnd hlt
  have hn := ndim_arr t
  have hS : ∀ a ∈ A, a < t.arr.shape.length := fun a ha => by rw [← hn]; exact hlt a ha
  refine ⟨rfl, by rw [← hn]; exact g2, fun j hj => ?_⟩
  obtain ⟨k, hk, e1, e2⟩ := g4 i j hi hj
  have hk' : InRange k t.arr.shape := hk
  have hm : mergeIndex t.arr.shape.length A i j = k := by
    rw [← e1, ← e2, hn]
    exact mergeIndex_take hS hk'.length_eq
  rw [hm, ← hn]
  refine ⟨hk, ?_, e1, e2⟩
  have e3 := (g3 k hk).2.2
  rw [e1, e2] at e3
  rw [e3]
  show (restLayout t.layout A _).addr j = _
  rw [restLayout, addr_mk, Int.toNat_of_nonneg h0, axesLayout, addr_mk]

theorem axesLayout_shape {t : Tensor α} {A : List Nat} (hlt : ∀ a ∈ A, a < t.layout.axes.length) :
    (axesLayout t.layout A).shape = takeAxes A t.arr.shape := (takeAxes_dims hlt).symm

theorem axesLayout_nonneg {t : Tensor α} (h : t.WF) (hs : t.Settled) {A : List Nat} (hnd : A.Nodup)
    (hlt : ∀ a ∈ A, a < t.layout.axes.length) : NonNegative (axesLayout t.layout A) := by
  have hse : t.layout.Settled := h.fit.settled hs
  let l' : Layout := ⟨t.layout.axes.map fun x => ⟨max 1 x.dim, x.str⟩, t.layout.offset⟩
  have hl' : l'.shape = t.layout.shape.map (max 1) := by simp [l', Layout.shape, List.map_map, Function.comp_def]
  have hn' : l'.ndim = t.layout.ndim := by simp [l', Layout.ndim]
  obtain ⟨g1, g2, g3, g4⟩ := split_laws (l := l') hnd (by simpa [l'] using hlt)
  intro i hi
  have hd : ∀ a : Nat, l'.axes.getD a default = ⟨max 1 (t.layout.axes.getD a default).dim, (t.layout.axes.getD a default).str⟩ ∨
      t.layout.axes.length ≤ a := by
    intro a
    by_cases ha : a < t.layout.axes.length
    · left
      simp [l', List.getD_eq_getElem?_getD, ha]
    · right; omega
  have hpick : pick l'.axes A = (pick t.layout.axes A).map fun x => ⟨max 1 x.dim, x.str⟩ := by
    unfold pick
    rw [List.map_map]
    apply List.map_congr_left
    intro a ha
    rcases hd a with h | h
    · exact h
    · exact absurd (hlt a ha) (by omega)
  have hi' : InRange i (dims (pick l'.axes A)) := by
    rw [hpick]
    have hi2 : InRange i (dims (pick t.layout.axes A)) := hi
    generalize pick t.layout.axes A = X at hi2
    simp only [dims, List.map_map, Function.comp_def] at hi2 ⊢
    clear * - hi2
    induction X generalizing i with
    | nil => exact hi2
    | cons x X ih =>
      cases i with
      | nil => simp at hi2
      | cons k i =>
        simp only [List.map_cons, inRange_cons] at hi2 ⊢
        exact ⟨by omega, ih i hi2.2⟩
  have hz : InRange (List.replicate (pick l'.axes (otherAxes l'.ndim A)).length 0) (dims (pick l'.axes (otherAxes l'.ndim A))) := by
    have := inRange_zeros (shape := dims (pick l'.axes (otherAxes l'.ndim A))) (fun d hd => by
      rw [g2] at hd
      obtain ⟨k, -, hk⟩ := List.mem_filterMap.1 hd
      have hm := List.mem_of_getElem? hk
      rw [hl'] at hm
      obtain ⟨e, -, rfl⟩ := List.mem_map.1 hm
      omega)
    simpa using this
  obtain ⟨k, hk, e1, e2⟩ := g4 i _ hi' hz
  have e3 := (g3 k hk).2.2
  rw [e1, e2] at e3
  have hk0 := hse k (by rw [← hl']; exact hk)
  have hsame : t.layout.addr k = l'.addr k := by
    rw [addr_eq, addr_eq]
    have : dot k l'.axes = dot k t.layout.axes := by
      show dot k (t.layout.axes.map _) = _
      generalize t.layout.axes = X
      clear * -
      induction X generalizing k with
      | nil => simp
      | cons x X ih => cases k with
        | nil => simp
        | cons a k => simp [ih]
    rw [this]
  have hdot : dot i (pick l'.axes A) = dot i (pick t.layout.axes A) := by
    rw [hpick]
    generalize pick t.layout.axes A = X
    clear * -
    induction X generalizing i with
    | nil => simp
    | cons x X ih => cases i with
      | nil => simp
      | cons a i => simp [ih]
  rw [dot_zeros] at e3
  have : (axesLayout t.layout A).addr i = t.layout.offset + dot i (pick t.layout.axes A) := addr_mk ..
  show 0 ≤ (axesLayout t.layout A).addr i
  rw [this, ← hdot]
  rw [hsame, e3] at hk0
  simpa [l'] using hk0

/-! ## Items -/

namespace AxesIter

theorem collect_eq (fuel : Nat) (it : AxesIter α) {xs : List Nat} (h : Iter.collect fuel it.iter = .ok xs) :
    collect fuel it = .ok (xs.map it.at_) := by
  induction fuel generalizing it xs with
  | zero => cases h; rfl
  | succ fuel ih =>
    unfold Iter.collect at h
    obtain ⟨⟨r, i⟩, h1, h⟩ := bind_ok.1 h
    unfold collect next
    cases r with
    | none => cases h; simp [h1]
    | some v =>
      obtain ⟨ys, h2, h⟩ := bind_ok.1 h
      cases h
      have := ih { it with iter := i } h2
      simp only [h1, ok_bind, pure_eq_ok, Option.map_some, this, List.map_cons]
      rfl

theorem toList_eq (it : AxesIter α) {xs : List Nat} (h : it.iter.toList = .ok xs) :
    it.toList = .ok (xs.map it.at_) := collect_eq _ it h

theorem collectIndexed_eq (fuel : Nat) (it : AxesIter α) {xs : List (List Nat × Nat)}
    (h : Rstsr.collectIndexed fuel it.iter = .ok xs) :
    collectIndexed fuel it = .ok (xs.map fun p => (p.1, it.at_ p.2)) := by
  induction fuel generalizing it xs with
  | zero => cases h; rfl
  | succ fuel ih =>
    unfold Rstsr.collectIndexed at h
    obtain ⟨⟨r, i⟩, h1, h⟩ := bind_ok.1 h
    unfold collectIndexed nextIndexed
    cases r with
    | none => cases h; simp [h1]
    | some v =>
      obtain ⟨ys, h2, h⟩ := bind_ok.1 h
      cases h
      have := ih { it with iter := i } h2
      simp only [h1, ok_bind, pure_eq_ok, Option.map_some, this, List.map_cons]
      rfl

theorem runCalls_eq (cs : List Bool) (it : AxesIter α) {fs bs : List Nat} {i : Iter}
    (h : Rstsr.runCalls cs it.iter = .ok (fs, bs, i)) :
    runCalls cs it = .ok (fs.map it.at_, bs.map it.at_, { it with iter := i }) := by
  induction cs generalizing it fs bs i with
  | nil => cases h; rfl
  | cons c cs ih =>
    cases c with
    | true =>
      unfold Rstsr.runCalls at h
      obtain ⟨⟨r, j⟩, h1, h⟩ := bind_ok.1 h
      obtain ⟨⟨fs', bs', i'⟩, h2, h⟩ := bind_ok.1 h
      cases h
      have := ih { it with iter := j } h2
      unfold runCalls next
      simp only [h1, ok_bind, pure_eq_ok, this]
      cases r <;> rfl
    | false =>
      unfold Rstsr.runCalls at h
      obtain ⟨⟨r, j⟩, h1, h⟩ := bind_ok.1 h
      obtain ⟨⟨fs', bs', i'⟩, h2, h⟩ := bind_ok.1 h
      cases h
      have := ih { it with iter := j } h2
      unfold runCalls nextBack
      simp only [h1, ok_bind, pure_eq_ok, this]
      cases r <;> rfl

end AxesIter

/-! ## Theorems -/

/-- The axes are legal, and there is at least one. -/
def AxesIterable (n : Nat) (axes : List Int) : Prop :=
  axes ≠ [] ∧ (∀ a ∈ axes, AxisOk n a) ∧ (axes.map (normAxis n)).Nodup

theorem AxesIterable.lt {t : Tensor α} {axes : List Int} (h : AxesIterable t.arr.shape.length axes) :
    ∀ a ∈ axes.map (normAxis t.arr.shape.length), a < t.layout.axes.length := by
  intro a ha
  obtain ⟨b, hb, rfl⟩ := List.mem_map.1 ha
  have := normAxis_lt (h.2.1 b hb)
  rwa [← ndim_arr] at this ⊢

theorem axesIter_start (dflt o : Order) {t : Tensor α} (h : t.WF) (hs : t.Settled) {axes : List Int}
    (hax : AxesIterable t.arr.shape.length axes) :
    ∃ it, Iter.new o (axesLayout t.layout (axes.map (normAxis t.arr.shape.length))) = .ok it ∧
      t.axesIter dflt axes (.of o) =
        .ok ⟨it, ⟨t.data, restLayout t.layout (axes.map (normAxis t.arr.shape.length)) t.layout.offset⟩⟩ := by
  obtain ⟨it, h1, -, -⟩ := C22_iteration o _ (axesLayout_nonneg h hs hax.2.2 hax.lt)
  refine ⟨it, h1, ?_⟩
  have hn := ndim_arr t
  have e := axesIter_eq dflt t hax.1 (by rw [hn]; exact hax.2.1) (by rw [hn]; exact hax.2.2) (.of o)
  rw [e, hn]
  cases o <;> (simp only [IterOrder.of, Iter.ofOrder]; rw [h1]; rfl)

theorem exists_perm_map {β γ : Type} {f : β → γ} {l : List β} {xs : List γ} (h : xs.Perm (l.map f)) :
    ∃ l' : List β, l'.Perm l ∧ xs = l'.map f := by
  generalize hy : l.map f = ys at h
  induction h generalizing l with
  | nil => exact ⟨l, .refl _, hy.symm⟩
  | cons x hp ih =>
    cases l with
    | nil => simp at hy
    | cons a l =>
      simp only [List.map_cons, List.cons.injEq] at hy
      obtain ⟨l', h1, h2⟩ := ih hy.2
      exact ⟨a :: l', h1.cons a, by simp [hy.1, h2]⟩
  | swap x y zs =>
    match l, hy with
    | a :: b :: l, hy =>
      simp only [List.map_cons, List.cons.injEq] at hy
      exact ⟨b :: a :: l, .swap .., by simp [hy]⟩
  | trans h1 h2 ih1 ih2 =>
    obtain ⟨l2, p2, e2⟩ := ih2 hy
    obtain ⟨l1, p1, e1⟩ := ih1 e2.symm
    exact ⟨l1, p1.trans p2, e1⟩

/-- The view of the iterator at the position of index `i`. -/
def viewAt (t : Tensor α) (A i : List Nat) : Tensor α :=
  ⟨t.data, restLayout t.layout A ((axesLayout t.layout A).addr i).toNat⟩

theorem items_at {t : Tensor α} {A : List Nat} {it : AxesIter α} {off : Int}
    (hv : it.view = ⟨t.data, restLayout t.layout A off⟩) (e : List (List Nat)) :
    (e.map fun idx => ((axesLayout t.layout A).addr idx).toNat).map it.at_ = e.map fun i => viewAt t A i := by
  rw [List.map_map]
  apply List.map_congr_left
  intro i _
  simp only [Function.comp, AxesIter.at_, hv]
  rfl

theorem parts_of {t : Tensor α} (h : t.WF) {A : List Nat} (hnd : A.Nodup) (hlt : ∀ a ∈ A, a < t.layout.axes.length)
    (hn : NonNegative (axesLayout t.layout A)) {e : List (List Nat)}
    (he : ∀ i ∈ e, InRange i (takeAxes A t.arr.shape)) :
    t.arr.Parts A e (((e.map fun i => (viewAt t A i))).map Tensor.arr) := by
  refine ⟨by simp, fun k i V hk hV => ?_⟩
  simp only [List.getElem?_map, hk, Option.map_some, Option.some.injEq] at hV
  subst hV
  have hi : InRange i (axesLayout t.layout A).shape := by
    rw [axesLayout_shape hlt]; exact he i (List.mem_of_getElem? hk)
  exact (shows_at hnd hlt hi (hn i hi)).same h

theorem viewAt_wf {t : Tensor α} (h : t.WF) (hz : 0 ∉ t.arr.shape) {A : List Nat} (hnd : A.Nodup)
    (hlt : ∀ a ∈ A, a < t.layout.axes.length) (hn : NonNegative (axesLayout t.layout A)) {i : List Nat}
    (hi : InRange i (takeAxes A t.arr.shape)) : (viewAt t A i).WF := by
  have hi' : InRange i (axesLayout t.layout A).shape := by rw [axesLayout_shape hlt]; exact hi
  have hs := shows_at hnd hlt hi' (hn i hi')
  have hsub : AddrSub (restLayout t.layout A ((axesLayout t.layout A).addr i).toNat) t.layout :=
    fun j hj => ⟨_, (hs.addr j hj).1, (hs.addr j hj).2.1⟩
  have hzr : 0 ∉ (restLayout t.layout A ((axesLayout t.layout A).addr i).toNat).shape := by
    have := hs.shape
    simp only at this
    rw [this]
    intro hm
    obtain ⟨k, -, hk⟩ := List.mem_filterMap.1 hm
    exact hz (List.mem_of_getElem? hk)
  refine wf_of_sub h (good_of_sub h.good hsub fun _ _ => ?_) hsub (by simp [restLayout]) fun h0 => absurd h0 hzr
  have hp : (pick t.layout.axes (A ++ otherAxes t.layout.ndim A)).Perm t.layout.axes :=
    pick_perm (append_otherAxes_perm hnd hlt)
  have hno : NoOverlap t.layout.axes := (h.good.resolve_left hz).2
  have hno' : NoOverlap (pick t.layout.axes (A ++ otherAxes t.layout.ndim A)) := by
    obtain ⟨L, hL, hsu⟩ := hno
    exact ⟨L, hL.trans (hp.symm.filter _), hsu⟩
  refine hno'.sublist ?_
  simp only [restLayout, pick, List.map_append]
  exact List.sublist_append_right _ _

/-- **C52**, iteration over axes in row- or column-major order. For every tensor the API hands out and every non-empty
legal list of axes (negative ones from the end, any order, no repetition), the iterator over the axes yields the parts
of the tensor at all indices of these axes, each index once, in the chosen order; its reported length is their number,
and each view is again a tensor the API may hand out. (`Settled` only matters for tensors without elements: their
strides must not lead to negative positions.) -/
theorem C52_axes_iter_partial (dflt o : Order) (t : Tensor α) (h : t.WF) (hs : t.Settled) (axes : List Int)
    (hax : AxesIterable t.arr.shape.length axes) :
    ∃ it vs, t.axesIter dflt axes (.of o) = .ok it ∧ it.toList = .ok vs ∧ it.len = vs.length ∧
      t.arr.Parts (axes.map (normAxis t.arr.shape.length))
        (all o (takeAxes (axes.map (normAxis t.arr.shape.length)) t.arr.shape)) (vs.map Tensor.arr) ∧
      (0 ∉ t.arr.shape → ∀ v ∈ vs, v.WF) := by
  have hn := axesLayout_nonneg h hs hax.2.2 hax.lt
  obtain ⟨it, h1, h2⟩ := axesIter_start dflt o h hs hax
  obtain ⟨it', h1', h3, h4⟩ := C22_iteration o _ hn
  rw [h1] at h1'; cases h1'
  refine ⟨_, _, h2, AxesIter.toList_eq _ h3, by rw [List.length_map]; exact h4, ?_, ?_⟩
  · have := parts_of h hax.2.2 hax.lt hn
      (e := all o (takeAxes (axes.map (normAxis t.arr.shape.length)) t.arr.shape)) fun i hi => mem_all.1 hi
    rw [positions, axesLayout_shape hax.lt]
    exact (congrArg (fun x => t.arr.Parts _ _ (List.map Tensor.arr x)) (items_at rfl _)).mpr this
  · intro hz v hv
    obtain ⟨p, hp, rfl⟩ := List.mem_map.1 hv
    obtain ⟨i, hi, rfl⟩ := List.mem_map.1 hp
    rw [axesLayout_shape hax.lt] at hi
    exact viewAt_wf h hz hax.2.2 hax.lt hn (mem_all.1 hi)

/-- **C52**, the default order of `axes_iter` (K, and G alike): the same parts, each index once, in an order that
follows the storage. Missing: tensors without elements. -/
theorem C52_axes_iter_K_partial (dflt : Order) (t : Tensor α) (h : t.WF) (hz : 0 ∉ t.arr.shape) (axes : List Int)
    (hax : AxesIterable t.arr.shape.length axes) (order : IterOrder) (ho : order = .K ∨ order = .G) :
    ∃ it vs indices, t.axesIter dflt axes order = .ok it ∧ it.toList = .ok vs ∧ it.len = vs.length ∧
      indices.Perm (all .C (takeAxes (axes.map (normAxis t.arr.shape.length)) t.arr.shape)) ∧
      t.arr.Parts (axes.map (normAxis t.arr.shape.length)) indices (vs.map Tensor.arr) ∧ (∀ v ∈ vs, v.WF) := by
  have hn := axesLayout_nonneg h (fun hz' => absurd hz' hz) hax.2.2 hax.lt
  have hv : (axesLayout t.layout (axes.map (normAxis t.arr.shape.length))).Valid := by
    obtain ⟨⟨a, b⟩, hp⟩ := (C52_split_axes_accept_iff t.layout h.fit.valid h.1 hz axes).2
      ⟨by rw [ndim_arr]; exact hax.2.1, by rw [ndim_arr]; exact hax.2.2⟩
    unfold Layout.dimSplitAxes at hp
    obtain ⟨v, hv, hp⟩ := bind_ok.1 hp
    obtain ⟨-, -, rfl⟩ := normalizeAxes_ok.1 hv
    simp only [Bool.false_eq_true, if_false] at hp
    obtain ⟨a', ha', hp⟩ := bind_ok.1 hp
    obtain ⟨k, rfl⟩ := accepted_of_newAxes ha'
    rw [ndim_arr] at k
    exact valid_iff.2 k
  obtain ⟨it, xs, h1, h2, h3, h4⟩ := C26_k_order dflt _ hv h.1 order ho
  have e := axesIter_eq dflt t hax.1 (by rw [ndim_arr]; exact hax.2.1) (by rw [ndim_arr]; exact hax.2.2) order
  rw [ndim_arr, h1] at e
  obtain ⟨ind, i1, i2⟩ : ∃ ind : List (List Nat), ind.Perm (all .C (takeAxes (axes.map (normAxis t.arr.shape.length)) t.arr.shape)) ∧
      xs = ind.map fun idx => ((axesLayout t.layout (axes.map (normAxis t.arr.shape.length))).addr idx).toNat := by
    rw [positions, axesLayout_shape hax.lt] at h4
    obtain ⟨ind, a, b⟩ := exists_perm_map h4
    exact ⟨ind, a, b⟩
  subst i2
  refine ⟨_, _, ind, e, AxesIter.toList_eq _ h2, by rw [List.length_map]; exact h3, i1, ?_, ?_⟩
  · rw [items_at rfl]
    exact parts_of h hax.2.2 hax.lt hn fun i hi => mem_all.1 (i1.mem_iff.1 hi)
  · intro v hv
    obtain ⟨p, hp, rfl⟩ := List.mem_map.1 hv
    obtain ⟨i, hi, rfl⟩ := List.mem_map.1 hp
    exact viewAt_wf h hz hax.2.2 hax.lt hn (mem_all.1 (i1.mem_iff.1 hi))

/-- The axes that the iterator takes from the given ones, and the others, determine each index of the tensor: so every
element is in the part of exactly one index. -/
theorem C52_axes_cover (t : Tensor α) (axes : List Int) (hax : AxesIterable t.arr.shape.length axes) (idx : List Nat)
    (hi : InRange idx t.arr.shape) :
    let n := t.arr.shape.length
    let A := axes.map (normAxis n)
    (InRange (takeAxes A idx) (takeAxes A t.arr.shape) ∧
      InRange (takeAxes (otherAxes n A) idx) (takeAxes (otherAxes n A) t.arr.shape) ∧
      mergeIndex n A (takeAxes A idx) (takeAxes (otherAxes n A) idx) = idx) ∧
    ∀ i j, InRange i (takeAxes A t.arr.shape) → InRange j (takeAxes (otherAxes n A) t.arr.shape) →
      mergeIndex n A i j = idx → i = takeAxes A idx ∧ j = takeAxes (otherAxes n A) idx := by
  intro n A
  have hlt : ∀ a ∈ A, a < t.layout.axes.length := hax.lt
  have hn := ndim_arr t
  have hS : ∀ a ∈ A, a < n := fun a ha => (hlt a ha).trans_eq hn
  obtain ⟨g1, g2, g3, g4⟩ := split_laws (l := t.layout) hax.2.2 hlt
  rw [g1, g2, hn] at g3 g4
  refine ⟨⟨(g3 idx hi).1, (g3 idx hi).2.1, mergeIndex_take hS hi.length_eq⟩, fun i j hi' hj' e => ?_⟩
  obtain ⟨k, hk, e1, e2⟩ := g4 i j hi' hj'
  have hk' : InRange k t.arr.shape := hk
  have : mergeIndex n A i j = k := by rw [← e1, ← e2]; exact mergeIndex_take hS hk'.length_eq
  rw [this] at e
  subst e
  exact ⟨e1.symm, e2.symm⟩

/-- The iterator after any history of calls from the front, from the back, and splits. -/
inductive AxesReach (dflt o : Order) (t : Tensor α) (axes : List Int) : AxesIter α → Prop
  | start {it} : t.axesIter dflt axes (.of o) = .ok it → AxesReach dflt o t axes it
  | next {it it' r} : AxesReach dflt o t axes it → it.next = .ok (r, it') → AxesReach dflt o t axes it'
  | nextBack {it it' r} : AxesReach dflt o t axes it → it.nextBack = .ok (r, it') → AxesReach dflt o t axes it'
  | left {it a b k} : AxesReach dflt o t axes it → k ≤ it.len → it.splitAt k = .ok (a, b) → AxesReach dflt o t axes a
  | right {it a b k} : AxesReach dflt o t axes it → k ≤ it.len → it.splitAt k = .ok (a, b) → AxesReach dflt o t axes b

theorem AxesReach.iter {dflt o : Order} {t : Tensor α} (h : t.WF) (hs : t.Settled) {axes : List Int}
    (hax : AxesIterable t.arr.shape.length axes) {it : AxesIter α} (hr : AxesReach dflt o t axes it) :
    Reach o (axesLayout t.layout (axes.map (normAxis t.arr.shape.length))) it.iter ∧
      it.view = ⟨t.data, restLayout t.layout (axes.map (normAxis t.arr.shape.length)) t.layout.offset⟩ := by
  induction hr with
  | start h0 =>
    obtain ⟨i, h1, h2⟩ := axesIter_start dflt o h hs hax
    rw [h2] at h0; cases h0
    exact ⟨.start h1, rfl⟩
  | next _ h1 ih =>
    unfold AxesIter.next at h1
    obtain ⟨⟨r, i⟩, h2, h1⟩ := bind_ok.1 h1
    cases h1
    exact ⟨.next ih.1 h2, ih.2⟩
  | nextBack _ h1 ih =>
    unfold AxesIter.nextBack at h1
    obtain ⟨⟨r, i⟩, h2, h1⟩ := bind_ok.1 h1
    cases h1
    exact ⟨.nextBack ih.1 h2, ih.2⟩
  | left _ hk h1 ih =>
    unfold AxesIter.splitAt at h1
    obtain ⟨⟨r, i⟩, h2, h1⟩ := bind_ok.1 h1
    cases h1
    exact ⟨.left ih.1 hk h2, ih.2⟩
  | right _ hk h1 ih =>
    unfold AxesIter.splitAt at h1
    obtain ⟨⟨r, i⟩, h2, h1⟩ := bind_ok.1 h1
    cases h1
    exact ⟨.right ih.1 hk h2, ih.2⟩

/-- **C52**, any history of calls: the views still to come are those of a contiguous-in-order selection of the indices;
the front calls, what is left, and the back calls in reverse make up all of them; the length is exact. -/
theorem C52_axes_history_partial (dflt o : Order) (t : Tensor α) (h : t.WF) (hs : t.Settled) (axes : List Int)
    (hax : AxesIterable t.arr.shape.length axes) (it : AxesIter α) (hr : AxesReach dflt o t axes it)
    (calls : List Bool) :
    ∃ before fs bs it' rest indices, it.toList = .ok before ∧ it.len = before.length ∧
      indices.Sublist (all o (takeAxes (axes.map (normAxis t.arr.shape.length)) t.arr.shape)) ∧
      t.arr.Parts (axes.map (normAxis t.arr.shape.length)) indices (before.map Tensor.arr) ∧
      it.runCalls calls = .ok (fs, bs, it') ∧ it'.toList = .ok rest ∧ fs ++ rest ++ bs.reverse = before ∧
      fs.length + bs.length = min calls.length before.length := by
  have hn := axesLayout_nonneg h hs hax.2.2 hax.lt
  obtain ⟨r1, r2⟩ := hr.iter h hs hax
  obtain ⟨b, b1, b2, b3⟩ := C22_len_exact o _ hn _ r1
  obtain ⟨fs, bs, i', rest, c1, c2, c3, c4⟩ := C23_double_ended_any o _ hn _ r1 calls b b1
  obtain ⟨ind, s1, s2⟩ := List.sublist_map_iff.1 b3
  rw [axesLayout_shape hax.lt] at s1
  refine ⟨_, _, _, _, _, ind, AxesIter.toList_eq _ b1, by rw [List.length_map]; exact b2, s1, ?_,
    AxesIter.runCalls_eq calls it c1, AxesIter.toList_eq { it with iter := i' } c2, ?_, by simpa using c4⟩
  · have := parts_of h hax.2.2 hax.lt hn fun i hi => mem_all.1 (s1.subset hi)
    rw [s2]
    exact (congrArg (fun x => t.arr.Parts _ _ (List.map Tensor.arr x)) (items_at r2 _)).mpr this
  · rw [← c3]
    simp only [List.map_append, List.map_reverse]
    rfl

/-- **C52**, splitting (as the parallel runtime does): of the views to come, the first `k` go left, the others right. -/
theorem C52_axes_split_partial (dflt o : Order) (t : Tensor α) (h : t.WF) (hs : t.Settled) (axes : List Int)
    (hax : AxesIterable t.arr.shape.length axes)
    (hz : (takeAxes (axes.map (normAxis t.arr.shape.length)) t.arr.shape).prod ≠ 0) (it : AxesIter α)
    (hr : AxesReach dflt o t axes it) (k : Nat) (hk : k ≤ it.len) :
    ∃ a b xs ys, it.splitAt k = .ok (a, b) ∧ a.toList = .ok xs ∧ b.toList = .ok ys ∧ it.toList = .ok (xs ++ ys) ∧
      xs.length = k := by
  have hn := axesLayout_nonneg h hs hax.2.2 hax.lt
  obtain ⟨r1, r2⟩ := hr.iter h hs hax
  obtain ⟨a, b, xs, ys, c1, c2, c3, c4, c5, -, -⟩ := C24_split o _ hn (by rw [axesLayout_shape hax.lt]; exact hz) _ r1 k hk
  refine ⟨{ it with iter := a }, { it with iter := b }, _, _, by simp only [AxesIter.splitAt, c1, ok_bind]; rfl,
    AxesIter.toList_eq _ c2, AxesIter.toList_eq { it with iter := b } c3, ?_, by simpa using c5⟩
  rw [AxesIter.toList_eq _ c4, List.map_append]
  rfl

/-- **C52**, mutable iteration: if no axis has stride zero, two different views of the iteration have no cell in common,
so writing through one never shows in another. -/
theorem C52_axes_mut_disjoint_partial (dflt o : Order) (t : Tensor α) (h : t.WF) (hz : 0 ∉ t.layout.stride) (hs : t.Settled)
    (axes : List Int) (hax : AxesIterable t.arr.shape.length axes) (it : AxesIter α) (vs : List (Tensor α))
    (hi : t.axesIter dflt axes (.of o) = .ok it) (hv : it.toList = .ok vs) (k k' : Nat) (v v' : Tensor α)
    (hk : vs[k]? = some v) (hk' : vs[k']? = some v') (hne : k ≠ k') (c : Nat) :
    ¬ (Addressed v.layout.stride v.layout.offset v.layout.shape c ∧
      Addressed v'.layout.stride v'.layout.offset v'.layout.shape c) := by
  have hn := axesLayout_nonneg h hs hax.2.2 hax.lt
  obtain ⟨i0, h1, h2⟩ := axesIter_start dflt o h hs hax
  rw [hi] at h2; cases h2
  obtain ⟨it', h1', h3, h4⟩ := C22_iteration o _ hn
  rw [h1] at h1'; cases h1'
  rw [AxesIter.toList_eq _ h3] at hv
  cases hv
  rw [positions, axesLayout_shape hax.lt, List.map_map (f := fun idx => _), List.getElem?_map] at hk hk'
  obtain ⟨i, e1, e2⟩ := Option.map_eq_some_iff.1 hk
  obtain ⟨i', e1', e2'⟩ := Option.map_eq_some_iff.1 hk'
  have hii : i ≠ i' := by
    intro e
    subst e
    have hlt : k < (all o (takeAxes (axes.map (normAxis t.arr.shape.length)) t.arr.shape)).length := by
      have := (List.getElem?_eq_some_iff.1 e1).1; exact this
    exact hne ((List.getElem?_inj hlt (nodup_all o _)).1 (e1.trans e1'.symm))
  have hr : ∀ {j}, j ∈ all o (takeAxes (axes.map (normAxis t.arr.shape.length)) t.arr.shape) →
      InRange j (axesLayout t.layout (axes.map (normAxis t.arr.shape.length))).shape := by
    intro j hj
    rw [axesLayout_shape hax.lt]; exact mem_all.1 hj
  have s1 := shows_at hax.2.2 hax.lt (hr (List.mem_of_getElem? e1)) (hn i (hr (List.mem_of_getElem? e1)))
  have s2 := shows_at hax.2.2 hax.lt (hr (List.mem_of_getElem? e1')) (hn i' (hr (List.mem_of_getElem? e1')))
  subst e2
  subst e2'
  rintro ⟨⟨j, j1, j2⟩, ⟨j', j1', j2'⟩⟩
  obtain ⟨a1, a2, a3, -⟩ := s1.addr j j1
  obtain ⟨b1, b2, b3, -⟩ := s2.addr j' j1'
  have hadd : t.layout.addr (mergeIndex t.arr.shape.length (axes.map (normAxis t.arr.shape.length)) i j) =
      t.layout.addr (mergeIndex t.arr.shape.length (axes.map (normAxis t.arr.shape.length)) i' j') := by
    rw [← a2, ← b2]
    exact j2.trans j2'.symm
  have := pos_inj h.fit (by
    unfold Layout.isBroadcasted
    rw [Bool.eq_false_iff]
    simpa using hz) a1 b1 (pos_of_addr hadd)
  rw [this, b3] at a3
  exact hii a3.symm

/-- **C52**, with indices (row- or column-major order, from the front): each index comes with the part at this index. -/
theorem C52_axes_indexed_partial (dflt o : Order) (t : Tensor α) (h : t.WF) (hs : t.Settled) (axes : List Int)
    (hax : AxesIterable t.arr.shape.length axes) :
    ∃ it ps, t.indexedAxesIter dflt axes (.of o) = .ok it ∧ t.indexedAxesIterMut dflt axes (.of o) = .ok it ∧
      it.collectIndexed (it.len + 1) = .ok ps ∧
      ps.map (·.1) = all o (takeAxes (axes.map (normAxis t.arr.shape.length)) t.arr.shape) ∧
      t.arr.Parts (axes.map (normAxis t.arr.shape.length)) (ps.map (·.1)) (ps.map fun p => p.2.arr) := by
  have hn := axesLayout_nonneg h hs hax.2.2 hax.lt
  obtain ⟨it, h1, h2⟩ := axesIter_start dflt o h hs hax
  obtain ⟨it', h1', h3⟩ := C25_indexed_forward_partial o _ hn
  rw [h1] at h1'; cases h1'
  have e1 : ((all o (axesLayout t.layout (axes.map (normAxis t.arr.shape.length))).shape).map fun idx =>
      (idx, (position (axesLayout t.layout (axes.map (normAxis t.arr.shape.length))).stride
        (axesLayout t.layout (axes.map (normAxis t.arr.shape.length))).offset idx).toNat)).map (fun p => (p.1,
        (⟨it, ⟨t.data, restLayout t.layout (axes.map (normAxis t.arr.shape.length)) t.layout.offset⟩⟩ : AxesIter α).at_ p.2))
      = (all o (takeAxes (axes.map (normAxis t.arr.shape.length)) t.arr.shape)).map fun i =>
        (i, viewAt t (axes.map (normAxis t.arr.shape.length)) i) := by
    rw [List.map_map, axesLayout_shape hax.lt]
    rfl
  refine ⟨_, _, by rw [← h2]; cases o <;> rfl, h2, (AxesIter.collectIndexed_eq _ _ h3).trans (congrArg _ e1), ?_, ?_⟩
  · rw [List.map_map]
    exact List.map_id _
  · have := parts_of h hax.2.2 hax.lt hn
      (e := all o (takeAxes (axes.map (normAxis t.arr.shape.length)) t.arr.shape)) fun i hi => mem_all.1 hi
    rw [List.map_map] at this
    rw [List.map_map, List.map_map]
    have hid : ((fun p : List Nat × Tensor α => p.1) ∘ fun i => (i, viewAt t (axes.map (normAxis t.arr.shape.length)) i)) = id := rfl
    rw [hid, List.map_id]
    exact this

theorem mapM_ok_mem {β γ : Type} {f : β → Res γ} {xs : List β} {ys : List γ} (h : xs.mapM f = .ok ys) :
    ∀ x ∈ xs, ∃ y, f x = .ok y := by
  induction xs generalizing ys with
  | nil => simp
  | cons a xs ih =>
    rw [List.mapM_cons] at h
    obtain ⟨y, h1, h⟩ := bind_ok.1 h
    obtain ⟨ys', h2, h⟩ := bind_ok.1 h
    intro x hx
    rcases List.mem_cons.1 hx with rfl | hx
    · exact ⟨y, h1⟩
    · exact ih h2 x hx

/-- **C52**: the axis lists accepted are exactly the non-empty legal ones without repetition. -/
theorem C52_axes_accept_iff (dflt o : Order) (t : Tensor α) (h : t.WF) (hs : t.Settled) (axes : List Int) :
    (∃ it, t.axesIter dflt axes (.of o) = .ok it) ↔ AxesIterable t.arr.shape.length axes := by
  constructor
  · rintro ⟨it, hi⟩
    unfold Tensor.axesIter at hi
    obtain ⟨⟨⟩, h1, hi⟩ := bind_ok.1 hi
    obtain ⟨sel, h2, -⟩ := bind_ok.1 hi
    unfold axesChecked at h1
    split at h1
    · exact absurd h1 (by simp)
    · split at h1
      · exact absurd h1 (by simp)
      · split at h1
        · rename_i hne hnd
          have hr : ∀ v ∈ axesFromEnd t.layout.ndim axes, 0 ≤ v ∧ v < t.layout.ndim := by
            intro v hv
            obtain ⟨x, hx⟩ := mapM_ok_mem h2 v hv
            unfold axisAtOrPanic at hx
            split at hx
            · exact absurd hx (by simp)
            · rename_i h0
              refine ⟨by omega, ?_⟩
              by_contra hge
              have : t.layout.axes[v.toNat]? = none := by
                rw [List.getElem?_eq_none_iff]
                have : (t.layout.ndim : Int) = t.layout.axes.length := rfl
                omega
              rw [this] at hx
              exact absurd hx (by simp)
          have hok : ∀ a ∈ axes, AxisOk t.layout.ndim a := by
            intro a ha
            have := hr _ (List.mem_map_of_mem (f := fun v : Int => if v ≥ 0 then v else v + t.layout.ndim) ha)
            unfold AxisOk
            split at this <;> omega
          rw [axesFromEnd_eq hok] at hnd hne
          rw [← ndim_arr]
          exact ⟨by simpa using hne, hok, hnd.of_map⟩
        · exact absurd h1 (by simp)
  · intro hax
    obtain ⟨it, -, h2⟩ := axesIter_start dflt o h hs hax
    exact ⟨_, h2⟩

/-! ### Examples and counterexamples -/

/-- A tensor with shape `[2, 3, 2]` and a negative stride. -/
def axEx : Tensor Nat := ⟨List.range 12, ⟨[⟨2, 6⟩, ⟨3, -2⟩, ⟨2, 1⟩], 4⟩⟩

example : axEx.WF ∧ AxesIterable axEx.arr.shape.length [-1, 0] ∧ 0 ∉ axEx.layout.stride ∧ 0 ∉ axEx.arr.shape :=
  ⟨⟨by decide, rfl⟩, ⟨by decide, by simp [AxisOk, axEx, Tensor.arr, Layout.shape], by decide⟩, by decide, by decide⟩
example : (do return (← (← axEx.axesIter .C [-1, 0] .C).toList).map fun v => (v.layout.shape, v.layout.offset) : Res _)
    = .ok [([3], 4), ([3], 10), ([3], 5), ([3], 11)] := by rfl

/-- The empty list of axes, an axis too large, and an axis too small that is not the first one: a panic, also from
`axes_iter_f`, which should return an error. (An axis too small in first place is an error.) -/
theorem C52_false_axes_error : axEx.WF ∧ axEx.axesIter .C [] .C = .error .panic ∧ axEx.axesIter .C [3] .C = .error .panic ∧
    axEx.axesIter .C [0, -4] .C = .error .panic ∧ axEx.axesIter .C [-4] .C = .error .invalidValue :=
  ⟨⟨by decide, rfl⟩, rfl, rfl, rfl, rfl⟩

/-- `indexed_axes_iter_mut` accepts the order K and then pairs a view with the index of another part: here the first
view, labelled `[0, 0]`, is the part at `[2, 0]`. (The shared `indexed_axes_iter` refuses this order.) -/
theorem C52_false_indexed_K : axEx.WF ∧ axEx.indexedAxesIter .C [1, 0] .K = .error .invalidValue ∧
    ∃ it v it', axEx.indexedAxesIterMut .C [1, 0] .K = .ok it ∧ it.nextIndexed = .ok (some ([0, 0], v), it') ∧
      (axEx.arr.part [1, 0] [2, 0]).Same v.arr ∧ ¬ (axEx.arr.part [1, 0] [0, 0]).Same v.arr := by
  refine ⟨⟨by decide, rfl⟩, rfl, _, _, _, rfl, rfl, ⟨rfl, ?_⟩, ?_⟩
  · intro idx hi
    obtain ⟨k, rfl⟩ : ∃ k, idx = [k] := by
      have := hi.length_eq
      match idx, this with
      | [k], _ => exact ⟨k, rfl⟩
    have : k < 2 := (inRange_cons.1 hi).1
    match k, this with
    | 0, _ => exact ⟨0, rfl, rfl⟩
    | 1, _ => exact ⟨1, rfl, rfl⟩
  · rintro ⟨-, h⟩
    obtain ⟨x, h1, h2⟩ := h [0] (by decide)
    rw [show (axEx.arr.part [1, 0] [0, 0]).elem [0] = some 4 from rfl] at h1
    cases h1
    exact absurd h2 (by decide)

/-- Calls from the back pair each view with the index of the front. -/
theorem C52_false_indexed_back : axEx.WF ∧ ∃ it v it', axEx.indexedAxesIter .C [0] .C = .ok it ∧
    it.nextBackIndexed = .ok (some ([0], v), it') ∧ ¬ (axEx.arr.part [0] [0]).Same v.arr := by
  refine ⟨⟨by decide, rfl⟩, _, _, _, rfl, rfl, ?_⟩
  rintro ⟨-, h⟩
  obtain ⟨x, h1, h2⟩ := h [0, 0] (by decide)
  rw [show (axEx.arr.part [0] [0]).elem [0, 0] = some 4 from rfl] at h1
  cases h1
  exact absurd h2 (by decide)

/-- A mutable tensor that was broadcast: two of the mutable views given out by `axes_iter_mut` are the same cells. -/
theorem C52_false_mut_alias : (⟨[7, 8], ⟨[⟨3, 0⟩, ⟨2, 1⟩], 0⟩⟩ : Tensor Nat).WF ∧
    ∃ it u v w, (⟨[7, 8], ⟨[⟨3, 0⟩, ⟨2, 1⟩], 0⟩⟩ : Tensor Nat).axesIter .C [0] .C = .ok it ∧ it.toList = .ok [u, v, w] ∧
      Addressed u.layout.stride u.layout.offset u.layout.shape 1 ∧
      Addressed v.layout.stride v.layout.offset v.layout.shape 1 :=
  ⟨⟨by decide, rfl⟩, _, _, _, _, rfl, rfl, ⟨[1], by decide, rfl⟩, ⟨[1], by decide, rfl⟩⟩

/-- A tensor without elements and with a negative stride: iterating over the axis panics. -/
theorem C52_false_axes_empty : (⟨[], ⟨[⟨2, -1⟩, ⟨0, 1⟩], 0⟩⟩ : Tensor Nat).WF ∧
    (do (← (⟨[], ⟨[⟨2, -1⟩, ⟨0, 1⟩], 0⟩⟩ : Tensor Nat).axesIter .C [0] .C).toList) = .error .panic :=
  ⟨⟨by decide, rfl⟩, rfl⟩

end Rstsr
