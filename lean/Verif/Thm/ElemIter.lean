import Verif.Model.ElemIter
import Verif.Proof.Fnmut
import Verif.Proof.Parallel
import Verif.Thm.Copy
import Verif.Thm.AxesIter
import Verif.Thm.Parallel
/-!
# Theorems on iterating over the elements of a tensor (C97)

`all o shape` are all indices in row- or column-major order; `callAll` (`Spec/Calls.lean`) calls a function with one
argument after the other; `Computes` and `RaceFree` (`Spec/Concurrent.lean`) speak about every interleaving.
-/
namespace Rstsr
open Spec

section
variable {σ α : Type}

/-- What is known about an iterator of `t`. -/
structure ElemOk (t : Tensor α) (it : ElemIter α) : Prop where
  inv : it.iter.Inv
  lay : it.iter.layout = t.layout
  len : it.data.length = t.data.length

namespace ElemOk
variable {t : Tensor α} {it : ElemIter α}

theorem nonneg (h : ElemOk t it) (w : t.WF) : Iter.NonNeg it.iter.layout := by
  rw [h.lay]; exact w.fit.nonneg

theorem inRange (h : ElemOk t it) {i : List Nat} (hi : i ∈ it.iter.idxs) : InRange i t.layout.shape := by
  have := mem_all.1 (List.drop_subset _ _ (List.take_subset _ _ hi))
  rwa [h.lay] at this

theorem bound (h : ElemOk t it) (w : t.WF) {i : List Nat} (hi : i ∈ it.iter.idxs) : t.layout.pos i < it.data.length := by
  rw [h.len]; exact w.covers i (h.inRange hi)

theorem items (h : ElemOk t it) : it.iter.items = it.iter.idxs.map t.layout.pos := by
  unfold Iter.items
  rw [h.lay]
  rfl

/-- One front call: nothing is left, or the first index comes. -/
theorem front (h : ElemOk t it) (w : t.WF) :
    (it.len = 0 ∧ it.iter.idxs = [] ∧ it.iter.next = .ok (none, it.iter) ∧ it.iter.nextIndexed = .ok (none, it.iter)) ∨
    ∃ i it', it.len = it'.len + 1 ∧ it.iter.idxs = i :: it'.idxs ∧ it'.Inv ∧ it'.layout = t.layout ∧
      it.iter.next = .ok (some (t.layout.pos i), it') ∧ it.iter.nextIndexed = .ok (some (i, t.layout.pos i), it') := by
  rcases Iter.next_spec h.inv (h.nonneg w) with ⟨h0, hN⟩ | ⟨h0, hN⟩
  · refine .inl ⟨h0, List.eq_nil_of_length_eq_zero (h.inv.length_idxs.trans h0), hN, ?_⟩
    unfold Iter.nextIndexed
    rw [hN]; rfl
  · have hlt : it.iter.iterStart < it.iter.iterEnd := by simp only [Iter.len] at h0; omega
    obtain ⟨h1, h2⟩ := Iter.nextIterIndex_spec h.inv hlt
    have hp : (it.iter.layout.addr it.iter.indexStart).toNat = t.layout.pos it.iter.indexStart := by rw [h.lay]; rfl
    rw [hp] at hN
    refine .inr ⟨_, _, ?_, h2, h1, (Iter.nextIterIndex_layout _).trans h.lay, hN, ?_⟩
    · have := congrArg List.length h2
      rw [h.inv.length_idxs, List.length_cons, h1.length_idxs] at this
      exact this
    · unfold Iter.nextIndexed
      rw [hN]; rfl

end ElemOk

theorem cell_ok {it : ElemIter α} {k : Nat} (h : k < it.data.length) : it.cell k = .ok k := if_pos h

/-- The items to come, as a loop reads them. -/
theorem elem_collect {t : Tensor α} (w : t.WF) {it : ElemIter α} (h : ElemOk t it) (fuel : Nat) (hf : it.len < fuel) :
    ∃ vs, it.collect fuel = .ok vs ∧ (it.iter.idxs.map fun i => it.data[t.layout.pos i]?) = vs.map some := by
  induction fuel generalizing it with
  | zero => omega
  | succ fuel ih =>
    unfold ElemIter.collect ElemIter.next
    rcases h.front w with ⟨h0, h1, h2, -⟩ | ⟨i, it', h0, h1, h2, h3, h4, -⟩
    · rw [h2, h1]; exact ⟨[], rfl, rfl⟩
    · have hb : t.layout.pos i < it.data.length := h.bound w (by rw [h1]; exact List.mem_cons_self)
      obtain ⟨vs, e1, e2⟩ := ih (it := { it with iter := it' }) ⟨h2, h3, h.len⟩
        (by simp only [ElemIter.len] at *; omega)
      refine ⟨it.data[t.layout.pos i] :: vs, ?_, ?_⟩
      · simp only [h4, ok_bind, readAt_ok.2 (List.getElem?_eq_getElem hb), e1, pure_eq_ok]
      · rw [h1]
        simp only [List.map_cons, List.getElem?_eq_getElem hb, List.cons.injEq, true_and]
        exact e2

theorem elem_toList {t : Tensor α} (w : t.WF) {it : ElemIter α} (h : ElemOk t it) :
    ∃ vs, it.toList = .ok vs ∧ (it.iter.idxs.map fun i => it.data[t.layout.pos i]?) = vs.map some :=
  elem_collect w h _ (Nat.lt_succ_self _)

theorem elem_cells {t : Tensor α} (w : t.WF) {it : ElemIter α} (h : ElemOk t it) :
    it.cells = .ok (it.iter.idxs.map t.layout.pos) := by
  unfold ElemIter.cells
  have : ∀ (fuel : Nat) (it : ElemIter α), ElemOk t it → it.len < fuel →
      it.collectCells fuel = .ok (it.iter.idxs.map t.layout.pos) := by
    intro fuel
    induction fuel with
    | zero => intro it h hf; omega
    | succ fuel ih =>
      intro it h hf
      unfold ElemIter.collectCells ElemIter.nextCell
      rcases h.front w with ⟨h0, h1, h2, -⟩ | ⟨i, it', h0, h1, h2, h3, h4, -⟩
      · rw [h2, h1]; rfl
      · have hb : t.layout.pos i < it.data.length := h.bound w (by rw [h1]; exact List.mem_cons_self)
        have e1 := ih { it with iter := it' } ⟨h2, h3, h.len⟩ (by simp only [ElemIter.len] at *; omega)
        simp only [h4, ok_bind, cell_ok hb, e1, pure_eq_ok, h1, List.map_cons]
  exact this _ it h (Nat.lt_succ_self _)

theorem elem_indexedCells {t : Tensor α} (w : t.WF) {it : ElemIter α} (h : ElemOk t it) :
    it.indexedCells = .ok (it.iter.idxs.map fun i => (i, t.layout.pos i)) := by
  unfold ElemIter.indexedCells
  have : ∀ (fuel : Nat) (it : ElemIter α), ElemOk t it → it.len < fuel →
      it.collectIndexedCells fuel = .ok (it.iter.idxs.map fun i => (i, t.layout.pos i)) := by
    intro fuel
    induction fuel with
    | zero => intro it h hf; omega
    | succ fuel ih =>
      intro it h hf
      unfold ElemIter.collectIndexedCells ElemIter.nextIndexedCell
      rcases h.front w with ⟨h0, h1, -, h2⟩ | ⟨i, it', h0, h1, h2, h3, -, h4⟩
      · rw [h2, h1]; rfl
      · have hb : t.layout.pos i < it.data.length := h.bound w (by rw [h1]; exact List.mem_cons_self)
        have e1 := ih { it with iter := it' } ⟨h2, h3, h.len⟩ (by simp only [ElemIter.len] at *; omega)
        simp only [h4, ok_bind, cell_ok hb, e1, pure_eq_ok, h1, List.map_cons]
  exact this _ it h (Nat.lt_succ_self _)

theorem elem_toListIndexed {t : Tensor α} (w : t.WF) {it : ElemIter α} (h : ElemOk t it) :
    ∃ vs, it.toListIndexed = .ok vs ∧ vs.map (·.1) = it.iter.idxs ∧
      (it.iter.idxs.map fun i => it.data[t.layout.pos i]?) = vs.map fun v => some v.2 := by
  unfold ElemIter.toListIndexed
  have : ∀ (fuel : Nat) (it : ElemIter α), ElemOk t it → it.len < fuel → ∃ vs, it.collectIndexed fuel = .ok vs ∧
      vs.map (·.1) = it.iter.idxs ∧ (it.iter.idxs.map fun i => it.data[t.layout.pos i]?) = vs.map fun v => some v.2 := by
    intro fuel
    induction fuel with
    | zero => intro it h hf; omega
    | succ fuel ih =>
      intro it h hf
      unfold ElemIter.collectIndexed ElemIter.nextIndexed
      rcases h.front w with ⟨h0, h1, -, h2⟩ | ⟨i, it', h0, h1, h2, h3, -, h4⟩
      · rw [h2, h1]; exact ⟨[], rfl, rfl, rfl⟩
      · have hb : t.layout.pos i < it.data.length := h.bound w (by rw [h1]; exact List.mem_cons_self)
        obtain ⟨vs, e1, e2, e3⟩ := ih { it with iter := it' } ⟨h2, h3, h.len⟩ (by simp only [ElemIter.len] at *; omega)
        refine ⟨(i, it.data[t.layout.pos i]) :: vs, ?_, ?_, ?_⟩
        · simp only [h4, ok_bind, readAt_ok.2 (List.getElem?_eq_getElem hb), e1, pure_eq_ok]
        · rw [h1, List.map_cons, e2]
        · rw [h1]
          simp only [List.map_cons, List.getElem?_eq_getElem hb, List.cons.injEq, true_and]
          exact e3
  exact this _ it h (Nat.lt_succ_self _)

theorem elem_forEach {t : Tensor α} (w : t.WF) (f : σ → α → σ × α) (fuel : Nat) (s : σ) {it : ElemIter α}
    (h : ElemOk t it) (hf : it.len < fuel) :
    it.forEachMut f fuel s = runAll (fun i => callStep1 f (t.layout.pos i)) it.iter.idxs (s, it.data) := by
  induction fuel generalizing it s with
  | zero => omega
  | succ fuel ih =>
    unfold ElemIter.forEachMut ElemIter.nextCell
    rcases h.front w with ⟨h0, h1, h2, -⟩ | ⟨i, it', h0, h1, h2, h3, h4, -⟩
    · rw [h2, h1]; rfl
    · have hb : t.layout.pos i < it.data.length := h.bound w (by rw [h1]; exact List.mem_cons_self)
      rw [h1]
      simp only [h4, ok_bind, cell_ok hb, pure_eq_ok]
      unfold runAll callStep1
      simp only [readAt_ok.2 (List.getElem?_eq_getElem hb), ok_bind, pure_eq_ok]
      exact ih _ (it := ⟨it', _⟩) ⟨h2, h3, by simpa using h.len⟩ (by simp only [ElemIter.len] at *; omega)

theorem elem_forEachIndexed {t : Tensor α} (w : t.WF) (f : σ → List Nat → α → σ × α) (fuel : Nat) (s : σ)
    {it : ElemIter α} (h : ElemOk t it) (hf : it.len < fuel) :
    it.forEachIndexedMut f fuel s =
      runAll (fun i => callStep1 (fun s x => f s i x) (t.layout.pos i)) it.iter.idxs (s, it.data) := by
  induction fuel generalizing it s with
  | zero => omega
  | succ fuel ih =>
    unfold ElemIter.forEachIndexedMut ElemIter.nextIndexedCell
    rcases h.front w with ⟨h0, h1, -, h2⟩ | ⟨i, it', h0, h1, h2, h3, -, h4⟩
    · rw [h2, h1]; rfl
    · have hb : t.layout.pos i < it.data.length := h.bound w (by rw [h1]; exact List.mem_cons_self)
      rw [h1]
      simp only [h4, ok_bind, cell_ok hb, pure_eq_ok]
      unfold runAll callStep1
      simp only [readAt_ok.2 (List.getElem?_eq_getElem hb), ok_bind, pure_eq_ok]
      exact ih _ (it := ⟨it', _⟩) ⟨h2, h3, by simpa using h.len⟩ (by simp only [ElemIter.len] at *; omega)

/-- A new iterator. -/
theorem elemIter_new (dflt o : Order) (t : Tensor α) :
    ∃ it, t.elemIter dflt (.of o) = .ok it ∧ t.indexedElemIter dflt (.of o) = .ok it ∧ ElemOk t it ∧ it.data = t.data ∧
      it.iter.idxs = all o t.layout.shape ∧ it.len = t.layout.shape.prod ∧ it.iter.order = o := by
  obtain ⟨i, h1, h2, h3, h4, h5, h6⟩ := Iter.new_spec o t.layout
  have e : t.elemIter dflt (.of o) = .ok ⟨i, t.data⟩ := by
    unfold Tensor.elemIter
    have : Iter.ofOrder dflt t.layout (.of o) = Iter.new o t.layout := by cases o <;> rfl
    rw [this, h1]; rfl
  refine ⟨⟨i, t.data⟩, e, ?_, ⟨h2, h3, rfl⟩, rfl, ?_, ?_, h4⟩
  · rw [← e]; cases o <;> rfl
  · show i.idxs = _
    unfold Iter.idxs
    rw [h3, h4, h5, h6, List.drop_zero, Nat.sub_zero, List.take_of_length_le]
    rw [length_all]; exact Nat.le_refl _
  · show i.iterEnd - i.iterStart = _
    rw [h5, h6]; rfl

/-- The elements at the indices. -/
theorem elems_at {t : Tensor α} (w : t.WF) {e : List (List Nat)} (he : ∀ i ∈ e, InRange i t.layout.shape) :
    (e.map fun i => t.data[t.layout.pos i]?) = e.map t.arr.elem := by
  refine List.map_congr_left fun i hi => ?_
  obtain ⟨x, h1, h2⟩ := w.get (he i hi)
  rw [h1, h2]

/-- `iter_with_order(o)`: every element once, in the order of the indices; the length is exact. -/
theorem C97_iter (dflt o : Order) (t : Tensor α) (w : t.WF) :
    ∃ it vs, t.elemIter dflt (.of o) = .ok it ∧ it.toList = .ok vs ∧
      (all o t.arr.shape).map t.arr.elem = vs.map some ∧ it.len = vs.length := by
  obtain ⟨it, h1, -, h2, h3, h4, h5, -⟩ := elemIter_new dflt o t
  obtain ⟨vs, h6, h7⟩ := elem_toList w h2
  refine ⟨it, vs, h1, h6, ?_, ?_⟩
  · rw [← h7, h4, h3, elems_at w fun i hi => mem_all.1 hi]
    rfl
  · have := congrArg List.length h7
    rw [List.length_map, List.length_map, h4, length_all] at this
    omega

/-- `iter()`, `iter_mut()`, `indexed_iter()` and `indexed_iter_mut()` use the order of the device. -/
theorem C97_default (dflt : Order) (t : Tensor α) :
    t.elemIterDefault dflt = t.elemIter dflt (.of dflt) ∧
    t.indexedElemIterDefault dflt = t.indexedElemIter dflt (.of dflt) := by
  cases dflt <;> exact ⟨rfl, rfl⟩

/-- The orders `A`, `K`, `G`: `A` is the order of the device; `K` and `G` give every element once, in an order that
follows the storage. Iteration with indices accepts `C` and `F` only. -/
theorem C97_orders (dflt : Order) (t : Tensor α) (w : t.WF) :
    t.elemIter dflt .A = t.elemIter dflt (.of dflt) ∧
    (∀ o, o = .K ∨ o = .G → ∃ (it : ElemIter α) (vs : List α) (e : List (List Nat)), t.elemIter dflt o = .ok it ∧ it.toList = .ok vs ∧ it.len = vs.length ∧
      e.Perm (all .C t.arr.shape) ∧ e.map t.arr.elem = vs.map some) ∧
    (∀ o, o ≠ .C → o ≠ .F → t.indexedElemIter dflt o = .error .invalidValue) := by
  refine ⟨by cases dflt <;> rfl, ?_, ?_⟩
  · intro o ho
    obtain ⟨it, xs, h1, h2, h3, h4⟩ := C26_k_order dflt t.layout w.fit.valid w.1 o ho
    obtain ⟨e, e1, e2⟩ := exists_perm_map (l := all .C t.layout.shape) (f := t.layout.pos) h4
    have hin : ∀ i ∈ e, InRange i t.layout.shape := fun i hi => mem_all.1 (e1.mem_iff.1 hi)
    have key : ∀ (fuel : Nat) (i : Iter) (xs : List Nat), Iter.collect fuel i = .ok xs → (∀ k ∈ xs, k < t.data.length) →
        ∃ vs, (⟨i, t.data⟩ : ElemIter α).collect fuel = .ok vs ∧ (xs.map fun k => t.data[k]?) = vs.map some := by
      intro fuel
      induction fuel with
      | zero => intro i xs h _; cases h; exact ⟨[], rfl, rfl⟩
      | succ fuel ih =>
        intro i xs h hx
        unfold Iter.collect at h
        obtain ⟨⟨r, i'⟩, hr, h⟩ := bind_ok.1 h
        unfold ElemIter.collect ElemIter.next
        simp only [hr, ok_bind]
        cases r with
        | none => cases h; exact ⟨[], rfl, rfl⟩
        | some k =>
          obtain ⟨ys, hy, h⟩ := bind_ok.1 h
          cases h
          obtain ⟨vs, e1, e2⟩ := ih i' ys hy fun j hj => hx j (List.mem_cons_of_mem _ hj)
          have hk := hx k List.mem_cons_self
          refine ⟨t.data[k] :: vs, ?_, ?_⟩
          · simp only [readAt_ok.2 (List.getElem?_eq_getElem hk), ok_bind, pure_eq_ok, e1]
          · simp only [List.map_cons, List.getElem?_eq_getElem hk, e2]
    obtain ⟨vs, v1, v2⟩ := key _ it xs h2 (by
      intro k hk
      rw [e2] at hk
      obtain ⟨i, hi, rfl⟩ := List.mem_map.1 hk
      exact w.covers i (hin i hi))
    refine ⟨⟨it, t.data⟩, vs, e, ?_, v1, ?_, e1, ?_⟩
    · unfold Tensor.elemIter
      rw [h1]; rfl
    · have := congrArg List.length v2
      rw [List.length_map, List.length_map] at this
      show it.len = _
      rw [h3, this]
    · rw [← v2, e2, List.map_map, ← elems_at w hin]
      rfl
  · intro o h1 h2
    cases o <;> first | rfl | exact absurd rfl h1 | exact absurd rfl h2

/-- `indexed_iter_with_order(o)` from the front: every index once, in order, each with its element. -/
theorem C97_indexed (dflt o : Order) (t : Tensor α) (w : t.WF) :
    ∃ it vs, t.indexedElemIter dflt (.of o) = .ok it ∧ it.toListIndexed = .ok vs ∧ vs.map (·.1) = all o t.arr.shape ∧
      ∀ v ∈ vs, t.arr.elem v.1 = some v.2 := by
  obtain ⟨it, -, h1, h2, h3, h4, -, -⟩ := elemIter_new dflt o t
  obtain ⟨vs, h6, h7, h8⟩ := elem_toListIndexed w h2
  refine ⟨it, vs, h1, h6, h7.trans h4, ?_⟩
  rw [← h7, h3] at h8
  rw [elems_at w (by rw [h7, h4]; exact fun i hi => mem_all.1 hi), List.map_map] at h8
  intro v hv
  exact List.map_inj_left.1 h8 v hv

/-- An element iterator of `t` after any history of `next`, `next_back` and `split_at` calls. -/
inductive ElemReach (dflt o : Order) (t : Tensor α) : ElemIter α → Prop
  | start {it} : t.elemIter dflt (.of o) = .ok it → ElemReach dflt o t it
  | next {it it' r} : ElemReach dflt o t it → it.next = .ok (r, it') → ElemReach dflt o t it'
  | nextBack {it it' r} : ElemReach dflt o t it → it.nextBack = .ok (r, it') → ElemReach dflt o t it'
  | left {it a b k} : ElemReach dflt o t it → k ≤ it.len → it.splitAt k = .ok (a, b) → ElemReach dflt o t a
  | right {it a b k} : ElemReach dflt o t it → k ≤ it.len → it.splitAt k = .ok (a, b) → ElemReach dflt o t b

theorem ElemReach.ok {dflt o : Order} {t : Tensor α} {it : ElemIter α} (h : ElemReach dflt o t it) :
    Reach o t.layout it.iter ∧ it.data = t.data := by
  induction h with
  | start h =>
    unfold Tensor.elemIter at h
    have e : Iter.ofOrder dflt t.layout (.of o) = Iter.new o t.layout := by cases o <;> rfl
    rw [e] at h
    obtain ⟨i, h1, h⟩ := bind_ok.1 h
    cases h
    exact ⟨.start h1, rfl⟩
  | next _ h ih =>
    unfold ElemIter.next at h
    obtain ⟨⟨r, i⟩, h1, h⟩ := bind_ok.1 h
    cases r with
    | none => cases h; exact ⟨.next ih.1 h1, ih.2⟩
    | some k =>
      obtain ⟨v, -, h⟩ := bind_ok.1 h
      cases h; exact ⟨.next ih.1 h1, ih.2⟩
  | nextBack _ h ih =>
    unfold ElemIter.nextBack at h
    obtain ⟨⟨r, i⟩, h1, h⟩ := bind_ok.1 h
    cases r with
    | none => cases h; exact ⟨.nextBack ih.1 h1, ih.2⟩
    | some k =>
      obtain ⟨v, -, h⟩ := bind_ok.1 h
      cases h; exact ⟨.nextBack ih.1 h1, ih.2⟩
  | left _ hk h ih =>
    unfold ElemIter.splitAt at h
    obtain ⟨⟨a, b⟩, h1, h⟩ := bind_ok.1 h
    cases h; exact ⟨.left ih.1 hk h1, ih.2⟩
  | right _ hk h ih =>
    unfold ElemIter.splitAt at h
    obtain ⟨⟨a, b⟩, h1, h⟩ := bind_ok.1 h
    cases h; exact ⟨.right ih.1 hk h1, ih.2⟩

/-- A sequence of calls: `true` is `next`, `false` is `next_back`; the cells given by the front calls, those given by
the back calls, and the iterator afterwards. -/
def ElemIter.runCells : List Bool → ElemIter α → Res (List Nat × List Nat × ElemIter α)
  | [], it => .ok ([], [], it)
  | true :: cs, it => do
    let (r, it) ← it.nextCell
    let (fs, bs, it) ← runCells cs it
    return (r.toList ++ fs, bs, it)
  | false :: cs, it => do
    let (r, it) ← it.nextBackCell
    let (fs, bs, it) ← runCells cs it
    return (fs, r.toList ++ bs, it)

theorem runCells_eq (cs : List Bool) (i : Iter) (d : List α) {fs bs : List Nat} {i' : Iter}
    (h : runCalls cs i = .ok (fs, bs, i')) (hb : ∀ k ∈ fs ++ bs, k < d.length) :
    (⟨i, d⟩ : ElemIter α).runCells cs = .ok (fs, bs, ⟨i', d⟩) := by
  induction cs generalizing i fs bs with
  | nil => cases h; rfl
  | cons c cs ih =>
    cases c with
    | true =>
      unfold runCalls at h
      obtain ⟨⟨r, j⟩, h1, h⟩ := bind_ok.1 h
      obtain ⟨⟨fs', bs', j'⟩, h2, h⟩ := bind_ok.1 h
      cases h
      have e := ih j h2 fun k hk => hb k (by
        rcases List.mem_append.1 hk with hk | hk
        · simp [hk]
        · simp [hk])
      unfold ElemIter.runCells ElemIter.nextCell
      simp only [h1, ok_bind]
      cases r with
      | none => simp only [pure_eq_ok, ok_bind, e, Option.toList_none, List.nil_append]
      | some k =>
        simp only [cell_ok (it := (⟨i, d⟩ : ElemIter α)) (hb k (by simp)), pure_eq_ok, ok_bind, e]
    | false =>
      unfold runCalls at h
      obtain ⟨⟨r, j⟩, h1, h⟩ := bind_ok.1 h
      obtain ⟨⟨fs', bs', j'⟩, h2, h⟩ := bind_ok.1 h
      cases h
      have e := ih j h2 fun k hk => hb k (by
        rcases List.mem_append.1 hk with hk | hk
        · simp [hk]
        · simp [hk])
      unfold ElemIter.runCells ElemIter.nextBackCell
      simp only [h1, ok_bind]
      cases r with
      | none => simp only [pure_eq_ok, ok_bind, e, Option.toList_none, List.nil_append]
      | some k =>
        simp only [cell_ok (it := (⟨i, d⟩ : ElemIter α)) (hb k (by simp)), pure_eq_ok, ok_bind, e]

theorem nodup_idxs {it : Iter} : it.idxs.Nodup :=
  ((List.take_sublist _ _).trans (List.drop_sublist _ _)).nodup (nodup_all _ _)

theorem ElemReach.elemOk {dflt o : Order} {t : Tensor α} (w : t.WF) {it : ElemIter α} (h : ElemReach dflt o t it) :
    ElemOk t it := by
  obtain ⟨r1, r2⟩ := h.ok
  obtain ⟨i1, i2, -⟩ := r1.inv (C22_valid_nonNegative _ w.fit.valid w.1)
  exact ⟨i1, i2, by rw [r2]⟩

/-- **Mutable iteration never hands out one cell twice**: after any history of calls and splits, and for any further
calls from both ends, the cells of the front calls, of the back calls and those still to come are all different, if no
axis of the tensor has stride zero. Missing: such axes, see `C97_false_alias`. -/
theorem C97_mut_distinct_partial (dflt o : Order) (t : Tensor α) (w : t.WF) (hz : (0 : Int) ∉ t.layout.stride)
    (it : ElemIter α) (hr : ElemReach dflt o t it) (calls : List Bool) :
    ∃ fs bs it' rest, it.runCells calls = .ok (fs, bs, it') ∧ it'.cells = .ok rest ∧ (fs ++ rest ++ bs.reverse).Nodup ∧
      it.cells = .ok (fs ++ rest ++ bs.reverse) ∧ fs.length + bs.length = min calls.length it.len := by
  have ok := hr.elemOk w
  obtain ⟨r1, r2⟩ := hr.ok
  have hn := C22_valid_nonNegative _ w.fit.valid w.1
  have hb := Iter.toList_spec ok.inv (ok.nonneg w)
  obtain ⟨fs, bs, i', rest, c1, c2, c3, c4⟩ := C23_double_ended_any o _ hn _ r1 calls _ hb
  have hlt : ∀ k ∈ it.iter.items, k < it.data.length := by
    intro k hk
    rw [ok.items] at hk
    obtain ⟨i, hi, rfl⟩ := List.mem_map.1 hk
    exact ok.bound w hi
  obtain ⟨fs', bs', it'', d1, d2, d3, d4, d5⟩ := runCalls_spec calls ok.inv (ok.nonneg w)
  rw [c1] at d1
  cases d1
  have ok' : ElemOk t ⟨i', it.data⟩ := ⟨d2, d3.trans ok.lay, ok.len⟩
  have hrest : rest = i'.items := by
    have := Iter.toList_spec d2 (by rw [d3]; exact ok.nonneg w)
    rw [this] at c2; cases c2; rfl
  refine ⟨fs, bs, ⟨i', it.data⟩, rest, runCells_eq calls it.iter it.data c1 ?_, ?_, ?_, ?_, ?_⟩
  · intro k hk
    refine hlt k ?_
    rw [← c3]
    rcases List.mem_append.1 hk with hk | hk <;> simp [hk]
  · rw [elem_cells w ok', hrest, ← ok'.items]
  · rw [c3, ok.items]
    refine List.Nodup.map_on ?_ nodup_idxs
    intro i hi j hj e
    exact w.inj hz i j (ok.inRange hi) (ok.inRange hj) e
  · rw [elem_cells w ok, c3, ok.items]
  · rw [c4, ok.inv.length_items]; rfl

/-- Reading after any history: `len` elements of the tensor are left, in order; `next` gives the first of them and
`next_back` the last, and leaves the others; when none is left both give nothing. -/
theorem C97_history (dflt o : Order) (t : Tensor α) (w : t.WF) (it : ElemIter α) (hr : ElemReach dflt o t it) :
    ∃ (vs : List α) (e : List (List Nat)), it.toList = .ok vs ∧ it.len = vs.length ∧ e.Sublist (all o t.arr.shape) ∧
      e.map t.arr.elem = vs.map some ∧
      (∀ v vs', vs = v :: vs' → ∃ it', it.next = .ok (some v, it') ∧ it'.toList = .ok vs') ∧
      (∀ v vs', vs = vs' ++ [v] → ∃ it', it.nextBack = .ok (some v, it') ∧ it'.toList = .ok vs') ∧
      (vs = [] → it.next = .ok (none, it) ∧ it.nextBack = .ok (none, it)) := by
  have ok := hr.elemOk w
  obtain ⟨r1, r2⟩ := hr.ok
  obtain ⟨i1, i2, i3⟩ := r1.inv (C22_valid_nonNegative _ w.fit.valid w.1)
  obtain ⟨vs, h1, h2⟩ := elem_toList w ok
  have hlen : vs.length = it.len := by
    have := congrArg List.length h2
    rw [List.length_map, List.length_map, i1.length_idxs] at this
    exact this.symm
  have inj : ∀ {us us' : List α}, us.map some = us'.map some → us = us' := by
    intro us us' e
    exact List.map_injective_iff.2 (Option.some_injective α) e
  refine ⟨vs, it.iter.idxs, h1, hlen.symm, ?_, ?_, ?_, ?_, ?_⟩
  · have := (List.take_sublist (it.iter.iterEnd - it.iter.iterStart) _).trans
      (List.drop_sublist it.iter.iterStart (all it.iter.order it.iter.layout.shape))
    rw [i2, i3] at this
    unfold Iter.idxs
    rw [i2, i3]
    exact this
  · rw [← h2, r2, elems_at w fun i hi => ok.inRange hi]
  · intro v vs' hv
    unfold ElemIter.next
    rcases ok.front w with ⟨h0, -⟩ | ⟨i, j, -, n1, n2, n3, n4, -⟩
    · rw [h0, hv] at hlen; cases hlen
    · have hb : t.layout.pos i < it.data.length := ok.bound w (by rw [n1]; exact List.mem_cons_self)
      obtain ⟨us, e1, e2⟩ := elem_toList w (it := ⟨j, it.data⟩) ⟨n2, n3, ok.len⟩
      have e : it.data[t.layout.pos i] :: us = v :: vs' := inj (by
        rw [← hv, ← h2, n1, List.map_cons, List.map_cons, ← e2, List.getElem?_eq_getElem hb])
      obtain ⟨ea, eb⟩ := List.cons.inj e
      refine ⟨⟨j, it.data⟩, ?_, by rw [e1, eb]⟩
      simp only [n4, ok_bind, readAt_ok.2 (List.getElem?_eq_getElem hb), pure_eq_ok, ea]
  · intro v vs' hv
    unfold ElemIter.nextBack
    rcases Iter.nextBack_spec ok.inv (ok.nonneg w) with ⟨h0, -⟩ | ⟨h0, hN⟩
    · have : vs.length = 0 := hlen.trans h0
      rw [hv, List.length_append, List.length_singleton] at this
      omega
    · have hlt : it.iter.iterStart < it.iter.iterEnd := by simp only [Iter.len] at h0; omega
      obtain ⟨j1, j2, j3, _⟩ := Iter.backIterIndex_spec ok.inv hlt
      have hb : (it.iter.layout.addr it.iter.backIterIndex.indexEnd).toNat < it.data.length := by
        rw [i2] at j3 ⊢
        rw [r2]
        exact w.covers _ j3
      obtain ⟨us, e1, e2⟩ := elem_toList w (it := ⟨it.iter.backIterIndex, it.data⟩)
        ⟨j1, (Iter.backIterIndex_layout _).trans i2, ok.len⟩
      have e : us ++ [it.data[(it.iter.layout.addr it.iter.backIterIndex.indexEnd).toNat]] = vs' ++ [v] := inj (by
        rw [← hv, ← h2, j2, List.map_append, List.map_append, ← e2]
        simp only [List.map_cons, List.map_nil]
        rw [← List.getElem?_eq_getElem hb, i2]
        rfl)
      obtain ⟨ea, eb⟩ := List.append_inj' e rfl
      refine ⟨⟨it.iter.backIterIndex, it.data⟩, ?_, by rw [e1, ea]⟩
      simp only [hN, ok_bind, readAt_ok.2 (List.getElem?_eq_getElem hb), pure_eq_ok]
      rw [(List.cons.inj eb).1]
  · intro hv
    rw [hv] at hlen
    have h0 : it.len = 0 := hlen.symm
    constructor
    · rcases ok.front w with ⟨-, -, n2, -⟩ | ⟨i, j, n0, -⟩
      · unfold ElemIter.next; rw [n2]; rfl
      · omega
    · rcases Iter.nextBack_spec ok.inv (ok.nonneg w) with ⟨-, hN⟩ | ⟨h0', -⟩
      · unfold ElemIter.nextBack; rw [hN]; rfl
      · have : it.len = it.iter.len := rfl
        omega

/-- `iter_mut().for_each(f)` with any function that has a state: it is called once for every index, in the order of the
iterator, and every element is replaced by what its call returned; no other cell changes. Missing: axes of stride zero. -/
theorem C97_mut_partial (dflt o : Order) (t : Tensor α) (w : t.WF) (hz : (0 : Int) ∉ t.layout.stride)
    (f : σ → α → σ × α) (s : σ) :
    ∃ it xs c, t.elemIter dflt (.of o) = .ok it ∧ (all o t.arr.shape).map t.arr.elem = xs.map some ∧
      it.forEachMut f (it.len + 1) s = .ok ((callAll f s xs).1, c) ∧ (⟨c, t.layout⟩ : Tensor α).WF ∧
      (all o t.arr.shape).map (⟨c, t.layout⟩ : Tensor α).arr.elem = (callAll f s xs).2.map some ∧
      ChangedOnly (Addressed t.layout.stride t.layout.offset t.layout.shape) t.data c := by
  obtain ⟨it, h1, -, h2, h3, h4, -, -⟩ := elemIter_new dflt o t
  have hin : ∀ i ∈ all o t.layout.shape, InRange i t.layout.shape := fun i hi => mem_all.1 hi
  obtain ⟨xs, hxs⟩ := map_some_of (f := t.arr.elem) (e := all o t.layout.shape) fun i hi => by
    obtain ⟨x, -, hx⟩ := w.get (hin i hi)
    exact ⟨x, hx⟩
  obtain ⟨c, e1, e2, e3, e4⟩ := runAll_calls t.layout.pos t.arr.elem f (fun i => callStep1 f (t.layout.pos i))
    (all o t.layout.shape) xs hxs s t.data (fun i hi => w.covers i (hin i hi))
    ((nodup_all o _).map_on fun i hi j hj e => w.inj hz i j (hin i hi) (hin j hj) e) (by
      intro i hi x hx s d hd hv
      obtain ⟨y, y1, y2⟩ := w.get (hin i hi)
      rw [hx] at y2; cases y2
      unfold callStep1
      simp only [readAt_ok.2 (hv.trans y1), ok_bind]
      rfl)
  have hw : (⟨c, t.layout⟩ : Tensor α).WF := w.of_data e2
  refine ⟨it, xs, c, h1, hxs, ?_, hw, ?_, ?_⟩
  · rw [elem_forEach w f _ s h2 (Nat.lt_succ_self _), h4, h3, e1]
  · have := elems_at hw (e := all o t.layout.shape) hin
    exact this.symm.trans e3
  · exact changed_of w.fit e2 fun k hk => e4 k (by
      intro hm
      obtain ⟨i, hi, rfl⟩ := List.mem_map.1 hm
      exact hk i (hin i hi) rfl)

/-- `indexed_iter_mut().for_each(f)`: the same, each call with the index of its element. -/
theorem C97_mut_indexed_partial (dflt o : Order) (t : Tensor α) (w : t.WF) (hz : (0 : Int) ∉ t.layout.stride)
    (f : σ → List Nat → α → σ × α) (s : σ) :
    ∃ it xs c, t.indexedElemIter dflt (.of o) = .ok it ∧
      (all o t.arr.shape).map (fun i => (t.arr.elem i).map fun x => (i, x)) = xs.map some ∧
      it.forEachIndexedMut f (it.len + 1) s = .ok ((callAll (fun s p => f s p.1 p.2) s xs).1, c) ∧
      (⟨c, t.layout⟩ : Tensor α).WF ∧
      (all o t.arr.shape).map (⟨c, t.layout⟩ : Tensor α).arr.elem = (callAll (fun s p => f s p.1 p.2) s xs).2.map some ∧
      ChangedOnly (Addressed t.layout.stride t.layout.offset t.layout.shape) t.data c := by
  obtain ⟨it, -, h1, h2, h3, h4, -, -⟩ := elemIter_new dflt o t
  have hin : ∀ i ∈ all o t.layout.shape, InRange i t.layout.shape := fun i hi => mem_all.1 hi
  obtain ⟨xs, hxs⟩ := map_some_of (f := fun i => (t.arr.elem i).map fun x => (i, x)) (e := all o t.layout.shape)
    fun i hi => by
      obtain ⟨x, -, hx⟩ := w.get (hin i hi)
      exact ⟨(i, x), by simp only [show t.arr.elem i = some x from hx, Option.map_some]⟩
  obtain ⟨c, e1, e2, e3, e4⟩ := runAll_calls t.layout.pos (fun i => (t.arr.elem i).map fun x => (i, x))
    (fun s p => f s p.1 p.2) (fun i => callStep1 (fun s x => f s i x) (t.layout.pos i))
    (all o t.layout.shape) xs hxs s t.data (fun i hi => w.covers i (hin i hi))
    ((nodup_all o _).map_on fun i hi j hj e => w.inj hz i j (hin i hi) (hin j hj) e) (by
      intro i hi x hx s d hd hv
      obtain ⟨y, y1, y2⟩ := w.get (hin i hi)
      simp only [show t.arr.elem i = some y from y2, Option.map_some, Option.some.injEq] at hx
      subst hx
      unfold callStep1
      simp only [readAt_ok.2 (hv.trans y1), ok_bind]
      rfl)
  have hw : (⟨c, t.layout⟩ : Tensor α).WF := w.of_data e2
  refine ⟨it, xs, c, h1, hxs, ?_, hw, ?_, ?_⟩
  · rw [elem_forEachIndexed w f _ s h2 (Nat.lt_succ_self _), h4, h3, e1]
  · have := elems_at hw (e := all o t.layout.shape) hin
    exact this.symm.trans e3
  · exact changed_of w.fit e2 fun k hk => e4 k (by
      intro hm
      obtain ⟨i, hi, rfl⟩ := List.mem_map.1 hm
      exact hk i (hin i hi) rfl)

/-! ## On several threads -/

theorem elem_split {t : Tensor α} (hs : t.layout.size ≠ 0) {it : ElemIter α} (h : ElemOk t it) {k : Nat} (hk : k ≤ it.len) :
    ∃ a b, it.splitAt k = .ok (a, b) ∧ ElemOk t a ∧ ElemOk t b ∧ a.len = k ∧ b.len = it.len - k ∧ a.data = it.data ∧
      b.data = it.data ∧ it.iter.idxs = a.iter.idxs ++ b.iter.idxs := by
  obtain ⟨a, b, h1, h2, h3, h4, h5, h6, h7, h8, h9, h10⟩ := Iter.splitAt_spec h.inv (by rw [h.lay]; exact hs) hk
  refine ⟨{ it with iter := a }, { it with iter := b }, ?_, ⟨h2, h4.trans h.lay, h.len⟩, ⟨h3, h5.trans h.lay, h.len⟩, h8, h9,
    rfl, rfl, h10⟩
  unfold ElemIter.splitAt
  rw [h1]; rfl

/-- A scheduler that takes a tensor without elements as one part. -/
def Plan.Proper (p : Plan) (n : Nat) : Prop := p.Fits n ∧ (n = 0 → p = .run)

/-- **Reading on several threads**: however the scheduler divides the iterator, the items of the parts put together
are the items of the sequential iteration. -/
theorem C97_par_read (dflt o : Order) (t : Tensor α) (w : t.WF) (p : Plan) (hp : p.Proper t.arr.shape.prod) :
    ∃ it vs, t.elemIter dflt (.of o) = .ok it ∧ it.parCollect p = .ok vs ∧
      (all o t.arr.shape).map t.arr.elem = vs.map some := by
  obtain ⟨it, h1, -, h2, h3, h4, h5, -⟩ := elemIter_new dflt o t
  have key : ∀ (p : Plan) (it : ElemIter α), ElemOk t it → p.Fits it.len → (t.layout.size = 0 → p = .run) →
      ∃ vs, it.parCollect p = .ok vs ∧ (it.iter.idxs.map fun i => it.data[t.layout.pos i]?) = vs.map some := by
    intro p
    induction p with
    | run => intro it h _ _; exact elem_toList w h
    | split k p q ihp ihq =>
      intro it h hf hs
      have hs : t.layout.size ≠ 0 := fun e => by have := hs e; cases this
      obtain ⟨a, b, s1, s2, s3, s4, s5, s6, s7, s8⟩ := elem_split hs h hf.1
      obtain ⟨u, u1, u2⟩ := ihp a s2 (by rw [s4]; exact hf.2.1) fun e => absurd e hs
      obtain ⟨v, v1, v2⟩ := ihq b s3 (by rw [s5]; exact hf.2.2) fun e => absurd e hs
      refine ⟨u ++ v, ?_, ?_⟩
      · unfold ElemIter.parCollect
        simp only [s1, ok_bind, u1, v1, pure_eq_ok]
      · rw [s8, List.map_append, List.map_append, ← u2, ← v2, s6, s7]
  obtain ⟨vs, v1, v2⟩ := key p it h2 (by rw [h5]; exact hp.1) hp.2
  refine ⟨it, vs, h1, v1, ?_⟩
  rw [← v2, h4, h3, elems_at w fun i hi => mem_all.1 hi]
  rfl

theorem parForEachIndexed_ok {t : Tensor α} (w : t.WF) (f : List Nat → α → α) (p : Plan) (it : ElemIter α)
    (h : ElemOk t it) (hf : p.Fits it.len) (hs : t.layout.size = 0 → p = .run) :
    ∃ P, it.parForEachIndexed f p = .ok P ∧ updates P = it.iter.idxs.map fun i => (t.layout.pos i, f i) := by
  induction p generalizing it with
  | run =>
    unfold ElemIter.parForEachIndexed
    rw [elem_indexedCells w h]
    simp only [ok_bind]
    obtain ⟨P, p1, p2⟩ := procLoop_ok (g := fun p : List Nat × Nat => .ok (.upd p.2 (f p.1)))
      (u := fun p => [(p.2, f p.1)]) (xs := it.iter.idxs.map fun i => (i, t.layout.pos i)) fun x _ => ⟨_, rfl, rfl⟩
    refine ⟨P, p1, p2.trans ?_⟩
    rw [List.flatMap_map]
    generalize it.iter.idxs = e
    induction e with
    | nil => rfl
    | cons i e ih => rw [List.flatMap_cons, ih]; rfl
  | split k p q ihp ihq =>
    have hs : t.layout.size ≠ 0 := fun e => by have := hs e; cases this
    obtain ⟨a, b, s1, s2, s3, s4, s5, s6, s7, s8⟩ := elem_split hs h hf.1
    obtain ⟨u, u1, u2⟩ := ihp a s2 (by rw [s4]; exact hf.2.1) fun e => absurd e hs
    obtain ⟨v, v1, v2⟩ := ihq b s3 (by rw [s5]; exact hf.2.2) fun e => absurd e hs
    refine ⟨.par u v, ?_, ?_⟩
    · unfold ElemIter.parForEachIndexed
      simp only [s1, ok_bind, u1, v1, pure_eq_ok]
    · rw [s8, List.map_append, ← u2, ← v2]; rfl

theorem parForEach_eq {t : Tensor α} (w : t.WF) (f : α → α) (p : Plan) (it : ElemIter α)
    (h : ElemOk t it) (hf : p.Fits it.len) (hs : t.layout.size = 0 → p = .run) :
    it.parForEach f p = it.parForEachIndexed (fun _ => f) p := by
  induction p generalizing it with
  | run =>
    unfold ElemIter.parForEach ElemIter.parForEachIndexed
    rw [elem_cells w h, elem_indexedCells w h]
    simp only [ok_bind]
    generalize it.iter.idxs = e
    induction e with
    | nil => rfl
    | cons i e ih => simp only [List.map_cons, procLoop, ok_bind, ih]
  | split k p q ihp ihq =>
    have hs : t.layout.size ≠ 0 := fun e => by have := hs e; cases this
    obtain ⟨a, b, s1, s2, s3, s4, s5, s6, s7, s8⟩ := elem_split hs h hf.1
    unfold ElemIter.parForEach ElemIter.parForEachIndexed
    simp only [s1, ok_bind]
    rw [ihp a s2 (by rw [s4]; exact hf.2.1) fun e => absurd e hs, ihq b s3 (by rw [s5]; exact hf.2.2) fun e => absurd e hs]

/-- **Changing elements on several threads, with their indices**: however the scheduler divides the iterator and
interleaves the threads, every element is replaced by the value of the function, no other cell changes, and no two
threads touch the same cell. Missing: axes of stride zero. -/
theorem C97_par_mut_indexed_partial (dflt o : Order) (t : Tensor α) (w : t.WF) (hz : (0 : Int) ∉ t.layout.stride)
    (f : List Nat → α → α) (p : Plan) (hp : p.Proper t.arr.shape.prod) :
    ∃ it P c, t.indexedElemIter dflt (.of o) = .ok it ∧ it.parForEachIndexed f p = .ok P ∧ Computes P t.data c ∧
      RaceFree P t.data ∧ (⟨c, t.layout⟩ : Tensor α).WF ∧
      (∀ i, InRange i t.arr.shape → (⟨c, t.layout⟩ : Tensor α).arr.elem i = (t.arr.elem i).map (f i)) ∧
      ChangedOnly (Addressed t.layout.stride t.layout.offset t.layout.shape) t.data c := by
  obtain ⟨it, -, h1, h2, h3, h4, h5, -⟩ := elemIter_new dflt o t
  obtain ⟨P, p1, p2⟩ := parForEachIndexed_ok w f p it h2 (by rw [h5]; exact hp.1) hp.2
  have hin : ∀ i ∈ all o t.layout.shape, InRange i t.layout.shape := fun i hi => mem_all.1 hi
  have hnd : ((all o t.layout.shape).map t.layout.pos).Nodup :=
    (nodup_all o _).map_on fun i hi j hj e => w.inj hz i j (hin i hi) (hin j hj) e
  rw [h4] at p2
  obtain ⟨c, c1, c2, c3, c4⟩ := runAll_modify t.layout.pos f (all o t.layout.shape) t.data
    (fun i hi => w.covers i (hin i hi)) hnd
  have hfst : ((all o t.layout.shape).map fun i => (t.layout.pos i, f i)).map Prod.fst =
      (all o t.layout.shape).map t.layout.pos := by simp [Function.comp_def]
  have hw : (⟨c, t.layout⟩ : Tensor α).WF := w.of_data c2
  refine ⟨it, P, c, h1, p1, computes_of_way (one := fun _ => True) ?_, raceFree_of_nodup (by rw [p2, hfst]; exact hnd),
    hw, ?_, ?_⟩
  · rw [p2]
    refine ⟨c2.symm, ?_, ?_, ?_⟩
    · intro i _
      rw [hfst]
      exact List.nodup_iff_count_le_one.1 hnd i
    · intro u hu
      obtain ⟨i, hi, rfl⟩ := List.mem_map.1 hu
      exact ⟨by rw [c2]; exact w.covers i (hin i hi), .inl ⟨trivial, (c3 i hi).symm⟩⟩
    · intro k hk
      rw [hfst] at hk
      exact (c4 k hk).symm
  · intro i hi
    obtain ⟨x, x1, x2⟩ := w.get (idx := i) hi
    obtain ⟨y, y1, y2⟩ := hw.get (idx := i) hi
    have := c3 i (mem_all.2 hi)
    rw [show c[t.layout.pos i]? = some y from y1, x1] at this
    rw [show (⟨c, t.layout⟩ : Tensor α).arr.elem i = some y from y2, show t.arr.elem i = some x from x2]
    exact this
  · exact changed_of w.fit c2 fun k hk => c4 k (by
      intro hm
      obtain ⟨i, hi, rfl⟩ := List.mem_map.1 hm
      exact hk i (hin i hi) rfl)

/-- **Changing elements on several threads**. Missing: axes of stride zero. -/
theorem C97_par_mut_partial (dflt o : Order) (t : Tensor α) (w : t.WF) (hz : (0 : Int) ∉ t.layout.stride)
    (f : α → α) (p : Plan) (hp : p.Proper t.arr.shape.prod) :
    ∃ it P c, t.elemIter dflt (.of o) = .ok it ∧ it.parForEach f p = .ok P ∧ Computes P t.data c ∧
      RaceFree P t.data ∧ (⟨c, t.layout⟩ : Tensor α).WF ∧
      (∀ i, InRange i t.arr.shape → (⟨c, t.layout⟩ : Tensor α).arr.elem i = (t.arr.elem i).map f) ∧
      ChangedOnly (Addressed t.layout.stride t.layout.offset t.layout.shape) t.data c := by
  obtain ⟨it, P, c, h1, h2, h3⟩ := C97_par_mut_indexed_partial dflt o t w hz (fun _ => f) p hp
  obtain ⟨it', g1, g2, g3, -, -, g5, -⟩ := elemIter_new dflt o t
  rw [h1] at g2; cases g2
  exact ⟨it, P, c, g1, by rw [parForEach_eq w f p it g3 (by rw [g5]; exact hp.1) hp.2]; exact h2, h3⟩

/-- A matrix of three rows and two columns, stored by columns in a larger storage. -/
def elemEx : Tensor Nat := ⟨[9, 1, 2, 3, 4, 5, 6, 8], ⟨[⟨3, 1⟩, ⟨2, 3⟩], 1⟩⟩

example : elemEx.WF ∧ (0 : Int) ∉ elemEx.layout.stride ∧
    (do (← elemEx.elemIter .C .C).toList) = .ok [1, 4, 2, 5, 3, 6] ∧
    (do (← elemEx.elemIter .C .K).toList) = .ok [1, 2, 3, 4, 5, 6] ∧
    (do (← elemEx.elemIterDefault .F).toList) = .ok [1, 2, 3, 4, 5, 6] ∧
    (do (← elemEx.elemIter .C .C).forEachMut (fun n x => (n + 1, 10 * x + n)) 7 0) = .ok (6, [9, 10, 22, 34, 41, 53, 65, 8]) ∧
    (do (← elemEx.elemIter .C .C).parCollect (.split 4 (.split 1 .run .run) .run)) = .ok [1, 4, 2, 5, 3, 6] ∧
    (Plan.split 4 (.split 1 .run .run) .run).Proper elemEx.arr.shape.prod :=
  ⟨⟨by decide, rfl⟩, by decide, by decide, by decide, by decide, by decide, by decide,
    ⟨by simp [Plan.Fits, elemEx, Tensor.arr, Layout.shape], by simp [elemEx, Tensor.arr, Layout.shape]⟩⟩

/-- An axis of stride zero: the mutable iterator hands out the same cell twice. -/
theorem C97_false_alias : (⟨[7], ⟨[⟨2, 0⟩], 0⟩⟩ : Tensor Nat).WF ∧
    (do (← (⟨[7], ⟨[⟨2, 0⟩], 0⟩⟩ : Tensor Nat).elemIter .C .C).cells) = .ok [0, 0] :=
  ⟨⟨Int.le_refl 0, rfl⟩, by decide⟩

/-- On two threads an update can then be lost: of two increments, one or both arrive. -/
theorem C97_false_race : ∃ it P, (⟨[7], ⟨[⟨2, 0⟩], 0⟩⟩ : Tensor Nat).elemIter .C .C = .ok it ∧
    it.parForEach (· + 1) (.split 1 .run .run) = .ok P ∧ Steps (P, [7]) (.nil, [9]) ∧ Steps (P, [7]) (.nil, [8]) := by
  refine ⟨_, .par (.seq (.upd 0 fun v => v + 1) .nil) (.seq (.upd 0 fun v => v + 1) .nil), rfl, rfl, ?_, ?_⟩
  · have h0 := Steps.refl (Proc.par (.seq (.upd 0 fun v => v + 1) .nil) (.seq (.upd 0 fun v => v + 1) .nil), [7])
    have h1 := h0.tail (.left (.seq (.read (v := 7) rfl)))
    have h2 := h1.tail (.left (.seq (.write (by decide))))
    have h3 := h2.tail (.left .next)
    have h4 := h3.tail (.right (.seq (.read (v := 8) rfl)))
    have h5 := h4.tail (.right (.seq (.write (by decide))))
    have h6 := h5.tail (.right .next)
    exact h6.tail .join
  · have h0 := Steps.refl (Proc.par (.seq (.upd 0 fun v => v + 1) .nil) (.seq (.upd 0 fun v => v + 1) .nil), [7])
    have h1 := h0.tail (.left (.seq (.read (v := 7) rfl)))
    have h4 := h1.tail (.right (.seq (.read (v := 7) rfl)))
    have h2 := h4.tail (.left (.seq (.write (by decide))))
    have h3 := h2.tail (.left .next)
    have h5 := h3.tail (.right (.seq (.write (by decide))))
    have h6 := h5.tail (.right .next)
    exact h6.tail .join

/-- From the back, the index that comes with an element is the front one. -/
theorem C97_false_indexed_back : ∃ it v it', elemEx.indexedElemIter .C .C = .ok it ∧
    it.nextBackIndexed = .ok (some ([0, 0], v), it') ∧ v = 6 ∧ elemEx.arr.elem [0, 0] = some 1 :=
  ⟨_, _, _, rfl, rfl, by decide, by decide⟩

/-- Splitting the iterator of a tensor without elements panics. -/
theorem C97_false_split_empty : (⟨[], ⟨[⟨0, 1⟩], 0⟩⟩ : Tensor Nat).WF ∧
    (do (← (⟨[], ⟨[⟨0, 1⟩, ⟨2, 1⟩], 0⟩⟩ : Tensor Nat).elemIter .F .F).parCollect (.split 0 .run .run)) = .error .panic :=
  ⟨⟨Int.le_refl 0, rfl⟩, by decide⟩

end
end Rstsr
