import Verif.Proof.Iter
import Verif.Proof.Narrow
/-!
# Properties C22–C25: the layout iterator

`all o shape` lists every in-range index in row-major (`o = .C`) or column-major (`o = .F`) order;
`l.addr idx` is the storage position `Spec.position l.stride l.offset idx`.
The hypothesis `NonNegative l` says that no in-range index has a negative position; layouts accepted by
`Layout::new` with a non-negative offset have it (`C22_valid_nonNegative`).
-/
namespace Rstsr
open Spec

/-- No in-range index has a negative storage position. -/
def NonNegative (l : Layout) : Prop := ∀ idx, InRange idx l.shape → 0 ≤ position l.stride l.offset idx

theorem Good.nonNegative {l : Layout} (h : Good l) : NonNegative l := by
  intro idx hi
  have hz : 0 ∉ dims l.axes := fun hc => by have := hi.pos 0 hc; omega
  rcases h with h | h
  · exact absurd h hz
  · have := (dot_bounds hi).1
    have h2 := addr_eq l idx
    unfold Layout.addr at h2
    rw [h2]
    omega

theorem C22_valid_nonNegative (l : Layout) (hl : l.Valid) (ho : 0 ≤ l.offset) : NonNegative l :=
  ((valid_iff.1 hl).good ho).nonNegative

/-- The storage positions of all elements in the given order. -/
def positions (o : Order) (l : Layout) : List Nat :=
  (all o l.shape).map fun idx => (position l.stride l.offset idx).toNat

/-- An iterator of `l` after any history of `next`, `next_back` and `split_at` calls. -/
inductive Reach (o : Order) (l : Layout) : Iter → Prop
  | start {it} : Iter.new o l = .ok it → Reach o l it
  | next {it it' r} : Reach o l it → it.next = .ok (r, it') → Reach o l it'
  | nextBack {it it' r} : Reach o l it → it.nextBack = .ok (r, it') → Reach o l it'
  | left {it a b k} : Reach o l it → k ≤ it.len → it.splitAt k = .ok (a, b) → Reach o l a
  | right {it a b k} : Reach o l it → k ≤ it.len → it.splitAt k = .ok (a, b) → Reach o l b

theorem splitAt_size {it a b : Iter} {k : Nat} (h : it.Inv) (hs : it.layout.size = 0) (hk : k ≤ it.len)
    (he : it.splitAt k = .ok (a, b)) : a.Inv ∧ b.Inv ∧ a.layout = it.layout ∧ a.order = it.order ∧
      b.layout = it.layout ∧ b.order = it.order := by
  unfold Iter.splitAt at he
  obtain ⟨i, h1, he⟩ := bind_ok.1 he
  obtain ⟨p, h2, he⟩ := bind_ok.1 he
  simp only [pure_eq_ok, Except.ok.injEq, Prod.mk.injEq] at he
  obtain ⟨rfl, rfl⟩ := he
  have := h.le1
  have := h.le2
  simp only [Iter.len] at hk
  refine ⟨⟨?_, ?_, ?_, ?_⟩, ⟨?_, ?_, ?_, ?_⟩, rfl, rfl, rfl, rfl⟩ <;> (try intro hlt) <;> simp only at * <;> omega

theorem Reach.inv {o : Order} {l : Layout} {it : Iter} (h : Reach o l it) (hn : NonNegative l) :
    it.Inv ∧ it.layout = l ∧ it.order = o := by
  induction h with
  | start h =>
    obtain ⟨it', h1, h2, h3, h4, _⟩ := Iter.new_spec o l
    rw [h1] at h
    simp only [Except.ok.injEq] at h
    subst h
    exact ⟨h2, h3, h4⟩
  | next _ h ih =>
    obtain ⟨i1, i2, i3⟩ := ih
    rcases Iter.next_spec i1 (i2 ▸ hn) with ⟨_, h'⟩ | ⟨hl, h'⟩
    · rw [h'] at h
      simp only [Except.ok.injEq, Prod.mk.injEq] at h
      rw [← h.2]; exact ⟨i1, i2, i3⟩
    · rw [h'] at h
      simp only [Except.ok.injEq, Prod.mk.injEq] at h
      rw [← h.2]
      refine ⟨(Iter.nextIterIndex_spec i1 (by simp only [Iter.len] at hl; omega)).1, ?_, ?_⟩ <;>
        rw [Iter.nextIterIndex_eq] <;> assumption
  | nextBack _ h ih =>
    obtain ⟨i1, i2, i3⟩ := ih
    rcases Iter.nextBack_spec i1 (i2 ▸ hn) with ⟨_, h'⟩ | ⟨hl, h'⟩
    · rw [h'] at h
      simp only [Except.ok.injEq, Prod.mk.injEq] at h
      rw [← h.2]; exact ⟨i1, i2, i3⟩
    · rw [h'] at h
      simp only [Except.ok.injEq, Prod.mk.injEq] at h
      rw [← h.2]
      refine ⟨(Iter.backIterIndex_spec i1 (by simp only [Iter.len] at hl; omega)).1, ?_, ?_⟩ <;>
        rw [Iter.backIterIndex_eq] <;> assumption
  | left _ hk h ih =>
    obtain ⟨i1, i2, i3⟩ := ih
    by_cases hs : l.size = 0
    · obtain ⟨j1, _, j2, j3, _⟩ := splitAt_size i1 (i2 ▸ hs) hk h
      exact ⟨j1, j2.trans i2, j3.trans i3⟩
    · obtain ⟨a, b, h', j1, _, j2, _, j3, _⟩ := Iter.splitAt_spec i1 (i2 ▸ hs) hk
      rw [h'] at h
      simp only [Except.ok.injEq, Prod.mk.injEq] at h
      rw [← h.1]
      exact ⟨j1, j2.trans i2, j3.trans i3⟩
  | right _ hk h ih =>
    obtain ⟨i1, i2, i3⟩ := ih
    by_cases hs : l.size = 0
    · obtain ⟨_, j1, _, _, j2, j3⟩ := splitAt_size i1 (i2 ▸ hs) hk h
      exact ⟨j1, j2.trans i2, j3.trans i3⟩
    · obtain ⟨a, b, h', _, j1, _, j2, _, j3, _⟩ := Iter.splitAt_spec i1 (i2 ▸ hs) hk
      rw [h'] at h
      simp only [Except.ok.injEq, Prod.mk.injEq] at h
      rw [← h.2]
      exact ⟨j1, j2.trans i2, j3.trans i3⟩

/-! ## C22 -/

/-- Iterating any layout yields the positions of all in-range indices, each index once, in order; the
length reported by the new iterator is the number of items. -/
theorem C22_iteration (o : Order) (l : Layout) (hn : NonNegative l) :
    ∃ it, Iter.new o l = .ok it ∧ it.toList = .ok (positions o l) ∧ it.len = (positions o l).length := by
  obtain ⟨it, h1, h2, h3, h4, h5, h6⟩ := Iter.new_spec o l
  have he : it.items = positions o l := by
    rw [Iter.items, Iter.idxs, h3, h4, h5, h6, List.drop_zero, Nat.sub_zero, List.take_of_length_le]
    · rfl
    · rw [length_all]; exact Nat.le_refl _
  refine ⟨it, h1, ?_, ?_⟩
  · rw [Iter.toList_spec h2 (h3 ▸ hn), he]
  · rw [← he, h2.length_items]

/-- `all` lists every in-range index exactly once, in increasing rank; so `positions` visits each once. -/
theorem C22_all_indices_once (o : Order) (shape : List Nat) :
    (all o shape).Nodup ∧ (∀ idx, idx ∈ all o shape ↔ InRange idx shape) ∧
      (all o shape).map (rank o shape) = List.range shape.prod :=
  ⟨nodup_all o shape, fun _ => mem_all, map_rank_all o shape⟩

/-- At every moment, after any history of calls, the reported length is the number of remaining items, and
the remaining items are positions of the layout in order. -/
theorem C22_len_exact (o : Order) (l : Layout) (hn : NonNegative l) (it : Iter) (h : Reach o l it) :
    ∃ rest, it.toList = .ok rest ∧ it.len = rest.length ∧ rest.Sublist (positions o l) := by
  obtain ⟨h1, h2, h3⟩ := h.inv hn
  refine ⟨it.items, Iter.toList_spec h1 (h2 ▸ hn), h1.length_items.symm, ?_⟩
  unfold Iter.items Iter.idxs positions
  rw [h2, h3]
  exact ((List.take_sublist _ _).trans (List.drop_sublist _ _)).map _

example : NonNegative ⟨[⟨2, -6⟩, ⟨3, 2⟩], 7⟩ ∧
    (do (← Iter.new .C ⟨[⟨2, -6⟩, ⟨3, 2⟩], 7⟩).toList) = .ok [7, 9, 11, 1, 3, 5] ∧
    (do (← Iter.new .F ⟨[⟨2, -6⟩, ⟨3, 2⟩], 7⟩).toList) = .ok [7, 1, 9, 3, 11, 5] :=
  ⟨C22_valid_nonNegative _ (by decide) (by decide), by decide, by decide⟩

/-- rank 6, where the generic loop is used -/
example : (do (← Iter.new .F ⟨[⟨1, 9⟩, ⟨2, 4⟩, ⟨1, 7⟩, ⟨2, 2⟩, ⟨1, 0⟩, ⟨2, 1⟩], 1⟩).toList) =
    .ok [1, 5, 3, 7, 2, 6, 4, 8] := by decide

/-! ## C23 -/

/-- A sequence of calls: `true` is `next`, `false` is `next_back`; returned are the items given by the
front calls, those given by the back calls, and the iterator afterwards. -/
def runCalls : List Bool → Iter → Res (List Nat × List Nat × Iter)
  | [], it => .ok ([], [], it)
  | true :: cs, it => do
    let (r, it) ← it.next
    let (fs, bs, it) ← runCalls cs it
    return (r.toList ++ fs, bs, it)
  | false :: cs, it => do
    let (r, it) ← it.nextBack
    let (fs, bs, it) ← runCalls cs it
    return (fs, r.toList ++ bs, it)

theorem runCalls_spec (cs : List Bool) {it : Iter} (h : it.Inv) (hn : Iter.NonNeg it.layout) :
    ∃ fs bs it', runCalls cs it = .ok (fs, bs, it') ∧ it'.Inv ∧ it'.layout = it.layout ∧
      it.items = fs ++ it'.items ++ bs.reverse ∧ fs.length + bs.length = min cs.length it.len := by
  induction cs generalizing it with
  | nil => exact ⟨[], [], it, rfl, h, rfl, by simp, by simp⟩
  | cons c cs ih =>
    cases c with
    | true =>
      rcases Iter.next_spec h hn with ⟨h0, hN⟩ | ⟨h0, hN⟩
      · obtain ⟨fs, bs, it', e1, e2, e3, e4, e5⟩ := ih h hn
        exact ⟨fs, bs, it', by simp [runCalls, hN, e1], e2, e3, e4, by simp only [List.length_cons]; omega⟩
      · have hlt : it.iterStart < it.iterEnd := by simp only [Iter.len] at h0; omega
        obtain ⟨h1, h2⟩ := Iter.nextIterIndex_spec h hlt
        obtain ⟨fs, bs, it', e1, e2, e3, e4, e5⟩ := ih h1 (by rw [Iter.nextIterIndex_layout]; exact hn)
        refine ⟨(it.layout.addr it.indexStart).toNat :: fs, bs, it', by simp [runCalls, hN, e1], e2,
          e3.trans (Iter.nextIterIndex_layout _), ?_, ?_⟩
        · simp only [Iter.nextIterIndex_layout, Iter.items] at e4 ⊢
          rw [h2, List.map_cons, e4]; simp
        · have : it.nextIterIndex.len = it.len - 1 := by
            rw [Iter.nextIterIndex_eq]; simp only [Iter.len]; omega
          simp only [List.length_cons]
          omega
    | false =>
      rcases Iter.nextBack_spec h hn with ⟨h0, hN⟩ | ⟨h0, hN⟩
      · obtain ⟨fs, bs, it', e1, e2, e3, e4, e5⟩ := ih h hn
        exact ⟨fs, bs, it', by simp [runCalls, hN, e1], e2, e3, e4, by simp only [List.length_cons]; omega⟩
      · have hlt : it.iterStart < it.iterEnd := by simp only [Iter.len] at h0; omega
        obtain ⟨h1, h2, _⟩ := Iter.backIterIndex_spec h hlt
        obtain ⟨fs, bs, it', e1, e2, e3, e4, e5⟩ := ih h1 (by rw [Iter.backIterIndex_layout]; exact hn)
        refine ⟨fs, (it.layout.addr it.backIterIndex.indexEnd).toNat :: bs, it', by simp [runCalls, hN, e1], e2,
          e3.trans (Iter.backIterIndex_layout _), ?_, ?_⟩
        · simp only [Iter.backIterIndex_layout, Iter.items] at e4 ⊢
          rw [h2, List.map_append, e4]; simp
        · have : it.backIterIndex.len = it.len - 1 := by
            rw [Iter.backIterIndex_eq]; simp only [Iter.len]; omega
          simp only [List.length_cons]
          omega

/-- For every sequence of `next` and `next_back` calls on a new iterator: the front items, then the items
left in the middle, then the back items in reverse, are the full sequence; and a call returns an item
exactly as long as one is left. -/
theorem C23_double_ended (o : Order) (l : Layout) (hn : NonNegative l) (calls : List Bool) :
    ∃ it fs bs it' rest, Iter.new o l = .ok it ∧ runCalls calls it = .ok (fs, bs, it') ∧
      it'.toList = .ok rest ∧ fs ++ rest ++ bs.reverse = positions o l ∧
      fs.length + bs.length = min calls.length l.shape.prod := by
  obtain ⟨it, h1, h2, h3⟩ := C22_iteration o l hn
  obtain ⟨hi, hl, _⟩ := (Reach.start h1).inv hn
  obtain ⟨fs, bs, it', e1, e2, e3, e4, e5⟩ := runCalls_spec calls hi (hl ▸ hn)
  refine ⟨it, fs, bs, it', it'.items, h1, e1, Iter.toList_spec e2 (by rw [e3, hl]; exact hn), ?_, ?_⟩
  · rw [← e4]
    rw [Iter.toList_spec hi (hl ▸ hn)] at h2
    simpa using h2
  · rw [e5, h3]; simp [positions, length_all]

/-- The same for an iterator with any history (including pieces made by `split_at`). -/
theorem C23_double_ended_any (o : Order) (l : Layout) (hn : NonNegative l) (it : Iter) (h : Reach o l it)
    (calls : List Bool) (before : List Nat) (hb : it.toList = .ok before) :
    ∃ fs bs it' rest, runCalls calls it = .ok (fs, bs, it') ∧
      it'.toList = .ok rest ∧ fs ++ rest ++ bs.reverse = before ∧
      fs.length + bs.length = min calls.length before.length := by
  obtain ⟨hi, hl, _⟩ := h.inv hn
  obtain ⟨fs, bs, it', e1, e2, e3, e4, e5⟩ := runCalls_spec calls hi (hl ▸ hn)
  rw [Iter.toList_spec hi (hl ▸ hn)] at hb
  simp only [Except.ok.injEq] at hb
  refine ⟨fs, bs, it', it'.items, e1, Iter.toList_spec e2 (by rw [e3, hl]; exact hn), ?_, ?_⟩
  · rw [← e4, hb]
  · rw [e5, ← hb, hi.length_items]

example : (do
    let it ← Iter.new .C ⟨[⟨2, -6⟩, ⟨3, 2⟩], 7⟩
    let (fs, bs, it) ← runCalls [true, false, false, true, false] it
    return (fs, bs, ← it.toList)) = (.ok ([7, 9], [5, 3, 1], [11]) : Res _) := by decide

/-! ## C24 -/

/-- Splitting any iterator of a non-empty layout, after any history, at any point up to its length
succeeds; the items of the two parts concatenated are the items of the original. -/
theorem C24_split (o : Order) (l : Layout) (hn : NonNegative l) (hs : l.shape.prod ≠ 0) (it : Iter)
    (h : Reach o l it) (k : Nat) (hk : k ≤ it.len) :
    ∃ a b xs ys, it.splitAt k = .ok (a, b) ∧ a.toList = .ok xs ∧ b.toList = .ok ys ∧
      it.toList = .ok (xs ++ ys) ∧ xs.length = k ∧ Reach o l a ∧ Reach o l b := by
  obtain ⟨i1, i2, i3⟩ := h.inv hn
  obtain ⟨a, b, h1, h2, h3, h4, h5, h6, h7, h8, h9, h10⟩ := Iter.splitAt_spec i1 (i2 ▸ hs) hk
  refine ⟨a, b, a.items, b.items, h1, Iter.toList_spec h2 (by rw [h4, i2]; exact hn),
    Iter.toList_spec h3 (by rw [h5, i2]; exact hn), ?_, ?_, .left h hk h1, .right h hk h1⟩
  · rw [Iter.toList_spec i1 (i2 ▸ hn)]
    simp only [Iter.items, h10, h4, h5, List.map_append]
  · rw [h2.length_items, h8]

/-- The items of all parts, from left to right. -/
def runPlan : Plan → Iter → Res (List Nat)
  | .run, it => it.toList
  | .split k p q, it => do
    let (a, b) ← it.splitAt k
    return (← runPlan p a) ++ (← runPlan q b)

theorem runPlan_spec (p : Plan) {it : Iter} (h : it.Inv) (hn : Iter.NonNeg it.layout) (hs : it.layout.size ≠ 0)
    (hf : p.Fits it.len) : runPlan p it = .ok it.items := by
  induction p generalizing it with
  | run => exact Iter.toList_spec h hn
  | split k p q ihp ihq =>
    obtain ⟨a, b, h1, h2, h3, h4, h5, h6, h7, h8, h9, h10⟩ := Iter.splitAt_spec h hs hf.1
    rw [runPlan, h1]
    simp only [ok_bind]
    rw [ihp h2 (h4 ▸ hn) (h4 ▸ hs) (by rw [h8]; exact hf.2.1), ihq h3 (h5 ▸ hn) (h5 ▸ hs) (by rw [h9]; exact hf.2.2)]
    simp only [ok_bind, pure_eq_ok, Iter.items, h10, h4, h5, List.map_append]

/-- Every recursive splitting of a new iterator visits the same items in the same left-to-right order. -/
theorem C24_split_tree (o : Order) (l : Layout) (hn : NonNegative l) (hs : l.shape.prod ≠ 0) (p : Plan)
    (hf : p.Fits l.shape.prod) :
    ∃ it, Iter.new o l = .ok it ∧ runPlan p it = .ok (positions o l) := by
  obtain ⟨it, h1, h2, h3⟩ := C22_iteration o l hn
  obtain ⟨hi, hl, _⟩ := (Reach.start h1).inv hn
  refine ⟨it, h1, ?_⟩
  rw [runPlan_spec p hi (hl ▸ hn) (hl ▸ hs) (by rw [h3]; simpa [positions, length_all] using hf)]
  rw [Iter.toList_spec hi (hl ▸ hn)] at h2
  exact h2

/-- Splitting an iterator of an empty layout can divide by zero; schedulers do not split empty producers. -/
theorem C24_empty_split_panics :
    (do (← Iter.new .F ⟨[⟨0, 1⟩, ⟨2, 1⟩], 0⟩).splitAt 0) = .error .panic := by decide

example : (Iter.new .C ⟨[⟨2, -6⟩, ⟨3, 2⟩], 7⟩ >>= runPlan (.split 4 (.split 1 .run .run) (.split 2 .run .run))) = .ok [7, 9, 11, 1, 3, 5] ∧
    (Plan.split 4 (.split 1 .run .run) (.split 2 .run .run)).Fits 6 := by
  refine ⟨by decide, ?_⟩
  simp [Plan.Fits]

/-! ## C25 -/

/-- Forward indexed iteration returns every in-range index once, in order, each with its own position. -/
theorem C25_indexed_forward_partial (o : Order) (l : Layout) (hn : NonNegative l) :
    ∃ it, Iter.new o l = .ok it ∧ collectIndexed (it.len + 1) it =
      .ok ((all o l.shape).map fun idx => (idx, (position l.stride l.offset idx).toNat)) := by
  obtain ⟨it, h1, h2, h3, h4, h5, h6⟩ := Iter.new_spec o l
  refine ⟨it, h1, ?_⟩
  rw [collectIndexed_spec h2 (h3 ▸ hn) _ (Nat.lt_succ_self _), Iter.idxs, h3, h4, h5, h6, List.drop_zero, Nat.sub_zero,
    List.take_of_length_le]
  · rfl
  · rw [length_all]; exact Nat.le_refl _

/-- After any history (front calls, back calls, splits), a front call of the indexed iterator returns an
in-range index with its own position, the first of the remaining items. -/
theorem C25_indexed_next (o : Order) (l : Layout) (hn : NonNegative l) (it it' : Iter) (h : Reach o l it)
    (idx : List Nat) (p : Nat) (hx : it.nextIndexed = .ok (some (idx, p), it')) :
    InRange idx l.shape ∧ (p : Int) = position l.stride l.offset idx ∧
      ∃ rest, it.toList = .ok (p :: rest) ∧ it'.toList = .ok rest := by
  obtain ⟨i1, i2, i3⟩ := h.inv hn
  rcases Iter.next_spec i1 (i2 ▸ hn) with ⟨h0, hN⟩ | ⟨h0, hN⟩
  · simp [Iter.nextIndexed, hN] at hx
  · have hlt : it.iterStart < it.iterEnd := by simp only [Iter.len] at h0; omega
    obtain ⟨h1, h2⟩ := Iter.nextIterIndex_spec i1 hlt
    simp only [Iter.nextIndexed, hN, ok_bind, pure_eq_ok, Option.map_some, Except.ok.injEq, Prod.mk.injEq,
      Option.some.injEq] at hx
    obtain ⟨⟨rfl, rfl⟩, rfl⟩ := hx
    have hf := (i1.front hlt).1
    rw [i2] at hf
    refine ⟨hf, ?_, it.nextIterIndex.items, ?_, Iter.toList_spec h1 (by rw [Iter.nextIterIndex_layout, i2]; exact hn)⟩
    · have := hn _ hf
      rw [i2]
      unfold Layout.addr
      omega
    · rw [Iter.toList_spec i1 (i2 ▸ hn)]
      simp only [Iter.items, h2, List.map_cons, Iter.nextIterIndex_layout]

/-- A back call returns the right position, but pairs it with the index of the *front* element: the pair is
right when one element is left. -/
theorem C25_indexed_back_last_partial (o : Order) (l : Layout) (hn : NonNegative l) (it it' : Iter)
    (h : Reach o l it) (idx : List Nat) (p : Nat) (h1 : it.len = 1)
    (hx : it.nextBackIndexed = .ok (some (idx, p), it')) :
    InRange idx l.shape ∧ (p : Int) = position l.stride l.offset idx := by
  obtain ⟨i1, i2, i3⟩ := h.inv hn
  rcases Iter.nextBack_spec i1 (i2 ▸ hn) with ⟨h0, hN⟩ | ⟨h0, hN⟩
  · omega
  · have hlt : it.iterStart < it.iterEnd := by simp only [Iter.len] at h0; omega
    obtain ⟨j1, j2, j3, _⟩ := Iter.backIterIndex_spec i1 hlt
    obtain ⟨_, k2⟩ := Iter.nextIterIndex_spec i1 hlt
    have hlen := i1.length_idxs
    rw [h1] at hlen
    have e1 : it.backIterIndex.idxs = [] := by
      apply List.eq_nil_of_length_eq_zero
      have := congrArg List.length j2
      simp at this; omega
    have e2 : it.nextIterIndex.idxs = [] := by
      apply List.eq_nil_of_length_eq_zero
      have := congrArg List.length k2
      simp at this; omega
    rw [e1] at j2
    rw [e2, j2] at k2
    simp at k2
    simp only [Iter.nextBackIndexed, hN, ok_bind, pure_eq_ok, Option.map_some, Except.ok.injEq, Prod.mk.injEq,
      Option.some.injEq] at hx
    obtain ⟨⟨rfl, rfl⟩, rfl⟩ := hx
    rw [k2] at j3 ⊢
    rw [i2] at j3 ⊢
    refine ⟨j3, ?_⟩
    have := hn _ j3
    unfold Layout.addr
    omega

/-- The full claim fails for back calls: on the 1-d layout with 3 elements the first back call returns index
`[0]` with the position of element 2. -/
theorem C25_indexed_back_witness :
    (do let (r, _) ← (← Iter.new .C ⟨[⟨3, 1⟩], 0⟩).nextBackIndexed; return r) = .ok (some ([0], 2)) ∧
    position [1] 0 [0] ≠ 2 := by
  constructor <;> decide

example : (do let it ← Iter.new .C ⟨[⟨2, -6⟩, ⟨3, 2⟩], 7⟩; collectIndexed 7 it) =
    .ok [([0, 0], 7), ([0, 1], 9), ([0, 2], 11), ([1, 0], 1), ([1, 1], 3), ([1, 2], 5)] := by decide

end Rstsr
