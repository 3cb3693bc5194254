import Verif.Model.Iter
import Verif.Proof.Core
import Verif.Proof.Order
/-! # The layout iterator refines a list -/
namespace Rstsr
open Spec

/-- All coordinates but the last in range. -/
def Ext : List Nat → List Nat → Prop
  | [], [] => True
  | [_], [_] => True
  | d :: ds, i :: is => i < d ∧ Ext ds is
  | _, _ => False

theorem Ext.length_eq : ∀ {s i : List Nat}, Ext s i → i.length = s.length
  | [], [], _ => rfl
  | [_], [_], _ => rfl
  | [_], _ :: _ :: _, h => by simp [Ext] at h
  | _ :: _ :: _, [_], h => by simp [Ext] at h
  | _ :: _ :: _, _ :: _ :: _, h => by
    have := Ext.length_eq h.2
    simpa using this

theorem ext_cons {d e i : Nat} {ds is : List Nat} :
    Ext (d :: e :: ds) (i :: is) ↔ i < d ∧ Ext (e :: ds) is := by
  cases is <;> simp [Ext]

theorem Ext.of_inRange : ∀ {s i : List Nat}, InRange i s → Ext s i
  | [], [], _ => trivial
  | [_], [_], _ => trivial
  | [_], _ :: _ :: _, h => by simp at h
  | _ :: _ :: _, [_], h => by simp at h
  | _ :: _ :: _, _ :: _ :: _, h => ⟨h.1, Ext.of_inRange h.2⟩

theorem Ext.inRange {s i : List Nat} (h : Ext s i) (hr : rankF s i < s.prod) : InRange i s := by
  induction s generalizing i with
  | nil => cases i <;> simp_all [Ext]
  | cons d ds ih =>
    cases i with
    | nil => simp [Ext] at h
    | cons a as =>
      cases ds with
      | nil =>
        cases as with
        | nil => simpa using hr
        | cons b bs => simp [Ext] at h
      | cons e es =>
        rw [ext_cons] at h
        refine ⟨h.1, ih h.2 ?_⟩
        rw [rankF_cons, List.prod_cons] at hr
        by_contra hc
        have := Nat.mul_le_mul_left d (Nat.le_of_not_lt hc)
        omega

/-- One step forward, last axis not wrapped. -/
def nextExt : List Axis → List Nat → Int → List Nat × Int
  | [x], [i], off => ([i + 1], off + x.str)
  | x :: xs, i :: is, off =>
    if i + 1 = x.dim then (0 :: (nextExt xs is (off + x.str - x.dim * x.str)).1, (nextExt xs is (off + x.str - x.dim * x.str)).2)
    else ((i + 1) :: is, off + x.str)
  | _, is, off => (is, off)

/-- One step back, last axis not wrapped. -/
def backExt : List Axis → List Nat → Int → List Nat × Int
  | [x], [i], off => ([i - 1], off - x.str)
  | x :: xs, i :: is, off =>
    if i = 0 then ((x.dim - 1) :: (backExt xs is (off + (x.dim - 1 : Nat) * x.str)).1,
      (backExt xs is (off + (x.dim - 1 : Nat) * x.str)).2)
    else ((i - 1) :: is, off - x.str)
  | _, is, off => (is, off)

theorem nextExt_spec {axes : List Axis} {idx : List Nat} {off : Int} (h : Ext (dims axes) idx) (hne : axes ≠ []) :
    Ext (dims axes) (nextExt axes idx off).1 ∧
    rankF (dims axes) (nextExt axes idx off).1 = rankF (dims axes) idx + 1 ∧
    (nextExt axes idx off).2 - dot (nextExt axes idx off).1 axes = off - dot idx axes := by
  induction axes generalizing idx off with
  | nil => exact absurd rfl hne
  | cons x xs ih =>
    cases idx with
    | nil => cases xs <;> simp [dims, Ext] at h
    | cons i is =>
      cases xs with
      | nil =>
        cases is with
        | nil => simp [nextExt, dims, Ext]; ring
        | cons j js => simp [dims, Ext] at h
      | cons y ys =>
        simp only [dims, List.map_cons] at h
        rw [ext_cons] at h
        cases is with
        | nil => cases ys <;> simp [Ext] at h
        | cons j js =>
          rw [nextExt]
          · split
            · rename_i hw
              obtain ⟨h1, h2, h3⟩ := ih (idx := j :: js) (off := off + x.str - x.dim * x.str) h.2 (by simp)
              refine ⟨?_, ?_, ?_⟩
              · simp only [dims, List.map_cons]
                rw [ext_cons]
                exact ⟨by omega, h1⟩
              · simp only [dims, List.map_cons] at h2 ⊢
                rw [rankF_cons, h2, rankF_cons x.dim, Nat.mul_add]
                omega
              · rw [dot_cons, dot_cons i]
                have : (x.dim : Int) = i + 1 := by omega
                have e : (x.dim : Int) * x.str = i * x.str + x.str := by rw [this]; ring
                push_cast
                linarith
            · rename_i hw
              refine ⟨?_, ?_, ?_⟩
              · simp only [dims, List.map_cons]
                rw [ext_cons]
                exact ⟨by omega, h.2⟩
              · simp only [dims, List.map_cons, rankF_cons]; omega
              · simp only [dot_cons]; push_cast; ring
          · intro h1 _
            simp at h1

theorem backExt_spec {axes : List Axis} {idx : List Nat} {off : Int} (h : Ext (dims axes) idx)
    (hr : 0 < rankF (dims axes) idx) :
    Ext (dims axes) (backExt axes idx off).1 ∧
    rankF (dims axes) (backExt axes idx off).1 + 1 = rankF (dims axes) idx ∧
    (backExt axes idx off).2 - dot (backExt axes idx off).1 axes = off - dot idx axes := by
  induction axes generalizing idx off with
  | nil => simp [dims] at hr
  | cons x xs ih =>
    cases idx with
    | nil => cases xs <;> simp [dims, Ext] at h
    | cons i is =>
      cases xs with
      | nil =>
        cases is with
        | nil =>
          simp [dims] at hr
          obtain ⟨k, rfl⟩ := Nat.exists_eq_succ_of_ne_zero (by omega : i ≠ 0)
          simp [backExt, dims, Ext]; ring
        | cons j js => simp [dims, Ext] at h
      | cons y ys =>
        simp only [dims, List.map_cons] at h
        rw [ext_cons] at h
        cases is with
        | nil => cases ys <;> simp [Ext] at h
        | cons j js =>
          rw [backExt]
          · split
            · rename_i hw
              subst hw
              have hr' : 0 < rankF (dims (y :: ys)) (j :: js) := by
                by_contra hc
                have : rankF (dims (y :: ys)) (j :: js) = 0 := by omega
                simp only [dims, List.map_cons] at hr this
                rw [rankF_cons, this] at hr
                simp at hr
              obtain ⟨h1, h2, h3⟩ := ih (idx := j :: js) (off := off + (x.dim - 1 : Nat) * x.str) h.2 hr'
              refine ⟨?_, ?_, ?_⟩
              · simp only [dims, List.map_cons]
                rw [ext_cons]
                exact ⟨by omega, h1⟩
              · simp only [dims, List.map_cons] at h2 ⊢
                rw [rankF_cons, rankF_cons x.dim, ← h2, Nat.mul_add]
                omega
              · rw [dot_cons, dot_cons 0]
                push_cast at h3 ⊢
                linarith
            · rename_i hw
              obtain ⟨k, rfl⟩ := Nat.exists_eq_succ_of_ne_zero hw
              refine ⟨?_, ?_, ?_⟩
              · simp only [dims, List.map_cons]
                rw [ext_cons]
                exact ⟨by omega, h.2⟩
              · simp only [dims, List.map_cons, rankF_cons]; omega
              · simp only [dot_cons, Nat.succ_eq_add_one, Nat.add_sub_cancel]; push_cast; ring
          · intro h1 _
            simp at h1

theorem nextLoop_eq {axes : List Axis} {idx : List Nat} {off : Int} (h : Ext (dims axes) idx)
    (hr : rankF (dims axes) idx + 1 < (dims axes).prod) : nextLoop axes idx off = nextExt axes idx off := by
  induction axes generalizing idx off with
  | nil => simp [dims] at hr
  | cons x xs ih =>
    cases idx with
    | nil => cases xs <;> simp [dims, Ext] at h
    | cons i is =>
      cases xs with
      | nil =>
        cases is with
        | nil =>
          simp [dims] at hr
          simp [nextExt, nextLoop]
          omega
        | cons j js => simp [dims, Ext] at h
      | cons y ys =>
        simp only [dims, List.map_cons] at h
        rw [ext_cons] at h
        cases is with
        | nil => cases ys <;> simp [Ext] at h
        | cons j js =>
          rw [nextExt, nextLoop]
          · split
            · rename_i hw
              rw [ih h.2]
              simp only [dims, List.map_cons] at hr ⊢
              rw [rankF_cons, List.prod_cons] at hr
              by_contra hc
              have := Nat.mul_le_mul_left x.dim (Nat.le_of_not_lt hc)
              rw [Nat.mul_add] at this
              omega
            · rfl
          · intro h1 _
            simp at h1

theorem backLoop_eq {axes : List Axis} {idx : List Nat} {off : Int} (h : Ext (dims axes) idx)
    (hr : 0 < rankF (dims axes) idx) : backLoop axes idx off = backExt axes idx off := by
  induction axes generalizing idx off with
  | nil => simp [dims] at hr
  | cons x xs ih =>
    cases idx with
    | nil => cases xs <;> simp [dims, Ext] at h
    | cons i is =>
      cases xs with
      | nil =>
        cases is with
        | nil =>
          simp [dims] at hr
          simp [backExt, backLoop]
          omega
        | cons j js => simp [dims, Ext] at h
      | cons y ys =>
        simp only [dims, List.map_cons] at h
        rw [ext_cons] at h
        cases is with
        | nil => cases ys <;> simp [Ext] at h
        | cons j js =>
          rw [backExt, backLoop]
          · split
            · rename_i hw
              subst hw
              rw [ih h.2]
              by_contra hc
              have : rankF (dims (y :: ys)) (j :: js) = 0 := by omega
              simp only [dims, List.map_cons] at hr this
              rw [rankF_cons, this] at hr
              simp at hr
            · rfl
          · intro h1 _
            simp at h1

theorem nextF_eq {axes : List Axis} {idx : List Nat} {off : Int} (h : Ext (dims axes) idx)
    (hr : rankF (dims axes) idx + 1 < (dims axes).prod) : nextF axes idx off = nextExt axes idx off := by
  have hl := h.length_eq
  match axes, idx, hl with
  | [], [], _ => rfl
  | [x0], [i0], _ => rfl
  | [x0, x1], [i0, i1], _ => simp only [nextF, nextExt]
  | [x0, x1, x2], [i0, i1, i2], _ =>
    simp only [nextF, nextExt]; repeat' split
    all_goals simp
    all_goals ring
  | [x0, x1, x2, x3], [i0, i1, i2, i3], _ =>
    simp only [nextF, nextExt]; repeat' split
    all_goals simp
    all_goals ring
  | x0 :: x1 :: x2 :: x3 :: x4 :: xs, idx, _ =>
    rw [← nextLoop_eq h hr]
    rfl

theorem backF_eq {axes : List Axis} {idx : List Nat} {off : Int} (h : Ext (dims axes) idx)
    (hr : 0 < rankF (dims axes) idx) : backF axes idx off = backExt axes idx off := by
  have hl := h.length_eq
  match axes, idx, hl with
  | [], [], _ => rfl
  | [x0], [i0], _ => rfl
  | [x0, x1], [i0, i1], _ => simp only [backF, backExt]
  | [x0, x1, x2], [i0, i1, i2], _ =>
    simp only [backF, backExt]; repeat' split
    all_goals simp
  | [x0, x1, x2, x3], [i0, i1, i2, i3], _ =>
    simp only [backF, backExt]; repeat' split
    all_goals simp
  | x0 :: x1 :: x2 :: x3 :: x4 :: xs, idx, _ =>
    rw [← backLoop_eq h hr]
    rfl

theorem nextF_long {axes : List Axis} {idx : List Nat} {off : Int} (h : 5 ≤ axes.length) :
    nextF axes idx off = nextLoop axes idx off := by
  match axes, h with
  | x0 :: x1 :: x2 :: x3 :: x4 :: xs, _ => rfl

theorem backF_long {axes : List Axis} {idx : List Nat} {off : Int} (h : 5 ≤ axes.length) :
    backF axes idx off = backLoop axes idx off := by
  match axes, h with
  | x0 :: x1 :: x2 :: x3 :: x4 :: xs, _ => rfl

theorem nextC_eq {axes : List Axis} {idx : List Nat} {off : Int} (hl : idx.length = axes.length) :
    nextC axes idx off = ((nextF axes.reverse idx.reverse off).1.reverse, (nextF axes.reverse idx.reverse off).2) := by
  match axes, idx, hl with
  | [], [], _ => rfl
  | [x0], [i0], _ => rfl
  | [x0, x1], [i0, i1], _ => simp only [nextF, nextC, List.reverse_cons, List.reverse_nil, List.nil_append, List.cons_append]; split <;> simp
  | [x0, x1, x2], [i0, i1, i2], _ =>
    simp only [nextF, nextC, List.reverse_cons, List.reverse_nil, List.nil_append, List.cons_append]; repeat' split
    all_goals simp
  | [x0, x1, x2, x3], [i0, i1, i2, i3], _ =>
    simp only [nextF, nextC, List.reverse_cons, List.reverse_nil, List.nil_append, List.cons_append]; repeat' split
    all_goals simp
  | x0 :: x1 :: x2 :: x3 :: x4 :: xs, idx, _ =>
    rw [nextF_long (by simp)]
    rfl

theorem backC_eq {axes : List Axis} {idx : List Nat} {off : Int} (hl : idx.length = axes.length) :
    backC axes idx off = ((backF axes.reverse idx.reverse off).1.reverse, (backF axes.reverse idx.reverse off).2) := by
  match axes, idx, hl with
  | [], [], _ => rfl
  | [x0], [i0], _ => rfl
  | [x0, x1], [i0, i1], _ => simp only [backF, backC, List.reverse_cons, List.reverse_nil, List.nil_append, List.cons_append]; split <;> simp
  | [x0, x1, x2], [i0, i1, i2], _ =>
    simp only [backF, backC, List.reverse_cons, List.reverse_nil, List.nil_append, List.cons_append]; repeat' split
    all_goals simp
  | [x0, x1, x2, x3], [i0, i1, i2, i3], _ =>
    simp only [backF, backC, List.reverse_cons, List.reverse_nil, List.nil_append, List.cons_append]; repeat' split
    all_goals simp
  | x0 :: x1 :: x2 :: x3 :: x4 :: xs, idx, _ =>
    rw [backF_long (by simp)]
    rfl

/-- Reversed for row-major, as is for column-major. -/
def turn {α : Type} : Order → List α → List α
  | .C, xs => xs.reverse
  | .F, xs => xs

theorem turn_turn {α : Type} (o : Order) (xs : List α) : turn o (turn o xs) = xs := by cases o <;> simp [turn]
theorem turn_length {α : Type} (o : Order) (xs : List α) : (turn o xs).length = xs.length := by
  cases o <;> simp [turn]
theorem turn_prod (o : Order) (xs : List Nat) : (turn o xs).prod = xs.prod := by cases o <;> simp [turn]
theorem turn_dims (o : Order) (axes : List Axis) : dims (turn o axes) = turn o (dims axes) := by
  cases o <;> simp [turn, dims]
theorem inRange_turn {o : Order} {i s : List Nat} : InRange (turn o i) (turn o s) ↔ InRange i s := by
  cases o
  · exact inRange_reverse
  · exact Iff.rfl
theorem rank_turn {o : Order} {s i : List Nat} (h : i.length = s.length) :
    rank o s i = rankF (turn o s) (turn o i) := by
  cases o
  · exact rankC_eq h
  · rfl
theorem dot_turn {o : Order} {i : List Nat} {axes : List Axis} (h : i.length = axes.length) :
    dot (turn o i) (turn o axes) = dot i axes := by
  cases o
  · exact dot_reverse h
  · rfl

/-- `next_iter_index` of either order. -/
def nextO (o : Order) (axes : List Axis) (idx : List Nat) (off : Int) : List Nat × Int :=
  match o with
  | .C => nextC axes idx off
  | .F => nextF axes idx off

/-- `back_iter_index` of either order. -/
def backO (o : Order) (axes : List Axis) (idx : List Nat) (off : Int) : List Nat × Int :=
  match o with
  | .C => backC axes idx off
  | .F => backF axes idx off

theorem nextO_eq {o : Order} {axes : List Axis} {idx : List Nat} {off : Int} (hl : idx.length = axes.length) :
    nextO o axes idx off = (turn o (nextF (turn o axes) (turn o idx) off).1, (nextF (turn o axes) (turn o idx) off).2) := by
  cases o
  · exact nextC_eq hl
  · rfl

theorem backO_eq {o : Order} {axes : List Axis} {idx : List Nat} {off : Int} (hl : idx.length = axes.length) :
    backO o axes idx off = (turn o (backF (turn o axes) (turn o idx) off).1, (backF (turn o axes) (turn o idx) off).2) := by
  cases o
  · exact backC_eq hl
  · rfl

theorem nextO_spec {o : Order} {axes : List Axis} {idx : List Nat} {off : Int} (h : InRange idx (dims axes))
    (hr : rank o (dims axes) idx + 1 < (dims axes).prod) :
    InRange (nextO o axes idx off).1 (dims axes) ∧
    rank o (dims axes) (nextO o axes idx off).1 = rank o (dims axes) idx + 1 ∧
    (nextO o axes idx off).2 - dot (nextO o axes idx off).1 axes = off - dot idx axes := by
  have hl : idx.length = axes.length := by simpa using h.length_eq
  have hi := (inRange_turn (o := o)).2 h
  have he := Ext.of_inRange hi
  rw [rank_turn h.length_eq] at hr ⊢
  rw [← turn_dims] at he hi hr
  rw [nextO_eq hl, nextF_eq he (by simpa [turn_dims, turn_prod] using hr)]
  have hne : turn o axes ≠ [] := by
    intro hc
    have : axes = [] := by rw [← turn_turn o axes, hc]; cases o <;> rfl
    subst this
    simp [turn] at hr
  obtain ⟨h1, h2, h3⟩ := nextExt_spec (off := off) he hne
  have h4 := h1.inRange (by rw [h2, turn_dims, turn_prod]; rw [turn_dims] at hr; exact hr)
  have h5 : InRange (turn o (nextExt (turn o axes) (turn o idx) off).1) (dims axes) := by
    rw [← inRange_turn (o := o), turn_turn, ← turn_dims]; exact h4
  refine ⟨h5, ?_, ?_⟩
  · rw [rank_turn h5.length_eq, turn_turn, ← turn_dims, h2]
  · have hl2 := h5.length_eq
    simp only [dims, List.length_map] at hl2
    have := dot_turn (o := o) hl2
    rw [turn_turn] at this
    rw [← this, h3, dot_turn hl]

/-- All but the slowest coordinate in range. -/
def ExtO (o : Order) (s i : List Nat) : Prop := Ext (turn o s) (turn o i)

theorem backO_spec {o : Order} {axes : List Axis} {idx : List Nat} {off : Int} (h : ExtO o (dims axes) idx)
    (hr : 0 < rank o (dims axes) idx) :
    ExtO o (dims axes) (backO o axes idx off).1 ∧
    rank o (dims axes) (backO o axes idx off).1 + 1 = rank o (dims axes) idx ∧
    (backO o axes idx off).2 - dot (backO o axes idx off).1 axes = off - dot idx axes := by
  have hl : idx.length = axes.length := by simpa [turn_length] using h.length_eq
  have hld : idx.length = (dims axes).length := by simpa using hl
  rw [rank_turn hld] at hr ⊢
  unfold ExtO at *
  rw [← turn_dims] at h hr ⊢
  rw [backO_eq hl, backF_eq h hr]
  obtain ⟨h1, h2, h3⟩ := backExt_spec (off := off) h hr
  have hl2 : (turn o (backExt (turn o axes) (turn o idx) off).1).length = axes.length := by
    simpa [turn_length] using h1.length_eq
  refine ⟨by simpa [turn_turn] using h1, ?_, ?_⟩
  · rw [rank_turn (by simpa using hl2), turn_turn, ← turn_dims, h2]
  · have := dot_turn (o := o) hl2
    rw [turn_turn] at this
    rw [← this, h3, dot_turn hl]

theorem unravelLoop_ext {s : List Nat} {k : Nat} (h : ∀ d ∈ s, 0 < d) :
    ∃ i, unravelLoop s k = .ok i ∧ Ext s i ∧ (s ≠ [] → rankF s i = k) := by
  induction s generalizing k with
  | nil => exact ⟨[], rfl, trivial, fun h => absurd rfl h⟩
  | cons d ds ih =>
    cases ds with
    | nil => exact ⟨[k], rfl, trivial, fun _ => by simp⟩
    | cons e es =>
      obtain ⟨i, h1, h2, h3⟩ := ih (k := k / d) (fun x hx => h x (List.mem_cons_of_mem _ hx))
      have hd := h d List.mem_cons_self
      refine ⟨k % d :: i, ?_, ?_, fun _ => ?_⟩
      · rw [unravelLoop, h1]
        · simp; omega
        · simp
      · rw [ext_cons]; exact ⟨Nat.mod_lt _ hd, h2⟩
      · rw [rankF_cons, h3 (by simp)]; exact Nat.mod_add_div k d

theorem unravelO_ext {o : Order} {s : List Nat} {k : Nat} (h : ∀ d ∈ s, 0 < d) :
    ∃ i, unravelO o s k = .ok i ∧ ExtO o s i ∧ (s ≠ [] → rank o s i = k) := by
  cases o
  · obtain ⟨i, h1, h2, h3⟩ := unravelLoop_ext (s := s.reverse) (k := k) (by simpa using h)
    refine ⟨i.reverse, ?_, ?_, fun hs => ?_⟩
    · simp [unravelO, unravelC, h1]
    · simpa [ExtO, turn] using h2
    · have hl := h2.length_eq
      rw [rank_turn (by simpa using hl)]
      simpa [turn] using h3 (by simpa using hs)
  · obtain ⟨i, h1, h2, h3⟩ := unravelLoop_ext (s := s) (k := k) h
    exact ⟨i, h1, h2, h3⟩

end Rstsr

namespace Rstsr
open Spec

namespace Iter

/-- The state of the iterator describes the segment `iterStart..iterEnd` of all indices. -/
structure Inv (it : Iter) : Prop where
  le1 : it.iterStart ≤ it.iterEnd
  le2 : it.iterEnd ≤ it.layout.size
  front : it.iterStart < it.iterEnd → InRange it.indexStart it.layout.shape ∧
    rank it.order it.layout.shape it.indexStart = it.iterStart ∧ it.offsetStart = it.layout.addr it.indexStart
  back : it.iterStart < it.iterEnd → ExtO it.order it.layout.shape it.indexEnd ∧
    (it.layout.shape ≠ [] → rank it.order it.layout.shape it.indexEnd = it.iterEnd) ∧
    it.offsetEnd = it.layout.addr it.indexEnd

/-- The indices still to be visited. -/
def idxs (it : Iter) : List (List Nat) :=
  ((all it.order it.layout.shape).drop it.iterStart).take (it.iterEnd - it.iterStart)

/-- The positions still to be visited. -/
def items (it : Iter) : List Nat := it.idxs.map fun i => (it.layout.addr i).toNat

theorem Inv.length_idxs {it : Iter} (h : it.Inv) : it.idxs.length = it.len := by
  have := h.le2
  have := h.le1
  simp only [Layout.size] at *
  simp [idxs, len, length_all]
  omega

theorem Inv.length_items {it : Iter} (h : it.Inv) : it.items.length = it.len := by
  rw [items, List.length_map, h.length_idxs]

theorem idxs_nil {it : Iter} (h : it.iterStart ≥ it.iterEnd) : it.idxs = [] := by
  simp [idxs, Nat.sub_eq_zero_of_le h]

/-- No in-range index of the layout has a negative position. -/
def NonNeg (l : Layout) : Prop := ∀ idx, InRange idx l.shape → 0 ≤ l.addr idx

theorem toUsize_ok {x : Int} (h : 0 ≤ x) : toUsize x = .ok x.toNat := by
  simp [toUsize]; omega

theorem nextIterIndex_eq (it : Iter) : it.nextIterIndex =
    { it with indexStart := (nextO it.order it.layout.axes it.indexStart it.offsetStart).1,
              offsetStart := (nextO it.order it.layout.axes it.indexStart it.offsetStart).2,
              iterStart := it.iterStart + 1 } := by
  cases it with
  | mk o => cases o <;> rfl

theorem backIterIndex_eq (it : Iter) : it.backIterIndex =
    { it with indexEnd := (backO it.order it.layout.axes it.indexEnd it.offsetEnd).1,
              offsetEnd := (backO it.order it.layout.axes it.indexEnd it.offsetEnd).2,
              iterEnd := it.iterEnd - 1 } := by
  cases it with
  | mk o => cases o <;> rfl

theorem nextIterIndex_spec {it : Iter} (h : it.Inv) (hlt : it.iterStart < it.iterEnd) :
    it.nextIterIndex.Inv ∧ it.idxs = it.indexStart :: it.nextIterIndex.idxs := by
  obtain ⟨hi, hr, ho⟩ := h.front hlt
  have h2 := h.le2
  constructor
  · rw [nextIterIndex_eq]
    refine ⟨by simp only; omega, h2, fun hlt' => ?_, fun hlt' => ?_⟩
    · simp only at hlt' ⊢
      obtain ⟨a, b, c⟩ := nextO_spec (o := it.order) (off := it.offsetStart) hi
        (by rw [show dims it.layout.axes = it.layout.shape from rfl, hr]; exact Nat.lt_of_lt_of_le hlt' h2)
      refine ⟨a, ?_, ?_⟩
      · rw [← hr]; exact b
      · rw [addr_eq] at ho ⊢
        omega
    · exact h.back hlt
  · rw [nextIterIndex_eq]
    unfold idxs
    simp only
    have hg := all_getElem?_rank (o := it.order) hi
    rw [hr] at hg
    obtain ⟨hl, hg⟩ := List.getElem?_eq_some_iff.1 hg
    rw [List.drop_eq_getElem_cons hl, hg, show it.iterEnd - it.iterStart = it.iterEnd - (it.iterStart + 1) + 1 by omega,
      List.take_succ_cons]

theorem backIterIndex_spec {it : Iter} (h : it.Inv) (hlt : it.iterStart < it.iterEnd) :
    it.backIterIndex.Inv ∧ it.idxs = it.backIterIndex.idxs ++ [it.backIterIndex.indexEnd] ∧
      InRange it.backIterIndex.indexEnd it.layout.shape ∧
      it.backIterIndex.offsetEnd = it.layout.addr it.backIterIndex.indexEnd := by
  obtain ⟨he, hr, ho⟩ := h.back hlt
  have h2 := h.le2
  have key : ExtO it.order it.layout.shape it.backIterIndex.indexEnd ∧
      (it.layout.shape ≠ [] → rank it.order it.layout.shape it.backIterIndex.indexEnd = it.iterEnd - 1) ∧
      it.backIterIndex.offsetEnd = it.layout.addr it.backIterIndex.indexEnd := by
    rw [backIterIndex_eq]
    simp only
    by_cases hs : it.layout.shape = []
    · have ha : it.layout.axes = [] := by simpa [Layout.shape] using hs
      have hE := he.length_eq
      rw [hs] at hE
      have hE : it.indexEnd = [] := by rw [turn_length, turn_length] at hE; simpa using hE
      rw [ha, hE, hs]
      rw [hE] at ho
      cases it.order <;> exact ⟨trivial, fun h => absurd rfl h, ho⟩
    · obtain ⟨a, b, c⟩ := backO_spec (o := it.order) (off := it.offsetEnd) he
        (by rw [show dims it.layout.axes = it.layout.shape from rfl, hr hs]; omega)
      refine ⟨a, fun _ => ?_, ?_⟩
      · rw [show dims it.layout.axes = it.layout.shape from rfl, hr hs] at b
        omega
      · rw [addr_eq] at ho ⊢
        omega
  have hin : InRange it.backIterIndex.indexEnd it.layout.shape := by
    have hE := key.1
    rw [← inRange_turn (o := it.order)]
    apply Ext.inRange hE
    by_cases hs : it.layout.shape = []
    · rw [hs]; cases it.order <;> simp [turn]
    · have hl : it.backIterIndex.indexEnd.length = it.layout.shape.length := by
        simpa [turn_length] using hE.length_eq
      rw [← rank_turn hl, key.2.1 hs, turn_prod]
      simp only [Layout.size] at h2
      omega
  refine ⟨?_, ?_, hin, key.2.2⟩
  · refine ⟨?_, ?_, fun hlt' => ?_, fun hlt' => ?_⟩
    · rw [backIterIndex_eq]; simp only; omega
    · rw [backIterIndex_eq]; simp only; omega
    · have := h.front hlt
      rw [backIterIndex_eq]; exact this
    · have := key
      rw [backIterIndex_eq] at this ⊢
      exact this
  · have hrank : rank it.order it.layout.shape it.backIterIndex.indexEnd = it.iterEnd - 1 := by
      by_cases hs : it.layout.shape = []
      · have := rank_lt (o := it.order) hin
        simp only [Layout.size, hs] at *
        simp at h2 this ⊢
        omega
      · exact key.2.1 hs
    have hg := all_getElem?_rank (o := it.order) hin
    rw [hrank] at hg
    have e1 : it.backIterIndex.idxs =
        ((all it.order it.layout.shape).drop it.iterStart).take (it.iterEnd - 1 - it.iterStart) := by
      rw [backIterIndex_eq]; rfl
    rw [e1]
    unfold idxs
    rw [show it.iterEnd - it.iterStart = it.iterEnd - 1 - it.iterStart + 1 by omega, List.take_add_one,
      List.getElem?_drop, show it.iterStart + (it.iterEnd - 1 - it.iterStart) = it.iterEnd - 1 by omega, hg]
    rfl

theorem next_layout {it it' : Iter} {r} (h : it.next = .ok (r, it')) : it'.layout = it.layout ∧ it'.order = it.order := by
  unfold next at h
  split at h
  · simp only [Except.ok.injEq, Prod.mk.injEq] at h; rw [← h.2]; exact ⟨rfl, rfl⟩
  · obtain ⟨v, _, h⟩ := bind_ok.1 h
    simp only [pure_eq_ok, Except.ok.injEq, Prod.mk.injEq] at h
    rw [← h.2, nextIterIndex_eq]; exact ⟨rfl, rfl⟩

theorem next_spec {it : Iter} (h : it.Inv) (hn : NonNeg it.layout) :
    (it.len = 0 ∧ it.next = .ok (none, it)) ∨
    (0 < it.len ∧ it.next = .ok (some (it.layout.addr it.indexStart).toNat, it.nextIterIndex)) := by
  unfold next
  by_cases hlt : it.iterStart < it.iterEnd
  · right
    obtain ⟨hi, hr, ho⟩ := h.front hlt
    refine ⟨by simp only [len]; omega, ?_⟩
    rw [if_neg (by omega), ho, toUsize_ok (hn _ hi)]
    rfl
  · left
    exact ⟨by simp only [len]; omega, if_pos (by omega)⟩

theorem nextBack_spec {it : Iter} (h : it.Inv) (hn : NonNeg it.layout) :
    (it.len = 0 ∧ it.nextBack = .ok (none, it)) ∨
    (0 < it.len ∧ it.nextBack =
      .ok (some (it.layout.addr it.backIterIndex.indexEnd).toNat, it.backIterIndex)) := by
  unfold nextBack
  by_cases hlt : it.iterStart < it.iterEnd
  · right
    obtain ⟨_, _, hi, ho⟩ := backIterIndex_spec h hlt
    refine ⟨by simp only [len]; omega, ?_⟩
    rw [if_neg (by omega), ho, toUsize_ok (hn _ hi)]
    rfl
  · left
    exact ⟨by simp only [len]; omega, if_pos (by omega)⟩

theorem nextIterIndex_layout (it : Iter) : it.nextIterIndex.layout = it.layout := by rw [nextIterIndex_eq]
theorem backIterIndex_layout (it : Iter) : it.backIterIndex.layout = it.layout := by rw [backIterIndex_eq]

theorem collect_spec {it : Iter} (h : it.Inv) (hn : NonNeg it.layout) (fuel : Nat) (hf : it.len < fuel) :
    collect fuel it = .ok it.items := by
  induction fuel generalizing it with
  | zero => omega
  | succ fuel ih =>
    rcases next_spec h hn with ⟨h0, hN⟩ | ⟨h0, hN⟩
    · have : it.items = [] := by
        rw [items, idxs_nil (by simp only [len] at h0; have := h.le1; omega)]; rfl
      rw [collect, hN, this]
      rfl
    · have hlt : it.iterStart < it.iterEnd := by simp only [len] at h0; omega
      obtain ⟨h1, h2⟩ := nextIterIndex_spec h hlt
      rw [collect, hN]
      simp only [ok_bind]
      rw [ih h1 (by rw [nextIterIndex_layout]; exact hn) (by
        rw [nextIterIndex_eq]; simp only [len] at *; omega)]
      simp only [ok_bind, pure_eq_ok, items, h2, List.map_cons, nextIterIndex_layout]

theorem toList_spec {it : Iter} (h : it.Inv) (hn : NonNeg it.layout) : it.toList = .ok it.items :=
  collect_spec h hn _ (Nat.lt_succ_self _)

theorem shape_pos_of_size {l : Layout} (h : l.size ≠ 0) : ∀ d ∈ l.shape, 0 < d := size_ne_zero_iff.1 h

theorem new_spec (o : Order) (l : Layout) :
    ∃ it, new o l = .ok it ∧ it.Inv ∧ it.layout = l ∧ it.order = o ∧ it.iterStart = 0 ∧ it.iterEnd = l.size := by
  unfold new
  by_cases hs : l.size = 0
  · simp only [hs, if_true, ok_bind]
    rw [indexUncheck_eq (by simp)]
    refine ⟨_, rfl, ⟨?_, ?_, ?_, ?_⟩, rfl, rfl, rfl, rfl⟩ <;> simp [hs]
  · obtain ⟨i, h1, h2, h3⟩ := unravelO_ext (o := o) (k := l.size) (shape_pos_of_size hs)
    have hl : i.length = l.ndim := by
      simpa [turn_length, Layout.shape, Layout.ndim] using h2.length_eq
    simp only [hs, if_false, ok_bind, h1]
    rw [indexUncheck_eq hl]
    refine ⟨_, rfl, ⟨?_, ?_, fun _ => ⟨?_, ?_, ?_⟩, fun _ => ⟨h2, h3, rfl⟩⟩, rfl, rfl, rfl, rfl⟩
    · simp
    · simp
    · have := inRange_zeros (shape_pos_of_size hs)
      simpa [Layout.shape, Layout.ndim] using this
    · have hl : (List.replicate l.ndim 0 : List Nat).length = l.shape.length := by simp [Layout.shape, Layout.ndim]
      show rank o l.shape (List.replicate l.ndim 0) = 0
      rw [rank_turn hl]
      have : turn o (List.replicate l.ndim 0 : List Nat) = List.replicate l.ndim 0 := by
        cases o <;> simp [turn]
      rw [this, rankF_zeros]
    · show l.offset = l.addr (List.replicate l.ndim 0)
      rw [addr_eq, dot_zeros]; omega

theorem splitAt_spec {it : Iter} (h : it.Inv) (hs : it.layout.size ≠ 0) {k : Nat} (hk : k ≤ it.len) :
    ∃ a b, it.splitAt k = .ok (a, b) ∧ a.Inv ∧ b.Inv ∧ a.layout = it.layout ∧ b.layout = it.layout ∧
      a.order = it.order ∧ b.order = it.order ∧ a.len = k ∧ b.len = it.len - k ∧
      it.idxs = a.idxs ++ b.idxs := by
  obtain ⟨i, h1, h2, h3⟩ := unravelO_ext (o := it.order) (k := it.iterStart + k) (shape_pos_of_size hs)
  have hl : i.length = it.layout.ndim := by
    simpa [turn_length, Layout.shape, Layout.ndim] using h2.length_eq
  have hl1 := h.le1
  have hl2 := h.le2
  simp only [len] at hk
  unfold splitAt
  simp only [h1, ok_bind]
  rw [indexUncheck_eq hl]
  refine ⟨_, _, rfl, ⟨?_, ?_, ?_, ?_⟩, ⟨?_, ?_, ?_, ?_⟩, rfl, rfl, rfl, rfl, ?_, ?_, ?_⟩
  · simp
  · simp only; omega
  · intro hlt; simp only at hlt; exact h.front (by omega)
  · intro _; exact ⟨h2, h3, rfl⟩
  · simp only; omega
  · exact hl2
  · intro hlt
    simp only at hlt ⊢
    have hin : InRange i it.layout.shape := by
      rw [← inRange_turn (o := it.order)]
      apply Ext.inRange h2
      by_cases hsn : it.layout.shape = []
      · rw [hsn]; cases it.order <;> simp [turn]
      · rw [← rank_turn (by rw [hl]; simp [Layout.shape, Layout.ndim]), h3 hsn, turn_prod]
        simp only [Layout.size] at hl2
        omega
    refine ⟨hin, ?_, trivial⟩
    by_cases hsn : it.layout.shape = []
    · have := rank_lt (o := it.order) hin
      simp only [Layout.size, hsn] at *
      simp at hl2 this ⊢
      omega
    · exact h3 hsn
  · intro hlt
    simp only at hlt ⊢
    exact h.back (by omega)
  · simp [len]
  · simp only [len]; omega
  · unfold idxs
    simp only
    rw [show it.iterStart + k - it.iterStart = k by omega, ← List.drop_drop,
      show it.iterEnd - it.iterStart = k + (it.iterEnd - (it.iterStart + k)) by omega, List.take_add]

end Iter
theorem collectIndexed_spec {it : Iter} (h : it.Inv) (hn : Iter.NonNeg it.layout) (fuel : Nat)
    (hf : it.len < fuel) :
    collectIndexed fuel it = .ok (it.idxs.map fun i => (i, (it.layout.addr i).toNat)) := by
  induction fuel generalizing it with
  | zero => omega
  | succ fuel ih =>
    rcases Iter.next_spec h hn with ⟨h0, hN⟩ | ⟨h0, hN⟩
    · have : it.idxs = [] := Iter.idxs_nil (by simp only [Iter.len] at h0; have := h.le1; omega)
      rw [collectIndexed, Iter.nextIndexed, hN, this]
      rfl
    · have hlt : it.iterStart < it.iterEnd := by simp only [Iter.len] at h0; omega
      obtain ⟨h1, h2⟩ := Iter.nextIterIndex_spec h hlt
      rw [collectIndexed, Iter.nextIndexed, hN]
      simp only [ok_bind, pure_eq_ok, Option.map_some]
      rw [ih h1 (by rw [Iter.nextIterIndex_layout]; exact hn) (by
        rw [Iter.nextIterIndex_eq]; simp only [Iter.len] at *; omega)]
      simp only [ok_bind, h2, List.map_cons, Iter.nextIterIndex_layout]

end Rstsr
