import Verif.Model.Rearrange
import Verif.Proof.Views
import Verif.Proof.Order
import Verif.Thm.Core
/-! # Lemmas about greedy layouts and joint reordering -/
namespace Rstsr
open Spec

/-- An injective map between index sets of equal size permutes the enumeration. -/
theorem all_map_perm {o o' : Order} {s t : List Nat} (φ : List Nat → List Nat)
    (hm : ∀ i, InRange i s → InRange (φ i) t)
    (hinj : ∀ i j, InRange i s → InRange j s → φ i = φ j → i = j) (hc : s.prod = t.prod) :
    ((all o s).map φ).Perm (all o' t) := by
  have hnd : ((all o s).map φ).Nodup := by
    apply List.Nodup.map_on _ (nodup_all o s)
    intro i hi j hj h
    exact hinj i j (mem_all.1 hi) (mem_all.1 hj) h
  have hsub : (all o s).map φ ⊆ all o' t := by
    intro x hx
    obtain ⟨i, hi, rfl⟩ := List.mem_map.1 hx
    exact mem_all.2 (hm i (mem_all.1 hi))
  exact (List.subperm_of_subset hnd hsub).perm_of_length_le (by simp [length_all, hc])

/-- Reading an enumeration through an index map. -/
theorem all_map_perm_addr {β : Type} {o o' : Order} {s t : List Nat} (φ : List Nat → List Nat) (f g : List Nat → β)
    (hm : ∀ i, InRange i s → InRange (φ i) t)
    (hinj : ∀ i j, InRange i s → InRange j s → φ i = φ j → i = j) (hc : s.prod = t.prod)
    (hfg : ∀ i, InRange i s → f i = g (φ i)) :
    ((all o s).map f).Perm ((all o' t).map g) := by
  have := (all_map_perm (o := o) (o' := o') φ hm hinj hc).map g
  rw [List.map_map] at this
  rw [List.map_congr_left (g := g ∘ φ)]
  · exact this
  · intro i hi; exact hfg i (mem_all.1 hi)

/-! ## Flipping axes of negative stride -/

/-- An axis with its stride made non-negative. -/
def absAxis (x : Axis) : Axis := if x.str < 0 then ⟨x.dim, -x.str⟩ else x

/-- Mirror the coordinates on axes of negative stride. -/
def flipNeg : List Axis → List Nat → List Nat
  | x :: xs, i :: is => (if x.str < 0 then x.dim - 1 - i else i) :: flipNeg xs is
  | _, is => is

theorem flipNeg_inRange {axes : List Axis} {i : List Nat} (h : InRange i (dims axes)) :
    InRange (flipNeg axes i) (dims axes) := by
  induction axes generalizing i with
  | nil => cases i <;> simp_all [flipNeg]
  | cons x xs ih =>
    cases i with
    | nil => simp at h
    | cons a as =>
      simp only [List.map_cons, inRange_cons] at h
      simp only [flipNeg, List.map_cons, inRange_cons]
      refine ⟨?_, ih h.2⟩
      split <;> omega

theorem flipNeg_flipNeg {axes : List Axis} {i : List Nat} (h : InRange i (dims axes)) :
    flipNeg axes (flipNeg axes i) = i := by
  induction axes generalizing i with
  | nil => cases i <;> simp_all [flipNeg]
  | cons x xs ih =>
    cases i with
    | nil => simp at h
    | cons a as =>
      simp only [List.map_cons, inRange_cons] at h
      simp only [flipNeg, ih h.2]
      congr 1
      split <;> omega

theorem lo1_eq (x : Axis) : lo1 x = if x.str < 0 then x.str * ((x.dim : Int) - 1) else 0 := by
  unfold lo1
  rcases Int.lt_trichotomy x.str 0 with h | h | h
  · rw [if_neg (by omega), if_pos h]
  · simp [h]
  · rw [if_pos h, if_neg (by omega)]

theorem flipNeg_dot {axes : List Axis} {i : List Nat} (h : InRange i (dims axes)) :
    dot i (axes.map absAxis) + loSum axes = dot (flipNeg axes i) axes := by
  induction axes generalizing i with
  | nil => cases i <;> simp_all [flipNeg]
  | cons x xs ih =>
    cases i with
    | nil => simp at h
    | cons a as =>
      simp only [List.map_cons, inRange_cons] at h
      have := ih h.2
      simp only [flipNeg, List.map_cons, dot_cons, loSum_cons]
      rw [← this]
      by_cases hx : x.str < 0
      · have e : ((x.dim - 1 - a : Nat) : Int) = (x.dim : Int) - 1 - a := by have := h.1; omega
        simp only [absAxis, lo1_eq, hx, if_true, e]
        ring
      · simp only [absAxis, lo1_eq, hx, if_false]
        ring

theorem dims_absAxis (axes : List Axis) : dims (axes.map absAxis) = dims axes := by
  simp only [dims, List.map_map]
  apply List.map_congr_left
  intro x _
  simp only [Function.comp, absAxis]; split <;> rfl

theorem flipNeg_eq {axes : List Axis} {i : List Nat} (h : i.length = axes.length) :
    flipNeg axes i = flipIndex ((List.range axes.length).filter fun a => (axes.getD a default).str < 0)
      (dims axes) i := by
  have hl : (flipNeg axes i).length = i.length := by
    clear h
    induction axes generalizing i with
    | nil => cases i <;> rfl
    | cons x xs ih => cases i <;> simp [flipNeg, ih]
  apply ext_getD (by simp [hl, flipIndex_length])
  intro k hk
  rw [hl] at hk
  rw [flipIndex_getD _ _ _ hk]
  have key : (flipNeg axes i).getD k 0 =
      if (axes.getD k default).str < 0 then (axes.getD k default).dim - 1 - i.getD k 0 else i.getD k 0 := by
    clear hl
    induction axes generalizing i k with
    | nil => simp at h; subst h; simp at hk
    | cons x xs ih =>
      cases i with
      | nil => simp at h
      | cons a as =>
        cases k with
        | zero => simp [flipNeg]
        | succ k =>
          have := ih (i := as) (by simpa using h) (k := k) (by simpa using hk)
          simp only [flipNeg, List.getD_cons_succ]
          exact this
  rw [key, dims_getD]
  have : k ∈ ((List.range axes.length).filter fun a => (axes.getD a default).str < 0) ↔
      (axes.getD k default).str < 0 := by
    simp only [List.mem_filter, List.mem_range, decide_eq_true_eq]
    exact ⟨fun h => h.2, fun h => ⟨by omega, h⟩⟩
  simp only [this]

theorem flip_one {l : Layout} (hl : Accepted l) {a : Nat} (ha : a < l.ndim) (hz : 0 ∉ dims l.axes) :
    l.dimNarrow (a : Int) ⟨none, none, some (-1)⟩ =
      .ok ⟨l.axes.set a ⟨(l.axes.getD a default).dim, -(l.axes.getD a default).str⟩,
        l.offset + (l.axes.getD a default).str * ((l.axes.getD a default).dim - 1)⟩ := by
  obtain ⟨m1, n, start, h1, h2, h3⟩ := dimNarrow_spec hl (axis := (a : Int))
    (s := ⟨none, none, some (-1)⟩) (axisOk_ofNat ha) (by simp)
  rw [normAxis_ofNat] at h2 h3
  simp only [Option.getD_some] at h2 h3
  obtain ⟨h4, h5⟩ := h3 (fun _ => ⟨by simp, by simp⟩)
  have hd0 : (l.axes.getD a default).dim ≠ 0 := by
    intro h0; apply hz; rw [← h0]; exact List.mem_map_of_mem (getD_mem ha)
  have hn : n = (l.axes.getD a default).dim := by
    generalize (l.axes.getD a default).dim = d at *
    unfold PyCount PyHas pyStart pyStop at h4
    simp at h4
    have e1 := h4 n
    have e2 := h4 d
    simp at e1 e2
    omega
  have hs : start = ((l.axes.getD a default).dim : Int) - 1 := by
    rw [h5 (by omega)]; simp [pyStart]
  rw [h1]
  rcases h2.form with ⟨e1, e2⟩ | ⟨e1, e2, e3⟩
  · congr 1
    obtain ⟨ax, off⟩ := m1
    simp only at e1 e2
    rw [e1, e2, hn, hs]
    congr 2
    · congr 1
      ring
  · exact absurd e2 hd0

theorem flipNegative_loop {P Q : List Axis} {off : Int} (hl : Accepted ⟨P ++ Q, off⟩) (hz : 0 ∉ dims (P ++ Q)) :
    Layout.flipNegative ⟨P ++ Q, off⟩ (List.range' P.length Q.length) =
      .ok ⟨P ++ Q.map absAxis, off + loSum Q⟩ ∧ Accepted ⟨P ++ Q.map absAxis, off + loSum Q⟩ := by
  induction Q generalizing P off with
  | nil => simp only [List.length_nil, List.range'_zero, Layout.flipNegative, List.map_nil, loSum_nil, add_zero]
           exact ⟨trivial, hl⟩
  | cons x Q ih =>
    have hg : (P ++ x :: Q).getD P.length default = x := by
      simp [List.getD_eq_getElem?_getD]
    rw [List.length_cons, List.range'_succ, Layout.flipNegative]
    simp only [hg]
    by_cases hx : x.str < 0
    · rw [if_pos hx]
      have h1 := flip_one hl (a := P.length) (by simp [Layout.ndim]) hz
      simp only [hg] at h1
      have hset : (P ++ x :: Q).set P.length ⟨x.dim, -x.str⟩ = (P ++ [⟨x.dim, -x.str⟩]) ++ Q := by
        rw [List.set_append_right _ _ (Nat.le_refl _)]; simp
      rw [hset] at h1
      have hacc : Accepted ⟨(P ++ [⟨x.dim, -x.str⟩]) ++ Q, off + x.str * ((x.dim : Int) - 1)⟩ := by
        obtain ⟨m1, n, start, g1, g2, g3⟩ := dimNarrow_spec hl (axis := (P.length : Int))
          (s := ⟨none, none, some (-1)⟩) (axisOk_ofNat (by simp [Layout.ndim])) (by simp)
        rw [h1] at g1
        simp only [Except.ok.injEq] at g1
        rw [g1]
        exact (g2.good hl).accepted
      have := ih hacc (by simpa [dims] using hz)
      rw [h1]
      simp only
      simp only [List.length_append, List.length_cons, List.length_nil, Nat.zero_add] at this
      have e1 : absAxis x = ⟨x.dim, -x.str⟩ := by simp [absAxis, hx]
      have e2 : off + x.str * ((x.dim : Int) - 1) + loSum Q = off + loSum (x :: Q) := by
        rw [loSum_cons, lo1_eq, if_pos hx]; ring
      rw [List.map_cons, e1, ← e2]
      simpa using this
    · rw [if_neg hx]
      have := ih (P := P ++ [x]) (by simpa using hl) (by simpa [dims] using hz)
      simp only [List.length_append, List.length_cons, List.length_nil, Nat.zero_add] at this
      have e1 : absAxis x = x := by simp [absAxis, hx]
      have e2 : off + loSum Q = off + loSum (x :: Q) := by
        rw [loSum_cons, lo1_eq, if_neg hx]; ring
      rw [List.map_cons, e1, ← e2]
      simpa using this

theorem flipNegative_ok {l : Layout} (hl : Accepted l) (hz : 0 ∉ dims l.axes) :
    l.flipNegative (List.range l.ndim) = .ok ⟨l.axes.map absAxis, l.offset + loSum l.axes⟩ ∧
      Accepted ⟨l.axes.map absAxis, l.offset + loSum l.axes⟩ := by
  have := flipNegative_loop (P := []) (Q := l.axes) (off := l.offset) hl hz
  rw [List.range_eq_range']
  exact this

/-! ## Transposing by a permutation -/

theorem transpose_perm {l : Layout} {p : List Nat} (hp : p.Perm (List.range l.ndim)) :
    l.transpose (p.map Int.ofNat) = .ok ⟨pick l.axes p, l.offset⟩ := by
  have e : (p.map Int.ofNat).map (normAxis l.ndim) = p := by
    rw [List.map_map]
    conv_rhs => rw [← List.map_id p]
    apply List.map_congr_left
    intro a _
    exact normAxis_ofNat _ a
  rw [transpose_ok]
  refine ⟨?_, by rw [e]; exact hp, by rw [e]⟩
  intro a ha
  obtain ⟨b, hb, rfl⟩ := List.mem_map.1 ha
  exact axisOk_ofNat (by simpa using hp.mem_iff.1 hb)

/-- The coordinates in the original order. -/
def unpick (p : List Nat) (j : List Nat) : List Nat := (List.range p.length).map fun a => j.getD (p.idxOf a) 0

theorem pickIdx_unpick {n : Nat} {p j : List Nat} (hp : p.Perm (List.range n)) (hj : j.length = n) :
    pickIdx (unpick p j) p = j := by
  have hpl : p.length = n := by simpa using hp.length_eq
  have hnd : p.Nodup := hp.nodup_iff.2 List.nodup_range
  unfold pickIdx unpick
  apply List.ext_getElem
  · simp [hpl, hj]
  · intro k h1 h2
    have hk : k < p.length := by simpa using h1
    have hlt : p[k] < p.length := by rw [hpl]; simpa using hp.mem_iff.1 (List.getElem_mem hk)
    simp only [List.getElem_map, List.getD_eq_getElem?_getD, List.getElem?_map, List.getElem?_range hlt,
      Option.map_some, Option.getD_some]
    rw [hnd.idxOf_getElem k hk, List.getElem?_eq_getElem h2]; rfl

theorem unpick_pickIdx {n : Nat} {p i : List Nat} (hp : p.Perm (List.range n)) (hi : i.length = n) :
    unpick p (pickIdx i p) = i := by
  have hpl : p.length = n := by simpa using hp.length_eq
  unfold unpick pickIdx
  apply ext_getD (by simp [hpl, hi])
  intro k hk
  simp at hk
  have hmem : k ∈ p := hp.mem_iff.2 (by simp; omega)
  have hlt : p.idxOf k < p.length := List.idxOf_lt_length_iff.2 hmem
  simp only [List.getD_eq_getElem?_getD, List.getElem?_map, List.getElem?_range hk, Option.map_some, Option.getD_some]
  rw [List.getElem?_eq_getElem hlt, List.getElem_idxOf hlt]; rfl

theorem unpick_spec {axes : List Axis} {p j : List Nat} (hp : p.Perm (List.range axes.length))
    (hj : InRange j (dims (pick axes p))) :
    InRange (unpick p j) (dims axes) ∧ dot j (pick axes p) = dot (unpick p j) axes := by
  obtain ⟨i, h1, h2, h3⟩ := pick_addr_inv hp hj
  have : unpick p j = i := by rw [← h2]; exact unpick_pickIdx hp (by simpa using h1.length_eq)
  rw [this]
  exact ⟨h1, h3⟩

theorem unpick_inj {n : Nat} {p i j : List Nat} (hp : p.Perm (List.range n)) (hi : i.length = n) (hj : j.length = n)
    (h : unpick p i = unpick p j) : i = j := by
  rw [← pickIdx_unpick hp hi, ← pickIdx_unpick hp hj, h]

theorem prod_pick {axes : List Axis} {p : List Nat} (hp : p.Perm (List.range axes.length)) :
    (dims (pick axes p)).prod = (dims axes).prod := ((pick_perm hp).map _).prod_eq

/-! ## The greedy layout -/

theorem sortIdx_perm (r : Nat → Nat → Bool) (n : Nat) :
    ((List.range n).insertionSort fun a b => r a b).Perm (List.range n) := List.perm_insertionSort _ _

theorem size_zero_iff {l : Layout} : l.size = 0 ↔ 0 ∈ dims l.axes := by
  constructor
  · intro h
    by_contra hc
    exact size_ne_zero_iff.2 (fun d hd => Nat.pos_of_ne_zero (by rintro rfl; exact hc hd)) h
  · exact prod_eq_zero_of

/-- The permutation found by `greedy_layout` with `keep_shape = true`. -/
def greedyIndex (l : Layout) : List Nat :=
  (List.range l.ndim).insertionSort fun a b => Layout.greedyLe true (l.axes.map absAxis) a b

theorem greedyIndex_perm (l : Layout) : (greedyIndex l).Perm (List.range l.ndim) := sortIdx_perm _ _

theorem greedy_keep {l : Layout} (hl : Accepted l) (hs : l.size ≠ 0) :
    l.greedy true = .ok (⟨pick (l.axes.map absAxis) (greedyIndex l), l.offset + loSum l.axes⟩, greedyIndex l) := by
  have hz : 0 ∉ dims l.axes := fun h => hs (size_zero_iff.2 h)
  unfold Layout.greedy
  rw [if_neg hs]
  simp only [if_true]
  rw [(flipNegative_ok hl hz).1]
  simp only [ok_bind, Layout.ndim, List.length_map]
  have := transpose_perm (l := ⟨l.axes.map absAxis, l.offset + loSum l.axes⟩) (p := greedyIndex l)
    (by simpa [Layout.ndim] using greedyIndex_perm l)
  unfold greedyIndex Layout.ndim at this
  rw [this]
  rfl

theorem greedy_zero {l : Layout} (k : Bool) (hs : l.size = 0) : l.greedy k = .ok (l, List.range l.ndim) := by
  unfold Layout.greedy; rw [if_pos hs]

theorem greedy_keep_index {l : Layout} (hl : Accepted l) :
    ∃ g p, l.greedy true = .ok (g, p) ∧ p.Perm (List.range l.ndim) := by
  by_cases hs : l.size = 0
  · exact ⟨_, _, greedy_zero _ hs, List.Perm.refl _⟩
  · exact ⟨_, _, greedy_keep hl hs, greedyIndex_perm l⟩

/-- Element law of the greedy layout. -/
theorem greedy_addr {l : Layout} {i : List Nat} (hi : InRange i l.shape) :
    InRange (pickIdx (flipNeg l.axes i) (greedyIndex l)) (dims (pick (l.axes.map absAxis) (greedyIndex l))) ∧
    (⟨pick (l.axes.map absAxis) (greedyIndex l), l.offset + loSum l.axes⟩ : Layout).addr
      (pickIdx (flipNeg l.axes i) (greedyIndex l)) = l.addr i := by
  have hf : InRange (flipNeg l.axes i) (dims (l.axes.map absAxis)) := by
    rw [dims_absAxis]; exact flipNeg_inRange hi
  obtain ⟨h1, h2⟩ := pick_addr (p := greedyIndex l) (axes := l.axes.map absAxis)
    (by simpa [Layout.ndim] using greedyIndex_perm l) hf
  refine ⟨h1, ?_⟩
  rw [addr_eq, addr_eq]
  simp only
  rw [h2]
  have := flipNeg_dot (axes := l.axes) (i := flipNeg l.axes i) (flipNeg_inRange hi)
  rw [flipNeg_flipNeg hi] at this
  omega

theorem greedy_perm (o o' : Order) {l : Layout} :
    ((all o (⟨pick (l.axes.map absAxis) (greedyIndex l), l.offset + loSum l.axes⟩ : Layout).shape).map
      (⟨pick (l.axes.map absAxis) (greedyIndex l), l.offset + loSum l.axes⟩ : Layout).addr).Perm
    ((all o' l.shape).map l.addr) := by
  have hp : (greedyIndex l).Perm (List.range (l.axes.map absAxis).length) := by
    simpa [Layout.ndim] using greedyIndex_perm l
  apply List.Perm.symm
  refine all_map_perm_addr (fun i => pickIdx (flipNeg l.axes i) (greedyIndex l)) _ _ ?_ ?_ ?_ ?_
  · intro i hi; exact (greedy_addr hi).1
  · intro i j hi hj h
    have hli : (flipNeg l.axes i).length = (l.axes.map absAxis).length := by
      have := (flipNeg_inRange (axes := l.axes) hi).length_eq; simpa using this
    have hlj : (flipNeg l.axes j).length = (l.axes.map absAxis).length := by
      have := (flipNeg_inRange (axes := l.axes) hj).length_eq; simpa using this
    have := congrArg (unpick (greedyIndex l)) h
    rw [unpick_pickIdx hp hli, unpick_pickIdx hp hlj] at this
    rw [← flipNeg_flipNeg (axes := l.axes) hi, ← flipNeg_flipNeg (axes := l.axes) hj, this]
  · show (dims l.axes).prod = (dims (pick _ _)).prod
    rw [prod_pick hp, dims_absAxis]
  · intro i hi; exact (greedy_addr hi).2.symm

end Rstsr

namespace Rstsr
open Spec

/-! ## Dropping unmoving axes (order `G`) -/

/-- Coordinates with those of unmoving axes set to zero. -/
def dropIdx : List Axis → List Nat → List Nat
  | x :: xs, i :: is => (if Layout.still x then 0 else i) :: dropIdx xs is
  | _, is => is

theorem dropIdx_inRange {axes : List Axis} {i : List Nat} (h : InRange i (dims axes)) :
    InRange (dropIdx axes i) (dims (axes.map Layout.dropStill)) ∧
      dot (dropIdx axes i) (axes.map Layout.dropStill) = dot i axes := by
  induction axes generalizing i with
  | nil => cases i <;> simp_all [dropIdx]
  | cons x xs ih =>
    cases i with
    | nil => simp at h
    | cons a as =>
      simp only [List.map_cons, inRange_cons] at h
      obtain ⟨h1, h2⟩ := ih h.2
      simp only [dropIdx, List.map_cons, inRange_cons, dot_cons, h2, Layout.dropStill]
      by_cases hx : Layout.still x = true
      · simp only [hx, if_true]
        refine ⟨⟨by omega, h1⟩, ?_⟩
        simp only [Layout.still, Bool.or_eq_true, beq_iff_eq] at hx
        rcases hx with hx | hx
        · have : a = 0 := by have := h.1; omega
          simp [this]
        · simp [hx]
      · simp only [hx]
        exact ⟨⟨h.1, h1⟩, rfl⟩

theorem dropStill_sub {axes : List Axis} (hz : 0 ∉ dims axes) {j : List Nat}
    (h : InRange j (dims (axes.map Layout.dropStill))) :
    InRange j (dims axes) ∧ dot j (axes.map Layout.dropStill) = dot j axes := by
  induction axes generalizing j with
  | nil => cases j <;> simp_all
  | cons x xs ih =>
    cases j with
    | nil => simp at h
    | cons a as =>
      simp only [List.map_cons, inRange_cons] at h
      simp only [List.map_cons, List.mem_cons, not_or] at hz
      obtain ⟨h1, h2⟩ := ih hz.2 h.2
      simp only [List.map_cons, inRange_cons, dot_cons, h2]
      have h0 := h.1
      unfold Layout.dropStill at h0 ⊢
      split at h0
      · rename_i hx
        have : a = 0 := by simpa using h0
        subst this
        refine ⟨⟨by omega, h1⟩, by simp⟩
      · rename_i hx
        rw [if_neg hx]
        exact ⟨⟨h0, h1⟩, rfl⟩

theorem noOverlap_getD {axes : List Axis} (hn : NoOverlap axes) {i j : List Nat} (hi : InRange i (dims axes))
    (hj : InRange j (dims axes)) (h : dot i axes = dot j axes) {k : Nat} (hk : k < axes.length)
    (hne : (axes.getD k default).str ≠ 0) : i.getD k 0 = j.getD k 0 := by
  have l1 : i.length = axes.length := by simpa using hi.length_eq
  have l2 : j.length = axes.length := by simpa using hj.length_eq
  have := noOverlap_inj hn hi hj h _ (diffs_get l1 l2 hk)
    (by simpa [List.getD_eq_getElem?_getD, hk] using hne)
  simp only [List.getD_eq_getElem?_getD, List.getElem?_eq_getElem (by omega : k < i.length),
    List.getElem?_eq_getElem (by omega : k < j.length), Option.getD_some] at this ⊢
  omega

theorem dropStill_inj {axes : List Axis} (hn : NoOverlap axes) {i j : List Nat}
    (hz : 0 ∉ dims axes)
    (hi : InRange i (dims (axes.map Layout.dropStill))) (hj : InRange j (dims (axes.map Layout.dropStill)))
    (h : dot i axes = dot j axes) : i = j := by
  have h1 := (dropStill_sub hz hi).1
  have h2 := (dropStill_sub hz hj).1
  have hl1 := h1.length_eq
  have hl2 := h2.length_eq
  simp only [dims, List.length_map] at hl1 hl2
  apply ext_getD (by omega)
  intro k hk
  have a1 := hi.getD (a := k) (by simp; omega)
  have a2 := hj.getD (a := k) (by simp; omega)
  have e : (dims (axes.map Layout.dropStill)).getD k 0 = (Layout.dropStill (axes.getD k default)).dim := by
    simp only [dims, List.map_map, List.getD_eq_getElem?_getD, List.getElem?_map]
    rw [List.getElem?_eq_getElem (by omega : k < axes.length)]; rfl
  rw [e] at a1 a2
  by_cases hs : Layout.still (axes.getD k default) = true
  · simp only [Layout.dropStill, hs, if_true] at a1 a2
    omega
  · have hne : (axes.getD k default).str ≠ 0 := by
      intro hc; apply hs; simp only [Layout.still, Bool.or_eq_true, beq_iff_eq]; exact Or.inr hc
    have := noOverlap_getD hn h1 h2 h (k := k) (by omega) hne
    exact this


/-- The layout used by order `G`. -/
theorem greedy_drop {l : Layout} (hs : l.size ≠ 0) :
    ∃ p, p.Perm (List.range l.ndim) ∧
      l.greedy false = .ok (⟨(pick l.axes p).map Layout.dropStill, l.offset⟩, p) := by
  refine ⟨(List.range l.ndim).insertionSort fun a b => Layout.greedyLe false l.axes a b, sortIdx_perm _ _, ?_⟩
  unfold Layout.greedy
  rw [if_neg hs]
  simp only [Bool.false_eq_true, if_false, ok_bind]
  rw [transpose_perm (sortIdx_perm _ _)]

/-- Order `G` visits exactly the storage positions of the layout, each once. -/
theorem greedy_drop_positions {l : Layout} (hl : Accepted l) (o o' : Order) :
    ∃ g p, l.greedy false = .ok (g, p) ∧ ((all o g.shape).map g.addr).Nodup ∧
      (∀ x, x ∈ (all o g.shape).map g.addr ↔ x ∈ (all o' l.shape).map l.addr) := by
  by_cases hs : l.size = 0
  · refine ⟨l, _, greedy_zero _ hs, ?_, ?_⟩
    · have : (all o l.shape) = [] := List.eq_nil_of_length_eq_zero (by rw [length_all]; exact hs)
      rw [this]; simp
    · have h1 : (all o l.shape) = [] := List.eq_nil_of_length_eq_zero (by rw [length_all]; exact hs)
      have h2 : (all o' l.shape) = [] := List.eq_nil_of_length_eq_zero (by rw [length_all]; exact hs)
      rw [h1, h2]; simp
  · obtain ⟨p, hp, hg⟩ := greedy_drop hs
    have hz : 0 ∉ dims l.axes := fun h => hs (size_zero_iff.2 h)
    have hperm := pick_perm (axes := l.axes) (p := p) hp
    have hz' : 0 ∉ dims (pick l.axes p) := fun h => hz ((hperm.map _).mem_iff.1 h)
    have hno : NoOverlap (pick l.axes p) := (hl.noOverlap hz).perm hperm
    refine ⟨_, _, hg, ?_, ?_⟩
    · apply List.Nodup.map_on _ (nodup_all _ _)
      intro i hi j hj h
      have hi := mem_all.1 hi
      have hj := mem_all.1 hj
      rw [addr_eq, addr_eq] at h
      have h1 := (dropStill_sub hz' hi).2
      have h2 := (dropStill_sub hz' hj).2
      exact dropStill_inj hno hz' hi hj (by simp only at h; omega)
    · intro x
      simp only [List.mem_map, mem_all]
      constructor
      · rintro ⟨j, hj, rfl⟩
        obtain ⟨h1, h2⟩ := dropStill_sub hz' hj
        obtain ⟨h3, h4⟩ := unpick_spec hp h1
        refine ⟨unpick p j, h3, ?_⟩
        rw [addr_eq, addr_eq]
        simp only
        omega
      · rintro ⟨i, hi, rfl⟩
        obtain ⟨h1, h2⟩ := pick_addr (axes := l.axes) hp hi
        obtain ⟨h3, h4⟩ := dropIdx_inRange h1
        refine ⟨_, h3, ?_⟩
        rw [addr_eq, addr_eq]
        simp only
        omega

/-! ## Joint traversal -/

/-- `e` lists every index once, and the translated layouts visit, in column-major order, the positions
which the original layouts have along `e`. -/
def Joint (shape : List Nat) (e : List (List Nat)) (ls ms : List Layout) : Prop :=
  e.Perm (all .C shape) ∧
  List.Forall₂ (fun l m => (all .F m.shape).map m.addr = e.map l.addr) ls ms ∧ ∃ s, ∀ m ∈ ms, m.shape = s

theorem allF_reverse (s : List Nat) : (all .F s.reverse).map List.reverse = all .C s := by
  conv_rhs => rw [← List.map_id (all .C s)]
  apply all_map_congr (by simp)
  intro i j hi hj h
  have hj2 : InRange j.reverse s.reverse := hj.reverse
  simp only [rank] at h
  rw [rankC_eq hj.length_eq] at h
  rw [rankF_inj hi hj2 h]
  simp

theorem reverse_positions (l : Layout) :
    (all .F l.reverseAxes.shape).map l.reverseAxes.addr = (all .C l.shape).map l.addr := by
  have hs : l.reverseAxes.shape = l.shape.reverse := by simp [Layout.reverseAxes, Layout.shape]
  rw [hs, ← allF_reverse, List.map_map]
  apply List.map_congr_left
  intro i hi
  have hi := mem_all.1 hi
  have hl : i.length = l.axes.length := by simpa [Layout.shape] using hi.length_eq
  simp only [Function.comp, addr_eq, Layout.reverseAxes]
  have := dot_reverse (idx := i.reverse) (axes := l.axes) (by simpa using hl)
  rw [List.reverse_reverse] at this
  rw [this]

theorem perm_all (o o' : Order) (s : List Nat) : (all o s).Perm (all o' s) := by
  have := all_map_perm (o := o) (o' := o') (s := s) (t := s) id (fun _ h => h) (fun _ _ _ _ h => h) rfl
  simpa using this

theorem transpose_positions {l : Layout} {p : List Nat} (hp : p.Perm (List.range l.ndim)) :
    (all .F (⟨pick l.axes p, l.offset⟩ : Layout).shape).map (⟨pick l.axes p, l.offset⟩ : Layout).addr =
      ((all .F (dims (pick l.axes p))).map (unpick p)).map l.addr := by
  rw [List.map_map]
  apply List.map_congr_left
  intro j hj
  have := unpick_spec (axes := l.axes) hp (mem_all.1 hj)
  simp only [Function.comp, addr_eq]
  rw [this.2]

theorem forall₂_map {α β : Type} {R : α → β → Prop} {f : α → β} {l : List α} (h : ∀ a ∈ l, R a (f a)) :
    List.Forall₂ R l (l.map f) := by
  induction l with
  | nil => exact .nil
  | cons a l ih => exact .cons (h a List.mem_cons_self) (ih fun b hb => h b (List.mem_cons_of_mem _ hb))

theorem mapM_eq_map {α β : Type} {f : α → Res β} {g : α → β} {l : List α} (h : ∀ a ∈ l, f a = .ok (g a)) :
    l.mapM f = .ok (l.map g) := mapM_ok.2 (forall₂_map h)

theorem joint_C {shape : List Nat} {ls : List Layout} (h : ∀ l ∈ ls, l.shape = shape) :
    Joint shape (all .C shape) ls (ls.map Layout.reverseAxes) :=
  ⟨List.Perm.refl _, forall₂_map fun l hl => by rw [reverse_positions, h l hl], shape.reverse, by
    intro m hm
    obtain ⟨l, hl, rfl⟩ := List.mem_map.1 hm
    rw [← h l hl]; simp [Layout.reverseAxes, Layout.shape]⟩

theorem joint_F {shape : List Nat} {ls : List Layout} (h : ∀ l ∈ ls, l.shape = shape) :
    Joint shape (all .F shape) ls ls := by
  refine ⟨perm_all _ _ _, ?_, shape, h⟩
  have := forall₂_map (R := fun l m : Layout => (all .F m.shape).map m.addr = (all .F shape).map l.addr)
    (f := id) (l := ls) fun l hl => by rw [id, h l hl]
  simpa using this

theorem joint_K {shape : List Nat} {ls : List Layout} (h : ∀ l ∈ ls, l.shape = shape) {p : List Nat}
    (hp : p.Perm (List.range shape.length)) :
    Joint shape ((all .F (p.map fun a => shape.getD a 0)).map (unpick p)) ls
      (ls.map fun l => ⟨pick l.axes p, l.offset⟩) := by
  have hpl : p.length = shape.length := by simpa using hp.length_eq
  have hpr : (p.map fun a => shape.getD a 0).prod = shape.prod := by
    have h1 := hp.map fun a => shape.getD a 0
    rw [map_getD_range] at h1
    exact h1.prod_eq
  refine ⟨?_, ?_, p.map fun a => shape.getD a 0, ?_⟩
  · apply all_map_perm
    · intro j hj
      have hjl : j.length = shape.length := by have := hj.length_eq; simpa [hpl] using this
      obtain ⟨i, hi, rfl⟩ := exists_pickIdx hp hjl
      rw [unpick_pickIdx hp hi]
      exact (inRange_perm hp hi).1 hj
    · intro i j hi hj he
      exact unpick_inj hp (by have := hi.length_eq; simpa [hpl] using this)
        (by have := hj.length_eq; simpa [hpl] using this) he
    · exact hpr
  · apply forall₂_map
    intro l hl
    have hn : shape.length = l.ndim := by rw [← h l hl]; simp [Layout.shape, Layout.ndim]
    rw [transpose_positions (by rw [← hn]; exact hp), dims_pick]
    rw [show dims l.axes = shape from h l hl]
  · intro m hm
    obtain ⟨l, hl, rfl⟩ := List.mem_map.1 hm
    show dims (pick l.axes p) = _
    rw [dims_pick, show dims l.axes = shape from h l hl]

/-! ## The contiguous inner block -/

theorem allF_append (s t : List Nat) :
    allF (s ++ t) = (allF t).flatMap fun j => (allF s).map (· ++ j) := by
  induction s with
  | nil => simp [allF]
  | cons d ds ih =>
    simp only [List.cons_append, allF, ih, List.flatMap_assoc]
    congr 1
    funext j
    rw [List.flatMap_map, List.map_flatMap]
    congr 1
    funext i
    simp [Function.comp]

/-- Visiting a contiguous block for every position of the outer layout. -/
theorem contig_positions {m : Layout} {k : Nat} (hk : k ≤ m.ndimOfFContig) (hz : 0 ∉ m.shape) :
    (all .F m.shape).map m.addr =
      (all .F (⟨m.axes.drop k, m.offset⟩ : Layout).shape).flatMap fun j =>
        (List.range (m.shape.take k).prod).map fun (t : Nat) =>
          (⟨m.axes.drop k, m.offset⟩ : Layout).addr j + t := by
  have hle : m.ndimOfFContig ≤ m.ndim := by
    unfold Layout.ndimOfFContig
    split
    · exact Nat.le_refl _
    · exact contigLoop_le _ _
  have hkl : k ≤ m.shape.length := by simp only [Layout.shape, List.length_map]; exact Nat.le_trans hk hle
  have hc := (C06_ndim_of_f_contig m hz k hkl).1 hk
  have e1 : m.shape = m.shape.take k ++ m.shape.drop k := (List.take_append_drop _ _).symm
  have e2 : (⟨m.axes.drop k, m.offset⟩ : Layout).shape = m.shape.drop k := by simp [Layout.shape]
  rw [e2]
  conv_lhs => rw [e1]
  show (allF _).map _ = (allF _).flatMap _
  rw [allF_append, List.map_flatMap]
  congr 1
  funext j
  rw [← map_rank_allF, List.map_map, List.map_map]
  apply List.map_congr_left
  intro i hi
  have hi := mem_allF.1 hi
  have hil : i.length = (m.axes.take k).length := by
    have := hi.length_eq; simpa [Layout.shape] using this
  have h3 := hc i hi
  simp only [Function.comp, addr_eq]
  conv_lhs => rw [← List.take_append_drop k m.axes]
  rw [dot_append hil]
  have h4 : position (m.stride.take k) m.offset i = m.offset + dot i (m.axes.take k) := by
    rw [← addr_mk]; simp [Layout.addr, Layout.stride]
  omega

/-! ## The flat layout of contiguous layouts (order `B`) -/

theorem allF_ones (k : Nat) : allF (List.replicate k 1) = [List.replicate k 0] := by
  induction k with
  | zero => rfl
  | succ k ih => simp [List.replicate_succ, allF, ih, List.range_succ]

theorem flat_positions (n k : Nat) (off s : Int) :
    (all .F (⟨⟨n, 1⟩ :: List.replicate k ⟨1, s⟩, off⟩ : Layout).shape).map
      (⟨⟨n, 1⟩ :: List.replicate k ⟨1, s⟩, off⟩ : Layout).addr = (List.range n).map fun (t : Nat) => off + (t : Int) := by
  have : (⟨⟨n, 1⟩ :: List.replicate k ⟨1, s⟩, off⟩ : Layout).shape = n :: List.replicate k 1 := by
    simp [Layout.shape]
  rw [this]
  show (allF _).map _ = _
  simp only [allF, allF_ones, List.flatMap_cons, List.flatMap_nil, List.append_nil, List.map_map]
  apply List.map_congr_left
  intro t _
  simp [Function.comp, addr_eq, dot_zeros]

theorem contig_rank {l : Layout} {o : Order} (hz : 0 ∉ l.shape) (hc : (match o with | .C => l.cContig | .F => l.fContig) = true) :
    ∀ idx, InRange idx l.shape → l.addr idx = l.offset + rank o l.shape idx := by
  cases o
  · exact (C06_c_contig_iff l hz).1 hc
  · exact (C06_f_contig_iff l hz).1 hc

theorem contig_bounds {l : Layout} {o : Order} (hz : 0 ∉ l.shape)
    (hc : ∀ idx, InRange idx l.shape → l.addr idx = l.offset + rank o l.shape idx) (ho : 0 ≤ l.offset) :
    l.boundsIndex = .ok (l.offset, l.offset + l.size) := by
  rw [boundsIndex_of_pos hz ho]
  have hpos : 0 < l.shape.prod := by
    apply prod_pos_of
    intro d hd
    exact Nat.pos_of_ne_zero (by rintro rfl; exact hz hd)
  have h1 : loSum l.axes = 0 := by
    obtain ⟨a1, a2⟩ := loIdx_spec (axes := l.axes) hz
    have := hc _ a1
    rw [addr_eq, a2] at this
    have := loSum_nonpos (axes := l.axes) hz
    omega
  have h2 : hiSum l.axes = (l.shape.prod : Int) - 1 := by
    obtain ⟨a1, a2⟩ := hiIdx_spec (axes := l.axes) hz
    have e1 := hc _ a1
    rw [addr_eq, a2] at e1
    have e2 := rank_lt (o := o) (shape := l.shape) a1
    obtain ⟨i, hi, hr⟩ := exists_rank (o := o) (shape := l.shape) (k := l.shape.prod - 1) (by omega)
    have e3 := hc i hi
    rw [addr_eq] at e3
    have e4 := (dot_bounds (axes := l.axes) hi).2
    omega
  rw [h1, h2, if_pos (by omega)]
  simp only [Layout.size]
  congr 2 <;> omega

theorem flatB_contig {l : Layout} {o : Order} (ho : 0 ≤ l.offset) (hne : l.ndim ≠ 0)
    (hc : (match o with | .C => l.cContig | .F => l.fContig) = true) :
    l.flatB = .ok ⟨⟨l.size, 1⟩ :: List.replicate (l.ndim - 1) ⟨1, l.size⟩, l.offset⟩ ∧
    (all o l.shape).map l.addr = (List.range l.size).map fun (t : Nat) => l.offset + (t : Int) := by
  by_cases hz : 0 ∈ l.shape
  · have hs : l.size = 0 := prod_eq_zero_of hz
    constructor
    · unfold Layout.flatB
      rw [boundsIndex_of_zero hz]
      simp [hs, hne]
    · have : (all o l.shape) = [] := List.eq_nil_of_length_eq_zero (by rw [length_all]; exact hs)
      simp [this, hs]
  · have hr := contig_rank hz hc
    constructor
    · unfold Layout.flatB
      rw [contig_bounds hz hr ho]
      simp [hne]
    · show _ = (List.range l.shape.prod).map _
      rw [← map_rank_all o, List.map_map]
      apply List.map_congr_left
      intro i hi
      exact hr i (mem_all.1 hi)

end Rstsr
