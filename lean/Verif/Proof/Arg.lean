import Verif.Model.Arg
import Verif.Proof.Reduce
import Verif.Proof.Copy
import Verif.Proof.Slices
import Verif.Thm.Views
import Verif.Thm.Rearrange
/-! # Arg-reductions -/
namespace Rstsr
open Spec

section
variable {α : Type}

/-! ## The order of indices -/

theorem lexLt_cons (i j : Nat) (is js : List Nat) :
    lexLt (i :: is) (j :: js) = true ↔ i < j ∨ (i = j ∧ lexLt is js = true) := by
  simp [lexLt]

theorem allC_pairwise (s : List Nat) : (allC s).Pairwise fun i j => lexLt i j = true := by
  induction s with
  | nil => simp [allC]
  | cons d s ih =>
    rw [allC]
    have : ∀ n, ((List.range n).flatMap fun i => (allC s).map (i :: ·)).Pairwise fun i j => lexLt i j = true := by
      intro n
      induction n with
      | zero => simp
      | succ n ihn =>
        rw [List.range_succ, List.flatMap_append, List.pairwise_append]
        refine ⟨ihn, ?_, ?_⟩
        · simp only [List.flatMap_cons, List.flatMap_nil, List.append_nil]
          rw [List.pairwise_map]
          exact ih.imp fun h => (lexLt_cons _ _ _ _).2 (.inr ⟨rfl, h⟩)
        · intro x hx y hy
          obtain ⟨i, hi, hx⟩ := List.mem_flatMap.1 hx
          obtain ⟨u, _, rfl⟩ := List.mem_map.1 hx
          simp only [List.flatMap_cons, List.flatMap_nil, List.append_nil] at hy
          obtain ⟨w, _, rfl⟩ := List.mem_map.1 hy
          exact (lexLt_cons _ _ _ _).2 (.inl (List.mem_range.1 hi))
    exact this d

theorem lexLt_asymm : ∀ {i j : List Nat}, lexLt i j = true → lexLt j i = false
  | [], [], h => by simp [lexLt] at h
  | [], _ :: _, _ => by simp [lexLt]
  | _ :: _, [], h => by simp [lexLt] at h
  | i :: is, j :: js, h => by
    rw [lexLt_cons] at h
    rw [Bool.eq_false_iff]
    intro h'
    rw [lexLt_cons] at h'
    rcases h with h | ⟨rfl, h⟩
    · rcases h' with h' | ⟨h', _⟩ <;> omega
    · rcases h' with h' | ⟨_, h'⟩
      · omega
      · rw [lexLt_asymm h] at h'; cases h'

/-! ## Choosing the best -/

/-- The comparison closures implement the order `better` and accept the first value. -/
structure ArgCmp.Impl (F : ArgCmp α) (better : α → α → Prop) : Prop where
  first : ∀ y, F.comp none y = some true
  yes : ∀ x y, better y x → F.comp (some x) y = some true
  no : ∀ x y, ¬ better y x → F.comp (some x) y = some false

/-- The partial result `acc` is right for the list `xs` of indices with values. -/
def Best (better : α → α → Prop) (xs : List (List Nat × α)) (acc : Option (List Nat × α)) : Prop :=
  (xs = [] ∧ acc = none) ∨ ∃ p x q, xs = p ++ x :: q ∧ acc = some x ∧ (∀ y ∈ p, better x.2 y.2) ∧ ∀ y ∈ q, ¬ better y.2 x.2

theorem pickVal_some {F : ArgCmp α} {better : α → α → Prop} (hF : F.Impl better) {x : List Nat × α} {i : List Nat} {v : α}
    (hlt : lexLt x.1 i = true) :
    (better v x.2 → F.pickVal (some x) i v = some (i, v)) ∧ (¬ better v x.2 → F.pickVal (some x) i v = some x) := by
  obtain ⟨xi, xv⟩ := x
  constructor
  · intro h
    simp only [ArgCmp.pickVal, Option.map_some, hF.yes xv v h]
  · intro h
    simp only [ArgCmp.pickVal, Option.map_some, hF.no xv v h]
    split
    · rw [lexLt_asymm hlt]; simp
    · rfl

theorem Best.append {F : ArgCmp α} {better : α → α → Prop} (hb : StrictWeak better) (hF : F.Impl better)
    {xs ys : List (List Nat × α)} {a b : Option (List Nat × α)} (ha : Best better xs a) (hb' : Best better ys b)
    (hlt : ∀ x ∈ xs, ∀ y ∈ ys, lexLt x.1 y.1 = true) :
    Best better (xs ++ ys) (match a, b with
      | some x, some y => F.pickVal (some x) y.1 y.2
      | some x, none => some x
      | none, y => y) := by
  rcases ha with ⟨rfl, rfl⟩ | ⟨p, x, q, rfl, rfl, h1, h2⟩
  · exact hb'
  · rcases hb' with ⟨rfl, rfl⟩ | ⟨p', y, q', rfl, rfl, h3, h4⟩
    · exact .inr ⟨p, x, q, by simp, rfl, h1, h2⟩
    · simp only
      obtain ⟨k1, k2⟩ := pickVal_some hF (x := x) (i := y.1) (v := y.2) (hlt x (by simp) y (by simp))
      by_cases h : better y.2 x.2
      · rw [k1 h]
        refine .inr ⟨p ++ x :: q ++ p', y, q', by simp, rfl, ?_, h4⟩
        intro z hz
        simp only [List.append_assoc, List.cons_append, List.mem_append, List.mem_cons] at hz
        rcases hz with hz | rfl | hz | hz
        · exact hb.trans _ _ _ h (h1 z hz)
        · exact h
        · rcases hb.split _ _ z.2 h with h' | h'
          · exact h'
          · exact absurd h' (h2 z hz)
        · exact h3 z hz
      · rw [k2 h]
        refine .inr ⟨p, x, q ++ (p' ++ y :: q'), by simp, rfl, h1, ?_⟩
        intro z hz
        simp only [List.mem_append, List.mem_cons] at hz
        rcases hz with hz | hz | rfl | hz
        · exact h2 z hz
        · intro hc
          exact h (hb.trans _ _ _ (h3 z hz) hc)
        · exact h
        · intro hc
          rcases hb.split _ _ y.2 hc with h' | h'
          · exact h4 z hz h'
          · exact h h'

theorem Best.single {F : ArgCmp α} {better : α → α → Prop} (hF : F.Impl better) (i : List Nat) (v : α) :
    Best better [(i, v)] (F.pickVal none i v) := by
  refine .inr ⟨[], (i, v), [], rfl, ?_, by simp, by simp⟩
  simp [ArgCmp.pickVal, hF.first]

theorem Best.step {F : ArgCmp α} {better : α → α → Prop} (hb : StrictWeak better) (hF : F.Impl better)
    {xs : List (List Nat × α)} {acc : Option (List Nat × α)} (h : Best better xs acc) {i : List Nat} {v : α}
    (hlt : ∀ x ∈ xs, lexLt x.1 i = true) : Best better (xs ++ [(i, v)]) (F.pickVal acc i v) := by
  have := Best.append hb hF h (ys := [(i, v)]) (b := some (i, v))
    (.inr ⟨[], (i, v), [], rfl, rfl, by simp, by simp⟩) (by intro x hx y hy; simp at hy; subst hy; exact hlt x hx)
  cases acc with
  | none =>
    simpa [ArgCmp.pickVal, hF.first] using this
  | some x => exact this

/-! ## The loops -/

/-- The values read along a list of indices. -/
def valued (a : List α) (l : Layout) (is : List (List Nat)) (xs : List (List Nat × α)) : Prop :=
  List.Forall₂ (fun i x => x.1 = i ∧ a[l.pos i]? = some x.2) is xs

theorem valued_exists {a : List α} {l : Layout} {is : List (List Nat)} (h : ∀ i ∈ is, l.pos i < a.length) :
    ∃ xs, valued a l is xs := by
  induction is with
  | nil => exact ⟨[], .nil⟩
  | cons i is ih =>
    obtain ⟨xs, hx⟩ := ih fun j hj => h j (by simp [hj])
    exact ⟨(i, a[l.pos i]'(h i (by simp))) :: xs, .cons ⟨rfl, List.getElem?_eq_getElem _⟩ hx⟩

theorem valued_fst {a : List α} {l : Layout} {is : List (List Nat)} {xs : List (List Nat × α)} (h : valued a l is xs) :
    xs.map Prod.fst = is := by
  induction h with
  | nil => rfl
  | cons h _ ih => rw [List.map_cons, ih, h.1]

theorem valued_mem {a : List α} {l : Layout} {is : List (List Nat)} {xs : List (List Nat × α)} (h : valued a l is xs)
    {x : List Nat × α} (hx : x ∈ xs) : a[l.pos x.1]? = some x.2 := by
  induction h with
  | nil => cases hx
  | cons h _ ih =>
    rcases List.mem_cons.1 hx with rfl | hx
    · rw [h.1]; exact h.2
    · exact ih hx

theorem fold_best {F : ArgCmp α} {better : α → α → Prop} (hb : StrictWeak better) (hF : F.Impl better) {a : List α}
    {l : Layout} {is : List (List Nat)} {xs : List (List Nat × α)} (h : valued a l is xs)
    (hs : is.Pairwise fun i j => lexLt i j = true) {pre : List (List Nat × α)} {acc : Option (List Nat × α)}
    (hp : Best better pre acc) (hlt : ∀ x ∈ pre, ∀ i ∈ is, lexLt x.1 i = true) :
    ∃ acc', foldRes (F.fold a) acc (is.map fun i => (i, (l.addr i).toNat)) = .ok acc' ∧ Best better (pre ++ xs) acc' := by
  induction h generalizing pre acc with
  | nil => exact ⟨acc, rfl, by simpa using hp⟩
  | @cons i x is xs h1 h2 ih =>
    obtain ⟨rfl, hv⟩ := h1
    rw [List.pairwise_cons] at hs
    have hst := Best.step hb hF hp (i := x.1) (v := x.2) fun y hy => hlt y hy _ (by simp)
    obtain ⟨acc', g1, g2⟩ := ih hs.2 hst (by
      intro y hy i hi
      rcases List.mem_append.1 hy with hy | hy
      · exact hlt y hy i (by simp [hi])
      · simp at hy; subst hy; exact hs.1 i hi)
    refine ⟨acc', ?_, by simpa using g2⟩
    have hr : F.fold a acc (x.1, (l.addr x.1).toNat) = .ok (F.pickVal acc x.1 x.2) := by
      unfold ArgCmp.fold readAt
      have hv : a[(l.addr x.1).toNat]? = some x.2 := hv
      rw [hv]; rfl
    simp only [List.map_cons, foldRes, hr, ok_bind]
    exact g1

theorem par_best {F : ArgCmp α} {better : α → α → Prop} (hb : StrictWeak better) (hF : F.Impl better) {a : List α}
    {l : Layout} (p : Plan) {it : Iter} (hi : it.Inv) (hn : Iter.NonNeg it.layout) (hz : it.layout.size ≠ 0)
    (hl : it.layout = l) (hf : p.Fits it.len) {xs : List (List Nat × α)} (h : valued a l it.idxs xs)
    (hs : it.idxs.Pairwise fun i j => lexLt i j = true) :
    ∃ acc, F.par a l p it = .ok acc ∧ Best better xs acc := by
  induction p generalizing it xs with
  | run =>
    rw [ArgCmp.par, collectIndexed_spec hi hn _ (Nat.lt_succ_self _)]
    simp only [ok_bind, hl]
    obtain ⟨acc, h1, h2⟩ := fold_best hb hF h hs (pre := []) (acc := none) (.inl ⟨rfl, rfl⟩) (by simp)
    rw [h1]
    simp only [ok_bind]
    rw [List.nil_append] at h2
    refine ⟨acc, ?_, h2⟩
    cases acc <;> rfl
  | split k p q ihp ihq =>
    obtain ⟨u, r, h1, h2, h3, h4, h5, h6, h7, h8, h9, h10⟩ := Iter.splitAt_spec hi hz hf.1
    rw [h10] at h hs
    rw [List.pairwise_append] at hs
    obtain ⟨xs1, xs2, v1, v2, rfl⟩ : ∃ xs1 xs2, valued a l u.idxs xs1 ∧ valued a l r.idxs xs2 ∧ xs = xs1 ++ xs2 := by
      obtain ⟨n1, n2⟩ := (List.forall₂_iff_get.1 h)
      have hlen := h.length_eq
      refine ⟨xs.take u.idxs.length, xs.drop u.idxs.length, ?_, ?_, (List.take_append_drop _ _).symm⟩
      · have := List.forall₂_take u.idxs.length h
        rwa [List.take_left'] at this
        rfl
      · have := List.forall₂_drop u.idxs.length h
        rwa [List.drop_left'] at this
        rfl
    obtain ⟨x, g1, g2⟩ := ihp h2 (h4 ▸ hn) (h4 ▸ hz) (h4.trans hl) (by rw [h8]; exact hf.2.1) v1 hs.1
    obtain ⟨y, g3, g4⟩ := ihq h3 (h5 ▸ hn) (h5 ▸ hz) (h5.trans hl) (by rw [h9]; exact hf.2.2) v2 hs.2.1
    have hlt : ∀ x ∈ xs1, ∀ y ∈ xs2, lexLt x.1 y.1 = true := by
      intro x hx y hy
      refine hs.2.2 _ ?_ _ ?_
      · rw [← valued_fst v1]; exact List.mem_map_of_mem hx
      · rw [← valued_fst v2]; exact List.mem_map_of_mem hy
    refine ⟨_, ?_, Best.append hb hF g2 g4 hlt⟩
    rw [ArgCmp.par, h1]
    simp only [ok_bind, g1, g3]
    rcases g4 with ⟨-, rfl⟩ | ⟨p', y, q', rfl, rfl, -, -⟩
    · cases x <;> rfl
    · cases x with
      | none => rfl
      | some x =>
        have hv : a[(l.addr y.1).toNat]? = some y.2 := valued_mem v2 (by simp)
        simp only [ArgCmp.sum, ArgCmp.fold, readAt, hv]
        rfl

theorem best_first {better : α → α → Prop} (hb' : StrictWeak better) {a : List α} {l : Layout} {xs : List (List Nat × α)} {x : List Nat × α}
    (h : valued a l (all .C l.shape) xs) (hb : Best better xs (some x)) (A : Arr α) (hA : A.shape = l.shape)
    (he : ∀ i, InRange i l.shape → A.elem i = a[l.pos i]?) : A.FirstBest better x.1 := by
  rcases hb with ⟨-, hc⟩ | ⟨p, x', q, rfl, hx, h1, h2⟩
  · cases hc
  cases hx
  have hf := valued_fst h
  have hmem : ∀ y ∈ p ++ x :: q, InRange y.1 l.shape := by
    intro y hy
    exact mem_all.1 (hf ▸ List.mem_map_of_mem hy)
  have hin := hmem x (by simp)
  have hval : ∀ j v, InRange j l.shape → A.elem j = some v → (j, v) ∈ p ++ x :: q := by
    intro j v hj hv
    have : j ∈ (p ++ x :: q).map Prod.fst := by rw [hf]; exact mem_all.2 hj
    obtain ⟨y, hy, rfl⟩ := List.mem_map.1 this
    rw [he _ hj, valued_mem h hy] at hv
    cases hv
    exact hy
  have hnd : ((p ++ x :: q).map Prod.fst).Nodup := hf ▸ nodup_all _ _
  unfold Arr.FirstBest
  rw [hA]
  have hrank : (p ++ x :: q).map (rank .C l.shape ∘ Prod.fst) = List.range l.shape.prod := by
    rw [← List.map_map, hf]; exact map_rank_allC _
  have hpos : ∀ (k : Nat) (y : List Nat × α), (p ++ x :: q)[k]? = some y → rank .C l.shape y.1 = k := by
    intro k y hk
    have := congrArg (·[k]?) hrank
    simp only [List.getElem?_map, hk, Option.map_some, Function.comp_apply] at this
    rw [List.getElem?_range] at this
    · exact Option.some.inj this
    · by_contra hn
      rw [List.getElem?_eq_none (by simpa using hn)] at this
      cases this
  have hxr : rank .C l.shape x.1 = p.length := hpos p.length x (by simp)
  refine ⟨hin, x.2, ?_, ?_, ?_⟩
  · rw [he _ hin]; exact valued_mem h (by simp)
  · intro j y hj hy hbt
    have hm := hval j y hj hy
    rcases List.mem_append.1 hm with hm | hm
    · have := h1 _ hm
      exact (hb'.irrefl _ (hb'.trans _ _ _ hbt this)).elim
    · rcases List.mem_cons.1 hm with hm | hm
      · have : y = x.2 := by rw [← hm]
        rw [this] at hbt
        exact (hb'.irrefl _ hbt).elim
      · exact h2 _ hm hbt
  · intro j y hj hy hlt
    rw [hxr] at hlt
    have hm := hval j y hj hy
    obtain ⟨k, hk⟩ := List.mem_iff_getElem?.1 hm
    have hk' := hpos k _ hk
    simp only at hk'
    rw [← hk', List.getElem?_append_left hlt] at hk
    exact h1 _ (List.mem_of_getElem? hk)

/-- The layout addresses existing cells only. -/
def Reads (l : Layout) (a : List α) : Prop := ∀ i, InRange i l.shape → 0 ≤ l.addr i ∧ l.pos i < a.length

theorem unraveledArgAll_ok {F : ArgCmp α} {better : α → α → Prop} (hb : StrictWeak better) (hF : F.Impl better)
    (par : Option Planner) (hp : ∀ s, par = some s → s.Fits) {a : List α} {l : Layout} (hr : Reads l a) (hz : l.size ≠ 0)
    (A : Arr α) (hA : A.shape = l.shape) (he : ∀ i, InRange i l.shape → A.elem i = a[l.pos i]?) :
    ∃ idx, unraveledArgAll par F a l = .ok idx ∧ A.FirstBest better idx := by
  have hn : NonNegative l := fun i hi => (hr i hi).1
  obtain ⟨it, h1, h2, h3, h4, h5, h6⟩ := Iter.new_spec .C l
  obtain ⟨xs, hv⟩ := valued_exists (a := a) (l := l) (is := all .C l.shape) fun i hi => (hr i (mem_all.1 hi)).2
  have hidx : it.idxs = all .C l.shape := by
    rw [Iter.idxs, h3, h4, h5, h6, List.drop_zero, Nat.sub_zero, List.take_of_length_le]
    rw [length_all]; exact Nat.le_refl _
  have hpw : it.idxs.Pairwise fun i j => lexLt i j = true := by rw [hidx]; exact allC_pairwise _
  have hne : xs ≠ [] := by
    intro h0
    have := hv.length_eq
    rw [length_all, h0, List.length_nil] at this
    exact hz this
  have hsome : ∀ acc, Best better xs acc → ∃ x, acc = some x ∧ A.FirstBest better x.1 := by
    intro acc hacc
    rcases hacc with ⟨h, -⟩ | ⟨p, x, q, e1, rfl, e3, e4⟩
    · exact absurd h hne
    · exact ⟨x, rfl, best_first hb hv (.inr ⟨p, x, q, e1, rfl, e3, e4⟩) A hA he⟩
  have hser : ∃ idx, reduceAllUnraveledArg F a l = .ok idx ∧ A.FirstBest better idx := by
    unfold reduceAllUnraveledArg
    rw [if_neg hz, h1]
    simp only [ok_bind]
    rw [collectIndexed_spec h2 (h3 ▸ hn) _ (Nat.lt_succ_self _), hidx, h3]
    simp only [ok_bind]
    obtain ⟨acc, g1, g2⟩ := fold_best hb hF hv (allC_pairwise _) (pre := []) (acc := none) (.inl ⟨rfl, rfl⟩) (by simp)
    rw [g1]
    simp only [ok_bind]
    obtain ⟨x, rfl, hx⟩ := hsome acc (by simpa using g2)
    exact ⟨_, rfl, hx⟩
  cases par with
  | none => exact hser
  | some s =>
    show ∃ idx, reduceAllUnraveledArgPar s F a l = .ok idx ∧ _
    unfold reduceAllUnraveledArgPar
    rw [if_neg hz]
    split
    · exact hser
    · rw [h1]
      simp only [ok_bind]
      obtain ⟨acc, g1, g2⟩ := par_best hb hF (a := a) (l := l) (s it.len) h2 (h3 ▸ hn) (h3 ▸ hz) h3 (hp s rfl _)
        (hidx ▸ hv) hpw
      rw [g1]
      simp only [ok_bind]
      obtain ⟨x, rfl, hx⟩ := hsome acc g2
      exact ⟨_, rfl, hx⟩

theorem unraveledArgAll_empty {F : ArgCmp α} (par : Option Planner) (a : List α) {l : Layout} (hz : l.size = 0) :
    unraveledArgAll par F a l = .error .invalidLayout := by
  cases par <;> simp [unraveledArgAll, reduceAllUnraveledArg, reduceAllUnraveledArgPar, hz]

theorem ravelIndex_eq (o : Order) {shape idx : List Nat} (h : idx.length = shape.length) :
    ravelIndex o shape idx = rank o shape idx := by
  unfold ravelIndex
  cases o
  · simp only [addr_newCContig h, Int.zero_add]
    exact Int.toNat_natCast _
  · simp only [addr_newFContig h, Int.zero_add]
    exact Int.toNat_natCast _

/-! ## Traversal in row-major order -/

theorem joint_rows {s' : List Nat} {e : List (List Nat)} {s : List Nat} (he : e.Perm (all .C s)) {n : Nat} (hn : e.length = n)
    (hs : s'.prod = n) :
    ∃ e' : List (List Nat), e'.Perm (all .C s) ∧ ∀ l m : Layout, m.shape = s' → (all .F s').map m.addr = e.map l.addr →
      (all .C s').map m.addr = e'.map l.addr := by
  refine ⟨(all .C s').map fun j => e.getD (rank .F s' j) [], ?_, ?_⟩
  · refine List.Perm.trans ?_ he
    have h1 : ((all .C s').map fun j => e.getD (rank .F s' j) []).Perm ((all .F s').map fun j => e.getD (rank .F s' j) []) :=
      (perm_all .C .F s').map _
    refine h1.trans ?_
    have h2 : (all .F s').map (fun j => e.getD (rank .F s' j) []) = (List.range n).map fun k => e.getD k [] := by
      have := map_rank_allF s'
      rw [show (fun j => e.getD (rank .F s' j) []) = (fun k => e.getD k []) ∘ rank .F s' from rfl, ← List.map_map]
      rw [show (all .F s').map (rank .F s') = List.range s'.prod from this, hs]
    rw [h2, ← hn, map_getD_range]
  · intro l m hm h
    rw [List.map_map]
    apply List.map_congr_left
    intro j hj
    have hj := mem_all.1 hj
    have hlt : rank .F s' j < (all .F s').length := by rw [length_all]; exact rank_lt hj
    have hlt' : rank .F s' j < e.length := by rw [length_all] at hlt; omega
    have e1 : (all .F s')[rank .F s' j]'hlt = j := rank_inj (mem_all.1 (List.getElem_mem hlt)) hj (rank_all_getElem hlt)
    have := congrArg (·[rank .F s' j]?) h
    simp only [List.getElem?_map, List.getElem?_eq_getElem hlt, List.getElem?_eq_getElem hlt', Option.map_some,
      Option.some.injEq, e1] at this
    rw [this, Function.comp_apply, List.getD_eq_getElem?_getD, List.getElem?_eq_getElem hlt', Option.getD_some]

theorem rowItems_of {l m : Layout} {e : List (List Nat)} {s : List Nat} (he : e.Perm (all .C s))
    (h : (all .C m.shape).map m.addr = e.map l.addr) (hn : ∀ i, InRange i s → 0 ≤ l.addr i) :
    rowItems m = .ok (e.map l.pos) := by
  have hnn : NonNegative m := by
    intro idx hi
    have : m.addr idx ∈ (all .C m.shape).map m.addr := List.mem_map_of_mem (mem_all.2 hi)
    rw [h] at this
    obtain ⟨j, hj, e2⟩ := List.mem_map.1 this
    show 0 ≤ m.addr idx
    rw [← e2]
    exact hn j (mem_all.1 (he.mem_iff.1 hj))
  obtain ⟨it, h1, h2, h3, h4, h5, h6⟩ := Iter.new_spec .C m
  unfold rowItems
  rw [h1]
  simp only [ok_bind]
  rw [Iter.toList_spec h2 (h3 ▸ hnn), Iter.items, Iter.idxs, h3, h4, h5, h6, List.drop_zero, Nat.sub_zero,
    List.take_of_length_le (by rw [length_all]; exact Nat.le_refl _)]
  congr 1
  have := congrArg (List.map Int.toNat) h
  rw [List.map_map, List.map_map] at this
  exact this

/-- Both layouts are traversed along one enumeration of all indices. -/
theorem rows2 (dflt : Order) {s : List Nat} {lc la : Layout} (hc : Fit s lc) (ha : Fit s la) :
    ∃ (e : List (List Nat)) (mc ma : Layout), e.Perm (all .C s) ∧
      Layout.toColMajorMany dflt [lc, la] .K = .ok [mc, ma] ∧
      rowItems mc = .ok (e.map lc.pos) ∧ rowItems ma = .ok (e.map la.pos) := by
  have hf : ∀ l ∈ [lc, la], Fit s l := by
    intro l hl
    simp only [List.mem_cons, List.not_mem_nil, or_false] at hl
    rcases hl with rfl | rfl <;> assumption
  obtain ⟨ms, e, h1, h2, h3, s', h4⟩ := C28_joint dflt s [lc, la] (fun l hl => (hf l hl).valid)
    (fun l hl => (hf l hl).shape) .K (by simp)
  obtain ⟨mc, ma, rfl, k1, k2⟩ := forall2_two h3
  have sc : mc.shape = s' := h4 mc (by simp)
  have sa : ma.shape = s' := h4 ma (by simp)
  rw [sc] at k1
  rw [sa] at k2
  have hlen : s'.prod = e.length := by
    have := congrArg List.length k1
    simpa [length_all] using this
  obtain ⟨e', g1, g2⟩ := joint_rows (s' := s') h2 rfl hlen
  exact ⟨e', mc, ma, g1, h1, rowItems_of g1 (by rw [sc]; exact g2 lc mc sc k1) hc.nonneg,
    rowItems_of g1 (by rw [sa]; exact g2 la ma sa k2) ha.nonneg⟩

/-! ## One result per index of the other axes -/

theorem axes_run {γ : Type} {s : List Nat} {lout lrest : Layout} {n : Nat} (hs : lout.shape = s) (ht : Tight lout n) (inner : Nat → Res γ)
    {e : List (List Nat)} (he : e.Perm (all .C s))
    (hi : ∀ j, InRange j s → ∃ v, inner (lrest.pos j) = .ok v) :
    ∃ out d, runAll (fun (p : Nat × Nat) (c : List (Option γ)) => do
        let idx ← inner p.2
        modifyAt c p.1 fun _ => some idx) ((e.map lout.pos).zip (e.map lrest.pos)) (uninit (n : Int)) = .ok out ∧
      assumeInit out = .ok d ∧ d.length = n ∧
      ∀ j, InRange j s → ∃ v, inner (lrest.pos j) = .ok v ∧ d[lout.pos j]? = some v := by
  subst hs
  have hlen : (uninit (n : Int) : List (Option γ)).length = n := by simp [uninit]
  rw [zip_map_self, runAll_map]
  have hmem : ∀ j ∈ e, InRange j lout.shape := fun j hj => mem_all.1 (he.mem_iff.1 hj)
  obtain ⟨out, h1, h2, h3, h4⟩ := runAll_write' (p := lout.pos) (xs := e) (c := (uninit (n : Int) : List (Option γ)))
    (st := fun j c => do
        let idx ← inner (lrest.pos j)
        modifyAt c (lout.pos j) fun _ => some idx)
    (fun j hj => by rw [hlen]; exact ht.lt j (hmem j hj))
    (fun j v => ∃ w, v = some w ∧ inner (lrest.pos j) = .ok w)
    (fun j hj => by
      obtain ⟨v, hv⟩ := hi j (hmem j hj)
      exact ⟨some v, ⟨v, rfl, hv⟩, fun c => by rw [hv]; rfl⟩)
    (fun i hi' j hj e2 w w' hw hw' => by
      have := ht.inj i j (hmem i hi') (hmem j hj) e2
      subst this
      obtain ⟨x, rfl, hx⟩ := hw
      obtain ⟨y, rfl, hy⟩ := hw'
      rw [hx] at hy; cases hy; rfl)
  have hcell : ∀ j, InRange j lout.shape → ∃ v, inner (lrest.pos j) = .ok v ∧ out[lout.pos j]? = some (some v) := by
    intro j hj
    obtain ⟨v, hv⟩ := hi j hj
    exact ⟨v, hv, h3 j (he.mem_iff.2 (mem_all.2 hj)) _ ⟨v, rfl, hv⟩⟩
  obtain ⟨d, d1, d2, d3⟩ := assumeInit_ok (c := out) (by
    intro k hk
    rw [h2, hlen] at hk
    obtain ⟨j, hj, rfl⟩ := ht.sur k hk
    obtain ⟨v, -, hv⟩ := hcell j hj
    exact ⟨v, hv⟩)
  refine ⟨out, d, h1, d1, by rw [d2, h2, hlen], fun j hj => ?_⟩
  obtain ⟨v, hv, hc⟩ := hcell j hj
  exact ⟨v, hv, d3 _ _ hc⟩

/-- The result of an arg-reduction along axes, given that the layout of the axes is used as it is. -/
theorem unraveledArgAxes_ok {F : ArgCmp α} {better : α → α → Prop} (hb : StrictWeak better) (hF : F.Impl better)
    (dflt : Order) (par : Option Planner) (hp : ∀ s, par = some s → s.Fits) {t : Tensor α} (h : t.WF)
    (hz : 0 ∉ t.arr.shape) {axes : List Int} {lax lrest : Layout}
    (hs : t.layout.dimSplitAxes axes = .ok (lax, lrest))
    (hpar : par ≠ none → 1024 ≤ t.layout.size → lax.toColMajor dflt .K = .ok lax) :
    ∃ d lout, unraveledArgAxes dflt par F t.data t.layout axes = .ok (d, lax, lout) ∧ lout.shape = lrest.shape ∧
      Tight lout lout.size ∧ d.length = lout.size ∧ ∀ j, InRange j lrest.shape → ∃ idx, d[lout.pos j]? = some idx ∧
        (t.arr.slice (axes.map (normAxis t.arr.shape.length)) j).FirstBest better idx := by
  obtain ⟨s1, s2, s3, s4, s5, s6⟩ := split_facts h hs
  obtain ⟨lout, o1, o2, o3, o4⟩ := forArrayCopy_spec dflt s2 .K (by simp)
  have ht : Tight lout lout.size := o3.tight fun hz' => o4 (o2 ▸ hz')
  have fr : Fit lrest.shape lrest := ⟨s2, s3, rfl⟩
  obtain ⟨e, mo, mr, e1, e2, e3, e4⟩ := rows2 dflt (o3.fit o2) fr
  have hsz : t.layout.size ≠ 0 := fun h0 => hz (size_zero_iff.1 h0)
  have hlax : 0 ∉ lax.shape := (s5 hz).2
  have key : ∀ (par : Option Planner), (∀ s, par = some s → s.Fits) → ∀ j, InRange j lrest.shape →
      ∃ idx, unraveledArgAll par F t.data ⟨lax.axes, (lrest.pos j : Int)⟩ = .ok idx ∧
        (t.arr.slice (axes.map (normAxis t.arr.shape.length)) j).FirstBest better idx := by
    intro par hp j hj
    obtain ⟨f1, f2⟩ := s6 j hj
    have hpos : (lrest.pos j : Int) = lrest.addr j := by unfold Layout.pos; omega
    have hofs : lax.offset = t.layout.offset := (C52_split_axes t.layout lax lrest axes hs).2.2.1
    have haddr : ∀ i, InRange i lax.shape → (⟨lax.axes, (lrest.pos j : Int)⟩ : Layout).addr i =
        t.layout.addr (mergeIndex t.arr.shape.length (axes.map (normAxis t.arr.shape.length)) i j) := by
      intro i hi
      rw [← (f2 i hi).2, addr_mk, hpos, addr_eq lax, hofs]
      ring
    have hrd : Reads (⟨lax.axes, (lrest.pos j : Int)⟩ : Layout) t.data := by
      intro i hi
      have hi : InRange i lax.shape := hi
      obtain ⟨c1, c2⟩ := C03_in_bounds t.data t.layout t h.1 h.2 _ (f2 i hi).1
      have c1 : 0 ≤ t.layout.addr (mergeIndex t.arr.shape.length (axes.map (normAxis t.arr.shape.length)) i j) := c1
      have c2 : t.layout.addr (mergeIndex t.arr.shape.length (axes.map (normAxis t.arr.shape.length)) i j) <
        (t.data.length : Int) := c2
      have hp : (⟨lax.axes, (lrest.pos j : Int)⟩ : Layout).pos i =
          t.layout.pos (mergeIndex t.arr.shape.length (axes.map (normAxis t.arr.shape.length)) i j) :=
        congrArg Int.toNat (haddr i hi)
      rw [haddr i hi, hp]
      unfold Layout.pos
      omega
    refine unraveledArgAll_ok hb hF par hp hrd ?_ (t.arr.slice _ j) s4.symm ?_
    · intro h0
      exact hlax (size_zero_iff.1 h0)
    · intro i hi
      have hi : InRange i lax.shape := hi
      show t.arr.elem (mergeIndex t.arr.shape.length (axes.map (normAxis t.arr.shape.length)) i j) = _
      obtain ⟨x, g1, g2⟩ := h.get (f2 i hi).1
      rw [g2, ← g1]
      exact congrArg (t.data[·]?) (congrArg Int.toNat (haddr i hi)).symm
  have fin : ∀ (par : Option Planner), (∀ s, par = some s → s.Fits) →
      ∃ out d, runAll (fun (p : Nat × Nat) (c : List (Option (List Nat))) => do
        let idx ← unraveledArgAll par F t.data ⟨lax.axes, p.2⟩
        modifyAt c p.1 fun _ => some idx) ((e.map lout.pos).zip (e.map lrest.pos)) (uninit (lout.size : Int)) = .ok out ∧
        assumeInit out = .ok d ∧ d.length = lout.size ∧ ∀ j, InRange j lrest.shape → ∃ idx, d[lout.pos j]? = some idx ∧
        (t.arr.slice (axes.map (normAxis t.arr.shape.length)) j).FirstBest better idx := by
    intro par hp
    obtain ⟨out, d, r1, r2, r3, r4⟩ := axes_run (lrest := lrest) o2 ht (fun q => unraveledArgAll par F t.data ⟨lax.axes, (q : Int)⟩) e1
      fun j hj => by obtain ⟨idx, hi, -⟩ := key par hp j hj; exact ⟨idx, hi⟩
    refine ⟨out, d, r1, r2, r3, fun j hj => ?_⟩
    obtain ⟨v, v1, v2⟩ := r4 j hj
    obtain ⟨idx, k1, k2⟩ := key par hp j hj
    have e : v = idx := by rw [k1] at v1; cases v1; rfl
    exact ⟨idx, e ▸ v2, k2⟩
  have hser : ∃ d lout, reduceAxesUnraveledArg dflt F t.data t.layout axes = .ok (d, lax, lout) ∧ lout.shape = lrest.shape ∧
      Tight lout lout.size ∧ d.length = lout.size ∧ ∀ j, InRange j lrest.shape → ∃ idx, d[lout.pos j]? = some idx ∧
        (t.arr.slice (axes.map (normAxis t.arr.shape.length)) j).FirstBest better idx := by
    obtain ⟨out, d, r1, r2, r3, r4⟩ := fin none fun s hs => nomatch hs
    have r1 : runAll (fun (p : Nat × Nat) (c : List (Option (List Nat))) => do
        let idx ← reduceAllUnraveledArg F t.data ⟨lax.axes, p.2⟩
        modifyAt c p.1 fun _ => some idx) ((e.map lout.pos).zip (e.map lrest.pos)) (uninit (lout.size : Int)) = .ok out := r1
    refine ⟨d, lout, ?_, o2, ht, r3, r4⟩
    unfold reduceAxesUnraveledArg
    rw [if_neg hsz]
    simp only [hs, ok_bind, o1, e2, e3, e4, r1, r2]
    rfl
  cases par with
  | none => exact hser
  | some sch =>
    show ∃ d lout, reduceAxesUnraveledArgPar dflt sch F t.data t.layout axes = .ok (d, lax, lout) ∧ _
    unfold reduceAxesUnraveledArgPar
    split
    · exact hser
    · rename_i hbig
      obtain ⟨out, d, r1, r2, r3, r4⟩ := fin (some sch) hp
      have r1 : runAll (fun (p : Nat × Nat) (c : List (Option (List Nat))) => do
        let idx ← reduceAllUnraveledArgPar sch F t.data ⟨lax.axes, p.2⟩
        modifyAt c p.1 fun _ => some idx) ((e.map lout.pos).zip (e.map lrest.pos)) (uninit (lout.size : Int)) = .ok out := r1
      refine ⟨d, lout, ?_, o2, ht, r3, r4⟩
      simp only [hs, ok_bind, hpar (by simp) (by unfold reduceParSwitch at hbig; omega), o1, e2, e3, e4, r1, r2]
      rfl

end
end Rstsr
