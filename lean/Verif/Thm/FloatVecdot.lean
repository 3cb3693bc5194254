import Verif.Proof.VecdotRel
import Verif.Thm.Vecdot
import Verif.Thm.FloatDot
/-!
# C101: products along axes of floats

C43 assumes that addition is associative and commutative. Here nothing is assumed of the operations.
-/
namespace Rstsr
open Spec
variable {α β γ : Type}

/-- The products of the pairs of a cell, added up in some order and with some brackets. -/
def DotBracket (O : DotOps α β γ) (ps : List (α × β)) (v : γ) : Prop :=
  BracketOf O.zero (fun acc p => O.plus acc (O.mul p.1 p.2)) O.plus ps v

theorem dotRel_collect (O : DotOps α β γ) :
    DotRel (PutTogether O.reducer) (PutTogether O.reducer) O (sumOps fun x y => ({(x, y)} : Multiset (α × β))) where
  zero := (related_collect O.reducer).init
  plus := (related_collect O.reducer).fSum
  step x y h := (related_collect O.reducer).f (x, y) h
  cell h := h
  cellStep x y h := (related_collect O.reducer).f (x, y) h

theorem sum_singletons {ι κ : Type} (f : ι → κ) (xs : List ι) : (xs.map fun i => ({f i} : Multiset κ)).sum = (xs.map f : List κ) := by
  induction xs with
  | nil => rfl
  | cons x xs ih => rw [List.map_cons, List.sum_cons, ih, List.map_cons, ← Multiset.cons_coe, Multiset.singleton_add]

/-- `vecdot` for operations that obey no laws: for every pair of tensors, every choice of axes and every device, each
cell holds the products of its pairs, each of them once, added up in some order and with some brackets. Missing: what
`C43_vecdot_partial` leaves out. -/
theorem C101_vecdot_partial (O : DotOps α β γ) (dflt dev : Order) (par : Option (Bool × Scheduler)) (hp : DotDevice par)
    (a : Tensor α) (b : Tensor β) (ha : a.WF) (hb : b.WF) (za : 0 ∉ a.arr.shape) (zb : 0 ∉ b.arr.shape)
    (hu : par ≠ none → a.Unshared ∧ b.Unshared) (axes : AxesPair) (SA SB : List Nat)
    (hax : DotAxes a.arr.shape.length b.arr.shape.length axes SA SB)
    (hk : takeAxes SA a.arr.shape = takeAxes SB b.arr.shape)
    (hc : Compatible dev (takeAxes (otherAxes a.arr.shape.length SA) a.arr.shape)
      (takeAxes (otherAxes b.arr.shape.length SB) b.arr.shape)) :
    ∃ r, Delivers (a.vecdot dflt dev par O b axes) r ∧ r.WF ∧ VecdotBy dev (DotBracket O) a.arr SA b.arr SB r.arr := by
  obtain ⟨m, h1, h2, h3, h4⟩ := C43_vecdot_partial (fun x y => ({(x, y)} : Multiset (α × β))) dflt dev par hp a b ha hb za zb hu axes SA SB
    hax hk hc
  obtain ⟨r, k1, k2⟩ := delivers_rel (vecdot_rel (dotRel_collect O) dflt dev par a b axes) h1
  have hs : r.arr.shape = m.arr.shape := by simp only [Tensor.arr, k2.2]
  refine ⟨r, k1, tensorRel_wf k2 h2, by rw [hs]; exact h3, fun j hj => ?_⟩
  obtain ⟨x, y, g1, g2⟩ := h4 j (hs ▸ hj)
  obtain ⟨v, g3, g4⟩ := tensorRel_elem k2 g2
  refine ⟨x, y, v, g1, g3, (putTogether_iff O.reducer v _).1 ?_⟩
  rwa [sum_singletons] at g4

/-! ## Writing to given storage -/

/-- A cell and what went into it: its old content, or pairs. -/
def CellMade (O : DotOps α β γ) (v : γ) (m : Multiset (γ ⊕ (α × β))) : Prop :=
  (∃ m0, m = m0.map Sum.inr ∧ PutTogether O.reducer v m0) ∨ m = {.inl v} ∨ ∃ w, Sum.inl w ∈ m ∧ 2 ≤ m.card

theorem dotRel_cells (O : DotOps α β γ) :
    DotRel (fun v (m : Multiset (γ ⊕ (α × β))) => ∃ m0, m = m0.map Sum.inr ∧ PutTogether O.reducer v m0) (CellMade O) O
      (sumOps fun x y => ({.inr (x, y)} : Multiset (γ ⊕ (α × β)))) := by
  have step : ∀ {s : γ} {t : Multiset (γ ⊕ (α × β))} (x : α) (y : β), (∃ m0, t = m0.map Sum.inr ∧ PutTogether O.reducer s m0) →
      ∃ m0 : Multiset (α × β), t + {.inr (x, y)} = m0.map Sum.inr ∧ PutTogether O.reducer (O.plus s (O.mul x y)) m0 := by
    rintro s t x y ⟨m0, rfl, h⟩
    exact ⟨m0 + {(x, y)}, by simp, (related_collect O.reducer).f (x, y) h⟩
  refine ⟨⟨0, rfl, (related_collect O.reducer).init⟩, ?_, fun x y h => step x y h, fun h => .inl h, ?_⟩
  · rintro s t s' t' ⟨m, rfl, h⟩ ⟨m', rfl, h'⟩
    exact ⟨m + m', by simp [sumOps], (related_collect O.reducer).fSum h h'⟩
  · rintro s t x y (h | rfl | ⟨w, h1, h2⟩)
    · exact .inl (step x y h)
    · exact .inr (.inr ⟨s, by simp [sumOps], by simp [sumOps]⟩)
    · exact .inr (.inr ⟨w, by simp [sumOps, h1], by simp only [sumOps, Multiset.card_add]; omega⟩)

theorem forall2_somes {δ : Type} {C : γ → δ → Prop} {e : List (Option γ)} {d : List δ} (h : List.Forall₂ (CellRel C) e (d.map some)) :
    ∃ c, e = c.map some ∧ List.Forall₂ C c d := by
  induction d generalizing e with
  | nil => cases h; exact ⟨[], rfl, .nil⟩
  | cons x d ih =>
    cases h with
    | cons h hs =>
      cases h with
      | some h =>
        obtain ⟨c, rfl, h2⟩ := ih hs
        exact ⟨_ :: c, rfl, .cons h h2⟩

theorem leaves_rel {ε ζ : Type} {S : ε → ζ → Prop} {w : Work ε} {w' : Work ζ} (h : WorkRel S w w') {c : List ε} {c' d' : List ζ}
    (hc : List.Forall₂ S c c') (hl : w'.Leaves c' d') : ∃ d, w.Leaves c d ∧ List.Forall₂ S d d' := by
  cases h with
  | done h => cases hl; exact ⟨_, rfl, h⟩
  | threads h =>
    obtain ⟨d, k1, k2, k3⟩ := computes_rel h hc hl.1 hl.2
    exact ⟨d, ⟨k1, k2⟩, k3⟩

/-- `vecdot_from` for operations that obey no laws: what the cells of `c` held before does not matter, and no other cell
of its storage changes. Missing: what `C43_vecdot_from_partial` leaves out. -/
theorem C101_vecdot_from_partial (O : DotOps α β γ) (dflt dev : Order) (par : Option (Bool × Scheduler)) (hp : DotDevice par)
    (c : Tensor γ) (a : Tensor α) (b : Tensor β) (hc : c.WF) (ha : a.WF) (hb : b.WF) (za : 0 ∉ a.arr.shape)
    (zb : 0 ∉ b.arr.shape) (hu : c.Unshared) (axes : AxesPair) (SA SB : List Nat)
    (hax : DotAxes a.arr.shape.length b.arr.shape.length axes SA SB)
    (hk : takeAxes SA a.arr.shape = takeAxes SB b.arr.shape)
    (hbc : BroadcastOf dev (takeAxes (otherAxes a.arr.shape.length SA) a.arr.shape)
      (takeAxes (otherAxes b.arr.shape.length SB) b.arr.shape) c.arr.shape) :
    ∃ w d, c.vecdotFrom dflt dev par O a b axes = .ok w ∧ w.Leaves (c.data.map some) (d.map some) ∧
      (⟨d, c.layout⟩ : Tensor γ).WF ∧ VecdotBy dev (DotBracket O) a.arr SA b.arr SB (⟨d, c.layout⟩ : Tensor γ).arr ∧
      ChangedOnly (Addressed c.layout.stride c.layout.offset c.layout.shape) c.data d := by
  let c' : Tensor (Multiset (γ ⊕ (α × β))) := ⟨c.data.map fun v => {.inl v}, c.layout⟩
  have hd : List.Forall₂ (CellMade O) c.data c'.data := by
    show List.Forall₂ _ _ (c.data.map _)
    rw [List.forall₂_map_right_iff]
    exact List.forall₂_same.2 fun v _ => .inr (.inl rfl)
  have hc' : c'.WF := tensorRel_wf (O := fun m v => CellMade O v m) ⟨hd.flip, rfl⟩ hc
  obtain ⟨w', d', h1, h2, h3, ⟨h4, h5⟩, h6⟩ := C43_vecdot_from_partial (fun x y => ({.inr (x, y)} : Multiset (γ ⊕ (α × β)))) dflt dev par hp c'
    a b hc' ha hb za zb hu axes SA SB hax hk hbc
  have hrel := vecdotFrom_rel (dotRel_cells O) dflt dev par (c := c) (d := c') ⟨hd, rfl⟩ a b axes
  rw [h1] at hrel
  generalize hx : c.vecdotFrom dflt dev par O a b axes = x at hrel
  cases hrel with
  | @ok w _ hrel =>
    obtain ⟨e, k1, k2⟩ := leaves_rel hrel (c := c.data.map some) (c' := c'.data.map some) (by
      rw [List.forall₂_map_left_iff, List.forall₂_map_right_iff]
      exact hd.imp fun _ _ h => .some h) h2
    obtain ⟨d, rfl, k3⟩ := forall2_somes k2
    have hr : TensorRel (CellMade O) (⟨d, c.layout⟩ : Tensor γ) ⟨d', c'.layout⟩ := ⟨k3, rfl⟩
    refine ⟨w, d, rfl, k1, tensorRel_wf hr h3, ⟨h4, fun j hj => ?_⟩, ?_⟩
    · obtain ⟨x, y, g1, g2⟩ := h5 j hj
      obtain ⟨v, g3, g4⟩ := tensorRel_elem hr g2
      refine ⟨x, y, v, g1, g3, (putTogether_iff O.reducer v _).1 ?_⟩
      rw [sum_singletons fun i => Sum.inr (x i, y i)] at g4
      have e : ∀ l : List (List Nat), ((l.map fun i => (Sum.inr (x i, y i) : γ ⊕ (α × β)) : List (γ ⊕ (α × β))) : Multiset (γ ⊕ (α × β))) =
          ((l.map fun i => (x i, y i) : List (α × β)) : Multiset (α × β)).map Sum.inr := by
        intro l
        rw [Multiset.map_coe, List.map_map]
        rfl
      rw [e] at g4
      rcases g4 with ⟨m0, q1, q2⟩ | q | ⟨w, q, -⟩
      · rwa [Multiset.map_injective Sum.inr_injective q1]
      · exact absurd (q ▸ Multiset.mem_singleton_self (Sum.inl v)) (by simp)
      · exact absurd q (by simp)
    · have hl : d.length = c.data.length := by
        rw [k3.length_eq, h6.1]
        simp [c']
      refine ⟨hl, fun k hk => ?_⟩
      have hk' : d'[k]? = (c.data[k]?).map fun v => {Sum.inl v} := by
        rw [h6.2 k hk]
        simp [c']
      cases hv : c.data[k]? with
      | none => exact List.getElem?_eq_none (by rw [hl]; exact List.getElem?_eq_none_iff.1 hv)
      | some v =>
        rw [hv] at hk'
        obtain ⟨u, q1, q2⟩ := forall2_get k3.flip hk'
        rw [q1]
        rcases q2 with ⟨m0, q3, -⟩ | q3 | ⟨w, -, q3⟩
        · have : Sum.inl v ∈ m0.map (Sum.inr : α × β → γ ⊕ (α × β)) := q3 ▸ Multiset.mem_singleton_self _
          simp at this
        · simpa using (Multiset.singleton_inj.1 q3).symm
        · simp at q3

/-! ## Floats -/

section
variable {p e : Nat} (hp : 1 ≤ p) (hpe : p ≤ e) {add mul : Flt → Flt → Flt} (A : NearestAdd p e add) (M : NearestMul p e mul)

/-- The operations of `vecdot` on floats, for which `conj` does nothing. -/
def floatDot (add mul : Flt → Flt → Flt) : DotOps Flt Flt Flt := ⟨.num 0, add, mul⟩

include hp hpe A M in
theorem dotBracket_within {ps : List (Flt × Flt)} {v : Flt} (h : DotBracket (floatDot add mul) ps v) (hr : DotInRange p e ps) :
    DotWithin p e ps v := by
  obtain ⟨hf, hT⟩ := hr
  obtain ⟨r1, r2⟩ := range_facts hT
  have hm : ∀ q ∈ ps, (mul q.1 q.2).Finite p e ∧
      |(mul q.1 q.2).val - q.1.val * q.2.val| ≤ |q.1.val * q.2.val| * (1 / 2 ^ p) + halfTiny p e :=
    fun q hq => mul_err hp hpe M (hf q hq).1 (hf q hq).2 (r1 q hq)
  have hb := terms_bound (g := fun q => mul q.1 q.2) fun q hq => (hm q hq).2
  obtain ⟨b, hp1, rfl⟩ := bracketOf_pairs h
  have e1 := hp1.length_eq
  have e2 := (hp1.map Flt.val).sum_eq
  have e3 := (hp1.map fun x => |x.val|).sum_eq
  have ha := bracket_approx hp hpe A r2 b
    (by intro x hx; obtain ⟨q, hq, rfl⟩ := List.mem_map.1 (hp1.mem_iff.1 hx); exact (hm q hq).1)
    (by rw [e1]; simp) (e3.le.trans hb.2)
  rw [e1, e2, e3] at ha
  exact ⟨ha.fin, dot_within (fun q hq => (hm q hq).2) ha⟩

include hp hpe A M in
theorem dotBracket_whole {ps : List (Flt × Flt)} {v : Flt} (h : DotBracket (floatDot add mul) ps v) (hw : WholeDot p e ps) :
    v.Finite p e ∧ v.val = (ps.map fun q => q.1.val * q.2.val).sum := by
  obtain ⟨z, hz, hs⟩ := hw
  have hm : ∀ q ∈ ps, (mul q.1 q.2).Finite p e ∧ (mul q.1 q.2).val = ((z q.1 * z q.2 : Int) : ℚ) := fun q hq =>
    mul_whole hp hpe M (hz q hq).1 (hz q hq).2 (le_trans (List.single_le_sum
      (by rintro _ h; obtain ⟨q, -, rfl⟩ := List.mem_map.1 h; exact abs_nonneg _) _ (List.mem_map.2 ⟨q, hq, rfl⟩)) hs)
  obtain ⟨k1, k2⟩ := bracketOf_exact hp hpe A (bracketOf_pairs h) ⟨fun x => x.val.num, by
      intro x hx
      obtain ⟨q, hq, rfl⟩ := List.mem_map.1 hx
      refine ⟨(hm q hq).1, ?_⟩
      show (mul q.1 q.2).val = (((mul q.1 q.2).val.num : Int) : ℚ)
      rw [val_num (hm q hq).2]
      exact (hm q hq).2, by
      rw [List.map_map]
      refine le_trans (le_of_eq ?_) hs
      congr 1
      refine List.map_congr_left fun q hq => ?_
      show |(mul q.1 q.2).val.num| = _
      rw [val_num (hm q hq).2]⟩
  refine ⟨k1, k2.trans ?_⟩
  rw [List.map_map]
  congr 1
  refine List.map_congr_left fun q hq => ?_
  show (mul q.1 q.2).val = _
  rw [(hm q hq).2, (hz q hq).1.2, (hz q hq).2.2]
  push_cast
  rfl

include A M in
theorem dotBracket_nan {ps : List (Flt × Flt)} {v : Flt} (h : DotBracket (floatDot add mul) ps v)
    (hn : ∃ q ∈ ps, q.1.IsNaN ∨ q.2.IsNaN) : v.IsNaN := by
  obtain ⟨q, hq, hn⟩ := hn
  exact bracketOf_nan A (bracketOf_pairs h) ⟨_, List.mem_map.2 ⟨q, hq, rfl⟩, M.nan _ _ hn⟩

theorem vecdotBy_mono {o : Order} {P Q : List (α × β) → γ → Prop} {A : Arr α} {SA : List Nat} {B : Arr β} {SB : List Nat} {R : Arr γ}
    (h : VecdotBy o P A SA B SB R) (hPQ : ∀ ps v, P ps v → Q ps v) : VecdotBy o Q A SA B SB R :=
  ⟨h.1, fun j hj =>
    let ⟨x, y, r, g1, g2, g3⟩ := h.2 j hj
    ⟨x, y, r, g1, g2, hPQ _ _ g3⟩⟩

include hp hpe A M in
/-- `vecdot` of floats, for every addition and multiplication that round to a nearest float. Missing: what
`C43_vecdot_partial` leaves out. -/
theorem C101_float_vecdot_partial (dflt dev : Order) (par : Option (Bool × Scheduler)) (hd : DotDevice par)
    (a b : Tensor Flt) (ha : a.WF) (hb : b.WF) (za : 0 ∉ a.arr.shape) (zb : 0 ∉ b.arr.shape)
    (hu : par ≠ none → a.Unshared ∧ b.Unshared) (axes : AxesPair) (SA SB : List Nat)
    (hax : DotAxes a.arr.shape.length b.arr.shape.length axes SA SB)
    (hk : takeAxes SA a.arr.shape = takeAxes SB b.arr.shape)
    (hc : Compatible dev (takeAxes (otherAxes a.arr.shape.length SA) a.arr.shape)
      (takeAxes (otherAxes b.arr.shape.length SB) b.arr.shape)) :
    ∃ r, Delivers (a.vecdot dflt dev par (floatDot add mul) b axes) r ∧ r.WF ∧
      VecdotBy dev (fun ps v => (DotInRange p e ps → DotWithin p e ps v) ∧
        (WholeDot p e ps → v.Finite p e ∧ v.val = (ps.map fun q => q.1.val * q.2.val).sum) ∧
        ((∃ q ∈ ps, q.1.IsNaN ∨ q.2.IsNaN) → v.IsNaN)) a.arr SA b.arr SB r.arr := by
  obtain ⟨r, h1, h2, h3⟩ := C101_vecdot_partial (floatDot add mul) dflt dev par hd a b ha hb za zb hu axes SA SB hax hk hc
  exact ⟨r, h1, h2, vecdotBy_mono h3 fun ps v h =>
    ⟨dotBracket_within hp hpe A M h, dotBracket_whole hp hpe A M h, dotBracket_nan A M h⟩⟩

end

/-! ## Cases -/

/-- Two rows of singles, the second of which holds not-a-number. -/
def rowsF : Tensor Flt := ⟨[.num 1, .num 2, .num 3, .nan false], ⟨[⟨2, 2⟩, ⟨2, 1⟩], 0⟩⟩

example (par : Option (Bool × Scheduler)) (hd : DotDevice par) := C101_float_vecdot_partial (by decide) (by decide)
  (C100_add_nearest (p := 24) (e := 128) (by decide) (by decide)) (C101_mul_nearest (by decide) (by decide)) .C .C par hd
  rowsF rowsF ⟨by decide, rfl⟩ ⟨by decide, rfl⟩ (by decide) (by decide)
  (fun _ => ⟨unshared_of ⟨by decide, rfl⟩ (by decide), unshared_of ⟨by decide, rfl⟩ (by decide)⟩) .none [1] [1] ⟨by decide, by decide, rfl, rfl⟩
  rfl (compatible_of (s := [2]) ⟨rfl, by decide⟩)

example : (rowsF.vecdot .C .C none (floatDot (fltAdd 24 128) (fltMul 24 128)) rowsF .none).toOption.map
    (fun r => match r with | .done r => r.data | .threads _ _ _ => []) = some [.num 5, .nan false] := by decide +kernel

example (par : Option (Bool × Scheduler)) (hd : DotDevice par) := C101_vecdot_from_partial (floatDot (fltAdd 24 128) (fltMul 24 128)) .C .C par hd
  ⟨[.nan true, .num 7], ⟨[⟨2, 1⟩], 0⟩⟩ rowsF rowsF ⟨by decide, rfl⟩ ⟨by decide, rfl⟩ ⟨by decide, rfl⟩ (by decide) (by decide)
  (unshared_of ⟨by decide, rfl⟩ (by decide)) .none [1] [1] ⟨by decide, by decide, rfl, rfl⟩ rfl ⟨rfl, by decide⟩

end Rstsr
