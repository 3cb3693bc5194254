import Verif.Spec.Utility
import Verif.Model.Utility
import Verif.Thm.Creation
import Verif.Thm.Matmul
import Verif.Thm.Copy
import Verif.Thm.Reduce
import Verif.Thm.Iter
/-!
# C105: `fingerprint` and `allclose_f64` depend on elements alone
-/
namespace Rstsr
open Spec

section
variable {α : Type}

theorem inOrder_get {t : Tensor α} (h : t.WF) (o : Order) :
    (t.arr.inOrder o).length = t.arr.shape.prod ∧
    ∀ idx, InRange idx t.arr.shape → (t.arr.inOrder o)[rank o t.arr.shape idx]? = t.arr.elem idx := by
  have hs : ∀ i ∈ all o t.arr.shape, (t.arr.elem i).isSome := by
    intro i hi
    obtain ⟨x, hx⟩ := h.full i (mem_all.1 hi)
    rw [hx]; rfl
  constructor
  · unfold Arr.inOrder
    rw [List.length_filterMap_eq_countP, List.countP_eq_length.2 hs, length_all]
  · intro idx hi
    unfold Arr.inOrder
    rw [filterMap_getElem? hs]
    have : (all o t.arr.shape)[rank o t.arr.shape idx]? = some idx := by
      have hlt : rank o t.arr.shape idx < (all o t.arr.shape).length := by rw [length_all]; exact rank_lt hi
      rw [List.getElem?_eq_getElem hlt]
      congr 1
      have hm := mem_all.1 (List.getElem_mem hlt)
      exact (rank_inj hi hm (rank_all_getElem hlt).symm).symm
    rw [this]; rfl

theorem rank_vec (o : Order) (n k : Nat) : rank o [n] [k] = k := by
  cases o <;> simp [rank, rankC, rankF]

theorem inRange_vec {n k : Nat} (h : k < n) : InRange [k] [n] := by
  rw [inRange_cons]; exact ⟨h, by simp⟩

theorem settled_vec {t : Tensor α} (h : t.WF) {n : Nat} (hs : t.arr.shape = [n]) : t.Settled := by
  intro h0 idx hi
  have hs : t.layout.shape = [n] := hs
  have h0 : 0 ∈ t.layout.shape := h0
  rw [hs] at hi h0
  have : n = 0 := by simp at h0; exact h0.symm
  subst this
  obtain ⟨i, rfl⟩ : ∃ i, idx = [i] := by
    have := hi.length_eq
    match idx, this with
    | [i], _ => exact ⟨i, rfl⟩
  have : i = 0 := by
    have := (inRange_cons.1 hi).1
    simp at this
    exact this
  subst this
  rw [addr_eq]
  have := h.1
  match t.layout.axes with
  | [] => simpa [dot] using this
  | x :: xs => simpa [dot] using this

theorem flatten (o : Order) (t : Tensor α) (h : t.WF) :
    ∃ v, Tensor.changeShape t [-1] o none = .ok v ∧ v.WF ∧ v.arr.shape = [t.arr.shape.prod] ∧ t.arr.SameSequence o v.arr := by
  have e : substituteNegatives [-1] t.layout.size = substituteNegatives ([t.arr.shape.prod].map Int.ofNat) t.layout.size := by
    rw [subst_self, show [(-1 : Int)] = [] ++ -1 :: [] from rfl, (C20_infer [] [] t.layout.size [t.arr.shape.prod] (by simp) (by simp) (by simp)).2 ⟨by simp, by simp [Layout.size]; rfl⟩]
  obtain ⟨v, h1, h2⟩ := C21_reshape t h [t.arr.shape.prod] o none (by simp) (by simp)
  refine ⟨v, ?_, h2⟩
  rw [← h1]
  unfold Tensor.changeShape
  rw [e]

theorem fingerprintOf_eq {K : Type} [Semiring K] (cos : K → K) (xs : List K) (x : Nat → K) (h : ∀ k < xs.length, xs[k]? = some (x k)) :
    fingerprintOf cos xs = ((List.range xs.length).map fun k => x k * cos (k : K)).sum := by
  unfold fingerprintOf
  congr 1
  apply List.ext_getElem?
  intro k
  by_cases hk : k < xs.length
  · rw [List.getElem?_map, List.getElem?_map, List.getElem?_zipIdx, h k hk, List.getElem?_range hk]
    simp
  · rw [List.getElem?_eq_none (by simpa using hk), List.getElem?_eq_none (by simpa using hk)]

theorem positions_rev (l : Layout) : positions .F l.reverseAxes = positions .C l := by
  unfold positions
  show (allF _).map _ = (allC _).map _
  rw [rev_shape, show allC l.shape = _ from (allF_reverse (s := l.shape)).symm, List.map_map]
  refine List.map_congr_left fun i hi => ?_
  have hl : i.length = l.shape.reverse.length := (mem_all (o := .F) |>.1 hi).length_eq
  exact congrArg Int.toNat (rev_addr (l := l) (idx := i) (by simpa [Layout.ndim, Layout.shape] using hl))

theorem closeLoop_eq (close : α → α → Bool) (a b : List α) (ps : List (Nat × Nat)) (xs ys : List α)
    (hx : ps.map (fun p => a[p.1]?) = xs.map some) (hy : ps.map (fun p => b[p.2]?) = ys.map some) :
    closeLoop close a b ps = .ok ((xs.zip ys).all fun p => close p.1 p.2) := by
  induction ps generalizing xs ys with
  | nil =>
    cases xs with
    | nil => rfl
    | cons x xs => simp at hx
  | cons p ps ih =>
    cases xs with
    | nil => simp at hx
    | cons x xs =>
    cases ys with
    | nil => simp at hy
    | cons y ys =>
      simp only [List.map_cons, List.cons.injEq] at hx hy
      simp only [closeLoop, readAt, hx.1, hy.1, ok_bind]
      rw [ih xs ys hx.2 hy.2]
      cases hc : close x y <;> simp [hc]

theorem positions_read (t : Tensor α) (h : t.WF) : (positions .C t.layout).map (fun i => t.data[i]?) = (t.arr.inOrder .C).map some := by
  unfold positions Arr.inOrder
  rw [List.map_map]
  have : ∀ l : List (List Nat), (∀ i ∈ l, InRange i t.layout.shape) →
      l.map ((fun i => t.data[i]?) ∘ fun idx => (position t.layout.stride t.layout.offset idx).toNat) = (l.filterMap t.arr.elem).map some := by
    intro l hl
    induction l with
    | nil => rfl
    | cons i l ih =>
      obtain ⟨x, h1, h2⟩ := h.get (hl i List.mem_cons_self)
      rw [List.map_cons, ih fun j hj => hl j (List.mem_cons_of_mem _ hj), List.filterMap_cons, h2]
      simp only [List.map_cons, Function.comp]
      congr 1
  exact this _ fun i hi => mem_all.1 hi

theorem leftIs {x : Res (Tensor α × Work α)} {v : List α}
    (h : (match x with | .ok (_, .done w) => some w | _ => none) = some v) : x.map (·.2) = .ok (.done v) := by
  match x, h with
  | .ok (_, .done w), h => cases h; rfl

end

/-- The fingerprint of every tensor – any shape, strides and offset, serial and every schedule, whatever fresh memory
holds – is the sum of `x k * cos k` over its elements in the order of the device. -/
theorem C105_fingerprint_partial {K : Type} [Field K] [CharZero K] (cos : K → K) (dev : Order) (par : Option MatPar)
    (hp : MatDevice par) (fresh : Nat → K) (a : Tensor K) (ha : a.WF) :
    ∃ c w d, a.fingerprintWork cos dev par fresh = .ok (c, w) ∧ w.Leaves c.data d ∧
      Tensor.toScalar (⟨d, c.layout⟩ : Tensor K) = .ok (fingerprintOf cos (a.arr.inOrder dev)) := by
  obtain ⟨c, e1, wc, sc, -⟩ := C35_to_contig dev a ha .C
  obtain ⟨v, e2, wv, sv, qv⟩ := flatten dev c wc
  have hsz : c.arr.shape.prod = a.layout.size := by rw [sc.1]; rfl
  obtain ⟨-, wr, xs, lr, hl, hx⟩ := C50_linspace (0 : K) (a.layout.size : K) a.layout.size false
  obtain ⟨r, e3, wr', mr⟩ := C36_map dev _ cos wr
  have sr : r.arr.shape = [a.layout.size] := by rw [mr.1, lr.1, hl]
  rw [hsz] at sv
  have S : MatShapes dev v.arr.shape r.arr.shape [] [] [] [] [] [] a.layout.size :=
    ⟨by rw [sv]; cases dev <;> rfl, by rw [sr]; cases dev <;> rfl, by cases dev <;> rfl, by simp, by simp, by simp, by simp, ⟨rfl, by simp⟩⟩
  obtain ⟨o, w, d, e4, e5, e6, e7, e8, e9⟩ := C42_matmul_partial (γ := K) (· * ·) (· * ·) (fun x y => mul_comm y x) dev par hp fresh v r wv wr'
    [] [] [] [] [] [] a.layout.size S (by simp) (settled_vec wv sv) (settled_vec wr' sr) 1
  refine ⟨o, w, d, ?_, e5, ?_⟩
  · unfold Tensor.fingerprintWork
    rw [e1, ok_bind, e2, ok_bind, e3, ok_bind]
    exact e4
  · obtain ⟨s, ⟨x, y, h1, h2⟩, h3⟩ := e9 [] [] [] (by simp) (by simp) (by simp)
    obtain ⟨z, g1, -, g3⟩ := C56_to_scalar _ e6 (by rw [e8]; rfl)
    have g4 := g3 [] (by rw [e8]; simp)
    have hg : glue dev ([] : List Nat) ([] ++ []) = [] := by cases dev <;> rfl
    rw [hg, g4] at h3
    rw [g1]
    cases h3
    rw [one_mul, h2]
    obtain ⟨l1, l2⟩ := inOrder_get ha dev
    have hlen : (a.arr.inOrder dev).length = a.layout.size := l1
    rw [fingerprintOf_eq cos _ x, hlen]
    · congr 2
      refine List.map_congr_left fun k hk => ?_
      have hk : k < a.layout.size := by simpa using hk
      have := (h1 k hk).2
      obtain ⟨u, m1, m2⟩ := mr.2 [k] (by rw [lr.1, hl]; exact inRange_vec hk)
      have hg2 : glue dev (stretchIndex dev ([] : List Nat) []) [k] = [k] := by cases dev <;> rfl
      simp only [hg2, m2] at this
      rw [← Option.some.inj this]
      rw [lr.2 k (by rw [hl]; exact hk), hx k hk] at m1
      cases m1
      have hn : (a.layout.size : K) ≠ 0 := by
        have : a.layout.size ≠ 0 := by omega
        exact_mod_cast this
      simp [div_self hn]
    · intro k hk
      rw [hlen] at hk
      obtain ⟨i, hi, hr⟩ := exists_rank (o := dev) (shape := a.arr.shape) (k := k) hk
      have := (h1 k hk).1
      have hg2 : glue dev (stretchIndex dev ([] : List Nat) []) ([] ++ [k]) = [k] := by cases dev <;> rfl
      simp only [hg2] at this
      obtain ⟨q, q1, q2⟩ := qv.2 i [k] (by rw [sc.1]; exact hi) (by rw [sv]; exact inRange_vec hk) (by rw [sc.1, hr, sv, rank_vec])
      rw [this] at q2
      cases q2
      rw [show (a.arr.inOrder dev)[k]? = a.arr.elem i from hr ▸ l2 i hi]
      obtain ⟨p, p1, p2⟩ := sc.2 i hi
      rw [p2] at q1
      cases q1
      exact p1

/-- Two tensors with the same elements have the same fingerprint, whatever their strides and offsets. -/
theorem C105_layout_independent {K : Type} [Field K] [CharZero K] (cos : K → K) (dev : Order) (par : Option MatPar)
    (hp : MatDevice par) (fresh : Nat → K) (a b : Tensor K) (ha : a.WF) (hb : b.WF) (h : a.arr.Same b.arr) :
    ∃ c w d c' w' d' s, a.fingerprintWork cos dev par fresh = .ok (c, w) ∧ w.Leaves c.data d ∧
      b.fingerprintWork cos dev par fresh = .ok (c', w') ∧ w'.Leaves c'.data d' ∧
      Tensor.toScalar (⟨d, c.layout⟩ : Tensor K) = .ok s ∧ Tensor.toScalar (⟨d', c'.layout⟩ : Tensor K) = .ok s := by
  obtain ⟨c, w, d, h1, h2, h3⟩ := C105_fingerprint_partial cos dev par hp fresh a ha
  obtain ⟨c', w', d', g1, g2, g3⟩ := C105_fingerprint_partial cos dev par hp fresh b hb
  refine ⟨c, w, d, c', w', d', _, h1, h2, g1, g2, h3, ?_⟩
  rw [g3]
  congr 2
  unfold Arr.inOrder
  rw [h.1]
  refine List.filterMap_congr fun i hi => ?_
  obtain ⟨x, e1, e2⟩ := h.2 i (mem_all.1 hi)
  rw [e1, e2]

/-- On a column-major device the fingerprint is not the row-major one: the tensor is copied to row-major storage and then
flattened column by column. -/
theorem C105_false_order :
    let a : Tensor Rat := ⟨[1, 2, 3, 4], Layout.newCContig [2, 2] 0⟩
    (a.fingerprintWork id .F none fun _ => 0).map (·.2) = .ok (.done [19]) ∧
      fingerprintOf id (a.arr.inOrder .C) = 20 := by
  exact ⟨leftIs (by decide +kernel), by decide +kernel⟩

/-- `allclose_f64` is true if and only if there are equally many elements and all pairs of elements at the same place of
the two row-major sequences are close. Strides and offsets have no influence, and shapes are not compared. -/
theorem C105_allclose {α : Type} (close : α → α → Bool) (a b : Tensor α) (ha : a.WF) (hb : b.WF) :
    ∃ r, a.allcloseSeq close b = .ok r ∧ (r = true ↔ (a.arr.inOrder .C).length = (b.arr.inOrder .C).length ∧
      ∀ (k : Nat) (x y : α), (a.arr.inOrder .C)[k]? = some x → (b.arr.inOrder .C)[k]? = some y → close x y = true) := by
  have la := (inOrder_get ha .C).1
  have lb := (inOrder_get hb .C).1
  have sa : a.layout.reverseAxes.size = (a.arr.inOrder .C).length := by
    rw [la, Layout.size, rev_shape]; simp; rfl
  have sb : b.layout.reverseAxes.size = (b.arr.inOrder .C).length := by
    rw [lb, Layout.size, rev_shape]; simp; rfl
  unfold Tensor.allcloseSeq
  simp only [sa, sb]
  by_cases hs : (a.arr.inOrder .C).length = (b.arr.inOrder .C).length
  · have nn : ∀ t : Tensor α, t.WF → NonNegative t.layout.reverseAxes := by
      intro t ht idx hi
      rw [rev_shape] at hi
      have hl : idx.length = t.layout.ndim := by
        have := hi.length_eq
        simpa [Layout.shape, Layout.ndim] using this
      have : t.layout.reverseAxes.addr idx = _ := rev_addr hl
      show 0 ≤ t.layout.reverseAxes.addr idx
      rw [this]
      exact ht.fit.nonneg _ (by simpa using hi.reverse)
    obtain ⟨ia, x1, x2, -⟩ := C22_iteration .F _ (nn a ha)
    obtain ⟨ib, y1, y2, -⟩ := C22_iteration .F _ (nn b hb)
    rw [if_neg (by simpa using hs), x1, y1, ok_bind, ok_bind, x2, y2, ok_bind, ok_bind, positions_rev, positions_rev]
    have pl : (positions .C a.layout).length = (positions .C b.layout).length := by
      have h1 := congrArg List.length (positions_read a ha)
      have h2 := congrArg List.length (positions_read b hb)
      simp only [List.length_map] at h1 h2
      omega
    refine ⟨_, closeLoop_eq close a.data b.data _ (a.arr.inOrder .C) (b.arr.inOrder .C) ?_ ?_, ?_⟩
    · rw [← positions_read a ha, show (fun p : Nat × Nat => a.data[p.1]?) = (fun i : Nat => a.data[i]?) ∘ Prod.fst from rfl, ← List.map_map, List.map_fst_zip (by omega)]
    · rw [← positions_read b hb, show (fun p : Nat × Nat => b.data[p.2]?) = (fun i : Nat => b.data[i]?) ∘ Prod.snd from rfl, ← List.map_map, List.map_snd_zip (by omega)]
    · rw [List.all_eq_true]
      constructor
      · intro h
        refine ⟨hs, fun k x y e1 e2 => h (x, y) (List.mem_of_getElem? (i := k) ?_)⟩
        rw [List.getElem?_zip_eq_some]
        exact ⟨e1, e2⟩
      · rintro ⟨-, h⟩ p hp
        obtain ⟨k, hk⟩ := List.mem_iff_getElem?.1 hp
        rw [List.getElem?_zip_eq_some] at hk
        exact h k _ _ hk.1 hk.2
  · rw [if_pos (by simpa using hs)]
    exact ⟨false, rfl, by simp [hs]⟩

/-! ## Concrete cases -/

-- a row-major and a column-major matrix with the same elements
example : let a : Tensor Rat := ⟨[1, 2, 3, 4, 5, 6], Layout.newCContig [2, 3] 0⟩
    let b : Tensor Rat := ⟨[9, 1, 4, 2, 5, 3, 6], ⟨[⟨2, 1⟩, ⟨3, 2⟩], 1⟩⟩
    a.WF ∧ b.WF ∧ (a.fingerprintWork id .C none fun _ => 7).map (·.2) = .ok (.done [70]) ∧
      (b.fingerprintWork id .C none fun _ => 7).map (·.2) = .ok (.done [70]) ∧ a.allcloseSeq (fun x y => decide (x = y)) b = .ok true := by
  refine ⟨⟨by decide, rfl⟩, ⟨by decide, rfl⟩, leftIs (by decide +kernel), leftIs (by decide +kernel), by decide +kernel⟩

-- different shapes, same sequence; one element differs
example : (⟨[1, 2, 3, 4], Layout.newCContig [2, 2] 0⟩ : Tensor Nat).allcloseSeq (fun x y => decide (x = y)) ⟨[1, 2, 3, 4], Layout.newCContig [4] 0⟩ = .ok true ∧
    (⟨[1, 2, 3, 4], Layout.newCContig [2, 2] 0⟩ : Tensor Nat).allcloseSeq (fun x y => decide (x = y)) ⟨[1, 2, 3, 5], Layout.newCContig [4] 0⟩ = .ok false := by
  decide +kernel

end Rstsr
