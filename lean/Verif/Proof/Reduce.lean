import Verif.Proof.Parallel
import Verif.Model.Reduce
import Verif.Spec.Reduce
import Verif.Proof.BroadcastSame
/-!
# Reductions as folds of a commutative monoid
-/
namespace Rstsr
open Spec

section
variable {α β σ ω ι κ : Type}

/-- The combination of a list of partial results. -/
def total (init : σ) (c : σ → σ → σ) : List σ → σ
  | [] => init
  | x :: xs => c x (total init c xs)

section monoid
variable {init : σ} {f : σ → α → σ} {c : σ → σ → σ} (M : Monoidal init f c)
include M

theorem Monoidal.unit' (x : σ) : c x init = x := by rw [M.comm, M.unit]

theorem Monoidal.left_comm (x y z : σ) : c x (c y z) = c y (c x z) := by
  rw [← M.assoc, M.comm x y, M.assoc]

theorem total_append (xs ys : List σ) : total init c (xs ++ ys) = c (total init c xs) (total init c ys) := by
  induction xs with
  | nil => exact (M.unit _).symm
  | cons x xs ih => simp only [List.cons_append, total, ih, M.assoc]

theorem total_perm {xs ys : List σ} (h : xs.Perm ys) : total init c xs = total init c ys := by
  induction h with
  | nil => rfl
  | cons x _ ih => simp only [total, ih]
  | swap x y l => simp only [total]; exact Monoidal.left_comm M _ _ _
  | trans _ _ h1 h2 => exact h1.trans h2

theorem total_flatMap (g : ι → List σ) (xs : List ι) :
    total init c (xs.flatMap g) = total init c (xs.map fun x => total init c (g x)) := by
  induction xs with
  | nil => rfl
  | cons x xs ih => simp only [List.flatMap_cons, List.map_cons, total, total_append M, ih]

theorem foldl_total (acc : σ) (xs : List α) : xs.foldl f acc = c acc (total init c (xs.map (f init))) := by
  induction xs generalizing acc with
  | nil => exact (Monoidal.unit' M acc).symm
  | cons x xs ih => simp only [List.foldl_cons, List.map_cons, total, ih, M.step acc x, M.assoc]

theorem foldl_init (xs : List α) : xs.foldl f init = total init c (xs.map (f init)) := by
  rw [foldl_total M, M.unit]

theorem foldl_perm {xs ys : List α} (h : xs.Perm ys) : xs.foldl f init = ys.foldl f init := by
  rw [foldl_init M, foldl_init M, total_perm M (h.map _)]

/-- A fold whose every step combines with a value of the item. -/
theorem foldRes_total {op : σ → ι → Res σ} {w : ι → σ} {xs : List ι} (h : ∀ x ∈ xs, ∀ acc, op acc x = .ok (c acc (w x)))
    (acc : σ) : foldRes op acc xs = .ok (c acc (total init c (xs.map w))) := by
  induction xs generalizing acc with
  | nil => simp [foldRes, total, Monoidal.unit' M]
  | cons x xs ih =>
    rw [foldRes, h x (by simp)]
    simp only [ok_bind, List.map_cons, total]
    rw [ih (fun y hy => h y (by simp [hy])), M.assoc]

theorem foldRes_init {op : σ → ι → Res σ} {w : ι → σ} {xs : List ι} (h : ∀ x ∈ xs, ∀ acc, op acc x = .ok (c acc (w x))) :
    foldRes op init xs = .ok (total init c (xs.map w)) := by
  rw [foldRes_total M h, M.unit]

theorem parFold_total {op : σ → ι → Res σ} {w : ι → σ} (plan : Plan) {xs : List ι}
    (h : ∀ x ∈ xs, ∀ acc, op acc x = .ok (c acc (w x))) :
    parFold init c op plan xs = .ok (total init c (xs.map w)) := by
  induction plan generalizing xs with
  | run => rw [parFold, foldRes_init M h]; simp only [ok_bind, M.unit]; rfl
  | split k p q ihp ihq =>
    rw [parFold, ihp fun x hx => h x (List.mem_of_mem_take hx), ihq fun x hx => h x (List.mem_of_mem_drop hx)]
    simp only [ok_bind]
    rw [← total_append M, ← List.map_append, List.take_append_drop]
    rfl

end monoid

/-! ## The unrolled loops -/

theorem unroll8_spec {init : σ} {f : σ → α → σ} {c : σ → σ → σ} (M : Monoidal init f c) (xs : List α) (p : Acc8 σ) :
    (unroll8 f p xs).2.length < 8 ∧
    c (join8 init c (unroll8 f p xs).1) (total init c ((unroll8 f p xs).2.map (f init))) =
      c (join8 init c p) (total init c (xs.map (f init))) := by
  induction p, xs using unroll8.induct (f := f) with
  | case1 p x0 x1 x2 x3 x4 x5 x6 x7 xs ih =>
    rw [unroll8]
    refine ⟨ih.1, ih.2.trans ?_⟩
    simp only [join8, List.map_cons, total, M.unit, M.step p.p0, M.step p.p1, M.step p.p2, M.step p.p3, M.step p.p4,
      M.step p.p5, M.step p.p6, M.step p.p7]
    have : Std.Associative c := ⟨M.assoc⟩
    have : Std.Commutative c := ⟨M.comm⟩
    ac_rfl
  | case2 p xs h =>
    rw [unroll8]
    · refine ⟨?_, rfl⟩
      simp only
      match xs, h with
      | [], _ => simp
      | [_], _ => simp
      | [_, _], _ => simp
      | [_, _, _], _ => simp
      | [_, _, _, _], _ => simp
      | [_, _, _, _, _], _ => simp
      | [_, _, _, _, _, _], _ => simp
      | [_, _, _, _, _, _, _], _ => simp
      | x0 :: x1 :: x2 :: x3 :: x4 :: x5 :: x6 :: x7 :: xs, h => exact absurd rfl (h x0 x1 x2 x3 x4 x5 x6 x7 xs)
    · exact h

theorem join8_init {init : σ} {f : σ → α → σ} {c : σ → σ → σ} (M : Monoidal init f c) :
    join8 init c ⟨init, init, init, init, init, init, init, init⟩ = init := by
  simp only [join8, M.unit]

theorem unrolledReduce_eq {R : Reducer α σ ω} (M : Monoidal R.init R.f R.fSum) (xs : List α) :
    unrolledReduce R xs = total R.init R.fSum (xs.map (R.f R.init)) := by
  have h := unroll8_spec M xs ⟨R.init, R.init, R.init, R.init, R.init, R.init, R.init, R.init⟩
  rw [join8_init M, M.unit] at h
  unfold unrolledReduce
  generalize unroll8 R.f _ xs = r at h
  obtain ⟨p, rest⟩ := r
  simp only at h ⊢
  rw [List.take_of_length_le (by omega), foldl_total M, h.2]

theorem eight_of {xs : List α} (h : 8 ≤ xs.length) :
    ∃ x0 x1 x2 x3 x4 x5 x6 x7 r, xs = x0 :: x1 :: x2 :: x3 :: x4 :: x5 :: x6 :: x7 :: r := by
  have key : ∀ {n : Nat} {ys : List α}, n + 1 ≤ ys.length → ∃ y r, ys = y :: r ∧ n ≤ r.length := by
    intro n ys h
    cases ys with
    | nil => simp at h
    | cons y r => exact ⟨y, r, rfl, by simpa using h⟩
  obtain ⟨x0, r1, rfl, h1⟩ := key h
  obtain ⟨x1, r2, rfl, h2⟩ := key h1
  obtain ⟨x2, r3, rfl, h3⟩ := key h2
  obtain ⟨x3, r4, rfl, h4⟩ := key h3
  obtain ⟨x4, r5, rfl, h5⟩ := key h4
  obtain ⟨x5, r6, rfl, h6⟩ := key h5
  obtain ⟨x6, r7, rfl, h7⟩ := key h6
  obtain ⟨x7, r8, rfl, h8⟩ := key h7
  exact ⟨x0, x1, x2, x3, x4, x5, x6, x7, r8, rfl⟩

theorem unroll8Binary_eq (f : σ → α × β → σ) (p : Acc8 σ) (xs : List α) (ys : List β) :
    (unroll8Binary f p xs ys).1 = (unroll8 f p (xs.zip ys)).1 ∧
    (unroll8Binary f p xs ys).2.1.zip (unroll8Binary f p xs ys).2.2 = (unroll8 f p (xs.zip ys)).2 := by
  induction p, xs, ys using unroll8Binary.induct (f := f) with
  | case1 p x0 x1 x2 x3 x4 x5 x6 x7 xs y0 y1 y2 y3 y4 y5 y6 y7 ys ih =>
    rw [unroll8Binary]
    simpa [unroll8] using ih
  | case2 p xs ys h =>
    rw [unroll8Binary]
    · have : unroll8 f p (xs.zip ys) = (p, xs.zip ys) := by
        rw [unroll8]
        intro z0 z1 z2 z3 z4 z5 z6 z7 zs hz
        have hl := congrArg List.length hz
        simp only [List.length_zip, List.length_cons] at hl
        obtain ⟨x0, x1, x2, x3, x4, x5, x6, x7, xs', rfl⟩ := eight_of (xs := xs) (by omega)
        obtain ⟨y0, y1, y2, y3, y4, y5, y6, y7, ys', rfl⟩ := eight_of (xs := ys) (by omega)
        exact h x0 x1 x2 x3 x4 x5 x6 x7 xs' y0 y1 y2 y3 y4 y5 y6 y7 ys' rfl rfl
      rw [this]; exact ⟨rfl, rfl⟩
    · exact h

theorem unrolledBinaryReduce_eq {R : Reducer (α × β) σ ω} (M : Monoidal R.init R.f R.fSum) (xs : List α) (ys : List β) :
    unrolledBinaryReduce R xs ys = total R.init R.fSum ((xs.zip ys).map (R.f R.init)) := by
  rw [← unrolledReduce_eq M]
  unfold unrolledBinaryReduce unrolledReduce
  have := unroll8Binary_eq R.f ⟨R.init, R.init, R.init, R.init, R.init, R.init, R.init, R.init⟩ xs ys
  generalize unroll8Binary R.f _ xs ys = r at this ⊢
  generalize unroll8 R.f _ (xs.zip ys) = r' at this ⊢
  obtain ⟨p, us, vs⟩ := r
  obtain ⟨p', zs⟩ := r'
  simp only at this ⊢
  rw [this.1, this.2]

/-! ## Steps of the folds -/

/-- The partial result of the cell at a position. -/
def cellVal (R : Reducer α σ ω) (a : List α) (i : Nat) : σ := (a[i]?).elim R.init (R.f R.init)

/-- The partial result of the cells at a pair of positions. -/
def cellVal2 (R : Reducer (α × β) σ ω) (a : List α) (b : List β) (p : Nat × Nat) : σ :=
  (a[p.1]?).elim R.init fun x => (b[p.2]?).elim R.init fun y => R.f R.init (x, y)

theorem stepAt_ok {R : Reducer α σ ω} (M : Monoidal R.init R.f R.fSum) {a : List α} {i : Nat} (h : i < a.length)
    (acc : σ) : stepAt R a acc i = .ok (R.fSum acc (cellVal R a i)) := by
  unfold stepAt cellVal
  rw [readAt_ok.2 (List.getElem?_eq_getElem h), List.getElem?_eq_getElem h]
  simp only [ok_bind, Option.elim, M.step acc]
  rfl

theorem stepAt2_ok {R : Reducer (α × β) σ ω} (M : Monoidal R.init R.f R.fSum) {a : List α} {b : List β}
    {p : Nat × Nat} (h : p.1 < a.length) (h' : p.2 < b.length) (acc : σ) :
    stepAt2 R a b acc p = .ok (R.fSum acc (cellVal2 R a b p)) := by
  unfold stepAt2 cellVal2
  rw [readAt_ok.2 (List.getElem?_eq_getElem h), List.getElem?_eq_getElem h]
  simp only [ok_bind]
  rw [readAt_ok.2 (List.getElem?_eq_getElem h'), List.getElem?_eq_getElem h']
  simp only [ok_bind, Option.elim, M.step acc]
  rfl

theorem slice_eq (a : List α) (i n : Nat) (h : i + n ≤ a.length) (g : α → σ) (d : σ) :
    ((a.drop i).take n).map g = (List.range n).map fun t => (a[i + t]?).elim d g := by
  apply List.ext_getElem
  · simp; omega
  · intro k h1 h2
    simp only [List.getElem_map, List.getElem_take, List.getElem_drop, List.getElem_range]
    simp only [List.length_map, List.length_range] at h2
    rw [List.getElem?_eq_getElem (by omega)]
    rfl

theorem stepBlock_ok {R : Reducer α σ ω} (M : Monoidal R.init R.f R.fSum) {a : List α} {i n : Nat}
    (h : i + n ≤ a.length) (acc : σ) :
    stepBlock R a n acc i = .ok (R.fSum acc (total R.init R.fSum ((List.range n).map fun t => cellVal R a (i + t)))) := by
  unfold stepBlock sliceAt
  rw [if_neg (by omega)]
  simp only [ok_bind, unrolledReduce_eq M]
  rw [slice_eq a i n h (R.f R.init) R.init]
  rfl

theorem stepBlock2_ok {R : Reducer (α × β) σ ω} (M : Monoidal R.init R.f R.fSum) {a : List α} {b : List β} {n : Nat}
    {p : Nat × Nat} (h : p.1 + n ≤ a.length) (h' : p.2 + n ≤ b.length) (acc : σ) :
    stepBlock2 R a b n acc p =
      .ok (R.fSum acc (total R.init R.fSum ((List.range n).map fun t => cellVal2 R a b (p.1 + t, p.2 + t)))) := by
  unfold stepBlock2 sliceAt
  rw [if_neg (by omega), if_neg (by omega)]
  simp only [ok_bind, unrolledBinaryReduce_eq M, pure_eq_ok]
  congr 3
  apply List.ext_getElem
  · simp; omega
  · intro k h1 h2
    simp only [List.length_map, List.length_range] at h2
    simp only [List.getElem_map, List.getElem_zip, List.getElem_take, List.getElem_drop, List.getElem_range]
    unfold cellVal2
    rw [List.getElem?_eq_getElem (by simp only; omega), List.getElem?_eq_getElem (by simp only; omega)]
    rfl

/-! ## Traversal of one layout in K order -/

theorem joint1K (dflt : Order) {s : List Nat} {l : Layout} (h : Fit s l) :
    ∃ (ps : List Nat) (m : Layout), l.toColMajor dflt .K = .ok m ∧ colItems m = .ok ps ∧
      ps.Perm ((all .C s).map l.pos) ∧
      ∀ contig n, Layout.withContig [m] = (contig, n) → n ≠ 0 →
        ∃ (o : Layout) (J : List (List Nat)), contig = [o] ∧ colItems o = .ok (J.map o.pos) ∧
          ps = (blockList J n).map fun p => o.pos p.1 + p.2 := by
  have hl := valid_iff.1 h.valid
  obtain ⟨m, hm, hperm⟩ : ∃ m, l.toColMajor dflt .K = .ok m ∧
      ((all .F m.shape).map m.addr).Perm ((all .C s).map l.addr) := by
    rw [Layout.toColMajor]
    by_cases hs : l.size = 0
    · rw [greedy_zero _ hs]
      exact ⟨l, rfl, by rw [h.shape]; exact (perm_all .F .C _).map _⟩
    · rw [greedy_keep hl hs]
      exact ⟨_, rfl, by rw [← h.shape]; exact greedy_perm .F .C⟩
  have hnn : ∀ i, InRange i m.shape → 0 ≤ m.addr i := by
    intro i hi
    obtain ⟨j, hj, e⟩ := List.mem_map.1 (hperm.mem_iff.1 (List.mem_map_of_mem (mem_all.2 hi)))
    rw [← e]
    exact h.nonneg j (mem_all.1 hj)
  have hp : (all .F m.shape).Perm (all .C m.shape) := perm_all _ _ _
  have e0 : (all .F m.shape).map m.addr = (all .F m.shape).map m.addr := rfl
  refine ⟨(all .F m.shape).map m.pos, m, hm, colItems_of hp e0 hnn, ?_, ?_⟩
  · have := hperm.map Int.toNat
    simp only [List.map_map] at this
    exact this
  · intro contig n hw hn
    have h4 : ∀ l ∈ [m], l.shape = m.shape := by simp
    have hz : 0 ∉ m.shape := fun hz => hn (withContig_zero hz h4 hw)
    obtain ⟨os, j1, _, j2⟩ := C29_contiguous_block m.shape hz [m] contig n h4 hw hn
    obtain ⟨o, rfl, b1⟩ := forall2_one j2
    have o1 := j1 o (by simp)
    obtain ⟨c1, c2⟩ := block_pos hn hp hnn e0 o1 b1
    exact ⟨o, all .F os, rfl, c1, c2⟩

/-- The total over blocks is the total over their cells. -/
theorem total_blocks {init : σ} {f : σ → α → σ} {c : σ → σ → σ} (M : Monoidal init f c) (J : List κ) (n : Nat)
    (w : κ × Nat → σ) :
    total init c (J.map fun j => total init c ((List.range n).map fun t => w (j, t))) =
      total init c ((blockList J n).map w) := by
  rw [blockList, List.map_flatMap, total_flatMap M]
  simp [List.map_map, Function.comp_def]

theorem reduceAll_eq (dflt : Order) {s : List Nat} {l : Layout} (h : Fit s l) {R : Reducer α σ ω}
    (M : Monoidal R.init R.f R.fSum) {a : List α} (ca : Covers s l a) :
    reduceAll dflt R a l = .ok (R.fOut (total R.init R.fSum (((all .C s).map l.pos).map (cellVal R a)))) := by
  obtain ⟨ps, m, h1, h2, h3, h4⟩ := joint1K dflt h
  have hps : ∀ x ∈ ps, x < a.length := by
    intro x hx
    obtain ⟨i, hi, rfl⟩ := List.mem_map.1 (h3.mem_iff.1 hx)
    exact ca i (mem_all.1 hi)
  have hfin : total R.init R.fSum (ps.map (cellVal R a)) =
      total R.init R.fSum (((all .C s).map l.pos).map (cellVal R a)) := total_perm M (h3.map _)
  unfold reduceAll
  rw [h1]
  simp only [ok_bind]
  cases hw : Layout.withContig [m] with
  | mk contig n =>
    simp only
    split
    · rename_i hge
      have hn : n ≠ 0 := by unfold reduceContigSwitch at hge; omega
      obtain ⟨o, J, rfl, k1, k2⟩ := h4 contig n hw hn
      simp only [k1, ok_bind]
      rw [foldRes_init M (w := fun i => total R.init R.fSum ((List.range n).map fun t => cellVal R a (i + t)))]
      · simp only [map_ok]
        rw [← hfin, k2, List.map_map, List.map_map]
        have := total_blocks M J n fun p => cellVal R a (o.pos p.1 + p.2)
        simp only [Function.comp_def]
        rw [this]
      · intro x hx acc
        obtain ⟨j, hj, rfl⟩ := List.mem_map.1 hx
        apply stepBlock_ok M
        have : o.pos j + (n - 1) ∈ ps := by
          rw [k2]; exact List.mem_map.2 ⟨(j, n - 1), mem_blockList hj (by omega), rfl⟩
        have := hps _ this
        omega
    · simp only [h2, ok_bind]
      rw [foldRes_init M (w := cellVal R a) fun x hx acc => stepAt_ok M (hps x hx) acc]
      simp only [map_ok, hfin]

theorem reduceAllBinary_eq (dflt : Order) {s : List Nat} {la lb : Layout} (ha : Fit s la) (hb : Fit s lb)
    {R : Reducer (α × β) σ ω} (M : Monoidal R.init R.f R.fSum) {a : List α} {b : List β} (ca : Covers s la a)
    (cb : Covers s lb b) :
    reduceAllBinary dflt R a la b lb =
      .ok (R.fOut (total R.init R.fSum (((all .C s).map fun i => (la.pos i, lb.pos i)).map (cellVal2 R a b)))) := by
  obtain ⟨e, ma, mb, h1, h2, h3, h4, h5, h6⟩ := joint2 dflt ha hb
  have hps : ∀ i ∈ e, la.pos i < a.length ∧ lb.pos i < b.length := fun i hi =>
    have := mem_all.1 (h1.mem_iff.1 hi)
    ⟨ca i this, cb i this⟩
  have hfin : total R.init R.fSum ((e.map fun i => (la.pos i, lb.pos i)).map (cellVal2 R a b)) =
      total R.init R.fSum (((all .C s).map fun i => (la.pos i, lb.pos i)).map (cellVal2 R a b)) :=
    total_perm M ((h1.map _).map _)
  unfold reduceAllBinary
  rw [h2]
  simp only [ok_bind]
  cases hw : Layout.withContig [ma, mb] with
  | mk contig n =>
    simp only
    split
    · rename_i hge
      have hn : n ≠ 0 := by unfold reduceContigSwitch at hge; omega
      obtain ⟨oa, ob, J, rfl, k2, k3, k4, k5⟩ := h6 contig n hw hn
      simp only [k2, ne_eq, not_true_eq_false, if_false, k3, k4, ok_bind, zip_map_self]
      rw [foldRes_init M (w := fun p : Nat × Nat =>
        total R.init R.fSum ((List.range n).map fun t => cellVal2 R a b (p.1 + t, p.2 + t)))]
      · simp only [map_ok]
        rw [← hfin, k5, List.map_map, List.map_map]
        have := total_blocks M J n fun p => cellVal2 R a b (oa.pos p.1 + p.2, ob.pos p.1 + p.2)
        simp only [Function.comp_def]
        rw [this]
      · intro x hx acc
        obtain ⟨j, hj, rfl⟩ := List.mem_map.1 hx
        have : (oa.pos j + (n - 1), ob.pos j + (n - 1)) ∈ e.map fun i => (la.pos i, lb.pos i) := by
          rw [k5]; exact List.mem_map.2 ⟨(j, n - 1), mem_blockList hj (by omega), rfl⟩
        obtain ⟨i, hi, e2⟩ := List.mem_map.1 this
        have := hps i hi
        rw [Prod.mk.injEq] at e2
        apply stepBlock2_ok M <;> simp only <;> omega
    · simp only [h4, h5, ok_bind, zip_map_self]
      rw [foldRes_init M (w := cellVal2 R a b)]
      · simp only [map_ok, hfin]
      · intro x hx acc
        obtain ⟨i, hi, rfl⟩ := List.mem_map.1 hx
        exact stepAt2_ok M (hps i hi).1 (hps i hi).2 acc

/-! ## Parallel folds -/

theorem parFold1_total {init : σ} {f : σ → α → σ} {c : σ → σ → σ} (M : Monoidal init f c)
    {op : Plan → σ → Nat → Res σ} {w : Nat → σ} {m : Nat} (s : Sched) {it : Iter} (hi : it.Inv) (hn : Iter.NonNeg it.layout)
    (hz : it.layout.size ≠ 0) (hf : s.Fits it.len m)
    (h : ∀ pl, ∀ x ∈ it.items, ∀ acc, op pl acc x = .ok (c acc (w x))) :
    parFold1 init c op s it = .ok (total init c (it.items.map w)) := by
  induction s generalizing it with
  | run inner =>
    rw [parFold1, Iter.toList_spec hi hn]
    simp only [ok_bind]
    rw [foldRes_init M (w := fun p : Nat × Nat => w p.2)]
    · simp only [ok_bind, M.unit]
      have : (numbered 0 it.items).map (fun p => w p.2) = it.items.map w := by
        rw [show (fun p : Nat × Nat => w p.2) = w ∘ Prod.snd from rfl, ← List.map_map, numbered_map]
      rw [this]; rfl
    · intro p hp acc
      refine h _ _ ?_ acc
      have := List.mem_map_of_mem (f := Prod.snd) hp
      rwa [numbered_map] at this
  | split k p q ihp ihq =>
    obtain ⟨hk, hp, hq⟩ := hf
    obtain ⟨l, r, h1, h2, h3, h4, h5, -, -, h8, h9, h10⟩ := Iter.splitAt_spec hi hz hk
    have hitems := items_split h4 h5 h10
    rw [parFold1, h1]
    simp only [ok_bind]
    rw [ihp h2 (h4 ▸ hn) (h4 ▸ hz) (by rw [h8]; exact hp) fun pl x hx => h pl x (by rw [hitems]; exact List.mem_append_left _ hx),
      ihq h3 (h5 ▸ hn) (h5 ▸ hz) (by rw [h9]; exact hq) fun pl x hx => h pl x (by rw [hitems]; exact List.mem_append_right _ hx)]
    simp only [ok_bind, pure_eq_ok]
    rw [hitems, List.map_append, total_append M]

theorem parFold2_total {δ : Type} {init : σ} {f : σ → δ → σ} {c : σ → σ → σ} (M : Monoidal init f c)
    {op : Plan → σ → Nat × Nat → Res σ} {w : Nat × Nat → σ} {m : Nat} (s : Sched)
    {a b : Iter} (ha : a.Inv) (na : Iter.NonNeg a.layout) (sa : a.layout.size ≠ 0)
    (hb : b.Inv) (nb : Iter.NonNeg b.layout) (sb : b.layout.size ≠ 0) (hl : a.len = b.len) (hf : s.Fits a.len m)
    (h : ∀ pl, ∀ x ∈ a.items.zip b.items, ∀ acc, op pl acc x = .ok (c acc (w x))) :
    parFold2 init c op s a b = .ok (total init c ((a.items.zip b.items).map w)) := by
  induction s generalizing a b with
  | run inner =>
    rw [parFold2, Iter.toList_spec ha na]
    simp only [ok_bind]
    rw [Iter.toList_spec hb nb]
    simp only [ok_bind]
    rw [foldRes_init M (w := fun p : Nat × Nat × Nat => w p.2)]
    · simp only [ok_bind, M.unit]
      have : (numbered 0 (a.items.zip b.items)).map (fun p => w p.2) = (a.items.zip b.items).map w := by
        rw [show (fun p : Nat × Nat × Nat => w p.2) = w ∘ Prod.snd from rfl, ← List.map_map, numbered_map]
      rw [this]; rfl
    · intro p hp acc
      refine h _ _ ?_ acc
      have := List.mem_map_of_mem (f := Prod.snd) hp
      rwa [numbered_map] at this
  | split k p q ihp ihq =>
    obtain ⟨l, r, h1, h2, h3, h4, h5, h6, h7, h8, h9, h10⟩ := Iter.splitAt_spec ha sa hf.1
    obtain ⟨l', r', g1, g2, g3, g4, g5, g6, g7, g8, g9, g10⟩ := Iter.splitAt_spec hb sb (hl ▸ hf.1)
    have hz : a.items.zip b.items = l.items.zip l'.items ++ r.items.zip r'.items := by
      rw [items_split h4 h5 h10, items_split g4 g5 g10, List.zip_append]
      rw [h2.length_items, g2.length_items, h8, g8]
    rw [parFold2, h1]
    simp only [ok_bind, g1]
    rw [ihp h2 (h4 ▸ na) (h4 ▸ sa) g2 (g4 ▸ nb) (g4 ▸ sb) (by rw [h8, g8])
      (by rw [h8]; exact hf.2.1) fun pl x hx => h pl x (by rw [hz]; exact List.mem_append_left _ hx),
      ihq h3 (h5 ▸ na) (h5 ▸ sa) g3 (g5 ▸ nb) (g5 ▸ sb) (by rw [h9, g9, hl])
      (by rw [h9]; exact hf.2.2) fun pl x hx => h pl x (by rw [hz]; exact List.mem_append_right _ hx)]
    simp only [ok_bind, pure_eq_ok]
    rw [hz, List.map_append, total_append M]

theorem chunks_eq (c n k : Nat) :
    (List.range k).flatMap (fun q => (List.range (min c (n - q * c))).map fun t => q * c + t) =
      List.range (min n (k * c)) := by
  induction k with
  | zero => simp
  | succ k ih =>
    rw [List.range_succ, List.flatMap_append, ih]
    simp only [List.flatMap_cons, List.flatMap_nil, List.append_nil, Nat.succ_mul]
    by_cases h : n ≤ k * c
    · rw [Nat.sub_eq_zero_of_le h, Nat.min_eq_left h, Nat.min_eq_left (show n ≤ k * c + c by omega)]; simp
    · have e : min n (k * c + c) = k * c + min c (n - k * c) := by omega
      rw [e, List.range_add, Nat.min_eq_right (by omega)]

theorem chunkStarts_eq (n : Nat) :
    (chunkStarts n).flatMap (fun q => (List.range (min reduceChunk (n - q))).map fun t => q + t) = List.range n := by
  unfold chunkStarts
  rw [List.flatMap_map, chunks_eq]
  congr 1
  unfold reduceChunk
  omega

theorem mem_chunkStarts {n q : Nat} (h : q ∈ chunkStarts n) : q < n := by
  unfold chunkStarts at h
  obtain ⟨k, hk, rfl⟩ := List.mem_map.1 h
  rw [List.mem_range] at hk
  unfold reduceChunk at hk ⊢
  omega

theorem total_chunks {δ : Type} {init : σ} {f : σ → δ → σ} {c : σ → σ → σ} (M : Monoidal init f c) (n : Nat) (w : Nat → σ) :
    total init c ((chunkStarts n).map fun q => total init c ((List.range (min reduceChunk (n - q))).map fun t => w (q + t))) =
      total init c ((List.range n).map w) := by
  rw [← chunkStarts_eq n, List.map_flatMap, total_flatMap M]
  simp [List.map_map, Function.comp_def]

theorem parBlockStep_ok {R : Reducer α σ ω} (M : Monoidal R.init R.f R.fSum) {a : List α} {i n : Nat}
    (h : i + n ≤ a.length) (plan : Plan) (acc : σ) :
    parBlockStep R a n plan acc i =
      .ok (R.fSum acc (total R.init R.fSum ((List.range n).map fun t => cellVal R a (i + t)))) := by
  unfold parBlockStep
  rw [parFold_total M (w := fun q => total R.init R.fSum ((List.range (min reduceChunk (n - q))).map fun t =>
    cellVal R a (i + (q + t)))), total_chunks M n fun t => cellVal R a (i + t)]
  · rfl
  · intro q hq acc
    have := mem_chunkStarts hq
    rw [stepBlock_ok M (by omega)]
    simp only [Nat.add_assoc]

theorem parBlockStep2_ok {R : Reducer (α × β) σ ω} (M : Monoidal R.init R.f R.fSum) {a : List α} {b : List β} {n : Nat}
    {p : Nat × Nat} (h : p.1 + n ≤ a.length) (h' : p.2 + n ≤ b.length) (plan : Plan) (acc : σ) :
    parBlockStep2 R a b n plan acc p =
      .ok (R.fSum acc (total R.init R.fSum ((List.range n).map fun t => cellVal2 R a b (p.1 + t, p.2 + t)))) := by
  unfold parBlockStep2
  rw [parFold_total M (w := fun q => total R.init R.fSum ((List.range (min reduceChunk (n - q))).map fun t =>
    cellVal2 R a b (p.1 + (q + t), p.2 + (q + t)))), total_chunks M n fun t => cellVal2 R a b (p.1 + t, p.2 + t)]
  · rfl
  · intro q hq acc
    have := mem_chunkStarts hq
    rw [stepBlock2_ok M (by simp only; omega) (by simp only; omega)]
    simp only [Nat.add_assoc]

theorem reduceAllPar_eq (dflt : Order) {sch : Scheduler} (hsch : sch.Fits) {s : List Nat} {l : Layout} (h : Fit s l)
    {R : Reducer α σ ω} (M : Monoidal R.init R.f R.fSum) {a : List α} (ca : Covers s l a) :
    reduceAllPar dflt sch R a l = .ok (R.fOut (total R.init R.fSum (((all .C s).map l.pos).map (cellVal R a)))) := by
  unfold reduceAllPar
  split
  · exact reduceAll_eq dflt h M ca
  rename_i hbig
  obtain ⟨ps, m, h1, h2, h3, h4⟩ := joint1K dflt h
  have hps : ∀ x ∈ ps, x < a.length := by
    intro x hx
    obtain ⟨i, hi, rfl⟩ := List.mem_map.1 (h3.mem_iff.1 hx)
    exact ca i (mem_all.1 hi)
  have hne : ps ≠ [] := by
    rintro rfl
    have := h3.length_eq
    rw [List.length_map, length_all, List.length_nil, ← h.shape] at this
    apply hbig
    unfold Layout.size reduceParSwitch
    omega
  have hfin : total R.init R.fSum (ps.map (cellVal R a)) =
      total R.init R.fSum (((all .C s).map l.pos).map (cellVal R a)) := total_perm M (h3.map _)
  rw [h1]
  simp only [ok_bind]
  cases hw : Layout.withContig [m] with
  | mk contig n =>
    simp only
    split
    · rename_i hge
      have hn : n ≠ 0 := by unfold reduceContigSwitch at hge; omega
      obtain ⟨o, J, rfl, k1, k2⟩ := h4 contig n hw hn
      have hJ : J.map o.pos ≠ [] := by
        intro h0
        apply hne
        rw [k2, List.map_eq_nil_iff.1 h0]; rfl
      obtain ⟨it, i1, i2, i3, i4, i5, i6⟩ := iter_of_items k1 hJ
      have hblk : ∀ x ∈ it.items, x + n ≤ a.length := by
        intro x hx
        rw [i5] at hx
        obtain ⟨j, hj, rfl⟩ := List.mem_map.1 hx
        have : o.pos j + (n - 1) ∈ ps := by
          rw [k2]; exact List.mem_map.2 ⟨(j, n - 1), mem_blockList hj (by omega), rfl⟩
        have := hps _ this
        omega
      have htot : total R.init R.fSum (it.items.map fun i =>
          total R.init R.fSum ((List.range n).map fun t => cellVal R a (i + t))) =
          total R.init R.fSum (((all .C s).map l.pos).map (cellVal R a)) := by
        rw [← hfin, k2, i5, List.map_map, List.map_map]
        have := total_blocks M J n fun p => cellVal R a (o.pos p.1 + p.2)
        simp only [Function.comp_def]
        rw [this]
      simp only [i1, ok_bind]
      split
      · rw [parFold1_total M _ i2 i3 i4 (hsch _ _) fun _ x hx acc => stepBlock_ok M (hblk x hx) acc, htot]
        rfl
      · rw [parFold1_total M _ i2 i3 i4 (hsch _ _) fun pl x hx acc => parBlockStep_ok M (hblk x hx) pl acc, htot]
        rfl
    · obtain ⟨it, i1, i2, i3, i4, i5, i6⟩ := iter_of_items h2 hne
      simp only [i1, ok_bind]
      rw [parFold1_total M _ i2 i3 i4 (hsch _ _) fun _ x hx acc => stepAt_ok M (hps x (i5 ▸ hx)) acc, i5, hfin]
      rfl

theorem reduceAllBinaryPar_eq (dflt : Order) {sch : Scheduler} (hsch : sch.Fits) {s : List Nat} {la lb : Layout}
    (ha : Fit s la) (hb : Fit s lb)
    {R : Reducer (α × β) σ ω} (M : Monoidal R.init R.f R.fSum) {a : List α} {b : List β} (ca : Covers s la a)
    (cb : Covers s lb b) :
    reduceAllBinaryPar dflt sch R a la b lb =
      .ok (R.fOut (total R.init R.fSum (((all .C s).map fun i => (la.pos i, lb.pos i)).map (cellVal2 R a b)))) := by
  unfold reduceAllBinaryPar
  split
  · exact reduceAllBinary_eq dflt ha hb M ca cb
  rename_i hbig
  obtain ⟨e, ma, mb, h1, h2, h3, h4, h5, h6⟩ := joint2 dflt ha hb
  have hps : ∀ i ∈ e, la.pos i < a.length ∧ lb.pos i < b.length := fun i hi =>
    have := mem_all.1 (h1.mem_iff.1 hi)
    ⟨ca i this, cb i this⟩
  have hne : e ≠ [] := by
    rintro rfl
    have := h1.length_eq
    rw [length_all, List.length_nil, ← ha.shape] at this
    apply hbig
    unfold Layout.size reduceParSwitch
    omega
  have hfin : total R.init R.fSum ((e.map fun i => (la.pos i, lb.pos i)).map (cellVal2 R a b)) =
      total R.init R.fSum (((all .C s).map fun i => (la.pos i, lb.pos i)).map (cellVal2 R a b)) :=
    total_perm M ((h1.map _).map _)
  rw [h2]
  simp only [ok_bind]
  cases hw : Layout.withContig [ma, mb] with
  | mk contig n =>
    simp only
    split
    · rename_i hge
      have hn : n ≠ 0 := by unfold reduceContigSwitch at hge; omega
      obtain ⟨oa, ob, J, rfl, k2, k3, k4, k5⟩ := h6 contig n hw hn
      have hJ : J ≠ [] := by
        rintro rfl
        have := congrArg List.length k5
        simp [blockList] at this
        exact hne this
      obtain ⟨ia, i1, i2, i3, i4, i5, i6⟩ := iter_of_items k3 (by simpa using hJ)
      obtain ⟨ib, j1, j2, j3, j4, j5, j6⟩ := iter_of_items k4 (by simpa using hJ)
      have hlen : ia.len = ib.len := by rw [i6, j6]; simp
      have hit : ia.items.zip ib.items = J.map fun j => (oa.pos j, ob.pos j) := by rw [i5, j5, zip_map_self]
      have hblk : ∀ x ∈ ia.items.zip ib.items, x.1 + n ≤ a.length ∧ x.2 + n ≤ b.length := by
        intro x hx
        rw [hit] at hx
        obtain ⟨j, hj, rfl⟩ := List.mem_map.1 hx
        have : (oa.pos j + (n - 1), ob.pos j + (n - 1)) ∈ e.map fun i => (la.pos i, lb.pos i) := by
          rw [k5]; exact List.mem_map.2 ⟨(j, n - 1), mem_blockList hj (by omega), rfl⟩
        obtain ⟨i, hi, e2⟩ := List.mem_map.1 this
        have := hps i hi
        rw [Prod.mk.injEq] at e2
        constructor <;> simp only <;> omega
      have htot : total R.init R.fSum ((ia.items.zip ib.items).map fun p : Nat × Nat =>
          total R.init R.fSum ((List.range n).map fun t => cellVal2 R a b (p.1 + t, p.2 + t))) =
          total R.init R.fSum (((all .C s).map fun i => (la.pos i, lb.pos i)).map (cellVal2 R a b)) := by
        rw [← hfin, k5, hit, List.map_map, List.map_map]
        have := total_blocks M J n fun p => cellVal2 R a b (oa.pos p.1 + p.2, ob.pos p.1 + p.2)
        simp only [Function.comp_def]
        rw [this]
      simp only [i1, j1, ok_bind]
      have hm : min ia.len ib.len = ia.len := by omega
      rw [hm]
      split
      · rw [parFold2_total M _ i2 i3 i4 j2 j3 j4 hlen (hsch _ _) fun _ x hx acc =>
          stepBlock2_ok M (hblk x hx).1 (hblk x hx).2 acc, htot]
        rfl
      · rw [parFold2_total M _ i2 i3 i4 j2 j3 j4 hlen (hsch _ _) fun pl x hx acc =>
          parBlockStep2_ok M (hblk x hx).1 (hblk x hx).2 pl acc, htot]
        rfl
    · obtain ⟨ia, i1, i2, i3, i4, i5, i6⟩ := iter_of_items h4 (by simpa using hne)
      obtain ⟨ib, j1, j2, j3, j4, j5, j6⟩ := iter_of_items h5 (by simpa using hne)
      have hlen : ia.len = ib.len := by rw [i6, j6]; simp
      have hit : ia.items.zip ib.items = e.map fun j => (la.pos j, lb.pos j) := by rw [i5, j5, zip_map_self]
      simp only [i1, j1, ok_bind]
      have hm : min ia.len ib.len = ia.len := by omega
      rw [hm, parFold2_total M _ i2 i3 i4 j2 j3 j4 hlen (hsch _ _) (w := cellVal2 R a b), hit, hfin]
      · rfl
      · intro _ x hx acc
        rw [hit] at hx
        obtain ⟨i, hi, rfl⟩ := List.mem_map.1 hx
        exact stepAt2_ok M (hps i hi).1 (hps i hi).2 acc

/-! ## Elements of tensors -/

theorem cells_elements {t : Tensor α} (h : t.WF) (g : α → σ) (d : σ) :
    ((all .C t.layout.shape).map t.layout.pos).map (fun i => (t.data[i]?).elim d g) = t.arr.elements.map g := by
  show _ = ((all .C t.layout.shape).filterMap t.arr.elem).map g
  have key : ∀ L : List (List Nat), (∀ i ∈ L, InRange i t.layout.shape) →
      (L.map t.layout.pos).map (fun i => (t.data[i]?).elim d g) = (L.filterMap t.arr.elem).map g := by
    intro L
    induction L with
    | nil => intro _; rfl
    | cons i L ih =>
      intro hL
      obtain ⟨x, h1, h2⟩ := h.get (hL i (by simp))
      simp only [List.map_cons]
      rw [List.filterMap_cons_some h2, List.map_cons, ih fun j hj => hL j (by simp [hj]), h1]
      rfl
  exact key _ fun i hi => mem_all.1 hi

theorem reduce_eq (dflt : Order) (par : Option Scheduler) (hp : ∀ s, par = some s → s.Fits) {t : Tensor α} (h : t.WF)
    {R : Reducer α σ ω} (M : Monoidal R.init R.f R.fSum) :
    t.reduce dflt par R = .ok (R.fOut (t.arr.elements.foldl R.f R.init)) := by
  rw [foldl_init M, ← cells_elements h (R.f R.init) R.init]
  unfold Tensor.reduce
  cases par with
  | none => exact reduceAll_eq dflt h.fit M h.covers
  | some s => exact reduceAllPar_eq dflt (hp s rfl) h.fit M h.covers

end
end Rstsr
