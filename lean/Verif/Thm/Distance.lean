import Verif.Proof.Distance
import Mathlib.Algebra.Order.Field.Rat
import Mathlib.Algebra.Order.Ring.Rat
/-!
# Theorems on distances between rows (C62)

`IsDistances f A B D` (`Spec/Distance.lean`) says that `D` has the distance `f u v` of every row `u` of `A` from every row `v`
of `B`; the formulas are there too. `par = none` is the serial device, `par = some s` the parallel one with any division of
the batches. The theorems carry the suffix `_partial`: matrices without columns are excluded, on which the code panics
(`C62_false_no_columns`).
-/
namespace Rstsr
open Spec

section
variable {α ω : Type}

/-! ## The formulas -/

theorem foldl_pair {σ τ β : Type} (f : σ → β → σ) (g : τ → β → τ) (xs : List β) (s : σ × τ) :
    xs.foldl (fun s x => (f s.1 x, g s.2 x)) s = (xs.foldl f s.1, xs.foldl g s.2) := by
  induction xs generalizing s with
  | nil => rfl
  | cons x xs ih => simp only [List.foldl_cons, ih]

theorem num_between (R : Reals ω) (E : Elems α ω) (M : NumMetric ω) (u v : List α) :
    (numMetric R E M).between u v = numDistance R E M u v := by
  cases M <;> simp only [Metric.between, numMetric, Metric.simple, numDistance, Reals.total, List.foldl_map, List.foldl_filter]
  case brayCurtis =>
    rw [foldl_pair (fun d (p : α × α) => R.plus d (E.abs (E.sub p.1 p.2))) (fun d (p : α × α) => R.plus d (E.abs (E.add p.1 p.2)))]

theorem num_betweenW (R : Reals ω) (E : Elems α ω) (M : NumMetric ω) (w : List ω) (u v : List α) :
    (numMetric R E M).betweenW R w u v = numDistanceW R E M w u v := by
  cases M <;> simp only [Metric.betweenW, numMetric, Metric.simple, numDistanceW, Reals.total, List.foldl_map, List.foldl_filter]
  case brayCurtis =>
    rw [foldl_pair (fun d (p : (α × α) × ω) => R.plus d (R.times p.2 (E.abs (E.sub p.1.1 p.1.2))))
      (fun d (p : (α × α) × ω) => R.plus d (R.times p.2 (E.abs (E.add p.1.1 p.1.2))))]

/-- Weight of the columns with a given pair of values, added to `acc`. -/
def tally (R : Reals ω) (P : List ((Bool × Bool) × ω)) (acc : ω) (q : Bool × Bool → Bool) : ω :=
  ((P.filter fun p => q p.1).map Prod.snd).foldl R.plus acc

theorem tally_cons (R : Reals ω) (p : (Bool × Bool) × ω) (P : List ((Bool × Bool) × ω)) (acc : ω) (q : Bool × Bool → Bool) :
    tally R (p :: P) acc q = tally R P (if q p.1 then R.plus acc p.2 else acc) q := by
  unfold tally
  by_cases h : q p.1 <;> simp [h]

theorem yule_fold (R : Reals ω) (P : List ((Bool × Bool) × ω)) (n : ω × ω × ω × ω) :
    P.foldl (fun s p => innerYule R s p.1.1 p.1.2 p.2) n =
      (tally R P n.1 fun p => p.1 && p.2, tally R P n.2.1 fun p => !p.1 && !p.2, tally R P n.2.2.1 fun p => p.1 && !p.2,
        tally R P n.2.2.2 fun p => !p.1 && p.2) := by
  induction P generalizing n with
  | nil => rfl
  | cons p P ih =>
    obtain ⟨⟨a, b⟩, w⟩ := p
    rw [List.foldl_cons, ih]
    cases a <;> cases b <;> simp [tally_cons, innerYule]

theorem dice_fold (R : Reals ω) (P : List ((Bool × Bool) × ω)) (n : ω × ω) :
    P.foldl (fun s p => innerDice R s p.1.1 p.1.2 p.2) n =
      (tally R P n.1 fun p => p.1 && p.2, tally R P n.2 fun p => p.1 != p.2) := by
  induction P generalizing n with
  | nil => rfl
  | cons p P ih =>
    obtain ⟨⟨a, b⟩, w⟩ := p
    rw [List.foldl_cons, ih]
    cases a <;> cases b <;> simp [tally_cons, innerDice]

theorem jaccard_fold (R : Reals ω) (P : List ((Bool × Bool) × ω)) (n : ω × ω) :
    P.foldl (fun s p => innerJaccard R s p.1.1 p.1.2 p.2) n =
      (tally R P n.1 fun p => p.1 != p.2, tally R P n.2 fun p => p.1 || p.2) := by
  induction P generalizing n with
  | nil => rfl
  | cons p P ih =>
    obtain ⟨⟨a, b⟩, w⟩ := p
    rw [List.foldl_cons, ih]
    cases a <;> cases b <;> simp [tally_cons, innerJaccard]

theorem both_fold (R : Reals ω) (P : List ((Bool × Bool) × ω)) (t : ω) :
    P.foldl (fun t p => if p.1.1 && p.1.2 then R.plus t p.2 else t) t = tally R P t fun p => p.1 && p.2 := by
  induction P generalizing t with
  | nil => rfl
  | cons p P ih => rw [List.foldl_cons, ih, tally_cons]

theorem bool_betweenW (R : Reals ω) (M : BoolMetric) (w : List ω) (u v : List Bool) :
    (boolMetric R M).betweenW R w u v = boolDistanceW R M w u v := by
  have h : boolDistanceW R M w u v = boolFormula R M (tally R ((u.zip v).zip w) R.zero) (w.foldl R.plus R.zero) := rfl
  rw [h]
  cases M <;> simp only [Metric.betweenW, boolMetric, Metric.simple, boolFormula, yule_fold, dice_fold, jaccard_fold, both_fold,
    innerYuleFinalize]

theorem bool_between (R : Reals ω) (M : BoolMetric) (u v : List Bool) :
    (boolMetric R M).between u v = boolDistance R M u v := by
  have h : boolDistance R M u v =
      boolFormula R M (tally R ((u.zip v).map fun p => (p, R.one)) R.zero) (R.ofNat u.length) := by
    unfold boolDistance tally Reals.total
    simp only [List.filter_map, List.map_map, Function.comp_def]
  rw [h]
  have e : ∀ {σ : Type} (step : σ → Bool → Bool → ω → σ) (s : σ), (u.zip v).foldl (fun s p => step s p.1 p.2 R.one) s =
      ((u.zip v).map fun p => (p, R.one)).foldl (fun s p => step s p.1.1 p.1.2 p.2) s := by
    intro σ step s
    rw [List.foldl_map]
  cases M <;> simp only [Metric.between, boolMetric, Metric.simple, boolFormula]
  · rw [e (innerJaccard R), jaccard_fold]
  · rw [e (innerYule R), yule_fold]; rfl
  · rw [e (innerDice R), dice_fold]
  · rw [e (innerDice R), dice_fold]
  · rw [e (fun t u v w => if u && v then R.plus t w else t), both_fold]
  · rw [e (innerDice R), dice_fold]

theorem row_between (R : Reals ω) (M : RowMetric) (u v : List ω) : (rowMetric R M).between u v = rowDistance R M u v := by
  cases M <;> simp only [Metric.between, rowMetric, rowDistance, Reals.total, List.foldl_map, List.zip_map, Prod.map]

theorem cosine_betweenW (R : Reals ω) (w u v : List ω) : (rowMetric R .cosine).betweenW R w u v = cosineW R w u v := by
  simp only [Metric.betweenW, rowMetric, cosineW, Reals.total, List.foldl_map]

theorem js_between (R : Reals ω) (u v : List ω) (hu : ∀ x ∈ u, R.lt x R.zero = false) (hv : ∀ x ∈ v, R.lt x R.zero = false) :
    (jsMetric R).between u v = jensenShannon R u v := by
  let st : ω → ω → ω → ω → ω → ω := fun su sv d u v => (jsMetric R).step su sv d u v
  have key : ∀ (P : List (ω × ω)) (d su sv : ω), (∀ p ∈ P, R.lt p.1 R.zero = false ∧ R.lt p.2 R.zero = false) →
      P.foldl (fun s p => st su sv s p.1 p.2) d =
      ((P.map fun p => (R.over p.1 su, R.over p.2 sv)).flatMap fun p =>
        (if R.lt R.zero p.1 then [R.times p.1 (R.ln (R.over p.1 (R.over (R.plus p.1 p.2) R.two)))] else []) ++
        (if R.lt R.zero p.2 then [R.times p.2 (R.ln (R.over p.2 (R.over (R.plus p.1 p.2) R.two)))] else [])).foldl R.plus d := by
    intro P d su sv h
    induction P generalizing d with
    | nil => rfl
    | cons p P ih =>
      rw [List.foldl_cons, ih _ fun q hq => h q (List.mem_cons_of_mem _ hq)]
      obtain ⟨h1, h2⟩ := h p List.mem_cons_self
      simp only [List.map_cons, List.flatMap_cons, List.foldl_append]
      congr 1
      simp only [st, jsMetric, h1, h2, Bool.or_self, Bool.false_eq_true, if_false]
      split <;> split <;> simp_all
  show (if R.le (R.total u) R.zero && R.le (R.total v) R.zero then R.infinity
    else R.sqrt (R.over ((u.zip v).foldl (fun s p => st (R.total u) (R.total v) s p.1 p.2) R.zero) R.two)) = _
  rw [key _ _ _ _ fun p hp => ⟨hu _ (List.of_mem_zip hp).1, hv _ (List.of_mem_zip hp).2⟩]
  rfl

/-! ## What `cdist` returns -/

theorem isDistances_congr {f g : List α → List α → ω} {A B : Arr α} {D : Arr ω} (h : IsDistances f A B D)
    (hfg : ∀ i j k u v, IsRow A i k u → IsRow B j k v → A.shape[1]? = some k → B.shape[1]? = some k → A.shape[0]?.any (i < ·) →
      B.shape[0]?.any (j < ·) → f u v = g u v) : IsDistances g A B D := by
  obtain ⟨m, n, k, h1, h2, h3, h4⟩ := h
  refine ⟨m, n, k, h1, h2, h3, fun i hi j hj => ?_⟩
  obtain ⟨u, v, hu, hv, e⟩ := h4 i hi j hj
  exact ⟨u, v, hu, hv, by rw [e, hfg i j k u v hu hv (by rw [h1]; rfl) (by rw [h2]; rfl) (by rw [h1]; simpa using hi)
    (by rw [h2]; simpa using hj)]⟩

/-- Every metric on numbers, in both memory orders, for all layouts of the matrices, on the serial device and the parallel
ones. Missing: matrices without columns (`C62_false_no_columns`). -/
theorem C62_cdist_partial (R : Reals ω) (E : Elems α ω) (M : NumMetric ω) (dev : Order) (par : Option BlockPlan) {size : Nat}
    (hsize : 0 < size) (a b : Tensor α) (ha : a.WF) (hb : b.WF) {m n k : Nat} (sa : a.arr.shape = [m, k])
    (sb : b.arr.shape = [n, k]) (hk : k ≠ 0) :
    ∃ r, Delivers (a.cdist dev par size (numMetric R E M) b) r ∧ r.WF ∧ IsDistances (numDistance R E M) a.arr b.arr r.arr := by
  obtain ⟨r, r1, r2, r3⟩ := cdist_ok dev par hsize (numMetric R E M) (by cases M <;> intro _ _ <;> rfl) ha hb
    (Nat.pos_of_ne_zero hk) sa sb
  exact ⟨r, r1, r2, isDistances_congr r3 fun _ _ _ u v _ _ _ _ _ _ => num_between R E M u v⟩

/-- Without a metric: Euclidean distances. -/
theorem C62_default_partial (R : Reals ω) (E : Elems α ω) (dev : Order) (par : Option BlockPlan) {size : Nat}
    (hsize : 0 < size) (a b : Tensor α) (ha : a.WF) (hb : b.WF) {m n k : Nat} (sa : a.arr.shape = [m, k])
    (sb : b.arr.shape = [n, k]) (hk : k ≠ 0) :
    ∃ r, Delivers (a.cdistDefault dev par size R E b) r ∧ r.WF ∧
      IsDistances (fun u v => R.sqrt (R.total ((u.zip v).map fun p => E.square (E.sub p.1 p.2)))) a.arr b.arr r.arr :=
  C62_cdist_partial R E .euclidean dev par hsize a b ha hb sa sb hk

/-- The metrics on truth values. -/
theorem C62_bool_partial (R : Reals ω) (M : BoolMetric) (dev : Order) (par : Option BlockPlan) {size : Nat}
    (hsize : 0 < size) (a b : Tensor Bool) (ha : a.WF) (hb : b.WF) {m n k : Nat} (sa : a.arr.shape = [m, k])
    (sb : b.arr.shape = [n, k]) (hk : k ≠ 0) :
    ∃ r, Delivers (a.cdist dev par size (boolMetric R M) b) r ∧ r.WF ∧ IsDistances (boolDistance R M) a.arr b.arr r.arr := by
  obtain ⟨r, r1, r2, r3⟩ := cdist_ok dev par hsize (boolMetric R M) (by cases M <;> intro _ _ <;> rfl) ha hb
    (Nat.pos_of_ne_zero hk) sa sb
  exact ⟨r, r1, r2, isDistances_congr r3 fun _ _ _ u v _ _ _ _ _ _ => bool_between R M u v⟩

/-- Cosine and correlation distances. -/
theorem C62_rows_partial (R : Reals ω) (M : RowMetric) (dev : Order) (par : Option BlockPlan) {size : Nat}
    (hsize : 0 < size) (a b : Tensor ω) (ha : a.WF) (hb : b.WF) {m n k : Nat} (sa : a.arr.shape = [m, k])
    (sb : b.arr.shape = [n, k]) (hk : k ≠ 0) :
    ∃ r, Delivers (a.cdist dev par size (rowMetric R M) b) r ∧ r.WF ∧ IsDistances (rowDistance R M) a.arr b.arr r.arr := by
  obtain ⟨r, r1, r2, r3⟩ := cdist_ok dev par hsize (rowMetric R M) (by cases M <;> intro h <;> cases h) ha hb
    (Nat.pos_of_ne_zero hk) sa sb
  exact ⟨r, r1, r2, isDistances_congr r3 fun _ _ _ u v _ _ _ _ _ _ => row_between R M u v⟩

/-- An element that is not negative. -/
def NoNegative (R : Reals ω) (A : Arr ω) : Prop := ∀ idx, InRange idx A.shape → ∀ x, A.elem idx = some x → R.lt x R.zero = false

theorem NoNegative.row {R : Reals ω} {A : Arr ω} (h : NoNegative R A) {m k i : Nat} (hs : A.shape = [m, k]) (hi : i < m)
    {u : List ω} (hu : IsRow A i k u) : ∀ x ∈ u, R.lt x R.zero = false := fun x hx => by
  obtain ⟨j, hj, rfl⟩ := List.getElem_of_mem hx
  have hjk : j < k := by rw [← hu.1]; exact hj
  refine h [i, j] (by rw [hs]; exact inRange_pair.2 ⟨hi, hjk⟩) _ ?_
  rw [hu.2 j hjk, List.getElem?_eq_getElem hj]

/-- Jensen-Shannon distances of matrices without negative elements. -/
theorem C62_jensen_shannon_partial (R : Reals ω) (dev : Order) (par : Option BlockPlan) {size : Nat}
    (hsize : 0 < size) (a b : Tensor ω) (ha : a.WF) (hb : b.WF) {m n k : Nat} (sa : a.arr.shape = [m, k])
    (sb : b.arr.shape = [n, k]) (hk : k ≠ 0) (na : NoNegative R a.arr) (nb : NoNegative R b.arr) :
    ∃ r, Delivers (a.cdist dev par size (jsMetric R) b) r ∧ r.WF ∧ IsDistances (jensenShannon R) a.arr b.arr r.arr := by
  obtain ⟨r, r1, r2, r3⟩ := cdist_ok dev par hsize (jsMetric R) (by intro h; cases h) ha hb (Nat.pos_of_ne_zero hk) sa sb
  refine ⟨r, r1, r2, isDistances_congr r3 fun i j k' u v hu hv h1 h2 h3 h4 => ?_⟩
  rw [sa] at h1 h3
  rw [sb] at h4
  obtain rfl : k = k' := by simpa using h1
  exact js_between R u v (na.row sa (by simpa using h3) hu) (nb.row sb (by simpa using h4) hv)

/-- With a weight for every column, in any layout. Missing: also numbers of weights other than the number of columns, which
are not rejected (`C62_false_few_weights`, `C62_false_many_weights`). -/
theorem C62_weighted_partial (R : Reals ω) (E : Elems α ω) (M : NumMetric ω) (dflt dev : Order) (par : Option BlockPlan) {size : Nat}
    (hsize : 0 < size) (a b : Tensor α) (wt : Tensor ω) (ha : a.WF) (hb : b.WF) (hwt : wt.WF) {m n : Nat} {w : List ω}
    (sa : a.arr.shape = [m, w.length]) (sb : b.arr.shape = [n, w.length]) (hw : IsVector wt.arr w) (hk : w ≠ []) :
    ∃ r, Delivers (a.cdistW dflt dev par size R (numMetric R E M) b wt) r ∧ r.WF ∧
      IsDistances (numDistanceW R E M w) a.arr b.arr r.arr := by
  obtain ⟨r, r1, r2, r3⟩ := cdistW_ok dflt dev par hsize R (numMetric R E M) (by cases M <;> intro _ _ _ <;> rfl) ha hb hwt
    (List.length_pos_iff.2 hk) sa sb hw rfl
  exact ⟨r, r1, r2, isDistances_congr r3 fun _ _ _ u v _ _ _ _ _ _ => num_betweenW R E M w u v⟩

theorem C62_weighted_bool_partial (R : Reals ω) (M : BoolMetric) (dflt dev : Order) (par : Option BlockPlan) {size : Nat}
    (hsize : 0 < size) (a b : Tensor Bool) (wt : Tensor ω) (ha : a.WF) (hb : b.WF) (hwt : wt.WF) {m n : Nat} {w : List ω}
    (sa : a.arr.shape = [m, w.length]) (sb : b.arr.shape = [n, w.length]) (hw : IsVector wt.arr w) (hk : w ≠ []) :
    ∃ r, Delivers (a.cdistW dflt dev par size R (boolMetric R M) b wt) r ∧ r.WF ∧
      IsDistances (boolDistanceW R M w) a.arr b.arr r.arr := by
  obtain ⟨r, r1, r2, r3⟩ := cdistW_ok dflt dev par hsize R (boolMetric R M) (by cases M <;> intro _ _ _ <;> rfl) ha hb hwt
    (List.length_pos_iff.2 hk) sa sb hw rfl
  exact ⟨r, r1, r2, isDistances_congr r3 fun _ _ _ u v _ _ _ _ _ _ => bool_betweenW R M w u v⟩

theorem C62_weighted_cosine_partial (R : Reals ω) (dflt dev : Order) (par : Option BlockPlan) {size : Nat}
    (hsize : 0 < size) (a b : Tensor ω) (wt : Tensor ω) (ha : a.WF) (hb : b.WF) (hwt : wt.WF) {m n : Nat} {w : List ω}
    (sa : a.arr.shape = [m, w.length]) (sb : b.arr.shape = [n, w.length]) (hw : IsVector wt.arr w) (hk : w ≠ []) :
    ∃ r, Delivers (a.cdistW dflt dev par size R (rowMetric R .cosine) b wt) r ∧ r.WF ∧
      IsDistances (cosineW R w) a.arr b.arr r.arr := by
  obtain ⟨r, r1, r2, r3⟩ := cdistW_ok dflt dev par hsize R (rowMetric R .cosine) (by intro h; cases h) ha hb hwt
    (List.length_pos_iff.2 hk) sa sb hw rfl
  exact ⟨r, r1, r2, isDistances_congr r3 fun _ _ _ u v _ _ _ _ _ _ => cosine_betweenW R w u v⟩

/-- Tensors that are not matrices, or whose rows differ in length, are rejected, whatever the metric. -/
theorem C62_reject (M : Metric α ω) (R : Reals ω) (dflt dev : Order) (par : Option BlockPlan) (size : Nat) (a b : Tensor α) (wt : Tensor ω)
    (hwt : wt.WF) (h : ¬ ∃ m n k, a.arr.shape = [m, k] ∧ b.arr.shape = [n, k]) :
    a.cdist dev par size M b = .error .invalidLayout ∧ a.cdistW dflt dev par size R M b wt = .error .invalidLayout := by
  unfold Tensor.cdist Tensor.cdistW
  by_cases h1 : a.layout.ndim = 2
  · by_cases h2 : b.layout.ndim = 2
    · have h3 : a.layout.dimAt 1 ≠ b.layout.dimAt 1 := fun e => h (by
        obtain ⟨x, y, hxy⟩ := List.length_eq_two.1 h1
        obtain ⟨x', y', hxy'⟩ := List.length_eq_two.1 h2
        refine ⟨x.dim, x'.dim, y.dim, ?_, ?_⟩
        · simp [Tensor.arr, Layout.shape, hxy]
        · simp [Layout.dimAt, Layout.shape, hxy, hxy'] at e
          simp [Tensor.arr, Layout.shape, hxy', e])
      simp only [h1, h2, h3, ne_eq, not_true_eq_false, not_false_eq_true, if_true, if_false]
      refine ⟨trivial, ?_⟩
      split
      · rfl
      · obtain ⟨c, c1, -⟩ := intoContig_ok dflt hwt .C
        rw [c1]; rfl
    · simp [h1, h2]
  · simp [h1]

/-- Weights that are not a vector are rejected. -/
theorem C62_weighted_reject (M : Metric α ω) (R : Reals ω) (dflt dev : Order) (par : Option BlockPlan) (size : Nat) (a b : Tensor α)
    (wt : Tensor ω) (h : wt.arr.shape.length ≠ 1) : a.cdistW dflt dev par size R M b wt = .error .invalidLayout := by
  have h : wt.layout.ndim ≠ 1 := by simpa [Tensor.arr, Layout.shape, Layout.ndim] using h
  unfold Tensor.cdistW
  split
  · rfl
  · split
    · rfl
    · rfl

/-! ## Weights that are natural numbers -/

/-- Laws that hold for real numbers. -/
structure Lawful (R : Reals ω) : Prop where
  plus_assoc : ∀ x y z, R.plus (R.plus x y) z = R.plus x (R.plus y z)
  plus_zero : ∀ x, R.plus x R.zero = x
  ofNat_zero : R.ofNat 0 = R.zero
  ofNat_succ : ∀ n, R.ofNat (n + 1) = R.plus (R.ofNat n) R.one
  zero_times : ∀ x, R.times R.zero x = R.zero
  succ_times : ∀ n x, R.times (R.plus (R.ofNat n) R.one) x = R.plus (R.times (R.ofNat n) x) x
  times_assoc : ∀ x y z, R.times (R.times x y) z = R.times x (R.times y z)
  over_times : ∀ x y z, R.over (R.times x y) z = R.times x (R.over y z)
  max_max : ∀ x y, R.max (R.max x y) y = R.max x y
  isZero_ofNat : ∀ n, R.isZero (R.ofNat n) = decide (n = 0)

/-- Every item as often as its weight says. -/
def copies {β : Type} (P : List β) (n : List Nat) : List β := (P.zip n).flatMap fun p => List.replicate p.2 p.1

theorem zip_repeated (n : List Nat) (u v : List α) : (repeated n u).zip (repeated n v) = copies (u.zip v) n := by
  unfold repeated copies
  induction n generalizing u v with
  | nil => simp
  | cons c n ih =>
    cases u with
    | nil => simp
    | cons x u =>
      cases v with
      | nil => simp
      | cons y v =>
        simp only [List.zip_cons_cons, List.flatMap_cons]
        rw [List.zip_append (by simp), ih, List.zip_replicate']

/-- A loop over the copies, if copies of one item act as its weight does. -/
theorem foldl_copies {β σ : Type} (R : Reals ω) (step : σ → β → σ) (stepW : σ → β → ω → σ)
    (h : ∀ c s x, (List.replicate c x).foldl step s = stepW s x (R.ofNat c)) (P : List β) (n : List Nat) (s : σ) :
    (P.zip (n.map R.ofNat)).foldl (fun s p => stepW s p.1 p.2) s = (copies P n).foldl step s := by
  unfold copies
  induction n generalizing P s with
  | nil => simp
  | cons c n ih =>
    cases P with
    | nil => simp
    | cons x P => simp only [List.map_cons, List.zip_cons_cons, List.foldl_cons, List.flatMap_cons, List.foldl_append, ih, h]

theorem Lawful.sum {R : Reals ω} (L : Lawful R) {β : Type} (f : β → ω) (c : Nat) (s : ω) (x : β) :
    (List.replicate c x).foldl (fun s x => R.plus s (f x)) s = R.plus s (R.times (R.ofNat c) (f x)) := by
  induction c with
  | zero => simp [L.ofNat_zero, L.zero_times, L.plus_zero]
  | succ c ih => rw [List.replicate_succ', List.foldl_append, ih, List.foldl_cons, List.foldl_nil, L.ofNat_succ, L.succ_times, L.plus_assoc]

theorem Lawful.count {R : Reals ω} (L : Lawful R) {β : Type} (q : β → Bool) (c : Nat) (s : ω) (x : β) :
    (List.replicate c x).foldl (fun s x => if q x then R.plus s R.one else s) s = if q x then R.plus s (R.ofNat c) else s := by
  by_cases h : q x = true
  · rw [if_pos h]
    induction c with
    | zero => simp [L.ofNat_zero, L.plus_zero]
    | succ c ih => rw [List.replicate_succ', List.foldl_append, ih, List.foldl_cons, List.foldl_nil, if_pos h, L.ofNat_succ, L.plus_assoc]
  · rw [if_neg h]
    induction c with
    | zero => rfl
    | succ c ih => rw [List.replicate_succ', List.foldl_append, ih, List.foldl_cons, List.foldl_nil, if_neg h]

theorem Lawful.total {R : Reals ω} (L : Lawful R) (n : List Nat) : R.total (n.map R.ofNat) = R.ofNat n.sum := by
  have h : ∀ acc : Nat, (n.map R.ofNat).foldl R.plus (R.ofNat acc) = R.ofNat (acc + n.sum) := by
    induction n with
    | nil => simp
    | cons c n ih =>
      intro acc
      have : ∀ c, R.plus (R.ofNat acc) (R.ofNat c) = R.ofNat (acc + c) := by
        intro c
        induction c with
        | zero => rw [L.ofNat_zero, L.plus_zero]; rfl
        | succ c ihc => rw [L.ofNat_succ, ← L.plus_assoc, ihc, ← L.ofNat_succ]; rfl
      rw [List.map_cons, List.foldl_cons, this, ih, List.sum_cons, Nat.add_assoc]
  have := h 0
  rw [L.ofNat_zero, Nat.zero_add] at this
  exact this

theorem length_repeated {n : List Nat} {u : List α} (h : u.length = n.length) : (repeated n u).length = n.sum := by
  unfold repeated
  induction n generalizing u with
  | nil => simp
  | cons c n ih =>
    cases u with
    | nil => simp at h
    | cons x u => simp [ih (by simpa using h)]

theorem num_repeated {R : Reals ω} (L : Lawful R) (E : Elems α ω) (M : NumMetric ω) (n : List Nat) (u v : List α)
    (hu : u.length = n.length) :
    numDistanceW R E M (n.map R.ofNat) u v = numDistance R E M (repeated n u) (repeated n v) := by
  cases M <;> simp only [numDistance, numDistanceW, zip_repeated, Reals.total, List.foldl_map, List.foldl_filter]
  case euclidean =>
    rw [foldl_copies R (fun x (y : α × α) => R.plus x (E.square (E.sub y.1 y.2)))
      (fun x y c => R.plus x (R.times c (E.square (E.sub y.1 y.2)))) (L.sum _)]
  case sqEuclidean =>
    rw [foldl_copies R (fun x (y : α × α) => R.plus x (E.square (E.sub y.1 y.2)))
      (fun x y c => R.plus x (R.times c (E.square (E.sub y.1 y.2)))) (L.sum _)]
  case minkowski p =>
    rw [foldl_copies R (fun x (y : α × α) => R.plus x (R.pow (E.abs (E.sub y.1 y.2)) p))
      (fun x y c => R.plus x (R.times c (R.pow (E.abs (E.sub y.1 y.2)) p))) (L.sum _)]
  case cityBlock =>
    rw [foldl_copies R (fun x (y : α × α) => R.plus x (E.abs (E.sub y.1 y.2)))
      (fun x y c => R.plus x (R.times c (E.abs (E.sub y.1 y.2)))) (L.sum _)]
  case canberra =>
    rw [foldl_copies R (fun x (y : α × α) => if !R.isZero (R.plus (E.abs y.1) (E.abs y.2)) then
      R.plus x (R.over (E.abs (E.sub y.1 y.2)) (R.plus (E.abs y.1) (E.abs y.2))) else x)
      (fun x y c => if !R.isZero (R.plus (E.abs y.1) (E.abs y.2)) then
        R.plus x (R.over (R.times c (E.abs (E.sub y.1 y.2))) (R.plus (E.abs y.1) (E.abs y.2))) else x)]
    intro c s x
    by_cases h : R.isZero (R.plus (E.abs x.1) (E.abs x.2)) = true
    · simp only [h, Bool.not_true, Bool.false_eq_true, if_false]
      induction c with
      | zero => rfl
      | succ c ih => rw [List.replicate_succ', List.foldl_append, ih, List.foldl_cons, List.foldl_nil, h]; rfl
    · simp only [h, Bool.not_false, if_true]
      rw [L.over_times, ← L.sum (fun x : α × α => R.over (E.abs (E.sub x.1 x.2)) (R.plus (E.abs x.1) (E.abs x.2)))]
      induction c with
      | zero => rfl
      | succ c ih => simp only [List.replicate_succ', List.foldl_append, ih, List.foldl_cons, List.foldl_nil, h]; rfl
  case chebyshev =>
    rw [foldl_copies R (fun x (y : α × α) => R.max x (E.abs (E.sub y.1 y.2)))
      (fun x y c => if !R.isZero c then R.max x (E.abs (E.sub y.1 y.2)) else x)]
    intro c s x
    rw [L.isZero_ofNat]
    cases c with
    | zero => rfl
    | succ c =>
      simp only [Nat.add_eq_zero_iff, Nat.one_ne_zero, and_false, decide_false, Bool.not_false, if_true]
      induction c with
      | zero => rfl
      | succ c ih => rw [List.replicate_succ', List.foldl_append, ih, List.foldl_cons, List.foldl_nil, L.max_max]
  case brayCurtis =>
    rw [foldl_copies R (fun x (y : α × α) => R.plus x (E.abs (E.sub y.1 y.2)))
      (fun x y c => R.plus x (R.times c (E.abs (E.sub y.1 y.2)))) (L.sum _),
      foldl_copies R (fun x (y : α × α) => R.plus x (E.abs (E.add y.1 y.2)))
      (fun x y c => R.plus x (R.times c (E.abs (E.add y.1 y.2)))) (L.sum _)]
  case hamming =>
    rw [foldl_copies R (fun x (y : α × α) => if E.ne y.1 y.2 then R.plus x R.one else x)
      (fun x y c => if E.ne y.1 y.2 then R.plus x c else x) (L.count fun y : α × α => E.ne y.1 y.2), length_repeated hu, ← L.total n]
    simp only [Reals.total, List.foldl_map]

theorem bool_repeated {R : Reals ω} (L : Lawful R) (M : BoolMetric) (n : List Nat) (u v : List Bool) (hu : u.length = n.length) :
    boolDistanceW R M (n.map R.ofNat) u v = boolDistance R M (repeated n u) (repeated n v) := by
  unfold boolDistance boolDistanceW
  rw [L.total n, length_repeated hu]
  congr 1
  funext q
  simp only [zip_repeated, Reals.total, List.foldl_map, List.foldl_filter]
  exact foldl_copies R (fun x (y : Bool × Bool) => if q y then R.plus x R.one else x)
    (fun x y c => if q y then R.plus x c else x) (L.count q) _ _ _

theorem cosine_repeated {R : Reals ω} (L : Lawful R) (n : List Nat) (u v : List ω) :
    cosineW R (n.map R.ofNat) u v = rowDistance R .cosine (repeated n u) (repeated n v) := by
  have h : ∀ x : List ω, repeated n x = copies x n := fun _ => rfl
  simp only [cosineW, rowDistance, zip_repeated, Reals.total, List.foldl_map, L.times_assoc]
  rw [h u, h v, foldl_copies R (fun x (y : ω × ω) => R.plus x (R.times y.1 y.2))
      (fun x y c => R.plus x (R.times c (R.times y.1 y.2))) (L.sum _),
    foldl_copies R (fun x (y : ω) => R.plus x (R.times y y)) (fun x y c => R.plus x (R.times c (R.times y y))) (L.sum _),
    foldl_copies R (fun x (y : ω) => R.plus x (R.times y y)) (fun x y c => R.plus x (R.times c (R.times y y))) (L.sum _)]

/-- For numbers with the laws of real numbers, a weight `c` counts its column `c` times. For correlation distances this is
false (`C62_false_correlation`). -/
theorem C62_weights_repeat_partial (R : Reals ω) (L : Lawful R) (E : Elems α ω) (M : NumMetric ω) (dflt dev : Order)
    (par : Option BlockPlan) {size : Nat} (hsize : 0 < size) (a b : Tensor α) (wt : Tensor ω) (ha : a.WF) (hb : b.WF) (hwt : wt.WF)
    {m n : Nat} {c : List Nat} (sa : a.arr.shape = [m, c.length]) (sb : b.arr.shape = [n, c.length])
    (hw : IsVector wt.arr (c.map R.ofNat)) (hk : c ≠ []) :
    ∃ r, Delivers (a.cdistW dflt dev par size R (numMetric R E M) b wt) r ∧ r.WF ∧
      IsDistances (fun u v => numDistance R E M (repeated c u) (repeated c v)) a.arr b.arr r.arr := by
  obtain ⟨r, r1, r2, r3⟩ := C62_weighted_partial R E M dflt dev par hsize a b wt ha hb hwt (w := c.map R.ofNat) (by simpa using sa)
    (by simpa using sb) hw (by simpa using hk)
  refine ⟨r, r1, r2, isDistances_congr r3 fun _ _ k u v hu _ hk' _ _ _ => num_repeated L E M c u v ?_⟩
  rw [sa] at hk'
  rw [hu.1]
  simpa using hk'.symm

theorem C62_weights_repeat_bool_partial (R : Reals ω) (L : Lawful R) (M : BoolMetric) (dflt dev : Order)
    (par : Option BlockPlan) {size : Nat} (hsize : 0 < size) (a b : Tensor Bool) (wt : Tensor ω) (ha : a.WF) (hb : b.WF) (hwt : wt.WF)
    {m n : Nat} {c : List Nat} (sa : a.arr.shape = [m, c.length]) (sb : b.arr.shape = [n, c.length])
    (hw : IsVector wt.arr (c.map R.ofNat)) (hk : c ≠ []) :
    ∃ r, Delivers (a.cdistW dflt dev par size R (boolMetric R M) b wt) r ∧ r.WF ∧
      IsDistances (fun u v => boolDistance R M (repeated c u) (repeated c v)) a.arr b.arr r.arr := by
  obtain ⟨r, r1, r2, r3⟩ := C62_weighted_bool_partial R M dflt dev par hsize a b wt ha hb hwt (w := c.map R.ofNat) (by simpa using sa)
    (by simpa using sb) hw (by simpa using hk)
  refine ⟨r, r1, r2, isDistances_congr r3 fun _ _ k u v hu _ hk' _ _ _ => bool_repeated L M c u v ?_⟩
  rw [sa] at hk'
  rw [hu.1]
  simpa using hk'.symm

theorem C62_weights_repeat_cosine_partial (R : Reals ω) (L : Lawful R) (dflt dev : Order)
    (par : Option BlockPlan) {size : Nat} (hsize : 0 < size) (a b : Tensor ω) (wt : Tensor ω) (ha : a.WF) (hb : b.WF) (hwt : wt.WF)
    {m n : Nat} {c : List Nat} (sa : a.arr.shape = [m, c.length]) (sb : b.arr.shape = [n, c.length])
    (hw : IsVector wt.arr (c.map R.ofNat)) (hk : c ≠ []) :
    ∃ r, Delivers (a.cdistW dflt dev par size R (rowMetric R .cosine) b wt) r ∧ r.WF ∧
      IsDistances (fun u v => rowDistance R .cosine (repeated c u) (repeated c v)) a.arr b.arr r.arr := by
  obtain ⟨r, r1, r2, r3⟩ := C62_weighted_cosine_partial R dflt dev par hsize a b wt ha hb hwt (w := c.map R.ofNat) (by simpa using sa)
    (by simpa using sb) hw (by simpa using hk)
  exact ⟨r, r1, r2, isDistances_congr r3 fun _ _ k u v _ _ _ _ _ _ => cosine_repeated L c u v⟩

/-! ## Where the code fails -/

/-- Rational numbers; the square root is right for squares of rationals with small terms. -/
def rat : Reals Rat where
  zero := 0
  one := 1
  plus := (· + ·)
  minus := (· - ·)
  times := (· * ·)
  over := (· / ·)
  sqrt x := (((List.range 200).find? fun n => n * n == x.num.natAbs).getD 0 : Rat) /
    (((List.range 200).find? fun n => n * n == x.den).getD 0 : Rat)
  pow _ _ := 0
  ln _ := 0
  max x y := if x ≤ y then y else x
  infinity := 0
  ofNat n := n
  isZero x := decide (x = 0)
  lt x y := decide (x < y)
  le x y := decide (x ≤ y)

theorem rat_lawful : Lawful rat where
  plus_assoc := add_assoc (G := Rat)
  plus_zero := add_zero (M := Rat)
  ofNat_zero := Nat.cast_zero (R := Rat)
  ofNat_succ n := Nat.cast_succ (R := Rat) n
  zero_times := zero_mul (M₀ := Rat)
  succ_times n x := by show ((n : Rat) + 1) * x = n * x + x; ring
  times_assoc := mul_assoc (G := Rat)
  over_times := mul_div_assoc (G := Rat)
  max_max x y := by simp only [rat]; grind
  isZero_ofNat n := by simp [rat]

def ratElems : Elems Rat Rat := ⟨(· - ·), (· + ·), fun x => if x < 0 then -x else x, fun x => x * x, (· != ·)⟩

/-- Whether a serial call has ended with this tensor. -/
def doneWith [DecidableEq ω] (run : Res (AxesRun ω (Tensor ω))) (t : Tensor ω) : Bool :=
  match run with
  | .ok (.done r) => r.data = t.data ∧ r.layout.axes.map (fun x => (x.dim, x.str)) = t.layout.axes.map (fun x => (x.dim, x.str)) ∧
      r.layout.offset = t.layout.offset
  | _ => false

theorem of_doneWith [DecidableEq ω] {run : Res (AxesRun ω (Tensor ω))} {t : Tensor ω} (h : doneWith run t = true) :
    run = .ok (.done t) := by
  unfold doneWith at h
  split at h
  · rename_i r
    obtain ⟨h1, h2, h3⟩ := of_decide_eq_true h
    have h4 : r.layout.axes = t.layout.axes :=
      List.map_injective_iff.2 (fun x y e => by cases x; cases y; simpa using e) h2
    obtain ⟨d, ax, o⟩ := r
    obtain ⟨d', ax', o'⟩ := t
    simp only at h1 h3 h4
    subst h1 h3 h4
    rfl
  · cases h

/-- Whether a call has panicked. -/
def panicked (run : Res (AxesRun ω (Tensor ω))) : Bool :=
  match run with
  | .error .panic => true
  | _ => false

theorem of_panicked {run : Res (AxesRun ω (Tensor ω))} (h : panicked run = true) : run = .error .panic := by
  unfold panicked at h
  split at h
  · rfl
  · cases h

/-- Matrices without columns: the distance is the empty sum, zero, and the call panics (the division by zero in
`native_impl.rs:36`). -/
theorem C62_false_no_columns (R : Reals ω) (E : Elems α ω) (M : NumMetric ω) (dev : Order) (par : Option BlockPlan) (size : Nat) :
    let a : Tensor α := ⟨[], ⟨[⟨1, 1⟩, ⟨0, 1⟩], 0⟩⟩
    a.WF ∧ a.arr.shape = [1, 0] ∧ a.cdist dev par size (numMetric R E M) a = .error .panic ∧
      numDistance R E .cityBlock [] [] = R.zero := by
  refine ⟨⟨Int.le_refl 0, rfl⟩, rfl, ?_, rfl⟩
  cases M <;> rfl

/-- One weight for three columns is not rejected: rows next to each other in memory lose their other columns, and the same
rows in the other memory order panic (`metric.rs:362-380`). -/
theorem C62_false_few_weights :
    let a : Tensor Rat := ⟨[1, 2, 3], ⟨[⟨1, 3⟩, ⟨3, 1⟩], 0⟩⟩
    let b : Tensor Rat := ⟨[5, 7, 9], ⟨[⟨1, 3⟩, ⟨3, 1⟩], 0⟩⟩
    let b' : Tensor Rat := ⟨[5, 0, 7, 0, 9], ⟨[⟨1, 1⟩, ⟨3, 2⟩], 0⟩⟩
    let w : Tensor Rat := ⟨[1], ⟨[⟨1, 1⟩], 0⟩⟩
    a.WF ∧ b.WF ∧ b'.WF ∧ w.WF ∧ b.arr.Same b'.arr ∧
      a.cdistW .C .C none 8 rat (numMetric rat ratElems .cityBlock) b w = .ok (.done ⟨[4], ⟨[⟨1, 1⟩, ⟨1, 1⟩], 0⟩⟩) ∧
      a.cdistW .C .C none 8 rat (numMetric rat ratElems .cityBlock) b' w = .error .panic := by
  refine ⟨⟨by decide, rfl⟩, ⟨by decide, rfl⟩, ⟨by decide, rfl⟩, ⟨by decide, rfl⟩, ⟨rfl, ?_⟩, of_doneWith (by decide +kernel),
    of_panicked (by decide +kernel)⟩
  intro idx hi
  obtain ⟨i, j, rfl, hi, hj⟩ := of_inRange2 (m := 1) (n := 3) hi
  obtain rfl : i = 0 := by omega
  match j, hj with
  | 0, _ => exact ⟨5, rfl, rfl⟩
  | 1, _ => exact ⟨7, rfl, rfl⟩
  | 2, _ => exact ⟨9, rfl, rfl⟩

/-- Weights beyond the last column are not rejected either, and change the Hamming distance: every column differs, and
the distance is one half. -/
theorem C62_false_many_weights :
    let a : Tensor Rat := ⟨[1, 2], ⟨[⟨1, 2⟩, ⟨2, 1⟩], 0⟩⟩
    let b : Tensor Rat := ⟨[3, 4], ⟨[⟨1, 2⟩, ⟨2, 1⟩], 0⟩⟩
    let w : Tensor Rat := ⟨[1, 1, 1, 1], ⟨[⟨4, 1⟩], 0⟩⟩
    a.WF ∧ b.WF ∧ w.WF ∧
      a.cdistW .C .C none 8 rat (numMetric rat ratElems .hamming) b w = .ok (.done ⟨[1/2], ⟨[⟨1, 1⟩, ⟨1, 1⟩], 0⟩⟩) := by
  exact ⟨⟨by decide, rfl⟩, ⟨by decide, rfl⟩, ⟨by decide, rfl⟩, of_doneWith (by decide +kernel)⟩

/-- The weighted correlation distance centres with the mean without weights (`metric.rs:773-795`): the result is `32/25`, and
the distance of the rows with every column repeated as its weight says is `2`. The last column has weight zero and changes
the result. -/
theorem C62_false_correlation :
    let u : List Rat := [0, 8, 13]
    let v : List Rat := [8, 0, 13]
    let a : Tensor Rat := ⟨u, ⟨[⟨1, 3⟩, ⟨3, 1⟩], 0⟩⟩
    let b : Tensor Rat := ⟨v, ⟨[⟨1, 3⟩, ⟨3, 1⟩], 0⟩⟩
    let w : Tensor Rat := ⟨[2, 2, 0], ⟨[⟨3, 1⟩], 0⟩⟩
    a.WF ∧ b.WF ∧ w.WF ∧
      a.cdistW .C .C none 8 rat (rowMetric rat .correlation) b w = .ok (.done ⟨[32/25], ⟨[⟨1, 1⟩, ⟨1, 1⟩], 0⟩⟩) ∧
      rowDistance rat .correlation (repeated [2, 2, 0] u) (repeated [2, 2, 0] v) = 2 := by
  exact ⟨⟨by decide, rfl⟩, ⟨by decide, rfl⟩, ⟨by decide, rfl⟩, of_doneWith (by decide +kernel), by decide +kernel⟩

/-! ## The hypotheses are met -/

/-- Three rows of two columns in gaps, from the back. -/
def exRows : Tensor Rat := ⟨[1, 2, 3, 4, 5, 6, 7, 8, 9, 10, 11, 12], ⟨[⟨3, -4⟩, ⟨2, 2⟩], 9⟩⟩
def exCols : Tensor Rat := ⟨[1, 0, 2, 5, 3, 3], ⟨[⟨3, 1⟩, ⟨2, 3⟩], 0⟩⟩
def exWeights : Tensor Rat := ⟨[9, 1, 9, 2], ⟨[⟨2, 2⟩], 1⟩⟩

theorem exRows_wf : exRows.WF := ⟨by decide, rfl⟩
theorem exCols_wf : exCols.WF := ⟨by decide, rfl⟩
theorem exWeights_wf : exWeights.WF := ⟨by decide, rfl⟩

example (M : NumMetric Rat) (dev : Order) (par : Option BlockPlan) :=
  C62_cdist_partial rat ratElems M dev par (size := 8) (by decide) exRows exCols exRows_wf exCols_wf (m := 3) (n := 3) (k := 2) rfl rfl
    (by decide)
example (dev : Order) (par : Option BlockPlan) :=
  C62_default_partial rat ratElems dev par (size := 8) (by decide) exRows exCols exRows_wf exCols_wf (m := 3) (n := 3) (k := 2) rfl rfl
    (by decide)
example (M : RowMetric) (dev : Order) (par : Option BlockPlan) :=
  C62_rows_partial rat M dev par (size := 8) (by decide) exRows exCols exRows_wf exCols_wf (m := 3) (n := 3) (k := 2) rfl rfl
    (by decide)
example (M : BoolMetric) (dev : Order) (par : Option BlockPlan) :=
  let a : Tensor Bool := ⟨[true, false, true, true, false, false], ⟨[⟨2, 3⟩, ⟨3, 1⟩], 0⟩⟩
  C62_bool_partial rat M dev par (size := 1) (by decide) a a ⟨by decide, rfl⟩ ⟨by decide, rfl⟩ (m := 2) (n := 2) (k := 3) rfl rfl
    (by decide)

theorem exCols_positive : NoNegative rat exCols.arr := by
  intro idx hi x hx
  obtain ⟨i, j, rfl, hi, hj⟩ := of_inRange2 (m := 3) (n := 2) hi
  match i, j, hi, hj with
  | 0, 0, _, _ => cases hx; decide +kernel
  | 0, 1, _, _ => cases hx; decide +kernel
  | 1, 0, _, _ => cases hx; decide +kernel
  | 1, 1, _, _ => cases hx; decide +kernel
  | 2, 0, _, _ => cases hx; decide +kernel
  | 2, 1, _, _ => cases hx; decide +kernel

example (dev : Order) (par : Option BlockPlan) :=
  C62_jensen_shannon_partial rat dev par (size := 8) (by decide) exCols exCols exCols_wf exCols_wf (m := 3) (n := 3) (k := 2) rfl rfl
    (by decide) exCols_positive exCols_positive

theorem exWeights_vector : IsVector exWeights.arr ([1, 2].map rat.ofNat) := by
  refine ⟨rfl, fun j hj => ?_⟩
  match j, hj with
  | 0, _ => rfl
  | 1, _ => rfl

example (M : NumMetric Rat) (dflt dev : Order) (par : Option BlockPlan) :=
  C62_weighted_partial rat ratElems M dflt dev par (size := 8) (by decide) exRows exCols exWeights exRows_wf exCols_wf exWeights_wf
    (m := 3) (n := 3) (w := [1, 2].map rat.ofNat) rfl rfl exWeights_vector (by simp)
example (M : NumMetric Rat) (dflt dev : Order) (par : Option BlockPlan) :=
  C62_weights_repeat_partial rat rat_lawful ratElems M dflt dev par (size := 8) (by decide) exRows exCols exWeights exRows_wf exCols_wf
    exWeights_wf (m := 3) (n := 3) (c := [1, 2]) rfl rfl exWeights_vector (by simp)
example (dflt dev : Order) (par : Option BlockPlan) :=
  C62_weights_repeat_cosine_partial rat rat_lawful dflt dev par (size := 8) (by decide) exRows exCols exWeights exRows_wf exCols_wf
    exWeights_wf (m := 3) (n := 3) (c := [1, 2]) rfl rfl exWeights_vector (by simp)
example (dflt dev : Order) (par : Option BlockPlan) :=
  C62_weighted_cosine_partial rat dflt dev par (size := 8) (by decide) exRows exCols exWeights exRows_wf exCols_wf exWeights_wf
    (m := 3) (n := 3) (w := [1, 2].map rat.ofNat) rfl rfl exWeights_vector (by simp)
example (M : BoolMetric) (dflt dev : Order) (par : Option BlockPlan) :=
  let a : Tensor Bool := ⟨[true, false, true, true], ⟨[⟨2, 2⟩, ⟨2, 1⟩], 0⟩⟩
  C62_weighted_bool_partial rat M dflt dev par (size := 1) (by decide) a a exWeights ⟨by decide, rfl⟩ ⟨by decide, rfl⟩ exWeights_wf
    (m := 2) (n := 2) (w := [1, 2].map rat.ofNat) rfl rfl exWeights_vector (by simp)
example (M : BoolMetric) (dflt dev : Order) (par : Option BlockPlan) :=
  let a : Tensor Bool := ⟨[true, false, true, true], ⟨[⟨2, 2⟩, ⟨2, 1⟩], 0⟩⟩
  C62_weights_repeat_bool_partial rat rat_lawful M dflt dev par (size := 1) (by decide) a a exWeights ⟨by decide, rfl⟩ ⟨by decide, rfl⟩
    exWeights_wf (m := 2) (n := 2) (c := [1, 2]) rfl rfl exWeights_vector (by simp)
example (M : Metric Rat Rat) (dflt dev : Order) (par : Option BlockPlan) :=
  C62_reject M rat dflt dev par 8 exRows exWeights exWeights exWeights_wf (by rintro ⟨m, n, k, -, h⟩; cases h)
example (M : Metric Rat Rat) (dflt dev : Order) (par : Option BlockPlan) :=
  C62_weighted_reject M rat dflt dev par 8 exRows exCols exCols (by decide)

end
end Rstsr
