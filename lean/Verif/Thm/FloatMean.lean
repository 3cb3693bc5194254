import Verif.Proof.FloatMean
import Verif.Thm.FloatVecdot
/-!
# C102: mean, variance, standard deviation and norm of floats

The reductions are those of `Model/Reduce` and `Model/ReduceAxes`, with operations of which only what IEEE 754 says is
assumed.
-/
namespace Rstsr
open Spec

section
variable {p e : Nat} (hp : 1 ≤ p) (hpe : p ≤ e) {add sub mul div : Flt → Flt → Flt} {ofNat : Nat → Flt}
  (A : NearestAdd p e add) (S : NearestSub p e sub) (M : NearestMul p e mul) (D : NearestDiv p e div) (C : ExactCounts p e ofNat)

theorem ulp_nonneg (p : Nat) : (0 : ℚ) ≤ 1 / 2 ^ p := by positivity

include hp hpe D C in
/-- A quotient by the number of elements. -/
theorem over_count {xs : List Flt} (hx : xs ≠ []) (hn : xs.length ≤ 2 ^ p) {s : Flt} (hs : s.Finite p e) :
    (div s (ofNat xs.length)).Finite p e ∧
      |(div s (ofNat xs.length)).val - s.val / xs.length| ≤ |s.val / xs.length| * (1 / 2 ^ p) + halfTiny p e := by
  obtain ⟨c1, c2⟩ := C xs.length hn
  have h1 : (1 : ℚ) ≤ xs.length := by exact_mod_cast List.length_pos_of_ne_nil hx
  have hb : |s.val / (ofNat xs.length).val| ≤ maxFinite p e := by
    rw [c2, abs_div, Nat.abs_cast]
    exact (div_le_self (abs_nonneg _) h1).trans (rep_le_max (finite_rep hs))
  have := div_err hp hpe D hs c1 (by rw [c2]; linarith) hb
  rwa [c2] at this

include hp hpe A D C in
theorem mean_within {xs : List Flt} {s : Flt} (h : BracketOf (.num 0) add add xs s) (hr : MeanInRange p e xs) :
    MeanWithin p e xs (div s (ofNat xs.length)) := by
  obtain ⟨hx, hn, hf, hT⟩ := hr
  obtain ⟨s1, s2⟩ := bracketOf_within hp hpe A h ⟨hf, hT⟩
  obtain ⟨d1, d2⟩ := over_count hp hpe D C hx hn s1
  have h1 : (1 : ℚ) ≤ xs.length := by exact_mod_cast List.length_pos_of_ne_nil hx
  have hS : |(xs.map Flt.val).sum| ≤ (xs.map fun x => |x.val|).sum := by
    clear * -
    induction xs with
    | nil => simp
    | cons x xs ih => simp only [List.map_cons, List.sum_cons]; exact (abs_add_le _ _).trans (by linarith)
  have := quotient_err h1 (ulp_nonneg p) hS s2 d2
  refine ⟨d1, this.trans (le_of_eq ?_)⟩
  obtain ⟨k, hk⟩ : ∃ k, xs.length = k + 1 := ⟨xs.length - 1, by have := List.length_pos_of_ne_nil hx; omega⟩
  unfold meanAbs
  rw [show xs.length - 1 = k by omega, show (1 + 1 / (2 : ℚ) ^ p) ^ xs.length = (1 + 1 / 2 ^ p) ^ k * (1 + 1 / 2 ^ p) by rw [hk, pow_succ]]
  ring

include hp hpe A S M D C in
theorem var_within {xs : List Flt} {s : Flt × Flt} (hr : VarInRange p e xs)
    (h : BracketOf ((.num 0, .num 0) : Flt × Flt) (fun acc x => (add acc.1 x, add acc.2 (mul x x)))
      (fun a b => (add a.1 b.1, add a.2 b.2)) xs s) :
    VarWithin p e xs (sub (div s.2 (ofNat xs.length)) (mul (div s.1 (ofNat xs.length)) (div s.1 (ofNat xs.length)))) := by
  obtain ⟨hm, hd, hT⟩ := hr
  obtain ⟨b1, b2⟩ := bracketOf_moments h
  obtain ⟨m1, m2⟩ := mean_within hp hpe A D C b1 hm
  have b3 : DotBracket (floatDot add mul) (xs.map fun x => (x, x)) s.2 := bracketOf_map (fun x : Flt => (x, x)) (fun _ _ => rfl) b2
  obtain ⟨q1, q2⟩ := dotBracket_within hp hpe A M b3 hd
  obtain ⟨hx, hn, -, -⟩ := hm
  obtain ⟨r1, r2⟩ := over_count hp hpe D C hx hn q1
  have h1 : (1 : ℚ) ≤ xs.length := by exact_mod_cast List.length_pos_of_ne_nil hx
  have hn0 : (xs.length : ℚ) ≠ 0 := by linarith
  have hsq : ∀ x : Flt, |x.val * x.val| = x.val * x.val := fun x => abs_of_nonneg (mul_self_nonneg _)
  simp only [List.map_map, Function.comp_def, List.length_map, hsq] at q2
  have hS0 : 0 ≤ (xs.map fun x => x.val * x.val).sum :=
    List.sum_nonneg (by rintro _ h; obtain ⟨q, -, rfl⟩ := List.mem_map.1 h; exact mul_self_nonneg _)
  have r3 := quotient_err h1 (ulp_nonneg p) (abs_of_nonneg hS0).le q2 r2
  have ht := halfTiny_pos p e
  have ht1 := tiny_le_one hp hpe
  have hA0 := meanAbs_nonneg xs
  have hAM := meanAbs_sq xs
  have hu := ulp_nonneg p
  have hmA := meanOf_abs xs
  obtain ⟨k, hk⟩ : ∃ k, xs.length = k + 1 := ⟨xs.length - 1, by have := List.length_pos_of_ne_nil hx; omega⟩
  have r4 : |(div s.2 (ofNat xs.length)).val - meanSquare xs| ≤
      ((1 + 1 / 2 ^ p) ^ xs.length * (1 + 1 / 2 ^ p) - 1) * meanSquare xs + ((1 + 1 / 2 ^ p) ^ xs.length + 1) * halfTiny p e := by
    refine r3.trans (le_of_eq ?_)
    rw [show xs.length - 1 = k by omega, show (1 + 1 / (2 : ℚ) ^ p) ^ xs.length = (1 + 1 / 2 ^ p) ^ k * (1 + 1 / 2 ^ p) by rw [hk, pow_succ]]
    unfold meanSquare
    field_simp
    ring
  have hP : (1 : ℚ) ≤ (1 + 1 / 2 ^ p) ^ xs.length := one_le_pow₀ (by linarith)
  have hth : (1 : ℚ) ≤ 1 + 1 / 2 ^ p := by linarith
  have e2 : (1 + 1 / (2 : ℚ) ^ p) ^ (2 * xs.length + 1) = (1 + 1 / 2 ^ p) ^ xs.length * (1 + 1 / 2 ^ p) ^ xs.length * (1 + 1 / 2 ^ p) := by
    rw [pow_succ, two_mul, pow_add]
  have e3 : (1 + 1 / (2 : ℚ) ^ p) ^ (2 * xs.length + 2) =
      (1 + 1 / 2 ^ p) ^ xs.length * (1 + 1 / 2 ^ p) ^ xs.length * (1 + 1 / 2 ^ p) * (1 + 1 / 2 ^ p) := by
    rw [pow_succ, e2]
  have hvar := varOf_eq hx
  unfold VarWithin
  rw [e3, hvar]
  rw [e2] at hT
  generalize div s.2 (ofNat xs.length) = q at *
  generalize div s.1 (ofNat xs.length) = m at *
  generalize (1 + 1 / (2 : ℚ) ^ p) ^ xs.length = P at *
  generalize meanSquare xs = M2 at *
  generalize meanAbs xs = B at *
  generalize meanOf xs = μ at *
  obtain ⟨w1, w2⟩ := square_err hmA m2
  obtain ⟨f1, f2⟩ := square_bounds hP hA0 hAM ht.le ht1
  have w3 := w2.trans f1
  have hM0 : 0 ≤ M2 := (mul_self_nonneg B).trans hAM
  have hX : (1 : ℚ) ≤ P * P := hP.trans (le_mul_of_one_le_left (by linarith) hP)
  obtain ⟨p1, p2⟩ := mul_err hp hpe M m1 m1 (w3.trans (le_trans (by
    generalize P * P = X at *
    have k1 : 0 ≤ X * M2 * (1 / 2 ^ p) := mul_nonneg (mul_nonneg (by linarith) hM0) hu
    have k2 : 0 ≤ X * M2 := mul_nonneg (by linarith) hM0
    have k3 : 0 ≤ X * halfTiny p e := mul_nonneg (by linarith) ht.le
    have k4 : 0 ≤ X * halfTiny p e * B := mul_nonneg k3 hA0
    have k5 : 0 ≤ X * halfTiny p e * (1 / 2 ^ p) := mul_nonneg k3 hu
    have k6 : 0 ≤ X * halfTiny p e * B * (1 / 2 ^ p) := mul_nonneg k4 hu
    generalize 1 / (2 : ℚ) ^ p = u at *
    linarith) hT))
  obtain ⟨d1, d2⟩ := difference_bounds (v := (sub q (mul m m)).val) hu hP hA0 hM0 ht.le r4 w3 (w1.trans f2) p2
  obtain ⟨v1, v2⟩ := sub_err hp hpe S r1 p1 (d1.trans hT)
  exact ⟨v1, d2 v2⟩

/-- What the mean of `xs` is, in range and with not-a-number among them. -/
def MeanCell (p e : Nat) (xs : List Flt) (v : Flt) : Prop :=
  (MeanInRange p e xs → MeanWithin p e xs v) ∧ ((∃ x ∈ xs, x.IsNaN) → v.IsNaN)

/-- What the variance of `xs` is. -/
def VarCell (p e : Nat) (xs : List Flt) (v : Flt) : Prop :=
  (VarInRange p e xs → VarWithin p e xs v) ∧ ((∃ x ∈ xs, x.IsNaN) → v.IsNaN)

/-- What the sum of the squares of `xs` is. -/
def SquaresCell (p e : Nat) (xs : List Flt) (v : Flt) : Prop :=
  (DotInRange p e (xs.map fun x => (x, x)) → DotWithin p e (xs.map fun x => (x, x)) v) ∧ ((∃ x ∈ xs, x.IsNaN) → v.IsNaN)

include hp hpe A D C in
theorem mean_cell {xs : List Flt} {s : Flt} (h : BracketOf (.num 0) add add xs s) : MeanCell p e xs (div s (ofNat xs.length)) :=
  ⟨mean_within hp hpe A D C h, fun hn => D.nan _ _ (.inl (bracketOf_nan A h hn))⟩

include hp hpe A S M D C in
theorem var_cell {xs : List Flt} {s : Flt × Flt}
    (h : BracketOf ((.num 0, .num 0) : Flt × Flt) (fun acc x => (add acc.1 x, add acc.2 (mul x x)))
      (fun a b => (add a.1 b.1, add a.2 b.2)) xs s) :
    VarCell p e xs (sub (div s.2 (ofNat xs.length)) (mul (div s.1 (ofNat xs.length)) (div s.1 (ofNat xs.length)))) :=
  ⟨fun hr => var_within hp hpe A S M D C hr h, fun hn =>
    S.nan _ _ (.inr (M.nan _ _ (.inl (D.nan _ _ (.inl (bracketOf_nan A (bracketOf_moments h).1 hn))))))⟩

include hp hpe A M in
theorem squares_cell {xs : List Flt} {s : Flt} (h : BracketOf (.num 0) (fun acc x => add acc (mul x x)) add xs s) : SquaresCell p e xs s := by
  have b : DotBracket (floatDot add mul) (xs.map fun x => (x, x)) s := bracketOf_map (fun x : Flt => (x, x)) (fun _ _ => rfl) h
  refine ⟨dotBracket_within hp hpe A M b, fun ⟨x, hx, hn⟩ => dotBracket_nan A M b ⟨(x, x), List.mem_map.2 ⟨x, hx, rfl⟩, .inl hn⟩⟩

include hp hpe A D C in
/-- `mean` of floats, on every device and for every layout. -/
theorem C102_mean (dflt : Order) (par : Option Scheduler) (hd : Device par) (t : Tensor Flt) (h : t.WF) :
    ∃ v, t.meanAll dflt par (.num 0) add div ofNat = .ok v ∧ MeanCell p e t.arr.elements v := by
  obtain ⟨s, h1, h2⟩ := C100_reduce dflt par hd t h ⟨.num 0, add, add, fun acc => div acc (ofNat t.layout.size)⟩
  refine ⟨_, h2, ?_⟩
  have := mean_cell hp hpe A D C h1
  rwa [(C38_elements t h).1] at this

include hp hpe A S M D C in
/-- `var` of floats. -/
theorem C102_var (dflt : Order) (par : Option Scheduler) (hd : Device par) (t : Tensor Flt) (h : t.WF) :
    ∃ v, t.varAll dflt par (.num 0) add sub mul div ofNat = .ok v ∧ VarCell p e t.arr.elements v := by
  obtain ⟨s, h1, h2⟩ := C100_reduce dflt par hd t h ⟨(.num 0, .num 0), fun acc x => (add acc.1 x, add acc.2 (mul x x)),
    fun a b => (add a.1 b.1, add a.2 b.2), fun acc => sub (div acc.2 (ofNat t.layout.size))
      (mul (div acc.1 (ofNat t.layout.size)) (div acc.1 (ofNat t.layout.size)))⟩
  refine ⟨_, h2, ?_⟩
  have := var_cell hp hpe A S M D C h1
  rwa [(C38_elements t h).1] at this

include hp hpe A S M D C in
/-- `std` of floats: the square root the device computes of a variance with the same bound. -/
theorem C102_std (sqrt : Flt → Flt) (dflt : Order) (par : Option Scheduler) (hd : Device par) (t : Tensor Flt) (h : t.WF) :
    ∃ v, t.stdAll dflt par (.num 0) add sub mul div ofNat sqrt = .ok (sqrt v) ∧ VarCell p e t.arr.elements v := by
  obtain ⟨s, h1, h2⟩ := C100_reduce dflt par hd t h ⟨(.num 0, .num 0), fun acc x => (add acc.1 x, add acc.2 (mul x x)),
    fun a b => (add a.1 b.1, add a.2 b.2), fun acc => sqrt (sub (div acc.2 (ofNat t.layout.size))
      (mul (div acc.1 (ofNat t.layout.size)) (div acc.1 (ofNat t.layout.size))))⟩
  refine ⟨_, h2, ?_⟩
  have := var_cell hp hpe A S M D C h1
  rwa [(C38_elements t h).1] at this

include hp hpe A M in
/-- `l2_norm` of floats: the square root the device computes of a sum of squares within the bound for a sum of products. -/
theorem C102_l2_norm (sqrt : Flt → Flt) (dflt : Order) (par : Option Scheduler) (hd : Device par) (t : Tensor Flt) (h : t.WF) :
    ∃ v, t.l2NormAll dflt par (.num 0) add mul sqrt = .ok (sqrt v) ∧ SquaresCell p e t.arr.elements v := by
  obtain ⟨s, h1, h2⟩ := C100_reduce dflt par hd t h ⟨.num 0, fun acc x => add acc (mul x x), add, sqrt⟩
  exact ⟨s, h2, squares_cell hp hpe A M h1⟩

include hp hpe A D C in
/-- `mean_axes` of floats: each cell of the result, by its slice. Missing: what `C39_kernel_partial` leaves out. -/
theorem C102_mean_axes_partial (dflt : Order) (par : Option (Nat → Scheduler)) (hd : Devices par) (t : Tensor Flt) (h : t.WF)
    (axes : Option (List Int)) (hf : AxesFine t axes) :
    ∃ r, Delivers (t.meanAxes dflt par (.num 0) add div ofNat axes) r ∧ r.WF ∧
      t.arr.ReducedTo (axes.map fun ax => ax.map (normAxis t.arr.shape.length)) (MeanCell p e) r.arr := by
  refine axesApi_ok (fun _ => C102_mean hp hpe A D C dflt _ hd.one t h) fun ax he => ?_
  obtain ⟨ls, lm, g1, g2, -⟩ := slice_ne h (hf ax he).1 (hf ax he).2
  obtain ⟨r, h1, h2, h3⟩ := C100_axes_partial dflt par hd t h (hf ax he).1 ax (hf ax he).2
    ⟨.num 0, add, add, fun acc => div acc (ofNat ls.size)⟩
  refine ⟨r, by simp only [g1, ok_bind]; exact h1, h2, ReducedTo.mono h3 fun j hj v ⟨s, k1, k2⟩ => ?_⟩
  cases k2
  have := mean_cell hp hpe A D C k1
  rwa [slice_length h g1 (by rw [g2, ← h3.1]; exact hj)] at this

include hp hpe A S M D C in
/-- `var_axes` of floats. -/
theorem C102_var_axes_partial (dflt : Order) (par : Option (Nat → Scheduler)) (hd : Devices par) (t : Tensor Flt) (h : t.WF)
    (axes : Option (List Int)) (hf : AxesFine t axes) :
    ∃ r, Delivers (t.varAxes dflt par (.num 0) add sub mul div ofNat axes) r ∧ r.WF ∧
      t.arr.ReducedTo (axes.map fun ax => ax.map (normAxis t.arr.shape.length)) (VarCell p e) r.arr := by
  refine axesApi_ok (fun _ => C102_var hp hpe A S M D C dflt _ hd.one t h) fun ax he => ?_
  obtain ⟨ls, lm, g1, g2, -⟩ := slice_ne h (hf ax he).1 (hf ax he).2
  obtain ⟨r, h1, h2, h3⟩ := C100_axes_partial dflt par hd t h (hf ax he).1 ax (hf ax he).2
    ⟨(.num 0, .num 0), fun acc x => (add acc.1 x, add acc.2 (mul x x)), fun a b => (add a.1 b.1, add a.2 b.2), fun acc =>
      sub (div acc.2 (ofNat ls.size)) (mul (div acc.1 (ofNat ls.size)) (div acc.1 (ofNat ls.size)))⟩
  refine ⟨r, by simp only [g1, ok_bind]; exact h1, h2, ReducedTo.mono h3 fun j hj v ⟨s, k1, k2⟩ => ?_⟩
  cases k2
  have := var_cell hp hpe A S M D C k1
  rwa [slice_length h g1 (by rw [g2, ← h3.1]; exact hj)] at this

include hp hpe A S M D C in
/-- `std_axes` of floats. -/
theorem C102_std_axes_partial (sqrt : Flt → Flt) (dflt : Order) (par : Option (Nat → Scheduler)) (hd : Devices par) (t : Tensor Flt)
    (h : t.WF) (axes : Option (List Int)) (hf : AxesFine t axes) :
    ∃ r, Delivers (t.stdAxes dflt par (.num 0) add sub mul div ofNat sqrt axes) r ∧ r.WF ∧
      t.arr.ReducedTo (axes.map fun ax => ax.map (normAxis t.arr.shape.length)) (fun xs v => ∃ w, v = sqrt w ∧ VarCell p e xs w) r.arr := by
  refine axesApi_ok (fun _ => ?_) fun ax he => ?_
  · obtain ⟨v, h1, h2⟩ := C102_std hp hpe A S M D C sqrt dflt _ hd.one t h
    exact ⟨_, h1, v, rfl, h2⟩
  obtain ⟨ls, lm, g1, g2, -⟩ := slice_ne h (hf ax he).1 (hf ax he).2
  obtain ⟨r, h1, h2, h3⟩ := C100_axes_partial dflt par hd t h (hf ax he).1 ax (hf ax he).2
    ⟨(.num 0, .num 0), fun acc x => (add acc.1 x, add acc.2 (mul x x)), fun a b => (add a.1 b.1, add a.2 b.2), fun acc =>
      sqrt (sub (div acc.2 (ofNat ls.size)) (mul (div acc.1 (ofNat ls.size)) (div acc.1 (ofNat ls.size))))⟩
  refine ⟨r, by simp only [g1, ok_bind]; exact h1, h2, ReducedTo.mono h3 fun j hj v ⟨s, k1, k2⟩ => ?_⟩
  cases k2
  have := var_cell hp hpe A S M D C k1
  rw [slice_length h g1 (by rw [g2, ← h3.1]; exact hj)] at this
  exact ⟨_, rfl, this⟩

include hp hpe A M in
/-- `l2_norm_axes` of floats. -/
theorem C102_l2_norm_axes_partial (sqrt : Flt → Flt) (dflt : Order) (par : Option (Nat → Scheduler)) (hd : Devices par) (t : Tensor Flt)
    (h : t.WF) (axes : Option (List Int)) (hf : AxesFine t axes) :
    ∃ r, Delivers (t.l2NormAxes dflt par (.num 0) add mul sqrt axes) r ∧ r.WF ∧
      t.arr.ReducedTo (axes.map fun ax => ax.map (normAxis t.arr.shape.length))
        (fun xs v => ∃ w, v = sqrt w ∧ SquaresCell p e xs w) r.arr := by
  refine axesApi_ok (fun _ => ?_) fun ax he => ?_
  · obtain ⟨v, h1, h2⟩ := C102_l2_norm hp hpe A M sqrt dflt _ hd.one t h
    exact ⟨_, h1, v, rfl, h2⟩
  obtain ⟨r, h1, h2, h3⟩ := C100_axes_partial dflt par hd t h (hf ax he).1 ax (hf ax he).2
    ⟨.num 0, fun acc x => add acc (mul x x), add, sqrt⟩
  refine ⟨r, h1, h2, ReducedTo.mono h3 fun j hj v ⟨s, k1, k2⟩ => ?_⟩
  cases k2
  exact ⟨_, rfl, squares_cell hp hpe A M k1⟩

end

/-- The count of elements as a float (`T::from_usize`): the nearest float. -/
def countFlt (p e n : Nat) : Flt := roundFlt p e n

theorem countFlt_exact {p e : Nat} (hp : 1 ≤ p) (hpe : p ≤ e) : ExactCounts p e (countFlt p e) := by
  intro n hn
  have hr : Representable p e (n : ℚ) := by
    have := representable_int (n := (n : Int)) (p := p) (e := e) (by rw [abs_of_nonneg (by positivity)]; exact_mod_cast hn) hp hpe
    simpa using this
  have h1 : roundTo p e (n : ℚ) = n := roundTo_exact hr
  have h2 : ¬ (2 : ℚ) ^ (e + 1) ≤ |(n : ℚ)| := by
    rw [Nat.abs_cast]
    intro h
    have h3 : 2 ^ (e + 1) ≤ n := by exact_mod_cast h
    have := (Nat.pow_le_pow_right (by decide : 1 ≤ 2) (show p + 1 ≤ e + 1 by omega)).trans (h3.trans hn)
    have := Nat.pow_lt_pow_right (by decide : 1 < 2) (Nat.lt_succ_self p)
    omega
  have h3 : ¬ ((n : ℚ) = 0 ∧ (n : ℚ) < 0) := fun h => absurd h.2 (by rw [h.1]; exact lt_irrefl _)
  have h4 : countFlt p e n = .num n := by rw [countFlt, roundFlt, h1, if_neg h2, if_neg h3]
  rw [h4]
  exact ⟨⟨n, rfl, hr⟩, rfl⟩

/-- The modelled subtraction, division and counts, for every format. -/
theorem C102_ops_nearest {p e : Nat} (hp : 1 ≤ p) (hpe : p ≤ e) :
    NearestSub p e (fltSub p e) ∧ NearestDiv p e (fltDiv p e) ∧ ExactCounts p e (countFlt p e) :=
  ⟨fltSub_nearest hp hpe, fltDiv_nearest hp hpe, countFlt_exact hp hpe⟩

/-! ## What a user would expect and does not hold -/

/-- `[0.1, 0.1, 0.1]` as `f64`. -/
def tenths : Tensor Flt := ⟨List.replicate 3 (roundFlt 53 1023 (1 / 10)), ⟨[⟨3, 1⟩], 0⟩⟩

theorem tenth_eq : roundFlt 53 1023 (1 / 10) = .num (3602879701896397 / 36028797018963968) := by decide +kernel
theorem tenths_wf : tenths.WF := ⟨by decide, rfl⟩

/-- The mean of `f64` numbers can be greater than all of them. -/
theorem C102_false_mean_range : ∃ v, tenths.meanAll .C none (.num 0) (fltAdd 53 1023) (fltDiv 53 1023) (countFlt 53 1023) = .ok v ∧
    v.Finite 53 1023 ∧ ∀ x ∈ tenths.arr.elements, x.Finite 53 1023 ∧ x.val < v.val := by
  refine ⟨.num (7205759403792795 / 72057594037927936), okIs (by decide +kernel),
    ⟨_, rfl, 7205759403792795, -56, by decide, by decide, by decide, by norm_num⟩, fun x hx => ?_⟩
  rw [show tenths.arr.elements = List.replicate 3 (roundFlt 53 1023 (1 / 10)) from rfl, tenth_eq] at hx
  rw [(List.mem_replicate.1 hx).2]
  exact ⟨⟨_, rfl, 3602879701896397, -55, by decide, by decide, by decide, by norm_num⟩, by simp only [Flt.val, Flt.rat?, Option.getD_some]; norm_num⟩

/-- The variance of `f64` numbers can be negative. -/
theorem C102_false_var : tenths.varAll .C none (.num 0) (fltAdd 53 1023) (fltSub 53 1023) (fltMul 53 1023) (fltDiv 53 1023)
    (countFlt 53 1023) = .ok (.num (-1 / 576460752303423488)) :=
  okIs (by decide +kernel)

/-- The standard deviation of `f64` numbers can be not-a-number, whatever the square root of a positive number is. -/
theorem C102_false_std (sqrt : Flt → Flt) (hs : ∀ x : Flt, x.val < 0 → (sqrt x).IsNaN) :
    ∃ v, tenths.stdAll .C none (.num 0) (fltAdd 53 1023) (fltSub 53 1023) (fltMul 53 1023) (fltDiv 53 1023) (countFlt 53 1023) sqrt = .ok v ∧
      v.IsNaN := by
  have R : Related (fun a b : Flt × Flt => a = b) (fun v w => v = sqrt w)
      ⟨(.num 0, .num 0), fun acc x => (fltAdd 53 1023 acc.1 x, fltAdd 53 1023 acc.2 (fltMul 53 1023 x x)),
        fun p q => (fltAdd 53 1023 p.1 q.1, fltAdd 53 1023 p.2 q.2), fun acc =>
        let mean := fltDiv 53 1023 acc.1 (countFlt 53 1023 tenths.layout.size)
        sqrt (fltSub 53 1023 (fltDiv 53 1023 acc.2 (countFlt 53 1023 tenths.layout.size)) (fltMul 53 1023 mean mean))⟩
      ⟨(.num 0, .num 0), fun acc x => (fltAdd 53 1023 acc.1 x, fltAdd 53 1023 acc.2 (fltMul 53 1023 x x)),
        fun p q => (fltAdd 53 1023 p.1 q.1, fltAdd 53 1023 p.2 q.2), fun acc =>
        let mean := fltDiv 53 1023 acc.1 (countFlt 53 1023 tenths.layout.size)
        fltSub 53 1023 (fltDiv 53 1023 acc.2 (countFlt 53 1023 tenths.layout.size)) (fltMul 53 1023 mean mean)⟩ :=
    ⟨rfl, by rintro _ _ _ rfl; rfl, by rintro _ _ _ _ rfl rfl; rfl, by rintro _ _ rfl; rfl⟩
  have key := reduce_rel R .C none tenths
  rw [show tenths.reduce .C none _ = _ from C102_false_var] at key
  unfold Tensor.stdAll
  generalize tenths.reduce .C none (_ : Reducer Flt (Flt × Flt) Flt) = x at key
  cases key with
  | ok h => exact ⟨_, rfl, h ▸ hs _ (by simp only [Flt.val, Flt.rat?, Option.getD_some]; norm_num)⟩

/-! ## Concrete cases -/

theorem tenths_mean_range : MeanInRange 53 1023 tenths.arr.elements := by
  rw [show tenths.arr.elements = List.replicate 3 (roundFlt 53 1023 (1 / 10)) from rfl, tenth_eq]
  refine ⟨by simp, by norm_num, fun x hx => ?_, ?_⟩
  · rw [(List.mem_replicate.1 hx).2]
    exact ⟨_, rfl, 3602879701896397, -55, by decide, by decide, by decide, by norm_num⟩
  · simp only [List.length_replicate, List.map_replicate, List.sum_replicate, Flt.val, Flt.rat?, Option.getD_some, maxFinite]
    have h1 : (1 : ℚ) ≤ 2 ^ 971 := one_le_pow₀ (by norm_num)
    norm_num
    generalize (2 : ℚ) ^ 971 = X at *
    linarith

example : ∃ v, tenths.meanAll .C (some halving) (.num 0) (fltAdd 53 1023) (fltDiv 53 1023) (countFlt 53 1023) = .ok v ∧
    MeanWithin 53 1023 tenths.arr.elements v := by
  obtain ⟨v, h1, h2⟩ := C102_mean (p := 53) (e := 1023) (by decide) (by decide) (fltAdd_nearest (by decide) (by decide))
    (C102_ops_nearest (by decide) (by decide)).2.1 (C102_ops_nearest (by decide) (by decide)).2.2 .C _ (.par halving_fits) tenths tenths_wf
  exact ⟨v, h1, h2.1 tenths_mean_range⟩

/-- Two numbers in a format with four digits. -/
def twoNumbers : Tensor Flt := ⟨[.num 1, .num 3], ⟨[⟨2, 1⟩], 0⟩⟩

theorem twoNumbers_wf : twoNumbers.WF := ⟨by decide, rfl⟩

theorem twoNumbers_range : VarInRange 4 20 twoNumbers.arr.elements := by
  rw [show twoNumbers.arr.elements = [.num 1, .num 3] from rfl]
  have f1 : (Flt.num 1).Finite 4 20 := ⟨1, rfl, 1, 0, by decide, by decide, by decide, by norm_num⟩
  have f3 : (Flt.num 3).Finite 4 20 := ⟨3, rfl, 3, 0, by decide, by decide, by decide, by norm_num⟩
  refine ⟨⟨by simp, by norm_num, by simp [f1, f3], ?_⟩, ⟨by simp [f1, f3], ?_⟩, ?_⟩
  all_goals
    simp [Flt.val, Flt.rat?, maxFinite, halfTiny, meanSquare, meanAbs]
    norm_num [abs_of_pos]

example : ∃ v, twoNumbers.varAll .C none (.num 0) (fltAdd 4 20) (fltSub 4 20) (fltMul 4 20) (fltDiv 4 20) (countFlt 4 20) = .ok v ∧
    VarWithin 4 20 twoNumbers.arr.elements v := by
  obtain ⟨v, h1, h2⟩ := C102_var (p := 4) (e := 20) (by decide) (by decide) (fltAdd_nearest (by decide) (by decide))
    (C102_ops_nearest (by decide) (by decide)).1 (fltMul_nearest (by decide) (by decide))
    (C102_ops_nearest (by decide) (by decide)).2.1 (C102_ops_nearest (by decide) (by decide)).2.2 .C _ .serial twoNumbers twoNumbers_wf
  exact ⟨v, h1, h2.1 twoNumbers_range⟩

/-- Here the variance has no error. -/
example : twoNumbers.varAll .C none (.num 0) (fltAdd 4 20) (fltSub 4 20) (fltMul 4 20) (fltDiv 4 20) (countFlt 4 20) = .ok (.num 1) :=
  okIs (by decide +kernel)

end Rstsr
