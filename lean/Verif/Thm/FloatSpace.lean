import Verif.Model.LinspaceBy
import Verif.Spec.FloatSpace
import Verif.Thm.Creation
import Verif.Thm.FloatMean
import Verif.Thm.FloatUpdate
/-!
# Theorems on evenly spaced floats (C108)
-/
namespace Rstsr
open Spec

/-! ## Nearest numbers -/

theorem near_ge {p e : Nat} {q r s : ℚ} (h : ∀ s, Representable p e s → |r - q| ≤ |s - q|) (hs : Representable p e s) (hq : s ≤ q) :
    s ≤ r := by
  have := h s hs
  rw [abs_of_nonpos (by linarith : s - q ≤ 0)] at this
  have := neg_abs_le (r - q)
  linarith

theorem near_le {p e : Nat} {q r s : ℚ} (h : ∀ s, Representable p e s → |r - q| ≤ |s - q|) (hs : Representable p e s) (hq : q ≤ s) :
    r ≤ s := by
  have := h s hs
  rw [abs_of_nonneg (by linarith : 0 ≤ s - q)] at this
  have := le_abs_self (r - q)
  linarith

theorem near_mono {p e : Nat} {q q' r r' : ℚ} (h : ∀ s, Representable p e s → |r - q| ≤ |s - q|)
    (h' : ∀ s, Representable p e s → |r' - q'| ≤ |s - q'|) (hr : Representable p e r) (hr' : Representable p e r') (hq : q < q') :
    r ≤ r' := by
  by_contra hc
  have hc : r' < r := not_le.1 hc
  have h1 := h r' hr'
  have h2 := h' r hr
  have k1 : q ≥ (r + r') / 2 := by
    by_contra hk
    have hk : q < (r + r') / 2 := not_le.1 hk
    have := le_abs_self (r - q)
    have : |r' - q| < r - q := abs_lt.2 ⟨by linarith, by linarith⟩
    linarith
  have k2 : q' ≤ (r + r') / 2 := by
    by_contra hk
    have hk : (r + r') / 2 < q' := not_le.1 hk
    have := neg_abs_le (r' - q')
    have : |r - q'| < q' - r' := abs_lt.2 ⟨by linarith, by linarith⟩
    linarith
  linarith

theorem rep_zero {p e : Nat} (hp : 1 ≤ p) (hpe : p ≤ e) : Representable p e 0 := by
  have := finite_rep (zero_finite hp hpe); simpa [Flt.val, Flt.rat?] using this

/-- Two finite floats of the same value are the same float, or zeros. -/
theorem flt_same {p e : Nat} {x y : Flt} (hx : x.Finite p e) (hy : y.Finite p e) (h : x.val = y.val) : x = y ∨ x.val = 0 := by
  obtain ⟨q, hq, -⟩ := hx
  obtain ⟨r, hr, -⟩ := hy
  cases x <;> cases y <;> simp_all [Flt.val, Flt.rat?]

/-! ## The running sum -/

theorem linLoopBy_get {K : Type} (O : SpaceOps K) (step : K) : ∀ (n i : Nat) (v : K), i < n →
    (linLoopBy O step n v)[i]? = some ((fun v => O.add v step)^[i] v)
  | 0, _, _, h => absurd h (Nat.not_lt_zero _)
  | n + 1, 0, v, _ => rfl
  | n + 1, i + 1, v, h => by
    rw [linLoopBy, List.getElem?_cons_succ, linLoopBy_get O step n i _ (by omega)]
    rfl

theorem linLoopBy_length {K : Type} (O : SpaceOps K) (step : K) : ∀ (n : Nat) (v : K), (linLoopBy O step n v).length = n
  | 0, _ => rfl
  | n + 1, v => by rw [linLoopBy, List.length_cons, linLoopBy_length]

theorem linspaceBy_length {K : Type} (O : SpaceOps K) (par : Bool) (a b : K) (n : Nat) (endpoint : Bool) :
    (linspaceBy O par a b n endpoint).length = n := by
  unfold linspaceBy
  split_ifs with h1 h2 h3
  · rw [h1]; rfl
  · rw [h2]; rfl
  · simp
  · exact linLoopBy_length ..

/-- With exact operations, this is the function of `Model/Creation`. -/
theorem linspaceBy_exact {K : Type} [Field K] (a b : K) (n : Nat) (endpoint : Bool) :
    linspaceBy ⟨(· + ·), (· - ·), (· * ·), (· / ·), fun n => (n : K)⟩ false a b n endpoint = linspaceSerial a b n endpoint ∧
    linspaceBy ⟨(· + ·), (· - ·), (· * ·), (· / ·), fun n => (n : K)⟩ true a b n endpoint = linspacePar a b n endpoint := by
  have hl : ∀ (s : K) (n : Nat) (v : K), linLoopBy ⟨(· + ·), (· - ·), (· * ·), (· / ·), fun n => (n : K)⟩ s n v = linspaceLoop s n v := by
    intro s n
    induction n with
    | zero => intro v; rfl
    | succ n ih => intro v; rw [linLoopBy, linspaceLoop, ih]
  constructor
  · unfold linspaceBy linspaceSerial
    rw [hl]; rfl
  · rfl

theorem iterate_adds {add : Flt → Flt → Flt} (a step : Flt) (i : Nat) :
    Adds add a (List.replicate i step) ((fun v => add v step)^[i] a) := by
  induction i with
  | zero => exact .none
  | succ i ih =>
    rw [Function.iterate_succ_apply', List.replicate_succ']
    exact .after step ih

section
variable {p e : Nat} (hp : 1 ≤ p) (hpe : p ≤ e) {O : SpaceOps Flt}
  (A : NearestAdd p e O.add) (S : NearestSub p e O.sub) (M : NearestMul p e O.mul) (D : NearestDiv p e O.div) (C : ExactCounts p e O.ofNat)

include hp hpe S D C in
/-- The step. -/
theorem step_within {a b : Flt} {n c : Nat} (h : SpaceInRange p e a b n) (hc : 1 ≤ c) (hcn : c ≤ n) :
    (O.div (O.sub b a) (O.ofNat c)).Finite p e ∧
      |(O.div (O.sub b a) (O.ofNat c)).val - (b.val - a.val) / c| ≤
        |b.val - a.val| / c * ((1 + 1 / 2 ^ p) ^ 2 - 1) + halfTiny p e ∧
      (a.val ≤ b.val → 0 ≤ (O.div (O.sub b a) (O.ofNat c)).val) ∧ (b.val ≤ a.val → (O.div (O.sub b a) (O.ofNat c)).val ≤ 0) := by
  obtain ⟨ha, hb, hn, hT⟩ := h
  have hη := (halfTiny_pos p e).le
  have hu := ulp_nonneg p
  generalize hU : 1 + 1 / (2 : ℚ) ^ p = U at *
  have hu' : 1 / (2 : ℚ) ^ p = U - 1 := by linarith
  have hU1 : 1 ≤ U := by linarith
  have hP : U ≤ U ^ (n + 2) := le_self_pow₀ hU1 (by omega)
  have hn0 : (0 : ℚ) ≤ n := by positivity
  have hd0 := abs_nonneg (b.val - a.val)
  have ha0 := abs_nonneg a.val
  have hUd : U * |b.val - a.val| ≤ maxFinite p e := by
    refine le_trans (mul_le_mul hP ?_ hd0 (by linarith)) hT
    nlinarith
  have hd : |b.val - a.val| ≤ maxFinite p e := le_trans (by nlinarith) hUd
  obtain ⟨d1, d2⟩ := sub_err hp hpe S hb ha hd
  have dn := (S.nearest b a hb ha hd).2
  rw [hu'] at d2
  have d3 : |(O.sub b a).val| ≤ U * |b.val - a.val| := by
    have := abs_le_of_near d2; linarith
  have hc' : (1 : ℚ) ≤ c := by exact_mod_cast hc
  obtain ⟨c1, c2⟩ := C c (hcn.trans hn)
  have c0 : (O.ofNat c).val ≠ 0 := by rw [c2]; linarith
  have hq : |(O.sub b a).val / (O.ofNat c).val| ≤ |b.val - a.val| / c * U := by
    rw [c2, abs_div, Nat.abs_cast, div_mul_eq_mul_div]
    exact div_le_div_of_nonneg_right (by linarith) (by linarith)
  have hqm : |(O.sub b a).val / (O.ofNat c).val| ≤ maxFinite p e := by
    refine hq.trans (le_trans ?_ hUd)
    have := div_le_self hd0 hc'
    nlinarith
  obtain ⟨s1, s2⟩ := div_err hp hpe D d1 c1 c0 hqm
  have sn := (D.nearest _ _ d1 c1 c0 hqm).2
  have h0 := rep_zero hp hpe
  refine ⟨s1, ?_, fun hab => ?_, fun hab => ?_⟩
  · rw [hu'] at s2
    refine (abs_sub_chain s2 (y := |b.val - a.val| / c * (U - 1)) ?_).trans ?_
    · rw [c2, ← sub_div, abs_div, Nat.abs_cast, div_mul_eq_mul_div]
      exact div_le_div_of_nonneg_right d2 (by linarith)
    · have := mul_le_mul_of_nonneg_right hq (by linarith : 0 ≤ U - 1)
      nlinarith
  · refine near_ge sn h0 ?_
    rw [c2]
    exact div_nonneg (near_ge dn h0 (by linarith)) (by linarith)
  · refine near_le sn h0 ?_
    rw [c2]
    exact div_nonpos_of_nonpos_of_nonneg (near_le dn h0 (by linarith)) (by linarith)

theorem spaced_dist (a b : ℚ) {c i : Nat} : |spaced a b c i - a| = i * (|b - a| / c) := by
  unfold spaced
  rw [add_sub_cancel_left, abs_mul, abs_div, Nat.abs_cast, Nat.abs_cast]

theorem part_le (d : ℚ) (hd : 0 ≤ d) {c i : Nat} (hc : 1 ≤ c) (hi : i ≤ c) : i * (d / c) ≤ d := by
  have hc' : (1 : ℚ) ≤ c := by exact_mod_cast hc
  have hi' : (i : ℚ) ≤ c := by exact_mod_cast hi
  rw [mul_div_assoc', div_le_iff₀ (by linarith), mul_comm]
  exact mul_le_mul_of_nonneg_left hi' hd

include hp hpe S D C in
/-- Room for the running sum. -/
theorem running_room {a b : Flt} {n c i : Nat} (h : SpaceInRange p e a b n) (hc : 1 ≤ c) (hcn : c ≤ n) (hi : i ≤ c) :
    |a.val| + i * |(O.div (O.sub b a) (O.ofNat c)).val| ≤
      (1 + 1 / 2 ^ p) ^ 2 * (|a.val| + |b.val - a.val| + (n + 1) * halfTiny p e) := by
  obtain ⟨s1, s2, -, -⟩ := step_within hp hpe S D C h hc hcn
  generalize O.div (O.sub b a) (O.ofNat c) = step at *
  have hη := (halfTiny_pos p e).le
  have hu := ulp_nonneg p
  have hd0 := abs_nonneg (b.val - a.val)
  have hpart := part_le _ hd0 hc hi
  have ha0 := abs_nonneg a.val
  have hi0 : (0 : ℚ) ≤ i := by positivity
  have hin : (i : ℚ) ≤ n := by exact_mod_cast hi.trans hcn
  generalize hDD : |b.val - a.val| / c = DD at *
  have hsa : |step.val| ≤ DD * (1 + 1 / 2 ^ p) ^ 2 + halfTiny p e := by
    have := abs_le_of_near s2
    rw [abs_div, Nat.abs_cast, hDD] at this
    linarith
  have hisa := mul_le_mul_of_nonneg_left hsa hi0
  have h1 : (1 : ℚ) ≤ (1 + 1 / 2 ^ p) ^ 2 := one_le_pow₀ (by linarith)
  have h2 := mul_le_mul_of_nonneg_left hpart (by linarith : (0 : ℚ) ≤ (1 + 1 / 2 ^ p) ^ 2)
  have h3 : i * halfTiny p e ≤ (n + 1) * halfTiny p e := mul_le_mul_of_nonneg_right (by linarith) hη
  have h4 : (n + 1) * halfTiny p e ≤ (1 + 1 / 2 ^ p) ^ 2 * ((n + 1) * halfTiny p e) := le_mul_of_one_le_left (by positivity) h1
  have h5 : |a.val| ≤ (1 + 1 / 2 ^ p) ^ 2 * |a.val| := le_mul_of_one_le_left ha0 h1
  linarith

include hp hpe A S D C in
theorem running_approx {a b : Flt} {n c i : Nat} (h : SpaceInRange p e a b n) (hc : 1 ≤ c) (hcn : c ≤ n) (hi : i ≤ c) :
    Approx p e (i + 1) (a.val + i * (O.div (O.sub b a) (O.ofNat c)).val) (|a.val| + i * |(O.div (O.sub b a) (O.ofNat c)).val|)
      ((fun v => O.add v (O.div (O.sub b a) (O.ofNat c)))^[i] a) := by
  obtain ⟨s1, -⟩ := step_within hp hpe S D C h hc hcn
  have hm := running_room hp hpe S D C h hc hcn hi
  obtain ⟨ha, hb, hn, hT⟩ := h
  generalize O.div (O.sub b a) (O.ofNat c) = step at *
  have hsum1 : ((List.replicate i step).map Flt.val).sum = i * step.val := by simp
  have hsum2 : ((List.replicate i step).map fun x => |x.val|).sum = i * |step.val| := by simp
  have ap := adds_approx_from hp hpe A (N := n) (T := (1 + 1 / 2 ^ p) ^ 2 * (|a.val| + |b.val - a.val| + (n + 1) * halfTiny p e))
    (by rw [← mul_assoc, ← pow_add]; exact hT) ha (iterate_adds a step i)
    (by intro x hx; rw [List.eq_of_mem_replicate hx]; exact s1) (by simpa using hi.trans hcn) (by rw [hsum2]; exact hm)
  rwa [hsum1, hsum2, List.length_replicate] at ap

include hp hpe A S D C in
theorem running_within {a b : Flt} {n c i : Nat} (h : SpaceInRange p e a b n) (hc : 1 ≤ c) (hcn : c ≤ n) (hi : i ≤ c) :
    RunningWithin p e a b c i ((fun v => O.add v (O.div (O.sub b a) (O.ofNat c)))^[i] a) := by
  have ap := running_approx hp hpe A S D C h hc hcn hi
  obtain ⟨s1, s2, -, -⟩ := step_within hp hpe S D C h hc hcn
  generalize O.div (O.sub b a) (O.ofNat c) = step at *
  have hη := (halfTiny_pos p e).le
  have hu := ulp_nonneg p
  have hi0 : (0 : ℚ) ≤ i := by positivity
  unfold RunningWithin
  rw [spaced_dist]
  generalize hDD : |b.val - a.val| / c = DD at *
  have hsa : |step.val| ≤ DD * (1 + 1 / 2 ^ p) ^ 2 + halfTiny p e := by
    have := abs_le_of_near s2
    rw [abs_div, Nat.abs_cast, hDD] at this
    linarith
  have hisa := mul_le_mul_of_nonneg_left hsa hi0
  refine ⟨ap.fin, ?_⟩
  have err := ap.err
  rw [Nat.add_sub_cancel] at err
  have tot := abs_sub_chain err (c := spaced a.val b.val c i) (y := i * (DD * ((1 + 1 / 2 ^ p) ^ 2 - 1) + halfTiny p e)) (by
    unfold spaced
    rw [add_sub_add_left_eq_sub, ← mul_sub, abs_mul, Nat.abs_cast]
    exact mul_le_mul_of_nonneg_left s2 hi0)
  refine tot.trans ?_
  have hV : (1 : ℚ) ≤ (1 + 1 / 2 ^ p) ^ i := one_le_pow₀ (by linarith)
  have := mul_le_mul_of_nonneg_left hisa (by linarith : (0 : ℚ) ≤ (1 + 1 / 2 ^ p) ^ i - 1)
  rw [pow_add]
  linarith

include hp hpe A S D C in
/-- One more addition stays in range. -/
theorem running_next {a b : Flt} {n c i : Nat} (h : SpaceInRange p e a b n) (hc : 1 ≤ c) (hcn : c ≤ n) (hi : i < c) :
    |((fun v => O.add v (O.div (O.sub b a) (O.ofNat c)))^[i] a).val + (O.div (O.sub b a) (O.ofNat c)).val| ≤ maxFinite p e := by
  have ap := running_approx hp hpe A S D C h hc hcn hi.le
  have hm := running_room hp hpe S D C h hc hcn (i := i + 1) hi
  obtain ⟨ha, hb, hn, hT⟩ := h
  generalize O.div (O.sub b a) (O.ofNat c) = step at *
  generalize (fun v => O.add v step)^[i] a = x at *
  have hs0 := abs_nonneg step.val
  have ha0 := abs_nonneg a.val
  have hu := ulp_nonneg p
  have hi0 : (0 : ℚ) ≤ i := by positivity
  have h1 := abs_le_of_near ap.err
  have h2 := ap.le
  rw [Nat.add_sub_cancel] at h1
  push_cast at hm
  have hV : (1 + 1 / (2 : ℚ) ^ p) ^ i ≤ (1 + 1 / 2 ^ p) ^ n := pow_le_pow_right₀ (by linarith) (by omega)
  have hV1 : (1 : ℚ) ≤ (1 + 1 / (2 : ℚ) ^ p) ^ i := one_le_pow₀ (by linarith)
  refine (abs_add_le _ _).trans (le_trans ?_ hT)
  rw [pow_add, mul_assoc]
  refine le_trans ?_ (mul_le_mul hV hm (by positivity) (by linarith))
  have := le_mul_of_one_le_left hs0 hV1
  linarith

include hp hpe A S M D C in
theorem product_within {a b : Flt} {n c i : Nat} (h : SpaceInRange p e a b n) (hc : 1 ≤ c) (hcn : c ≤ n) (hi : i ≤ c) (hin : i < n) :
    ProductWithin p e a b c i (O.add a (O.mul (O.ofNat i) (O.div (O.sub b a) (O.ofNat c)))) ∧
      (O.mul (O.ofNat i) (O.div (O.sub b a) (O.ofNat c))).Finite p e ∧
      |(O.ofNat i).val * (O.div (O.sub b a) (O.ofNat c)).val| ≤ maxFinite p e ∧
      |a.val + (O.mul (O.ofNat i) (O.div (O.sub b a) (O.ofNat c))).val| ≤ maxFinite p e := by
  obtain ⟨s1, s2, -, -⟩ := step_within hp hpe S D C h hc hcn
  obtain ⟨ha, hb, hn, hT⟩ := h
  obtain ⟨i1, i2⟩ := C i (hin.le.trans hn)
  generalize O.div (O.sub b a) (O.ofNat c) = step at *
  have hη := (halfTiny_pos p e).le
  have hu := ulp_nonneg p
  have hd0 := abs_nonneg (b.val - a.val)
  have hpart := part_le _ hd0 hc hi
  have ha0 := abs_nonneg a.val
  have hi0 : (0 : ℚ) ≤ i := by positivity
  have hin' : (i : ℚ) + 1 ≤ n := by exact_mod_cast hin
  unfold ProductWithin
  have hsd := spaced_dist a.val b.val (c := c) (i := i)
  rw [hsd]
  generalize hy : spaced a.val b.val c i = y at *
  have hyy : y = a.val + i * ((b.val - a.val) / c) := hy.symm
  generalize hDD : |b.val - a.val| / c = DD at *
  have hDD0 : 0 ≤ DD := by rw [← hDD]; positivity
  have hsa : |step.val| ≤ DD * (1 + 1 / 2 ^ p) ^ 2 + halfTiny p e := by
    have := abs_le_of_near s2
    rw [abs_div, Nat.abs_cast, hDD] at this
    linarith
  have hisa := mul_le_mul_of_nonneg_left hsa hi0
  have hK : (1 + 1 / (2 : ℚ) ^ p) ^ 3 ≤ (1 + 1 / 2 ^ p) ^ (n + 2) := pow_le_pow_right₀ (by linarith) (by omega)
  generalize hU : 1 + 1 / (2 : ℚ) ^ p = U at *
  have hu' : 1 / (2 : ℚ) ^ p = U - 1 := by linarith
  have hU1 : 1 ≤ U := by linarith
  have hU2 : 1 ≤ U ^ 2 := one_le_pow₀ hU1
  have hU3 : U ^ 3 = U * U ^ 2 := by ring
  have hU23 : U ^ 2 ≤ U ^ 3 := by nlinarith
  have hT3 : U ^ 3 * (|a.val| + |b.val - a.val| + (n + 1) * halfTiny p e) ≤ maxFinite p e :=
    le_trans (mul_le_mul_of_nonneg_right hK (by positivity)) hT
  have hiDD : 0 ≤ i * DD := mul_nonneg hi0 hDD0
  have hiη : 0 ≤ i * halfTiny p e := mul_nonneg hi0 hη
  have q1 : i * DD * U ^ 2 ≤ U ^ 3 * |b.val - a.val| := by
    have := mul_le_mul hpart hU23 (by linarith) hd0
    linarith
  have q1' : i * DD * U ^ 3 ≤ U ^ 3 * |b.val - a.val| := by
    have := mul_le_mul_of_nonneg_right hpart (by linarith : 0 ≤ U ^ 3)
    linarith
  have q2 : (i + 1) * halfTiny p e ≤ (n + 1) * halfTiny p e := mul_le_mul_of_nonneg_right (by linarith) hη
  have q3 : U * ((i + 1) * halfTiny p e) ≤ U ^ 3 * ((n + 1) * halfTiny p e) :=
    mul_le_mul (by nlinarith) q2 (by positivity) (by linarith)
  have q4 : |a.val| ≤ U ^ 3 * |a.val| := le_mul_of_one_le_left ha0 (by linarith)
  have q5 : (i + 1) * halfTiny p e ≤ U * ((i + 1) * halfTiny p e) := le_mul_of_one_le_left (by positivity) hU1
  have q6 : halfTiny p e ≤ U * halfTiny p e := le_mul_of_one_le_left hη hU1
  have hprod : |(O.ofNat i).val * step.val| ≤ i * DD * U ^ 2 + i * halfTiny p e := by
    rw [i2, abs_mul, Nat.abs_cast]
    linarith
  have hpm : |(O.ofNat i).val * step.val| ≤ maxFinite p e := hprod.trans (by linarith)
  obtain ⟨t1, t2⟩ := mul_err hp hpe M i1 s1 hpm
  rw [hu'] at t2
  have tE : |(O.mul (O.ofNat i) step).val - i * ((b.val - a.val) / c)| ≤ i * DD * (U ^ 3 - 1) + (U * i + 1) * halfTiny p e := by
    refine (abs_sub_chain t2 (y := i * (DD * (U ^ 2 - 1) + halfTiny p e)) ?_).trans ?_
    · rw [i2, ← mul_sub, abs_mul, Nat.abs_cast]
      exact mul_le_mul_of_nonneg_left s2 hi0
    · have := mul_le_mul_of_nonneg_right hprod (by linarith : 0 ≤ U - 1)
      rw [hU3]
      linarith
  have sE : |a.val + (O.mul (O.ofNat i) step).val - y| ≤ i * DD * (U ^ 3 - 1) + (U * i + 1) * halfTiny p e := by
    rw [hyy, add_sub_add_left_eq_sub]; exact tE
  have sA := abs_le_of_near sE
  have hyA : |y| ≤ |a.val| + i * DD := by
    have := abs_le_of_near (a := y) (b := a.val) (x := i * DD) (by rw [hsd])
    exact this
  have hsm : |a.val + (O.mul (O.ofNat i) step).val| ≤ maxFinite p e := sA.trans (by linarith)
  obtain ⟨x1, x2⟩ := nearest_err hp hpe A ha t1 hsm
  rw [hu'] at x2
  refine ⟨⟨x1, (abs_sub_chain x2 sE).trans ?_⟩, t1, hpm, hsm⟩
  have := mul_le_mul_of_nonneg_right sA (by linarith : 0 ≤ U - 1)
  rw [hu']
  linarith

include hp hpe A in
theorem add_mono_right {a t t' : Flt} (ha : a.Finite p e) (h1 : t.Finite p e) (h2 : t'.Finite p e)
    (m1 : |a.val + t.val| ≤ maxFinite p e) (m2 : |a.val + t'.val| ≤ maxFinite p e) (h : t.val ≤ t'.val) :
    (O.add a t).val ≤ (O.add a t').val := by
  obtain ⟨f1, n1⟩ := A.nearest a t ha h1 m1
  obtain ⟨f2, n2⟩ := A.nearest a t' ha h2 m2
  rcases lt_or_eq_of_le h with h | h
  · exact near_mono n1 n2 (finite_rep f1) (finite_rep f2) (by linarith)
  · rcases flt_same h1 h2 h with rfl | h0
    · exact le_refl _
    · have r := finite_rep ha
      rw [(nearest_exact A ha h1 m1 (by rw [h0, add_zero]; exact r)).2, (nearest_exact A ha h2 m2 (by rw [← h, h0, add_zero]; exact r)).2, h]

include hp hpe M C in
theorem times_mono {step : Flt} {i j : Nat} (hs : step.Finite p e) (hij : i < j) (hj : j ≤ 2 ^ p)
    (m1 : |(O.ofNat i).val * step.val| ≤ maxFinite p e) (m2 : |(O.ofNat j).val * step.val| ≤ maxFinite p e) :
    (0 ≤ step.val → (O.mul (O.ofNat i) step).val ≤ (O.mul (O.ofNat j) step).val) ∧
    (step.val ≤ 0 → (O.mul (O.ofNat j) step).val ≤ (O.mul (O.ofNat i) step).val) := by
  obtain ⟨i1, i2⟩ := C i (hij.le.trans hj)
  obtain ⟨j1, j2⟩ := C j hj
  obtain ⟨f1, n1⟩ := M.nearest _ _ i1 hs m1
  obtain ⟨f2, n2⟩ := M.nearest _ _ j1 hs m2
  have hlt : (i : ℚ) < j := by exact_mod_cast hij
  have h0 := rep_zero hp hpe
  by_cases hz : step.val = 0
  · have e1 : (O.mul (O.ofNat i) step).val = 0 :=
      le_antisymm (near_le n1 h0 (by rw [hz]; simp)) (near_ge n1 h0 (by rw [hz]; simp))
    have e2 : (O.mul (O.ofNat j) step).val = 0 :=
      le_antisymm (near_le n2 h0 (by rw [hz]; simp)) (near_ge n2 h0 (by rw [hz]; simp))
    rw [e1, e2]; simp
  · constructor
    · intro h
      have h : 0 < step.val := lt_of_le_of_ne h (Ne.symm hz)
      exact near_mono n1 n2 (finite_rep f1) (finite_rep f2) (by rw [i2, j2]; exact mul_lt_mul_of_pos_right hlt h)
    · intro h
      have h : step.val < 0 := lt_of_le_of_ne h hz
      exact near_mono n2 n1 (finite_rep f2) (finite_rep f1) (by rw [i2, j2]; exact mul_lt_mul_of_neg_right hlt h)

/-- The number of steps on the way from start to stop. -/
theorem linStepBy_eq (O : SpaceOps Flt) (a b : Flt) (n : Nat) (endpoint : Bool) :
    linStepBy O a b n endpoint = O.div (O.sub b a) (O.ofNat (if endpoint then n - 1 else n)) := by
  unfold linStepBy; cases endpoint <;> rfl

theorem linspaceBy_get (O : SpaceOps Flt) (par : Bool) (a b : Flt) {n i : Nat} (endpoint : Bool) (hn : 2 ≤ n) (hi : i < n) :
    (linspaceBy O par a b n endpoint)[i]? =
      some (if par then O.add a (O.mul (O.ofNat i) (O.div (O.sub b a) (O.ofNat (if endpoint then n - 1 else n))))
        else (fun v => O.add v (O.div (O.sub b a) (O.ofNat (if endpoint then n - 1 else n))))^[i] a) := by
  unfold linspaceBy
  rw [if_neg (by omega), if_neg (by omega), linStepBy_eq]
  cases par
  · exact linLoopBy_get _ _ _ _ _ hi
  · simp [hi]

theorem linspaceBy_one (O : SpaceOps Flt) (par : Bool) (a b : Flt) (endpoint : Bool) : linspaceBy O par a b 1 endpoint = [a] := by
  simp [linspaceBy]

include hp hpe A S M D C in
/-- `linspace` of floats: `n` values, the first of which is the start, each within a bound of its exact place; the bound of the serial
device, which adds up, grows with the index, the one of the parallel device, which multiplies, does not. -/
theorem C108_linspace_float (par endpoint : Bool) (a b : Flt) (n : Nat) (h : SpaceInRange p e a b n) :
    (Tensor.linspaceBy O par a b n endpoint).WF ∧ ∃ xs, (Tensor.linspaceBy O par a b n endpoint).arr.Lists xs ∧ xs.length = n ∧
      (∀ x ∈ xs[0]?, x.val = a.val) ∧
      ∀ i < n, ∃ x, xs[i]? = some x ∧
        (if par then ProductWithin p e a b (if endpoint then n - 1 else n) i x
          else RunningWithin p e a b (if endpoint then n - 1 else n) i x) := by
  obtain ⟨t1, t2⟩ := tensor_ofList (linspaceBy O par a b n endpoint)
  refine ⟨t1, _, t2, linspaceBy_length .., ?_⟩
  have hη := (halfTiny_pos p e).le
  have hu := ulp_nonneg p
  rcases Nat.lt_or_ge n 2 with hn | hn
  · obtain rfl | rfl : n = 0 ∨ n = 1 := by omega
    · exact ⟨by simp [linspaceBy], fun i hi => absurd hi (Nat.not_lt_zero _)⟩
    · rw [linspaceBy_one]
      refine ⟨by simp, fun i hi => ?_⟩
      obtain rfl : i = 0 := by omega
      refine ⟨a, rfl, ?_⟩
      have h0 : ∀ c, spaced a.val b.val c 0 = a.val := by intro c; simp [spaced]
      cases par
      · simp [RunningWithin, h0]; exact h.1
      · simp only [if_true, ProductWithin, h0, sub_self, abs_zero]
        exact ⟨h.1, add_nonneg (by positivity) (mul_nonneg (by positivity) (add_nonneg (by simp) (mul_nonneg (by positivity) hη)))⟩
  · have hc : 1 ≤ (if endpoint then n - 1 else n) ∧ (if endpoint then n - 1 else n) ≤ n ∧ ∀ i < n, i ≤ (if endpoint then n - 1 else n) := by
      cases endpoint <;> exact ⟨by simp; omega, by simp, fun i hi => by simp; omega⟩
    obtain ⟨c1, c2, c3⟩ := hc
    constructor
    · intro x hx
      rw [linspaceBy_get O par a b endpoint hn (by omega)] at hx
      obtain rfl := Option.mem_some_iff.1 hx
      cases par
      · rfl
      · obtain ⟨-, q1, q2, q3⟩ := product_within hp hpe A S M D C h c1 c2 (Nat.zero_le _) (by omega)
        obtain ⟨s1, -⟩ := step_within hp hpe S D C h c1 c2
        obtain ⟨z1, z2⟩ := C 0 (Nat.zero_le _)
        have hz : (O.mul (O.ofNat 0) (O.div (O.sub b a) (O.ofNat (if endpoint then n - 1 else n)))).val = 0 := by
          obtain ⟨-, nn⟩ := M.nearest _ _ z1 s1 q2
          have h0 := rep_zero hp hpe
          exact le_antisymm (near_le nn h0 (by rw [z2]; simp)) (near_ge nn h0 (by rw [z2]; simp))
        have := (nearest_exact A h.1 q1 q3 (by rw [hz, add_zero]; exact finite_rep h.1)).2
        rw [hz, add_zero] at this
        exact this
    · intro i hi
      refine ⟨_, linspaceBy_get O par a b endpoint hn hi, ?_⟩
      cases par
      · exact running_within hp hpe A S D C h c1 c2 (c3 i hi)
      · exact (product_within hp hpe A S M D C h c1 c2 (c3 i hi) hi).1

include hp hpe A S M D C in
/-- The values are in order, on both devices, whatever the rounding errors. -/
theorem C108_ordered (par endpoint : Bool) (a b : Flt) (n : Nat) (h : SpaceInRange p e a b n) (i j : Nat) (hij : i ≤ j) (hj : j < n)
    (x y : Flt) (hx : (Tensor.linspaceBy O par a b n endpoint).arr.elem [i] = some x)
    (hy : (Tensor.linspaceBy O par a b n endpoint).arr.elem [j] = some y) :
    (a.val ≤ b.val → x.val ≤ y.val) ∧ (b.val ≤ a.val → y.val ≤ x.val) := by
  obtain ⟨t1, t2⟩ := tensor_ofList (linspaceBy O par a b n endpoint)
  have hl := linspaceBy_length O par a b n endpoint
  replace hx := (t2.2 i (by omega)).symm.trans hx
  replace hy := (t2.2 j (by omega)).symm.trans hy
  rcases Nat.lt_or_ge n 2 with hn | hn
  · obtain rfl : j = i := by omega
    rw [hx] at hy
    cases hy
    simp
  rw [linspaceBy_get O par a b endpoint hn (by omega)] at hx hy
  obtain rfl := Option.some_inj.1 hx
  obtain rfl := Option.some_inj.1 hy
  have hc : 1 ≤ (if endpoint then n - 1 else n) ∧ (if endpoint then n - 1 else n) ≤ n ∧ ∀ i < n, i ≤ (if endpoint then n - 1 else n) := by
    cases endpoint <;> exact ⟨by simp; omega, by simp, fun i hi => by simp; omega⟩
  obtain ⟨c1, c2, c3⟩ := hc
  obtain ⟨s1, -, s3, s4⟩ := step_within hp hpe S D C h c1 c2
  generalize (if endpoint = true then n - 1 else n) = c at *
  cases par
  · simp only [Bool.false_eq_true, if_false]
    clear hx hy
    induction j, hij using Nat.le_induction with
    | base => simp
    | succ j hj' ih =>
      obtain ⟨k1, k2⟩ := ih (by omega)
      have fin := (running_approx hp hpe A S D C h c1 c2 (c3 j (by omega))).fin
      have nn := (A.nearest _ _ fin s1 (running_next hp hpe A S D C h c1 c2 (c3 (j + 1) hj))).2
      rw [Function.iterate_succ_apply']
      exact ⟨fun hab => (k1 hab).trans (near_ge nn (finite_rep fin) (by have := s3 hab; linarith)),
        fun hab => (near_le nn (finite_rep fin) (by have := s4 hab; linarith)).trans (k2 hab)⟩
  · simp only [if_true]
    rcases Nat.lt_or_ge i j with hlt | hge
    · obtain ⟨-, p1, p2, p3⟩ := product_within hp hpe A S M D C h c1 c2 (c3 i (by omega)) (by omega)
      obtain ⟨-, q1, q2, q3⟩ := product_within hp hpe A S M D C h c1 c2 (c3 j hj) hj
      obtain ⟨m1, m2⟩ := times_mono hp hpe M C s1 hlt (hj.le.trans h.2.2.1) p2 q2
      exact ⟨fun hab => add_mono_right hp hpe A h.1 p1 q1 p3 q3 (m1 (s3 hab)), fun hab => add_mono_right hp hpe A h.1 q1 p1 q3 p3 (m2 (s4 hab))⟩
    · obtain rfl : j = i := by omega
      simp

end

/-- The operations of a format. -/
def fltSpace (p e : Nat) : SpaceOps Flt := ⟨fltAdd p e, fltSub p e, fltMul p e, fltDiv p e, countFlt p e⟩

/-- The modelled operations do what the theorems assume, for every format. -/
theorem C108_ops {p e : Nat} (hp : 1 ≤ p) (hpe : p ≤ e) : NearestAdd p e (fltSpace p e).add ∧ NearestSub p e (fltSpace p e).sub ∧
    NearestMul p e (fltSpace p e).mul ∧ NearestDiv p e (fltSpace p e).div ∧ ExactCounts p e (fltSpace p e).ofNat :=
  ⟨C100_add_nearest hp hpe, (C102_ops_nearest hp hpe).1, C101_mul_nearest hp hpe, (C102_ops_nearest hp hpe).2.1, (C102_ops_nearest hp hpe).2.2⟩

/-- With the endpoint the last value need not be the stop: eleven doubles from 0 to 1 end below 1 on the serial device, fifty on the
parallel one. -/
theorem C108_false_end :
    (∃ x, (Tensor.linspaceBy (fltSpace 53 1023) false (.num 0) (.num 1) 11 true).arr.elem [10] = some x ∧ x = .num (1 - 1 / 2 ^ 53)) ∧
    ∃ x, (Tensor.linspaceBy (fltSpace 53 1023) true (.num 0) (.num 1) 50 true).arr.elem [49] = some x ∧ x = .num (1 - 1 / 2 ^ 53) := by
  constructor
  · exact ⟨_, by decide +kernel, rfl⟩
  · exact ⟨_, by decide +kernel, rfl⟩

/-- The values can leave the interval: ten doubles from 0 to 1 end above 1 on the serial device. -/
theorem C108_false_outside :
    (Tensor.linspaceBy (fltSpace 53 1023) false (.num 0) (.num 1) 10 true).arr.elem [9] = some (.num (1 + 1 / 2 ^ 52)) := by
  decide +kernel

/-- The two devices give different values. -/
theorem C108_false_devices :
    (Tensor.linspaceBy (fltSpace 53 1023) true (.num 0) (.num 1) 11 true).arr.elem [10] = some (.num 1) ∧
    (Tensor.linspaceBy (fltSpace 53 1023) false (.num 0) (.num 1) 11 true).arr.elem [10] ≠ some (.num 1) := by
  constructor <;> decide +kernel

/-- Eleven singles from 0 to 1 are in range. -/
example : SpaceInRange 24 127 (.num 0) (.num 1) 11 := by
  refine ⟨⟨0, rfl, rep_zero (by decide) (by decide)⟩, ⟨1, rfl, ?_⟩, by decide, ?_⟩
  · have := representable_int (n := 1) (p := 24) (e := 127) (by decide) (by decide) (by decide)
    simpa using this
  · norm_num [Flt.val, Flt.rat?, halfTiny, maxFinite]

end Rstsr
