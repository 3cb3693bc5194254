import Verif.Model.ArangeFlt
import Verif.Spec.FloatRange
import Verif.Thm.FloatSpace
/-!
# Theorems on ranges of floats (C109)
-/
namespace Rstsr
open Spec

/-! ## The operations are rounded exact operations -/

section
variable {p e : Nat} (hp : 1 ≤ p) (hpe : p ≤ e)
include hp hpe

theorem fltAdd_round {x y : Flt} (hx : x.Finite p e) (hy : y.Finite p e) (hb : |x.val + y.val| ≤ maxFinite p e) :
    (fltAdd p e x y).rat? = some (roundTo p e (x.val + y.val)) := by
  obtain ⟨a, ha, ra⟩ := hx
  obtain ⟨b, hb', rb⟩ := hy
  rw [flt_val_of ha, flt_val_of hb'] at hb ⊢
  have := roundFlt_rat (roundTo_in_range hp hpe hb)
  cases x <;> cases ha <;> cases y <;> cases hb' <;> simp_all [fltAdd, Flt.rat?, roundTo_zero]

theorem fltSub_round {x y : Flt} (hx : x.Finite p e) (hy : y.Finite p e) (hb : |x.val - y.val| ≤ maxFinite p e) :
    (fltSub p e x y).rat? = some (roundTo p e (x.val - y.val)) := by
  obtain ⟨q, h1, h2⟩ := hy
  have hn := fltNeg_rat h1
  have hv : (fltNeg y).val = -y.val := by rw [flt_val_of hn, flt_val_of h1]
  have := fltAdd_round hp hpe hx (y := fltNeg y) ⟨_, hn, representable_neg h2⟩ (by rw [hv, ← sub_eq_add_neg]; exact hb)
  rwa [hv, ← sub_eq_add_neg] at this

theorem fltMul_round {x y : Flt} (hx : x.Finite p e) (hy : y.Finite p e) (hb : |x.val * y.val| ≤ maxFinite p e) :
    (fltMul p e x y).rat? = some (roundTo p e (x.val * y.val)) := by
  obtain ⟨a, ha, ra⟩ := hx
  obtain ⟨b, hb', rb⟩ := hy
  rw [flt_val_of ha, flt_val_of hb'] at hb ⊢
  have := roundFlt_rat (roundTo_in_range hp hpe hb)
  cases x <;> cases ha <;> cases y <;> cases hb' <;> simp only [fltMul, zero_mul, mul_zero, roundTo_zero, fltZero_rat]
  · rfl
  · split
    · rename_i h; rw [h, roundTo_zero]; exact fltZero_rat _
    · exact this

theorem fltDiv_round {x y : Flt} (hx : x.Finite p e) (hy : y.Finite p e) (h0 : y.val ≠ 0) (hb : |x.val / y.val| ≤ maxFinite p e) :
    (fltDiv p e x y).rat? = some (roundTo p e (x.val / y.val)) := by
  obtain ⟨a, ha, ra⟩ := hx
  obtain ⟨b, hb', rb⟩ := hy
  rw [flt_val_of ha, flt_val_of hb'] at hb ⊢
  rw [flt_val_of hb'] at h0
  have := roundFlt_rat (roundTo_in_range hp hpe hb)
  cases x <;> cases ha <;> cases y <;> cases hb' <;> simp only [fltDiv, zero_div, roundTo_zero, fltZero_rat, if_neg h0]
  · exact absurd rfl h0
  · exact absurd rfl h0
  · split
    · rename_i h; rw [h, zero_div, roundTo_zero]; exact fltZero_rat _
    · exact this

end

theorem roundTo_abs_le {p e : Nat} (hp : 1 ≤ p) (hpe : p ≤ e) (x : ℚ) : |roundTo p e x| ≤ 2 * |x| := by
  have := roundTo_nearest hp x (rep_zero hp hpe)
  rw [zero_sub, abs_neg] at this
  have := abs_le_of_near this
  linarith

/-! ## The numbers -/

/-- Value number `i`. -/
def rangeVal (wp we p e : Nat) (a s : ℚ) (i : Nat) : ℚ := roundTo p e (roundTo wp we (a + roundTo wp we (i * s)))

theorem rangeVal_neg (wp we p e : Nat) (a s : ℚ) (i : Nat) : rangeVal wp we p e (-a) (-s) i = -rangeVal wp we p e a s i := by
  unfold rangeVal
  rw [mul_neg, roundTo_neg, ← neg_add, roundTo_neg, roundTo_neg]

section
variable {wp we p e : Nat} (hwp : 4 ≤ wp) (hwe : wp ≤ we) (hp : 1 ≤ p) (hpe : p ≤ e) (hpw : p ≤ wp) (hew : e ≤ we)
  {a b s : ℚ} (ra : Representable p e a) (rb : Representable p e b) (rs : Representable p e s) (hs : 0 < s) (hab : a ≤ b)
  (hQ : 16 * ((b - a) / s) ≤ 2 ^ wp)

include hwp in
theorem ulp_small : 1 / (2 : ℚ) ^ wp ≤ 1 / 16 := by
  have : (2 : ℚ) ^ 4 ≤ 2 ^ wp := pow_le_pow_right₀ (by norm_num) hwp
  exact one_div_le_one_div_of_le (by norm_num) (by linarith)

include hwp hwe in
theorem halfTiny_small : halfTiny wp we ≤ 1 / 16 := by
  unfold halfTiny
  have : (2 : ℚ) ^ (2 - (we : Int) - wp) ≤ 2 ^ (-3 : Int) := zpow_le_zpow_right₀ (by norm_num) (by omega)
  have h3 := this.trans_eq (by norm_num : (2 : ℚ) ^ (-3 : Int) = 1 / 8)
  rw [div_le_iff₀ (by norm_num)]
  exact h3.trans (by norm_num)

include hQ in
theorem steps_ulp : (b - a) / s * (1 / 2 ^ wp) ≤ 1 / 16 := by
  have : (0 : ℚ) < 2 ^ wp := by positivity
  rw [mul_one_div, div_le_iff₀ this]
  linarith

include hwp hwe hpw hew ra rb hs hab hQ in
/-- The rounded number of steps is close to the exact one. -/
theorem count_near : |roundTo wp we (roundTo wp we (b - a) / s) - (b - a) / s| < 1 / 4 := by
  have e1 := roundTo_sum_err (Representable.widen rb hpw hew (by omega : wp ≤ we + 1)) (representable_neg (Representable.widen ra hpw hew (by omega)))
  rw [← sub_eq_add_neg] at e1
  have h1 := ulp_small hwp
  have h2 := halfTiny_small hwp hwe
  have h3 := steps_ulp hQ
  have e2 := roundTo_err_both wp we (roundTo wp we (b - a) / s)
  generalize roundTo wp we (b - a) = d at *
  have hu := ulp_nonneg wp
  generalize 1 / (2 : ℚ) ^ wp = u at *
  have e3 : |d / s - (b - a) / s| ≤ (b - a) / s * u := by
    rw [← sub_div, abs_div, abs_of_pos hs, div_mul_eq_mul_div]
    refine div_le_div_of_nonneg_right ?_ hs.le
    rwa [abs_of_nonneg (by linarith : 0 ≤ b - a)] at e1
  have hq0 : 0 ≤ (b - a) / s := div_nonneg (by linarith) hs.le
  have e4 := abs_le_of_near e3
  rw [abs_of_nonneg hq0] at e4
  generalize (b - a) / s = Q at *
  refine lt_of_le_of_lt (abs_sub_chain e2 e3) ?_
  have := mul_le_mul_of_nonneg_right e4 hu
  have : Q * u * u ≤ 1 / 16 * u := mul_le_mul_of_nonneg_right h3 hu
  nlinarith

include hwp hwe hpw hew ra rb hs hab hQ in
theorem count_bounds : 0 ≤ ⌈roundTo wp we (roundTo wp we (b - a) / s)⌉ ∧
    ⌈roundTo wp we (roundTo wp we (b - a) / s)⌉ ≤ ⌈(b - a) / s⌉ + 1 ∧ ⌈(b - a) / s⌉ ≤ ⌈roundTo wp we (roundTo wp we (b - a) / s)⌉ + 1 := by
  have h := abs_lt.1 (count_near hwp hwe hpw hew ra rb hs hab hQ)
  have h0 : 0 ≤ roundTo wp we (roundTo wp we (b - a) / s) := roundTo_nonneg (div_nonneg (roundTo_nonneg (by linarith)) hs.le)
  generalize roundTo wp we (roundTo wp we (b - a) / s) = q at *
  have c1 := Int.le_ceil q
  have c2 := Int.le_ceil ((b - a) / s)
  refine ⟨Int.ceil_nonneg h0, ?_, ?_⟩
  · rw [Int.ceil_le]; push_cast; linarith
  · rw [Int.ceil_le]; push_cast; linarith

include hwp hwe hp hpw hew ra rb hs hab hQ in
/-- One value too many is at or beyond the stop. -/
theorem extra_beyond (h : ⌈roundTo wp we (roundTo wp we (b - a) / s)⌉ = ⌈(b - a) / s⌉ + 1) (M : Nat) (hM : (M : Int) = ⌈(b - a) / s⌉) :
    b ≤ rangeVal wp we p e a s M := by
  have rb' := Representable.widen rb hpw hew (by omega : wp ≤ we + 1)
  have hn := abs_lt.1 (count_near hwp hwe hpw hew ra rb hs hab hQ)
  have h1w : 1 ≤ wp := by omega
  have c2 := Int.le_ceil ((b - a) / s)
  have c3 := Int.ceil_lt_add_one ((b - a) / s)
  have hQM : (b - a) / s ≤ M := by rw [← hM] at c2; exact_mod_cast c2
  have hMQ : (M : ℚ) < (b - a) / s + 1 := by rw [← hM] at c3; exact_mod_cast c3
  have h16 : (16 : ℚ) ≤ 2 ^ wp := by
    have : (2 : ℚ) ^ 4 ≤ 2 ^ wp := pow_le_pow_right₀ (by norm_num) hwp
    linarith
  have rM : Representable wp we (M : ℚ) := by
    have := representable_int (n := (M : Int)) (p := wp) (e := we) (by
      rw [Nat.abs_cast]
      have : (M : ℚ) ≤ 2 ^ wp := by linarith
      exact_mod_cast this) h1w hwe
    simpa using this
  have hlt : (M : ℚ) < roundTo wp we (b - a) / s := by
    by_contra hc
    have := roundTo_mono (e := we) h1w (not_lt.1 hc)
    rw [roundTo_exact rM] at this
    have := Int.ceil_le_ceil this
    rw [h, Int.ceil_natCast, ← hM] at this
    omega
  have hms : b - a ≤ M * s := (div_le_iff₀ hs).1 hQM
  have hd : M * s < roundTo wp we (b - a) := (lt_div_iff₀ hs).1 hlt
  have hm := roundTo_mono (e := we) h1w hms
  have hz : b ≤ roundTo wp we (a + roundTo wp we (M * s)) := by
    have := roundTo_mono (e := we) h1w (by linarith : b ≤ a + roundTo wp we (M * s))
    rwa [roundTo_exact rb'] at this
  have := roundTo_mono (e := e) hp hz
  rwa [roundTo_exact rb] at this

theorem tiny_le {p e : Nat} {s : ℚ} (rs : Representable p e s) (hs : 0 < s) : 2 * halfTiny p e ≤ s := by
  obtain ⟨m, k, -, hk, -, rfl⟩ := rs
  have hm : (1 : ℚ) ≤ m := by
    have : 0 < (m : ℚ) := by
      by_contra hc
      have := mul_nonpos_of_nonpos_of_nonneg (not_lt.1 hc) (two_zpow_pos k).le
      linarith
    have : 0 < m := by exact_mod_cast this
    exact_mod_cast this
  have h1 : (2 : ℚ) ^ (2 - (e : Int) - p) ≤ 2 ^ k := zpow_le_zpow_right₀ (by norm_num) (by omega)
  have h2 := two_zpow_pos k
  unfold halfTiny
  nlinarith

include hwp hwe hp hpw hew rb rs hs hQ in
/-- A value that should lie well before the stop does not lie beyond it. -/
theorem not_beyond (i : Nat) (hi : i + 3 / 4 ≤ (b - a) / s) : rangeVal wp we p e a s i ≤ b := by
  have rb' := Representable.widen rb hpw hew (by omega : wp ≤ we + 1)
  have rs' := Representable.widen rs hpw hew (by omega : wp ≤ we + 1)
  have h1w : 1 ≤ wp := by omega
  have hi0 : (0 : ℚ) ≤ i := by positivity
  have h3 := steps_ulp hQ
  have hu := ulp_nonneg wp
  have ht := tiny_le rs' hs
  have e1 := (abs_le.1 (roundTo_err_both wp we (i * s))).2
  rw [abs_of_nonneg (by positivity)] at e1
  have h5 : (i + 3 / 4) * s ≤ b - a := (le_div_iff₀ hs).1 hi
  have h6 : i * (1 / 2 ^ wp) ≤ (1 : ℚ) / 16 := le_trans (mul_le_mul_of_nonneg_right (by linarith) hu) h3
  have h7 := mul_le_mul_of_nonneg_right h6 hs.le
  have hz := roundTo_mono (e := we) h1w (by linarith : a + roundTo wp we (i * s) ≤ b)
  rw [roundTo_exact rb'] at hz
  have := roundTo_mono (e := e) hp hz
  rwa [roundTo_exact rb] at this

/-- The error of a value before the last rounding. -/
theorem range_err (ra' : Representable wp we a) (i : Nat) (hr : Representable wp we (roundTo wp we (i * s))) :
    |roundTo wp we (a + roundTo wp we (i * s)) - (a + i * s)| ≤ |a + i * s| * (1 / 2 ^ wp) +
      (1 + 1 / 2 ^ wp) * (|i * s| * (1 / 2 ^ wp) + halfTiny wp we) := by
  have e1 := roundTo_err_both wp we (i * s)
  have e2 := roundTo_sum_err ra' hr
  have hu := ulp_nonneg wp
  generalize roundTo wp we (i * s) = m at *
  generalize |i * s| * (1 / 2 ^ wp) + halfTiny wp we = E at *
  have e3 : |a + m - (a + i * s)| ≤ E := by rw [add_sub_add_left_eq_sub]; exact e1
  have e4 := abs_le_of_near e3
  refine (abs_sub_chain e2 e3).trans ?_
  have := mul_le_mul_of_nonneg_right e4 hu
  linarith

include hwp hs in
/-- With a step that is large compared to the distance of the floats, such a value lies before the stop. -/
theorem before_stop (ra' : Representable wp we a) (i : Nat) (hr : Representable wp we (roundTo wp we (i * s))) (hi : i + 3 / 4 ≤ (b - a) / s)
    (hres : 8 * ((1 / 2 ^ wp + 1 / 2 ^ p) * (|a| + |b|) + (halfTiny wp we + halfTiny p e)) ≤ s) : rangeVal wp we p e a s i < b := by
  have hi0 : (0 : ℚ) ≤ i := by positivity
  have h5 : (i + 3 / 4) * s ≤ b - a := (le_div_iff₀ hs).1 hi
  have his : 0 ≤ i * s := by positivity
  have e1 := range_err ra' i hr
  unfold rangeVal
  generalize roundTo wp we (a + roundTo wp we (i * s)) = z at *
  have e2 := roundTo_err_both p e z
  have hu := ulp_nonneg wp
  have hu' := ulp_nonneg p
  have hu1 := ulp_small hwp
  have hu1' : 1 / (2 : ℚ) ^ p ≤ 1 := by
    rw [div_le_one (by positivity)]; exact one_le_pow₀ (by norm_num)
  have hη := (halfTiny_pos wp we).le
  have hη' := (halfTiny_pos p e).le
  have hba : b - a ≤ |a| + |b| := by
    have := le_abs_self b
    have := neg_abs_le a
    linarith
  have hy : |a + i * s| ≤ |a| + |b| := by
    have := le_abs_self b
    have := neg_abs_le a
    have := abs_nonneg a
    have := abs_nonneg b
    exact abs_le.2 ⟨by linarith, by linarith⟩
  rw [abs_of_nonneg his] at e1
  have hi2 : i * s ≤ |a| + |b| := by linarith
  generalize |a| + |b| = T at *
  generalize halfTiny wp we = η at *
  generalize halfTiny p e = η' at *
  generalize 1 / (2 : ℚ) ^ wp = u at *
  generalize 1 / (2 : ℚ) ^ p = u' at *
  have hT : 0 ≤ T := by linarith
  have k1 := mul_le_mul_of_nonneg_right hy hu
  have k2 := mul_le_mul_of_nonneg_right hi2 hu
  have k3 : (1 + u) * (i * s * u + η) ≤ 2 * (T * u + η) := mul_le_mul (by linarith) (by linarith) (by positivity) (by norm_num)
  have e3 : |z - (a + i * s)| ≤ 3 * (T * u) + 2 * η := by linarith
  have hTu : T * u ≤ T * (1 / 16) := mul_le_mul_of_nonneg_left hu1 hT
  have e4 : |z| ≤ 2 * T + 2 * η := by have := abs_le_of_near e3; linarith
  have k4 : |z| * u' ≤ 2 * (T * u') + 2 * η := by
    have := mul_le_mul_of_nonneg_right e4 hu'
    have : η * u' ≤ η * 1 := mul_le_mul_of_nonneg_left hu1' hη
    linarith
  have := (abs_le.1 e2).2
  have := (abs_le.1 e3).2
  have : 0 ≤ T * u := mul_nonneg hT hu
  have : 0 ≤ T * u' := mul_nonneg hT hu'
  linarith

include hwp hp hs in
theorem rangeVal_mono {i j : Nat} (hij : i ≤ j) : rangeVal wp we p e a s i ≤ rangeVal wp we p e a s j := by
  have h1w : 1 ≤ wp := by omega
  have : (i : ℚ) ≤ j := by exact_mod_cast hij
  exact roundTo_mono hp (roundTo_mono h1w (add_le_add_right (roundTo_mono h1w (mul_le_mul_of_nonneg_right this hs.le)) _))

/-- What is known about the numbers of a rising range. -/
structure RangeFacts (wp we p e : Nat) (a b s : ℚ) : Prop where
  nonneg : 0 ≤ ⌈roundTo wp we (roundTo wp we (b - a) / s)⌉
  upper : ⌈roundTo wp we (roundTo wp we (b - a) / s)⌉ ≤ ⌈(b - a) / s⌉ + 1
  lower : ⌈(b - a) / s⌉ ≤ ⌈roundTo wp we (roundTo wp we (b - a) / s)⌉ + 1
  extra : ⌈roundTo wp we (roundTo wp we (b - a) / s)⌉ = ⌈(b - a) / s⌉ + 1 → ∀ M : Nat, (M : Int) = ⌈(b - a) / s⌉ → b ≤ rangeVal wp we p e a s M
  inside : ∀ i : Nat, (i : Int) + 2 ≤ ⌈roundTo wp we (roundTo wp we (b - a) / s)⌉ → rangeVal wp we p e a s i ≤ b
  strict : 8 * ((1 / 2 ^ wp + 1 / 2 ^ p) * (|a| + |b|) + (halfTiny wp we + halfTiny p e)) ≤ s → ∀ i : Nat,
    (i : Int) + 2 ≤ ⌈roundTo wp we (roundTo wp we (b - a) / s)⌉ ∨ (i : Int) + 2 ≤ ⌈(b - a) / s⌉ →
    Representable wp we (roundTo wp we (i * s)) → rangeVal wp we p e a s i < b
  mono : ∀ i j : Nat, i ≤ j → rangeVal wp we p e a s i ≤ rangeVal wp we p e a s j
  size : ∀ i : Nat, (i : Int) < ⌈roundTo wp we (roundTo wp we (b - a) / s)⌉ → i * s ≤ b - a + s

include hwp hwe hp hpe hpw hew ra rb rs hs hab hQ in
theorem rangeFacts_pos : RangeFacts wp we p e a b s := by
  obtain ⟨n0, n1, n2⟩ := count_bounds hwp hwe hpw hew ra rb hs hab hQ
  have hn := abs_lt.1 (count_near hwp hwe hpw hew ra rb hs hab hQ)
  have hi1 : ∀ i : Nat, (i : Int) + 2 ≤ ⌈roundTo wp we (roundTo wp we (b - a) / s)⌉ → i + 3 / 4 ≤ (b - a) / s := by
    intro i hi
    have := Int.lt_ceil.1 (by omega : (i : Int) + 1 < ⌈roundTo wp we (roundTo wp we (b - a) / s)⌉)
    push_cast at this
    linarith
  have hi2 : ∀ i : Nat, (i : Int) + 2 ≤ ⌈(b - a) / s⌉ → i + 3 / 4 ≤ (b - a) / s := by
    intro i hi
    have := Int.lt_ceil.1 (by omega : (i : Int) + 1 < ⌈(b - a) / s⌉)
    push_cast at this
    linarith
  refine ⟨n0, n1, n2, extra_beyond hwp hwe hp hpw hew ra rb hs hab hQ,
    fun i hi => not_beyond hwp hwe hp hpw hew rb rs hs hQ i (hi1 i hi), fun hres i hi hr => ?_,
    fun i j hij => rangeVal_mono hwp hp hs hij, fun i hi => ?_⟩
  · exact before_stop hwp hs (Representable.widen ra hpw hew (by omega)) i hr (hi.elim (hi1 i) (hi2 i)) hres
  · have := Int.lt_ceil.1 hi
    have h : (i : ℚ) ≤ (b - a) / s + 1 := by push_cast at this; linarith
    have := mul_le_mul_of_nonneg_right h hs.le
    rw [add_mul, div_mul_cancel₀ _ hs.ne'] at this
    linarith

end

/-! ## The floats -/

theorem ceilUsize_of {v : Flt} {q : ℚ} (h : v.rat? = some q) (h0 : 0 ≤ ⌈q⌉) (h1 : ⌈q⌉ < 2 ^ 64) : ceilUsize v = some ⌈q⌉.toNat := by
  cases v with
  | nan s => cases h
  | inf s => cases h
  | negZero => cases h; rfl
  | num r =>
    cases h
    rw [ceilUsize, if_neg (by omega)]

theorem fltConvert_round {p e : Nat} {x : Flt} {q : ℚ} (hx : x.rat? = some q) (h : |roundTo p e q| < 2 ^ (e + 1)) :
    (fltConvert p e x).rat? = some (roundTo p e q) := by
  cases x with
  | nan s => cases hx
  | inf s => cases hx
  | negZero => cases hx; rw [roundTo_zero]; rfl
  | num r => cases hx; exact roundFlt_rat h

theorem fltLt_rat {x y : Flt} {q r : ℚ} (hx : x.rat? = some q) (hy : y.rat? = some r) : fltLt x y = decide (q < r) := by
  cases x <;> cases hx <;> cases y <;> cases hy <;> simp [fltLt]

theorem fltEq_rat {x y : Flt} {q r : ℚ} (hx : x.rat? = some q) (hy : y.rat? = some r) : fltEq x y = decide (q = r) := by
  cases x <;> cases hx <;> cases y <;> cases hy <;> simp [fltEq, eq_comm] <;> rfl

theorem fltLe_rat {x y : Flt} {q r : ℚ} (hx : x.rat? = some q) (hy : y.rat? = some r) : fltLe x y = decide (q ≤ r) := by
  rw [fltLe, fltLt_rat hx hy, fltEq_rat hx hy]
  simp [le_iff_lt_or_eq]

theorem finite_rat {p e : Nat} {x : Flt} (h : x.Finite p e) : x.rat? = some x.val := by
  obtain ⟨q, h1, -⟩ := h
  rw [flt_val_of h1, h1]

theorem finite_widen {p e wp we : Nat} {x : Flt} (h : x.Finite p e) (hpw : p ≤ wp) (hew : e ≤ we) (hwe : wp ≤ we) : x.Finite wp we := by
  obtain ⟨q, h1, h2⟩ := h
  exact ⟨q, h1, Representable.widen h2 hpw hew (by omega)⟩

section
variable {wp we p e : Nat} (hwp : 4 ≤ wp) (hw64 : wp ≤ 64) (hwe : wp ≤ we) (hp : 1 ≤ p) (hpe : p ≤ e) (hpw : p ≤ wp) (hew : e ≤ we)
  {a b s : Flt} (h : RangeInRange wp p e a b s)

include hwp hwe hp hpe hpw hew h in
/-- What is known about the numbers, for a rising or a falling range. -/
theorem rangeFacts_both : (0 < s.val → RangeFacts wp we p e a.val b.val s.val) ∧ (s.val < 0 → RangeFacts wp we p e (-a.val) (-b.val) (-s.val)) := by
  obtain ⟨ha, hb, hs, h0, h1, h2, -⟩ := h
  unfold stepsOf at h1 h2
  constructor
  · intro hs0
    refine rangeFacts_pos hwp hwe hp hpe hpw hew (finite_rep ha) (finite_rep hb) (finite_rep hs) hs0 ?_ h2
    by_contra hc
    exact absurd (div_neg_of_neg_of_pos (by linarith : b.val - a.val < 0) hs0) (not_lt.2 h1)
  · intro hs0
    have he : (-b.val - -a.val) / -s.val = (b.val - a.val) / s.val := by
      rw [← neg_div_neg_eq]; congr 1 <;> ring
    refine rangeFacts_pos hwp hwe hp hpe hpw hew (representable_neg (finite_rep ha)) (representable_neg (finite_rep hb))
      (representable_neg (finite_rep hs)) (by linarith) ?_ (by rw [he]; exact h2)
    by_contra hc
    exact absurd (div_neg_of_pos_of_neg (by linarith : 0 < b.val - a.val) hs0) (not_lt.2 h1)

theorem flip_div (wp we : Nat) (a b s : ℚ) :
    (-b - -a) / -s = (b - a) / s ∧ roundTo wp we (roundTo wp we (-b - -a) / -s) = roundTo wp we (roundTo wp we (b - a) / s) := by
  have h : -b - -a = -(b - a) := by ring
  rw [h, roundTo_neg, neg_div_neg_eq, neg_div_neg_eq]
  exact ⟨rfl, rfl⟩

include hwp hw64 hwe hp hpe hpw hew h in
/-- The number of values and the values, before one is dropped. -/
theorem range_values : ∃ n : Nat, (n : Int) = ⌈roundTo wp we (roundTo wp we (b.val - a.val) / s.val)⌉ ∧
    ceilUsize (fltDiv wp we (fltSub wp we b a) s) = some n ∧
    ∀ i < n, Representable wp we (roundTo wp we (i * s.val)) ∧ Representable p e (rangeVal wp we p e a.val s.val i) ∧
      (fltConvert p e (fltAdd wp we a (fltMul wp we (roundFlt wp we i) s))).rat? = some (rangeVal wp we p e a.val s.val i) := by
  have h1w : 1 ≤ wp := by omega
  obtain ⟨f1, f2⟩ := rangeFacts_both hwp hwe hp hpe hpw hew h
  obtain ⟨ha, hb, hs, h0, h1, h2, h8⟩ := h
  have ha' := finite_widen ha hpw hew hwe
  have hb' := finite_widen hb hpw hew hwe
  have hs' := finite_widen hs hpw hew hwe
  have hmax : maxFinite p e ≤ maxFinite wp we :=
    (le_abs_self _).trans (rep_le_max (Representable.widen (maxFinite_rep hp hpe) hpw hew (by omega : wp ≤ we + 1)))
  have hA := abs_nonneg a.val
  have hB := abs_nonneg b.val
  have hS := abs_nonneg s.val
  have hT : |b.val - a.val| ≤ |a.val| + |b.val| := by have := abs_sub b.val a.val; linarith
  have d1 := fltSub_round h1w hwe hb' ha' (by linarith)
  have dr : Representable wp we (roundTo wp we (b.val - a.val)) := roundTo_representable h1w hwe (roundTo_in_range h1w hwe (by linarith))
  -- the count
  have hn0 : 0 ≤ ⌈roundTo wp we (roundTo wp we (b.val - a.val) / s.val)⌉ ∧
      ⌈roundTo wp we (roundTo wp we (b.val - a.val) / s.val)⌉ ≤ ⌈(b.val - a.val) / s.val⌉ + 1 ∧
      ∀ i : Nat, (i : Int) < ⌈roundTo wp we (roundTo wp we (b.val - a.val) / s.val)⌉ → |i * s.val| ≤ |a.val| + |b.val| + |s.val| := by
    rcases lt_or_gt_of_ne h0 with hneg | hpos
    · have F := f2 hneg
      obtain ⟨e1, e2⟩ := flip_div wp we a.val b.val s.val
      have := F.nonneg
      have hu := F.upper
      have hsz := F.size
      rw [e2] at this hu hsz
      rw [e1] at hu
      refine ⟨this, hu, fun i hi => ?_⟩
      have := hsz i hi
      have hi0 : (0 : ℚ) ≤ i := by positivity
      rw [abs_mul, Nat.abs_cast, abs_of_neg hneg]
      have := neg_abs_le b.val
      have := le_abs_self a.val
      linarith
    · have F := f1 hpos
      refine ⟨F.nonneg, F.upper, fun i hi => ?_⟩
      have := F.size i hi
      rw [abs_mul, Nat.abs_cast, abs_of_pos hpos]
      have := le_abs_self b.val
      have := neg_abs_le a.val
      linarith
  obtain ⟨hn0, hn1, hsz⟩ := hn0
  have h16 : (16 : ℚ) ≤ 2 ^ wp := by
    have : (2 : ℚ) ^ 4 ≤ 2 ^ wp := pow_le_pow_right₀ (by norm_num) hwp
    linarith
  have h2w : (16 : ℚ) * ⌈(b.val - a.val) / s.val⌉ ≤ 2 ^ wp + 16 := by
    have := Int.ceil_lt_add_one ((b.val - a.val) / s.val)
    unfold stepsOf at h2
    linarith
  have hnw : (⌈roundTo wp we (roundTo wp we (b.val - a.val) / s.val)⌉ : ℚ) ≤ 2 ^ wp / 2 := by
    have : (⌈roundTo wp we (roundTo wp we (b.val - a.val) / s.val)⌉ : ℚ) ≤ ⌈(b.val - a.val) / s.val⌉ + 1 := by exact_mod_cast hn1
    linarith
  have hqm : |roundTo wp we (b.val - a.val) / s.val| ≤ maxFinite wp we := by
    have hle := roundTo_abs_le h1w hwe (b.val - a.val)
    have hd : |roundTo wp we (b.val - a.val) / s.val| ≤ 2 * stepsOf a b s := by
      rw [abs_div, ← abs_of_nonneg h1]
      unfold stepsOf
      rw [abs_div, mul_div_assoc']
      exact div_le_div_of_nonneg_right hle hS
    have hmw : (2 : ℚ) ^ wp ≤ maxFinite wp we := by
      have hr := representable_int (n := 2 ^ wp) (p := wp) (e := we) (by rw [abs_of_pos (by positivity)]) h1w hwe
      have := (le_abs_self _).trans (rep_le_max hr)
      exact_mod_cast this
    linarith
  have hdv : (fltSub wp we b a).val = roundTo wp we (b.val - a.val) := flt_val_of d1
  have q1 := fltDiv_round h1w hwe ⟨_, d1, dr⟩ hs' h0 (by rw [hdv]; exact hqm)
  rw [hdv] at q1
  have hn64 : ⌈roundTo wp we (roundTo wp we (b.val - a.val) / s.val)⌉ < 2 ^ 64 := by
    have h64 : (2 : ℚ) ^ wp ≤ 2 ^ 64 := pow_le_pow_right₀ (by norm_num) hw64
    have : (⌈roundTo wp we (roundTo wp we (b.val - a.val) / s.val)⌉ : ℚ) < 2 ^ 64 := by linarith
    exact_mod_cast this
  refine ⟨_, Int.toNat_of_nonneg hn0, ceilUsize_of q1 hn0 hn64, fun i hi => ?_⟩
  have hiz : (i : Int) < ⌈roundTo wp we (roundTo wp we (b.val - a.val) / s.val)⌉ := by omega
  have his := hsz i hiz
  have him : |i * s.val| ≤ maxFinite wp we := by linarith
  have hi2 : i ≤ 2 ^ wp := by
    have : (i : ℚ) < ⌈roundTo wp we (roundTo wp we (b.val - a.val) / s.val)⌉ := by exact_mod_cast hiz
    have : (i : ℚ) ≤ 2 ^ wp := by linarith
    exact_mod_cast this
  obtain ⟨c1, c2⟩ := countFlt_exact h1w hwe i hi2
  rw [countFlt] at c1 c2
  have m1 := fltMul_round h1w hwe c1 hs' (by rw [c2]; exact him)
  rw [c2] at m1
  have mr : Representable wp we (roundTo wp we (i * s.val)) := roundTo_representable h1w hwe (roundTo_in_range h1w hwe him)
  have hm2 := roundTo_abs_le h1w hwe (i * s.val)
  have hz : |a.val + roundTo wp we (i * s.val)| ≤ 3 * (|a.val| + |b.val| + |s.val|) := by
    have := abs_add_le a.val (roundTo wp we (i * s.val))
    linarith
  have hmv : (fltMul wp we (roundFlt wp we i) s).val = roundTo wp we (i * s.val) := flt_val_of m1
  have z1 := fltAdd_round h1w hwe ha' ⟨_, m1, mr⟩ (by rw [hmv]; linarith)
  rw [hmv] at z1
  have hz2 := roundTo_abs_le h1w hwe (a.val + roundTo wp we (i * s.val))
  have hx := roundTo_in_range hp hpe (q := roundTo wp we (a.val + roundTo wp we (i * s.val))) (by linarith)
  exact ⟨mr, roundTo_representable hp hpe hx, fltConvert_round z1 hx⟩

/-- One value is dropped, or none. -/
theorem dropOutside_range {K : Type} (down up : K → Bool) (pos neg : Bool) (f : Nat → K) (n : Nat) :
    ∃ m, dropOutside down up pos neg ((List.range n).map f) = (List.range m).map f ∧
      ((m = n ∧ ∀ k, k + 1 = n → (pos = true → up (f k) = false) ∧ (neg = true → down (f k) = false)) ∨
        (m + 1 = n ∧ (pos = true ∧ up (f m) = true ∨ neg = true ∧ down (f m) = true))) := by
  unfold dropOutside
  rcases n with - | n
  · refine ⟨0, by simp, Or.inl ⟨rfl, fun k hk => absurd hk (by omega)⟩⟩
  · have hl : ((List.range (n + 1)).map f).getLast? = some (f n) := by simp [List.range_succ]
    have hd : ((List.range (n + 1)).map f).dropLast = (List.range n).map f := by simp [List.range_succ]
    rw [hl, hd]
    split
    · rename_i h
      refine ⟨n, rfl, Or.inr ⟨rfl, ?_⟩⟩
      simpa using h
    · rename_i h
      refine ⟨n + 1, rfl, Or.inl ⟨rfl, fun k hk => ?_⟩⟩
      obtain rfl : k = n := by omega
      simpa using h

include hwp hw64 hwe hp hpe hpw hew h in
theorem arangeFlt_facts : ∃ xs, (∀ rounds, arangeFlt wp we p e a b s rounds = some (.ok xs)) ∧
    (xs.length : Int) ≤ ⌈stepsOf a b s⌉ ∧ ⌈stepsOf a b s⌉ ≤ xs.length + 2 ∧
    (WellResolved wp we p e a b s → ⌈stepsOf a b s⌉ ≤ xs.length + 1) ∧
    ∀ i x, xs[i]? = some x → x.val = rangeVal wp we p e a.val s.val i ∧ RangeWithin wp we p e a s i x ∧ NotBeyond b s x ∧
      (WellResolved wp we p e a b s → Before b s x) := by
  have h1w : 1 ≤ wp := by omega
  obtain ⟨f1, f2⟩ := rangeFacts_both hwp hwe hp hpe hpw hew h
  obtain ⟨n, hn, hc, hv⟩ := range_values hwp hw64 hwe hp hpe hpw hew h
  obtain ⟨ha, hb, hs, h0, hq0, -, -⟩ := h
  replace hq0 := Int.ceil_nonneg hq0
  have hb' := finite_rat hb
  have hs' := finite_rat hs
  have hpos : fltLt (.num 0) s = decide (0 < s.val) := fltLt_rat rfl hs'
  have hneg : fltLt s (.num 0) = decide (s.val < 0) := fltLt_rat hs' rfl
  have hup : ∀ i < n, fltLe b (fltConvert p e (fltAdd wp we a (fltMul wp we (roundFlt wp we i) s))) =
      decide (b.val ≤ rangeVal wp we p e a.val s.val i) := fun i hi => fltLe_rat hb' (hv i hi).2.2
  have hdown : ∀ i < n, fltLe (fltConvert p e (fltAdd wp we a (fltMul wp we (roundFlt wp we i) s))) b =
      decide (rangeVal wp we p e a.val s.val i ≤ b.val) := fun i hi => fltLe_rat (hv i hi).2.2 hb'
  obtain ⟨m, hm, hcase⟩ := dropOutside_range (fun x => fltLe x b) (fun x => fltLe b x) (fltLt (.num 0) s) (fltLt s (.num 0))
    (fun i : Nat => fltConvert p e (fltAdd wp we a (fltMul wp we (roundFlt wp we i) s))) n
  rw [hpos, hneg] at hcase
  simp only [decide_eq_true_eq] at hcase
  have hmn : m ≤ n := by rcases hcase with ⟨h, -⟩ | ⟨h, -⟩ <;> omega
  refine ⟨(List.range m).map fun i : Nat => fltConvert p e (fltAdd wp we a (fltMul wp we (roundFlt wp we i) s)), fun rounds => ?_, ?_⟩
  · rw [arangeFlt, fltEq_rat hs' rfl, decide_eq_false h0, arangeFltFast, hc, Option.map_some, hm]
    rfl
  rw [List.length_map, List.length_range]
  -- both directions at once
  have key : (m : Int) ≤ ⌈stepsOf a b s⌉ ∧ ⌈stepsOf a b s⌉ ≤ m + 2 ∧ (WellResolved wp we p e a b s → ⌈stepsOf a b s⌉ ≤ m + 1) ∧
      ∀ i < m, ((0 < s.val → rangeVal wp we p e a.val s.val i ≤ b.val) ∧ (s.val < 0 → b.val ≤ rangeVal wp we p e a.val s.val i)) ∧
        (WellResolved wp we p e a b s →
          (0 < s.val → rangeVal wp we p e a.val s.val i < b.val) ∧ (s.val < 0 → b.val < rangeVal wp we p e a.val s.val i)) := by
    unfold WellResolved
    unfold stepsOf at hq0 ⊢
    rcases lt_or_gt_of_ne h0 with hs0 | hs0
    · have F := f2 hs0
      obtain ⟨e1, e2⟩ := flip_div wp we a.val b.val s.val
      obtain ⟨-, g2, g3, g4, g5, g6, -, -⟩ := F
      rw [e1, e2] at g2 g3 g4 g6
      rw [e2] at g5
      rw [← hn] at g2 g3 g4 g5 g6
      simp only [rangeVal_neg, neg_le_neg_iff, neg_lt_neg_iff, abs_neg, mul_neg, roundTo_neg] at g4 g5 g6
      rw [abs_of_neg hs0]
      have g6' := fun hr i hi hin => g6 hr i hi (representable_neg (hv i hin).1)
      simp only [not_lt.2 hs0.le, hs0, false_imp_iff, true_imp_iff, true_and, false_and, false_or] at hcase ⊢
      generalize ⌈(b.val - a.val) / s.val⌉ = Q at *
      rcases hcase with ⟨rfl, hk⟩ | ⟨hk, hd⟩
      · have hk' : ∀ k, k + 1 = m → b.val < rangeVal wp we p e a.val s.val k := by
          intro k hkm
          have := hk k hkm
          rw [hdown k (by omega)] at this
          simpa using this
        refine ⟨?_, by omega, fun _ => by omega, fun i hi => ?_⟩
        · by_contra hc
          obtain ⟨k, rfl⟩ : ∃ k, m = k + 1 := ⟨m - 1, by omega⟩
          have := g4 (by omega) k (by omega)
          exact absurd (hk' k rfl) (not_lt.2 this)
        · by_cases hi1 : i + 1 = m
          · exact ⟨(hk' i hi1).le, fun _ => hk' i hi1⟩
          · exact ⟨g5 i (by omega), fun hr => g6' hr i (Or.inl (by omega)) hi⟩
      · rw [hdown m (by omega), decide_eq_true_eq] at hd
        refine ⟨by omega, by omega, fun hr => ?_, fun i hi => ⟨g5 i (by omega), fun hr => g6' hr i (Or.inl (by omega)) (by omega)⟩⟩
        by_contra hc
        exact absurd (g6' hr m (Or.inr (by omega)) (by omega)) (not_lt.2 hd)
    · have F := f1 hs0
      obtain ⟨-, g2, g3, g4, g5, g6, -, -⟩ := F
      rw [← hn] at g2 g3 g4 g5 g6
      rw [abs_of_pos hs0]
      have g6' := fun hr i hi hin => g6 hr i hi (hv i hin).1
      simp only [not_lt.2 hs0.le, hs0, false_imp_iff, true_imp_iff, true_and, and_true, false_and, or_false] at hcase ⊢
      generalize ⌈(b.val - a.val) / s.val⌉ = Q at *
      rcases hcase with ⟨rfl, hk⟩ | ⟨hk, hd⟩
      · have hk' : ∀ k, k + 1 = m → rangeVal wp we p e a.val s.val k < b.val := by
          intro k hkm
          have := hk k hkm
          rw [hup k (by omega)] at this
          simpa using this
        refine ⟨?_, by omega, fun _ => by omega, fun i hi => ?_⟩
        · by_contra hc
          obtain ⟨k, rfl⟩ : ∃ k, m = k + 1 := ⟨m - 1, by omega⟩
          have := g4 (by omega) k (by omega)
          exact absurd (hk' k rfl) (not_lt.2 this)
        · by_cases hi1 : i + 1 = m
          · exact ⟨(hk' i hi1).le, fun _ => hk' i hi1⟩
          · exact ⟨g5 i (by omega), fun hr => g6' hr i (Or.inl (by omega)) hi⟩
      · rw [hup m (by omega), decide_eq_true_eq] at hd
        refine ⟨by omega, by omega, fun hr => ?_, fun i hi => ⟨g5 i (by omega), fun hr => g6' hr i (Or.inl (by omega)) (by omega)⟩⟩
        by_contra hc
        exact absurd (g6' hr m (Or.inr (by omega)) (by omega)) (not_lt.2 hd)
  obtain ⟨k1, k2, k3, k4⟩ := key
  refine ⟨k1, k2, k3, fun i x hx => ?_⟩
  have him : i < m := by
    have := (List.getElem?_eq_some_iff.1 hx).1
    simpa using this
  rw [List.getElem?_map, List.getElem?_range him, Option.map_some, Option.some_inj] at hx
  obtain ⟨r1, r2, r3⟩ := hv i (by omega)
  rw [hx] at r3
  have hxv : x.val = rangeVal wp we p e a.val s.val i := flt_val_of r3
  obtain ⟨k5, k6⟩ := k4 i him
  unfold NotBeyond Before
  rw [hxv]
  refine ⟨rfl, ⟨⟨_, r3, r2⟩, roundTo wp we (a.val + roundTo wp we (i * s.val)),
    range_err (finite_rep (finite_widen ha hpw hew hwe)) i r1, fun t ht => ?_⟩, k5, k6⟩
  rw [hxv]
  exact roundTo_nearest hp _ ht

include hwp hw64 hwe hp hpe hpw hew h in
/-- `arange` of floats ends, whatever the rounding errors: with at most as many values as there should be and at most two fewer, each
close to its exact place, in order, and none beyond the stop. -/
theorem C109_arange_float : ∃ (xs : List Flt) (t : Tensor Flt), (∀ rounds, Tensor.arange (arangeFlt wp we p e a b s) rounds = some (.ok t)) ∧ t.WF ∧ t.arr.Lists xs ∧
    (xs.length : Int) ≤ ⌈stepsOf a b s⌉ ∧ ⌈stepsOf a b s⌉ ≤ xs.length + 2 ∧
    (∀ (i : Nat) (x : Flt), xs[i]? = some x → RangeWithin wp we p e a s i x ∧ NotBeyond b s x) ∧
    ∀ (i j : Nat) (x y : Flt), i ≤ j → xs[i]? = some x → xs[j]? = some y → (0 < s.val → x.val ≤ y.val) ∧ (s.val < 0 → y.val ≤ x.val) := by
  obtain ⟨xs, h1, h2, h3, -, h5⟩ := arangeFlt_facts hwp hw64 hwe hp hpe hpw hew h
  obtain ⟨t1, t2⟩ := tensor_ofList xs
  refine ⟨xs, _, fun r => by rw [Tensor.arange, h1]; rfl, t1, t2, h2, h3, fun i x hx => ⟨(h5 i x hx).2.1, (h5 i x hx).2.2.1⟩, ?_⟩
  intro i j x y hij hx hy
  rw [(h5 i x hx).1, (h5 j y hy).1]
  refine ⟨fun hs => rangeVal_mono hwp hp hs hij, fun hs => ?_⟩
  have := rangeVal_mono (we := we) (e := e) (a := -a.val) hwp hp (by linarith : 0 < -s.val) hij
  rw [rangeVal_neg, rangeVal_neg] at this
  linarith

include hwp hw64 hwe hp hpe hpw hew h in
/-- If the step is several times larger than the distance of neighbouring floats, all values lie before the stop, and at most one is
missing. -/
theorem C109_resolved (hr : WellResolved wp we p e a b s) :
    ∃ (xs : List Flt) (t : Tensor Flt), (∀ rounds, Tensor.arange (arangeFlt wp we p e a b s) rounds = some (.ok t)) ∧ t.WF ∧ t.arr.Lists xs ∧
      (xs.length : Int) ≤ ⌈stepsOf a b s⌉ ∧ ⌈stepsOf a b s⌉ ≤ xs.length + 1 ∧ ∀ x ∈ xs, Before b s x := by
  obtain ⟨xs, h1, h2, -, h4, h5⟩ := arangeFlt_facts hwp hw64 hwe hp hpe hpw hew h
  obtain ⟨t1, t2⟩ := tensor_ofList xs
  refine ⟨xs, _, fun r => by rw [Tensor.arange, h1]; rfl, t1, t2, h2, h4 hr, fun x hx => ?_⟩
  obtain ⟨i, hi⟩ := List.mem_iff_getElem?.1 hx
  exact (h5 i x hi).2.2.2 hr

end

/-- A step of zero is refused, a positive or a negative one. -/
theorem C109_zero_step (wp we p e : Nat) (a b : Flt) (rounds : Nat) :
    Tensor.arange (arangeFlt wp we p e a b (.num 0)) rounds = some (.error .invalidValue) ∧
    Tensor.arange (arangeFlt wp we p e a b .negZero) rounds = some (.error .invalidValue) := ⟨rfl, rfl⟩

/-- The stop can be among the values: doubles from 2⁵³ to 2⁵³ + 2 in steps of a quarter. -/
theorem C109_false_stop : arangeFlt 53 1023 53 1023 (.num (2 ^ 53)) (.num (2 ^ 53 + 2)) (.num (1 / 4)) 0 =
    some (.ok [.num (2 ^ 53), .num (2 ^ 53), .num (2 ^ 53), .num (2 ^ 53), .num (2 ^ 53), .num (2 ^ 53 + 2), .num (2 ^ 53 + 2)]) := by
  decide +kernel

/-- A value before the stop can be missing: 0 in the doubles from -1 to 2⁻⁶⁰ in steps of a half. -/
theorem C109_false_missing : arangeFlt 53 1023 53 1023 (.num (-1)) (.num (1 / 2 ^ 60)) (.num (1 / 2)) 0 =
    some (.ok [.num (-1), .num (-1 / 2)]) := by
  decide +kernel

/-- `-∞` or a number that is not positive. -/
theorem ceilUsize_nonpos {v : Flt} (h : v = .inf true ∨ ∃ q ≤ 0, v.rat? = some q) : ceilUsize v = none ∨ ceilUsize v = some 0 := by
  rcases h with rfl | ⟨q, hq, h⟩
  · exact Or.inl rfl
  · cases v with
    | nan s => cases h
    | inf s => cases h
    | negZero => exact Or.inr rfl
    | num r =>
      cases h
      have : ⌈q⌉ ≤ 0 := Int.ceil_le.2 (by simpa using hq)
      rw [ceilUsize]
      split
      · exact Or.inl rfl
      · right; congr 1; omega

theorem roundFlt_nonpos {p e : Nat} {q : ℚ} (h : q ≤ 0) : roundFlt p e q = .inf true ∨ ∃ r ≤ 0, (roundFlt p e q).rat? = some r := by
  have h0 := roundTo_nonneg (p := p) (e := e) (x := -q) (by linarith)
  rw [roundTo_neg] at h0
  unfold roundFlt
  split
  · left
    rcases lt_or_eq_of_le h with h | rfl
    · simp [h]
    · rename_i hc
      rw [roundTo_zero, abs_zero] at hc
      exact absurd hc (not_le.2 (by positivity))
  · right
    split
    · exact ⟨0, le_rfl, rfl⟩
    · exact ⟨_, by linarith, rfl⟩

/-- A rising range whose start is not before its stop is empty, also if the difference overflows. -/
theorem C109_empty (wp we p e : Nat) (a b s : Flt) (ha : a.Finite p e) (hb : b.Finite p e) (hs : s.Finite p e) (h0 : 0 < s.val)
    (hab : b.val ≤ a.val) : ∃ t, (∀ rounds, 0 < rounds → Tensor.arange (arangeFlt wp we p e a b s) rounds = some (.ok t)) ∧ t.arr.Lists [] := by
  refine ⟨Tensor.ofList [], fun rounds hr => ?_, (tensor_ofList []).2⟩
  have ra := finite_rat ha
  have rb := finite_rat hb
  have rs := finite_rat hs
  have hsub : fltSub wp we b a = .inf true ∨ ∃ q ≤ 0, (fltSub wp we b a).rat? = some q := by
    have hn := fltNeg_rat ra
    unfold fltSub
    have key : fltNeg a = .negZero ∧ b = .negZero ∨ fltAdd wp we b (fltNeg a) = roundFlt wp we (b.val - a.val) := by
      rw [sub_eq_add_neg]
      generalize fltNeg a = y at hn ⊢
      generalize -a.val = c at hn ⊢
      generalize b.val = d at rb ⊢
      cases y with
      | nan _ => cases hn
      | inf _ => cases hn
      | negZero =>
        cases hn
        cases b with
        | nan _ => cases rb
        | inf _ => cases rb
        | negZero => exact Or.inl ⟨rfl, rfl⟩
        | num r => cases rb; right; rw [add_zero]; rfl
      | num q =>
        cases hn
        cases b with
        | nan _ => cases rb
        | inf _ => cases rb
        | negZero => cases rb; right; rw [zero_add]; rfl
        | num r => cases rb; right; rfl
    rcases key with ⟨k1, k2⟩ | k
    · rw [k1, k2]; exact Or.inr ⟨0, le_rfl, rfl⟩
    · rw [k]; exact roundFlt_nonpos (by linarith)
  have hdiv : fltDiv wp we (fltSub wp we b a) s = .inf true ∨ ∃ q ≤ 0, (fltDiv wp we (fltSub wp we b a) s).rat? = some q := by
    generalize fltSub wp we b a = d at *
    cases s with
    | nan _ => cases rs
    | inf _ => cases rs
    | negZero => exact absurd h0 (by simp [Flt.val, Flt.rat?])
    | num r =>
      have hr0 : 0 < r := by simpa [Flt.val, Flt.rat?] using h0
      rcases hsub with rfl | ⟨q, hq, hd⟩
      · left; simp [fltDiv, fltSign, not_lt.2 hr0.le]
      · cases d with
        | nan _ => cases hd
        | inf _ => cases hd
        | negZero => right; rw [fltDiv, if_neg hr0.ne']; exact ⟨0, le_rfl, fltZero_rat _⟩
        | num d =>
          cases hd
          rw [fltDiv, if_neg hr0.ne']
          split
          · exact Or.inr ⟨0, le_rfl, fltZero_rat _⟩
          · exact roundFlt_nonpos (div_nonpos_of_nonpos_of_nonneg hq hr0.le)
  have hz : fltEq s (.num 0) = false := by rw [fltEq_rat rs rfl]; simpa using h0.ne'
  rw [Tensor.arange, arangeFlt, hz, arangeFltFast]
  rcases ceilUsize_nonpos hdiv with h | h <;> rw [h]
  · obtain ⟨r, rfl⟩ : ∃ r, rounds = r + 1 := ⟨rounds - 1, by omega⟩
    simp only [Option.map_none, arangeLoop, fltLt_rat ra rb, not_lt.2 hab]
    rfl
  · simp [dropOutside]
    rfl

/-- With a negative step and a stop above the start there is no result: the loop goes on for ever. -/
theorem C109_false_wrong_way (rounds : Nat) :
    Tensor.arange (arangeFlt 53 1023 53 1023 (.num (-1)) (.num 0) (.num (-1 / 2 ^ 60))) rounds = none := by
  have h1 : arangeFltFast 53 1023 53 1023 (.num (-1)) (.num 0) (.num (-1 / 2 ^ 60)) = none := by decide +kernel
  have h2 : fltAdd 53 1023 (.num (-1)) (.num (-1 / 2 ^ 60)) = .num (-1) := by decide +kernel
  have h3 : fltLt (.num (-1)) (.num 0) = true := by decide +kernel
  have h4 : fltEq (.num (-1 / 2 ^ 60)) (.num 0) = false := by decide +kernel
  rw [Tensor.arange, arangeFlt, h4, h1]
  simp only [Bool.false_eq_true, if_false, Option.map_eq_none_iff]
  induction rounds with
  | zero => rfl
  | succ r ih =>
    rw [arangeLoop, h3, if_pos rfl]
    simp only [h2]
    rw [ih]
    rfl

/-- Singles from 0 to 1 in steps of 0.1: computed with doubles, ten values. -/
example : arangeFlt 53 1023 24 127 (.num 0) (.num 1) (roundFlt 24 127 (1 / 10)) 0 =
    some (.ok ((List.range 10).map fun i : Nat => roundFlt 24 127 (i * (13421773 / 2 ^ 27)))) := by decide +kernel

/-- A range of singles that meets the hypotheses of all theorems. -/
example : RangeInRange 53 24 127 (.num 0) (.num 7) (.num 2) ∧ WellResolved 53 1023 24 127 (.num 0) (.num 7) (.num 2) := by
  have hf : ∀ n : Nat, n ≤ 2 ^ 24 → (Flt.num n).Finite 24 127 := fun n hn => by
    refine ⟨n, rfl, ?_⟩
    have := representable_int (n := n) (p := 24) (e := 127) (by rw [Nat.abs_cast]; exact_mod_cast hn) (by decide) (by decide)
    simpa using this
  refine ⟨⟨hf 0 (by decide), hf 7 (by decide), hf 2 (by decide), ?_⟩, ?_⟩
  · norm_num [Flt.val, Flt.rat?, maxFinite, stepsOf]
  · have h1 := halfTiny_small (wp := 53) (we := 1023) (by decide) (by decide)
    have h2 := halfTiny_small (wp := 24) (we := 127) (by decide) (by decide)
    norm_num [WellResolved, Flt.val, Flt.rat?]
    linarith

end Rstsr
