import Verif.Spec.Sphere
import Verif.Proof.LebedevCheck
import Mathlib.MeasureTheory.Integral.Gamma
import Mathlib.MeasureTheory.Integral.Pi
import Mathlib.Analysis.SpecialFunctions.Gaussian.GaussianIntegral

/-!
# The mean of a monomial over the sphere

`∫ x^i y^j z^k exp (-(x²+y²+z²))` over all of space is a product of three
integrals over the line, and in polar coordinates it is the integral over the
sphere times an integral over the radius.
-/

namespace Rstsr

open MeasureTheory Set

/-- `∫ t^n exp (-t²)` over the line. -/
noncomputable def gaussMoment (n : Nat) : ℝ := ∫ t : ℝ, t ^ n * Real.exp (-t ^ 2)

/-- `∫ r^(2+n) exp (-r²)` over the positive half line. -/
noncomputable def radial (n : Nat) : ℝ := ∫ r in Ioi (0 : ℝ), r ^ 2 * (r ^ n * Real.exp (-r ^ 2))

abbrev E3 := EuclideanSpace ℝ (Fin 3)

theorem space_integral (i j k : Nat) :
    ∫ x : E3, (x 0 ^ i * x 1 ^ j * x 2 ^ k) * Real.exp (-‖x‖ ^ 2) =
      gaussMoment i * gaussMoment j * gaussMoment k := by
  have h := (PiLp.volume_preserving_ofLp (Fin 3)).integral_comp
    (MeasurableEquiv.measurableEmbedding (MeasurableEquiv.toLp 2 (Fin 3 → ℝ)).symm)
    (fun y : Fin 3 → ℝ => ∏ l, ((fun t : ℝ => t ^ (![i, j, k] l) * Real.exp (-t ^ 2)) (y l)))
  have h2 := integral_fintype_prod_volume_eq_prod (ι := Fin 3) (𝕜 := ℝ)
    (fun l (t : ℝ) => t ^ (![i, j, k] l) * Real.exp (-t ^ 2))
  rw [h2] at h
  simp only [Fin.prod_univ_three] at h
  unfold gaussMoment
  simp only [Matrix.cons_val_zero, Matrix.cons_val_one, Matrix.cons_val] at h
  rw [← h]
  refine integral_congr_ae (.of_forall fun x => ?_)
  simp only [EuclideanSpace.norm_sq_eq, Fin.sum_univ_three, Real.norm_eq_abs, sq_abs, neg_add, Real.exp_add]
  ring

theorem polar_integral (i j k : Nat) :
    ∫ x : E3, (x 0 ^ i * x 1 ^ j * x 2 ^ k) * Real.exp (-‖x‖ ^ 2) =
      (∫ u : Metric.sphere (0 : E3) 1, u.1 0 ^ i * u.1 1 ^ j * u.1 2 ^ k
        ∂(volume : Measure E3).toSphere) * radial (i + j + k) := by
  let g : E3 → ℝ := fun x => (x 0 ^ i * x 1 ^ j * x 2 ^ k) * Real.exp (-‖x‖ ^ 2)
  have hd : Module.finrank ℝ E3 = 3 := by simp
  calc
    ∫ x : E3, g x = ∫ x : ({(0)}ᶜ : Set E3), g x.1 ∂((volume : Measure E3).comap (↑)) := by
      rw [integral_subtype_comap (measurableSet_singleton _).compl g, restrict_compl_singleton]
    _ = ∫ x, g (x.2.1 • x.1.1) ∂(volume : Measure E3).toSphere.prod (.volumeIoiPow (Module.finrank ℝ E3 - 1)) := by
      rw [← (volume : Measure E3).measurePreserving_homeomorphUnitSphereProd.integral_comp
        (Homeomorph.measurableEmbedding _) (fun x => g (x.2.1 • x.1.1))]
      refine integral_congr_ae (.of_forall fun x => ?_)
      simp only
      congr 1
      have hx : ‖x.1‖ ≠ 0 := by
        have h : x.1 ∉ ({0} : Set E3) := x.2
        intro h0
        exact h (norm_eq_zero.1 h0)
      simp [smul_smul, hx]
    _ = ∫ x, (x.1.1 0 ^ i * x.1.1 1 ^ j * x.1.1 2 ^ k) * (x.2.1 ^ (i + j + k) * Real.exp (-x.2.1 ^ 2))
          ∂(volume : Measure E3).toSphere.prod (.volumeIoiPow (Module.finrank ℝ E3 - 1)) := by
      refine integral_congr_ae (.of_forall fun x => ?_)
      have h1 : ‖x.1.1‖ = 1 := by simp
      have h2 : (0 : ℝ) < x.2.1 := x.2.2
      simp only [g, norm_smul, h1, Real.norm_eq_abs, abs_of_pos h2, PiLp.smul_apply, smul_eq_mul, mul_one]
      ring
    _ = _ := by
      rw [integral_prod_mul (μ := (volume : Measure E3).toSphere)
        (f := fun u : Metric.sphere (0 : E3) 1 => u.1 0 ^ i * u.1 1 ^ j * u.1 2 ^ k)
        (g := fun r : Ioi (0 : ℝ) => r.1 ^ (i + j + k) * Real.exp (-r.1 ^ 2))]
      congr 1
      rw [hd]
      unfold radial
      simp only [Measure.volumeIoiPow, ENNReal.ofReal]
      rw [integral_withDensity_eq_integral_smul,
        integral_subtype_comap measurableSet_Ioi fun a : ℝ ↦
          Real.toNNReal (a ^ (3 - 1)) • (a ^ (i + j + k) * Real.exp (-a ^ 2)),
        setIntegral_congr_fun measurableSet_Ioi fun x hx ↦ ?_]
      · rw [NNReal.smul_def, Real.coe_toNNReal _ (pow_nonneg hx.out.le _)]; rfl
      · exact (measurable_subtype_coe.pow_const _).real_toNNReal

theorem gaussMoment_odd (n : Nat) : gaussMoment (2 * n + 1) = 0 := by
  unfold gaussMoment
  have h := integral_neg_eq_self (μ := volume) (fun t : ℝ => t ^ (2 * n + 1) * Real.exp (-t ^ 2))
  have e : ∀ t : ℝ, (-t) ^ (2 * n + 1) * Real.exp (-(-t) ^ 2) = -(t ^ (2 * n + 1) * Real.exp (-t ^ 2)) := by
    intro t
    rw [Odd.neg_pow ⟨n, rfl⟩, neg_sq]; ring
  simp only [e, integral_neg] at h
  linarith

theorem half_moment (n : Nat) : ∫ r in Ioi (0 : ℝ), r ^ n * Real.exp (-r ^ 2) = (1 / 2) * Real.Gamma ((n + 1) / 2) := by
  have h := integral_rpow_mul_exp_neg_rpow (p := 2) (q := n) (by norm_num) (by
    have : (0 : ℝ) ≤ n := Nat.cast_nonneg n
    linarith)
  rw [← h]
  refine setIntegral_congr_fun measurableSet_Ioi fun x hx => ?_
  simp only [Real.rpow_natCast]
  norm_num

theorem gaussMoment_even (n : Nat) : gaussMoment (2 * n) = Real.Gamma (n + 1 / 2) := by
  unfold gaussMoment
  have h := integral_comp_abs (f := fun t : ℝ => t ^ (2 * n) * Real.exp (-t ^ 2))
  rw [half_moment] at h
  simp only [sq_abs] at h
  have e : ∀ t : ℝ, |t| ^ (2 * n) = t ^ (2 * n) := fun t => by rw [pow_mul, sq_abs, ← pow_mul]
  simp only [e] at h
  rw [h]
  push_cast
  have : ((2 * n + 1 : ℝ) / 2) = n + 1 / 2 := by ring
  rw [this]; ring

theorem radial_eq (n : Nat) : radial n = (1 / 2) * Real.Gamma ((n + 3) / 2) := by
  unfold radial
  rw [show ((n : ℝ) + 3) / 2 = (((n + 2 : Nat) : ℝ) + 1) / 2 by push_cast; ring, ← half_moment (n + 2)]
  refine setIntegral_congr_fun measurableSet_Ioi fun x hx => ?_
  ring

theorem radial_pos (n : Nat) : 0 < radial n := by
  rw [radial_eq]
  have : 0 < Real.Gamma (((n : ℝ) + 3) / 2) := Real.Gamma_pos_of_pos (by positivity)
  positivity

theorem mean_moments (i j k : Nat) :
    Spec.sphereMean (fun x y z => x ^ i * y ^ j * z ^ k) =
      (gaussMoment i * gaussMoment j * gaussMoment k / radial (i + j + k)) /
        (gaussMoment 0 * gaussMoment 0 * gaussMoment 0 / radial 0) := by
  have h := polar_integral i j k
  have h0 := polar_integral 0 0 0
  rw [space_integral] at h h0
  unfold Spec.sphereMean
  rw [average_eq]
  have r1 := radial_pos (i + j + k)
  have r0 := radial_pos 0
  simp only [pow_zero, mul_one, integral_const, smul_eq_mul, add_zero] at h0
  rw [h, h0]
  rw [mul_div_cancel_right₀ _ r1.ne', mul_div_cancel_right₀ _ r0.ne', smul_eq_mul]
  simp only
  rw [inv_mul_eq_div]

theorem oddFact_zero : oddFact 0 = 1 := rfl
theorem oddFact_succ (n : Nat) : oddFact (n + 1) = (2 * n + 1) * oddFact n := rfl

theorem gamma_half (n : Nat) : Real.Gamma (n + 1 / 2) = oddFact n / 2 ^ n * Real.Gamma (1 / 2) := by
  induction n with
  | zero => simp [oddFact_zero]
  | succ n ih =>
    have : ((n + 1 : Nat) : ℝ) + 1 / 2 = ((n : ℝ) + 1 / 2) + 1 := by push_cast; ring
    rw [this, Real.Gamma_add_one (by positivity), ih]
    simp only [oddFact_succ]
    push_cast
    field_simp
    ring

theorem oddFact_pos (n : Nat) : 0 < oddFact n := by
  induction n with
  | zero => simp [oddFact_zero]
  | succ n ih => simp only [oddFact_succ]; positivity

/-- The mean of an even monomial. -/
theorem mean_even (i j k : Nat) :
    Spec.sphereMean (fun x y z => x ^ (2 * i) * y ^ (2 * j) * z ^ (2 * k)) =
      (oddFact i * oddFact j * oddFact k : ℝ) / oddFact (i + j + k + 1) := by
  rw [mean_moments, radial_eq, radial_eq, gaussMoment_even, gaussMoment_even, gaussMoment_even]
  have h0 : gaussMoment 0 = Real.Gamma (1 / 2) := by
    have := gaussMoment_even 0
    simpa using this
  rw [h0]
  have g : 0 < Real.Gamma (1 / 2) := Real.Gamma_pos_of_pos (by norm_num)
  have e1 : (((2 * i + 2 * j + 2 * k : Nat) : ℝ) + 3) / 2 = ((i + j + k + 1 : Nat) : ℝ) + 1 / 2 := by push_cast; ring
  have e2 : (((0 : Nat) : ℝ) + 3) / 2 = ((1 : Nat) : ℝ) + 1 / 2 := by push_cast; norm_num
  rw [e1, e2, gamma_half, gamma_half, gamma_half, gamma_half, gamma_half]
  have p := oddFact_pos (i + j + k + 1)
  have p' : (0 : ℝ) < oddFact (i + j + k + 1) := by exact_mod_cast p
  simp only [oddFact_succ, oddFact_zero, pow_add]
  simp only [oddFact_succ] at p'
  field_simp
  norm_num

theorem mean_odd (i j k : Nat) (h : i % 2 = 1 ∨ j % 2 = 1 ∨ k % 2 = 1) :
    Spec.sphereMean (fun x y z => x ^ i * y ^ j * z ^ k) = 0 := by
  have o : ∀ n, n % 2 = 1 → gaussMoment n = 0 := fun n hn => by
    have := gaussMoment_odd (n / 2)
    rwa [show 2 * (n / 2) + 1 = n by omega] at this
  rw [mean_moments]
  rcases h with h | h | h <;> rw [o _ h] <;> simp

end Rstsr
