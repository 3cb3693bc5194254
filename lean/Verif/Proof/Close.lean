import Verif.Thm.Promote
import Verif.Model.Close
import Verif.Spec.Close
/-! # Closeness: lemmas -/
namespace Rstsr
open Spec

theorem zpow_tiny (p e : Nat) (h : 1 ≤ p + e) : (2 : ℚ) ^ (2 - (e : Int) - p) / 2 = 1 / 2 ^ (p + e - 1) := by
  have h1 : 2 - (e : Int) - p = 1 + -((p + e - 1 : Nat) : Int) := by omega
  rw [h1, zpow_add₀ (by norm_num), zpow_neg, zpow_natCast]
  field_simp

/-- The relative error of rounding, and the absolute error close to zero. -/
theorem roundTo_rel {p e : Nat} (hp : 1 ≤ p) (q : ℚ) : |roundTo p e q - q| ≤ |q| * (1 / 2 ^ p) + 1 / 2 ^ (p + e - 1) := by
  by_cases h0 : q = 0
  · rw [h0, roundTo_zero]; simp
  have h := roundTo_err p e q
  have hle := zpow_log_le h0
  have h1 : (2 : ℚ) ^ (Int.log 2 |q| + 1 - p) / 2 ≤ |q| * (1 / 2 ^ p) := by
    have : (2 : ℚ) ^ (Int.log 2 |q| + 1 - p) / 2 = 2 ^ Int.log 2 |q| * (1 / 2 ^ p) := by
      rw [zpow_sub₀ (by norm_num), zpow_add₀ (by norm_num), zpow_natCast]
      field_simp
    rw [this]
    exact mul_le_mul_of_nonneg_right hle (by positivity)
  have h2 := zpow_tiny p e (by omega)
  have h3 : (0 : ℚ) ≤ 1 / 2 ^ (p + e - 1) := by positivity
  have h4 : 0 ≤ |q| * (1 / 2 ^ p) := by positivity
  unfold ulpExp at h
  rcases le_total (Int.log 2 |q| + 1 - p) (2 - e - p) with hm | hm
  · rw [max_eq_right hm] at h; linarith
  · rw [max_eq_left hm] at h; linarith

theorem fltLe_iff (x y : Flt) : fltLe x y = true ↔ ∃ u v, x.extended = some u ∧ y.extended = some v ∧ u ≤ v := by
  unfold fltLe
  rw [Bool.or_eq_true, fltLt_iff, fltEq_iff]
  constructor
  · rintro (⟨u, v, h1, h2, h⟩ | ⟨u, h1, h2⟩)
    · exact ⟨u, v, h1, h2, h.le⟩
    · exact ⟨u, u, h1, h2, le_rfl⟩
  · rintro ⟨u, v, h1, h2, h⟩
    rcases h.lt_or_eq with h | rfl
    · exact .inl ⟨u, v, h1, h2, h⟩
    · exact .inr ⟨u, h1, h2⟩

theorem roundFlt_zero {p e : Nat} (hp : 1 ≤ p) (hpe : p ≤ e) : roundFlt p e 0 = .num 0 := by
  have := roundFlt_exact (representable_int (n := 0) (p := p) (e := e) (by simp) hp hpe)
  simpa using this

theorem fltAbs_round (p e : Nat) (z : ℚ) : fltAbs (roundFlt p e z) = roundFlt p e |z| := by
  have h : |roundTo p e z| = roundTo p e |z| := by
    rcases le_total 0 z with h | h
    · rw [abs_of_nonneg h, abs_of_nonneg (roundTo_nonneg h)]
    · rw [abs_of_nonpos h, roundTo_neg, abs_of_nonpos]
      have := roundTo_nonneg (p := p) (e := e) (x := -z) (by linarith)
      rw [roundTo_neg] at this; linarith
  have hn : ¬ |z| < 0 := not_lt.2 (abs_nonneg z)
  unfold roundFlt
  rw [← h, abs_abs]
  split
  · simp [fltAbs, hn]
  · split
    · rename_i h1; simp [fltAbs, h1.1]
    · simp [fltAbs, hn]

theorem fltSub_finite {p e : Nat} (hp : 1 ≤ p) (hpe : p ≤ e) {x y : Flt} {q r : ℚ} (hx : x.finite = some q)
    (hy : y.finite = some r) : fltAbs (fltSub p e x y) = roundFlt p e |q - r| := by
  rw [← fltAbs_round]
  cases x <;> simp only [Flt.finite, Option.some.injEq, reduceCtorEq] at hx <;> subst hx <;>
    cases y <;> simp only [Flt.finite, Option.some.injEq, reduceCtorEq] at hy <;> subst hy
  · simp [fltSub, fltNeg, fltAdd]
  · rename_i r
    by_cases hr : r = 0
    · simp [fltSub, fltNeg, fltAdd, hr, roundFlt_zero hp hpe, fltAbs]
    · simp [fltSub, fltNeg, fltAdd, hr]
  · simp [fltSub, fltNeg, fltAdd]
  · rename_i q r
    by_cases hr : r = 0
    · simp [fltSub, fltNeg, fltAdd, hr]
    · simp [fltSub, fltNeg, fltAdd, hr, sub_eq_add_neg]

theorem roundFlt_pos {p e : Nat} {z : ℚ} (h : 0 ≤ z) :
    roundFlt p e z = .inf false ∧ 2 ^ (e + 1) ≤ roundTo p e z ∨ roundFlt p e z = .num (roundTo p e z) ∧ roundTo p e z < 2 ^ (e + 1) := by
  have h0 := roundTo_nonneg (p := p) (e := e) h
  unfold roundFlt
  rw [abs_of_nonneg h0]
  by_cases hc : 2 ^ (e + 1) ≤ roundTo p e z
  · left; rw [if_pos hc]; exact ⟨by simp [not_lt.2 h], hc⟩
  · right; rw [if_neg hc, if_neg (fun h1 => absurd h1.2 (not_lt.2 h))]; exact ⟨rfl, not_le.1 hc⟩

/-- The right-hand side of the comparison. -/
def tolerance (a r : ℚ) (t : ℚ) : Flt := fltAdd 53 1023 (.num a) (fltMul 53 1023 (.num r) (.num t))

theorem fltMul_nonneg {r t : ℚ} (hr : 0 ≤ r) (ht : 0 ≤ t) : fltMul 53 1023 (.num r) (.num t) = roundFlt 53 1023 (r * t) := by
  simp only [fltMul]
  split
  · rename_i h; rw [h, roundFlt_zero (by norm_num) (by norm_num)]; simp [fltZero, not_lt.2 hr, not_lt.2 ht]
  · rfl

/-- What is within the tolerance before the last rounding is within it after. -/
theorem le_tolerance {a r t z : ℚ} (hr : 0 ≤ r) (ht : 0 ≤ t) (hz : z ≤ a + roundTo 53 1023 (r * t)) :
    fltLe (roundFlt 53 1023 z) (tolerance a r t) = true := by
  rw [fltLe_iff, tolerance, fltMul_nonneg hr ht]
  rcases roundFlt_pos (p := 53) (e := 1023) (mul_nonneg hr ht) with ⟨h, _⟩ | ⟨h, _⟩
  · rw [h]
    refine ⟨_, _, roundFlt_extended _ _ _, rfl, ?_⟩
    split
    · split
      · exact bot_le
      · exact le_rfl
    · exact WithBot.coe_le_coe.2 le_top
  · rw [h]
    exact roundFlt_mono (by norm_num) hz

/-- What is beyond the tolerance by more than the errors of rounding is not within it. -/
theorem not_le_tolerance {a r t z : ℚ} (hr : 0 ≤ r) (ht : 0 ≤ t) (hz0 : 0 ≤ z)
    (hfin : roundTo 53 1023 (r * t) < 2 ^ 1024) (hfin2 : |roundTo 53 1023 (a + roundTo 53 1023 (r * t))| < 2 ^ 1024)
    (hz : roundTo 53 1023 (a + roundTo 53 1023 (r * t)) < roundTo 53 1023 z) :
    fltLe (roundFlt 53 1023 z) (tolerance a r t) = false := by
  rw [Bool.eq_false_iff, ne_eq, fltLe_iff, tolerance, fltMul_nonneg hr ht]
  rintro ⟨u, v, hu, hv, huv⟩
  rcases roundFlt_pos (p := 53) (e := 1023) (mul_nonneg hr ht) with ⟨_, h⟩ | ⟨h, _⟩
  · exact absurd hfin (not_lt.2 h)
  · rw [h] at hv
    have hv' := hv.symm.trans (roundFlt_extended 53 1023 (a + roundTo 53 1023 (r * t)))
    rw [if_neg (not_le.2 hfin2), Option.some.injEq] at hv'
    have hu' := hu.symm.trans (roundFlt_extended 53 1023 z)
    rw [Option.some.injEq] at hu'
    subst hu'; subst hv'
    split at huv
    · rw [if_neg (not_lt.2 hz0)] at huv
      exact absurd (WithBot.coe_le_coe.1 huv) (by simp)
    · exact absurd (WithTop.coe_le_coe.1 (WithBot.coe_le_coe.1 huv)) (not_le.2 hz)

/-- The relative error alone, away from zero and at zero. -/
theorem roundTo_rel_int {p e : Nat} (he : 1 ≤ e) {q : ℚ} (hq : q = 0 ∨ 1 ≤ |q|) : |roundTo p e q - q| ≤ |q| * (1 / 2 ^ p) := by
  rcases hq with rfl | hq
  · rw [roundTo_zero]; simp
  have h0 : q ≠ 0 := by rintro rfl; simp at hq; linarith
  have h := roundTo_err p e q
  have hle := zpow_log_le h0
  have h1 : (2 : ℚ) ^ (Int.log 2 |q| + 1 - p) / 2 ≤ |q| * (1 / 2 ^ p) := by
    have : (2 : ℚ) ^ (Int.log 2 |q| + 1 - p) / 2 = 2 ^ Int.log 2 |q| * (1 / 2 ^ p) := by
      rw [zpow_sub₀ (by norm_num), zpow_add₀ (by norm_num), zpow_natCast]
      field_simp
    rw [this]
    exact mul_le_mul_of_nonneg_right hle (by positivity)
  have hl : 0 ≤ Int.log 2 |q| := by
    have := Int.log_mono_right (b := 2) (by norm_num : (0 : ℚ) < 1) hq
    rwa [Int.log_one_right] at this
  unfold ulpExp at h
  rw [max_eq_left (by omega)] at h
  exact h.trans h1

/-- Where the difference of two elements is taken: in the common type. -/
def diffIn (k : Kind) (d : ℚ) : ℚ :=
  match k with
  | .float p e => roundTo p e d
  | _ => d

theorem roundTo_le_pow {p e : Nat} (hp : 1 ≤ p) (hpe : p ≤ e) {d : ℚ} (h : d ≤ 2 ^ e) : roundTo p e d ≤ 2 ^ e := by
  have hr : Representable p e (2 ^ e : ℚ) := by
    have h := representable_grid (p := p) (e := e) hp hpe (z := 1) (u := e) (by
      rw [abs_one]; exact one_le_pow₀ (by norm_num)) (by omega)
    simpa using h (by simpa using pow_lt_pow_right₀ (by norm_num : (1 : ℚ) < 2) (Nat.lt_succ_self e))
  have := roundTo_mono (e := e) hp h
  rwa [roundTo_exact hr] at this
end Rstsr
