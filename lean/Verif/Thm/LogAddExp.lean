import Verif.Spec.LogAddExp
import Verif.Model.LogAddExp
import Verif.Model.Close
import Verif.Proof.FloatSum
import Mathlib.Analysis.Complex.ExponentialBounds
/-!
# C104: `log_add_exp`
-/
namespace Rstsr
open Spec

/-- In exact arithmetic the exponential of the result is the sum of the exponentials, the result lies between the greater
argument and that plus the logarithm of two, the arguments may be exchanged, and adding to both adds to the result. -/
theorem C104_exact (a b : ℝ) :
    let r := logAddExp Real.exp Real.log (· + ·) a b
    r = logAddExpR a b ∧ Real.exp r = Real.exp a + Real.exp b ∧ max a b < r ∧ r ≤ max a b + Real.log 2 ∧
      logAddExp Real.exp Real.log (· + ·) b a = r ∧
      ∀ c, logAddExp Real.exp Real.log (· + ·) (a + c) (b + c) = r + c := by
  intro r
  have hp : 0 < Real.exp a + Real.exp b := add_pos (Real.exp_pos a) (Real.exp_pos b)
  have hr : r = Real.log (Real.exp a + Real.exp b) := rfl
  have he : Real.exp r = Real.exp a + Real.exp b := by rw [hr, Real.exp_log hp]
  refine ⟨rfl, he, ?_, ?_, ?_, ?_⟩
  · apply Real.exp_lt_exp.1
    rw [he]
    rcases max_choice a b with h | h <;> rw [h]
    · linarith [Real.exp_pos b]
    · linarith [Real.exp_pos a]
  · apply Real.exp_le_exp.1
    rw [he, Real.exp_add, Real.exp_log two_pos]
    linarith [Real.exp_le_exp.2 (le_max_left a b), Real.exp_le_exp.2 (le_max_right a b)]
  · show Real.log (Real.exp b + Real.exp a) = _
    rw [add_comm]; rfl
  · intro c
    show Real.log (Real.exp (a + c) + Real.exp (b + c)) = Real.log _ + c
    rw [Real.exp_add, Real.exp_add, ← add_mul, Real.log_mul hp.ne' (Real.exp_pos c).ne', Real.log_exp]

/-- Not-a-number spreads. -/
theorem C104_nan {p e : Nat} {exp ln : Flt → Flt} {add : Flt → Flt → Flt} (A : NearestAdd p e add) (L : LogEnds ln)
    (E : ∀ x : Flt, x.IsNaN → (exp x).IsNaN) (a b : Flt) (h : a.IsNaN ∨ b.IsNaN) : (logAddExp exp ln add a b).IsNaN :=
  L.nan _ (A.nan _ _ (h.imp (E a) (E b)))

theorem exp_1000 : (2 : ℝ) ^ (1400 : ℕ) ≤ Real.exp 1000 := by
  have h1 : (2.7 : ℝ) < Real.exp 1 := by have := Real.exp_one_gt_d9; linarith
  have h5 : (2 : ℝ) ^ 7 ≤ Real.exp 5 := by
    have : Real.exp 5 = Real.exp 1 ^ 5 := by rw [← Real.exp_nat_mul]; norm_num
    rw [this]
    exact le_trans (by norm_num) (pow_le_pow_left₀ (by norm_num) h1.le 5)
  have : Real.exp 1000 = Real.exp 5 ^ 200 := by rw [← Real.exp_nat_mul]; norm_num
  rw [this, show 1400 = 7 * 200 from rfl, pow_mul]
  exact pow_le_pow_left₀ (by positivity) h5 200

/-- Two arguments of 1000 in double precision: the result is infinite, though the exact one lies between 1000 and 1001. -/
theorem C104_false_overflow {exp ln : Flt → Flt} (E : LeavesRange 53 1023 exp Real.exp) (L : LogEnds ln) :
    logAddExp exp ln (fltAdd 53 1023) (.num 1000) (.num 1000) = .inf false ∧
      1000 < logAddExpR 1000 1000 ∧ logAddExpR 1000 1000 < 1001 := by
  have h : exp (.num 1000) = .inf false := by
    apply E.over 1000
    rw [show ((1000 : ℚ) : ℝ) = 1000 by norm_num]
    have h3 : (2 : ℝ) ^ (1023 + 1) < 2 ^ (1400 : ℕ) := pow_lt_pow_right₀ (by norm_num) (by norm_num)
    exact h3.le.trans exp_1000
  obtain ⟨h0, -, h1, h2, -⟩ := C104_exact 1000 1000
  rw [h0, max_self] at h1 h2
  refine ⟨?_, h1, ?_⟩
  · show ln (fltAdd 53 1023 _ _) = _
    rw [h]
    exact L.top
  · have : Real.log 2 < 1 := by have := Real.log_two_lt_d9; linarith
    linarith

/-- Two arguments of -1000 in double precision: the result is minus infinity, though the exact one lies between -1000 and
-999. -/
theorem C104_false_underflow {exp ln : Flt → Flt} (E : LeavesRange 53 1023 exp Real.exp) (L : LogEnds ln) :
    logAddExp exp ln (fltAdd 53 1023) (.num (-1000)) (.num (-1000)) = .inf true ∧
      -1000 < logAddExpR (-1000) (-1000) ∧ logAddExpR (-1000) (-1000) < -999 := by
  have h : exp (.num (-1000)) = .num 0 := by
    refine E.under (-1000) (Real.exp_pos _) ?_
    have h1 := exp_1000
    have h2 : Real.exp ((-1000 : ℚ) : ℝ) * Real.exp 1000 = 1 := by rw [← Real.exp_add]; norm_num
    have h3 : (2 : ℝ) ^ (1023 + 53) < 2 ^ (1400 : ℕ) := pow_lt_pow_right₀ (by norm_num) (by norm_num)
    rw [← h2]
    exact mul_lt_mul_of_pos_left (h3.trans_le h1) (Real.exp_pos _)
  obtain ⟨h0, -, h1, h2, -⟩ := C104_exact (-1000) (-1000)
  rw [h0, max_self] at h1 h2
  refine ⟨?_, h1, ?_⟩
  · show ln (fltAdd 53 1023 _ _) = _
    rw [h, show fltAdd 53 1023 (.num 0) (.num 0) = .num 0 by decide +kernel]
    exact L.zero
  · have : Real.log 2 < 1 := by have := Real.log_two_lt_d9; linarith
    linarith

/-! ## Concrete cases -/

/-- An exponential and a logarithm that meet the assumptions. -/
example : ∃ exp : Flt → Flt, LeavesRange 53 1023 exp Real.exp ∧ ∀ x : Flt, x.IsNaN → (exp x).IsNaN := by
  classical
  refine ⟨fun | .num q => if (2 : ℝ) ^ (1023 + 1) ≤ Real.exp q then .inf false else .num 0 | x => x, ⟨fun q h => if_pos h, fun q h1 h2 => if_neg ?_⟩, ?_⟩
  · intro h
    have k : (1 : ℝ) ≤ 2 ^ (1023 + 53) := one_le_pow₀ (by norm_num)
    have k2 : (1 : ℝ) ≤ 2 ^ (1023 + 1) := one_le_pow₀ (by norm_num)
    exact absurd (one_le_mul_of_one_le_of_one_le (k2.trans h) k) (not_le.2 h2)
  · rintro (s | s | _ | q) h
    · exact h
    · exact h
    · exact h
    · exact absurd h (by simp [Flt.IsNaN])
example : LogEnds fun | .num q => if q = 0 then .inf true else .nan false | x => x := by
  refine ⟨rfl, rfl, fun q h => ?_, ?_⟩
  · simp [h.ne, Flt.IsNaN]
  · rintro (s | s | _ | q) h
    · exact h
    · exact h
    · exact h
    · exact absurd h (by simp [Flt.IsNaN])
end Rstsr
