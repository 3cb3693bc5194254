import Mathlib.Algebra.Order.Field.Basic
import Mathlib.Tactic.Linarith
import Mathlib.Tactic.Ring
import Mathlib.Tactic.FieldSimp
import Mathlib.Tactic.Positivity
import Mathlib.Tactic.NormNum
import Verif.Model.Creation
/-! # Rounding: lemmas -/
namespace Rstsr

theorem roundHalfEven_int (z : Int) : roundHalfEven (z : ℚ) = z := by
  unfold roundHalfEven
  rw [Int.floor_intCast, if_pos (by norm_num)]

theorem roundHalfEven_err (x : ℚ) : |(roundHalfEven x : ℚ) - x| ≤ 1 / 2 := by
  have h1 := Int.floor_le x
  have h2 := Int.lt_floor_add_one x
  unfold roundHalfEven
  split_ifs <;> rw [abs_le] <;> push_cast <;> constructor <;> linarith

theorem toF64_zero : toF64 0 = 0 := by simp [toF64]

/-- Rounding is exact when the number is a whole multiple of its last place. -/
theorem toF64_exact {q : ℚ} (z : Int) (h : q = z * 2 ^ (Int.log 2 |q| - 52)) : toF64 q = q := by
  unfold toF64
  split
  · rename_i h0; exact h0.symm
  · have hp : (2 : ℚ) ^ (Int.log 2 |q| - 52) ≠ 0 := zpow_ne_zero _ (by norm_num)
    have : q / 2 ^ (Int.log 2 |q| - 52) = z := by rw [div_eq_iff hp]; exact h
    rw [this, roundHalfEven_int, ← h]

theorem zpow_log_le {q : ℚ} (h : q ≠ 0) : (2 : ℚ) ^ Int.log 2 |q| ≤ |q| := by
  have := Int.zpow_log_le_self (b := 2) (R := ℚ) (by norm_num) (abs_pos.2 h)
  simpa using this

theorem toF64_err (q : ℚ) : |toF64 q - q| ≤ |q| * (1 / 2 ^ 53) := by
  unfold toF64
  split
  · rename_i h0; simp [h0]
  · rename_i h0
    have hle := zpow_log_le h0
    generalize Int.log 2 |q| = e at *
    have hp : (0 : ℚ) < 2 ^ (e - 52) := zpow_pos (by norm_num) _
    have h1 := roundHalfEven_err (q / 2 ^ (e - 52))
    have h2 : (roundHalfEven (q / 2 ^ (e - 52)) : ℚ) * 2 ^ (e - 52) - q =
        ((roundHalfEven (q / 2 ^ (e - 52)) : ℚ) - q / 2 ^ (e - 52)) * 2 ^ (e - 52) := by
      rw [sub_mul, div_mul_cancel₀ _ hp.ne']
    rw [h2, abs_mul, abs_of_pos hp]
    have h3 : (2 : ℚ) ^ (e - 52) = 2 ^ e * (1 / 2 ^ 52) := by
      rw [zpow_sub₀ (by norm_num), div_eq_mul_one_div]; norm_num
    calc _ ≤ 1 / 2 * (2 : ℚ) ^ (e - 52) := mul_le_mul_of_nonneg_right h1 hp.le
      _ = 2 ^ e * (1 / 2 ^ 53) := by rw [h3]; ring
      _ ≤ _ := mul_le_mul_of_nonneg_right hle (by norm_num)

/-- Integers of up to 53 digits are represented exactly. -/
theorem toF64_int {z : Int} (h : |z| ≤ 2 ^ 53) : toF64 (z : ℚ) = z := by
  by_cases h0 : z = 0
  · subst h0; simpa using toF64_zero
  have hq : (z : ℚ) ≠ 0 := by exact_mod_cast h0
  have hle := zpow_log_le hq
  have habs : |(z : ℚ)| ≤ 2 ^ 53 := by exact_mod_cast h
  by_cases he : Int.log 2 |(z : ℚ)| ≤ 52
  · obtain ⟨n, hn⟩ := Int.eq_ofNat_of_zero_le (show 0 ≤ 52 - Int.log 2 |(z : ℚ)| by omega)
    have h1 : Int.log 2 |(z : ℚ)| - 52 = -(n : Int) := by omega
    refine toF64_exact (z * 2 ^ n) ?_
    rw [h1, zpow_neg, zpow_natCast]
    push_cast
    rw [mul_assoc, mul_inv_cancel₀ (by positivity), mul_one]
  · have h53 : (2 : ℚ) ^ (53 : Int) ≤ 2 ^ Int.log 2 |(z : ℚ)| := zpow_le_zpow_right₀ (by norm_num) (by omega)
    have heq : |(z : ℚ)| = 2 ^ 53 := le_antisymm habs (by
      have : (2 : ℚ) ^ (53 : Int) = 2 ^ 53 := by norm_num
      linarith)
    have hlog : Int.log 2 |(z : ℚ)| = 53 := by
      have := Int.log_zpow (R := ℚ) (b := 2) (by norm_num) 53
      rw [heq]
      have h' : ((2 : Nat) : ℚ) ^ (53 : Int) = 2 ^ 53 := by norm_num
      rwa [h'] at this
    have hz : z = 2 ^ 53 ∨ z = -2 ^ 53 := by
      have : |z| = 2 ^ 53 := by exact_mod_cast heq
      rcases abs_choice z with h | h <;> omega
    rcases hz with hz | hz
    · refine toF64_exact (2 ^ 52) ?_
      rw [hlog, hz]; norm_num
    · refine toF64_exact (-2 ^ 52) ?_
      rw [hlog, hz]; norm_num

theorem toF64_pos {q : ℚ} (h : 0 < q) : 0 < toF64 q := by
  have h1 := toF64_err q
  rw [abs_of_pos h, abs_le] at h1
  linarith [h1.1]

theorem toF64_neg {q : ℚ} (h : q < 0) : toF64 q < 0 := by
  have h1 := toF64_err q
  rw [abs_of_neg h, abs_le] at h1
  linarith [h1.2]

/-- A quotient of small integers rounds to a number with the same ceiling. -/
theorem ceil_quotient {x y : Int} (hx : |x| < 2 ^ 53) (hy0 : y ≠ 0) :
    ⌈toF64 (toF64 x / toF64 y)⌉.toNat = ⌈(x : ℚ) / y⌉.toNat := by
  rw [toF64_int hx.le]
  by_cases hy : |y| ≤ 2 ^ 53
  · rw [toF64_int hy]
    congr 1
    have hyq : (y : ℚ) ≠ 0 := by exact_mod_cast hy0
    have hyp : (0 : ℚ) < |(y : ℚ)| := abs_pos.2 hyq
    have herr := toF64_err ((x : ℚ) / y)
    have hxq : |(x : ℚ)| < 2 ^ 53 := by exact_mod_cast hx
    have hlt : |toF64 ((x : ℚ) / y) - x / y| * |(y : ℚ)| < 1 := by
      have h1 : |(x : ℚ) / y| * |(y : ℚ)| = |(x : ℚ)| := by rw [abs_div, div_mul_cancel₀ _ hyp.ne']
      have h2 := mul_le_mul_of_nonneg_right herr hyp.le
      have h3 : |(x : ℚ) / y| * (1 / 2 ^ 53) * |(y : ℚ)| = |(x : ℚ)| * (1 / 2 ^ 53) := by rw [← h1]; ring
      rw [h3] at h2
      linarith
    -- the quotient is either whole, and exact, or away from every integer by at least `1 / |y|`
    have hfar : ∀ n : Int, (x : ℚ) / y ≠ n → 1 ≤ |(n : ℚ) - x / y| * |(y : ℚ)| := by
      intro n hne
      rw [← abs_mul, sub_mul, div_mul_cancel₀ _ hyq]
      have h0 : n * y - x ≠ 0 := by
        intro e
        apply hne
        rw [div_eq_iff hyq]
        have : n * y = x := by omega
        exact_mod_cast this.symm
      exact_mod_cast Int.one_le_abs h0
    have hkey : ∀ n : Int, (x : ℚ) / y ≠ n → |toF64 ((x : ℚ) / y) - x / y| < |(n : ℚ) - x / y| := by
      intro n hne
      exact lt_of_mul_lt_mul_right (lt_of_lt_of_le hlt (hfar n hne)) hyp.le
    rw [Int.ceil_eq_iff]
    have hc1 := Int.ceil_lt_add_one ((x : ℚ) / y)
    have hc2 := Int.le_ceil ((x : ℚ) / y)
    generalize hn : ⌈(x : ℚ) / y⌉ = n at *
    constructor
    · have hne : (x : ℚ) / y ≠ ((n - 1 : Int) : ℚ) := by push_cast; linarith
      have h := hkey (n - 1) hne
      push_cast at h
      rw [abs_of_neg (show (n : ℚ) - 1 - x / y < 0 by linarith)] at h
      have := (abs_lt.1 h).1
      linarith
    · by_cases he : (x : ℚ) / y = n
      · have hnx : |n| ≤ 2 ^ 53 := by
          have h1 : |(n : ℚ)| ≤ |(x : ℚ)| := by
            rw [← he, abs_div]
            refine div_le_self (abs_nonneg _) ?_
            exact_mod_cast Int.one_le_abs hy0
          have h2 : |n| ≤ |x| := by exact_mod_cast h1
          omega
        rw [he, toF64_int hnx]
      · have h := hkey n he
        have hlt' : (x : ℚ) / y < n := lt_of_le_of_ne hc2 he
        rw [abs_of_pos (show 0 < (n : ℚ) - x / y by linarith)] at h
        have := (abs_lt.1 h).2
        linarith
  · -- a step longer than the whole interval
    have hyn : 2 ^ 53 + 1 ≤ |y| := by omega
    have hyq : (2 : ℚ) ^ 53 + 1 ≤ |(y : ℚ)| := by exact_mod_cast hyn
    have hy' : (y : ℚ) ≠ 0 := by exact_mod_cast hy0
    by_cases hx0 : x = 0
    · subst hx0; simp [toF64_zero]
    have hxq : |(x : ℚ)| ≤ 2 ^ 53 - 1 := by
      have : |x| ≤ 2 ^ 53 - 1 := by omega
      exact_mod_cast this
    have hx' : (x : ℚ) ≠ 0 := by exact_mod_cast hx0
    have hey := toF64_err (y : ℚ)
    have hY : |(y : ℚ)| * (1 - 1 / 2 ^ 53) ≤ |toF64 (y : ℚ)| := by
      have h1 := abs_sub_abs_le_abs_sub (y : ℚ) (toF64 y)
      rw [abs_sub_comm] at h1
      linarith
    have hYp : 0 < |toF64 (y : ℚ)| := by nlinarith
    have hsmall : |(x : ℚ) / toF64 y| * (1 + 1 / 2 ^ 53) ≤ 1 := by
      rw [abs_div, div_mul_eq_mul_div, div_le_one hYp]
      have : |(x : ℚ)| * (1 + 1 / 2 ^ 53) ≤ (2 ^ 53 - 1) * (1 + 1 / 2 ^ 53) :=
        mul_le_mul_of_nonneg_right hxq (by positivity)
      have h2 : ((2 : ℚ) ^ 53 + 1) * (1 - 1 / 2 ^ 53) ≤ |(y : ℚ)| * (1 - 1 / 2 ^ 53) :=
        mul_le_mul_of_nonneg_right hyq (by norm_num)
      norm_num at this h2 hY ⊢
      linarith
    have hr := toF64_err ((x : ℚ) / toF64 y)
    have hsame : ((x : ℚ) / toF64 y < 0 ∧ (x : ℚ) / y < 0) ∨ (0 < (x : ℚ) / toF64 y ∧ 0 < (x : ℚ) / y) := by
      rcases lt_or_gt_of_ne hy' with h1 | h1 <;> rcases lt_or_gt_of_ne hx' with h2 | h2
      · right; exact ⟨div_pos_of_neg_of_neg h2 (toF64_neg h1), div_pos_of_neg_of_neg h2 h1⟩
      · left; exact ⟨div_neg_of_pos_of_neg h2 (toF64_neg h1), div_neg_of_pos_of_neg h2 h1⟩
      · left; exact ⟨div_neg_of_neg_of_pos h2 (toF64_pos h1), div_neg_of_neg_of_pos h2 h1⟩
      · right; exact ⟨div_pos h2 (toF64_pos h1), div_pos h2 h1⟩
    rcases hsame with ⟨h1, h2⟩ | ⟨h1, h2⟩
    · have a1 : ⌈toF64 ((x : ℚ) / toF64 y)⌉ ≤ 0 := Int.ceil_le.2 (by simpa using (toF64_neg h1).le)
      have a2 : ⌈(x : ℚ) / y⌉ ≤ 0 := Int.ceil_le.2 (by simpa using h2.le)
      rw [Int.toNat_of_nonpos a1, Int.toNat_of_nonpos a2]
    · have b1 : ⌈toF64 ((x : ℚ) / toF64 y)⌉ = 1 := by
        rw [Int.ceil_eq_iff]
        rw [abs_of_pos h1] at hr hsmall
        have := (abs_le.1 hr).2
        constructor
        · simpa using toF64_pos h1
        · push_cast; linarith
      have b2 : ⌈(x : ℚ) / y⌉ = 1 := by
        rw [Int.ceil_eq_iff]
        constructor
        · simpa using h2
        · have h3 : |(x : ℚ) / y| ≤ 1 := by
            rw [abs_div, div_le_one (abs_pos.2 hy')]; linarith
          push_cast
          linarith [(abs_le.1 h3).2]
      rw [b1, b2]

theorem toF64_int_ge {y : Int} (h : y ≠ 0) : 1 ≤ |toF64 (y : ℚ)| := by
  by_cases hy : |y| ≤ 2 ^ 53
  · rw [toF64_int hy]; exact_mod_cast Int.one_le_abs h
  · have h1 : 2 ^ 53 ≤ |y| := by omega
    have h2 : (2 : ℚ) ^ 53 ≤ |(y : ℚ)| := by exact_mod_cast h1
    have h3 := toF64_err (y : ℚ)
    have h4 := abs_sub_abs_le_abs_sub (y : ℚ) (toF64 y)
    rw [abs_sub_comm] at h4
    norm_num at h2 h3 h4 ⊢
    linarith

theorem ceil_quotient_bound {x y : Int} (hx : |x| < 2 ^ 53) (hy : y ≠ 0) :
    |⌈toF64 (toF64 x / toF64 y)⌉| ≤ 2 ^ 54 := by
  rw [toF64_int hx.le]
  have h1 := toF64_int_ge hy
  have hxq : |(x : ℚ)| ≤ 2 ^ 53 := by exact_mod_cast hx.le
  have h2 : |(x : ℚ) / toF64 y| ≤ 2 ^ 53 := by
    rw [abs_div]; exact (div_le_self (abs_nonneg _) h1).trans hxq
  have h3 := toF64_err ((x : ℚ) / toF64 y)
  generalize (x : ℚ) / toF64 y = q at *
  have h4 : |toF64 q| ≤ 2 ^ 53 + 1 := by
    have := abs_sub_abs_le_abs_sub (toF64 q) q
    norm_num at h2 h3 this ⊢
    linarith
  rw [abs_le] at h4
  have h5 : ⌈toF64 q⌉ ≤ 2 ^ 53 + 1 := Int.ceil_le.2 (by norm_num at h4 ⊢; exact h4.2)
  have h6 : -(2 ^ 53 + 1) ≤ ⌈toF64 q⌉ := by
    have := h4.1.trans (Int.le_ceil (toF64 q))
    exact_mod_cast this
  rw [abs_le]
  constructor <;> omega

end Rstsr
