import Verif.Thm.Pack
import Mathlib.Analysis.Real.Sqrt
import Mathlib.Tactic.Linarith
import Mathlib.Tactic.NormNum
/-!
# C45: the size of an unpacked matrix, computed with floating-point numbers

`op_tri.rs:116, 133` computes `(2 * n_tp) as f64`, its square root and the floor of that. Conversion and square root are
rounded correctly, that is, with a relative error of at most `2 ^ -53`. The model takes the integer square root instead;
this file shows that both accept the same lengths and find the same sizes.
-/
namespace Rstsr
open Spec

theorem root_bounds {n x y e : ℝ} (hn : 0 ≤ n) (he : 0 ≤ e) (hne : 5 * e * (n + 1) < 1) (hx : |x - (n * n + n)| ≤ (n * n + n) * e)
    (hy : |y - √x| ≤ √x * e) : n ≤ y ∧ y < n + 1 := by
  obtain ⟨x1, x2⟩ := abs_le.1 hx
  obtain ⟨y1, y2⟩ := abs_le.1 hy
  have hs : 0 ≤ n * n + n := by nlinarith
  have he5 : e < 1 / 5 := by nlinarith
  have hx0 : 0 ≤ x := by nlinarith
  have hr := Real.sq_sqrt hx0
  have hr0 := Real.sqrt_nonneg x
  generalize √x = r at *
  have hxl : (n * n + n) * (1 - e) ≤ r ^ 2 := by rw [hr]; linarith
  have hxu : r ^ 2 ≤ (n * n + n) * (1 + e) := by rw [hr]; linarith
  have k1 : e * (n + 1) < 1 / 5 := by linarith
  constructor
  · have : n ≤ r * (1 - e) := by
      refine le_of_not_gt fun h => ?_
      have h2 : (r * (1 - e)) ^ 2 < n ^ 2 := by
        have : 0 ≤ r * (1 - e) := mul_nonneg hr0 (by linarith)
        nlinarith
      have h3 : (n * n + n) * (1 - e) * (1 - e) ^ 2 ≤ r ^ 2 * (1 - e) ^ 2 := mul_le_mul_of_nonneg_right hxl (sq_nonneg _)
      have h4 : (1 - 3 * e) ≤ (1 - e) * (1 - e) ^ 2 := by nlinarith [mul_nonneg he he, mul_nonneg (mul_nonneg he he) (by linarith : (0:ℝ) ≤ 3 - e)]
      have h5 : (n * n + n) * (1 - 3 * e) ≤ (n * n + n) * ((1 - e) * (1 - e) ^ 2) := mul_le_mul_of_nonneg_left h4 hs
      have h6 : n * n ≤ (n * n + n) * (1 - 3 * e) := by
        have : n * (e * (n + 1)) ≤ n * (1 / 5) := mul_le_mul_of_nonneg_left k1.le hn
        nlinarith
      nlinarith
    linarith
  · have : r * (1 + e) < n + 1 := by
      refine lt_of_not_ge fun h => ?_
      have h2 : (n + 1) ^ 2 ≤ (r * (1 + e)) ^ 2 := by
        have : 0 ≤ n + 1 := by linarith
        nlinarith
      have h3 : r ^ 2 * (1 + e) ^ 2 ≤ (n * n + n) * (1 + e) * (1 + e) ^ 2 := mul_le_mul_of_nonneg_right hxu (sq_nonneg _)
      have h4 : (1 + e) * (1 + e) ^ 2 ≤ 1 + 4 * e := by nlinarith [mul_nonneg he he, mul_nonneg he (by linarith : (0:ℝ) ≤ 1 / 5 - e)]
      have h5 : (n * n + n) * ((1 + e) * (1 + e) ^ 2) ≤ (n * n + n) * (1 + 4 * e) := mul_le_mul_of_nonneg_left h4 hs
      have h6 : n * (e * (n + 1)) ≤ n * (1 / 5) := mul_le_mul_of_nonneg_left k1.le hn
      nlinarith
    linarith

/-- C45, floating-point size: let `x` be `2 * m` and `y` the square root of `x`, both rounded with relative error at most
`2 ^ -53`. For every length `m` of up to 63 bits, the floor `k` of `y` passes the test of the code exactly if `m` is a
triangular number, and then it is the size of the triangle, the same as the model's. -/
theorem C45_root (m : Nat) (hm : m < 2 ^ 63) (x y : ℝ) (hx : |x - 2 * m| ≤ 2 * m * (1 / 2 ^ 53)) (hy : |y - √x| ≤ √x * (1 / 2 ^ 53)) :
    (⌊y⌋₊ * (⌊y⌋₊ + 1) / 2 = m ↔ ∃ n, n * (n + 1) / 2 = m) ∧
    (∀ n, n * (n + 1) / 2 = m → ⌊y⌋₊ = n ∧ isqrt (2 * m) = n) := by
  have key : ∀ n, n * (n + 1) / 2 = m → ⌊y⌋₊ = n := by
    intro n hn
    have h2 : n * (n + 1) = 2 * m := by
      have := Nat.even_mul_succ_self n
      obtain ⟨k, hk⟩ := this
      omega
    have hlt : n < 2 ^ 32 := by
      by_contra h
      have h : 2 ^ 32 ≤ n := by omega
      have : 2 ^ 32 * (2 ^ 32 + 1) ≤ n * (n + 1) := Nat.mul_le_mul h (by omega)
      omega
    have hr : ((n : ℝ) * n + n) = 2 * m := by
      have : ((n * (n + 1) : Nat) : ℝ) = ((2 * m : Nat) : ℝ) := by rw [h2]
      push_cast at this
      linarith
    have hnr : (n : ℝ) + 1 ≤ 2 ^ 32 := by exact_mod_cast hlt
    obtain ⟨b1, b2⟩ := root_bounds (n := n) (x := x) (y := y) (e := 1 / 2 ^ 53) (by positivity) (by positivity) (by
      have : 5 * (1 / 2 ^ 53) * ((n : ℝ) + 1) ≤ 5 * (1 / 2 ^ 53) * 2 ^ 32 := mul_le_mul_of_nonneg_left hnr (by positivity)
      refine lt_of_le_of_lt this (by norm_num)) (by rw [hr]; exact hx) hy
    exact (Nat.floor_eq_iff (by linarith [(Nat.cast_nonneg n : (0:ℝ) ≤ n)])).2 ⟨b1, b2⟩
  refine ⟨⟨fun h => ⟨_, h⟩, fun ⟨n, hn⟩ => by rw [key n hn]; exact hn⟩, fun n hn => ⟨key n hn, ?_⟩⟩
  rw [← hn]
  exact isqrt_tri n

-- the length 6, computed without rounding errors: the size is 3
example : |((12 : ℝ)) - 2 * (6 : Nat)| ≤ 2 * (6 : Nat) * (1 / 2 ^ 53) ∧ |√12 - √12| ≤ √12 * (1 / 2 ^ 53) ∧ 3 * (3 + 1) / 2 = 6 :=
  ⟨by norm_num, by simp, by decide⟩

end Rstsr
