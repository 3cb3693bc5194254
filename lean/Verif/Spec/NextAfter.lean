import Verif.Spec.Scalar
/-! # Specification: 16-bit floating-point words -/
namespace Spec

/-- The number that a 15-bit magnitude with `m` fraction bits stands for, as a multiple of the smallest subnormal number: the
fraction alone if the exponent field is 0, and otherwise the fraction with a leading 1, scaled. -/
def magnitude (m n : Nat) : Nat := if n / 2 ^ m = 0 then n % 2 ^ m else (2 ^ m + n % 2 ^ m) * 2 ^ (n / 2 ^ m - 1)

/-- What a 16-bit word with `m` fraction bits means (IEEE 754 binary16 for `m = 10`, bfloat16 for `m = 7`): a sign bit, an
exponent field of `15 - m` bits with bias `2 ^ (14 - m) - 1`, and the fraction. A full exponent field means infinity or, with a fraction,
not-a-number. -/
def decode16 (m w : Nat) : Flt :=
  let neg := decide (w / 2 ^ 15 % 2 = 1)
  let n := w % 2 ^ 15
  if n / 2 ^ m = 2 ^ (15 - m) - 1 then
    if n % 2 ^ m = 0 then .inf neg else .nan neg
  else if n = 0 ∧ neg = true then .negZero
  else .num ((if neg then -1 else 1) * (magnitude m n : ℚ) * 2 ^ (2 - (2 : Int) ^ (14 - m) - m))

end Spec
