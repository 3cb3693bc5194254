import Verif.Spec.FloatDot
/-!
# Specification: mean, variance and norm of floats

Written without reference to the model.
-/
namespace Spec

/-- What IEEE 754 says about division by a number other than zero when the result is in range. -/
structure NearestDiv (prec emax : Nat) (div : Flt → Flt → Flt) : Prop where
  nearest : ∀ x y, x.Finite prec emax → y.Finite prec emax → y.val ≠ 0 → |x.val / y.val| ≤ maxFinite prec emax →
    (div x y).Finite prec emax ∧ ∀ s, Representable prec emax s → |(div x y).val - x.val / y.val| ≤ |s - x.val / y.val|
  nan : ∀ x y, x.IsNaN ∨ y.IsNaN → (div x y).IsNaN

/-- What IEEE 754 says about subtraction when the result is in range. -/
structure NearestSub (prec emax : Nat) (sub : Flt → Flt → Flt) : Prop where
  nearest : ∀ x y, x.Finite prec emax → y.Finite prec emax → |x.val - y.val| ≤ maxFinite prec emax →
    (sub x y).Finite prec emax ∧ ∀ s, Representable prec emax s → |(sub x y).val - (x.val - y.val)| ≤ |s - (x.val - y.val)|
  nan : ∀ x y, x.IsNaN ∨ y.IsNaN → (sub x y).IsNaN

/-- Counts of at most `2ᵖ` become floats without error. -/
def ExactCounts (prec emax : Nat) (ofNat : Nat → Flt) : Prop :=
  ∀ n, n ≤ 2 ^ prec → (ofNat n).Finite prec emax ∧ (ofNat n).val = n

/-- The exact mean. -/
def meanOf (xs : List Flt) : ℚ := (xs.map Flt.val).sum / xs.length

/-- The exact mean of the absolute values. -/
def meanAbs (xs : List Flt) : ℚ := (xs.map fun x => |x.val|).sum / xs.length

/-- The exact mean of the squares. -/
def meanSquare (xs : List Flt) : ℚ := (xs.map fun x => x.val * x.val).sum / xs.length

/-- The exact variance: the mean of the squared deviations from the mean. -/
def varOf (xs : List Flt) : ℚ := (xs.map fun x => (x.val - meanOf xs) * (x.val - meanOf xs)).sum / xs.length

/-- A mean of `n` floats: finite, and its error is at most `(1 + 2⁻ᵖ)ⁿ - 1` times the mean of the absolute values,
and half of the smallest positive float. -/
def MeanWithin (prec emax : Nat) (xs : List Flt) (v : Flt) : Prop :=
  v.Finite prec emax ∧ |v.val - meanOf xs| ≤ ((1 + 1 / 2 ^ prec) ^ xs.length - 1) * meanAbs xs + halfTiny prec emax

/-- A variance of `n` floats: finite, and its error is at most `2 ((1 + 2⁻ᵖ)²ⁿ⁺² - 1)` times the mean of the squares
(not times the variance), and a few times the smallest positive float. -/
def VarWithin (prec emax : Nat) (xs : List Flt) (v : Flt) : Prop :=
  v.Finite prec emax ∧ |v.val - varOf xs| ≤ 2 * ((1 + 1 / 2 ^ prec) ^ (2 * xs.length + 2) - 1) * meanSquare xs +
    4 * (1 + 1 / 2 ^ prec) ^ (2 * xs.length + 2) * (1 + meanAbs xs) * halfTiny prec emax

/-- There are elements, they are finite, not too many, and far enough from overflow to add them. -/
def MeanInRange (prec emax : Nat) (xs : List Flt) : Prop :=
  xs ≠ [] ∧ xs.length ≤ 2 ^ prec ∧ (∀ x ∈ xs, x.Finite prec emax) ∧
  (1 + 1 / 2 ^ prec) ^ (xs.length - 1) * (xs.map fun x => |x.val|).sum ≤ maxFinite prec emax

/-- Neither sum overflows, nor does the difference. -/
def VarInRange (prec emax : Nat) (xs : List Flt) : Prop :=
  MeanInRange prec emax xs ∧ DotInRange prec emax (xs.map fun x => (x, x)) ∧
  2 * (1 + 1 / 2 ^ prec) ^ (2 * xs.length + 1) * meanSquare xs +
    4 * (1 + 1 / 2 ^ prec) ^ (2 * xs.length + 1) * (1 + meanAbs xs) * halfTiny prec emax ≤ maxFinite prec emax

end Spec
