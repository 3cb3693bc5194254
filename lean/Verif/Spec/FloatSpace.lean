import Verif.Spec.FloatMean
import Verif.Spec.Creation
/-!
# Specification: evenly spaced floats

Written without reference to the model.
-/
namespace Spec

/-- The exact value number `i`, when the way from `a` to `b` has `c` steps. -/
def spaced (a b : ℚ) (c i : Nat) : ℚ := a + i * ((b - a) / c)

/-- The ends are finite and far enough from overflow, and the count is a number of the format. -/
def SpaceInRange (prec emax : Nat) (a b : Flt) (n : Nat) : Prop :=
  a.Finite prec emax ∧ b.Finite prec emax ∧ n ≤ 2 ^ prec ∧
  (1 + 1 / 2 ^ prec) ^ (n + 2) * (|a.val| + |b.val - a.val| + (n + 1) * halfTiny prec emax) ≤ maxFinite prec emax

/-- A running sum: the error of value number `i` grows with `i`. -/
def RunningWithin (prec emax : Nat) (a b : Flt) (c i : Nat) (x : Flt) : Prop :=
  x.Finite prec emax ∧ |x.val - spaced a.val b.val c i| ≤
    ((1 + 1 / 2 ^ prec) ^ i - 1) * |a.val| + ((1 + 1 / 2 ^ prec) ^ (i + 2) - 1) * |spaced a.val b.val c i - a.val| +
      (1 + 1 / 2 ^ prec) ^ i * (i * halfTiny prec emax)

/-- A product for every value: the error does not grow with `i`, but for underflow. -/
def ProductWithin (prec emax : Nat) (a b : Flt) (c i : Nat) (x : Flt) : Prop :=
  x.Finite prec emax ∧ |x.val - spaced a.val b.val c i| ≤
    |spaced a.val b.val c i| * (1 / 2 ^ prec) +
      (1 + 1 / 2 ^ prec) * (((1 + 1 / 2 ^ prec) ^ 3 - 1) * |spaced a.val b.val c i - a.val| +
        ((1 + 1 / 2 ^ prec) * i + 1) * halfTiny prec emax)

end Spec
