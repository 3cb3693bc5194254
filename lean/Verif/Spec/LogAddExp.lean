import Verif.Spec.FloatSum
import Mathlib.Analysis.SpecialFunctions.Log.Basic
import Mathlib.Analysis.SpecialFunctions.Exponential
/-!
# Specification vocabulary: the logarithm of a sum of exponentials

Nothing here refers to the model.
-/
namespace Spec

/-- The logarithm of the sum of the exponentials of two reals. -/
noncomputable def logAddExpR (a b : ℝ) : ℝ := Real.log (Real.exp a + Real.exp b)

/-- What IEEE 754 says of a function of one float where the exact value leaves the range of the format: a value of at
least twice the greatest power of two overflows, a positive value below half the least positive float underflows. -/
structure LeavesRange (prec emax : Nat) (f : Flt → Flt) (F : ℝ → ℝ) : Prop where
  over : ∀ q : ℚ, (2 : ℝ) ^ (emax + 1) ≤ F q → f (.num q) = .inf false
  under : ∀ q : ℚ, 0 < F q → F q * 2 ^ (emax + prec) < 1 → f (.num q) = .num 0

/-- What IEEE 754 says of the logarithm at the ends of its domain. -/
structure LogEnds (ln : Flt → Flt) : Prop where
  top : ln (.inf false) = .inf false
  zero : ln (.num 0) = .inf true
  neg : ∀ q : ℚ, q < 0 → (ln (.num q)).IsNaN
  nan : ∀ x : Flt, x.IsNaN → (ln x).IsNaN

end Spec
