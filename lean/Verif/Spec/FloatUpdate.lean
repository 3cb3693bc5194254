import Verif.Spec.FloatDot
/-!
# The error of `beta * v + alpha * (x₁ y₁ + x₂ y₂ + …)` with floats
-/
namespace Spec

/-- The factors and numbers are finite, and the sum of products and the whole expression are far enough from
overflow. -/
def UpdateInRange (prec emax : Nat) (alpha beta v : Flt) (ps : List (Flt × Flt)) : Prop :=
  alpha.Finite prec emax ∧ beta.Finite prec emax ∧ v.Finite prec emax ∧ DotInRange prec emax ps ∧
  (1 + 1 / 2 ^ prec) ^ (ps.length + 2) * (|beta.val * v.val| + |alpha.val| * (ps.map fun q => |q.1.val * q.2.val|).sum) +
    (1 + 1 / 2 ^ prec) ^ (ps.length + 1) * ((ps.length * |alpha.val| + ps.length + 2) * halfTiny prec emax) ≤ maxFinite prec emax

/-- `beta * v + alpha * (x₁ y₁ + … + xₙ yₙ)`: finite, and the error is at most `(1 + 2⁻ᵖ)ⁿ⁺² - 1` times the same
expression with absolute values, and `(1 + 2⁻ᵖ)ⁿ⁺¹ (n |alpha| + n + 2)` times half of the smallest positive float. -/
def UpdateWithin (prec emax : Nat) (alpha beta v : Flt) (ps : List (Flt × Flt)) (r : Flt) : Prop :=
  r.Finite prec emax ∧ |r.val - (beta.val * v.val + alpha.val * (ps.map fun q => q.1.val * q.2.val).sum)| ≤
    ((1 + 1 / 2 ^ prec) ^ (ps.length + 2) - 1) * (|beta.val * v.val| + |alpha.val| * (ps.map fun q => |q.1.val * q.2.val|).sum) +
      (1 + 1 / 2 ^ prec) ^ (ps.length + 1) * ((ps.length * |alpha.val| + ps.length + 2) * halfTiny prec emax)

end Spec
