import Mathlib.Algebra.Order.Field.Basic
/-!
# Specification vocabulary: complex numbers as pairs of reals

Nothing here refers to the model.
-/
namespace Spec

/-- A complex number: its real and its imaginary part. -/
structure Cx (α : Type) where
  re : α
  im : α
deriving DecidableEq, Repr

/-- The squared distance of two complex numbers. -/
def Cx.dist2 {α : Type} [Ring α] (z w : Cx α) : α := (z.re - w.re) ^ 2 + (z.im - w.im) ^ 2

/-- The squared absolute value. -/
def Cx.abs2 {α : Type} [Semiring α] (z : Cx α) : α := z.re ^ 2 + z.im ^ 2

/-- The mean of complex numbers: the means of their parts. -/
def cxMean {α : Type} [Field α] (xs : List (Cx α)) : Cx α :=
  ⟨(xs.map Cx.re).sum / xs.length, (xs.map Cx.im).sum / xs.length⟩

/-- The variance of complex numbers: the mean squared distance from their mean. -/
def cxVar {α : Type} [Field α] (xs : List (Cx α)) : α := (xs.map fun z => z.dist2 (cxMean xs)).sum / xs.length

/-- `hyp` is the length of the hypotenuse. -/
def IsHypot {α : Type} [Semiring α] [LE α] (hyp : α → α → α) : Prop := ∀ x y, 0 ≤ hyp x y ∧ hyp x y ^ 2 = x ^ 2 + y ^ 2

end Spec
