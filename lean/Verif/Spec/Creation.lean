import Mathlib.Data.Rat.Floor
import Verif.Spec.Tensor
/-!
# Specification: filling in new arrays
-/
namespace Spec

/-- `xs` is the sequence `start, start + step, start + 2 step, ...` with exactly
`⌈(stop - start) / step⌉` terms (none when that number is negative). -/
def IsRange {K : Type} [Field K] [LinearOrder K] [FloorRing K] (start stop step : K) (xs : List K) : Prop :=
  xs.length = ⌈(stop - start) / step⌉.toNat ∧ ∀ i < xs.length, xs[i]? = some (start + i * step)

/-- The same for integers; the number of terms is computed exactly, over the rationals. -/
def IsIntRange (start stop step : Int) (xs : List Int) : Prop :=
  xs.length = ⌈((stop - start : Int) : ℚ) / (step : ℚ)⌉.toNat ∧ ∀ i < xs.length, xs[i]? = some (start + i * step)

/-- A one-dimensional array holding exactly the listed values. -/
def Arr.Lists {α : Type} (A : Arr α) (xs : List α) : Prop :=
  A.shape = [xs.length] ∧ ∀ i < xs.length, A.elem [i] = xs[i]?

/-- An array of the given shape with `v` in every place. -/
def Arr.Constant {α : Type} (A : Arr α) (shape : List Nat) (v : α) : Prop :=
  A.shape = shape ∧ ∀ i, InRange i shape → A.elem i = some v

/-- A matrix with `one` on its `k`-th diagonal and `zero` elsewhere. -/
def Arr.IsEye {α : Type} (A : Arr α) (m n : Nat) (k : Int) (zero one : α) : Prop :=
  A.shape = [m, n] ∧ ∀ i j : Nat, i < m → j < n → A.elem [i, j] = some (if (j : Int) - i = k then one else zero)

end Spec
