import Mathlib.Algebra.BigOperators.Group.List.Basic
import Mathlib.Algebra.Ring.Defs
import Verif.Spec.Tensor
/-!
# Specification: fingerprints and comparison of sequences
-/
namespace Spec

/-- The elements of an array in an order: with `.C` the last index runs fastest, with `.F` the first. -/
def Arr.inOrder {α : Type} (o : Order) (A : Arr α) : List α := (all o A.shape).filterMap A.elem

/-- The sum of `x 0 * cos 0`, `x 1 * cos 1`, and so on. -/
def fingerprintOf {K : Type} [Semiring K] (cos : K → K) (xs : List K) : K :=
  (xs.zipIdx.map fun p => p.1 * cos (p.2 : K)).sum

end Spec
