import Verif.Spec.Matmul
/-!
# Specification: the number of axes of a result
-/
namespace Spec

/-- The number of axes of a matrix product of tensors with `n` and `m` axes: a vector loses its axis, otherwise it is the larger number. -/
def productRank (n m : Nat) : Nat := if n = 1 then m - 1 else if m = 1 then n - 1 else max n m

end Spec
