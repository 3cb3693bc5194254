import Verif.Spec.Tensor
/-! # Specification: short arrays as elements -/
namespace Spec

/-- `B` is `A` with its axis `a` of length `n` moved into the elements: the element of `B` is the array of the elements of `A`
along the axis. -/
def IsPacked {α : Type} (n a : Nat) (A : Arr α) (B : Arr (List α)) : Prop :=
  A.shape = B.shape.insertIdx a n ∧
  ∀ idx, InRange idx B.shape → ∃ xs : List α, B.elem idx = some xs ∧ xs.length = n ∧
    ∀ p, p < n → ∃ x, xs[p]? = some x ∧ A.elem (idx.insertIdx a p) = some x

end Spec
