import Mathlib.Algebra.BigOperators.Group.List.Defs
import Verif.Spec.Reduce
/-!
# Specification: sums of products along axes
-/
namespace Spec

/-- `R` is the product of `A` and `B` summed over the axis pairs `(SA[t], SB[t])`: its shape is the common shape of
the remaining axes of `A` and of `B`, and its element at `j` is the sum of `mul x y` over all positions `i` along the
summed axes, where `x` is the element of `A` whose summed coordinates are `i` and whose other coordinates are those `j`
stands for, and `y` is the same for `B`. -/
def IsVecdot {α β γ : Type} [AddCommMonoid γ] (o : Order) (mul : α → β → γ) (A : Arr α) (SA : List Nat) (B : Arr β)
    (SB : List Nat) (R : Arr γ) : Prop :=
  let restA := takeAxes (otherAxes A.shape.length SA) A.shape
  let restB := takeAxes (otherAxes B.shape.length SB) B.shape
  BroadcastOf o restA restB R.shape ∧ ∀ j, InRange j R.shape →
    ∃ (x : List Nat → α) (y : List Nat → β),
      (∀ i, InRange i (takeAxes SA A.shape) →
        A.elem (mergeIndex A.shape.length SA i (stretchIndex o restA j)) = some (x i) ∧
        B.elem (mergeIndex B.shape.length SB i (stretchIndex o restB j)) = some (y i)) ∧
      R.elem j = some ((all .C (takeAxes SA A.shape)).map fun i => mul (x i) (y i)).sum

end Spec
