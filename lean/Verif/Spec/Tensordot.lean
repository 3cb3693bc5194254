import Verif.Spec.Views
/-!
# Specification: contraction of axis pairs
-/
namespace Spec

/-- What einsum subscripts mean: a term pairs element `ia` of the first operand with element `ib` of the second and is
added to element `ic` of the result exactly when some value of every label gives these three indices. -/
def EinsumTerm {L : Type} (sa sb sc : List L) (ia ib ic : List Nat) : Prop :=
  ∃ σ : L → Nat, ia = sa.map σ ∧ ib = sb.map σ ∧ ic = sc.map σ

/-- What a tensordot over the axis pairs `(A[t], B[t])` means: the two operands agree on every pair, and the result's
index is made of the other coordinates of the first operand, then those of the second. -/
def TensordotTerm (A B : List Nat) (ia ib ic : List Nat) : Prop :=
  (∀ t x y : Nat, A[t]? = some x → B[t]? = some y → ia[x]? = ib[y]?) ∧ ic = dropAxes A ia ++ dropAxes B ib

end Spec
