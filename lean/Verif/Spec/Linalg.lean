import Mathlib.LinearAlgebra.Matrix.NonsingularInverse
import Verif.Spec.Tensor
/-!
# Specification vocabulary: linear algebra

Matrices are Mathlib's; arithmetic is exact, in a field. What the LAPACK library does is taken from its documentation
and enters the theorems as a hypothesis on the functions that stand for it.
-/
namespace Spec
variable {α : Type}

/-- The array is the matrix `M`. -/
def Arr.IsMat (A : Arr α) {m n : Nat} (M : Matrix (Fin m) (Fin n) α) : Prop :=
  A.shape = [m, n] ∧ ∀ (i : Fin m) (j : Fin n), A.elem [(i : Nat), (j : Nat)] = some (M i j)

/-- The array is the vector `v`. -/
def Arr.IsVec (A : Arr α) {n : Nat} (v : Fin n → α) : Prop :=
  A.shape = [n] ∧ ∀ i : Fin n, A.elem [(i : Nat)] = some (v i)

/-- Documentation of `?gesv`: for a nonsingular `A` the third result is the solution of `A X = B`; for a singular `A`
a positive number is reported. -/
structure GesvDoc [Field α] (gesv : (n m : Nat) → Matrix (Fin n) (Fin n) α → Matrix (Fin n) (Fin m) α →
    Except Int (Matrix (Fin n) (Fin n) α × (Fin n → Int) × Matrix (Fin n) (Fin m) α)) : Prop where
  solves : ∀ n m A B, A.det ≠ 0 → ∃ F p X, gesv n m A B = .ok (F, p, X) ∧ A * X = B
  singular : ∀ n m A B, A.det = 0 → ∃ info, 0 < info ∧ gesv n m A B = .error info

/-- Shapes that do not fit: `a` is no matrix, `b` neither vector nor matrix, or `a` is not square with the length of `b`. -/
def SolveMisfit (a b : List Nat) : Prop :=
  a.length ≠ 2 ∨ (b.length ≠ 1 ∧ b.length ≠ 2) ∨ (∃ n, b.head? = some n ∧ a ≠ [n, n])

end Spec
