import Mathlib.LinearAlgebra.Matrix.Determinant.Basic
import Mathlib.Analysis.RCLike.Basic
import Mathlib.Analysis.SpecialFunctions.Log.Basic
import Verif.Spec.Linalg
/-! # Specification vocabulary: factors of a general matrix -/
namespace Spec
variable {α : Type} {n : Nat}

/-- The interchanges of rows `i` and `q i`, for `i` from the first to the last row, as one rearrangement of the rows. -/
def interchanges (q : Fin n → Fin n) : Equiv.Perm (Fin n) := ((List.finRange n).map fun i => Equiv.swap i (q i)).prod

/-- The part of `F` below the diagonal, with ones on the diagonal. -/
def unitLower [Zero α] [One α] (F : Matrix (Fin n) (Fin n) α) : Matrix (Fin n) (Fin n) α :=
  Matrix.of fun i j => if j < i then F i j else if i = j then 1 else 0

/-- The part of `F` on and above the diagonal. -/
def upper [Zero α] (F : Matrix (Fin n) (Fin n) α) : Matrix (Fin n) (Fin n) α :=
  Matrix.of fun i j => if i ≤ j then F i j else 0

/-- `F` and the pivots `p`, counted from one, are the factors of `A`: `L U` is `A` with its rows interchanged. -/
def IsLU [CommRing α] (A F : Matrix (Fin n) (Fin n) α) (p : List Int) : Prop :=
  ∃ q : Fin n → Fin n, p = List.ofFn (fun i => ((q i : Nat) : Int) + 1) ∧
    unitLower F * upper F = A.submatrix (interchanges q) id

/-- Documentation of `?getrf` for square matrices: the factors of a nonsingular matrix; for a singular matrix a positive number
is reported. -/
structure GetrfDoc [Field α] (getrf : (m n : Nat) → Matrix (Fin m) (Fin n) α → Except Int (Matrix (Fin m) (Fin n) α × List Int)) :
    Prop where
  factors : ∀ n A, A.det ≠ 0 → ∃ F p, getrf n n A = .ok (F, p) ∧ IsLU A F p
  singular : ∀ n A, A.det = 0 → ∃ info, 0 < info ∧ getrf n n A = .error info

/-- Documentation of `?getri`: from the factors of a nonsingular matrix, its inverse. -/
def GetriDoc [Field α] (getri : (n : Nat) → Matrix (Fin n) (Fin n) α → List Int → Except Int (Matrix (Fin n) (Fin n) α)) : Prop :=
  ∀ n A F p, A.det ≠ 0 → IsLU A F p → ∃ X, getri n F p = .ok X ∧ A * X = 1

end Spec
