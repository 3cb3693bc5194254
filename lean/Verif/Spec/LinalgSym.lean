import Mathlib.LinearAlgebra.Matrix.PosDef
import Mathlib.LinearAlgebra.Matrix.Symmetric
import Mathlib.Analysis.RCLike.Basic
import Verif.Spec.Linalg
import Verif.Spec.Tri
/-! # Specification vocabulary: symmetric and Hermitian matrices given by one triangle -/
namespace Spec
open Matrix
open scoped ComplexOrder
variable {α : Type} {n : Nat}

/-- Row `i`, column `j` is in the triangle, the diagonal included. -/
def InTriangle : UpLo → Fin n → Fin n → Prop
  | .L, i, j => j ≤ i
  | .U, i, j => i ≤ j

instance (u : UpLo) (i j : Fin n) : Decidable (InTriangle u i j) := by cases u <;> unfold InTriangle <;> infer_instance

/-- Both matrices have the same triangle. -/
def SameTriangle (u : UpLo) (A S : Matrix (Fin n) (Fin n) α) : Prop := ∀ i j, InTriangle u i j → A i j = S i j

/-- Zero outside of the triangle. -/
def Triangular [Zero α] (u : UpLo) (F : Matrix (Fin n) (Fin n) α) : Prop := ∀ i j, ¬ InTriangle u i j → F i j = 0

/-- The Cholesky factor: `L Lᴴ = H` or `Uᴴ U = H`. -/
def IsCholesky {𝕜 : Type} [RCLike 𝕜] (u : UpLo) (H F : Matrix (Fin n) (Fin n) 𝕜) : Prop :=
  Triangular u F ∧ match u with
    | .L => F * Fᴴ = H
    | .U => Fᴴ * F = H

/-- Documentation of `?potrf`: it reads one triangle of a Hermitian matrix and leaves the Cholesky factor there; for a matrix that
is not positive definite a positive number is reported. -/
structure PotrfDoc {𝕜 : Type} [RCLike 𝕜] (potrf : UpLo → (n : Nat) → Matrix (Fin n) (Fin n) 𝕜 → Except Int (Matrix (Fin n) (Fin n) 𝕜)) : Prop where
  factor : ∀ u n A H, SameTriangle u A H → H.PosDef → ∃ G F, potrf u n A = .ok G ∧ SameTriangle u G F ∧ IsCholesky u H F
  indefinite : ∀ u n A H, SameTriangle u A H → H.IsHermitian → ¬ H.PosDef → ∃ info, 0 < info ∧ potrf u n A = .error info

/-- Hermitian, or symmetric. -/
def IsSelf {𝕜 : Type} [RCLike 𝕜] (hermi : Bool) (S : Matrix (Fin n) (Fin n) 𝕜) : Prop := if hermi then S.IsHermitian else S.IsSymm

/-- Documentation of `?sysv` and `?hesv`: they read one triangle of a symmetric or Hermitian matrix `S`; if it is nonsingular, the
third result is the solution of `S X = B`, otherwise a positive number is reported. -/
structure SysvDoc {𝕜 : Type} [RCLike 𝕜] (sysv : Bool → UpLo → (n m : Nat) → Matrix (Fin n) (Fin n) 𝕜 → Matrix (Fin n) (Fin m) 𝕜 →
    Except Int (Matrix (Fin n) (Fin n) 𝕜 × List Int × Matrix (Fin n) (Fin m) 𝕜)) : Prop where
  solves : ∀ h u n m A S B, SameTriangle u A S → IsSelf h S → S.det ≠ 0 → ∃ F p X, sysv h u n m A B = .ok (F, p, X) ∧ S * X = B
  singular : ∀ h u n m A S B, SameTriangle u A S → IsSelf h S → S.det = 0 → ∃ info, 0 < info ∧ sysv h u n m A B = .error info

end Spec
