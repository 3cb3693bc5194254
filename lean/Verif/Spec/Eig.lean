import Mathlib.LinearAlgebra.Matrix.Charpoly.Basic
import Verif.Spec.LinalgSym
/-! # Specification vocabulary: eigenvalues of Hermitian matrices -/
namespace Spec
open Matrix
open scoped ComplexOrder
variable {𝕜 : Type} [RCLike 𝕜] {n : Nat}

/-- The eigenvalues in ascending order, each as often as its multiplicity. -/
def IsEigvals (M : Matrix (Fin n) (Fin n) 𝕜) (w : Fin n → ℝ) : Prop :=
  Monotone w ∧ M.charpoly = ∏ i, (Polynomial.X - Polynomial.C (w i : 𝕜))

/-- Orthonormal eigenvectors, column by column. -/
def IsEigvecs (S : Matrix (Fin n) (Fin n) 𝕜) (w : Fin n → ℝ) (V : Matrix (Fin n) (Fin n) 𝕜) : Prop :=
  Vᴴ * V = 1 ∧ S * V = V * diagonal fun i => (w i : 𝕜)

/-- Documentation of `?syev`, `?heev` (first argument `false`) and `?syevd`, `?heevd` (`true`): they read one triangle of a Hermitian matrix
`S`, give its eigenvalues in ascending order and, if the second argument asks for them, orthonormal eigenvectors. If the iteration
does not converge, a positive number is reported. -/
structure EvDoc (ev : Bool → Bool → UpLo → (n : Nat) → Matrix (Fin n) (Fin n) 𝕜 → Except Int (Matrix (Fin n) (Fin n) 𝕜 × (Fin n → ℝ))) : Prop where
  values : ∀ dc v u n A S F w, SameTriangle u A S → S.IsHermitian → ev dc v u n A = .ok (F, w) → IsEigvals S w
  vectors : ∀ dc u n A S F w, SameTriangle u A S → S.IsHermitian → ev dc true u n A = .ok (F, w) → IsEigvecs S w F

/-- The matrix whose eigenvalues are meant: problem 1 is `A x = λ B x`, problem 2 `A B x = λ x`, problem 3 `B A x = λ x`. -/
noncomputable def genMat (t : Int) (A B : Matrix (Fin n) (Fin n) 𝕜) : Matrix (Fin n) (Fin n) 𝕜 :=
  if t = 1 then B⁻¹ * A else if t = 2 then A * B else B * A

/-- The eigenvectors of the three problems and their normalization. -/
def IsGenEigvecs (t : Int) (A B : Matrix (Fin n) (Fin n) 𝕜) (w : Fin n → ℝ) (V : Matrix (Fin n) (Fin n) 𝕜) : Prop :=
  (t = 1 → A * V = B * V * diagonal (fun i => (w i : 𝕜)) ∧ Vᴴ * B * V = 1) ∧
  (t = 2 → A * B * V = V * diagonal (fun i => (w i : 𝕜)) ∧ Vᴴ * B * V = 1) ∧
  (t = 3 → B * A * V = V * diagonal (fun i => (w i : 𝕜)) ∧ Vᴴ * B⁻¹ * V = 1)

/-- Documentation of `?sygv`, `?hegv` (first argument `false`) and `?sygvd`, `?hegvd` (`true`): the problem of type 1, 2 or 3 for a Hermitian
matrix `S` and a positive definite matrix `H`, both given by one triangle. For a matrix `H` that is not positive definite a positive number is reported. -/
structure GvDoc (gv : Bool → Int → Bool → UpLo → (n : Nat) → Matrix (Fin n) (Fin n) 𝕜 → Matrix (Fin n) (Fin n) 𝕜 →
    Except Int (Matrix (Fin n) (Fin n) 𝕜 × (Fin n → ℝ) × Matrix (Fin n) (Fin n) 𝕜)) : Prop where
  values : ∀ dc t v u n A S B H F w G, t = 1 ∨ t = 2 ∨ t = 3 → SameTriangle u A S → S.IsHermitian → SameTriangle u B H → H.PosDef →
    gv dc t v u n A B = .ok (F, w, G) → IsEigvals (genMat t S H) w
  vectors : ∀ dc t u n A S B H F w G, t = 1 ∨ t = 2 ∨ t = 3 → SameTriangle u A S → S.IsHermitian → SameTriangle u B H → H.PosDef →
    gv dc t true u n A B = .ok (F, w, G) → IsGenEigvecs t S H w F
  indefinite : ∀ dc t v u n A S B H, t = 1 ∨ t = 2 ∨ t = 3 → SameTriangle u A S → S.IsHermitian → SameTriangle u B H → H.IsHermitian → ¬ H.PosDef →
    ∃ info, 0 < info ∧ gv dc t v u n A B = .error info

end Spec
