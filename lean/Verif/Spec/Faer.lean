import Verif.Spec.Eig
import Verif.Spec.Svd
import Verif.Spec.Blas3
/-!
# Specification vocabulary: what the documentation of `faer` says of its routines

Arithmetic is exact. Each statement is about a function that stands for the routine and enters the theorems as a hypothesis.
-/
namespace Spec
open Matrix
open scoped ComplexOrder
variable {𝕜 : Type} [RCLike 𝕜]

/-- `Mat::llt`: reads one triangle of a Hermitian matrix and gives the lower Cholesky factor, or an error if the matrix is not
positive definite. -/
structure LltDoc (llt : UpLo → (n : Nat) → Matrix (Fin n) (Fin n) 𝕜 → Except Unit (Matrix (Fin n) (Fin n) 𝕜)) : Prop where
  factor : ∀ u n A H, SameTriangle u A H → H.PosDef → ∃ L, llt u n A = .ok L ∧ IsCholesky .L H L
  indefinite : ∀ u n A H, SameTriangle u A H → H.IsHermitian → ¬ H.PosDef → llt u n A = .error ()

/-- `Mat::svd` (`true`) and `Mat::thin_svd` (`false`): `A = U S Vᴴ`, the singular values being elements of the type of the matrix. -/
def FaerSvdDoc (svd : (full : Bool) → (m n : Nat) → Matrix (Fin m) (Fin n) 𝕜 → Except Unit
    (Matrix (Fin m) (Fin (leftCount full m n)) 𝕜 × (Fin (min m n) → 𝕜) × Matrix (Fin n) (Fin (rightCount full m n)) 𝕜)) : Prop :=
  ∀ full m n A U s V, svd full m n A = .ok (U, s, V) → ∃ r : Fin (min m n) → ℝ, (∀ i, s i = (r i : 𝕜)) ∧ IsSvd A U r Vᴴ

/-- `Svd::inverse`: for a decomposition of a nonsingular matrix. -/
def SvdInverseDoc (inv : (n : Nat) → Matrix (Fin n) (Fin n) 𝕜 → (Fin (min n n) → 𝕜) → Matrix (Fin n) (Fin n) 𝕜 → Matrix (Fin n) (Fin n) 𝕜) : Prop :=
  ∀ n A U r V, IsSvd A U r Vᴴ → A.det ≠ 0 → A * inv n U (fun i => (r i : 𝕜)) V = 1

/-- `Svd::solve_in_place`: for a decomposition of a nonsingular matrix. -/
def SvdSolveDoc (solve : (n k : Nat) → Matrix (Fin n) (Fin n) 𝕜 → (Fin (min n n) → 𝕜) → Matrix (Fin n) (Fin n) 𝕜 → Matrix (Fin n) (Fin k) 𝕜 →
    Matrix (Fin n) (Fin k) 𝕜) : Prop :=
  ∀ n k A U r V B, IsSvd A U r Vᴴ → A.det ≠ 0 → A * solve n k U (fun i => (r i : 𝕜)) V B = B

/-- `solve_lower_triangular_in_place`, `solve_upper_triangular_in_place`: only the triangle named is read. -/
def TriSolveDoc (solve : UpLo → (n k : Nat) → Matrix (Fin n) (Fin n) 𝕜 → Matrix (Fin n) (Fin k) 𝕜 → Matrix (Fin n) (Fin k) 𝕜) : Prop :=
  ∀ u n k A B, (∀ i, A i i ≠ 0) → triPart u .nonUnit A * solve u n k A B = B

/-- `Mat::self_adjoint_eigen`: orthonormal eigenvectors and the eigenvalues in ascending order, as elements of the type of the matrix. -/
def FaerEigDoc (eig : UpLo → (n : Nat) → Matrix (Fin n) (Fin n) 𝕜 → Except Unit (Matrix (Fin n) (Fin n) 𝕜 × (Fin n → 𝕜))) : Prop :=
  ∀ u n A S V s, SameTriangle u A S → S.IsHermitian → eig u n A = .ok (V, s) →
    ∃ w : Fin n → ℝ, (∀ i, s i = (w i : 𝕜)) ∧ Monotone w ∧ IsEigvecs S w V

/-- `Mat::self_adjoint_eigenvalues`. -/
def FaerEigvalsDoc (vals : UpLo → (n : Nat) → Matrix (Fin n) (Fin n) 𝕜 → Except Unit (Fin n → ℝ)) : Prop :=
  ∀ u n A S w, SameTriangle u A S → S.IsHermitian → vals u n A = .ok w → IsEigvals S w

/-- `Mat::singular_values`. -/
def FaerSvalsDoc (vals : (m n : Nat) → Matrix (Fin m) (Fin n) 𝕜 → Except Unit (Fin (min m n) → ℝ)) : Prop :=
  ∀ m n A s, vals m n A = .ok s → IsSvals A s

end Spec
