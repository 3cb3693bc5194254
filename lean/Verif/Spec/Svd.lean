import Mathlib.Analysis.RCLike.Basic
import Mathlib.LinearAlgebra.Matrix.ConjTranspose
import Verif.Spec.Linalg
/-! # Specification vocabulary: singular value decomposition -/
namespace Spec
open Matrix
variable {𝕜 : Type} [RCLike 𝕜] {m n p q : Nat}

/-- The rectangular matrix with the numbers `s` on its diagonal. -/
def sigma (p q : Nat) {k : Nat} (s : Fin k → ℝ) : Matrix (Fin p) (Fin q) 𝕜 :=
  fun i j => if h : (i : Nat) = j ∧ (i : Nat) < k then ((s ⟨i, h.2⟩ : ℝ) : 𝕜) else 0

/-- `A = U Σ V`, with orthonormal columns of `U`, orthonormal rows of `V` and the singular values in descending order. -/
structure IsSvd (A : Matrix (Fin m) (Fin n) 𝕜) (U : Matrix (Fin m) (Fin p) 𝕜) (s : Fin (min m n) → ℝ) (Vt : Matrix (Fin q) (Fin n) 𝕜) : Prop where
  left : Uᴴ * U = 1
  right : Vt * Vtᴴ = 1
  product : A = U * sigma p q s * Vt
  nonneg : ∀ i, 0 ≤ s i
  desc : Antitone s

/-- The singular values: those of a decomposition with square unitary matrices. -/
def IsSvals (A : Matrix (Fin m) (Fin n) 𝕜) (s : Fin (min m n) → ℝ) : Prop :=
  ∃ (U : Matrix (Fin m) (Fin m) 𝕜) (Vt : Matrix (Fin n) (Fin n) 𝕜), IsSvd A U s Vt

/-- The number of left vectors: all, or one for each singular value. -/
def leftCount (full : Bool) (m n : Nat) : Nat := if full then m else min m n

/-- The number of right vectors. -/
def rightCount (full : Bool) (m n : Nat) : Nat := if full then n else min m n

/-- Documentation of `?gesvd` (first argument `false`) and `?gesdd` (`true`): the decomposition, with square unitary matrices if the second argument
asks for them. What is left in the place of the matrix is not documented in this case. If the iteration does not converge, a positive number is reported. -/
def SvdDoc (svd : Bool → (full : Bool) → (m n : Nat) → Matrix (Fin m) (Fin n) 𝕜 → Except Int (Matrix (Fin m) (Fin n) 𝕜 ×
    Matrix (Fin m) (Fin (leftCount full m n)) 𝕜 × (Fin (min m n) → ℝ) × Matrix (Fin (rightCount full m n)) (Fin n) 𝕜)) : Prop :=
  ∀ dc full m n A L U s Vt, svd dc full m n A = .ok (L, U, s, Vt) → IsSvd A U s Vt

/-- The same routines when only the singular values are asked for. -/
def SvalsDoc (vals : Bool → (m n : Nat) → Matrix (Fin m) (Fin n) 𝕜 → Except Int (Matrix (Fin m) (Fin n) 𝕜 × (Fin (min m n) → ℝ))) : Prop :=
  ∀ dc m n A L s, vals dc m n A = .ok (L, s) → IsSvals A s

end Spec
