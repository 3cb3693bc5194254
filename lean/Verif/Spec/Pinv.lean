import Verif.Spec.Svd
/-! # Specification vocabulary: pseudo-inverse -/
namespace Spec
open Matrix
variable {𝕜 : Type} [RCLike 𝕜] {m n : Nat}

/-- The four equations of Moore and Penrose. -/
structure IsPinv (A : Matrix (Fin m) (Fin n) 𝕜) (P : Matrix (Fin n) (Fin m) 𝕜) : Prop where
  outer : A * P * A = A
  inner : P * A * P = P
  left : (A * P)ᴴ = A * P
  right : (P * A)ᴴ = P * A

/-- The numbers that are above a tolerance; the others count as zero. -/
noncomputable def above {k : Nat} (tol : ℝ) (s : Fin k → ℝ) : Fin k → ℝ := fun i => if tol < s i then s i else 0

/-- `B` is `A` without the singular values up to the tolerance. -/
def IsCut (A : Matrix (Fin m) (Fin n) 𝕜) (s : Fin (min m n) → ℝ) (tol : ℝ) (B : Matrix (Fin m) (Fin n) 𝕜) : Prop :=
  ∃ (U : Matrix (Fin m) (Fin (min m n)) 𝕜) (Vt : Matrix (Fin (min m n)) (Fin n) 𝕜), IsSvd A U s Vt ∧
    B = U * sigma (min m n) (min m n) (above tol s) * Vt

end Spec
