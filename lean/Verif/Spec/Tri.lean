import Verif.Spec.Matmul
/-!
# Specification vocabulary: packed triangles

A packed triangle lists the elements of a triangle of a square matrix, with the diagonal: row after row on a
row-major device, column after column on a column-major one.
-/
namespace Spec

/-- The upper or the lower triangle. -/
inductive UpLo where
  | U | L
  deriving DecidableEq, Repr

/-- Symmetric, Hermitian, antisymmetric, anti-Hermitian, nothing known. -/
inductive Symm where
  | Sy | He | Ay | Ah | N
  deriving DecidableEq, Repr

/-- `(i, j)` is in the triangle. -/
def InTri : UpLo → Nat → Nat → Prop
  | .L, i, j => j ≤ i
  | .U, i, j => i ≤ j

instance (uplo : UpLo) (i j : Nat) : Decidable (InTri uplo i j) :=
  match uplo with
  | .L => inferInstanceAs (Decidable (j ≤ i))
  | .U => inferInstanceAs (Decidable (i ≤ j))

/-- Number of elements in a triangle. -/
def triSize (n : Nat) : Nat := n * (n + 1) / 2

/-- Place of `(i, j)` in the packed triangle of an `n` by `n` matrix. The rows before row `i` have `1 + … + i`
elements in the lower triangle, `n + … + (n - i + 1)` in the upper one. -/
def triIndex : Order → UpLo → Nat → Nat → Nat → Nat
  | .C, .L, _, i, j => i * (i + 1) / 2 + j
  | .C, .U, n, i, j => i * (2 * n + 1 - i) / 2 + (j - i)
  | .F, .L, n, i, j => j * (2 * n + 1 - j) / 2 + (i - j)
  | .F, .U, _, i, j => j * (j + 1) / 2 + i

/-- `P` holds the packed triangles of the matrices in `A`. -/
def PackOf {α : Type} (o : Order) (uplo : UpLo) (bl : List Nat) (n : Nat) (A P : Arr α) : Prop :=
  A.shape = glue o bl [n, n] ∧ P.shape = glue o bl [triSize n] ∧
  ∀ t i j, InRange t bl → i < n → j < n → InTri uplo i j →
    P.elem (glue o t [triIndex o uplo n i j]) = A.elem (glue o t [i, j])

/-- The element at `(j, i)` when `v` is the one at `(i, j)`. Nothing is known in the last case. -/
def mirror {α : Type} (neg conj : α → α) : Symm → α → α
  | .Sy, v => v
  | .He, v => conj v
  | .Ay, v => neg v
  | .Ah, v => neg (conj v)
  | .N, v => v

/-- The element on the diagonal for the packed element `v`. -/
def onDiag {α : Type} (zero : α) (conj : α → α) : Symm → α → α
  | .Sy, v => v
  | .He, v => conj v
  | .Ay, _ => zero
  | .Ah, _ => zero
  | .N, v => v

/-- `A` holds the matrices whose triangles `P` lists: a packed element and its mirror image, and on the diagonal what
`onDiag` says. -/
def UnpackOf {α : Type} (o : Order) (zero : α) (neg conj : α → α) (uplo : UpLo) (symm : Symm) (bl : List Nat) (n : Nat)
    (P A : Arr α) : Prop :=
  P.shape = glue o bl [triSize n] ∧ A.shape = glue o bl [n, n] ∧
  ∀ t i j v, InRange t bl → i < n → j < n → InTri uplo i j → P.elem (glue o t [triIndex o uplo n i j]) = some v →
    (i ≠ j → A.elem (glue o t [i, j]) = some v ∧ A.elem (glue o t [j, i]) = some (mirror neg conj symm v)) ∧
    (i = j → A.elem (glue o t [i, i]) = some (onDiag zero conj symm v))

/-- A matrix has the symmetry. -/
def HasSymm {α : Type} (o : Order) (neg conj : α → α) (symm : Symm) (bl : List Nat) (n : Nat) (A : Arr α) : Prop :=
  ∀ t i j v, InRange t bl → i < n → j < n → A.elem (glue o t [i, j]) = some v →
    A.elem (glue o t [j, i]) = some (mirror neg conj symm v)

end Spec
