import Mathlib.Algebra.Ring.Defs
import Mathlib.Algebra.BigOperators.Group.List.Defs
import Verif.Spec.Tensor
/-!
# Specification vocabulary: matrix products

Row-major: the last two axes of an operand are its matrix, the axes before them number a batch of matrices.
Column-major: the first two axes are the matrix, the axes after them number the batch. A vector is a row on
the left and a column on the right, and its missing axis is missing in the result. Batches are broadcast.
-/
namespace Spec

/-- A batch part and a matrix part put together. -/
def glue : Order → List Nat → List Nat → List Nat
  | .C, batch, core => batch ++ core
  | .F, batch, core => core ++ batch

/-- `a` and `b` can be multiplied and the product has shape `c`. `rows` is `[M]`, or `[]` if `a` is a vector;
`cols` is `[N]`, or `[]` if `b` is a vector; `K` is the length that is summed over. -/
structure MatShapes (o : Order) (a b c batchA batchB batch rows cols : List Nat) (K : Nat) : Prop where
  left : a = glue o batchA (rows ++ [K])
  right : b = glue o batchB (K :: cols)
  out : c = glue o batch (rows ++ cols)
  rowsLen : rows.length ≤ 1
  colsLen : cols.length ≤ 1
  rowVec : rows = [] → batchA = []
  colVec : cols = [] → batchB = []
  common : BroadcastOf o batchA batchB batch

/-- `s` is the sum of the products of `K` pairs of elements. -/
def IsDot {α β γ : Type} [AddCommMonoid γ] (mul : α → β → γ) (K : Nat) (row : Nat → Option α) (col : Nat → Option β)
    (s : γ) : Prop :=
  ∃ (x : Nat → α) (y : Nat → β), (∀ k < K, row k = some (x k) ∧ col k = some (y k)) ∧ s = ((List.range K).map fun k => mul (x k) (y k)).sum

/-- The element of the product of `A` and `B` for batch index `t`, row `i` and column `j`. -/
def IsMatEntry {α β γ : Type} [AddCommMonoid γ] (o : Order) (mul : α → β → γ) (A : Arr α) (B : Arr β)
    (batchA batchB : List Nat) (K : Nat) (t i j : List Nat) (s : γ) : Prop :=
  IsDot mul K (fun k => A.elem (glue o (stretchIndex o batchA t) (i ++ [k])))
    (fun k => B.elem (glue o (stretchIndex o batchB t) (k :: j))) s

/-- `D` is `beta * C + alpha * A B`, for every batch, row and column. -/
def IsMatUpdate {α β γ : Type} [CommSemiring γ] (o : Order) (mul : α → β → γ) (A : Arr α) (B : Arr β)
    (batchA batchB batch rows cols : List Nat) (K : Nat) (alpha beta : γ) (C D : Arr γ) : Prop :=
  D.shape = C.shape ∧ ∀ t i j, InRange t batch → InRange i rows → InRange j cols →
    ∃ v s, C.elem (glue o t (i ++ j)) = some v ∧ IsMatEntry o mul A B batchA batchB K t i j s ∧
      D.elem (glue o t (i ++ j)) = some (beta * v + alpha * s)

end Spec
