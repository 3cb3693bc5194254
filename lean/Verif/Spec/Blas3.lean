import Mathlib.LinearAlgebra.Matrix.ConjTranspose
import Mathlib.Data.Matrix.Mul
import Mathlib.Algebra.Field.Basic
import Verif.Spec.LinalgSym
/-! # Specification vocabulary: products and triangular systems of BLAS -/
namespace Spec
open Matrix

/-- The matrix, its transpose or its conjugate transpose is meant. -/
inductive Trans | N | T | C
  deriving DecidableEq, Repr

/-- The side on which the special matrix stands. -/
inductive Side | L | R
  deriving DecidableEq, Repr

/-- Whether the diagonal of a triangular matrix is stored (`nonUnit`) or taken to be one (`unit`). -/
inductive Diag | nonUnit | unit
  deriving DecidableEq, Repr

namespace Trans

/-- Rows that are stored of a matrix that is meant to have `m` rows and `k` columns. -/
def rows : Trans → Nat → Nat → Nat
  | .N, m, _ => m
  | .T, _, k => k
  | .C, _, k => k

/-- Columns that are stored. -/
def cols : Trans → Nat → Nat → Nat
  | .N, _, k => k
  | .T, m, _ => m
  | .C, m, _ => m

/-- The matrix that is meant. -/
def op {α : Type} [Star α] : (t : Trans) → {m k : Nat} → Matrix (Fin (t.rows m k)) (Fin (t.cols m k)) α → Matrix (Fin m) (Fin k) α
  | .N, _, _, A => A
  | .T, _, _, A => Aᵀ
  | .C, _, _, A => Aᴴ

/-- The same for a square matrix. -/
def sq {α : Type} [Star α] : (t : Trans) → {n : Nat} → Matrix (Fin n) (Fin n) α → Matrix (Fin n) (Fin n) α
  | .N, _, A => A
  | .T, _, A => Aᵀ
  | .C, _, A => Aᴴ

end Trans

/-- The elements stand in the storage one after the other from its first cell, in the order `o`. -/
def InSequence (o : Order) (stride : List Int) (offset : Int) (shape : List Nat) : Prop :=
  ∀ idx, InRange idx shape → position stride offset idx = (rank o shape idx : Int)

/-- The size of the special matrix beside one of `m` rows and `n` columns. -/
def Side.dim : Side → Nat → Nat → Nat
  | .L, m, _ => m
  | .R, _, n => n

/-- The triangular matrix that is stored in a triangle of `A`. -/
def triPart {α : Type} [Zero α] [One α] (u : UpLo) (d : Diag) {n : Nat} (A : Matrix (Fin n) (Fin n) α) : Matrix (Fin n) (Fin n) α :=
  Matrix.of fun i j => if i = j then (match d with | .unit => 1 | .nonUnit => A i j) else if InTriangle u i j then A i j else 0

/-- `X` solves `op(T) X = α B` or `X op(T) = α B`. -/
def SolvesTri {α : Type} [Field α] [Star α] (t : Trans) (alpha : α) : (s : Side) → {m n : Nat} → Matrix (Fin (s.dim m n)) (Fin (s.dim m n)) α →
    (B X : Matrix (Fin m) (Fin n) α) → Prop
  | .L, m, _, T, B, X => t.sq (n := m) T * X = alpha • B
  | .R, _, n, T, B, X => X * t.sq (n := n) T = alpha • B

/-- Documentation of `?trsm`: the triangle `u` of `A` is read, the diagonal only if it is stored; no test for a zero on the
diagonal is made. -/
def TrsmDoc {α : Type} [Field α] [Star α] (trsm : (s : Side) → UpLo → Trans → Diag → (m n : Nat) → α → Matrix (Fin (s.dim m n)) (Fin (s.dim m n)) α →
    Matrix (Fin m) (Fin n) α → Matrix (Fin m) (Fin n) α) : Prop :=
  ∀ s u t d m n alpha A B, (∀ i, triPart u d A i i ≠ 0) → SolvesTri t alpha s (triPart u d A) B (trsm s u t d m n alpha A B)

/-- Documentation of `?gemm`: `α op(A) op(B) + β C`. -/
def GemmDoc {α : Type} [Field α] [Star α] (gemm : (ta tb : Trans) → (m n k : Nat) → α → Matrix (Fin (ta.rows m k)) (Fin (ta.cols m k)) α →
    Matrix (Fin (tb.rows k n)) (Fin (tb.cols k n)) α → α → Matrix (Fin m) (Fin n) α → Matrix (Fin m) (Fin n) α) : Prop :=
  ∀ ta tb m n k alpha A B beta C, gemm ta tb m n k alpha A B beta C = alpha • (ta.op A * tb.op B) + beta • C

/-- `α S B + β C` or `α B S + β C`. -/
def symmProduct {α : Type} [Field α] (alpha beta : α) : (s : Side) → {m n : Nat} → Matrix (Fin (s.dim m n)) (Fin (s.dim m n)) α →
    (B C : Matrix (Fin m) (Fin n) α) → Matrix (Fin m) (Fin n) α
  | .L, m, _, S, B, C => alpha • ((show Matrix (Fin m) (Fin m) α from S) * B) + beta • C
  | .R, _, n, S, B, C => alpha • (B * (show Matrix (Fin n) (Fin n) α from S)) + beta • C

/-- Symmetric, or Hermitian. -/
def SelfTwin {α : Type} [Star α] (hermi : Bool) {n : Nat} (S : Matrix (Fin n) (Fin n) α) : Prop := if hermi then S.IsHermitian else S.IsSymm

/-- Documentation of `?symm` and `?hemm`: the triangle `u` of a symmetric or Hermitian matrix is read. -/
def SymmDoc {α : Type} [Field α] [Star α] (symm : (hermi : Bool) → (s : Side) → UpLo → (m n : Nat) → α → Matrix (Fin (s.dim m n)) (Fin (s.dim m n)) α →
    Matrix (Fin m) (Fin n) α → α → Matrix (Fin m) (Fin n) α → Matrix (Fin m) (Fin n) α) : Prop :=
  ∀ h s u m n alpha A S B beta C, SameTriangle u A S → SelfTwin h S → symm h s u m n alpha A B beta C = symmProduct alpha beta s S B C

end Spec
