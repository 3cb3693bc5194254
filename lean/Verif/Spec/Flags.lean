import Verif.Spec.Blas3
import Mathlib.Algebra.Star.Basic
/-!
# Specification: the letters and numbers of BLAS flags

As in the reference BLAS and in CBLAS with the extension of several libraries for conjugation without transposition. Written without reference to the model.
-/
namespace Spec

/-- The four ways to read a matrix: as it is, transposed, conjugated and transposed, conjugated only. -/
inductive TransFlag | N | T | C | CN
  deriving DecidableEq, Repr

/-- The element in row `i` and column `j` of the matrix that is meant. -/
def TransFlag.read {R : Type} [Star R] : TransFlag → (Nat → Nat → R) → Nat → Nat → R
  | .N, A, i, j => A i j
  | .T, A, i, j => A j i
  | .C, A, i, j => star (A j i)
  | .CN, A, i, j => star (A i j)

/-- A kind of flags with the letters of BLAS and the numbers of CBLAS; some flags have none. -/
class BlasFlag (F : Type) where
  letter : F → Option Char
  number : F → Option Nat

instance : BlasFlag TransFlag where
  letter | .N => some 'N' | .T => some 'T' | .C => some 'C' | .CN => none
  number | .N => some 111 | .T => some 112 | .C => some 113 | .CN => some 114

instance : BlasFlag UpLo where
  letter | .U => some 'U' | .L => some 'L'
  number | .U => some 121 | .L => some 122

instance : BlasFlag Diag where
  letter | .nonUnit => some 'N' | .unit => some 'U'
  number | .nonUnit => some 131 | .unit => some 132

instance : BlasFlag Side where
  letter | .L => some 'L' | .R => some 'R'
  number | .L => some 141 | .R => some 142

instance : BlasFlag Order where
  letter | _ => none
  number | .C => some 101 | .F => some 102

end Spec
