import Verif.Spec.Index
/-!
# Specification vocabulary: row-major and column-major

`Order` is the argument type (`FlagOrder`, `rstsr-common/src/flags.rs:60-68`).
-/
namespace Spec

/-- Row-major (`C`: the last axis runs fastest) or column-major (`F`: the first axis runs fastest). -/
inductive Order where
  | C
  | F
  deriving DecidableEq, Repr

/-- Rank of an index in the given order. -/
def rank : Order → List Nat → List Nat → Nat
  | .C => rankC
  | .F => rankF

/-- All indices of a shape in the given order. -/
def all : Order → List Nat → List (List Nat)
  | .C => allC
  | .F => allF

end Spec
