/-!
# Specification vocabulary: the integer types of arguments

`w` is the number of bits of `usize` and `isize`.
-/
namespace Spec

/-- The integer types that arguments may have. -/
inductive IntTy where
  | usize
  | isize
  | u32
  | u64
  | i32
  | i64
  deriving DecidableEq, Repr

/-- The numbers of a type. -/
def IntTy.Has (w : Nat) : IntTy → Int → Prop
  | .usize, v => 0 ≤ v ∧ v < 2 ^ w
  | .isize, v => -2 ^ (w - 1) ≤ v ∧ v < 2 ^ (w - 1)
  | .u32, v => 0 ≤ v ∧ v < 2 ^ 32
  | .u64, v => 0 ≤ v ∧ v < 2 ^ 64
  | .i32, v => -2 ^ 31 ≤ v ∧ v < 2 ^ 31
  | .i64, v => -2 ^ 63 ≤ v ∧ v < 2 ^ 63

instance (w : Nat) (t : IntTy) (v : Int) : Decidable (t.Has w v) := by
  cases t <;> unfold IntTy.Has <;> infer_instance

end Spec
