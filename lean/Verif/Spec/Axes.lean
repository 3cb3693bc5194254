/-!
# Specification vocabulary: axis arguments
-/
namespace Spec

/-- A signed axis argument is legal for `n` axes. -/
def AxisOk (n : Nat) (a : Int) : Prop := -(n : Int) ≤ a ∧ a < n

/-- The axis number a signed axis argument stands for: negative values count from the end. -/
def normAxis (n : Nat) (a : Int) : Nat := (if a < 0 then a + n else a).toNat

/-- The axes `0 … n-1` not in `s`, in increasing order. -/
def otherAxes (n : Nat) (s : List Nat) : List Nat := (List.range n).filter fun a => a ∉ s

end Spec
