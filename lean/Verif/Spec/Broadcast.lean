import Verif.Spec.Order
/-!
# Specification vocabulary: broadcasting

Shapes are aligned at the last axis (row-major) or at the first axis (column-major). Axes a shape does
not have count as length 1, and an axis of length 1 can be stretched to any length.
-/
namespace Spec

/-- Length of the `k`-th axis counted from the aligned end; missing axes have length 1. -/
def axisAt : Order → List Nat → Nat → Nat
  | .C, s, k => s.reverse.getD k 1
  | .F, s, k => s.getD k 1

/-- `s` is the common shape of `a` and `b`: as many axes as the longer one, and on every axis both
lengths stretch to the length of `s`, which is one of the two. -/
def BroadcastOf (o : Order) (a b s : List Nat) : Prop :=
  s.length = max a.length b.length ∧ ∀ k, k < s.length →
    (axisAt o a k = axisAt o s k ∨ axisAt o a k = 1) ∧
    (axisAt o b k = axisAt o s k ∨ axisAt o b k = 1) ∧
    (axisAt o s k = axisAt o a k ∨ axisAt o s k = axisAt o b k)

/-- `s` is the common shape of a list of shapes. -/
def BroadcastOfAll (o : Order) (shapes : List (List Nat)) (s : List Nat) : Prop :=
  (∀ a ∈ shapes, a.length ≤ s.length ∧ ∀ k, axisAt o a k = axisAt o s k ∨ axisAt o a k = 1) ∧
  (∃ a ∈ shapes, a.length = s.length) ∧ ∀ k, ∃ a ∈ shapes, axisAt o s k = axisAt o a k

/-- The two shapes are compatible: aligned lengths are equal or one of them is 1. -/
def Compatible (o : Order) (a b : List Nat) : Prop :=
  ∀ k, axisAt o a k = axisAt o b k ∨ axisAt o a k = 1 ∨ axisAt o b k = 1

/-- The index of an operand of shape `a` that an index of the common shape stands for: extra leading
(row-major) or trailing (column-major) coordinates are dropped, and coordinates on axes of length 1
become 0. -/
def stretchIndex (o : Order) (a idx : List Nat) : List Nat :=
  let aligned := match o with
    | .C => idx.drop (idx.length - a.length)
    | .F => idx.take a.length
  List.zipWith (fun d i => if d = 1 then 0 else i) a aligned

end Spec
