import Verif.Spec.Index
/-!
# Specification vocabulary: numbers that fit in a machine word

`w` is the number of bits of `usize`; `isize` holds the numbers from `-2 ^ (w - 1)` up to `2 ^ (w - 1) - 1`.
-/
namespace Spec

/-- `isize` holds the number. -/
def HasIsize (w : Nat) (v : Int) : Prop := -2 ^ (w - 1) ≤ v ∧ v < 2 ^ (w - 1)

instance (w : Nat) (v : Int) : Decidable (HasIsize w v) := by unfold HasIsize; infer_instance

/-- How far the positions of an array reach above the position of the first element. -/
def reachUp : List Nat → List Int → Nat
  | d :: ds, s :: ss => (d - 1) * s.toNat + reachUp ds ss
  | _, _ => 0

/-- How far they reach below it. -/
def reachDown : List Nat → List Int → Nat
  | d :: ds, s :: ss => (d - 1) * (-s).toNat + reachDown ds ss
  | _, _ => 0

/-- A layout fits in the machine: the number of elements (zero lengths counted as one), the last position and the
distance to the first one are numbers of `isize`. -/
structure FitsWord (w : Nat) (shape : List Nat) (stride : List Int) (offset : Int) : Prop where
  pos : 0 ≤ offset
  strides : ∀ s ∈ stride, HasIsize w s
  count : (shape.map (max 1)).prod < 2 ^ (w - 1)
  up : offset + reachUp shape stride < 2 ^ (w - 1)
  down : reachDown shape stride < 2 ^ (w - 1)

end Spec
