import Verif.Spec.Tensor
import Verif.Spec.Views
import Verif.Spec.Axes
/-!
# Specification vocabulary: reductions

A reduction is given by a start value, a step taking in one element, a combination of two partial results and
a final function. Nothing here refers to the model.
-/
namespace Spec

/-- The elements of an array in row-major order (the last index runs fastest). -/
def Arr.elements {α : Type} (A : Arr α) : List α := (all .C A.shape).filterMap A.elem

/-- The pairs of elements that two arrays have at the same index, in row-major order. -/
def Arr.pairs {α β : Type} (A : Arr α) (B : Arr β) : List (α × β) :=
  (all .C A.shape).filterMap fun idx => (A.elem idx).bind fun x => (B.elem idx).map fun y => (x, y)

/-- `combine` with `start` is a commutative monoid, and taking in an element is combining with the partial
result of that element alone. -/
structure Monoidal {α σ : Type} (start : σ) (step : σ → α → σ) (combine : σ → σ → σ) : Prop where
  assoc : ∀ x y z, combine (combine x y) z = combine x (combine y z)
  comm : ∀ x y, combine x y = combine y x
  unit : ∀ x, combine start x = x
  step : ∀ acc x, step acc x = combine acc (step start x)

/-- The index with the coordinates `i` on the axes `S` and `j` on the other axes. -/
def mergeIndex (n : Nat) (S i j : List Nat) : List Nat :=
  (List.range n).map fun a => if a ∈ S then i.getD (S.idxOf a) 0 else j.getD ((otherAxes n S).idxOf a) 0

/-- The part of an array along the axes `S` at the index `j` of the other axes. -/
def Arr.slice {α : Type} (A : Arr α) (S j : List Nat) : Arr α :=
  ⟨takeAxes S A.shape, fun i => A.elem (mergeIndex A.shape.length S i j)⟩

/-- `B` is `A` reduced over the axes `S`: its axes are the other ones in order, and every element is related by
`val` to the elements of the corresponding slice of `A`. `none` stands for all axes. -/
def Arr.ReducedTo {α ω : Type} (A : Arr α) (S : Option (List Nat)) (val : List α → ω → Prop) (B : Arr ω) : Prop :=
  match S with
  | none => B.shape = [] ∧ ∃ v, B.elem [] = some v ∧ val A.elements v
  | some S => B.shape = takeAxes (otherAxes A.shape.length S) A.shape ∧
      ∀ j, InRange j B.shape → ∃ v, B.elem j = some v ∧ val (A.slice S j).elements v

/-- `idx` is the first index, in row-major order, of an element that no other is better than. -/
def Arr.FirstBest {α : Type} (A : Arr α) (better : α → α → Prop) (idx : List Nat) : Prop :=
  InRange idx A.shape ∧ ∃ x, A.elem idx = some x ∧
    (∀ j y, InRange j A.shape → A.elem j = some y → ¬ better y x) ∧
    (∀ j y, InRange j A.shape → A.elem j = some y → rank .C A.shape j < rank .C A.shape idx → better x y)

/-- A strict weak order: the comparison "is better than" of values some of which may be equally good. -/
structure StrictWeak {α : Type} (better : α → α → Prop) : Prop where
  irrefl : ∀ x, ¬ better x x
  trans : ∀ x y z, better x y → better y z → better x z
  split : ∀ x y z, better x y → better x z ∨ better z y

end Spec
