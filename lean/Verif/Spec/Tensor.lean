import Verif.Spec.Broadcast
/-!
# Specification vocabulary: tensors as arrays

A tensor is seen by its user as a shape and an element for every multi-index. Nothing here refers to the
model.
-/
namespace Spec

/-- An array: its shape and the element at each multi-index (`none`: no element there). -/
structure Arr (α : Type) where
  shape : List Nat
  elem : List Nat → Option α

/-- The element that strided storage holds at a multi-index: the cell at its position. -/
def element {α : Type} (data : List α) (stride : List Int) (offset : Int) (idx : List Nat) : Option α :=
  if position stride offset idx < 0 then none else data[(position stride offset idx).toNat]?

/-- Every multi-index of the shape has an element. -/
def Arr.Full {α : Type} (A : Arr α) : Prop := ∀ idx, InRange idx A.shape → ∃ x, A.elem idx = some x

/-- Same shape and same elements. -/
def Arr.Same {α : Type} (A B : Arr α) : Prop :=
  B.shape = A.shape ∧ ∀ idx, InRange idx A.shape → ∃ x, A.elem idx = some x ∧ B.elem idx = some x

/-- `C` is `f` applied to `A` element by element. -/
def IsMap {α γ : Type} (f : α → γ) (A : Arr α) (C : Arr γ) : Prop :=
  C.shape = A.shape ∧ ∀ idx, InRange idx A.shape → ∃ x, A.elem idx = some x ∧ C.elem idx = some (f x)

/-- `C` is `f` applied element by element to `A` and `B`, both stretched to the common shape. -/
def IsMap2 {α β γ : Type} (o : Order) (f : α → β → γ) (A : Arr α) (B : Arr β) (C : Arr γ) : Prop :=
  BroadcastOf o A.shape B.shape C.shape ∧ ∀ idx, InRange idx C.shape →
    ∃ x y, A.elem (stretchIndex o A.shape idx) = some x ∧ B.elem (stretchIndex o B.shape idx) = some y ∧
      C.elem idx = some (f x y)

/-- Cell `k` of the storage is the position of some multi-index. -/
def Addressed (stride : List Int) (offset : Int) (shape : List Nat) (k : Nat) : Prop :=
  ∃ idx, InRange idx shape ∧ position stride offset idx = (k : Int)

/-- The storage has the same number of cells and differs at most in cells where `P` holds. -/
def ChangedOnly {α : Type} (P : Nat → Prop) (before after : List α) : Prop :=
  after.length = before.length ∧ ∀ k, ¬ P k → after[k]? = before[k]?

/-- As many elements, and the `k`-th element in the order is the same for every `k`. -/
def Arr.SameSequence {α : Type} (o : Order) (A B : Arr α) : Prop :=
  A.shape.prod = B.shape.prod ∧ ∀ i j, InRange i A.shape → InRange j B.shape →
    rank o A.shape i = rank o B.shape j → ∃ x, A.elem i = some x ∧ B.elem j = some x

end Spec
