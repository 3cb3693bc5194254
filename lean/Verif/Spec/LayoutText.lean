/-!
# The text of a layout
-/
namespace Spec

/-- The text: number of axes, a mark for ranks that are only known at run time, a word on the order of the elements, then shape,
strides and offset as decimal numbers. -/
def layoutText (dyn : Bool) (word : String) (shape : List Nat) (stride : List Int) (offset : Int) : String :=
  toString shape.length ++ "-Dim" ++ (if dyn then " (dyn)" else "") ++ ", contiguous: " ++ word ++
    "\nshape: [" ++ ", ".intercalate (shape.map toString) ++ "], stride: [" ++ ", ".intercalate (stride.map toString) ++
    "], offset: " ++ toString offset

/-- The strides of the axes longer than one are positive and ascend, and the first axis has stride one unless its length is one: what
BLAS takes as a matrix by columns, for any number of axes. -/
def ColumnLike (shape : List Nat) (stride : List Int) : Prop :=
  (((shape.zip stride).filter fun a => a.1 ≠ 1).map Prod.snd).Pairwise (· ≤ ·) ∧
  (∀ a ∈ shape.zip stride, a.1 ≠ 1 → 1 ≤ a.2) ∧ ∀ a ∈ (shape.zip stride).head?, a.1 ≠ 1 → a.2 = 1

/-- The word: `Empty` without elements, else the letters that apply in the order `CcFf`, or `Custom` if none does. -/
def OrderWord (rowMajor rowLike colMajor colLike : Prop) (shape : List Nat) (w : String) : Prop :=
  (0 ∈ shape ∧ w = "Empty") ∨
  (0 ∉ shape ∧ w = "Custom" ∧ ¬ rowMajor ∧ ¬ rowLike ∧ ¬ colMajor ∧ ¬ colLike) ∨
  (0 ∉ shape ∧ w ≠ "" ∧ w.toList.Sublist ['C', 'c', 'F', 'f'] ∧ ('C' ∈ w.toList ↔ rowMajor) ∧ ('c' ∈ w.toList ↔ rowLike) ∧
    ('F' ∈ w.toList ↔ colMajor) ∧ ('f' ∈ w.toList ↔ colLike))

end Spec
