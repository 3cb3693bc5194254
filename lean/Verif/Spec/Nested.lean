/-!
# Specification of nested arrays

`[[T; N2]; N1]` and its relatives: `N1` arrays of `N2` values each.
-/
namespace Spec

/-- Arrays nested as deep as the list is long; the outermost length comes first. -/
def NestedArr (α : Type) : List Nat → Type
  | [] => α
  | n :: s => Fin n → NestedArr α s

/-- `arr[i][j]…`, nothing where an index is not below its length or their number is wrong. -/
def NestedArr.at {α : Type} : (s : List Nat) → NestedArr α s → List Nat → Option α
  | [], x, [] => some x
  | [], _, _ :: _ => none
  | _ :: _, _, [] => none
  | n :: s, arr, i :: idx => if h : i < n then NestedArr.at s (arr ⟨i, h⟩) idx else none

end Spec
