import Verif.Spec.Axes
/-!
# Specification vocabulary: views that drop or mirror axes
-/
namespace Spec

/-- The entries of `xs` whose place is not in `A`, in order. -/
def dropAxes {α : Type} (A : List Nat) (xs : List α) : List α :=
  (xs.zipIdx.filter fun p => p.2 ∉ A).map (·.1)

/-- The entries of `xs` at the places in `A`, in the order of `A`. -/
def takeAxes {α : Type} (A : List Nat) (xs : List α) : List α :=
  A.filterMap fun k => xs[k]?

/-- The index with the coordinates on the listed axes mirrored: `i` becomes `d - 1 - i`. -/
def flipIndex (axes : List Nat) (shape idx : List Nat) : List Nat :=
  (List.range idx.length).map fun k =>
    if k ∈ axes then shape.getD k 0 - 1 - idx.getD k 0 else idx.getD k 0

/-- Length of the `k`-th diagonal of a `d1 × d2` matrix. -/
def diagLen (d1 d2 : Nat) (k : Int) : Nat :=
  if k < 0 then (min ((d1 : Int) + k) d2).toNat else (min (d1 : Int) ((d2 : Int) - k)).toNat

/-- The grid axis of input number `i`: its own number, except that in the `"xy"` convention the first two
inputs change places. -/
def meshAxis (xy : Bool) (i : Nat) : Nat :=
  if xy then (if i = 0 then 1 else if i = 1 then 0 else i) else i

end Spec
