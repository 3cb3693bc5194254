import Verif.Model.Rearrange
/-!
# Model of `rstsr-common/src/layout/iterator.rs`

Row-major and column-major iterators share the record below. Index vectors are lists; every list in
a state has one entry per axis. Addition and subtraction on `isize` do not overflow (addresses fit).
-/
namespace Rstsr
open Spec (Order)

/-- `iterator.rs:23-36` `IterLayoutColMajor` and `346-359` `IterLayoutRowMajor`; `order` says which one
(`iterator.rs:660-666` `enum IterLayout`). -/
structure Iter where
  order : Order
  layout : Layout
  indexStart : List Nat
  iterStart : Nat
  offsetStart : Int
  indexEnd : List Nat
  iterEnd : Nat
  offsetEnd : Int
  deriving DecidableEq, Repr

/-- `iterator.rs:181-193`: the loop for rank 5 and more. -/
def nextLoop : List Axis → List Nat → Int → List Nat × Int
  | x :: xs, i :: is, off =>
    if i + 1 = x.dim then
      let (is, off) := nextLoop xs is (off + x.str - x.dim * x.str)
      (0 :: is, off)
    else ((i + 1) :: is, off + x.str)
  | _, is, off => (is, off)

/-- `iterator.rs:265-277`: the loop for rank 5 and more. -/
def backLoop : List Axis → List Nat → Int → List Nat × Int
  | x :: xs, i :: is, off =>
    if i = 0 then
      let (is, off) := backLoop xs is (off + (x.dim - 1 : Nat) * x.str)
      ((x.dim - 1) :: is, off)
    else ((i - 1) :: is, off - x.str)
  | _, is, off => (is, off)

/-- `iterator.rs:122-197` (column-major `next_iter_index`): new index and offset. -/
def nextF (axes : List Axis) (index : List Nat) (off : Int) : List Nat × Int :=
  match axes, index with
  | [], index => (index, off)
  | [x0], [i0] => ([i0 + 1], off + x0.str)
  | [x0, x1], [i0, i1] =>
    let off := off + x0.str
    if i0 + 1 = x0.dim then ([0, i1 + 1], off - x0.dim * x0.str + x1.str) else ([i0 + 1, i1], off)
  | [x0, x1, x2], [i0, i1, i2] =>
    let off := off + x0.str
    if i0 + 1 = x0.dim then
      let off := off - x0.dim * x0.str + x1.str
      if i1 + 1 = x1.dim then ([0, 0, i2 + 1], off - x1.dim * x1.str + x2.str) else ([0, i1 + 1, i2], off)
    else ([i0 + 1, i1, i2], off)
  | [x0, x1, x2, x3], [i0, i1, i2, i3] =>
    let off := off + x0.str
    if i0 + 1 = x0.dim then
      let off := off - x0.dim * x0.str + x1.str
      if i1 + 1 = x1.dim then
        let off := off - x1.dim * x1.str + x2.str
        if i2 + 1 = x2.dim then ([0, 0, 0, i3 + 1], off - x2.dim * x2.str + x3.str)
        else ([0, 0, i2 + 1, i3], off)
      else ([0, i1 + 1, i2, i3], off)
    else ([i0 + 1, i1, i2, i3], off)
  | axes, index => nextLoop axes index off

/-- `iterator.rs:200-281` (column-major `back_iter_index`). -/
def backF (axes : List Axis) (index : List Nat) (off : Int) : List Nat × Int :=
  match axes, index with
  | [], index => (index, off)
  | [x0], [i0] => ([i0 - 1], off - x0.str)
  | [x0, x1], [i0, i1] =>
    if i0 = 0 then ([x0.dim - 1, i1 - 1], off + (x0.dim - 1 : Nat) * x0.str - x1.str)
    else ([i0 - 1, i1], off - x0.str)
  | [x0, x1, x2], [i0, i1, i2] =>
    if i0 = 0 then
      let off := off + (x0.dim - 1 : Nat) * x0.str
      if i1 = 0 then ([x0.dim - 1, x1.dim - 1, i2 - 1], off + (x1.dim - 1 : Nat) * x1.str - x2.str)
      else ([x0.dim - 1, i1 - 1, i2], off - x1.str)
    else ([i0 - 1, i1, i2], off - x0.str)
  | [x0, x1, x2, x3], [i0, i1, i2, i3] =>
    if i0 = 0 then
      let off := off + (x0.dim - 1 : Nat) * x0.str
      if i1 = 0 then
        let off := off + (x1.dim - 1 : Nat) * x1.str
        if i2 = 0 then ([x0.dim - 1, x1.dim - 1, x2.dim - 1, i3 - 1], off + (x2.dim - 1 : Nat) * x2.str - x3.str)
        else ([x0.dim - 1, x1.dim - 1, i2 - 1, i3], off - x2.str)
      else ([x0.dim - 1, i1 - 1, i2, i3], off - x1.str)
    else ([i0 - 1, i1, i2, i3], off - x0.str)
  | axes, index => backLoop axes index off

/-- `iterator.rs:445-520` (row-major `next_iter_index`). -/
def nextC (axes : List Axis) (index : List Nat) (off : Int) : List Nat × Int :=
  match axes, index with
  | [], index => (index, off)
  | [x0], [i0] => ([i0 + 1], off + x0.str)
  | [x0, x1], [i0, i1] =>
    let off := off + x1.str
    if i1 + 1 = x1.dim then ([i0 + 1, 0], off - x1.dim * x1.str + x0.str) else ([i0, i1 + 1], off)
  | [x0, x1, x2], [i0, i1, i2] =>
    let off := off + x2.str
    if i2 + 1 = x2.dim then
      let off := off - x2.dim * x2.str + x1.str
      if i1 + 1 = x1.dim then ([i0 + 1, 0, 0], off - x1.dim * x1.str + x0.str) else ([i0, i1 + 1, 0], off)
    else ([i0, i1, i2 + 1], off)
  | [x0, x1, x2, x3], [i0, i1, i2, i3] =>
    let off := off + x3.str
    if i3 + 1 = x3.dim then
      let off := off - x3.dim * x3.str + x2.str
      if i2 + 1 = x2.dim then
        let off := off - x2.dim * x2.str + x1.str
        if i1 + 1 = x1.dim then ([i0 + 1, 0, 0, 0], off - x1.dim * x1.str + x0.str)
        else ([i0, i1 + 1, 0, 0], off)
      else ([i0, i1, i2 + 1, 0], off)
    else ([i0, i1, i2, i3 + 1], off)
  | axes, index =>
    let (is, off) := nextLoop axes.reverse index.reverse off
    (is.reverse, off)

/-- `iterator.rs:523-604` (row-major `back_iter_index`). -/
def backC (axes : List Axis) (index : List Nat) (off : Int) : List Nat × Int :=
  match axes, index with
  | [], index => (index, off)
  | [x0], [i0] => ([i0 - 1], off - x0.str)
  | [x0, x1], [i0, i1] =>
    if i1 = 0 then ([i0 - 1, x1.dim - 1], off + (x1.dim - 1 : Nat) * x1.str - x0.str)
    else ([i0, i1 - 1], off - x1.str)
  | [x0, x1, x2], [i0, i1, i2] =>
    if i2 = 0 then
      let off := off + (x2.dim - 1 : Nat) * x2.str
      if i1 = 0 then ([i0 - 1, x1.dim - 1, x2.dim - 1], off + (x1.dim - 1 : Nat) * x1.str - x0.str)
      else ([i0, i1 - 1, x2.dim - 1], off - x1.str)
    else ([i0, i1, i2 - 1], off - x2.str)
  | [x0, x1, x2, x3], [i0, i1, i2, i3] =>
    if i3 = 0 then
      let off := off + (x3.dim - 1 : Nat) * x3.str
      if i2 = 0 then
        let off := off + (x2.dim - 1 : Nat) * x2.str
        if i1 = 0 then ([i0 - 1, x1.dim - 1, x2.dim - 1, x3.dim - 1], off + (x1.dim - 1 : Nat) * x1.str - x0.str)
        else ([i0, i1 - 1, x2.dim - 1, x3.dim - 1], off - x1.str)
      else ([i0, i1, i2 - 1, x3.dim - 1], off - x2.str)
    else ([i0, i1, i2, i3 - 1], off - x3.str)
  | axes, index =>
    let (is, off) := backLoop axes.reverse index.reverse off
    (is.reverse, off)

/-- The unravelling of the iterator's order (`shape.rs:214-241`; the fixed-rank code agrees by C27). -/
def unravelO : Order → List Nat → Nat → Res (List Nat)
  | .C => unravelC
  | .F => unravelF

/-- The cast `isize → usize` with `unwrap` (`iterator.rs:296, 310`). -/
def toUsize (x : Int) : Res Nat := if x < 0 then .error .panic else .ok x.toNat

/-- How a work-stealing scheduler divides an iterator (`rayon`'s `bridge`, called in
`rstsr-common/src/par_iter.rs:42, 60`): consume it, or split it and handle both parts. -/
inductive Plan where
  | run
  | split (k : Nat) (left right : Plan)

/-- Every split point is within the length of its part. -/
def Plan.Fits : Plan → Nat → Prop
  | .run, _ => True
  | .split k a b, n => k ≤ n ∧ a.Fits k ∧ b.Fits (n - k)

namespace Iter

/-- `iterator.rs:73-87` and `396-410` `new`. -/
def new (o : Order) (l : Layout) : Res Iter := do
  let indexStart := List.replicate l.ndim 0
  let indexEnd ← if l.size = 0 then .ok indexStart else unravelO o l.shape l.size
  let offsetEnd ← l.indexUncheck indexEnd
  return ⟨o, l, indexStart, 0, l.offset, indexEnd, l.size, offsetEnd⟩

/-- `iterator.rs:89-114` and `412-437` `split_at`. -/
def splitAt (it : Iter) (index : Nat) : Res (Iter × Iter) := do
  let iterIns := it.iterStart + index
  let indexIns ← unravelO it.order it.layout.shape iterIns
  let offsetIns ← it.layout.indexUncheck indexIns
  return ({ it with indexEnd := indexIns, iterEnd := iterIns, offsetEnd := offsetIns },
    { it with indexStart := indexIns, iterStart := iterIns, offsetStart := offsetIns })

/-- `iterator.rs:122-197, 445-520`. -/
def nextIterIndex (it : Iter) : Iter :=
  let (i, off) := match it.order with
    | .C => nextC it.layout.axes it.indexStart it.offsetStart
    | .F => nextF it.layout.axes it.indexStart it.offsetStart
  { it with indexStart := i, offsetStart := off, iterStart := it.iterStart + 1 }

/-- `iterator.rs:200-281, 523-604`. -/
def backIterIndex (it : Iter) : Iter :=
  let (i, off) := match it.order with
    | .C => backC it.layout.axes it.indexEnd it.offsetEnd
    | .F => backF it.layout.axes it.indexEnd it.offsetEnd
  { it with indexEnd := i, offsetEnd := off, iterEnd := it.iterEnd - 1 }

/-- `iterator.rs:290-297, 613-620` `next`. -/
def next (it : Iter) : Res (Option Nat × Iter) :=
  if it.iterStart ≥ it.iterEnd then .ok (none, it)
  else do return (some (← toUsize it.offsetStart), it.nextIterIndex)

/-- `iterator.rs:304-311, 627-634` `next_back`. -/
def nextBack (it : Iter) : Res (Option Nat × Iter) :=
  if it.iterStart ≥ it.iterEnd then .ok (none, it)
  else do return (some (← toUsize it.backIterIndex.offsetEnd), it.backIterIndex)

/-- `iterator.rs:318-320, 641-643` `len`. -/
def len (it : Iter) : Nat := it.iterEnd - it.iterStart

/-- `iterator.rs:672-700` `IterLayout::new`. -/
def ofOrder (dflt : Order) (l : Layout) (order : IterOrder) : Res Iter :=
  match order with
  | .C => new .C l
  | .F => new .F l
  | .A => new dflt l
  | .K | .G => do new .F (← l.toColMajor dflt .K)
  | .B => .error .invalidValue

/-- Calling `next` until it returns `None` (`for_each`, `collect`); `fuel` bounds the number of calls. -/
def collect : Nat → Iter → Res (List Nat)
  | 0, _ => .ok []
  | fuel + 1, it => do
    match ← it.next with
    | (none, _) => return []
    | (some v, it) => return v :: (← collect fuel it)

/-- All items of the iterator: one more call than its length. -/
def toList (it : Iter) : Res (List Nat) := collect (it.len + 1) it

/-- `iterator.rs:790-797` `IndexedIterLayout::next`. -/
def nextIndexed (it : Iter) : Res (Option (List Nat × Nat) × Iter) := do
  let (r, it') ← it.next
  return (r.map fun off => (it.indexStart, off), it')

/-- `iterator.rs:803-810` `IndexedIterLayout::next_back`. -/
def nextBackIndexed (it : Iter) : Res (Option (List Nat × Nat) × Iter) := do
  let (r, it') ← it.nextBack
  return (r.map fun off => (it.indexStart, off), it')

end Iter

/-- Indices and positions returned by calling `next` on the indexed iterator until the end. -/
def collectIndexed : Nat → Iter → Res (List (List Nat × Nat))
  | 0, _ => .ok []
  | fuel + 1, it => do
    match ← it.nextIndexed with
    | (none, _) => return []
    | (some v, it) => return v :: (← collectIndexed fuel it)

end Rstsr
