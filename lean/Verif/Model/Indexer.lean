import Verif.Model.Layout
/-!
# Model of `rstsr-common/src/layout/indexer.rs`

Fixed and dynamic rank share the code below; the final `into_dim` conversions only change the Rust
type of the layout and are dropped.
-/
namespace Rstsr

/-- `rstsr-common/src/layout/slice.rs:5-12` `Slice { start, stop, step }`. -/
structure SliceI where
  start : Option Int
  stop : Option Int
  step : Option Int
  deriving DecidableEq, Repr

/-- `indexer.rs:5-16` `enum Indexer` (the `Select`, `Slice`, `Insert`, `Ellipsis` cases). -/
inductive Indexer where
  | slice (s : SliceI)
  | select (i : Int)
  | insert
  | ellipsis
  deriving DecidableEq, Repr

/-- `indexer.rs:145-165`: the resolved `(start, stop)` for a positive step on a non-empty axis. -/
def resolvePos (len : Int) (s : SliceI) : Int × Int :=
  let start := s.start.getD 0
  let stop := s.stop.getD len
  let start := if start < 0 then max (len + start) 0 else start
  let stop := if stop < 0 then max (len + stop) 0 else stop
  if start > len ∨ start > stop then (0, 0)
  else if stop > len then (start, len)
  else (start, stop)

/-- `indexer.rs:171-192`: the resolved `(start, stop)` for a negative step on a non-empty axis. -/
def resolveNeg (len : Int) (s : SliceI) : Int × Int :=
  let start := s.start.getD (len - 1)
  let stop := s.stop.getD (-1)
  let start := if start < 0 then max (len + start) 0 else start
  let stop := if stop < -1 then max (len + stop) (-1) else stop
  if stop > len - 1 ∨ stop > start then (0, 0)
  else if start > len - 1 then (len - 1, stop)
  else (start, stop)

namespace Layout

/-- `indexer.rs:120-199` `dim_narrow`. Rust's `/` is truncating division. -/
def dimNarrow (l : Layout) (axis : Int) (s : SliceI) : Res Layout := do
  let a ← checkAxis axis l.ndim
  if s = ⟨none, none, none⟩ then .ok l
  else
    let x := l.axes.getD a default
    let step := s.step.getD 1
    if step = 0 then .error .invalidValue
    else if x.dim = 0 then .ok l
    else if step > 0 then
      let (start, stop) := resolvePos x.dim s
      newAxes (l.axes.set a ⟨(max (Int.tdiv (stop - start + step - 1) step) 0).toNat, x.str * step⟩)
        (l.offset + x.str * start)
    else
      let (start, stop) := resolveNeg x.dim s
      newAxes (l.axes.set a ⟨(max (Int.tdiv (stop - start + step + 1) step) 0).toNat, x.str * step⟩)
        (l.offset + x.str * start)

/-- `indexer.rs:226-254` `dim_select`. -/
def dimSelect (l : Layout) (axis index : Int) : Res Layout := do
  let a ← checkAxis axis l.ndim
  let x := l.axes.getD a default
  let idx := if index < 0 then (x.dim : Int) + index else index
  if 0 ≤ idx ∧ idx < x.dim then newAxes (l.axes.eraseIdx a) (l.offset + x.str * idx)
  else .error .indexError

/-- `indexer.rs:256-274` `dim_eliminate`. -/
def dimEliminate (l : Layout) (axis : Int) : Res Layout := do
  let a ← checkAxis axis l.ndim
  if (l.axes.getD a default).dim ≠ 1 then .error .invalidValue
  else newAxes (l.axes.eraseIdx a) l.offset

/-- `indexer.rs:276-290` `dim_chop`. -/
def dimChop (l : Layout) (axis : Int) : Res Layout := do
  let a ← checkAxis axis l.ndim
  newAxes (l.axes.eraseIdx a) l.offset

/-- `indexer.rs:308-336` `dim_insert`. -/
def dimInsert (l : Layout) (axis : Int) : Res Layout := do
  let a ← checkAxisInsert axis l.ndim
  let s : Int :=
    if l.fPrefer then
      if a = 0 then 1 else (l.axes.getD (a - 1) default).str
    else if a = l.ndim then 1
    else (l.axes.getD a default).str
  newAxes (l.axes.insertIdx a ⟨1, s⟩) l.offset

/-- `indexer.rs:368-381`, the counting loop: number of slices plus selects, and the position of the
ellipsis; a second ellipsis is an error. -/
def countIndexers (n : Nat) (cnt : Nat) (ell : Option Nat) : List Indexer → Res (Nat × Option Nat)
  | [] => .ok (cnt, ell)
  | .slice _ :: rest => countIndexers (n + 1) (cnt + 1) ell rest
  | .select _ :: rest => countIndexers (n + 1) (cnt + 1) ell rest
  | .ellipsis :: rest =>
    match ell with
    | some _ => .error .invalidValue
    | none => countIndexers (n + 1) cnt (some n) rest
  | .insert :: rest => countIndexers (n + 1) cnt ell rest

/-- The full slice `:` used as filling (`indexer.rs:391-402`). -/
def fullSlice : Indexer := .slice ⟨none, none, none⟩

/-- `indexer.rs:387-403`: replacing the ellipsis (or the missing tail) by full slices. -/
def fillIndexers (ix : List Indexer) (nEll : Nat) (ell : Option Nat) : List Indexer :=
  if nEll = 0 then
    match ell with
    | some k => ix.eraseIdx k
    | none => ix
  else
    match ell with
    | some k => ix.take k ++ List.replicate (nEll - 1) fullSlice ++ fullSlice :: ix.drop (k + 1)
    | none => ix ++ List.replicate nEll fullSlice

/-- `indexer.rs:407-423`, the loop over the reversed indexers with the moving axis counter. -/
def sliceLoop (l : Layout) (cur : Int) : List Indexer → Res (Layout × Int)
  | [] => .ok (l, cur)
  | .slice s :: rest => do
    let l ← l.dimNarrow (cur - 1) s
    sliceLoop l (cur - 1) rest
  | .select i :: rest => do
    let l ← l.dimSelect (cur - 1) i
    sliceLoop l (cur - 1) rest
  | .insert :: rest => do
    let l ← l.dimInsert cur
    sliceLoop l cur rest
  | .ellipsis :: _ => .error .invalidValue

/-- `indexer.rs:358-429` `dim_slice`. -/
def dimSlice (l : Layout) (ix : List Indexer) : Res Layout := do
  let l ← newAxes l.axes l.offset
  let (cnt, ell) ← countIndexers 0 0 none ix
  if cnt ≤ l.ndim then
    let ix := fillIndexers ix (l.ndim - cnt) ell
    let (m, cur) ← sliceLoop l l.ndim ix.reverse
    if cur = 0 then .ok m else .error .miscellaneous
  else .error .valueOutOfRange

/-- `indexer.rs:431-451` `dim_split_at`. -/
def dimSplitAt (l : Layout) (axis : Int) : Res (Layout × Layout) :=
  let norm := if axis < 0 then (l.ndim : Int) + axis else axis
  if norm ≥ 0 ∧ norm ≤ l.ndim then
    .ok (⟨l.axes.take norm.toNat, l.offset⟩, ⟨l.axes.drop norm.toNat, l.offset⟩)
  else .error .axisError

/-- `indexer.rs:453-477` `dim_split_axes`. -/
def dimSplitAxes (l : Layout) (axes : List Int) : Res (Layout × Layout) := do
  let sel ← normalizeAxes (some axes) l.ndim false false
  let rest := (List.range l.ndim).filter fun a => !sel.contains a
  let la ← newAxes (sel.map fun a => l.axes.getD a default) l.offset
  let lr ← newAxes (rest.map fun a => l.axes.getD a default) l.offset
  return (la, lr)

end Layout
end Rstsr
