import Mathlib.Data.List.Sort
import Verif.Model.Basic
/-!
# Model of `rstsr-common/src/layout/layoutbase.rs`, `shape.rs`, axis checks
-/
namespace Rstsr

/-- `rstsr-common/src/error.rs:351-365` `rstsr_check_axis!`. -/
def checkAxis (axis : Int) (ndim : Nat) : Res Nat :=
  let norm := if axis < 0 then (ndim : Int) + axis else axis
  if norm ≥ 0 ∧ norm.toNat < ndim then .ok norm.toNat else .error .axisError

/-- `rstsr-common/src/error.rs:372-388` `rstsr_check_axis_insert!`. -/
def checkAxisInsert (axis : Int) (ndim : Nat) : Res Nat :=
  let norm := if axis < 0 then (ndim : Int) + axis + 1 else axis
  if norm ≥ 0 ∧ norm.toNat ≤ ndim then .ok norm.toNat else .error .axisError

/-- `rstsr-common/src/axis_index.rs:407` `windows(2).any(|w| w[0] == w[1])`. -/
def hasAdjacentDup : List Nat → Bool
  | a :: b :: rest => a == b || hasAdjacentDup (b :: rest)
  | _ => false

/-- `rstsr-common/src/axis_index.rs:392-402`, the loop that normalises every entry. -/
def checkAxes (axes : List Int) (ndim : Nat) : Res (List Nat) :=
  axes.mapM fun a => checkAxis a ndim

/-- `rstsr-common/src/axis_index.rs:379-412` `normalize_axes_index`. `axes = none` models
`AxesIndex::None`; `AxesIndex::Val` is a one-element list. Rust's stable sort is Mathlib's (stable)
insertion sort. -/
def normalizeAxes (axes : Option (List Int)) (ndim : Nat) (allowDup sort : Bool) :
    Res (List Nat) := do
  match axes with
  | none => .error .invalidValue
  | some axes =>
    let v ← checkAxes axes ndim
    let v := if sort then v.insertionSort (· ≤ ·) else v
    if !allowDup && hasAdjacentDup (v.insertionSort (· ≤ ·)) then .error .invalidValue
    else .ok v

/-! ## Shapes -/

/-- `rstsr-common/src/layout/shape.rs:187-193` (`IxD`) `stride_f_contig`: stride of each axis, given
the stride `acc` of the first one. -/
def fStrides (acc : Int) : List Nat → List Int
  | [] => []
  | d :: ds => acc :: fStrides (acc * d) ds

/-- `shape.rs:187-193` `stride_f_contig` for dynamic ranks. -/
def strideFContig (shape : List Nat) : List Int := fStrides 1 shape

/-- `shape.rs:195-204` `stride_c_contig` for dynamic ranks: the same running product from the last
axis to the first. -/
def strideCContig (shape : List Nat) : List Int := (fStrides 1 shape.reverse).reverse

/-- `shape.rs:77-83` (`Ix<N>`) `stride_f_contig`: lengths enter as `max 1`. -/
def strideFContigFixed (shape : List Nat) : List Int := fStrides 1 (shape.map (max 1))

/-- `shape.rs:85-94` (`Ix<N>`) `stride_c_contig`: lengths enter as `max 1`. -/
def strideCContigFixed (shape : List Nat) : List Int :=
  (fStrides 1 (shape.map (max 1)).reverse).reverse

/-- Pairs shape and stride lists of the same length into axes. -/
def mkAxes (shape : List Nat) (stride : List Int) : List Axis :=
  List.zipWith Axis.mk shape stride

namespace Layout

/-- `layoutbase.rs:577-581` `new_c_contig` (dynamic rank). -/
def newCContig (shape : List Nat) (offset : Int) : Layout :=
  ⟨mkAxes shape (strideCContig shape), offset⟩

/-- `layoutbase.rs:585-589` `new_f_contig` (dynamic rank). -/
def newFContig (shape : List Nat) (offset : Int) : Layout :=
  ⟨mkAxes shape (strideFContig shape), offset⟩

/-- `layoutbase.rs:577-581` `new_c_contig` for `Ix<N>`. -/
def newCContigFixed (shape : List Nat) (offset : Int) : Layout :=
  ⟨mkAxes shape (strideCContigFixed shape), offset⟩

/-- `layoutbase.rs:585-589` `new_f_contig` for `Ix<N>`. -/
def newFContigFixed (shape : List Nat) (offset : Int) : Layout :=
  ⟨mkAxes shape (strideFContigFixed shape), offset⟩

/-- `layoutbase.rs:97-115`, the loop of `f_prefer` (and of `c_prefer`, 127-145, on reversed axes). -/
def preferLoop (last : Int) : List Axis → Bool
  | [] => true
  | a :: rest =>
    if a.dim ≠ 1 then
      if a.str < last then false
      else if last = 0 ∧ a.str ≠ 1 then false
      else preferLoop a.str rest
    else if last = 0 then preferLoop 1 rest
    else preferLoop last rest

/-- `layoutbase.rs:89-116` `f_prefer`. -/
def fPrefer (l : Layout) : Bool :=
  if l.ndim = 0 ∨ l.size = 0 then true else preferLoop 0 l.axes

/-- `layoutbase.rs:119-146` `c_prefer`. -/
def cPrefer (l : Layout) : Bool :=
  if l.ndim = 0 ∨ l.size = 0 then true else preferLoop 0 l.axes.reverse

/-- `layoutbase.rs:158-165`, the loop of `ndim_of_f_contig`: number of leading axes accepted. -/
def contigLoop (acc : Int) : List Axis → Nat
  | [] => 0
  | a :: rest => if a.dim ≠ 1 ∧ a.str ≠ acc then 0 else contigLoop (acc * a.dim) rest + 1

/-- `layoutbase.rs:152-166` `ndim_of_f_contig`. -/
def ndimOfFContig (l : Layout) : Nat :=
  if l.ndim = 0 ∨ l.size = 0 then l.ndim else contigLoop 1 l.axes

/-- `layoutbase.rs:172-186` `ndim_of_c_contig`. -/
def ndimOfCContig (l : Layout) : Nat :=
  if l.ndim = 0 ∨ l.size = 0 then l.ndim else contigLoop 1 l.axes.reverse

/-- `layoutbase.rs:193-195` `f_contig`. -/
def fContig (l : Layout) : Bool := l.ndim == l.ndimOfFContig

/-- `layoutbase.rs:202-204` `c_contig`. -/
def cContig (l : Layout) : Bool := l.ndim == l.ndimOfCContig

/-- `layoutbase.rs:215-219`, the loop of `index_f`. -/
def indexLoop (pos : Int) : List Int → List Axis → Res Int
  | i :: is, a :: rest =>
    let i := if i < 0 then i + a.dim else i
    if 0 ≤ i ∧ i < a.dim then indexLoop (pos + a.str * i) is rest else .error .indexError
  | _, _ => .ok pos

/-- `layoutbase.rs:209-222` `index_f`. -/
def indexF (l : Layout) (index : List Int) : Res Nat :=
  if index.length ≠ l.ndim then .error .invalidLayout
  else do
    let pos ← indexLoop l.offset index l.axes
    if 0 ≤ pos then .ok pos.toNat else .error .valueOutOfRange

/-- `layoutbase.rs:519-544` `index_uncheck`, with its unrolled cases for ndim 0 to 4. Reading
`index[k]` past the end is the panic error. -/
def indexUncheck (l : Layout) (index : List Nat) : Res Int :=
  match l.axes, index with
  | [], _ => .ok l.offset
  | [a], i :: _ => .ok (l.offset + a.str * i)
  | [a, b], i :: j :: _ => .ok (l.offset + a.str * i + b.str * j)
  | [a, b, c], i :: j :: k :: _ => .ok (l.offset + a.str * i + b.str * j + c.str * k)
  | [a, b, c, d], i :: j :: k :: m :: _ =>
    .ok (l.offset + a.str * i + b.str * j + c.str * k + d.str * m)
  | [_], _ => .error .panic
  | [_, _], _ => .error .panic
  | [_, _, _], _ => .error .panic
  | [_, _, _, _], _ => .error .panic
  | axes, index => .ok ((axes.zip index).foldl (fun pos p => pos + p.1.str * p.2) l.offset)

/-- `layoutbase.rs:250-259`, the loop of `bounds_index`; `none` is the early return on a zero
length. -/
def boundsLoop (mn mx : Int) : List Axis → Option (Int × Int)
  | [] => some (mn, mx)
  | a :: rest =>
    if a.dim = 0 then none
    else if a.str > 0 then boundsLoop mn (mx + a.str * ((a.dim : Int) - 1)) rest
    else boundsLoop (mn + a.str * ((a.dim : Int) - 1)) mx rest

/-- `layoutbase.rs:237-262` `bounds_index`. -/
def boundsIndex (l : Layout) : Res (Int × Int) :=
  if l.ndim = 0 then .ok (l.offset, l.offset + 1)
  else
    match boundsLoop l.offset l.offset l.axes with
    | none => .ok (l.offset, l.offset)
    | some (mn, mx) => if 0 ≤ mn then .ok (mn, mx + 1) else .error .valueOutOfRange

/-- `layoutbase.rs:303-318`, the loop of `check_strides` over the sorted axes. -/
def strideLoop (skipZero : Bool) (cum : Nat) : List Axis → Res Unit
  | [] => .ok ()
  | a :: rest =>
    if a.str.natAbs = 0 ∧ skipZero then strideLoop skipZero cum rest
    else if cum < a.str.natAbs then strideLoop skipZero (cum + (a.dim - 1) * a.str.natAbs) rest
    else .error .invalidLayout

/-- `layoutbase.rs:297-300`: axes longer than 1, stably sorted by absolute stride. -/
def sortedAxes (axes : List Axis) : List Axis :=
  (axes.filter fun a => 1 < a.dim).insertionSort fun a b => a.str.natAbs ≤ b.str.natAbs

/-- `layoutbase.rs:285-320` `check_strides` (the length comparison of line 288 is in `Layout.new`). -/
def checkStrides (l : Layout) (skipZero : Bool) : Res Unit :=
  if l.size = 0 ∨ l.ndim = 0 then .ok () else strideLoop skipZero 0 (sortedAxes l.axes)

/-- `layoutbase.rs:396-404` `Layout::new`, on already paired axes. -/
def newAxes (axes : List Axis) (offset : Int) : Res Layout := do
  let l : Layout := ⟨axes, offset⟩
  let _ ← l.boundsIndex
  l.checkStrides true
  return l

/-- `layoutbase.rs:396-404` `Layout::new`. With fewer strides than axes the loop of `bounds_index`
(line 254) reads past the end unless a zero length is met first; every other length mismatch is
rejected by `check_strides` (line 288). -/
def new (shape : List Nat) (stride : List Int) (offset : Int) : Res Layout :=
  if shape.length = stride.length then newAxes (mkAxes shape stride) offset
  else if stride.length < shape.length ∧ (shape.take (stride.length + 1)).all (· ≠ 0) then
    .error .panic
  else if stride.length < shape.length then .error .invalidLayout
  else
    match (⟨mkAxes shape stride, offset⟩ : Layout).boundsIndex with
    | .error e => .error e
    | .ok _ => .error .invalidLayout

/-- `layoutbase.rs:443-466` `transpose`. -/
def transpose (l : Layout) (axes : List Int) : Res Layout := do
  if axes.length ≠ l.ndim then .error .invalidLayout
  else
    let p ← normalizeAxes (some axes) l.ndim false false
    return ⟨p.map fun a => l.axes.getD a default, l.offset⟩

/-- `layoutbase.rs:476-486` `reverse_axes`. -/
def reverseAxes (l : Layout) : Layout := ⟨l.axes.reverse, l.offset⟩

/-- `layoutbase.rs:489-498` `swapaxes`. -/
def swapaxes (l : Layout) (axis1 axis2 : Int) : Res Layout := do
  let a1 ← checkAxis axis1 l.ndim
  let a2 ← checkAxis axis2 l.ndim
  let x1 := l.axes.getD a1 default
  let x2 := l.axes.getD a2 default
  return ⟨(l.axes.set a1 x2).set a2 x1, l.offset⟩

/-- `layoutbase.rs:322-379` `diagonal`. A negative length cast to `usize` (line 359, when the offset
exceeds `d2`) gives an enormous axis whose bounds computation overflows; it is the panic error
here. -/
def diagonal (l : Layout) (offset axis1 axis2 : Option Int) : Res Layout := do
  if l.ndim < 2 then .error .invalidLayout
  else
    let k := offset.getD 0
    let a1 ← checkAxis (axis1.getD 0) l.ndim
    let a2 ← checkAxis (axis2.getD 1) l.ndim
    let x1 := l.axes.getD a1 default
    let x2 := l.axes.getD a2 default
    let d1 : Int := x1.dim
    let d2 : Int := x2.dim
    let (off, dd) :=
      if -d1 + 1 ≤ k ∧ k < 0 then (l.offset + x1.str * (-k), min (d1 - (-k)) d2)
      else if 0 ≤ k ∧ k < d1 then (l.offset + x2.str * k, min (d2 - k) d1)
      else (l.offset, 0)
    let rest := (l.axes.zipIdx.filter fun p => p.2 ≠ a1 ∧ p.2 ≠ a2).map (·.1)
    if dd < 0 then .error .panic
    else newAxes (rest ++ [⟨dd.toNat, x1.str + x2.str⟩]) off

/-- `layoutbase.rs:560-569`, the loop of `PartialEq`. -/
def eqLoop : List Axis → List Axis → Bool
  | a :: as, b :: bs =>
    if a.dim ≠ b.dim then false
    else if a.dim ≠ 1 ∧ a.dim ≠ 0 ∧ a.str ≠ b.str then false
    else eqLoop as bs
  | _, _ => true

/-- `layoutbase.rs:553-571` `PartialEq::eq`. -/
def beqLayout (l m : Layout) : Bool :=
  if l.ndim ≠ m.ndim then false
  else if l.offset ≠ m.offset then false
  else eqLoop l.axes m.axes

/-- `rstsr-common/src/layout/broadcast.rs:255-266` `size_non_broadcast`. -/
def sizeNonBroadcast (l : Layout) : Nat :=
  if l.size = 0 then 0 else ((l.axes.filter fun a => a.str ≠ 0).map (·.dim)).prod

/-- `rstsr-common/src/layout/broadcast.rs:271-273` `is_broadcasted`. -/
def isBroadcasted (l : Layout) : Bool := l.stride.contains 0

end Layout

/-! ## Unravelling a linear position (`shape.rs`) -/

/-- `shape.rs:218-223`: all axes but the last take a remainder, the last takes what is left.
Division by a zero length is the panic error. -/
def unravelLoop : List Nat → Nat → Res (List Nat)
  | [], _ => .ok []
  | [_], k => .ok [k]
  | d :: ds, k =>
    if d = 0 then .error .panic
    else do
      let r ← unravelLoop ds (k / d)
      return (k % d) :: r

/-- `shape.rs:214-226` `unravel_index_f` (`IxD`). -/
def unravelF (shape : List Nat) (k : Nat) : Res (List Nat) := unravelLoop shape k

/-- `shape.rs:229-241` `unravel_index_c` (`IxD`). -/
def unravelC (shape : List Nat) (k : Nat) : Res (List Nat) :=
  return (← unravelLoop shape.reverse k).reverse

/-- `x / d` on `usize`, with the panic on zero. -/
def divP (x d : Nat) : Res Nat := if d = 0 then .error .panic else .ok (x / d)

/-- `x % d` on `usize`, with the panic on zero. -/
def modP (x d : Nat) : Res Nat := if d = 0 then .error .panic else .ok (x % d)

/-- `shape.rs:104-140` `unravel_index_f` for `Ix<N>`, with unrolled cases. -/
def unravelFFixed (shape : List Nat) (k : Nat) : Res (List Nat) :=
  match shape with
  | [] => .ok []
  | [_] => .ok [k]
  | [a, _] => do return [← modP k a, ← divP k a]
  | [a, b, _] => do
    let r2 ← divP k (a * b)
    let k ← modP k (a * b)
    return [← modP k a, ← divP k a, r2]
  | [a, b, c, _] => do
    let r3 ← divP k (a * b * c)
    let k ← modP k (a * b * c)
    let r2 ← divP k (a * b)
    let k ← modP k (a * b)
    return [← modP k a, ← divP k a, r2, r3]
  | shape => unravelLoop shape k

/-- `shape.rs:143-179` `unravel_index_c` for `Ix<N>`, with unrolled cases. -/
def unravelCFixed (shape : List Nat) (k : Nat) : Res (List Nat) :=
  match shape with
  | [] => .ok []
  | [_] => .ok [k]
  | [_, b] => do return [← divP k b, ← modP k b]
  | [_, b, c] => do
    let r0 ← divP k (b * c)
    let k ← modP k (b * c)
    return [r0, ← divP k c, ← modP k c]
  | [_, b, c, d] => do
    let r0 ← divP k (b * c * d)
    let k ← modP k (b * c * d)
    let r1 ← divP k (c * d)
    let k ← modP k (c * d)
    return [r0, r1, ← divP k d, ← modP k d]
  | shape => return (← unravelLoop shape.reverse k).reverse

end Rstsr
