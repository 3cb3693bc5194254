import Verif.Model.Args
import Verif.Model.Tensor
/-!
# Model: layouts with the integers of the machine

The functions of `rstsr-common/src/layout/{layoutbase,shape}.rs` once more, now with `usize` and `isize` of `w` bits.
The other models use unbounded integers; the theorems of C98 say when that makes no difference.
-/
namespace Rstsr
open Spec (Order)

/-- A build of the library: the number of bits of `usize`, and whether overflow is checked (the profile `dev`) or wraps
around (the profile `release`). -/
structure Machine where
  w : Nat
  checked : Bool

namespace Machine

/-- The result of an operation on `usize` whose exact value is `x`. -/
def usize (m : Machine) (x : Nat) : Res Nat :=
  if x < 2 ^ m.w then .ok x else if m.checked then .error .panic else .ok (x % 2 ^ m.w)

/-- The result of an operation on `isize` whose exact value is `x`. -/
def isize (m : Machine) (x : Int) : Res Int :=
  if -2 ^ (m.w - 1) ≤ x ∧ x < 2 ^ (m.w - 1) then .ok x else if m.checked then .error .panic else .ok (asIsize m.w x)

/-- Rust's `x as usize`. -/
def asUsize (m : Machine) (x : Int) : Nat := (x % 2 ^ m.w).toNat

/-- Rust's `iter().product()` on `usize`. -/
def product (m : Machine) (acc : Nat) : List Nat → Res Nat
  | [] => .ok acc
  | d :: ds => do m.product (← m.usize (acc * d)) ds

/-- `layoutbase.rs:67-69` `size()`. -/
def size (m : Machine) (l : Layout) : Res Nat := m.product 1 l.shape

/-- `shape.rs:187-193`: the running product of `stride_f_contig`; the last length is not multiplied. -/
def fStrides (m : Machine) (acc : Int) : List Nat → Res (List Int)
  | [] => .ok []
  | [_] => .ok [acc]
  | d :: ds => do
    let next ← m.isize (acc * asIsize m.w d)
    return acc :: (← m.fStrides next ds)

/-- `shape.rs:77-94, 187-204` `stride_c_contig` and `stride_f_contig`; for ranks fixed by the type the lengths enter as
`max 1`. -/
def strideContig (m : Machine) (fixed : Bool) (o : Order) (shape : List Nat) : Res (List Int) :=
  let shape := if fixed then shape.map (max 1) else shape
  match o with
  | .F => m.fStrides 1 shape
  | .C => do return (← m.fStrides 1 shape.reverse).reverse

/-- `layoutbase.rs:577-613` `new_contig`, with offset zero. -/
def newContig (m : Machine) (fixed : Bool) (o : Order) (shape : List Nat) : Res Layout := do
  return ⟨mkAxes shape (← m.strideContig fixed o shape), 0⟩

/-- `layoutbase.rs:158-165`, the loop of `ndim_of_f_contig`. -/
def contigLoop (m : Machine) (acc : Int) : List Axis → Res Nat
  | [] => .ok 0
  | a :: rest =>
    if a.dim ≠ 1 ∧ a.str ≠ acc then .ok 0
    else do return (← m.contigLoop (← m.isize (acc * asIsize m.w a.dim)) rest) + 1

/-- `layoutbase.rs:152-186` `ndim_of_f_contig` and `ndim_of_c_contig`. -/
def ndimOfContig (m : Machine) (o : Order) (l : Layout) : Res Nat :=
  if l.ndim = 0 then .ok l.ndim
  else do
    if (← m.size l) = 0 then return l.ndim
    else m.contigLoop 1 (match o with
      | .F => l.axes
      | .C => l.axes.reverse)

/-- `layoutbase.rs:193-204` `f_contig` and `c_contig`. -/
def contig (m : Machine) (o : Order) (l : Layout) : Res Bool := do return l.ndim == (← m.ndimOfContig o l)

/-- `layoutbase.rs:216`: negative indices count from the end. -/
def foldIndex (m : Machine) (i : Int) (d : Nat) : Res Int := if i < 0 then m.isize (i + asIsize m.w d) else .ok i

/-- `layoutbase.rs:215-219`, the loop of `index_f`. -/
def indexLoop (m : Machine) (pos : Int) : List Int → List Axis → Res Int
  | i :: is, a :: rest => do
    let i ← m.foldIndex i a.dim
    if 0 ≤ i ∧ i < asIsize m.w a.dim then m.indexLoop (← m.isize (pos + (← m.isize (a.str * i)))) is rest
    else .error .indexError
  | _, _ => .ok pos

/-- `layoutbase.rs:209-222` `index_f`. -/
def indexF (m : Machine) (l : Layout) (index : List Int) : Res Nat :=
  if index.length ≠ l.ndim then .error .invalidLayout
  else do
    let pos ← m.indexLoop (asIsize m.w l.offset) index l.axes
    if 0 ≤ pos then .ok (m.asUsize pos) else .error .valueOutOfRange

/-- `layoutbase.rs:519-544` `index_uncheck` for an index of the right length: in all cases a sum from left to right. -/
def posLoop (m : Machine) (pos : Int) : List Axis → List Nat → Res Int
  | a :: as, i :: is => do m.posLoop (← m.isize (pos + (← m.isize (a.str * asIsize m.w i)))) as is
  | _, _ => .ok pos

/-- `layoutbase.rs:519-544` `index_uncheck`. -/
def indexUncheck (m : Machine) (l : Layout) (index : List Nat) : Res Int :=
  m.posLoop (asIsize m.w l.offset) l.axes index

/-- `layoutbase.rs:250-259`, the loop of `bounds_index`; `none` is the early return on a zero length. -/
def boundsLoop (m : Machine) (mn mx : Int) : List Axis → Res (Option (Int × Int))
  | [] => .ok (some (mn, mx))
  | a :: rest =>
    if a.dim = 0 then .ok none
    else do
      let t ← m.isize (a.str * (← m.isize (asIsize m.w a.dim - 1)))
      if a.str > 0 then m.boundsLoop mn (← m.isize (mx + t)) rest else m.boundsLoop (← m.isize (mn + t)) mx rest

/-- `layoutbase.rs:237-262` `bounds_index`. -/
def boundsIndex (m : Machine) (l : Layout) : Res (Nat × Nat) :=
  if l.ndim = 0 then do return (l.offset.toNat, ← m.usize (l.offset.toNat + 1))
  else do
    match ← m.boundsLoop (asIsize m.w l.offset) (asIsize m.w l.offset) l.axes with
    | none => return (l.offset.toNat, l.offset.toNat)
    | some (mn, mx) =>
      if 0 ≤ mn then return (m.asUsize mn, ← m.usize (m.asUsize mx + 1)) else .error .valueOutOfRange

/-- `layoutbase.rs:303-318`, the loop of `check_strides` over the sorted axes. -/
def strideLoop (m : Machine) (skipZero : Bool) (cum : Nat) : List Axis → Res Unit
  | [] => .ok ()
  | a :: rest =>
    if a.str.natAbs = 0 ∧ skipZero then m.strideLoop skipZero cum rest
    else if cum < a.str.natAbs then do
      m.strideLoop skipZero (← m.usize (cum + (← m.usize ((a.dim - 1) * a.str.natAbs)))) rest
    else .error .invalidLayout

/-- `layoutbase.rs:297-298`: the axes longer than 1, sorted by `stride.abs()`, which overflows for the least number.
The sort computes no key when there are fewer than two axes. -/
def sortedAxes (m : Machine) (axes : List Axis) : Res (List Axis) := do
  let long := axes.filter fun a => 1 < a.dim
  if long.length < 2 then return long
  let keyed ← long.mapM fun a => do return (← m.isize a.str.natAbs, a)
  return (keyed.insertionSort fun a b => a.1 ≤ b.1).map (·.2)

/-- `layoutbase.rs:285-320` `check_strides`. -/
def checkStrides (m : Machine) (l : Layout) (skipZero : Bool) : Res Unit := do
  if (← m.size l) = 0 ∨ l.ndim = 0 then return ()
  m.strideLoop skipZero 0 (← m.sortedAxes l.axes)

/-- `rstsr-core/src/tensorbase.rs:120-129` `new_f`. -/
def newF {α : Type} (m : Machine) (data : List α) (l : Layout) : Res (Tensor α) := do
  m.checkStrides l true
  let (_, mx) ← m.boundsIndex l
  if mx ≤ data.length then .ok ⟨data, l⟩ else .error .valueOutOfRange

/-- `rstsr-core/src/tensor/creation.rs:1235-1270` `zeros_f` (and `ones_f`, `empty_f`, `uninit_f`): the layout of the new
tensor and the number of cells that it asks the allocator for. -/
def create (m : Machine) (fixed : Bool) (o : Order) (shape : List Nat) : Res (Layout × Nat) := do
  let l ← m.newContig fixed o shape
  let (_, idxMax) ← m.boundsIndex l
  return (l, idxMax)

end Machine
end Rstsr
