import Verif.Model.Manip
import Verif.Model.Broadcast
import Verif.Model.Reshape
/-!
# Model of axis iteration and of histories of view operations
-/
namespace Rstsr

namespace Layout

/-- `rstsr-core/src/tensor/iterator_axes.rs:80-135` `axes_iter_with_order_f` (also 235-290, 398-463,
576-635): the layout of the iterated axes and of the inner view. `axes_check.len() - 1` underflows on an
empty list and `shape_full[idx as usize]` is a checked access, both are the panic error. -/
def axesIterSplit (l : Layout) (axes : List Int) : Res (Layout × Layout) :=
  let axes := axes.map fun (v : Int) => if v ≥ 0 then v else v + l.ndim
  if axes.head?.any (· < 0) then .error .invalidValue
  else if axes = [] then .error .panic
  else if adjacentDupInt (axes.insertionSort (· ≤ ·)) then .error .invalidValue
  else if axes.any fun v => v < 0 || (l.ndim : Int) ≤ v then .error .panic
  else
    .ok (⟨axes.map fun a => l.axes.getD a.toNat default, l.offset⟩,
      ⟨((List.range l.ndim).filter fun (i : Nat) => !axes.contains (Int.ofNat i)).map fun a => l.axes.getD a default, l.offset⟩)

end Layout

/-- The view-making operations of the tensor API; each constructor carries the arguments of one call.
`axisView` is one item of `axes_iter`: the inner view at the position of an index of the iterated axes
(`iterator_axes.rs:31-36`). `broadcastWith` is the first output of `broadcast_arrays` on two tensors. -/
inductive ViewOp where
  | transpose (axes : List Int)
  | reverseAxes
  | swapaxes (axis1 axis2 : Int)
  | moveaxis (source dest : Option (List Int))
  | slice (ix : List Indexer)
  | narrow (axis : Int) (s : SliceI)
  | select (axis index : Int)
  | insert (axis : Int)
  | eliminate (axis : Int)
  | flip (axes : Option (List Int))
  | expandDims (axes : Option (List Int))
  | squeeze (axes : Option (List Int))
  | broadcastTo (shape : List Nat) (o : Spec.Order)
  | broadcastWith (other : Layout) (o : Spec.Order)
  | diagonal (offset axis1 axis2 : Option Int)
  | axisView (axes : List Int) (idx : List Nat)
  | reshape (shape : List Nat) (o : Spec.Order)

/-- The layout each view operation produces (`rstsr-core/src/tensor/manipulation/*.rs`,
`rstsr-core/src/tensor/indexing.rs:144-214`: every operation keeps the storage and replaces the layout). -/
def ViewOp.apply (op : ViewOp) (l : Layout) : Res Layout :=
  match op with
  | .transpose axes => l.transpose axes
  | .reverseAxes => .ok l.reverseAxes
  | .swapaxes a b => l.swapaxes a b
  | .moveaxis s d => l.moveaxis s d
  | .slice ix => l.dimSlice ix
  | .narrow a s => l.dimNarrow a s
  | .select a i => l.dimSelect a i
  | .insert a => l.dimInsert a
  | .eliminate a => l.dimEliminate a
  | .flip axes => l.flip axes
  | .expandDims axes => l.expandDims axes
  | .squeeze axes => l.squeeze axes
  | .broadcastTo s o => l.broadcastTo s o
  | .broadcastWith m o => (·.1) <$> l.broadcast m o
  | .diagonal k a b => l.diagonal k a b
  | .axisView axes idx => do
    let (outer, inner) ← l.axesIterSplit axes
    if Spec.InRange idx outer.shape then .ok ⟨inner.axes, outer.addr idx⟩ else .error .indexError
  | .reshape s o => do
    match ← l.reshapeable s o with
    | some m => .ok m
    | none => .error .invalidValue

/-- A history of view operations, each applied to the result of the previous one. -/
def runViews (l : Layout) : List ViewOp → Res Layout
  | [] => .ok l
  | op :: rest => do runViews (← op.apply l) rest

end Rstsr
