import Verif.Model.Iter
import Verif.Model.Tensor
import Verif.Model.Indexer
/-!
# Model of `rstsr-core/src/tensor/iterator_axes.rs`: iterating over some axes of a tensor

The four iterators (shared or mutable views, with or without the index) have the same fields; the item is a view of
the same storage. That the shared iterators give out views with a lifetime of the caller's choice (`transmute`, lines
132, 137) is a matter of the type system and is not modelled.
-/
namespace Rstsr
open Spec (Order)

variable {α : Type}

/-- `iterator_axes.rs:5-11, 161-167, 317-323, 494-500`: the iterator over the positions of the selected axes, and the
view whose offset is replaced for each item. -/
structure AxesIter (α : Type) where
  iter : Iter
  view : Tensor α

/-- `iterator_axes.rs:85-93`: negative axes count from the end. -/
def axesFromEnd (ndim : Nat) (axes : List Int) : List Int := axes.map fun v => if v ≥ 0 then v else v + ndim

/-- `iterator_axes.rs:94-102`: the checks on the axes. `axes_check.len() - 1` of an empty list underflows (and with
overflow checks off the loop then reads outside the list). -/
def axesChecked (axes : List Int) : Res Unit :=
  if (axes.head?.any (· < 0)) then .error .invalidValue
  else if axes = [] then .error .panic
  else if axes.Nodup then .ok () else .error .invalidValue

/-- `iterator_axes.rs:111-117`: `shape_full[idx as usize]`; a negative axis is cast to a huge number. -/
def axisAtOrPanic (l : Layout) (a : Int) : Res Axis :=
  if a < 0 then .error .panic
  else match l.axes[a.toNat]? with
    | some x => .ok x
    | none => .error .panic

/-- `iterator_axes.rs:80-139, 233-291` `axes_iter_with_order_f`, `axes_iter_mut_with_order_f`. -/
def Tensor.axesIter (dflt : Order) (t : Tensor α) (axes : List Int) (order : IterOrder) : Res (AxesIter α) := do
  let axes := axesFromEnd t.layout.ndim axes
  axesChecked axes
  let selected ← axes.mapM (axisAtOrPanic t.layout)
  let inner := (List.range t.layout.ndim).filter fun (k : Nat) => !axes.contains (k : Int)
  let innerAxes := inner.filterMap fun k => t.layout.axes[k]?
  let iter ← Iter.ofOrder dflt ⟨selected, t.layout.offset⟩ order
  return ⟨iter, ⟨t.data, ⟨innerAxes, t.layout.offset⟩⟩⟩

/-- `iterator_axes.rs:397-464` `indexed_axes_iter_with_order_f`: only row- and column-major order. -/
def Tensor.indexedAxesIter (dflt : Order) (t : Tensor α) (axes : List Int) (order : IterOrder) : Res (AxesIter α) :=
  match order with
  | .C => t.axesIter dflt axes .C
  | .F => t.axesIter dflt axes .F
  | _ => .error .invalidValue

/-- `iterator_axes.rs:575-637` `indexed_axes_iter_mut_with_order_f`: no check of the order. -/
def Tensor.indexedAxesIterMut (dflt : Order) (t : Tensor α) (axes : List Int) (order : IterOrder) : Res (AxesIter α) :=
  t.axesIter dflt axes order

namespace AxesIter

/-- `iterator_axes.rs:13-20` `update_offset`, then `view()`: the view at a position. -/
def at_ (it : AxesIter α) (off : Nat) : Tensor α := ⟨it.view.data, ⟨it.view.layout.axes, off⟩⟩

/-- `iterator_axes.rs:28-33` (and `184-189`) `next`. -/
def next (it : AxesIter α) : Res (Option (Tensor α) × AxesIter α) := do
  let (r, i) ← it.iter.next
  return (r.map it.at_, { it with iter := i })

/-- `iterator_axes.rs:40-45` (and `198-203`) `next_back`. -/
def nextBack (it : AxesIter α) : Res (Option (Tensor α) × AxesIter α) := do
  let (r, i) ← it.iter.nextBack
  return (r.map it.at_, { it with iter := i })

/-- `iterator_axes.rs:52-54` `len`. -/
def len (it : AxesIter α) : Nat := it.iter.len

/-- `iterator_axes.rs:64-70` (and `219-225`) `split_at`. -/
def splitAt (it : AxesIter α) (k : Nat) : Res (AxesIter α × AxesIter α) := do
  let (a, b) ← it.iter.splitAt k
  return ({ it with iter := a }, { it with iter := b })

/-- `iterator_axes.rs:339-348, 516-525` `next` of the indexed iterators. -/
def nextIndexed (it : AxesIter α) : Res (Option (List Nat × Tensor α) × AxesIter α) := do
  let (r, i) ← it.iter.nextIndexed
  return (r.map fun p => (p.1, it.at_ p.2), { it with iter := i })

/-- `iterator_axes.rs:355-364, 532-541` `next_back` of the indexed iterators: the index is the front one. -/
def nextBackIndexed (it : AxesIter α) : Res (Option (List Nat × Tensor α) × AxesIter α) := do
  let (r, i) ← it.iter.nextBackIndexed
  return (r.map fun p => (p.1, it.at_ p.2), { it with iter := i })

/-- Calling `next` until it returns `None`. -/
def collect : Nat → AxesIter α → Res (List (Tensor α))
  | 0, _ => .ok []
  | fuel + 1, it => do
    match ← it.next with
    | (none, _) => return []
    | (some v, it) => return v :: (← collect fuel it)

/-- All items. -/
def toList (it : AxesIter α) : Res (List (Tensor α)) := collect (it.len + 1) it

/-- All items of the indexed iterator, called from the front. -/
def collectIndexed : Nat → AxesIter α → Res (List (List Nat × Tensor α))
  | 0, _ => .ok []
  | fuel + 1, it => do
    match ← it.nextIndexed with
    | (none, _) => return []
    | (some v, it) => return v :: (← collectIndexed fuel it)

/-- A sequence of calls, `true` for `next` and `false` for `next_back`: what the front and back calls returned. -/
def runCalls : List Bool → AxesIter α → Res (List (Tensor α) × List (Tensor α) × AxesIter α)
  | [], it => .ok ([], [], it)
  | true :: cs, it => do
    let (r, it) ← it.next
    let (fs, bs, it) ← runCalls cs it
    return (r.toList ++ fs, bs, it)
  | false :: cs, it => do
    let (r, it) ← it.nextBack
    let (fs, bs, it) ← runCalls cs it
    return (fs, r.toList ++ bs, it)

end AxesIter
end Rstsr
