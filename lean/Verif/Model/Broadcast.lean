import Verif.Spec.Order
import Verif.Model.Layout
import Verif.Model.Tensor
/-!
# Model of `rstsr-common/src/layout/broadcast.rs` and `rstsr-core/src/tensor/manipulation/broadcast.rs`
-/
namespace Rstsr
open Spec (Order)

/-- `broadcast.rs:8-14` `BroadcastType` (`Undefined` never survives the loop). -/
inductive BType where
  | upcast
  | expand
  | preserve
  deriving DecidableEq, Repr

/-- `broadcast.rs:52-75`, the `match` of one iteration: result length and the two types. -/
def bcDim (d1 d2 : Nat) : Res (Nat × BType × BType) :=
  match d1 == 1, d2 == 1 with
  | true, true => .ok (1, .preserve, .preserve)
  | false, true => .ok (d1, .preserve, .upcast)
  | true, false => .ok (d2, .upcast, .preserve)
  | false, false => if d1 = d2 then .ok (d1, .preserve, .preserve) else .error .invalidLayout

/-- `broadcast.rs:45-83`, the loop. It walks from the last axis to the first, so the arguments are the
reversed shapes and the result is reversed too; an exhausted list is `in1 < 0` (`in2 < 0`), where the
length counts as 1 and the type becomes `Expand`. -/
def bcLoop : List Nat → List Nat → Res (List (Nat × BType × BType))
  | [], s2 => s2.mapM fun d2 => do
    let (d, _, t2) ← bcDim 1 d2
    return (d, .expand, t2)
  | d1 :: s1, [] => do
    let (d, t1, _) ← bcDim d1 1
    return (d, t1, .expand) :: (← bcLoop s1 [])
  | d1 :: s1, d2 :: s2 => do
    let x ← bcDim d1 d2
    return x :: (← bcLoop s1 s2)

/-- `broadcast.rs:21-94` `broadcast_shape`: reversal for column-major, the loop, reversal back. -/
def broadcastShape (shape1 shape2 : List Nat) (order : Order) :
    Res (List Nat × List BType × List BType) := do
  let (shape1, shape2) := if order = .F then (shape1.reverse, shape2.reverse) else (shape1, shape2)
  let r := (← bcLoop shape1.reverse shape2.reverse).reverse
  let r := if order = .F then r.reverse else r
  return (r.map (·.1), r.map (·.2.1), r.map (·.2.2))

/-- `broadcast.rs:101-123` `broadcastable_from`, the loop over reversed shapes. -/
def bcFromLoop : List Nat → List Nat → Bool
  | [], s2 => s2.all fun d2 => !(1 ≠ d2 ∧ d2 ≠ 1)
  | d1 :: s1, [] => if d1 ≠ 1 ∧ (1 : Nat) ≠ 1 then false else bcFromLoop s1 []
  | d1 :: s1, d2 :: s2 => if d1 ≠ d2 ∧ d2 ≠ 1 then false else bcFromLoop s1 s2

/-- `broadcast.rs:101-123` `broadcastable_from`. -/
def broadcastableFrom (shape1 shape2 : List Nat) : Bool :=
  if max shape1.length shape2.length ≠ shape1.length then false
  else bcFromLoop shape1.reverse shape2.reverse

/-- `broadcast.rs:128-150` `broadcastable_to`, the loop over reversed shapes. -/
def bcToLoop : List Nat → List Nat → Bool
  | [], s2 => s2.all fun d2 => !(1 ≠ d2 ∧ (1 : Nat) ≠ 1)
  | d1 :: s1, [] => if d1 ≠ 1 ∧ d1 ≠ 1 then false else bcToLoop s1 []
  | d1 :: s1, d2 :: s2 => if d1 ≠ d2 ∧ d1 ≠ 1 then false else bcToLoop s1 s2

/-- `broadcast.rs:128-150` `broadcastable_to`. -/
def broadcastableTo (shape1 shape2 : List Nat) : Bool :=
  if max shape1.length shape2.length ≠ shape2.length then false
  else bcToLoop shape1.reverse shape2.reverse

namespace Layout

/-- `broadcast.rs:227-244`, the row-major part of `update_layout_by_shape`: old strides at the end, 0
on expanded and upcast axes. More old axes than new ones underflow `n - n_old` (panic). -/
def updateByShapeC (l : Layout) (shape : List Nat) (tp : List BType) : Res Layout :=
  if shape.length < l.ndim then .error .panic
  else
    let stride := List.replicate (shape.length - l.ndim) 0 ++ l.stride
    let stride := List.zipWith (fun (t : BType) (s : Int) => if t = .expand ∨ t = .upcast then 0 else s) tp stride
    .ok ⟨mkAxes shape stride, l.offset⟩

/-- `broadcast.rs:207-245` `update_layout_by_shape`. -/
def updateByShape (l : Layout) (shape : List Nat) (tp : List BType) (order : Order) : Res Layout :=
  if order = .F then do
    return (← l.reverseAxes.updateByShapeC shape.reverse tp.reverse).reverseAxes
  else l.updateByShapeC shape tp

/-- `broadcast.rs:166-182` `broadcast_layout`. -/
def broadcast (l1 l2 : Layout) (order : Order) : Res (Layout × Layout) := do
  let (shape, tp1, tp2) ← broadcastShape l1.shape l2.shape order
  let m1 ← l1.updateByShape shape tp1 order
  let m2 ← l2.updateByShape shape tp2 order
  return (m1, m2)

/-- `broadcast.rs:191-205` `broadcast_layout_to_first` for a dynamic rank of the first layout:
`into_dim` accepts every rank. -/
def broadcastToFirst (l1 l2 : Layout) (order : Order) : Res (Layout × Layout) :=
  l1.broadcast l2 order

/-- `broadcast.rs:191-205` `broadcast_layout_to_first` for `Ix<N>` as the first rank: `into_dim`
refuses any other number of axes (`rstsr-common/src/layout/layoutbase.rs` `into_dim`). -/
def broadcastToFirstFixed (l1 l2 : Layout) (order : Order) : Res (Layout × Layout) := do
  let (m1, m2) ← l1.broadcast l2 order
  if m1.ndim = l1.ndim then .ok (m1, m2) else .error .invalidLayout

/-- `rstsr-core/src/tensor/manipulation/broadcast.rs:272-296` `into_broadcast_f`, layout part. -/
def broadcastTo (l : Layout) (shape2 : List Nat) (order : Order) : Res Layout := do
  let (shape, tp1, _) ← broadcastShape l.shape shape2 order
  if shape = shape2 then l.updateByShape shape tp1 order else .error .invalidLayout

end Layout

/-- `rstsr-core/src/tensor/manipulation/broadcast.rs:104-121` `broadcast_shapes_f`. -/
def broadcastShapes (shapes : List (List Nat)) (order : Order) : Res (List Nat) :=
  match shapes with
  | [] => .ok []
  | [s] => .ok s
  | s :: rest => rest.foldlM (fun result shape => return (← broadcastShape shape result order).1) s

/-- `rstsr-core/src/tensor/manipulation/broadcast.rs:239-264` `broadcast_arrays_f`, layout part
(devices are not modelled). -/
def broadcastArrays (ls : List Layout) (order : Order) : Res (List Layout) :=
  match ls with
  | [] => .ok []
  | [l] => .ok [l]
  | l :: rest => do
    let shape ← rest.foldlM (fun result m => return (← broadcastShape m.shape result order).1) l.shape
    (l :: rest).mapM fun m => m.broadcastTo shape order

end Rstsr
