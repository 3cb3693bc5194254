import Verif.Model.Indexer
import Verif.Spec.Order
/-!
# Model of `rstsr-common/src/layout/rearrangement.rs`

`FlagOrder::default()` (`flags.rs:76-84`) depends on a crate feature; it is the parameter `dflt`.
-/
namespace Rstsr
open Spec (Order)

/-- `rstsr-common/src/flags.rs:92-134` `TensorIterOrder`. -/
inductive IterOrder where
  | C | F | A | K | G | B
  deriving DecidableEq, Repr

namespace Layout

/-- `rearrangement.rs:51-58`, the loop flipping axes of negative stride; the `unwrap` turns every error
into the panic error. -/
def flipNegative (l : Layout) : List Nat → Res Layout
  | [] => .ok l
  | n :: rest =>
    if (l.axes.getD n default).str < 0 then
      match l.dimNarrow n ⟨none, none, some (-1)⟩ with
      | .ok m => flipNegative m rest
      | .error _ => .error .panic
    else flipNegative l rest

/-- `d == 1 || t == 0` (`rearrangement.rs:74, 89`): the pointer does not move along this axis. -/
def still (x : Axis) : Bool := x.dim == 1 || x.str == 0

/-- `rearrangement.rs:69-80` and `84-95`: the comparators, as "not greater". -/
def greedyLe (keepShape : Bool) (axes : List Axis) (i1 i2 : Nat) : Bool :=
  let x1 := axes.getD i1 default
  let x2 := axes.getD i2 default
  match still x1, still x2 with
  | true, true => i1 ≤ i2
  | true, false => keepShape
  | false, true => !keepShape
  | false, false => x1.str.natAbs ≤ x2.str.natAbs

/-- `rearrangement.rs:102-110`: lengths of unmoving axes become 1, strides 0. -/
def dropStill (x : Axis) : Axis := if still x then ⟨1, 0⟩ else x

/-- `rearrangement.rs:36-113` `greedy_layout`. `sort_by` is a stable sort, as insertion sort is. -/
def greedy (l : Layout) (keepShape : Bool) : Res (Layout × List Nat) := do
  if l.size = 0 then .ok (l, List.range l.ndim)
  else
    let l ← if keepShape then l.flipNegative (List.range l.ndim) else .ok l
    let index := (List.range l.ndim).insertionSort fun a b => greedyLe keepShape l.axes a b
    let l ← match l.transpose (index.map Int.ofNat) with
      | .ok m => .ok m
      | .error _ => .error .panic
    if keepShape then .ok (l, index)
    else .ok (⟨l.axes.map dropStill, l.offset⟩, index)

/-- `rearrangement.rs:116-122` `reversed_permute`. -/
def reversedPermute (indices : List Nat) : List Nat :=
  (indices.zipIdx).foldl (fun acc p => acc.set p.1 p.2) (List.replicate indices.length 0)

/-- `rearrangement.rs:125-152` `layout_for_array_copy`. -/
def forArrayCopy (dflt : Order) (l : Layout) (order : IterOrder) : Res Layout :=
  match order with
  | .C => .ok (newCContig l.shape 0)
  | .F => .ok (newFContig l.shape 0)
  | .A =>
    if l.cContig then .ok (newCContig l.shape 0)
    else if l.fContig then .ok (newFContig l.shape 0)
    else match dflt with
      | .C => .ok (newCContig l.shape 0)
      | .F => .ok (newFContig l.shape 0)
  | .K => do
    let (g, indices) ← l.greedy true
    (newFContig g.shape 0).transpose ((reversedPermute indices).map Int.ofNat)
  | _ => .error .invalidValue

/-- `rearrangement.rs:171-188`, closure `fn_b`: one flat axis of the whole size. `shape[0] = …` on rank
0 is the panic error. -/
def flatB (l : Layout) : Res Layout := do
  let (mn, mx) ← l.boundsIndex
  if mx - mn ≠ l.size then .error .invalidLayout
  else if l.ndim = 0 then .error .panic
  else .ok ⟨⟨l.size, 1⟩ :: List.replicate (l.ndim - 1) ⟨1, l.size⟩, l.offset⟩

/-- `rearrangement.rs:165-214` `translate_to_col_major_unary`. -/
def toColMajor (dflt : Order) (l : Layout) (order : IterOrder) : Res Layout :=
  match order with
  | .C => .ok l.reverseAxes
  | .F => .ok l
  | .A =>
    if l.cContig || l.fContig then l.flatB
    else
      match l.cPrefer, l.fPrefer with
      | true, false => .ok l.reverseAxes
      | false, true => .ok l
      | _, _ => match dflt with
        | .C => .ok l.reverseAxes
        | .F => .ok l
  | .K => (·.1) <$> l.greedy true
  | .G => (·.1) <$> l.greedy false
  | .B => l.flatB

/-- `max_by_key` (`rearrangement.rs:272`): the last position of the largest value. -/
def lastMax : List Nat → Nat → Nat × Nat → Nat × Nat
  | [], _, best => best
  | v :: rest, i, best => lastMax rest (i + 1) (if best.2 ≤ v then (i, v) else best)

/-- `rearrangement.rs:232-282` `translate_to_col_major`. -/
def toColMajorMany (dflt : Order) (ls : List Layout) (order : IterOrder) : Res (List Layout) :=
  match ls with
  | [] => .ok []
  | l0 :: rest =>
    if rest.any fun l => l.shape ≠ l0.shape then .error .invalidLayout
    else
      match order with
      | .C | .F | .B => (l0 :: rest).mapM fun l => l.toColMajor dflt order
      | .A =>
        if (l0 :: rest).all cContig || (l0 :: rest).all fContig then
          (l0 :: rest).mapM fun l => l.toColMajor dflt .B
        else
          match dflt with
          | .C => (l0 :: rest).mapM fun l => l.toColMajor dflt .C
          | .F => (l0 :: rest).mapM fun l => l.toColMajor dflt .F
      | .K => do
        let sizes := (l0 :: rest).map sizeNonBroadcast
        let k := if sizes.all (· == l0.sizeNonBroadcast) then 0 else (lastMax sizes 0 (0, 0)).1
        let (_, index) ← ((l0 :: rest).getD k l0).greedy true
        (l0 :: rest).mapM fun l => l.transpose (index.map Int.ofNat)
      | .G => .error .invalidValue

/-- `rearrangement.rs:297-322` `translate_to_col_major_with_contig`: the layouts without their common
contiguous leading axes, and the size of those (0 when there are none). -/
def withContig (ls : List Layout) : List Layout × Nat :=
  match ls with
  | [] => ([], 0)
  | l0 :: rest =>
    let n := (rest.map ndimOfFContig).foldl min l0.ndimOfFContig
    if n = 0 then (l0 :: rest, 0)
    else ((l0 :: rest).map fun l => ⟨l.axes.drop n, l.offset⟩, (l0.shape.take n).prod)

/-- `rearrangement.rs:361-367`: the contiguous part of the sorted remaining axes. -/
def contigPart (axes : List Axis) (cur : Int) : List Nat → List Nat
  | [] => []
  | i :: rest =>
    let x := axes.getD i default
    if x.str = cur then i :: contigPart axes (cur * x.dim) rest else contigPart axes cur rest

/-- `rearrangement.rs:335-372` `get_axes_composition`: unit axes, broadcast axes, contiguous axes. The fourth
part is `axesDiscontig` below. -/
def axesComposition (l : Layout) : List Nat × List Nat × List Nat :=
  let ci := (List.range l.ndim).filter fun i => (l.axes.getD i default).dim = 1
  let cb := (List.range l.ndim).filter fun i => (l.axes.getD i default).dim ≠ 1 ∧ (l.axes.getD i default).str = 0
  let remain := (List.range l.ndim).filter fun i => !ci.contains i && !cb.contains i
  let remain := remain.insertionSort fun a b => (l.axes.getD a default).str.natAbs ≤ (l.axes.getD b default).str.natAbs
  (ci, cb, contigPart l.axes 1 remain)

/-- `rearrangement.rs:352-357`: the axes that are neither of length 1 nor broadcast, sorted by stride. -/
def movingAxes (l : Layout) : List Nat :=
  let remain := (List.range l.ndim).filter fun i =>
    !(decide ((l.axes.getD i default).dim = 1)) && !(decide ((l.axes.getD i default).str = 0))
  remain.insertionSort fun a b => (l.axes.getD a default).str.natAbs ≤ (l.axes.getD b default).str.natAbs

/-- `rearrangement.rs:369-371`: the discontiguous part, the rest of the sorted axes. -/
def axesDiscontig (l : Layout) : List Nat :=
  l.movingAxes.filter fun i => !(l.axesComposition.2.2.contains i)

/-- `rearrangement.rs:411-418`: the common beginning of two lists. -/
def commonPrefix : List Nat → List Nat → List Nat
  | a :: as, b :: bs => if a = b then a :: commonPrefix as bs else []
  | _, _ => []

/-- `rearrangement.rs:429-434`: strides grow contiguously along the given axes. -/
def growStrides (shape : List Nat) (cur : Int) (stride : List Int) : List Nat → List Int
  | [] => stride
  | i :: rest => growStrides shape (cur * (shape.getD i 0 : Nat)) (stride.set i cur) rest

/-- `rearrangement.rs:437-453`: a unit axis takes the stride of the nearest axis with non-zero stride. -/
def unitStrides (order : Order) (stride : List Int) : List Nat → List Int
  | [] => stride
  | i :: rest =>
    let s := match order with
      | .C => ((stride.drop i).find? (· ≠ 0)).getD 1
      | .F => ((stride.take i).reverse.find? (· ≠ 0)).getD 1
    unitStrides order (stride.set i s) rest

/-- `rearrangement.rs:394-459` `get_layout_for_binary_op`. -/
def forBinaryOp (la lb : Layout) (order : Order) : Res Layout :=
  if la.shape ≠ lb.shape then .error .invalidLayout
  else
    let (a1, a0a, aca) := la.axesComposition
    let (_, a0b, acb) := lb.axesComposition
    let a0 := a0a.filter a0b.contains
    let ac := commonPrefix aca acb
    let ad := (List.range la.ndim).filter fun i => !a0.contains i && !ac.contains i && !a1.contains i
    let ad := match order with
      | .C => ad.reverse
      | .F => ad
    let stride := growStrides la.shape 1 (List.replicate la.ndim 0) (ac ++ ad)
    let stride := unitStrides order stride a1
    .ok ⟨mkAxes la.shape stride, 0⟩

end Layout
end Rstsr
