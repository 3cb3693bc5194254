import Verif.Spec.Order
import Verif.Model.Layout
/-!
# Model of `rstsr-common/src/layout/reshape.rs`
-/
namespace Rstsr
open Spec (Order)

/-- `reshape.rs:37-59`, the inner loop: extend the group of new axes (`ng`) or of old axes (`og`) until
their products agree. The Rust ranges `ni..nj` and `oi..oj` are the two groups, `nrest` and `orest` the
axes behind them. Each turn takes one axis from `nrest` or `orest`, so `fuel` of their total length plus
one is enough (`none` is both the fuel end and the `return None`). -/
def growGroup (fuel : Nat) (np op : Nat) (ng nrest : List Nat) (og orest : List Axis) :
    Option (List Nat × List Nat × List Axis × List Axis) :=
  match fuel with
  | 0 => none
  | fuel + 1 =>
    if np = op then some (ng, nrest, og, orest)
    else if np < op then
      match nrest with
      | [] => none
      | d :: nrest => growGroup fuel (np * d) op (ng ++ [d]) nrest og orest
    else
      match orest with
      | [] => none
      | a :: orest => growGroup fuel np (op * a.dim) ng nrest (og ++ [a]) orest

/-- `reshape.rs:61-74`: whether the old axes of a group can be combined. -/
def canCombine (o : Order) : List Axis → Bool
  | a :: b :: rest =>
    (match o with
      | .F => b.str == a.dim * a.str
      | .C => a.str == b.dim * b.str) && canCombine o (b :: rest)
  | _ => true

/-- `reshape.rs:76-88`: new strides of a group. -/
def groupStrides (o : Order) (ng : List Nat) (og : List Axis) : List Int :=
  match o with
  | .F => fStrides (og.headD default).str ng
  | .C => (fStrides (og.getLastD default).str ng.reverse).reverse

/-- `reshape.rs:36-112`, the outer loop and the strides of trailing 1s. `last` holds length and stride of
the new axis before the current one. -/
def nocopyLoop (fuel : Nat) (o : Order) (last : Option Axis) (news : List Nat) (olds : List Axis) :
    Option (List Int) :=
  match fuel with
  | 0 => none
  | fuel + 1 =>
    match news, olds with
    | d :: nrest, a :: orest => do
      let (ng, nrest, og, orest) ← growGroup (nrest.length + orest.length + 1) d a.dim [d] nrest [a] orest
      if canCombine o og then
        let strs := groupStrides o ng og
        let rest ← nocopyLoop fuel o (some ⟨ng.getLastD 0, strs.getLastD 0⟩) nrest orest
        some (strs ++ rest)
      else none
    | news, _ =>
      let lastStride : Int := match last with
        | some x => if o = .F then x.str * x.dim else x.str
        | none => 1
      some (news.map fun _ => lastStride)

/-- `reshape.rs:9-113` `attempt_nocopy_reshape`. Axes of length 1 of the old layout are dropped first. -/
def attemptNocopy (axes : List Axis) (news : List Nat) (o : Order) : Option (List Int) :=
  nocopyLoop (news.length + 1) o none news (axes.filter fun a => a.dim ≠ 1)

/-- `reshape.rs:123-136`: position of the `-1`; a second one or another negative value is an error. -/
def findNeg (i : Nat) (seen : Option Nat) : List Int → Res (Option Nat)
  | [] => .ok seen
  | v :: rest =>
    if v = -1 then
      match seen with
      | some _ => .error .invalidValue
      | none => findNeg (i + 1) (some i) rest
    else if v < -1 then .error .invalidValue
    else findNeg (i + 1) seen rest

/-- `reshape.rs:120-152` `reshape_substitute_negatives`. `%` by zero is the panic error. -/
def substituteNegatives (shape : List Int) (sizeIn : Nat) : Res (List Nat) := do
  match ← findNeg 0 none shape with
  | none => return shape.map Int.toNat
  | some k =>
    let sizeNeg := shape.foldl (fun acc v => if v = -1 then acc else acc * v) 1
    if sizeNeg = 0 then .error .panic
    else if (sizeIn : Int).tmod sizeNeg ≠ 0 then .error .invalidValue
    else return (shape.set k ((sizeIn : Int).tdiv sizeNeg)).map Int.toNat

namespace Layout

/-- `reshape.rs:164-206` `quick_check`. The overflow test of the size product is dropped: lengths are
unbounded naturals. -/
def quickCheck (shape : List Nat) (l : Layout) (o : Order) : Res (Option Layout) :=
  if l.size ≠ shape.prod then .error .invalidValue
  else if l.size = 0 ∨ l.size = 1 then
    some <$> Layout.new shape (shape.map fun _ => 1) l.offset
  else if shape = l.shape then .ok (some l)
  else
    match o with
    | .C => .ok (if l.cContig then some (newCContig shape l.offset) else none)
    | .F => .ok (if l.fContig then some (newFContig shape l.offset) else none)

/-- `reshape.rs:216-226` `layout_reshapeable`. -/
def reshapeable (l : Layout) (shape : List Nat) (o : Order) : Res (Option Layout) := do
  match ← quickCheck shape l o with
  | some m => return some m
  | none =>
    match attemptNocopy l.axes shape o with
    | some stride => return some ⟨mkAxes shape stride, l.offset⟩
    | none => return none

end Layout
end Rstsr
