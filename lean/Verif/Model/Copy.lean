import Verif.Model.Elementwise
import Verif.Model.Reshape
/-!
# Model of the copying conversions (`rstsr-core/src/tensor`): `asarray`, `to_layout`, `to_contig`,
`reshape`, `into_owned`, `to_vec`, `to_scalar`

`TensorCow` results are modelled by the tensor they hold; whether it is borrowed is not.
-/
namespace Rstsr
open Spec (Order)
namespace Tensor
variable {α : Type}

/-- `asarray.rs:328-340` `asarray((&tensor, order))`. -/
def asarray (dflt : Order) (a : Tensor α) (order : IterOrder) : Res (Tensor α) := do
  let lc ← a.layout.forArrayCopy dflt order
  let c ← assign dflt (uninit lc.size) lc a.data a.layout some
  let c ← assumeInit c
  newF c lc

/-- `asarray.rs:365-380` `asarray((tensor, order))`: nothing is copied if the layout stays the same. -/
def asarrayOwned (dflt : Order) (a : Tensor α) (order : IterOrder) : Res (Tensor α) := do
  let lc ← a.layout.forArrayCopy dflt order
  if lc.beqLayout a.layout then .ok a
  else
    let c ← assign dflt (uninit lc.size) lc a.data a.layout some
    let c ← assumeInit c
    newF c lc

/-- `manipulation/to_layout.rs:8-38` `change_layout_f`; the result is built without checks. -/
def changeLayout (dflt : Order) (a : Tensor α) (l : Layout) : Res (Tensor α) := do
  if a.layout.size ≠ l.size then .error .invalidLayout
  else if a.layout.beqLayout l then .ok ⟨a.data, l⟩
  else
    let (_, n) ← l.boundsIndex
    let c ← assignArbitrary dflt (uninit n) l a.data a.layout dflt some
    let c ← assumeInit c
    .ok ⟨c, l⟩

/-- `manipulation/to_contig.rs:8-23` `change_contig_f`. -/
def changeContig (dflt : Order) (a : Tensor α) (order : Order) : Res (Tensor α) :=
  changeLayout dflt a (match order with
    | .C => Layout.newCContig a.layout.shape 0
    | .F => Layout.newFContig a.layout.shape 0)

/-- `manipulation/reshape.rs:104-154` `change_shape_with_args_f`; `order` is already resolved to the
default order when not given, and `copy` is the optional flag. -/
def changeShape (a : Tensor α) (shape : List Int) (order : Order) (copy : Option Bool) : Res (Tensor α) := do
  let shape ← substituteNegatives shape a.layout.size
  let view ← if copy = some true then .ok none else a.layout.reshapeable shape order
  match view with
  | some l => .ok ⟨a.data, l⟩
  | none =>
    if copy = some false then .error .invalidValue
    else
      let l := match order with
        | .C => Layout.newCContig shape 0
        | .F => Layout.newFContig shape 0
      let c ← assignArbitrary order (uninit l.size) l a.data a.layout order some
      let c ← assumeInit c
      .ok ⟨c, l⟩

/-- `ownership_conversion.rs:96-103` `into_owned` (`to_owned`, `clone`): the storage is kept when the
layout uses all of it. `into_owned_keep_layout` (54-63) keeps content and layout. -/
def intoOwned (dflt : Order) (a : Tensor α) : Res (Tensor α) := do
  let (mn, mx) ← a.layout.boundsIndex
  if mn = 0 ∧ mx = a.data.length ∧ mx = a.layout.size then .ok a
  else asarray dflt a .K

/-- `ownership_conversion.rs:177-187` `to_raw_f` (`to_vec`). -/
def toVec (dflt : Order) (a : Tensor α) : Res (List α) := do
  if a.layout.ndim ≠ 1 then .error .invalidLayout
  else
    let c ← assign dflt (uninit a.layout.size) (Layout.newCContig [a.layout.size] 0) a.data a.layout some
    assumeInit c

/-- `ownership_conversion.rs:200-211, 225-237` `into_raw_f`, `into_vec_f`. -/
def intoVec (dflt : Order) (a : Tensor α) : Res (List α) := do
  if a.layout.ndim ≠ 1 then .error .invalidLayout
  else
    let (mn, mx) ← a.layout.boundsIndex
    if mn = 0 ∧ mx = a.data.length ∧ mx = a.layout.size ∧ a.layout.stride.getD 0 0 > 0 then .ok a.data
    else toVec dflt a

/-- `ownership_conversion.rs:255-265` `to_scalar_f`. -/
def toScalar (a : Tensor α) : Res α :=
  if a.layout.size ≠ 1 then .error .invalidLayout
  else if a.layout.offset < 0 then .error .panic
  else readAt a.data a.layout.offset.toNat

end Tensor
end Rstsr
