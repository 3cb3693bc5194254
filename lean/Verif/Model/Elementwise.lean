import Verif.Model.Broadcast
import Verif.Model.Manip
import Verif.Model.Kernel
/-!
# Model of the element-wise tensor operations (`rstsr-core/src/tensor`)

Devices are one CPU device (`same_device` always holds) with default order `dflt`; the operation of a
trait (`Add`, `Sin`, …) is a function argument. `TensorIterOrder::default()` is `K`
(`rstsr-common/src/flags.rs`), so only that arm of the `match` statements is modelled.
-/
namespace Rstsr
open Spec (Order)

/-- `rstsr-core/src/device_cpu_serial/creation.rs` `uninit_impl`: a vector of uninitialised cells. -/
def uninit {γ : Type} (n : Int) : List (Option γ) := List.replicate n.toNat none

/-- `rstsr-core/src/device_cpu_serial/creation.rs` `assume_init_impl`. Reading an uninitialised cell as
initialised is undefined behaviour in Rust; here it is the panic error, so a proof of success shows that
no such cell is left. -/
def assumeInit {γ : Type} : List (Option γ) → Res (List γ)
  | [] => .ok []
  | some v :: rest => do return v :: (← assumeInit rest)
  | none :: _ => .error .panic

deriving instance DecidableEq for Tensor

namespace Tensor
variable {α β γ : Type}

/-- The common end of all operations that make a new tensor: allocate uninitialised storage for the
layout, run the kernel, take the storage as initialised, build the tensor
(for instance `op_binary_arithmetic.rs:205-211`). -/
def build (lc : Layout) (kernel : List (Option γ) → Res (List (Option γ))) : Res (Tensor γ) := do
  let (_, n) ← lc.boundsIndex
  let c ← kernel (uninit n)
  let c ← assumeInit c
  newF c lc

/-- `rstsr-core/src/tensor/operators/op_binary_arithmetic.rs:188-212` (`&a op &b`),
`op_with_func.rs:46-83` `op_refa_refb_func`, `map_elementwise.rs:124-163` `mapb_fnmut_f`. -/
def binary (dflt : Order) (a : Tensor α) (b : Tensor β) (f : α → β → γ) : Res (Tensor γ) := do
  let (la, lb) ← a.layout.broadcast b.layout dflt
  let lc ← Layout.forBinaryOp la lb dflt
  build lc fun c => opMutcRefaRefb dflt c lc a.data la b.data lb fun _ x y => some (f x y)

/-- `rstsr-core/src/tensor/operators/op_binary_common.rs:73-98` (`maximum`, `equal`, `pow`, …): the
copy layout of both operands if they agree, the default order otherwise. -/
def binaryCommon (dflt : Order) (a : Tensor α) (b : Tensor β) (f : α → β → γ) : Res (Tensor γ) := do
  let (la, lb) ← a.layout.broadcast b.layout dflt
  let lca ← la.forArrayCopy dflt .K
  let lcb ← lb.forArrayCopy dflt .K
  let lc := if lca.beqLayout lcb then lca
    else match dflt with
      | .C => Layout.newCContig la.shape 0
      | .F => Layout.newFContig la.shape 0
  build lc fun c => opMutcRefaRefb dflt c lc a.data la b.data lb fun _ x y => some (f x y)

/-- `op_binary_arithmetic.rs:279-305` (`a op &b` with owned `a`): the storage of `a` is reused when the
result has the layout of `a`. -/
def binaryConsumeL (dflt : Order) (a : Tensor α) (b : Tensor β) (f : α → β → α) : Res (Tensor α) :=
  if a.layout.isBroadcasted then binary dflt a b f
  else
    match a.layout.broadcastToFirst b.layout dflt with
    | .error _ => binary dflt a b f
    | .ok (la, lb) =>
      if !(la.beqLayout a.layout) then binary dflt a b f
      else do
        let data ← opMutaRefb dflt a.data la b.data lb f
        return ⟨data, la⟩

/-- `op_binary_arithmetic.rs:331-357` (`&a op b` with owned `b`). -/
def binaryConsumeR (dflt : Order) (a : Tensor α) (b : Tensor β) (f : α → β → β) : Res (Tensor β) :=
  if b.layout.isBroadcasted then binary dflt a b f
  else
    match b.layout.broadcastToFirst a.layout dflt with
    | .error _ => binary dflt a b f
    | .ok (lb, la) =>
      if !(lb.beqLayout b.layout) then binary dflt a b f
      else do
        let data ← opMutaRefb dflt b.data lb a.data la fun y x => f x y
        return ⟨data, lb⟩

/-- `op_binary_arithmetic.rs:427-447` (`a op b`, both owned): reuse `a` if possible, otherwise `b`,
otherwise allocate. -/
def binaryConsume (dflt : Order) (a b : Tensor α) (f : α → α → α) : Res (Tensor α) :=
  let reuse (l m : Layout) : Bool :=
    !l.isBroadcasted && match l.broadcastToFirst m dflt with
      | .ok (lb, _) => lb.beqLayout l
      | .error _ => false
  if reuse a.layout b.layout then binaryConsumeL dflt a b f
  else if reuse b.layout a.layout then binaryConsumeR dflt a b f
  else binary dflt a b f

/-- `op_binary_arithmetic.rs:579-613` `add_with_output_f`, … and `op_with_func.rs:6-44`
`op_mutc_refa_refb_func`: the result is written into the given tensor `c`. -/
def binaryOutput (dflt : Order) (c : Tensor γ) (a : Tensor α) (b : Tensor β) (f : α → β → γ) :
    Res (Tensor γ) := do
  let (lc1, la) ← c.layout.broadcastToFirst a.layout dflt
  if !(lc1.beqLayout c.layout) then .error .invalidLayout
  else
    let (lc2, lb) ← c.layout.broadcastToFirst b.layout dflt
    if !(lc2.beqLayout c.layout) then .error .invalidLayout
    else
      let data ← opMutcRefaRefb dflt c.data lc2 a.data la b.data lb fun _ x y => f x y
      return ⟨data, c.layout⟩

/-- `op_binary_arithmetic.rs:908-918` (`&a op number`), `op_binary_common.rs:139-151`. -/
def binaryNumB (dflt : Order) (a : Tensor α) (b : β) (f : α → β → γ) : Res (Tensor γ) := do
  let lc ← a.layout.forArrayCopy dflt .K
  build lc fun c => opMutcRefaNumb dflt c lc a.data a.layout b fun _ x y => some (f x y)

/-- `op_binary_arithmetic.rs:668-678` (`number op &b`), `op_binary_common.rs:179-191`. -/
def binaryNumA (dflt : Order) (a : α) (b : Tensor β) (f : α → β → γ) : Res (Tensor γ) := do
  let lc ← b.layout.forArrayCopy dflt .K
  build lc fun c => opMutcNumaRefb dflt c lc a b.data b.layout fun _ x y => some (f x y)

/-- `op_binary_arithmetic.rs:954-960` (`a op number` with owned `a`), `op_binary_assign.rs:167-171`
(`a op= number`). -/
def assignNum (dflt : Order) (a : Tensor α) (b : β) (f : α → β → α) : Res (Tensor α) := do
  let data ← opMutaNumb dflt a.data a.layout b f
  return ⟨data, a.layout⟩

/-- `op_binary_assign.rs:118-131` (`a op= &b`), `op_with_func.rs:85-119` `op_muta_refb_func`. -/
def assignOp (dflt : Order) (a : Tensor α) (b : Tensor β) (f : α → β → α) : Res (Tensor α) := do
  let (la, lb) ← a.layout.broadcastToFirst b.layout dflt
  if !(la.beqLayout a.layout) then .error .invalidLayout
  else
    let data ← opMutaRefb dflt a.data la b.data lb f
    return ⟨data, a.layout⟩

/-- `op_unary_arithmetic.rs:118-129`, `op_unary_common.rs` (`&a`), `map_elementwise.rs:16-32`
`map_fnmut_f`, `map_f`: a new tensor of the mapped elements. -/
def map (dflt : Order) (a : Tensor α) (f : α → γ) : Res (Tensor γ) := do
  let lc ← a.layout.forArrayCopy dflt .K
  build lc fun c => opMutaRefb dflt c lc a.data a.layout fun _ x => some (f x)

/-- `op_unary_arithmetic.rs:154-160` (owned argument): in place. -/
def unaryConsume (dflt : Order) (a : Tensor α) (f : α → α) : Res (Tensor α) := do
  let data ← opMuta dflt a.data a.layout f
  return ⟨data, a.layout⟩

/-- `map_elementwise.rs:67-83` `mapi_fnmut_f`, `mapi_f`: in place, over the reordered layout without
repeated axes. -/
def mapInplace (dflt : Order) (a : Tensor α) (f : α → α) : Res (Tensor α) := do
  let (la, _) ← a.layout.greedy false
  let data ← opMuta dflt a.data la f
  return ⟨data, a.layout⟩

/-- `rstsr-core/src/tensor/assignment.rs:35-52` `assign_f`; ranks are dynamic there, and `into_dim::<DA>`
(not modelled: `fixed = false`) rejects a changed number of axes for tensors of static rank
(`fixed = true`). `cast` is the clone (and cast) of an element. -/
def assignF (dflt : Order) (fixed : Bool) (a : Tensor α) (b : Tensor β) (cast : β → α) : Res (Tensor α) := do
  if a.layout.isBroadcasted then .error .invalidLayout
  else
    let (la, lb) ← a.layout.broadcastToFirst b.layout dflt
    if fixed && la.ndim ≠ a.layout.ndim then .error .invalidLayout
    else
      let data ← assign dflt a.data la b.data lb cast
      return ⟨data, a.layout⟩

/-- `rstsr-core/src/tensor/assignment.rs:116-122` `fill_f`. -/
def fillF (dflt : Order) (a : Tensor α) (v : α) : Res (Tensor α) := do
  if a.layout.isBroadcasted then .error .invalidLayout
  else
    let data ← fill dflt a.data a.layout v
    return ⟨data, a.layout⟩

end Tensor
end Rstsr
