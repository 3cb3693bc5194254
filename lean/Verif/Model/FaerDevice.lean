import Verif.Model.FaerLinalg
/-!
# Model of the device of `faer` around the computations: the global number of threads, conversions, change of device
-/
namespace Rstsr
open Spec (Order)

section
variable {α β : Type}

/-! ## The global setting of `faer` -/

/-- One call of a linear algebra function on this device. `pool` is `device.get_current_pool()` (`feature_rayon/device.rs:123-128`): the number of threads
of the pool outside of worker threads, nothing inside of them. `body` is the result of what happens between the two settings. -/
structure FaerCall (β : Type) where
  pool : Option Nat
  body : Res β

/-- Where a call is. -/
inductive ParAt where
  | read | set | run | back | done
  deriving DecidableEq, Repr

/-- A call under way: where it is, and the local variable `faer_par_orig`. -/
structure ParState where
  at_ : ParAt
  orig : Nat
  deriving DecidableEq, Repr

def ParState.start : ParState := ⟨.read, 0⟩

/-- One step of a call on the global number of threads (`cholesky.rs:15-20`, `43-46`, the same in `det`, `inv`, `solve_general`, `eigh`, `eigvalsh`, `svd`,
`svdvals`, `pinv`): read it; set it; compute, where `?` and panics leave the function; set it back. What is computed does not depend on it. -/
def FaerCall.step (c : FaerCall β) (s : ParState) (g : Nat) : ParState × Nat := match s.at_ with
  | .read => (⟨.set, g⟩, g)
  | .set => (⟨.run, s.orig⟩, c.pool.getD g)
  | .run => (match c.body with | .ok _ => ⟨.back, s.orig⟩ | .error _ => ⟨.done, s.orig⟩, g)
  | .back => (⟨.done, s.orig⟩, if c.pool.isSome then s.orig else g)
  | .done => (s, g)

/-- Calls in several threads: the schedule says whose turn it is. -/
def runFaer (cs : List (FaerCall β)) : List Nat → List ParState × Nat → List ParState × Nat
  | [], st => st
  | k :: rest, (ss, g) => match cs[k]?, ss[k]? with
    | some c, some s => let (s', g') := c.step s g; runFaer cs rest (ss.set k s', g')
    | _, _ => runFaer cs rest (ss, g)

/-! ## Conversions -/

/-- `device_faer/conversion.rs:10-23` `into_faer` followed by `40-58` `into_rstsr`: the pointer to the first element, and the storage taken from there. -/
def thereAndBack (sys : Order) (t : Tensor α) : Res (OnDev α) := do
  let x := t.layout.axes.getD 0 default
  let y := t.layout.axes.getD 1 default
  return ⟨← matIntoRstsr t.data t.layout.offset.toNat x.dim y.dim x.str y.str, .dflt sys⟩

/-- `conversion.rs:136-142` `change_device`: `TensorAny::new` panics where `new_f` gives an error. -/
def changeDevice (x : OnDev α) (dev : FaerDev) : Res (OnDev α) := do
  return ⟨← orPanic (Tensor.newF x.t.data x.t.layout), dev⟩

/-- `conversion.rs:144-150` `into_device`. -/
def intoDevice (x : OnDev α) (dev : FaerDev) : Res (OnDev α) := do
  changeDevice ⟨← orPanic (Tensor.intoOwned x.dev.order x.t), x.dev⟩ dev

/-- `conversion.rs:152-155` `to_device`: of a view. -/
def toDevice (x : OnDev α) (dev : FaerDev) : Res (OnDev α) := changeDevice x dev

end
end Rstsr
