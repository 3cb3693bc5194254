import Verif.Model.Creation
/-!
# Model of `linspace` for elements that obey no laws

The functions of `Model/Creation` with the operations as arguments, so that they can be run with floats.
-/
namespace Rstsr

/-- The operations of `ComplexFloat` that `linspace` calls; `ofNat` is `T::from`. -/
structure SpaceOps (K : Type) where
  add : K → K → K
  sub : K → K → K
  mul : K → K → K
  div : K → K → K
  ofNat : Nat → K

variable {K : Type}

/-- The step (`device_cpu_serial/creation.rs:103-106`, `cpu_rayon/creation.rs:123-126`). -/
def linStepBy (O : SpaceOps K) (start stop : K) (n : Nat) (endpoint : Bool) : K :=
  if endpoint then O.div (O.sub stop start) (O.ofNat (n - 1)) else O.div (O.sub stop start) (O.ofNat n)

/-- `device_cpu_serial/creation.rs:107-111`: the running sum. -/
def linLoopBy (O : SpaceOps K) (step : K) : Nat → K → List K
  | 0, _ => []
  | n + 1, v => v :: linLoopBy O step n (O.add v step)

/-- `linspace_impl` (`device_cpu_serial/creation.rs:88-113`) and `linspace_cpu_rayon` (`cpu_rayon/creation.rs:107-131`). The parallel
map collects its results in the order of the indices. -/
def linspaceBy (O : SpaceOps K) (par : Bool) (start stop : K) (n : Nat) (endpoint : Bool) : List K :=
  if n = 0 then []
  else if n = 1 then [start]
  else if par then (List.range n).map fun i => O.add start (O.mul (O.ofNat i) (linStepBy O start stop n endpoint))
  else linLoopBy O (linStepBy O start stop n endpoint) n start

/-- `rstsr-core/src/tensor/creation.rs:775-780` `linspace_f`. -/
def Tensor.linspaceBy (O : SpaceOps K) (par : Bool) (start stop : K) (n : Nat) (endpoint : Bool) : Tensor K :=
  Tensor.ofList (Rstsr.linspaceBy O par start stop n endpoint)

end Rstsr
