import Verif.Model.Creation
import Verif.Model.ElemFns
/-!
# Model of `arange` for floats, with rounding
-/
namespace Rstsr
open Spec

/-- `.ceil().to_usize()` of an `f64` (num-traits): nothing for not-a-number, infinities and numbers that are not those of a `usize`
of 64 bits. -/
def ceilUsize : Flt → Option Nat
  | .num q => if ⌈q⌉ < 0 ∨ 2 ^ 64 ≤ ⌈q⌉ then none else some ⌈q⌉.toNat
  | .negZero => some 0
  | _ => none

/-- `cpu_serial/creation.rs:49-65` `arange_by_primitive_f64_cpu_serial` and `cpu_rayon/creation.rs:38-54`
`arange_by_primitive_f64_cpu_rayon` (which maps the same function over the same indices and collects in order). The operands are
converted to the working format `wp we`, which is `f64`, and the values back to the format of the elements `p e`. Converting to a wider
format keeps the number, so `start`, `stop` and `step` stay as they are. -/
def arangeFltFast (wp we p e : Nat) (start stop step : Flt) : Option (List Flt) :=
  (ceilUsize (fltDiv wp we (fltSub wp we stop start) step)).map fun n =>
    dropOutside (fun x => fltLe x stop) (fun x => fltLe stop x) (fltLt (.num 0) step) (fltLt step (.num 0))
      ((List.range n).map fun i : Nat => fltConvert p e (fltAdd wp we start (fltMul wp we (roundFlt wp we i) step)))

/-- `arange_cpu_serial` and `arange_cpu_rayon` for `f64` and `f32` (`cpu_serial/creation.rs:72-107`, `cpu_rayon/creation.rs:61-101`), with
`arange_impl` (`device_cpu_serial/creation.rs:76-80`, `feature_rayon/auto_impl/creation.rs:79-84`): the fast path, or the loop if there
is no count. -/
def arangeFlt (wp we p e : Nat) (start stop step : Flt) (rounds : Nat) : Option (Res (List Flt)) :=
  if fltEq step (.num 0) then some (.error .invalidValue)
  else
    match arangeFltFast wp we p e start stop step with
    | some xs => some (.ok xs)
    | none => arangeLoop fltLt (fun a b => .ok (fltAdd p e a b)) stop step rounds start

end Rstsr
