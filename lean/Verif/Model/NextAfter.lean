import Verif.Spec.NextAfter
/-! # Model: `nextafter` for 16-bit floats -/
namespace Rstsr
open Spec

/-- `is_nan` of the `half` crate: the magnitude is above that of infinity. `m` is the number of fraction bits, 10 for `f16` and 7
for `bf16`. -/
def isNan16 (m w : Nat) : Bool := decide (2 ^ 15 - 2 ^ m < w &&& 0x7FFF)

/-- `rstsr-dtype-traits/src/ext_float.rs:47-82` `nextafter_f16` (`m = 10`), `:86-121` `nextafter_bf16` (`m = 7`) on the bits. `x + y` with a
NaN is the first NaN (its payload is not modelled); the evaluations for their effect on floating-point flags are left
out. -/
def nextafter16 (m x y : Nat) : Nat :=
  if isNan16 m x then x
  else if isNan16 m y then y
  else if x = y then y
  else
    let ax := x &&& 0x7FFF
    let ay := y &&& 0x7FFF
    if ax = 0 then
      if ay = 0 then y else (y &&& 0x8000) ||| 1
    else if ax > ay ∨ (x ^^^ y) &&& 0x8000 ≠ 0 then x - 1
    else x + 1

end Rstsr
