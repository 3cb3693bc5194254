import Verif.Model.Scalar
/-!
# Model: `isclose`, and the functions on single elements
-/
namespace Rstsr
open Spec

/-! ## Arithmetic of one type -/

/-- The sign bit. -/
def fltSign : Flt → Bool
  | .nan s => s
  | .inf s => s
  | .negZero => true
  | .num q => q < 0

/-- A zero with a sign. -/
def fltZero (neg : Bool) : Flt := if neg then .negZero else .num 0

/-- IEEE negation. -/
def fltNeg : Flt → Flt
  | .nan s => .nan !s
  | .inf s => .inf !s
  | .negZero => .num 0
  | .num q => if q = 0 then .negZero else .num (-q)

/-- IEEE absolute value. -/
def fltAbs : Flt → Flt
  | .nan _ => .nan false
  | .inf _ => .inf false
  | .negZero => .num 0
  | .num q => .num |q|

def fltIsNan : Flt → Bool
  | .nan _ => true
  | _ => false

/-- IEEE addition in a format, to nearest. -/
def fltAdd (p e : Nat) : Flt → Flt → Flt
  | .nan s, _ => .nan s
  | _, .nan s => .nan s
  | .inf s, .inf t => if s = t then .inf s else .nan true
  | .inf s, _ => .inf s
  | _, .inf t => .inf t
  | .negZero, .negZero => .negZero
  | .negZero, .num r => roundFlt p e r
  | .num q, .negZero => roundFlt p e q
  | .num q, .num r => roundFlt p e (q + r)

/-- IEEE subtraction. -/
def fltSub (p e : Nat) (x y : Flt) : Flt := fltAdd p e x (fltNeg y)

/-- IEEE multiplication in a format, to nearest. -/
def fltMul (p e : Nat) : Flt → Flt → Flt
  | .nan s, _ => .nan s
  | _, .nan s => .nan s
  | .inf s, .inf t => .inf (s != t)
  | .inf _, .negZero => .nan true
  | .inf s, .num r => if r = 0 then .nan true else .inf (s != decide (r < 0))
  | .negZero, .inf _ => .nan true
  | .num q, .inf t => if q = 0 then .nan true else .inf (decide (q < 0) != t)
  | .negZero, .negZero => .num 0
  | .negZero, .num r => fltZero (!decide (r < 0))
  | .num q, .negZero => fltZero (!decide (q < 0))
  | .num q, .num r => if q * r = 0 then fltZero (decide (q < 0) != decide (r < 0)) else roundFlt p e (q * r)

/-- IEEE `<=`. -/
def fltLe (x y : Flt) : Bool := fltLt x y || fltEq x y

/-- The result of integer arithmetic whose exact value is `x`: overflow panics in builds with overflow checks and wraps
around in builds without. -/
def intArith (wrap : Bool) (k : Kind) (x : Int) : Res Value :=
  if wrapInt k x = x then .ok (.int x) else if wrap then .ok (.int (wrapInt k x)) else .error .panic

/-! ## `ExtNum` -/

/-- `rstsr-dtype-traits/src/ext_num.rs:72-74` (unsigned), `:110-112` (signed), `:156-158` (floats) `ext_abs`. The
complex types, whose absolute value is `norm`, are not modelled. -/
def extAbs (wrap : Bool) (t : DType) : Value → Res Value
  | .int n =>
    match t.kind with
    | .int b => intArith wrap (.int b) |n|
    | _ => .ok (.int n)
  | .real x => .ok (.real (fltAbs x))
  | v => .ok v

/-- `ext_num.rs:76-78` (`abs_diff`), `:114-120`, `:160-162` `ext_abs_diff`. -/
def extAbsDiff (wrap : Bool) (t : DType) : Value → Value → Res Value
  | .int x, .int y =>
    match t.kind with
    | .int b => if y ≤ x then intArith wrap (.int b) (x - y) else intArith wrap (.int b) (y - x)
    | _ => .ok (.int |x - y|)
  | .real x, .real y =>
    match t.kind with
    | .float p e => .ok (.real (fltAbs (fltSub p e x y)))
    | _ => .ok (.real x)
  | v, _ => .ok v

/-- `ext_num.rs:83-89`, `:125-134`, `:167-178` `ext_sign`. -/
def extSign : Value → Value
  | .int n => .int (if n > 0 then 1 else if n < 0 then -1 else 0)
  | .real x =>
    if fltIsNan x then .real x
    else if fltLt (.num 0) x then .real (.num 1)
    else if fltLt x (.num 0) then .real (.num (-1))
    else .real (.num 0)
  | v => v

/-- `ext_num.rs:94-96`, `:139-141`, `:183-185`, `:285-287` `ext_real`. -/
def extReal : Value → Value
  | .complex re _ => .real re
  | v => v

/-- `ext_num.rs:98-100`, `:143-145`, `:187-189`, `:289-291` `ext_imag`. -/
def extImag : Value → Value
  | .complex _ im => .real im
  | .real _ => .real (.num 0)
  | .int _ => .int 0
  | v => v

/-- `ext_num.rs:58-60`, `:193-196`, `:300-303` `is_nan`. -/
def valIsNan : Value → Bool
  | .real x => fltIsNan x
  | .complex x y => fltIsNan x || fltIsNan y
  | _ => false

/-- The constant `ABS_UNCHANGED` (`ext_num.rs:69`, `:107`, `:153`). -/
def absUnchanged (t : DType) : Bool :=
  match t.kind with
  | .uint _ => true
  | _ => false

/-- The constant `ABS_SAME_TYPE` (`ext_num.rs:70`, `:108`, `:154`, `:258`). -/
def absSameType (t : DType) : Bool :=
  match t.kind with
  | .complex _ _ => false
  | _ => true

/-! ## Functions on a single element, by reference and in place -/

/-- `rstsr-core/src/device_cpu_serial/operators/op_binary_common.rs:142-153` `abs` in place. -/
def absInPlace (wrap : Bool) (t : DType) (v : Value) : Res Value :=
  if absUnchanged t then .ok v else if absSameType t then extAbs wrap t v else .error .panic

/-- `op_binary_common.rs:175-184` `imag` in place. -/
def imagInPlace (t : DType) (v : Value) : Res Value := if absSameType t then .ok (extImag v) else .error .panic

/-- `op_binary_common.rs:206-213` `real` in place. -/
def realInPlace (t : DType) (v : Value) : Res Value := if absSameType t then .ok v else .error .panic

/-- `op_binary_common.rs:97` `signbit`, `b.is_positive()`: for integers `b > 0`, for floats the sign bit is clear (the
`num` crate). -/
def signbit : Value → Bool
  | .int n => n > 0
  | .real x => !fltSign x
  | _ => false

/-- `ext_real.rs:34-36`, `:53-55` `ext_floor_divide` of integers: `div_floor` panics for the divisor zero and when the quotient
overflows (`MIN / -1`), with and without overflow checks. -/
def floorDivide (k : Kind) (x y : Int) : Res Value :=
  if y = 0 then .error .panic
  else if wrapInt k (Int.fdiv x y) = Int.fdiv x y then .ok (.int (Int.fdiv x y)) else .error .panic

/-- `f64::max`, `f32::max`: the larger number, and the other one if one is not a number. Of two zeros with different signs Rust may return either; here it
is the first. -/
def fltMax (x y : Flt) : Flt := if fltIsNan x then y else if fltIsNan y then x else if fltLt x y then y else x

/-- `f64::min`, `f32::min`. -/
def fltMin (x y : Flt) : Flt := if fltIsNan x then y else if fltIsNan y then x else if fltLt y x then y else x

/-- `ext_real.rs:43-45`, `:62-64`, `:81-83` `ext_max`: of integers the larger one; of floats see `fltMax`. -/
def extMax : Value → Value → Value
  | .int x, .int y => .int (max x y)
  | .real x, .real y => .real (fltMax x y)
  | v, _ => v

/-- `ext_real.rs:37-39`, `:56-58`, `:75-77` `ext_min`. -/
def extMin : Value → Value → Value
  | .int x, .int y => .int (min x y)
  | .real x, .real y => .real (fltMin x y)
  | v, _ => v

/-- `f64::MAX`, `f32::MAX`: the greatest finite number of a format. -/
def fltGreatest (p e : Nat) : ℚ := (2 ^ p - 1) * 2 ^ ((e : Int) + 1 - p)

/-- `ext_real.rs:46-48`, `:65-67`, `:84-86` `ext_max_value`: `MAX` of the type, which for floats is the greatest finite number. -/
def extMaxValue : Kind → Value
  | .float p e => .real (.num (fltGreatest p e))
  | .int b => .int (2 ^ (b - 1) - 1)
  | .uint b => .int (2 ^ b - 1)
  | _ => .int 1

/-- `ext_real.rs:40-42`, `:59-61`, `:78-80` `ext_min_value`: `MIN` of the type. -/
def extMinValue : Kind → Value
  | .float p e => .real (.num (-fltGreatest p e))
  | .int b => .int (-2 ^ (b - 1))
  | _ => .int 0

/-! ## `isclose` -/

/-- `rstsr-dtype-traits/src/isclose.rs:17-28` `IsCloseArgs<f64>`. -/
structure CloseArgs where
  rtol : Flt
  atol : Flt
  equalNan : Bool

/-- `isclose.rs:91-106` `isclose` with tolerances of type `f64`, for real types: `none` if the types have no promotion
rule, or the common type is `bool` (no `ExtNum`) or has no cast to `f64`. -/
def isclose (wrap : Bool) (a b : DType) (v w : Value) (args : CloseArgs) : Option (Res Bool) :=
  match promotion a b with
  | none => none
  | some p =>
    match castRule p.res .f64 with
    | none => none
    | some cast =>
      if p.res = .bool then none
      else some do
        let x := p.self v
        let y := p.other w
        let diff ← extAbsDiff wrap p.res x y
        let absB ← extAbs wrap p.res y
        match cast diff, cast absB with
        | .real d, .real t =>
          let comp := fltLe d (fltAdd 53 1023 args.atol (fltMul 53 1023 args.rtol t))
          let nanCheck := args.equalNan && valIsNan x && valIsNan y
          .ok (comp || nanCheck)
        | _, _ => .error .panic

end Rstsr
