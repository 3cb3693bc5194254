import Verif.Model.Close
/-!
# Model: functions of single elements that the tensor operators apply

A tensor operator applies one of these to every element; how it walks the tensors is in `Model/Elementwise`.
-/
namespace Rstsr
open Spec

/-- IEEE division in a format, to nearest. -/
def fltDiv (p e : Nat) : Flt → Flt → Flt
  | .nan s, _ => .nan s
  | _, .nan s => .nan s
  | .inf _, .inf _ => .nan true
  | .inf s, y => .inf (s != fltSign y)
  | x, .inf t => fltZero (fltSign x != t)
  | .negZero, .negZero => .nan true
  | .negZero, .num r => if r = 0 then .nan true else fltZero (!decide (r < 0))
  | .num q, .negZero => if q = 0 then .nan true else .inf (!decide (q < 0))
  | .num q, .num r =>
    if r = 0 then (if q = 0 then .nan true else .inf (decide (q < 0)))
    else if q = 0 then fltZero (decide (r < 0)) else roundFlt p e (q / r)

/-- A function on the numbers that keeps the sign of a zero: `f64::floor` and its relatives, which are exact. A negative
number that becomes zero becomes the negative zero. -/
def fltInteger (f : ℚ → Int) : Flt → Flt
  | .num q => if f q = 0 ∧ q < 0 then .negZero else .num (f q)
  | x => x

/-- Rust's `trunc`. -/
def truncRat (q : ℚ) : Int := if q < 0 then ⌈q⌉ else ⌊q⌋

/-- Rust's `round`: to nearest, ties away from zero. -/
def roundAway (q : ℚ) : Int := if q < 0 then -⌊-q + 1 / 2⌋ else ⌊q + 1 / 2⌋

/-- `rstsr-dtype-traits/src/promotion.rs:67-118` `into_float`: integers become `f64`, floats stay. -/
def intoFloat (t : DType) (v : Value) : Value :=
  match t.kind with
  | .uint _ => castTo .f64 v
  | .int _ => castTo .f64 v
  | _ => v

/-- `op_binary_common.rs:24`, `:49-52` `ceil`. -/
def ceilElem (t : DType) (v : Value) : Value :=
  match intoFloat t v with
  | .real x => .real (fltInteger (fun q => ⌈q⌉) x)
  | w => w

/-- `op_binary_common.rs:30` `floor`. -/
def floorElem (t : DType) (v : Value) : Value :=
  match intoFloat t v with
  | .real x => .real (fltInteger (fun q => ⌊q⌋) x)
  | w => w

/-- `op_binary_common.rs:36` `round`, `Float::round`. -/
def roundElem (t : DType) (v : Value) : Value :=
  match intoFloat t v with
  | .real x => .real (fltInteger roundAway x)
  | w => w

/-- `op_binary_common.rs:42` `trunc`. -/
def truncElem (t : DType) (v : Value) : Value :=
  match intoFloat t v with
  | .real x => .real (fltInteger truncRat x)
  | w => w

/-- `ext_real.rs:34-36`, `:53-55`, `:72-74`, `:92-94` `ext_floor_divide`. -/
def extFloorDivide (t : DType) : Value → Value → Res Value
  | .int x, .int y => floorDivide t.kind x y
  | .real x, .real y =>
    match t.kind with
    | .float p e => .ok (.real (fltInteger (fun q => ⌊q⌋) (fltDiv p e x y)))
    | _ => .error .panic
  | _, _ => .error .panic

/-- `op_ternary_common.rs:73-75`: promote, then `ext_max`, `ext_min`, `ext_floor_divide`. `bool` and the complex types are
not `ExtReal`. -/
def realPair (a b : DType) : Option Promotion :=
  match promotion a b with
  | none => none
  | some p =>
    match p.res.kind with
    | .bool => none
    | .complex _ _ => none
    | _ => some p

def maximumElem (a b : DType) (v w : Value) : Option Value := (realPair a b).map fun p => extMax (p.self v) (p.other w)

def minimumElem (a b : DType) (v w : Value) : Option Value := (realPair a b).map fun p => extMin (p.self v) (p.other w)

def floorDivideElem (a b : DType) (v w : Value) : Option (Res Value) :=
  (realPair a b).map fun p => extFloorDivide p.res (p.self v) (p.other w)

/-- `op_ternary_common.rs:77`, `:78-81`: the other comparisons. -/
def notEqualElem (a b : DType) (v w : Value) : Option Bool := (promotion a b).map fun p => !valEq (p.self v) (p.other w)

def greaterElem (a b : DType) (v w : Value) : Option Bool := (promotion a b).map fun p => valLt (p.other w) (p.self v)

def lessEqualElem (a b : DType) (v w : Value) : Option Bool :=
  (promotion a b).map fun p => valLt (p.self v) (p.other w) || valEq (p.self v) (p.other w)

def greaterEqualElem (a b : DType) (v w : Value) : Option Bool :=
  (promotion a b).map fun p => valLt (p.other w) (p.self v) || valEq (p.self v) (p.other w)

end Rstsr
