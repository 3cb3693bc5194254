import Verif.Model.Creation
import Verif.Spec.Scalar
/-!
# Model: conversions between element types
-/
namespace Rstsr
open Spec

/-! ## Rust's `as` -/

/-- The unit in the last place of a number in a format: `prec` digits, but never below the smallest subnormal
number. -/
def ulpExp (prec emax : Nat) (q : ℚ) : Int := max (Int.log 2 |q| + 1 - prec) (2 - emax - prec)

/-- The nearest multiple of the last place, ties to even. -/
def roundTo (prec emax : Nat) (q : ℚ) : ℚ :=
  if q = 0 then 0 else roundHalfEven (q / 2 ^ ulpExp prec emax q) * 2 ^ ulpExp prec emax q

/-- IEEE 754 rounding of a number to a format: to nearest, ties to even, overflow to infinity, and a negative
number that rounds to zero gives the negative zero. This is Rust's `as f32` and `as f64`, and the last step of
every floating-point operation. -/
def roundFlt (prec emax : Nat) (q : ℚ) : Flt :=
  if 2 ^ (emax + 1) ≤ |roundTo prec emax q| then .inf (q < 0)
  else if roundTo prec emax q = 0 ∧ q < 0 then .negZero
  else .num (roundTo prec emax q)

/-- Conversion between float formats. -/
def fltConvert (prec emax : Nat) : Flt → Flt
  | .num q => roundFlt prec emax q
  | x => x

/-- Integer to integer: keep the low bits. -/
def wrapInt : Kind → Int → Int
  | .uint b, n => n % 2 ^ b
  | .int b, n => (n + 2 ^ (b - 1)) % 2 ^ b - 2 ^ (b - 1)
  | _, n => n

/-- Float to integer: drop the fraction, saturate, and not-a-number gives 0. -/
def saturate (lo hi : Int) : Flt → Int
  | .nan _ => 0
  | .inf neg => if neg then lo else hi
  | .negZero => 0
  | .num q => max lo (min hi (if q < 0 then ⌈q⌉ else ⌊q⌋))

/-- `val as T` for the numeric primitive types. -/
def castTo (t : DType) : Value → Value
  | .int n =>
    match t.kind with
    | .float p e => .real (roundFlt p e n)
    | k => .int (wrapInt k n)
  | .real x =>
    match t.kind with
    | .float p e => .real (fltConvert p e x)
    | .uint b => .int (saturate 0 (2 ^ b - 1) x)
    | .int b => .int (saturate (-2 ^ (b - 1)) (2 ^ (b - 1) - 1) x)
    | _ => .real x
  | v => v

/-- The type of the parts of a complex type. -/
def partType : DType → DType
  | .c32 => .f32
  | _ => .f64

/-- `Complex::new(re as _, im as _)`. -/
def newComplex (t : DType) (re im : Value) : Value :=
  match castTo (partType t) re, castTo (partType t) im with
  | .real x, .real y => .complex x y
  | v, _ => v

/-- `Complex::new(val as _, 0 as _)` (`promotion.rs:382`, `:400`, `:445`, `:456`, `:470`, `:481`). -/
def realToComplex (t : DType) (v : Value) : Value := newComplex t v (.int 0)

/-- `Complex::new(val.re as _, val.im as _)` (`promotion.rs:396`, `:474`, `:528`, `:538`, `:549`, `:555`). -/
def complexToComplex (t : DType) : Value → Value
  | .complex re im => newComplex t (.real re) (.real im)
  | v => v

/-- `if self { T::one() } else { T::zero() }` (`promotion.rs:130-136`, `:151-157`, `:169-175`). -/
def boolTo (t : DType) : Value → Value
  | .bool b =>
    match t.kind with
    | .bool => .bool b
    | .uint _ => .int (if b then 1 else 0)
    | .int _ => .int (if b then 1 else 0)
    | .float _ _ => .real (.num (if b then 1 else 0))
    | .complex _ _ => .complex (.num (if b then 1 else 0)) (.num 0)
  | v => v

/-! ## Promotion rules -/

/-- An implementation of `DTypePromoteAPI` (`promotion.rs:25-39`): the common type, the two constants and the two
conversions. -/
structure Promotion where
  res : DType
  canCastSelf : Bool
  canCastOther : Bool
  self : Value → Value
  other : Value → Value

/-- A line of one of the tables. -/
structure Row where
  lhs : DType
  rhs : DType
  res : DType
  canCastSelf : Bool
  canCastOther : Bool

/-- `promotion.rs:231-364`, the lines `impl_promotion_asable!(T1, T2, self, other, Res)`. The line for `i8` and
`i16` (231) is part of a comment. -/
def asable : List Row :=
  [⟨.i8, .i32, .i32, false, true⟩, ⟨.i8, .i64, .i64, false, true⟩, ⟨.i8, .u8, .i16, false, false⟩,
   ⟨.i8, .u16, .i32, false, false⟩, ⟨.i8, .u32, .i64, false, false⟩, ⟨.i8, .u64, .f64, false, false⟩,
   ⟨.i8, .f32, .f32, false, true⟩, ⟨.i8, .f64, .f64, false, true⟩, ⟨.i16, .i8, .i16, true, false⟩,
   ⟨.i16, .i32, .i32, false, true⟩, ⟨.i16, .i64, .i64, false, true⟩, ⟨.i16, .u8, .i16, true, false⟩,
   ⟨.i16, .u16, .i32, false, false⟩, ⟨.i16, .u32, .i64, false, false⟩, ⟨.i16, .u64, .f64, false, false⟩,
   ⟨.i16, .f32, .f32, false, true⟩, ⟨.i16, .f64, .f64, false, true⟩, ⟨.i32, .i8, .i32, true, false⟩,
   ⟨.i32, .i16, .i32, true, false⟩, ⟨.i32, .i64, .i64, false, true⟩, ⟨.i32, .u8, .i32, true, false⟩,
   ⟨.i32, .u16, .i32, true, false⟩, ⟨.i32, .u32, .i64, false, false⟩, ⟨.i32, .u64, .f64, false, false⟩,
   ⟨.i32, .f32, .f64, false, false⟩, ⟨.i32, .f64, .f64, false, true⟩, ⟨.i64, .i8, .i64, true, false⟩,
   ⟨.i64, .i16, .i64, true, false⟩, ⟨.i64, .i32, .i64, true, false⟩, ⟨.i64, .u8, .i64, true, false⟩,
   ⟨.i64, .u16, .i64, true, false⟩, ⟨.i64, .u32, .i64, true, false⟩, ⟨.i64, .u64, .f64, false, false⟩,
   ⟨.i64, .f32, .f64, false, false⟩, ⟨.i64, .f64, .f64, false, true⟩, ⟨.u8, .i8, .i16, false, false⟩,
   ⟨.u8, .i16, .i16, false, true⟩, ⟨.u8, .i32, .i32, false, true⟩, ⟨.u8, .i64, .i64, false, true⟩,
   ⟨.u8, .u16, .u16, false, true⟩, ⟨.u8, .u32, .u32, false, true⟩, ⟨.u8, .u64, .u64, false, true⟩,
   ⟨.u8, .f32, .f32, false, true⟩, ⟨.u8, .f64, .f64, false, true⟩, ⟨.u16, .i8, .i32, false, false⟩,
   ⟨.u16, .i16, .i32, false, false⟩, ⟨.u16, .i32, .i32, false, true⟩, ⟨.u16, .i64, .i64, false, true⟩,
   ⟨.u16, .u8, .u16, true, false⟩, ⟨.u16, .u32, .u32, false, true⟩, ⟨.u16, .u64, .u64, false, true⟩,
   ⟨.u16, .f32, .f32, false, true⟩, ⟨.u16, .f64, .f64, false, true⟩, ⟨.u32, .i8, .i64, false, false⟩,
   ⟨.u32, .i16, .i64, false, false⟩, ⟨.u32, .i32, .i64, false, false⟩, ⟨.u32, .i64, .i64, false, true⟩,
   ⟨.u32, .u8, .u32, true, false⟩, ⟨.u32, .u16, .u32, true, false⟩, ⟨.u32, .u64, .u64, false, true⟩,
   ⟨.u32, .f32, .f64, false, false⟩, ⟨.u32, .f64, .f64, false, true⟩, ⟨.u64, .i8, .f64, false, false⟩,
   ⟨.u64, .i16, .f64, false, false⟩, ⟨.u64, .i32, .f64, false, false⟩, ⟨.u64, .i64, .f64, false, false⟩,
   ⟨.u64, .u8, .u64, true, false⟩, ⟨.u64, .u16, .u64, true, false⟩, ⟨.u64, .u32, .u64, true, false⟩,
   ⟨.u64, .f32, .f64, false, false⟩, ⟨.u64, .f64, .f64, false, true⟩, ⟨.f32, .i8, .f32, true, false⟩,
   ⟨.f32, .i16, .f32, true, false⟩, ⟨.f32, .i32, .f64, false, false⟩, ⟨.f32, .i64, .f64, false, false⟩,
   ⟨.f32, .u8, .f32, true, false⟩, ⟨.f32, .u16, .f32, true, false⟩, ⟨.f32, .u32, .f64, false, false⟩,
   ⟨.f32, .u64, .f64, false, false⟩, ⟨.f32, .f64, .f64, false, true⟩, ⟨.f64, .i8, .f64, true, false⟩,
   ⟨.f64, .i16, .f64, true, false⟩, ⟨.f64, .i32, .f64, true, false⟩, ⟨.f64, .i64, .f64, true, false⟩,
   ⟨.f64, .u8, .f64, true, false⟩, ⟨.f64, .u16, .f64, true, false⟩, ⟨.f64, .u32, .f64, true, false⟩,
   ⟨.f64, .u64, .f64, true, false⟩, ⟨.f64, .f32, .f64, true, false⟩, ⟨.isize, .i8, .isize, true, false⟩,
   ⟨.isize, .i16, .isize, true, false⟩, ⟨.isize, .i32, .isize, true, false⟩,
   ⟨.isize, .i64, .isize, true, true⟩, ⟨.isize, .u8, .isize, true, false⟩, ⟨.isize, .u16, .isize, true, false⟩,
   ⟨.isize, .u32, .isize, true, false⟩, ⟨.isize, .u64, .f64, false, false⟩, ⟨.isize, .f32, .f64, false, false⟩,
   ⟨.isize, .f64, .f64, false, true⟩, ⟨.i8, .isize, .isize, false, true⟩, ⟨.i16, .isize, .isize, false, true⟩,
   ⟨.i32, .isize, .isize, false, true⟩, ⟨.i64, .isize, .isize, true, true⟩, ⟨.u8, .isize, .isize, false, true⟩,
   ⟨.u16, .isize, .isize, false, true⟩, ⟨.u32, .isize, .isize, false, true⟩,
   ⟨.u64, .isize, .f64, false, false⟩, ⟨.f32, .isize, .f64, false, false⟩, ⟨.f64, .isize, .f64, true, false⟩,
   ⟨.usize, .i8, .f64, false, false⟩, ⟨.usize, .i16, .f64, false, false⟩, ⟨.usize, .i32, .f64, false, false⟩,
   ⟨.usize, .i64, .f64, false, false⟩, ⟨.usize, .u8, .usize, true, false⟩, ⟨.usize, .u16, .usize, true, false⟩,
   ⟨.usize, .u32, .usize, true, false⟩, ⟨.usize, .u64, .usize, true, true⟩, ⟨.usize, .f32, .f64, false, false⟩,
   ⟨.usize, .f64, .f64, false, true⟩, ⟨.i8, .usize, .f64, false, false⟩, ⟨.i16, .usize, .f64, false, false⟩,
   ⟨.i32, .usize, .f64, false, false⟩, ⟨.i64, .usize, .f64, false, false⟩, ⟨.u8, .usize, .usize, false, true⟩,
   ⟨.u16, .usize, .usize, false, true⟩, ⟨.u32, .usize, .usize, false, true⟩,
   ⟨.u64, .usize, .usize, true, true⟩, ⟨.f32, .usize, .f64, false, false⟩, ⟨.f64, .usize, .f64, true, false⟩]

/-- `promotion.rs:406-431`, the lines `impl_promotion_complex_primitive_*!(part, T2, self, other, part of Res)`. -/
def complexPrimitive : List Row :=
  [⟨.c32, .i8, .c32, true, false⟩, ⟨.c32, .i16, .c32, true, false⟩, ⟨.c32, .u8, .c32, true, false⟩,
   ⟨.c32, .u16, .c32, true, false⟩, ⟨.c32, .f32, .c32, true, false⟩, ⟨.c64, .i8, .c64, true, false⟩,
   ⟨.c64, .i16, .c64, true, false⟩, ⟨.c64, .i32, .c64, true, false⟩, ⟨.c64, .i64, .c64, true, false⟩,
   ⟨.c64, .isize, .c64, true, false⟩, ⟨.c64, .u8, .c64, true, false⟩, ⟨.c64, .u16, .c64, true, false⟩,
   ⟨.c64, .u32, .c64, true, false⟩, ⟨.c64, .u64, .c64, true, false⟩, ⟨.c64, .usize, .c64, true, false⟩,
   ⟨.c64, .f32, .c64, true, false⟩, ⟨.c64, .f64, .c64, true, false⟩, ⟨.c32, .i32, .c64, false, false⟩,
   ⟨.c32, .i64, .c64, false, false⟩, ⟨.c32, .isize, .c64, false, false⟩, ⟨.c32, .u32, .c64, false, false⟩,
   ⟨.c32, .u64, .c64, false, false⟩, ⟨.c32, .usize, .c64, false, false⟩, ⟨.c32, .f64, .c64, false, false⟩]

/-- `promotion.rs:487-512`, the lines `impl_promotion_primitive_complex_*!(part, T1, self, other, part of Res)`. -/
def primitiveComplex : List Row :=
  [⟨.i8, .c32, .c32, false, true⟩, ⟨.i16, .c32, .c32, false, true⟩, ⟨.u8, .c32, .c32, false, true⟩,
   ⟨.u16, .c32, .c32, false, true⟩, ⟨.f32, .c32, .c32, false, true⟩, ⟨.i8, .c64, .c64, false, true⟩,
   ⟨.i16, .c64, .c64, false, true⟩, ⟨.i32, .c64, .c64, false, true⟩, ⟨.i64, .c64, .c64, false, true⟩,
   ⟨.isize, .c64, .c64, false, true⟩, ⟨.u8, .c64, .c64, false, true⟩, ⟨.u16, .c64, .c64, false, true⟩,
   ⟨.u32, .c64, .c64, false, true⟩, ⟨.u64, .c64, .c64, false, true⟩, ⟨.usize, .c64, .c64, false, true⟩,
   ⟨.f32, .c64, .c64, false, true⟩, ⟨.f64, .c64, .c64, false, true⟩, ⟨.i32, .c32, .c64, false, false⟩,
   ⟨.i64, .c32, .c64, false, false⟩, ⟨.isize, .c32, .c64, false, false⟩, ⟨.u32, .c32, .c64, false, false⟩,
   ⟨.u64, .c32, .c64, false, false⟩, ⟨.usize, .c32, .c64, false, false⟩, ⟨.f64, .c32, .c64, false, false⟩]

/-- `promotion.rs:518-544`. -/
def complexComplex : List Row := [⟨.c64, .c32, .c64, true, false⟩, ⟨.c32, .c64, .c64, false, true⟩]

def lookup (rows : List Row) (a b : DType) : Option Row := rows.find? fun r => r.lhs == a && r.rhs == b

/-- The implementation of `DTypePromoteAPI<b> for a`, if there is one. The conversions are those of the macro that
makes it: `promotion.rs:41-54` (same type), `:124-158` (`bool`), `:206-220` (`as`), `:370-404` (complex and
primitive: `cast_self` returns the complex number as it is, which is what the conversion to the same type does),
`:437-476`, `:518-544`. -/
def promotion (a b : DType) : Option Promotion :=
  if a = b then some ⟨a, true, true, id, id⟩
  else if a = .bool then some ⟨b, false, true, boolTo b, id⟩
  else if b = .bool then some ⟨a, true, false, id, boolTo a⟩
  else
    match lookup asable a b with
    | some r => some ⟨r.res, r.canCastSelf, r.canCastOther, castTo r.res, castTo r.res⟩
    | none =>
      match lookup complexPrimitive a b with
      | some r => some ⟨r.res, r.canCastSelf, r.canCastOther,
          if a = r.res then id else complexToComplex r.res, realToComplex r.res⟩
      | none =>
        match lookup primitiveComplex a b with
        | some r => some ⟨r.res, r.canCastSelf, r.canCastOther, realToComplex r.res,
            if b = r.res ∧ r.res = .c32 then id else complexToComplex r.res⟩
        | none =>
          match lookup complexComplex a b with
          | some r => some ⟨r.res, r.canCastSelf, r.canCastOther,
              if a = r.res then id else complexToComplex r.res, if b = r.res then id else complexToComplex r.res⟩
          | none => none

/-- The implementation of `DTypeCastAPI<b> for a`, if there is one (`promotion.rs:56-61`, `:160-176`, `:222-227`,
`:453-458`, `:478-483`, `:546-558`). A complex number is not cast to a primitive type. -/
def castRule (a b : DType) : Option (Value → Value) :=
  if a = b then some id
  else if a = .bool then some (boolTo b)
  else if b = .bool then some fun v => .bool (v.number != (.num 0, .num 0) && v.number != (.negZero, .num 0) &&
    v.number != (.num 0, .negZero) && v.number != (.negZero, .negZero))
  else
    match lookup asable a b with
    | some _ => some (castTo b)
    | none =>
      match lookup primitiveComplex a b with
      | some _ => some (realToComplex b)
      | none =>
        match lookup complexComplex a b with
        | some _ => some (complexToComplex b)
        | none => none

/-! ## Comparisons -/

/-- IEEE `==`. -/
def fltEq : Flt → Flt → Bool
  | .nan _, _ => false
  | _, .nan _ => false
  | .inf s, .inf t => s == t
  | .inf _, _ => false
  | _, .inf _ => false
  | .negZero, .negZero => true
  | .negZero, .num q => q == 0
  | .num q, .negZero => q == 0
  | .num q, .num r => q == r

/-- IEEE `<`. -/
def fltLt : Flt → Flt → Bool
  | .nan _, _ => false
  | _, .nan _ => false
  | .inf s, .inf t => s && !t
  | .inf s, _ => s
  | _, .inf t => !t
  | .negZero, .negZero => false
  | .negZero, .num q => decide (0 < q)
  | .num q, .negZero => decide (q < 0)
  | .num q, .num r => decide (q < r)

/-- `a == b` on two elements of one type. -/
def valEq : Value → Value → Bool
  | .bool x, .bool y => x == y
  | .int x, .int y => x == y
  | .real x, .real y => fltEq x y
  | .complex x x', .complex y y' => fltEq x y && fltEq x' y'
  | _, _ => false

/-- `a < b` on two elements of one real type. -/
def valLt : Value → Value → Bool
  | .bool x, .bool y => !x && y
  | .int x, .int y => decide (x < y)
  | .real x, .real y => fltLt x y
  | _, _ => false

/-- `rstsr-core/src/device_cpu_serial/operators/op_ternary_common.rs:76-79`, `:100-103`: `equal` and `less` on a
pair of elements promote and compare. -/
def equalElem (a b : DType) (v w : Value) : Option Bool :=
  (promotion a b).map fun p => valEq (p.self v) (p.other w)

def lessElem (a b : DType) (v w : Value) : Option Bool :=
  (promotion a b).map fun p => valLt (p.self v) (p.other w)

end Rstsr
