import Mathlib.Data.Int.Log
import Mathlib.Data.Rat.Floor
/-!
# Specification: element types and the numbers they hold

Written from the definition of the Rust primitive types and of IEEE 754, without reference to the model.
-/
namespace Spec

/-- The element types the library gives conversion rules for. `usize` and `isize` have 64 bits. -/
inductive DType
  | bool | u8 | u16 | u32 | u64 | usize | i8 | i16 | i32 | i64 | isize | f16 | bf16 | f32 | f64 | c32 | c64
  deriving DecidableEq, Repr

/-- A floating-point value: not-a-number or infinity with a sign bit, the negative zero, or a number. -/
inductive Flt
  | nan (neg : Bool)
  | inf (neg : Bool)
  | negZero
  | num (q : ℚ)
  deriving DecidableEq, Repr

/-- What kind of numbers a type holds. A float is given by its precision and its greatest exponent. -/
inductive Kind
  | bool
  | uint (bits : Nat)
  | int (bits : Nat)
  | float (prec emax : Nat)
  | complex (prec emax : Nat)
  deriving DecidableEq, Repr

def DType.kind : DType → Kind
  | .bool => .bool
  | .u8 => .uint 8
  | .u16 => .uint 16
  | .u32 => .uint 32
  | .u64 => .uint 64
  | .usize => .uint 64
  | .i8 => .int 8
  | .i16 => .int 16
  | .i32 => .int 32
  | .i64 => .int 64
  | .isize => .int 64
  | .f16 => .float 11 15
  | .bf16 => .float 8 127
  | .f32 => .float 24 127
  | .f64 => .float 53 1023
  | .c32 => .complex 24 127
  | .c64 => .complex 53 1023

/-- A number with `prec` binary digits in the exponent range of the format, subnormal numbers included. -/
def Representable (prec emax : Nat) (q : ℚ) : Prop :=
  ∃ m k : Int, |m| < 2 ^ prec ∧ 2 - (emax : Int) - prec ≤ k ∧ k ≤ emax + 1 - prec ∧ q = m * 2 ^ k

/-- The floating-point values of a format. -/
def Flt.Fits (prec emax : Nat) : Flt → Prop
  | .num q => Representable prec emax q
  | _ => True

/-- An element. -/
inductive Value
  | bool (b : Bool)
  | int (n : Int)
  | real (x : Flt)
  | complex (re im : Flt)
  deriving DecidableEq, Repr

/-- The values of a kind. -/
def Kind.Has : Kind → Value → Prop
  | .bool, .bool _ => True
  | .uint b, .int n => 0 ≤ n ∧ n < 2 ^ b
  | .int b, .int n => -2 ^ (b - 1) ≤ n ∧ n < 2 ^ (b - 1)
  | .float p e, .real x => x.Fits p e
  | .complex p e, .complex re im => re.Fits p e ∧ im.Fits p e
  | _, _ => False

/-- The values of a type. -/
def DType.Has (t : DType) (v : Value) : Prop := t.kind.Has v

/-- The number an element stands for: its real and imaginary part. `false` is 0 and `true` is 1. -/
def Value.number : Value → Flt × Flt
  | .bool b => (.num (if b then 1 else 0), .num 0)
  | .int n => (.num n, .num 0)
  | .real x => (x, .num 0)
  | .complex re im => (re, im)

/-- Type `b` is taken to hold every value of type `a`: it does, or it is a double (or pair of doubles) and `a`
a 64-bit integer type. -/
def Widens : Kind → Kind → Bool
  | .bool, _ => true
  | .uint m, .uint n => m ≤ n
  | .uint m, .int n => m < n
  | .uint m, .float p _ => m ≤ p || p == 53
  | .uint m, .complex p _ => m ≤ p || p == 53
  | .int m, .int n => m ≤ n
  | .int m, .float p _ => m ≤ p + 1 || p == 53
  | .int m, .complex p _ => m ≤ p + 1 || p == 53
  | .float p e, .float p' e' => p ≤ p' && e ≤ e'
  | .float p e, .complex p' e' => p ≤ p' && e ≤ e'
  | .complex p e, .complex p' e' => p ≤ p' && e ≤ e'
  | _, _ => false

/-- Integers come before floats and floats before complex numbers; within a class, narrow types come first. -/
def Kind.rank : Kind → Nat × Nat
  | .bool => (0, 1)
  | .uint b => (1, b)
  | .int b => (1, b)
  | .float p e => (2, p + e)
  | .complex p e => (3, p + e)

def rankLe (x y : Nat × Nat) : Bool := x.1 < y.1 || (x.1 == y.1 && x.2 ≤ y.2)

/-- `r` is the first type in that order that holds the values of both `a` and `b`. -/
def IsCommonType (a b r : DType) : Prop :=
  Widens a.kind r.kind = true ∧ Widens b.kind r.kind = true ∧
    ∀ c : DType, Widens a.kind c.kind = true → Widens b.kind c.kind = true → rankLe r.kind.rank c.kind.rank = true

/-- The place of a floating-point value on the line from minus to plus infinity; not-a-number has none. -/
def Flt.extended : Flt → Option (WithBot (WithTop ℚ))
  | .nan _ => none
  | .inf true => some ⊥
  | .inf false => some (((⊤ : WithTop ℚ)) : WithBot (WithTop ℚ))
  | .negZero => some (((0 : ℚ) : WithTop ℚ) : WithBot (WithTop ℚ))
  | .num q => some ((q : WithTop ℚ) : WithBot (WithTop ℚ))

/-- The number of `v` is less than that of `w`; both are real and neither is not-a-number. -/
def Value.Less (v w : Value) : Prop :=
  ∃ x y, v.number.1.extended = some x ∧ w.number.1.extended = some y ∧ x < y

/-- `v` and `w` are the same real number. -/
def Value.Same (v w : Value) : Prop :=
  ∃ x, v.number.1.extended = some x ∧ w.number.1.extended = some x

/-- An integer of 64 bits meets a float: the one case in which a conversion to the common type may round. -/
def Kind.wide : Kind → Bool
  | .uint b => b == 64
  | .int b => b == 64
  | _ => false

def Kind.floating : Kind → Bool
  | .float _ _ => true
  | .complex _ _ => true
  | _ => false

end Spec
