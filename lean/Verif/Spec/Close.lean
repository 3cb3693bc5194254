import Verif.Spec.Scalar
/-! # Specification: closeness -/
namespace Spec

/-- The number a finite floating-point value stands for. -/
def Flt.finite : Flt → Option ℚ
  | .negZero => some 0
  | .num q => some q
  | _ => none

/-- `v` is close to the reference value `w`: for finite numbers `|v - w| <= atol + rtol * |w|`; an infinity is close to
itself only; not-a-number is close to nothing, or to itself if asked for. -/
def Close (rtol atol : ℚ) (equalNan : Bool) (v w : Value) : Prop :=
  match v.number.1, w.number.1 with
  | .nan _, .nan _ => equalNan = true
  | .inf s, .inf t => s = t
  | x, y => ∃ q r, x.finite = some q ∧ y.finite = some r ∧ |q - r| ≤ atol + rtol * |r|

/-- The unit roundoff of arithmetic in a type, and half its smallest positive number. Integer differences are exact until
they are turned into a double. -/
def Kind.roundoff : Kind → ℚ
  | .float p _ => 1 / 2 ^ p
  | _ => 1 / 2 ^ 53

def Kind.tiny : Kind → ℚ
  | .float p e => 1 / 2 ^ (p + e - 1)
  | _ => 1 / 2 ^ 1075

/-- The difference and the reference value do not overflow in the common type. -/
def Kind.HoldsDiff (q r : ℚ) : Kind → Prop
  | .int b => |q - r| < 2 ^ (b - 1) ∧ |r| < 2 ^ (b - 1)
  | .float _ e => |q - r| ≤ 2 ^ e
  | _ => True

end Spec
