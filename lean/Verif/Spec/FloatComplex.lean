import Verif.Spec.FloatMean
import Verif.Spec.Complex
/-!
# Specification: complex numbers whose parts are floats

Written without reference to the model.
-/
namespace Spec

/-- One of the parts is not-a-number. -/
def Cx.SomeNaN (z : Cx Flt) : Prop := z.re.IsNaN ∨ z.im.IsNaN

/-- Both parts are not-a-number. -/
def Cx.BothNaN (z : Cx Flt) : Prop := z.re.IsNaN ∧ z.im.IsNaN

/-- A sum or difference of two products `x` and `y` stays in range. -/
def PairInRange (prec emax : Nat) (x y : ℚ) : Prop :=
  (1 + 1 / 2 ^ prec) * (|x| + |y|) + 2 * halfTiny prec emax ≤ maxFinite prec emax

/-- `v` stands for `exact`, which is a sum or difference of the products `x` and `y`: finite, and the error is at most
`(1 + 2⁻ᵖ)² - 1` times the sum of the absolute values, and little more than the smallest positive float. -/
def PairWithin (prec emax : Nat) (x y exact : ℚ) (v : Flt) : Prop :=
  v.Finite prec emax ∧ |v.val - exact| ≤ ((1 + 1 / 2 ^ prec) ^ 2 - 1) * (|x| + |y|) + 2 * (1 + 1 / 2 ^ prec) * halfTiny prec emax

/-- The parts of the factors are finite and the parts of the product are far enough from overflow. -/
def CxMulInRange (prec emax : Nat) (z w : Cx Flt) : Prop :=
  (z.re.Finite prec emax ∧ z.im.Finite prec emax) ∧ (w.re.Finite prec emax ∧ w.im.Finite prec emax) ∧
  PairInRange prec emax (z.re.val * w.re.val) (z.im.val * w.im.val) ∧
  PairInRange prec emax (z.re.val * w.im.val) (z.im.val * w.re.val)

/-- `(a + b i) (c + d i)` is `(a c - b d) + (a d + b c) i`, but for rounding. -/
def CxMulWithin (prec emax : Nat) (z w v : Cx Flt) : Prop :=
  PairWithin prec emax (z.re.val * w.re.val) (z.im.val * w.im.val) (z.re.val * w.re.val - z.im.val * w.im.val) v.re ∧
  PairWithin prec emax (z.re.val * w.im.val) (z.im.val * w.re.val) (z.re.val * w.im.val + z.im.val * w.re.val) v.im

/-- There are elements, not too many, and the sum times the number of elements does not overflow. -/
def CxMeanInRange (prec emax : Nat) (zs : List (Cx Flt)) : Prop :=
  zs ≠ [] ∧ zs.length ≤ 2 ^ prec ∧ (zs.length : ℚ) * zs.length ≤ maxFinite prec emax ∧
  (∀ z ∈ zs, z.re.Finite prec emax ∧ z.im.Finite prec emax) ∧
  (1 + 1 / 2 ^ prec) ^ (zs.length - 1) * (zs.map fun z => |z.re.val|).sum * zs.length ≤ maxFinite prec emax ∧
  (1 + 1 / 2 ^ prec) ^ (zs.length - 1) * (zs.map fun z => |z.im.val|).sum * zs.length ≤ maxFinite prec emax

/-- A part of a mean of complex numbers, whose parts are `xs`: finite, and its error is at most `(1 + 2⁻ᵖ)ⁿ⁺³ - 1` times
the mean of the absolute values, and a little more than the smallest positive float. -/
def PartMeanWithin (prec emax : Nat) (xs : List Flt) (v : Flt) : Prop :=
  v.Finite prec emax ∧ |v.val - meanOf xs| ≤ ((1 + 1 / 2 ^ prec) ^ (xs.length + 3) - 1) * meanAbs xs +
    (1 + (1 + 1 / 2 ^ prec) ^ 3) * halfTiny prec emax

/-- The real part of the mean is the mean of the real parts, and so for the imaginary parts. -/
def CxMeanWithin (prec emax : Nat) (zs : List (Cx Flt)) (v : Cx Flt) : Prop :=
  PartMeanWithin prec emax (zs.map Cx.re) v.re ∧ PartMeanWithin prec emax (zs.map Cx.im) v.im

/-- Sums of `n` complex products do not overflow; the absolute values of the products in the part at hand add up to `m`. -/
def PartDotInRange (prec emax n : Nat) (m : ℚ) : Prop :=
  (1 + 1 / 2 ^ prec) ^ (n + 1) * m + (1 + 1 / 2 ^ prec) ^ n * (2 * n * halfTiny prec emax) ≤ maxFinite prec emax

/-- A part of a sum of `n` complex products: finite, and its error is at most `(1 + 2⁻ᵖ)ⁿ⁺¹ - 1` times the sum `m` of the
absolute values of the products, and `2 n (1 + 2⁻ᵖ)ⁿ` times half of the smallest positive float. -/
def PartDotWithin (prec emax n : Nat) (exact m : ℚ) (v : Flt) : Prop :=
  v.Finite prec emax ∧
    |v.val - exact| ≤ ((1 + 1 / 2 ^ prec) ^ (n + 1) - 1) * m + (1 + 1 / 2 ^ prec) ^ n * (2 * n * halfTiny prec emax)

/-- The products of real with real and imaginary with imaginary parts, in absolute value. -/
def evenSize (ps : List (Cx Flt × Cx Flt)) : ℚ := (ps.map fun q => |q.1.re.val * q.2.re.val| + |q.1.im.val * q.2.im.val|).sum

/-- The products of real with imaginary parts, in absolute value. -/
def oddSize (ps : List (Cx Flt × Cx Flt)) : ℚ := (ps.map fun q => |q.1.re.val * q.2.im.val| + |q.1.im.val * q.2.re.val|).sum

/-- The factors are finite and the sum of the products is far enough from overflow. -/
def CxDotInRange (prec emax : Nat) (ps : List (Cx Flt × Cx Flt)) : Prop :=
  (∀ q ∈ ps, (q.1.re.Finite prec emax ∧ q.1.im.Finite prec emax) ∧ (q.2.re.Finite prec emax ∧ q.2.im.Finite prec emax)) ∧
  PartDotInRange prec emax ps.length (evenSize ps) ∧ PartDotInRange prec emax ps.length (oddSize ps)

/-- `z₁ w₁ + z₂ w₂ + …`, but for rounding. -/
def CxDotWithin (prec emax : Nat) (ps : List (Cx Flt × Cx Flt)) (v : Cx Flt) : Prop :=
  PartDotWithin prec emax ps.length (ps.map fun q => q.1.re.val * q.2.re.val - q.1.im.val * q.2.im.val).sum (evenSize ps) v.re ∧
  PartDotWithin prec emax ps.length (ps.map fun q => q.1.re.val * q.2.im.val + q.1.im.val * q.2.re.val).sum (oddSize ps) v.im

/-- `z̄₁ w₁ + z̄₂ w₂ + …`, but for rounding. -/
def CxInnerWithin (prec emax : Nat) (ps : List (Cx Flt × Cx Flt)) (v : Cx Flt) : Prop :=
  PartDotWithin prec emax ps.length (ps.map fun q => q.1.re.val * q.2.re.val + q.1.im.val * q.2.im.val).sum (evenSize ps) v.re ∧
  PartDotWithin prec emax ps.length (ps.map fun q => q.1.re.val * q.2.im.val - q.1.im.val * q.2.re.val).sum (oddSize ps) v.im

/-- Both parts are whole numbers. -/
def Cx.Whole (prec emax : Nat) (z : Cx Flt) : Prop :=
  (z.re.Finite prec emax ∧ ∃ n : Int, z.re.val = n) ∧ (z.im.Finite prec emax ∧ ∃ n : Int, z.im.val = n)

/-- Whole numbers, and few digits suffice for the sums of the absolute values of the products of their parts. -/
def WholeCxDot (prec emax : Nat) (ps : List (Cx Flt × Cx Flt)) : Prop :=
  (∀ q ∈ ps, q.1.Whole prec emax ∧ q.2.Whole prec emax) ∧ evenSize ps ≤ 2 ^ prec ∧ oddSize ps ≤ 2 ^ prec

/-- `v` is finite and equals `re + im i`. -/
def Cx.Equals (prec emax : Nat) (v : Cx Flt) (re im : ℚ) : Prop :=
  (v.re.Finite prec emax ∧ v.re.val = re) ∧ (v.im.Finite prec emax ∧ v.im.val = im)

/-- A quotient of a sum or difference of the products `x` and `y` by `D` stays in range. -/
def QuotientInRange (prec emax : Nat) (x y D : ℚ) : Prop :=
  PairInRange prec emax x y ∧ 2 * ((|x| + |y|) / D) + 3 * halfTiny prec emax / D ≤ maxFinite prec emax

/-- `v` stands for `exact / D`, where `exact` is a sum or difference of the products `x` and `y`: finite, and the error is
at most eight units of rounding of `(|x| + |y|) / D`, and a multiple of the smallest positive float. -/
def QuotientWithin (prec emax : Nat) (x y exact D : ℚ) (v : Flt) : Prop :=
  v.Finite prec emax ∧ |v.val - exact / D| ≤ 8 / 2 ^ prec * ((|x| + |y|) / D) + 3 * halfTiny prec emax / D + halfTiny prec emax

/-- The parts of the numbers are finite, the square of the absolute value of the divisor is neither too large nor too small,
and the parts of the quotient are far enough from overflow. -/
def CxDivInRange (prec emax : Nat) (z w : Cx Flt) : Prop :=
  (z.re.Finite prec emax ∧ z.im.Finite prec emax) ∧ (w.re.Finite prec emax ∧ w.im.Finite prec emax) ∧
  PairInRange prec emax (w.re.val * w.re.val) (w.im.val * w.im.val) ∧
  2 * (1 + 1 / 2 ^ prec) * halfTiny prec emax ≤ 1 / 2 ^ prec * (w.re.val * w.re.val + w.im.val * w.im.val) ∧
  QuotientInRange prec emax (z.re.val * w.re.val) (z.im.val * w.im.val) (w.re.val * w.re.val + w.im.val * w.im.val) ∧
  QuotientInRange prec emax (z.im.val * w.re.val) (z.re.val * w.im.val) (w.re.val * w.re.val + w.im.val * w.im.val)

/-- `(a + b i) / (c + d i)` is `(a c + b d) / (c² + d²) + (b c - a d) / (c² + d²) i`, but for rounding. -/
def CxDivWithin (prec emax : Nat) (z w v : Cx Flt) : Prop :=
  QuotientWithin prec emax (z.re.val * w.re.val) (z.im.val * w.im.val) (z.re.val * w.re.val + z.im.val * w.im.val)
    (w.re.val * w.re.val + w.im.val * w.im.val) v.re ∧
  QuotientWithin prec emax (z.im.val * w.re.val) (z.re.val * w.im.val) (z.im.val * w.re.val - z.re.val * w.im.val)
    (w.re.val * w.re.val + w.im.val * w.im.val) v.im

/-- A change of sign makes no error and keeps not-a-number. -/
structure ExactNeg (prec emax : Nat) (neg : Flt → Flt) : Prop where
  exact : ∀ x, x.Finite prec emax → (neg x).Finite prec emax ∧ (neg x).val = -x.val
  nan : ∀ x, x.IsNaN → (neg x).IsNaN

end Spec
