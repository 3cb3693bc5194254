import Verif.Spec.FloatMean
import Verif.Spec.Creation
/-!
# Specification: ranges of floats

Written without reference to the model. `wp we` is the format in which the range is computed, `p e` the one of the elements.
-/
namespace Spec

/-- The number of steps on the way from `a` to `b`, not rounded. -/
def stepsOf (a b s : Flt) : ℚ := (b.val - a.val) / s.val

/-- The ends and the step are finite and far enough from overflow, the step leads from the start to the stop, and there are fewer
steps than the working format can count, by a factor of sixteen. -/
def RangeInRange (wp p e : Nat) (a b s : Flt) : Prop :=
  a.Finite p e ∧ b.Finite p e ∧ s.Finite p e ∧ s.val ≠ 0 ∧ 0 ≤ stepsOf a b s ∧ 16 * stepsOf a b s ≤ 2 ^ wp ∧
  8 * (|a.val| + |b.val| + |s.val|) ≤ maxFinite p e

/-- A value of the range: the number of the elements' format that is nearest to a number close to `a + i s`. -/
def RangeWithin (wp we p e : Nat) (a s : Flt) (i : Nat) (x : Flt) : Prop :=
  x.Finite p e ∧ ∃ z : ℚ, |z - (a.val + i * s.val)| ≤ |a.val + i * s.val| * (1 / 2 ^ wp) +
      (1 + 1 / 2 ^ wp) * (|i * s.val| * (1 / 2 ^ wp) + halfTiny wp we) ∧
    ∀ t, Representable p e t → |x.val - z| ≤ |t - z|

/-- `x` lies before `b`, or is `b`, in the direction of `s`. -/
def NotBeyond (b s x : Flt) : Prop := (0 < s.val → x.val ≤ b.val) ∧ (s.val < 0 → b.val ≤ x.val)

/-- `x` lies before `b` in the direction of `s`. -/
def Before (b s x : Flt) : Prop := (0 < s.val → x.val < b.val) ∧ (s.val < 0 → b.val < x.val)

/-- The step is several times larger than the distance of neighbouring floats. -/
def WellResolved (wp we p e : Nat) (a b s : Flt) : Prop :=
  8 * ((1 / 2 ^ wp + 1 / 2 ^ p) * (|a.val| + |b.val|) + (halfTiny wp we + halfTiny p e)) ≤ |s.val|

end Spec
