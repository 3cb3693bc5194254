import Verif.Spec.Close
/-! # Specification: functions of single elements (Array API definitions) -/
namespace Spec

/-- Absolute value. -/
def IsAbs (x y : Flt) : Prop :=
  match x with
  | .nan _ => ∃ s, y = .nan s
  | .inf _ => y = .inf false
  | x => ∃ q, x.finite = some q ∧ y = .num |q|

/-- Sign: one of -1, 0 and 1, and not-a-number for not-a-number. -/
def IsSign (x y : Flt) : Prop :=
  match x with
  | .nan s => y = .nan s
  | .inf s => y = .num (if s then -1 else 1)
  | x => ∃ q, x.finite = some q ∧ y = .num (if 0 < q then 1 else if q < 0 then -1 else 0)

/-- Whether the sign bit is set: the number is negative or the negative zero. -/
def SignBit : Flt → Bool
  | .nan s => s
  | .inf s => s
  | .negZero => true
  | .num q => q < 0

/-- `n` is the nearest integer, the even one of two. -/
def IsRoundEven (q : ℚ) (n : Int) : Prop :=
  (∀ m : Int, |(n : ℚ) - q| ≤ |(m : ℚ) - q|) ∧ ((∃ m : Int, m ≠ n ∧ |(m : ℚ) - q| = |(n : ℚ) - q|) → n % 2 = 0)

/-- `n` is the quotient with the fraction dropped. -/
def IsTrunc (q : ℚ) (n : Int) : Prop := |(n : ℚ)| ≤ |q| ∧ |q| < |(n : ℚ)| + 1 ∧ 0 ≤ n * q

/-- The larger one of two elements. -/
def IsMaximum (v w u : Value) : Prop :=
  (∀ x y, v.number.1.extended = some x → w.number.1.extended = some y → u.number.1.extended = some (max x y)) ∧
  (v.number.1.extended = none → u.number = w.number) ∧
  (w.number.1.extended = none → v.number.1.extended ≠ none → u.number = v.number)

/-- The smaller one of two elements. -/
def IsMinimum (v w u : Value) : Prop :=
  (∀ x y, v.number.1.extended = some x → w.number.1.extended = some y → u.number.1.extended = some (min x y)) ∧
  (v.number.1.extended = none → u.number = w.number) ∧
  (w.number.1.extended = none → v.number.1.extended ≠ none → u.number = v.number)

end Spec
