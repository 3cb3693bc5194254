import Verif.Spec.Scalar
/-!
# Specification: putting elements together with an operation that obeys no laws

Floating-point addition is not associative. What a reduction can promise is that it takes in every element
exactly once, in some order and with some placing of brackets. Written without reference to the model.
-/
namespace Spec

/-- A way to put elements together: begin with the start value, take in one more element, or combine two partial
results. -/
inductive Bracket (α : Type) where
  | start
  | feed (b : Bracket α) (x : α)
  | both (b c : Bracket α)

/-- The elements taken in, from left to right. -/
def Bracket.items {α : Type} : Bracket α → List α
  | .start => []
  | .feed b x => b.items ++ [x]
  | .both b c => b.items ++ c.items

/-- The result, given the start value, the step and the combination. -/
def Bracket.value {α σ : Type} (start : σ) (step : σ → α → σ) (combine : σ → σ → σ) : Bracket α → σ
  | .start => start
  | .feed b x => step (b.value start step combine) x
  | .both b c => combine (b.value start step combine) (c.value start step combine)

/-- `v` is what some way to put together exactly the elements of `xs` gives. -/
def BracketOf {α σ : Type} (start : σ) (step : σ → α → σ) (combine : σ → σ → σ) (xs : List α) (v : σ) : Prop :=
  ∃ b : Bracket α, b.items.Perm xs ∧ v = b.value start step combine

/-- The number that a finite float stands for. -/
def Flt.rat? : Flt → Option ℚ
  | .num q => some q
  | .negZero => some 0
  | .inf _ => none
  | .nan _ => none

/-- The same, as a number; only meant for finite floats. -/
def Flt.val (x : Flt) : ℚ := x.rat?.getD 0

def Flt.IsNaN (x : Flt) : Prop := ∃ s, x = .nan s

/-- A finite float of the format. -/
def Flt.Finite (prec emax : Nat) (x : Flt) : Prop := ∃ q, x.rat? = some q ∧ Representable prec emax q

/-- The greatest finite number of the format. -/
def maxFinite (prec emax : Nat) : ℚ := (2 ^ prec - 1) * 2 ^ ((emax : Int) + 1 - prec)

/-- What IEEE 754 says about addition when the result is in range: the sum is a float nearest to the exact sum.
How ties are broken and which sign a zero has is left open. A sum with not-a-number is not-a-number. -/
structure NearestAdd (prec emax : Nat) (add : Flt → Flt → Flt) : Prop where
  nearest : ∀ x y, x.Finite prec emax → y.Finite prec emax → |x.val + y.val| ≤ maxFinite prec emax →
    (add x y).Finite prec emax ∧ ∀ s, Representable prec emax s → |(add x y).val - (x.val + y.val)| ≤ |s - (x.val + y.val)|
  nan : ∀ x y, x.IsNaN ∨ y.IsNaN → (add x y).IsNaN

/-- `v` is the least of the numbers in `xs`; infinities count, not-a-number does not. -/
def LeastNumber (xs : List Flt) (v : Flt) : Prop :=
  ∃ u, v.extended = some u ∧ (∃ x ∈ xs, x.extended = some u) ∧ ∀ x ∈ xs, ∀ w, x.extended = some w → u ≤ w

/-- `v` is the greatest of the numbers in `xs`. -/
def GreatestNumber (xs : List Flt) (v : Flt) : Prop :=
  ∃ u, v.extended = some u ∧ (∃ x ∈ xs, x.extended = some u) ∧ ∀ x ∈ xs, ∀ w, x.extended = some w → w ≤ u

end Spec
