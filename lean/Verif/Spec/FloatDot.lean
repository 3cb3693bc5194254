import Verif.Spec.FloatSum
import Verif.Spec.Matmul
import Verif.Spec.Vecdot
/-!
# Specification: products of matrices whose elements obey no laws

What a product can promise for floats: every pair of factors is multiplied once, and the products are put
together with `alpha`, `beta` and the old element in one of two ways. Written without reference to the model.
-/
namespace Spec
variable {α β γ : Type}

/-- Terms added to a start value one after the other, from the left or from the right. -/
inductive Adds (plus : γ → γ → γ) (start : γ) : List γ → γ → Prop where
  | none : Adds plus start [] start
  | before {ts : List γ} {v : γ} (t : γ) : Adds plus start ts v → Adds plus start (ts ++ [t]) (plus t v)
  | after {ts : List γ} {v : γ} (t : γ) : Adds plus start ts v → Adds plus start (ts ++ [t]) (plus v t)

/-- The ways to compute `beta * v + alpha * (x₁ y₁ + x₂ y₂ + …)`: multiply every product with `alpha` and add them to
`beta * v` one by one, or add the products first, in some order and with some brackets. -/
inductive MatWay (mul : α → β → γ) (times plus : γ → γ → γ) (zero alpha beta v : γ) (ps : List (α × β)) : γ → Prop where
  | spread {r : γ} (h : Adds plus (times beta v) (ps.map fun p => times alpha (mul p.1 p.2)) r) :
      MatWay mul times plus zero alpha beta v ps r
  | gathered {s r : γ} (h : BracketOf zero (fun acc p => plus acc (mul p.1 p.2)) plus ps s)
      (hr : r = plus (times s alpha) (times v beta) ∨ r = plus (times v beta) (times s alpha)) :
      MatWay mul times plus zero alpha beta v ps r

/-- Every element of `D` is related to the element of `C` at its place, and to its row of `A` and column of `B`. -/
def MatUpdateBy (o : Order) (P : List (α × β) → γ → γ → Prop) (A : Arr α) (B : Arr β)
    (batchA batchB batch rows cols : List Nat) (K : Nat) (C D : Arr γ) : Prop :=
  D.shape = C.shape ∧ ∀ t i j, InRange t batch → InRange i rows → InRange j cols →
    ∃ (v r : γ) (x : Nat → α) (y : Nat → β), C.elem (glue o t (i ++ j)) = some v ∧ D.elem (glue o t (i ++ j)) = some r ∧
      (∀ k < K, A.elem (glue o (stretchIndex o batchA t) (i ++ [k])) = some (x k) ∧
        B.elem (glue o (stretchIndex o batchB t) (k :: j)) = some (y k)) ∧
      P ((List.range K).map fun k => (x k, y k)) v r

/-- Every element of `D` is related to its row of `A` and column of `B`. -/
def MatCells (o : Order) (P : List (α × β) → γ → Prop) (A : Arr α) (B : Arr β)
    (batchA batchB batch rows cols : List Nat) (K : Nat) (D : Arr γ) : Prop :=
  ∀ t i j, InRange t batch → InRange i rows → InRange j cols →
    ∃ (r : γ) (x : Nat → α) (y : Nat → β), D.elem (glue o t (i ++ j)) = some r ∧
      (∀ k < K, A.elem (glue o (stretchIndex o batchA t) (i ++ [k])) = some (x k) ∧
        B.elem (glue o (stretchIndex o batchB t) (k :: j)) = some (y k)) ∧
      P ((List.range K).map fun k => (x k, y k)) r

/-- `R` is put together from `A` and `B` along the axis pairs `(SA[t], SB[t])` as `IsVecdot` says, but instead of the sum
of the products its element is related by `P` to the list of the pairs of factors. -/
def VecdotBy (o : Order) (P : List (α × β) → γ → Prop) (A : Arr α) (SA : List Nat) (B : Arr β) (SB : List Nat) (R : Arr γ) : Prop :=
  let restA := takeAxes (otherAxes A.shape.length SA) A.shape
  let restB := takeAxes (otherAxes B.shape.length SB) B.shape
  BroadcastOf o restA restB R.shape ∧ ∀ j, InRange j R.shape →
    ∃ (x : List Nat → α) (y : List Nat → β) (r : γ),
      (∀ i, InRange i (takeAxes SA A.shape) →
        A.elem (mergeIndex A.shape.length SA i (stretchIndex o restA j)) = some (x i) ∧
        B.elem (mergeIndex B.shape.length SB i (stretchIndex o restB j)) = some (y i)) ∧
      R.elem j = some r ∧ P ((all .C (takeAxes SA A.shape)).map fun i => (x i, y i)) r

/-- What IEEE 754 says about multiplication when the result is in range. -/
structure NearestMul (prec emax : Nat) (mul : Flt → Flt → Flt) : Prop where
  nearest : ∀ x y, x.Finite prec emax → y.Finite prec emax → |x.val * y.val| ≤ maxFinite prec emax →
    (mul x y).Finite prec emax ∧ ∀ s, Representable prec emax s → |(mul x y).val - x.val * y.val| ≤ |s - x.val * y.val|
  nan : ∀ x y, x.IsNaN ∨ y.IsNaN → (mul x y).IsNaN

/-- Half of the smallest positive number of the format: the error of a product that underflows. -/
def halfTiny (prec emax : Nat) : ℚ := 2 ^ (2 - (emax : Int) - prec) / 2

/-- The factors of a sum of products are finite and far enough from overflow. -/
def DotInRange (prec emax : Nat) (ps : List (Flt × Flt)) : Prop :=
  (∀ q ∈ ps, q.1.Finite prec emax ∧ q.2.Finite prec emax) ∧
  (1 + 1 / 2 ^ prec) ^ ps.length * (ps.map fun q => |q.1.val * q.2.val|).sum +
    (1 + 1 / 2 ^ prec) ^ (ps.length - 1) * (ps.length * halfTiny prec emax) ≤ maxFinite prec emax

/-- A sum of `n` products of floats: finite, and its error is at most `(1 + 2⁻ᵖ)ⁿ - 1` times the sum of the absolute
values of the products, and `n (1 + 2⁻ᵖ)ⁿ⁻¹` times half of the smallest positive float. -/
def DotWithin (prec emax : Nat) (ps : List (Flt × Flt)) (v : Flt) : Prop :=
  v.Finite prec emax ∧ |v.val - (ps.map fun q => q.1.val * q.2.val).sum| ≤
    ((1 + 1 / 2 ^ prec) ^ ps.length - 1) * (ps.map fun q => |q.1.val * q.2.val|).sum +
      (1 + 1 / 2 ^ prec) ^ (ps.length - 1) * (ps.length * halfTiny prec emax)

/-- Whole numbers, and few digits suffice for the sum of the absolute values of their products. -/
def WholeDot (prec emax : Nat) (ps : List (Flt × Flt)) : Prop :=
  ∃ z : Flt → Int, (∀ q ∈ ps, (q.1.Finite prec emax ∧ q.1.val = z q.1) ∧ (q.2.Finite prec emax ∧ q.2.val = z q.2)) ∧
    (ps.map fun q => |z q.1 * z q.2|).sum ≤ 2 ^ prec

/-- Whole numbers, and few digits suffice for `beta * v + alpha * (x₁ y₁ + x₂ y₂ + …)` and for what is computed on
the way. -/
def WholeProducts (prec emax : Nat) (alpha beta v : Flt) (ps : List (Flt × Flt)) : Prop :=
  ∃ z : Flt → Int, (∀ x, x = alpha ∨ x = beta ∨ x = v → x.Finite prec emax ∧ x.val = z x) ∧
    (∀ q ∈ ps, (q.1.Finite prec emax ∧ q.1.val = z q.1) ∧ (q.2.Finite prec emax ∧ q.2.val = z q.2)) ∧
    (ps.map fun q => |z q.1 * z q.2|).sum ≤ 2 ^ prec ∧
    |z beta * z v| + |z alpha| * (ps.map fun q => |z q.1 * z q.2|).sum ≤ 2 ^ prec

end Spec
