import Mathlib.MeasureTheory.Constructions.HaarToSphere
import Mathlib.MeasureTheory.Integral.Average
import Mathlib.MeasureTheory.Measure.Haar.InnerProductSpace
import Mathlib.Algebra.MvPolynomial.Degrees
import Mathlib.Algebra.MvPolynomial.Eval
import Verif.Spec.Tensor

/-!
# Integration over the unit sphere

What a quadrature rule for the sphere is measured against: the mean value of
a function over the surface of the unit sphere of three dimensional Euclidean
space.  Nothing here refers to the model.
-/

namespace Spec

open MeasureTheory

/-- The mean of `f x y z` over the surface of the unit sphere: the integral
over the sphere with respect to the surface measure, divided by the area. -/
noncomputable def sphereMean (f : ℝ → ℝ → ℝ → ℝ) : ℝ :=
  ⨍ u : Metric.sphere (0 : EuclideanSpace ℝ (Fin 3)) 1, f (u.1 0) (u.1 1) (u.1 2)
    ∂(volume : Measure (EuclideanSpace ℝ (Fin 3))).toSphere

/-- The value of a polynomial in three variables at a point. -/
noncomputable def at3 (p : MvPolynomial (Fin 3) ℝ) (x y z : ℝ) : ℝ :=
  MvPolynomial.eval ![x, y, z] p

/-- A weighted sum over `m` points: point `i` has the coordinates `q i 0`,
`q i 1`, `q i 2` and the weight `w i`. -/
def weightedSum (m : Nat) (q : Nat → Nat → ℝ) (w : Nat → ℝ) (f : ℝ → ℝ → ℝ → ℝ) : ℝ :=
  ∑ i ∈ Finset.range m, w i * f (q i 0) (q i 1) (q i 2)

/-- The monomial `x^s0 y^s1 z^s2`. -/
def mono3 (s : Fin 3 →₀ ℕ) (x y z : ℝ) : ℝ := x ^ s 0 * y ^ s 1 * z ^ s 2

/-- `d` weighted points on the unit sphere that are mapped to themselves, with
their weights, by every exchange of coordinates and change of sign (these are
generated by three of them), and that integrate every polynomial of total degree at most
`n`.  The error is relative: it is at most `4 · 10⁻¹⁵` times the sum of the mean values of
the monomials of the polynomial, each with the absolute value of its coefficient. -/
structure IsSphereRule (n d : Nat) (q : Nat → Nat → ℝ) (w : Nat → ℝ) : Prop where
  sphere : ∀ i < d, q i 0 ^ 2 + q i 1 ^ 2 + q i 2 ^ 2 = 1
  swap01 : ∀ f, weightedSum d q w (fun x y z => f y x z) = weightedSum d q w f
  swap12 : ∀ f, weightedSum d q w (fun x y z => f x z y) = weightedSum d q w f
  flip0 : ∀ f, weightedSum d q w (fun x y z => f (-x) y z) = weightedSum d q w f
  integrates : ∀ p : MvPolynomial (Fin 3) ℝ, p.totalDegree ≤ n →
    |weightedSum d q w (at3 p) - sphereMean (at3 p)| ≤
      4 / 10 ^ 15 * ∑ s ∈ p.support, |p.coeff s| * sphereMean (mono3 s)

/-- The table of orders and degrees in the documentation of `lebedev_rule`
(`rstsr-sci-traits/src/integrate/lebedev.rs:40-74`). -/
def documentedDegrees : List (Nat × Nat) :=
  [(3, 6), (5, 14), (7, 26), (9, 38), (11, 50), (13, 74), (15, 86), (17, 110), (19, 146), (21, 170), (23, 194), (25, 230),
   (27, 266), (29, 302), (31, 350), (35, 434), (41, 590), (47, 770), (53, 974), (59, 1202), (65, 1454), (71, 1730),
   (77, 2030), (83, 2354), (89, 2702), (95, 3074), (101, 3470), (107, 3890), (113, 4334), (119, 4802), (125, 5294),
   (131, 5802)]

end Spec
