import Verif.Proof.LebedevGrid

/-!
# C87, C88: Lebedev quadrature
-/

namespace Rstsr
open Spec (sphereMean at3 weightedSum mono3 IsSphereRule documentedDegrees)
open MeasureTheory

/-! ## Polynomials -/

theorem at3_eq (p : MvPolynomial (Fin 3) ℝ) (x y z : ℝ) : at3 p x y z = ∑ s ∈ p.support, p.coeff s * mono3 s x y z := by
  unfold at3 mono3
  rw [MvPolynomial.eval_eq']
  refine Finset.sum_congr rfl fun s _ => ?_
  rw [Fin.prod_univ_three]
  simp

theorem sphereMean_poly (p : MvPolynomial (Fin 3) ℝ) :
    sphereMean (at3 p) = ∑ s ∈ p.support, p.coeff s * sphereMean (mono3 s) := by
  unfold sphereMean
  simp only [average_eq, at3_eq]
  rw [integral_finset_sum]
  · rw [Finset.smul_sum]
    refine Finset.sum_congr rfl fun s _ => ?_
    rw [integral_const_mul, smul_eq_mul, smul_eq_mul]; ring
  · intro s _
    refine Continuous.integrable_of_hasCompactSupport ?_ (HasCompactSupport.of_compactSpace _)
    unfold mono3
    fun_prop

theorem weightedSum_poly (d : Nat) (q : Nat → Nat → ℝ) (w : Nat → ℝ) (p : MvPolynomial (Fin 3) ℝ) :
    weightedSum d q w (at3 p) = ∑ s ∈ p.support, p.coeff s * weightedSum d q w (mono3 s) := by
  unfold weightedSum
  simp only [at3_eq, Finset.mul_sum]
  rw [Finset.sum_comm]
  refine Finset.sum_congr rfl fun s _ => Finset.sum_congr rfl fun i _ => ?_
  ring

theorem degree3 {p : MvPolynomial (Fin 3) ℝ} {n : Nat} (hp : p.totalDegree ≤ n) {s : Fin 3 →₀ ℕ} (hs : s ∈ p.support) :
    s 0 + s 1 + s 2 ≤ n := by
  have h := MvPolynomial.le_totalDegree hs
  rw [Finsupp.sum_fintype _ _ (fun _ => rfl), Fin.sum_univ_three] at h
  omega

theorem gridOk_rule {rows : List OrbitRow} {d n : Nat} (h : GridOk rows d n) :
    IsSphereRule n d (fun i c => (allPts rows).getD (i * 3 + c) 0) (fun i => (allWts rows).getD i 0) := by
  have hl : (allWts rows).length = d := by rw [allWts_length, h.count]
  have hq : (allPts rows).length = 3 * (allWts rows).length := by rw [allPts_length, allWts_length]
  have e : ∀ f, weightedSum d (fun i c => (allPts rows).getD (i * 3 + c) 0) (fun i => (allWts rows).getD i 0) f =
      wsum f (allPts rows) (allWts rows) := fun f => by rw [wsum_range f _ _ hq, hl]
  have hs := symSum_all rows
  refine ⟨fun i hi => onSphere_get _ h.sphere i (by omega), fun f => ?_, fun f => ?_, fun f => ?_, fun p hp => ?_⟩
  · rw [e, e]; exact (hs f).1
  · rw [e, e]; exact (hs f).2.1
  · rw [e, e]; exact (hs f).2.2
  · rw [weightedSum_poly, sphereMean_poly, ← Finset.sum_sub_distrib, Finset.mul_sum]
    refine (Finset.abs_sum_le_sum_abs _ _).trans (Finset.sum_le_sum fun s hsp => ?_)
    rw [← mul_sub, abs_mul, e]
    have := h.mono (s 0) (s 1) (s 2) (degree3 hp hsp)
    calc _ ≤ |p.coeff s| * (4 / 10 ^ 15 * sphereMean (mono3 s)) := mul_le_mul_of_nonneg_left this (abs_nonneg _)
      _ = _ := by ring

theorem supported {n d : Nat} (h : orderToDegree n = .ok d) :
    degreeToOrder d = .ok n ∧ 0 < d ∧ ∃ rows, gridTable d = some rows ∧ GridOk rows d n := by
  unfold orderToDegree at h
  simp only at h
  split at h
  case h_33 => simp at h
  all_goals
    simp only [OfNat.ofNat_ne_zero, if_false, reduceIte] at h
    cases h
    refine ⟨rfl, by decide, _, rfl, ?_⟩
    first
    | exact checkRule_spec check6
    | exact checkRule_spec check14
    | exact checkRule_spec check26
    | exact checkRule_spec check38
    | exact checkRule_spec check50
    | exact checkRule_spec check74
    | exact checkRule_spec check86
    | exact checkRule_spec check110
    | exact checkRule_spec check146
    | exact checkRule_spec check170
    | exact checkRule_spec check194
    | exact checkRule_spec check230
    | exact checkRule_spec check266
    | exact checkRule_spec check302
    | exact checkRule_spec check350
    | exact checkRule_spec check434
    | exact checkRule_spec check590
    | exact checkRule_spec check770
    | exact checkRule_spec check974
    | exact checkRule_spec check1202
    | exact checkRule_spec check1454
    | exact checkRule_spec check1730
    | exact checkRule_spec check2030
    | exact checkRule_spec check2354
    | exact checkRule_spec check2702
    | exact checkRule_spec check3074
    | exact checkRule_spec check3470
    | exact checkRule_spec check3890
    | exact checkRule_spec check4334
    | exact checkRule_spec check4802
    | exact checkRule_spec check5294
    | exact checkRule_spec check5810

/-! ## C87 -/

/-- For every order that is accepted, the rule has as many points as the degree, in a row-major matrix of three columns and a vector of weights;
the points are on the sphere, the rule has the symmetry of the cube, and every polynomial of total degree up to the order is integrated. -/
theorem C87_rule (n d : Nat) (h : orderToDegree n = .ok d) :
    ∃ quads weights q w, lebedevRule n = .ok (quads, weights) ∧ quads.WF ∧ weights.WF ∧
      quads.arr.shape = [d, 3] ∧ weights.arr.shape = [d] ∧ quads.data.length = d * 3 ∧ weights.data.length = d ∧
      (∀ i < d, ∀ c < 3, quads.data[i * 3 + c]? = some (q i c)) ∧
      (∀ i < d, ∀ c < 3, quads.arr.elem [i, c] = some (q i c)) ∧ (∀ i < d, weights.arr.elem [i] = some (w i)) ∧
      IsSphereRule n d q w := by
  obtain ⟨-, hd, rows, ht, hg⟩ := supported h
  have hl : (allWts rows).length = d := by rw [allWts_length, hg.count]
  obtain ⟨Q, W, h1, h2, w1, w2, l1, l2, d1, d2, e1, e2⟩ := grid_tensors hd (allPts rows) (allWts rows)
    (by rw [allPts_length, hg.count]) hl
  refine ⟨Q, W, _, _, ?_, w1, w2, ?_, ?_, ?_, ?_, ?_, e1, e2, gridOk_rule hg⟩
  · unfold lebedevRule
    rw [h, ok_bind, makeGrid_ok ht hg, ok_bind]
    simp only
    rw [hl, h1, ok_bind, h2]
    rfl
  · show Q.layout.shape = _
    rw [l1, shape_newCContig]
  · show W.layout.shape = _
    rw [l2, shape_newCContig]
  · rw [d1, allPts_length, hg.count]; omega
  · rw [d2, hl]
  · intro i hi c hc
    have hp : i * 3 + c < (allPts rows).length := by rw [allPts_length, hg.count]; omega
    rw [d1, List.getD_eq_getElem?_getD, List.getElem?_eq_getElem hp]; rfl

/-- The rule for order 131: 5810 points. -/
example : ∃ quads weights q w, lebedevRule 131 = .ok (quads, weights) ∧ quads.arr.shape = [5810, 3] ∧
    weights.arr.shape = [5810] ∧ IsSphereRule 131 5810 q w := by
  obtain ⟨a, b, q, w, h1, -, -, h2, h3, -, -, -, -, -, h4⟩ := C87_rule 131 5810 rfl
  exact ⟨a, b, q, w, h1, h2, h3, h4⟩

/-- The weights of a rule sum to one, to `4 · 10⁻¹⁵`. -/
theorem C87_weights (n d : Nat) (q : Nat → Nat → ℝ) (w : Nat → ℝ) (h : IsSphereRule n d q w) :
    |∑ i ∈ Finset.range d, w i - 1| ≤ 4 / 10 ^ 15 := by
  have h1 := h.integrates 1 (by simp)
  have e : at3 (1 : MvPolynomial (Fin 3) ℝ) = fun _ _ _ => 1 := by funext x y z; simp [at3]
  have m := mean_even 0 0 0
  simp only [Nat.mul_zero, pow_zero, mul_one, Nat.add_zero, Nat.zero_add] at m
  have o1 : oddFact 0 = 1 := rfl
  have o2 : oddFact 1 = 1 := rfl
  rw [o1, o2] at m
  have s1 : (1 : MvPolynomial (Fin 3) ℝ).support = {0} := by
    rw [← MvPolynomial.C_1, MvPolynomial.support_C]; simp
  rw [e, s1, Finset.sum_singleton] at h1
  have m0 : sphereMean (mono3 0) = 1 := by
    have : mono3 0 = fun _ _ _ => 1 := by funext x y z; simp [mono3]
    rw [this, m]; simp
  rw [m0, m] at h1
  simpa [weightedSum] using h1

/-- What is integrated is determined: the mean of an even monomial is a quotient of products of odd numbers, that of any other is zero. -/
theorem C87_means (i j k : Nat) :
    sphereMean (fun x y z => x ^ (2 * i) * y ^ (2 * j) * z ^ (2 * k)) =
        (∏ l ∈ Finset.range i, (2 * l + 1 : ℝ)) * (∏ l ∈ Finset.range j, (2 * l + 1 : ℝ)) * (∏ l ∈ Finset.range k, (2 * l + 1 : ℝ)) /
          ∏ l ∈ Finset.range (i + j + k + 1), (2 * l + 1 : ℝ) ∧
      (i % 2 = 1 ∨ j % 2 = 1 ∨ k % 2 = 1 → sphereMean (fun x y z => x ^ i * y ^ j * z ^ k) = 0) := by
  have o : ∀ n, (oddFact n : ℝ) = ∏ l ∈ Finset.range n, (2 * l + 1 : ℝ) := by
    intro n
    induction n with
    | zero => simp [oddFact_zero]
    | succ n ih => rw [Finset.prod_range_succ, ← ih, oddFact_succ]; push_cast; ring
  refine ⟨?_, mean_odd i j k⟩
  rw [mean_even, o, o, o, o]

/-- A rule from the number of points is the rule of the order. -/
theorem C87_from_degree (n d : Nat) (h : orderToDegree n = .ok d) : lebedevRuleFromDegree d = lebedevRule n := by
  unfold lebedevRuleFromDegree
  rw [(supported h).1]; rfl

/-- An order or a number of points that no rule has is refused, with an error. -/
theorem C87_refused (n : Nat) :
    (∀ e, orderToDegree n = .error e → lebedevRule n = .error .invalidValue) ∧
      (∀ e, degreeToOrder n = .error e → lebedevRuleFromDegree n = .error .invalidValue) ∧
      ∀ e, lebedevRule n = .error e → e = .invalidValue := by
  have o : ∀ e, orderToDegree n = .error e → e = .invalidValue := by
    intro e h
    unfold orderToDegree at h
    simp only at h
    split_ifs at h
    cases h; rfl
  have d : ∀ e, degreeToOrder n = .error e → e = .invalidValue := by
    intro e h
    unfold degreeToOrder at h
    simp only at h
    split_ifs at h
    cases h; rfl
  refine ⟨fun e h => ?_, fun e h => ?_, fun e h => ?_⟩
  · have := o e h; subst this
    unfold lebedevRule; rw [h]; rfl
  · have := d e h; subst this
    unfold lebedevRuleFromDegree; rw [h]; rfl
  · cases hn : orderToDegree n with
    | error e' =>
      have := o e' hn; subst this
      unfold lebedevRule at h; rw [hn] at h
      cases h; rfl
    | ok m =>
      obtain ⟨a, b, -, -, h1, -⟩ := C87_rule n m hn
      rw [h1] at h; cases h

example : lebedevRule 33 = .error .invalidValue := (C87_refused 33).1 _ rfl

/-! ## C88 -/

/-- The orders and numbers of points of the documentation are the ones that are accepted, but for the last number of points. -/
theorem C88_table_partial (n d : Nat) :
    (orderToDegree n = .ok d ↔ ((n, d) ∈ documentedDegrees ∧ n ≠ 131) ∨ (n, d) = (131, 5810)) ∧
      (degreeToOrder d = .ok n ↔ orderToDegree n = .ok d) := by
  have f : ∀ n d, orderToDegree n = .ok d → ((n, d) ∈ documentedDegrees ∧ n ≠ 131) ∨ (n, d) = (131, 5810) := by
    intro n d h
    unfold orderToDegree at h
    simp only at h
    split at h
    case h_33 => simp at h
    all_goals
      simp only [OfNat.ofNat_ne_zero, reduceIte] at h
      cases h
      decide
  have g : ∀ n d, ((n, d) ∈ documentedDegrees ∧ n ≠ 131) ∨ (n, d) = (131, 5810) → orderToDegree n = .ok d := by
    intro n d h
    rcases h with ⟨h, hn⟩ | h
    · have all : ∀ x ∈ documentedDegrees, x.1 ≠ 131 → orderToDegree x.1 = .ok x.2 := by decide
      exact all (n, d) h hn
    · cases h; rfl
  refine ⟨⟨f n d, g n d⟩, fun h => ?_, fun h => (supported h).1⟩
  unfold degreeToOrder at h
  simp only at h
  split at h
  case h_33 => simp at h
  all_goals
    simp only [OfNat.ofNat_ne_zero, reduceIte] at h
    cases h
    rfl

/-- The documentation gives 5802 points for order 131; the rule has 5810, and 5802 is refused. -/
theorem C88_false_131 : (131, 5802) ∈ documentedDegrees ∧ orderToDegree 131 = .ok 5810 ∧
    lebedevRuleFromDegree 5802 = .error .invalidValue :=
  ⟨by decide, rfl, (C87_refused 5802).2.1 _ rfl⟩

end Rstsr
