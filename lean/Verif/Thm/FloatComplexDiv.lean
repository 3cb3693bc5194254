import Verif.Thm.FloatComplex
/-!
# C110: quotients of complex numbers with parts that are floats
-/
namespace Rstsr
open Spec

theorem cxQuotient_err {x X W d D u t : ℚ} (hu : 0 ≤ u) (hu2 : u ≤ 1 / 16) (ht : 0 ≤ t) (hD : 0 < D) (hX : |X| ≤ W)
    (hx : |x - X| ≤ ((1 + u) ^ 2 - 1) * W + 2 * (1 + u) * t) (hd : |d - D| ≤ ((1 + u) ^ 2 - 1) * D + 2 * (1 + u) * t)
    (hs : 2 * (1 + u) * t ≤ u * D) :
    0 < d ∧ |x / d| ≤ 2 * (W / D) + 3 * t / D ∧
      ∀ v, |v - x / d| ≤ |x / d| * u + t → |v - X / D| ≤ 8 * u * (W / D) + 3 * t / D + t := by
  have hW : 0 ≤ W := (abs_nonneg _).trans hX
  have hdD : |d - D| ≤ (3 * u + u ^ 2) * D := by linarith
  have hd1 : (1 - 3 * u - u ^ 2) * D ≤ d := by have := (abs_le.1 hdD).1; linarith
  have hpos : 0 < 1 - 3 * u - u ^ 2 := by nlinarith
  have hd0 : 0 < d := lt_of_lt_of_le (mul_pos hpos hD) hd1
  have hq : D ≤ (1 + 4 * u) * d := by
    have h1 : (1 : ℚ) ≤ (1 + 4 * u) * (1 - 3 * u - u ^ 2) := by nlinarith [mul_nonneg hu hu, mul_nonneg (mul_nonneg hu hu) hu]
    have h2 := mul_le_mul_of_nonneg_left hd1 (show (0 : ℚ) ≤ 1 + 4 * u by linarith)
    have h3 := mul_le_mul_of_nonneg_right h1 hD.le
    linarith
  have hq1 : 1 / d ≤ (1 + 4 * u) / D := by rw [div_le_div_iff₀ hd0 hD]; linarith
  have hd' : 0 ≤ 1 / d := by positivity
  have e1 : x / d - X / D = (x - X) * (1 / d) + X * ((D - d) / D) * (1 / d) := by field_simp; ring
  have hDd : |(D - d) / D| ≤ 3 * u + u ^ 2 := by
    rw [abs_div, abs_of_pos hD, abs_sub_comm, div_le_iff₀ hD]
    exact hdD
  have a1 : |(x - X) + X * ((D - d) / D)| ≤ (5 * u + 2 * u ^ 2) * W + 2 * (1 + u) * t := by
    refine (abs_add_le _ _).trans ?_
    rw [abs_mul]
    have := mul_le_mul hX hDd (abs_nonneg _) hW
    linarith
  have a2 : |x / d - X / D| ≤ ((5 * u + 2 * u ^ 2) * W + 2 * (1 + u) * t) * ((1 + 4 * u) / D) := by
    rw [e1, ← add_mul, abs_mul, abs_of_nonneg hd']
    exact mul_le_mul a1 hq1 hd' ((abs_nonneg _).trans a1)
  have e2 : ((5 * u + 2 * u ^ 2) * W + 2 * (1 + u) * t) * ((1 + 4 * u) / D) =
      (5 * u + 2 * u ^ 2) * (1 + 4 * u) * (W / D) + 2 * (1 + u) * (1 + 4 * u) * (t / D) := by field_simp
  rw [e2] at a2
  have hXD : |X / D| ≤ W / D := by rw [abs_div, abs_of_pos hD]; exact div_le_div_of_nonneg_right hX hD.le
  have hWD : 0 ≤ W / D := by positivity
  have htD : 0 ≤ t / D := by positivity
  rw [mul_div_assoc]
  generalize W / D = R at *
  generalize t / D = T at *
  have c1 : (5 * u + 2 * u ^ 2) * (1 + 4 * u) ≤ (513 / 80) * u := by nlinarith [mul_nonneg hu hu, mul_nonneg (mul_nonneg hu hu) hu]
  have c2 : 2 * (1 + u) * (1 + 4 * u) ≤ 27 / 10 := by nlinarith [mul_nonneg hu hu]
  have a3 : |x / d - X / D| ≤ (513 / 80) * u * R + 27 / 10 * T := by
    have := mul_le_mul_of_nonneg_right c1 hWD
    have := mul_le_mul_of_nonneg_right c2 htD
    linarith
  have a4 : |x / d| ≤ |X / D| + ((513 / 80) * u * R + 27 / 10 * T) := abs_le_of_near a3
  have uR : u * R ≤ 1 / 16 * R := mul_le_mul_of_nonneg_right hu2 hWD
  have a5 : |x / d| ≤ (3 / 2) * R + 27 / 10 * T := by linarith
  refine ⟨hd0, by linarith, fun v hv => ?_⟩
  have a6 : |v - X / D| ≤ |v - x / d| + |x / d - X / D| := abs_sub_le _ _ _
  have a7 := mul_le_mul_of_nonneg_right a5 hu
  have uT : u * T ≤ 1 / 16 * T := mul_le_mul_of_nonneg_right hu2 htD
  have := mul_nonneg hu hWD
  linarith

section
variable {p e : Nat} (hp : 4 ≤ p) (hpe : p ≤ e) {o : PartOps Flt} (O : IeeeParts p e o)

include hp hpe O in
/-- Quotients of two complex numbers. -/
theorem cxDiv_within {z w : Cx Flt} (h : CxDivInRange p e z w) : CxDivWithin p e z w (Cx.div o z w) := by
  obtain ⟨⟨z1, z2⟩, ⟨w1, w2⟩, hn, hs, hr, hi⟩ := h
  have hp1 : 1 ≤ p := by omega
  have hu := ulp_nonneg p
  have ht0 := halfTiny_pos p e
  have ht := ht0.le
  have hu2 : 1 / (2 : ℚ) ^ p ≤ 1 / 16 :=
    one_div_le_one_div_of_le (by norm_num) ((by norm_num : (16 : ℚ) = 2 ^ 4) ▸ pow_le_pow_right₀ (by norm_num) hp)
  have small : ∀ {x y : ℚ}, PairInRange p e x y → |x| ≤ maxFinite p e ∧ |y| ≤ maxFinite p e := by
    intro x y h
    unfold PairInRange at h
    have h1 := mul_nonneg hu (add_nonneg (abs_nonneg x) (abs_nonneg y))
    constructor <;> linarith [abs_nonneg x, abs_nonneg y]
  obtain ⟨n1, n2⟩ := mul_err hp1 hpe O.mul w1 w1 (small hn).1
  obtain ⟨m1, m2⟩ := mul_err hp1 hpe O.mul w2 w2 (small hn).2
  obtain ⟨a1, a2⟩ := mul_err hp1 hpe O.mul z1 w1 (small hr.1).1
  obtain ⟨b1, b2⟩ := mul_err hp1 hpe O.mul z2 w2 (small hr.1).2
  obtain ⟨c1, c2⟩ := mul_err hp1 hpe O.mul z2 w1 (small hi.1).1
  obtain ⟨d1, d2⟩ := mul_err hp1 hpe O.mul z1 w2 (small hi.1).2
  obtain ⟨k1, -, k2⟩ := pair_err (v := (o.add (o.mul w.re w.re) (o.mul w.im w.im)).val) hu n2 m2
  obtain ⟨r1, -, r2⟩ := pair_err (v := (o.add (o.mul z.re w.re) (o.mul z.im w.im)).val) hu a2 b2
  obtain ⟨i1, i2, -⟩ := pair_err (v := (o.sub (o.mul z.im w.re) (o.mul z.re w.im)).val) hu c2 d2
  obtain ⟨l1, l2⟩ := nearest_err hp1 hpe O.add n1 m1 ((abs_add_le _ _).trans (k1.trans hn))
  obtain ⟨s1, s2⟩ := nearest_err hp1 hpe O.add a1 b1 ((abs_add_le _ _).trans (r1.trans hr.1))
  obtain ⟨t1, t2⟩ := sub_err hp1 hpe O.sub c1 d1 ((abs_sub _ _).trans (i1.trans hi.1))
  have hD : 0 < w.re.val * w.re.val + w.im.val * w.im.val := by
    have h1 : 0 < 2 * (1 + 1 / 2 ^ p) * halfTiny p e := by positivity
    have h2 := h1.trans_le hs
    by_contra h3
    have := mul_nonneg hu (neg_nonneg.2 (not_lt.1 h3))
    linarith
  have hden := k2 l2
  rw [abs_of_nonneg (mul_self_nonneg w.re.val), abs_of_nonneg (mul_self_nonneg w.im.val)] at hden
  have part : ∀ {x : Flt} {y y' X : ℚ}, QuotientInRange p e y y' (w.re.val * w.re.val + w.im.val * w.im.val) → |X| ≤ |y| + |y'| → x.Finite p e →
      |x.val - X| ≤ ((1 + 1 / 2 ^ p) ^ 2 - 1) * (|y| + |y'|) + 2 * (1 + 1 / 2 ^ p) * halfTiny p e →
      QuotientWithin p e y y' X (w.re.val * w.re.val + w.im.val * w.im.val) (o.div x (o.add (o.mul w.re w.re) (o.mul w.im w.im))) := by
    intro x y y' X hq hX hf hx
    obtain ⟨g1, g2, g3⟩ := cxQuotient_err hu hu2 ht hD hX hx hden hs
    obtain ⟨v1, v2⟩ := div_err hp1 hpe O.div hf l1 g1.ne' (g2.trans hq.2)
    refine ⟨v1, (g3 _ v2).trans (le_of_eq ?_)⟩
    ring
  exact ⟨part hr (abs_add_le _ _) s1 (r2 s2), part hi (abs_sub _ _) t1 (i2 t2)⟩

include O in
theorem cxDiv_nan {z w : Cx Flt} (h : z.SomeNaN ∨ w.SomeNaN) : (Cx.div o z w).BothNaN := by
  have M := O.mul.nan
  have D := O.div.nan
  rcases h with (h | h) | (h | h)
  · exact ⟨D _ _ (.inl (O.add.nan _ _ (.inl (M _ _ (.inl h))))), D _ _ (.inl (O.sub.nan _ _ (.inr (M _ _ (.inl h)))))⟩
  · exact ⟨D _ _ (.inl (O.add.nan _ _ (.inr (M _ _ (.inl h))))), D _ _ (.inl (O.sub.nan _ _ (.inl (M _ _ (.inl h)))))⟩
  · exact ⟨D _ _ (.inr (O.add.nan _ _ (.inl (M _ _ (.inl h))))), D _ _ (.inr (O.add.nan _ _ (.inl (M _ _ (.inl h)))))⟩
  · exact ⟨D _ _ (.inr (O.add.nan _ _ (.inr (M _ _ (.inl h))))), D _ _ (.inr (O.add.nan _ _ (.inr (M _ _ (.inl h)))))⟩

include hp hpe O in
/-- `a / b` of tensors of complex numbers, element by element with broadcasting. -/
theorem C110_div (dflt : Order) (a b : Tensor (Cx Flt)) (ha : a.WF) (hb : b.WF) (hc : Compatible dflt a.arr.shape b.arr.shape) :
    ∃ (f : Cx Flt → Cx Flt → Cx Flt) (c : Tensor (Cx Flt)), Tensor.binary dflt a b (Cx.div o) = .ok c ∧ c.WF ∧ IsMap2 dflt f a.arr b.arr c.arr ∧
      ∀ z w, (CxDivInRange p e z w → CxDivWithin p e z w (f z w)) ∧ (z.SomeNaN ∨ w.SomeNaN → (f z w).BothNaN) := by
  obtain ⟨c, h1, h2, h3⟩ := C30_binary dflt a b (Cx.div o) ha hb hc
  exact ⟨_, c, h1, h2, h3, fun z w => ⟨cxDiv_within hp hpe O, cxDiv_nan O⟩⟩

end

example : CxDivInRange 4 20 ⟨.num 1, .num 3⟩ ⟨.num 3, .num 0⟩ := by
  have h := cxPair_finite
  rw [show cxPair.arr.elements = [⟨.num 1, .num 3⟩, ⟨.num 3, .num 0⟩] from rfl] at h
  refine ⟨h _ (by simp), h _ (by simp), ?_, ?_, ⟨?_, ?_⟩, ?_, ?_⟩
  all_goals norm_num [PairInRange, Flt.val, Flt.rat?, maxFinite, halfTiny, abs_of_pos]

end Rstsr
