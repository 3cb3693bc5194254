import Verif.Spec.FloatComplex
import Verif.Model.Complex
import Verif.Thm.FloatMean
import Verif.Thm.FloatUpdate
import Verif.Thm.Complex
import Verif.Proof.Close
/-!
# C110: complex numbers with parts that are floats

The operations on complex numbers are those of `Model/Complex`, with operations on the parts of which only what
IEEE 754 says is assumed.
-/
namespace Rstsr
open Spec

/-! ## Arithmetic -/

/-- The error of a difference of two rounded products. -/
theorem pair_err {a b x y v u t : ℚ} (hu : 0 ≤ u) (hx : |x - a| ≤ |a| * u + t) (hy : |y - b| ≤ |b| * u + t) :
    |x| + |y| ≤ (1 + u) * (|a| + |b|) + 2 * t ∧
    (|v - (x - y)| ≤ |x - y| * u → |v - (a - b)| ≤ ((1 + u) ^ 2 - 1) * (|a| + |b|) + 2 * (1 + u) * t) ∧
    (|v - (x + y)| ≤ |x + y| * u → |v - (a + b)| ≤ ((1 + u) ^ 2 - 1) * (|a| + |b|) + 2 * (1 + u) * t) := by
  have h1 : |x| ≤ |a| + (|a| * u + t) := abs_le_of_near hx
  have h2 : |y| ≤ |b| + (|b| * u + t) := abs_le_of_near hy
  have h3 : |x| + |y| ≤ (1 + u) * (|a| + |b|) + 2 * t := by linarith
  have h4 := mul_le_mul_of_nonneg_right h3 hu
  refine ⟨h3, fun hv => ?_, fun hv => ?_⟩
  · have h5 := mul_le_mul_of_nonneg_right (abs_sub x y) hu
    have h6 : |v - (a - b)| ≤ |v - (x - y)| + |x - y - (a - b)| := abs_sub_le _ _ _
    have h7 : |x - y - (a - b)| ≤ |x - a| + |y - b| := by
      rw [show x - y - (a - b) = (x - a) - (y - b) by ring]
      exact abs_sub _ _
    nlinarith
  · have h5 := mul_le_mul_of_nonneg_right (abs_add_le x y) hu
    have h6 : |v - (a + b)| ≤ |v - (x + y)| + |x + y - (a + b)| := abs_sub_le _ _ _
    have h7 : |x + y - (a + b)| ≤ |x - a| + |y - b| := by
      rw [show x + y - (a + b) = (x - a) + (y - b) by ring]
      exact abs_add_le _ _
    nlinarith

/-- The error of a quotient by a square. -/
theorem square_quotient_err {s n x d v u t : ℚ} (hu : 0 ≤ u) (hu2 : u ≤ 1 / 2) (ht : 0 ≤ t) (hn : 1 ≤ n) (hx : |x - s * n| ≤ |s * n| * u + t)
    (hd : |d - n * n| ≤ n * n * u) (hv : |v - x / d| ≤ |x / d| * u + t) :
    |v - s / n| ≤ |s / n| * ((1 + u) ^ 4 - 1) + (1 + (1 + u) ^ 3) * t := by
  have hn0 : 0 < n := by linarith
  have hnn : 1 ≤ n * n := by nlinarith
  have hd1 : n * n * (1 - u) ≤ d := by have := (abs_le.1 hd).1; linarith
  have hd0 : 0 < d := lt_of_lt_of_le (mul_pos (by linarith) (by linarith)) hd1
  have hq : n * n ≤ (1 + 2 * u) * d := by
    have : (1 : ℚ) ≤ (1 + 2 * u) * (1 - u) := by nlinarith
    nlinarith [mul_le_mul_of_nonneg_left hd1 (show (0 : ℚ) ≤ 1 + 2 * u by linarith)]
  have hq1 : 1 / d ≤ (1 + 2 * u) / (n * n) := by rw [div_le_div_iff₀ hd0 (by linarith)]; linarith
  have e1 : x / d - s / n = (x - s * n) * (1 / d) + s / n * ((n * n - d) * (1 / d)) := by field_simp; ring
  have hd' : 0 ≤ 1 / d := by positivity
  have a1 : |(x - s * n) * (1 / d)| ≤ |s / n| * (u * (1 + 2 * u)) + t * (1 + 2 * u) := by
    rw [abs_mul, abs_of_nonneg hd']
    refine (mul_le_mul hx hq1 hd' ((abs_nonneg _).trans hx)).trans ?_
    have e2 : |s * n| = |s / n| * (n * n) := by rw [abs_mul, abs_div, abs_of_pos hn0]; field_simp
    rw [e2, show (|s / n| * (n * n) * u + t) * ((1 + 2 * u) / (n * n)) = |s / n| * (u * (1 + 2 * u)) + t * ((1 + 2 * u) / (n * n)) by field_simp]
    have : (1 + 2 * u) / (n * n) ≤ 1 + 2 * u := div_le_self (by linarith) hnn
    have := mul_le_mul_of_nonneg_left this ht
    linarith
  have a2 : |s / n * ((n * n - d) * (1 / d))| ≤ |s / n| * (u * (1 + 2 * u)) := by
    rw [abs_mul]
    refine mul_le_mul_of_nonneg_left ?_ (abs_nonneg _)
    rw [abs_mul, abs_of_nonneg hd', abs_sub_comm]
    refine (mul_le_mul hd hq1 hd' (by positivity)).trans (le_of_eq ?_)
    field_simp
  have a3 : |x / d - s / n| ≤ |s / n| * (2 * (u * (1 + 2 * u))) + t * (1 + 2 * u) := by
    rw [e1]
    refine (abs_add_le _ _).trans ?_
    linarith
  have a4 : |x / d| ≤ |s / n| + (|s / n| * (2 * (u * (1 + 2 * u))) + t * (1 + 2 * u)) := abs_le_of_near a3
  have a5 := mul_le_mul_of_nonneg_right a4 hu
  have a6 : |v - s / n| ≤ |v - x / d| + |x / d - s / n| := abs_sub_le _ _ _
  have hS := abs_nonneg (s / n)
  generalize |s / n| = S at *
  have b1 : (1 + u) * (1 + 2 * (u * (1 + 2 * u))) ≤ (1 + u) ^ 4 := by nlinarith [mul_nonneg hu hu, mul_nonneg (mul_nonneg hu hu) hu]
  have b2 : (1 + u) * (1 + 2 * u) ≤ (1 + u) ^ 3 := by nlinarith [mul_nonneg hu hu, mul_nonneg (mul_nonneg hu hu) hu]
  have c1 := mul_le_mul_of_nonneg_left b1 hS
  have c2 := mul_le_mul_of_nonneg_left b2 ht
  linarith

/-- The parts of a sum of complex numbers are sums. -/
theorem bracketOf_parts {α : Type} {o : PartOps α} {zs : List (Cx α)} {s : Cx α} (h : BracketOf (Cx.zeroOf o) (Cx.add o) (Cx.add o) zs s) :
    BracketOf o.zero o.add o.add (zs.map Cx.re) s.re ∧ BracketOf o.zero o.add o.add (zs.map Cx.im) s.im := by
  obtain ⟨b, h1, rfl⟩ := h
  have hi : ∀ (g : Cx α → α) (b : Bracket (Cx α)), (mapBracket g b).items = b.items.map g := by
    intro g b
    induction b with
    | start => rfl
    | feed b x ih => simp [mapBracket, Bracket.items, ih]
    | both b c ihb ihc => simp [mapBracket, Bracket.items, ihb, ihc]
  have hv : ∀ b : Bracket (Cx α), b.value (Cx.zeroOf o) (Cx.add o) (Cx.add o) =
      ⟨(mapBracket Cx.re b).value o.zero o.add o.add, (mapBracket Cx.im b).value o.zero o.add o.add⟩ := by
    intro b
    induction b with
    | start => rfl
    | feed b x ih => simp [mapBracket, Bracket.value, ih, Cx.add]
    | both b c ihb ihc => simp [mapBracket, Bracket.value, ihb, ihc, Cx.add]
  rw [hv]
  exact ⟨⟨_, by rw [hi]; exact h1.map _, rfl⟩, ⟨_, by rw [hi]; exact h1.map _, rfl⟩⟩

/-- The operations on the parts round to a nearest float. -/
structure IeeeParts (p e : Nat) (o : PartOps Flt) : Prop where
  zero : o.zero = .num 0
  add : NearestAdd p e o.add
  sub : NearestSub p e o.sub
  mul : NearestMul p e o.mul
  div : NearestDiv p e o.div
  ofNat : ExactCounts p e o.ofNat

/-- What a sum of floats is: in range, for whole numbers with few digits, and with not-a-number. -/
def PartSumCell (p e : Nat) (xs : List Flt) (v : Flt) : Prop :=
  (SumInRange p e xs → SumWithin p e xs v) ∧ (FewDigits p e xs → v.Finite p e ∧ v.val = (xs.map Flt.val).sum) ∧ ((∃ x ∈ xs, x.IsNaN) → v.IsNaN)

/-- What the sum of complex numbers is: part by part the sum of floats. -/
def CxSumCell (p e : Nat) (zs : List (Cx Flt)) (v : Cx Flt) : Prop := PartSumCell p e (zs.map Cx.re) v.re ∧ PartSumCell p e (zs.map Cx.im) v.im

/-- What the mean of complex numbers is, in range and with not-a-number in a part of one of them. -/
def CxMeanCell (p e : Nat) (zs : List (Cx Flt)) (v : Cx Flt) : Prop :=
  (CxMeanInRange p e zs → CxMeanWithin p e zs v) ∧ ((∃ z ∈ zs, z.SomeNaN) → v.BothNaN)

section
variable {p e : Nat} (hp : 1 ≤ p) (hpe : p ≤ e) {o : PartOps Flt} (O : IeeeParts p e o)

include hp hpe O in
/-- Products of two complex numbers. -/
theorem cxMul_within {z w : Cx Flt} (h : CxMulInRange p e z w) : CxMulWithin p e z w (Cx.mul o z w) := by
  obtain ⟨⟨z1, z2⟩, ⟨w1, w2⟩, hr, hi⟩ := h
  have hu := ulp_nonneg p
  have ht := (halfTiny_pos p e).le
  have small : ∀ {x y : ℚ}, PairInRange p e x y → |x| ≤ maxFinite p e ∧ |y| ≤ maxFinite p e := by
    intro x y h
    unfold PairInRange at h
    have h1 := mul_nonneg hu (add_nonneg (abs_nonneg x) (abs_nonneg y))
    constructor <;> linarith [abs_nonneg x, abs_nonneg y]
  obtain ⟨a1, a2⟩ := mul_err hp hpe O.mul z1 w1 (small hr).1
  obtain ⟨b1, b2⟩ := mul_err hp hpe O.mul z2 w2 (small hr).2
  obtain ⟨c1, c2⟩ := mul_err hp hpe O.mul z1 w2 (small hi).1
  obtain ⟨d1, d2⟩ := mul_err hp hpe O.mul z2 w1 (small hi).2
  obtain ⟨r1, r2, -⟩ := pair_err (v := (o.sub (o.mul z.re w.re) (o.mul z.im w.im)).val) hu a2 b2
  obtain ⟨i1, -, i2⟩ := pair_err (v := (o.add (o.mul z.re w.im) (o.mul z.im w.re)).val) hu c2 d2
  obtain ⟨s1, s2⟩ := sub_err hp hpe O.sub a1 b1 ((abs_sub _ _).trans (r1.trans hr))
  obtain ⟨t1, t2⟩ := nearest_err hp hpe O.add c1 d1 ((abs_add_le _ _).trans (i1.trans hi))
  exact ⟨⟨s1, r2 s2⟩, t1, i2 t2⟩

include O in
theorem cxMul_nan {z w : Cx Flt} (h : z.SomeNaN ∨ w.SomeNaN) : (Cx.mul o z w).BothNaN := by
  have M := O.mul.nan
  rcases h with (h | h) | (h | h)
  · exact ⟨O.sub.nan _ _ (.inl (M _ _ (.inl h))), O.add.nan _ _ (.inl (M _ _ (.inl h)))⟩
  · exact ⟨O.sub.nan _ _ (.inr (M _ _ (.inl h))), O.add.nan _ _ (.inr (M _ _ (.inl h)))⟩
  · exact ⟨O.sub.nan _ _ (.inl (M _ _ (.inr h))), O.add.nan _ _ (.inr (M _ _ (.inr h)))⟩
  · exact ⟨O.sub.nan _ _ (.inr (M _ _ (.inr h))), O.add.nan _ _ (.inl (M _ _ (.inr h)))⟩

include hp hpe O in
/-- The denominator of the mean. -/
theorem cxMean_den {n : Nat} (hn : 1 ≤ n) (hn2 : n ≤ 2 ^ p) (hm : (n : ℚ) * n ≤ maxFinite p e) :
    (o.add (o.mul (o.ofNat n) (o.ofNat n)) (o.mul o.zero o.zero)).Finite p e ∧
    |(o.add (o.mul (o.ofNat n) (o.ofNat n)) (o.mul o.zero o.zero)).val - (n : ℚ) * n| ≤ (n : ℚ) * n * (1 / 2 ^ p) ∧
    1 ≤ (o.add (o.mul (o.ofNat n) (o.ofNat n)) (o.mul o.zero o.zero)).val := by
  obtain ⟨c1, c2⟩ := O.ofNat n hn2
  have hz := zero_finite (p := p) (e := e) hp hpe
  have h1 : (1 : ℚ) ≤ n := by exact_mod_cast hn
  have hnn : (1 : ℚ) ≤ n * n := by nlinarith
  have habs : |(n : ℚ) * n| = n * n := abs_of_nonneg (by linarith)
  obtain ⟨a1, a2⟩ := O.mul.nearest _ _ c1 c1 (by rw [c2, habs]; exact hm)
  rw [c2] at a2
  have hrep := roundTo_representable (q := (n : ℚ) * n) hp hpe (roundTo_in_range hp hpe (by rw [habs]; exact hm))
  have a3 := (a2 _ hrep).trans (roundTo_rel_int (p := p) (e := e) (by omega) (.inr (by rw [habs]; exact hnn)))
  rw [habs] at a3
  obtain ⟨b1, b2⟩ := mul_exact O.mul hz hz (by simpa [Flt.val, Flt.rat?] using finite_rep hz)
  have b3 : (o.mul (.num 0) (.num 0)).val = 0 := by rw [b2]; simp [Flt.val, Flt.rat?]
  rw [O.zero]
  obtain ⟨d1, d2⟩ := nearest_exact O.add a1 b1 (by rw [b3, add_zero]; exact rep_le_max (finite_rep a1)) (by rw [b3, add_zero]; exact finite_rep a1)
  rw [d2, b3, add_zero]
  refine ⟨d1, a3, ?_⟩
  by_cases hn1 : n = 1
  · subst hn1
    have := a2 1 (by simpa using representable_int (n := 1) (p := p) (e := e) (by simpa using (one_le_pow₀ (by norm_num) : (1 : Int) ≤ 2 ^ p)) hp hpe)
    simp only [Nat.cast_one, mul_one, sub_self, abs_zero] at this ⊢
    rw [sub_eq_zero.1 (abs_nonpos_iff.1 this)]
  · have h2 : (2 : ℚ) ≤ n := by exact_mod_cast (show 2 ≤ n by omega)
    have hu : 1 / (2 : ℚ) ^ p ≤ 1 / 2 := one_div_le_one_div_of_le (by norm_num) (by simpa using pow_le_pow_right₀ (by norm_num : (1 : ℚ) ≤ 2) hp)
    have := (abs_le.1 a3).1
    have : (n : ℚ) * n * (1 / 2 ^ p) ≤ n * n * (1 / 2) := mul_le_mul_of_nonneg_left hu (by linarith)
    nlinarith

include hp hpe O in
/-- One part of the mean: from a part `S` of the sum, the numerator `q` equals `S n` but for one rounding. -/
theorem cxMean_part {xs : List Flt} {S q : Flt} (hx : xs ≠ []) (hn2 : xs.length ≤ 2 ^ p) (hm : (xs.length : ℚ) * xs.length ≤ maxFinite p e)
    (hS : SumWithin p e xs S) (hr : (1 + 1 / 2 ^ p) ^ (xs.length - 1) * (xs.map fun x => |x.val|).sum * xs.length ≤ maxFinite p e)
    (hq : (o.mul S (o.ofNat xs.length)).Finite p e → q.Finite p e ∧ q.val = (o.mul S (o.ofNat xs.length)).val) :
    PartMeanWithin p e xs (o.div q (o.add (o.mul (o.ofNat xs.length) (o.ofNat xs.length)) (o.mul o.zero o.zero))) := by
  have hn := List.length_pos_of_ne_nil hx
  have h1 : (1 : ℚ) ≤ xs.length := by exact_mod_cast hn
  obtain ⟨s1, s2⟩ := hS
  have hB : |(xs.map Flt.val).sum| ≤ (xs.map fun x => |x.val|).sum := by
    clear * -
    induction xs with
    | nil => simp
    | cons x xs ih => simp only [List.map_cons, List.sum_cons]; exact (abs_add_le _ _).trans (by linarith)
  have hSb : |S.val| ≤ (1 + 1 / 2 ^ p) ^ (xs.length - 1) * (xs.map fun x => |x.val|).sum := by
    have := abs_le_of_near s2
    linarith
  obtain ⟨c1, c2⟩ := O.ofNat xs.length hn2
  have hin : |S.val * (o.ofNat xs.length).val| ≤ maxFinite p e := by
    rw [c2, abs_mul, Nat.abs_cast]
    exact (mul_le_mul_of_nonneg_right hSb (by linarith)).trans hr
  obtain ⟨m1, m2⟩ := mul_err hp hpe O.mul s1 c1 hin
  obtain ⟨q1, q2⟩ := hq m1
  obtain ⟨d1, d2, d3⟩ := cxMean_den hp hpe O hn hn2 hm
  rw [← q2, c2] at m2
  generalize o.add (o.mul (o.ofNat xs.length) (o.ofNat xs.length)) (o.mul o.zero o.zero) = d at *
  have hb : |q.val / d.val| ≤ maxFinite p e := by
    rw [abs_div, abs_of_pos (show (0 : ℚ) < d.val by linarith)]
    exact (div_le_self (abs_nonneg _) d3).trans (rep_le_max (finite_rep q1))
  obtain ⟨v1, v2⟩ := div_err hp hpe O.div q1 d1 (by linarith) hb
  have hu : 1 / (2 : ℚ) ^ p ≤ 1 / 2 := one_div_le_one_div_of_le (by norm_num) (by simpa using pow_le_pow_right₀ (by norm_num : (1 : ℚ) ≤ 2) hp)
  have key := square_quotient_err (ulp_nonneg p) hu (halfTiny_pos p e).le h1 m2 d2 v2
  refine ⟨v1, ?_⟩
  have hn0 : (0 : ℚ) < xs.length := by linarith
  have k1 : |S.val / xs.length - meanOf xs| ≤ ((1 + 1 / 2 ^ p) ^ (xs.length - 1) - 1) * meanAbs xs := by
    unfold meanOf meanAbs
    rw [← sub_div, abs_div, abs_of_pos hn0, ← mul_div_assoc]
    exact div_le_div_of_nonneg_right s2 hn0.le
  have k2 : |S.val / xs.length| ≤ (1 + 1 / 2 ^ p) ^ (xs.length - 1) * meanAbs xs := by
    unfold meanAbs
    rw [abs_div, abs_of_pos hn0, ← mul_div_assoc]
    exact div_le_div_of_nonneg_right hSb hn0.le
  have k3 : (0 : ℚ) ≤ (1 + 1 / 2 ^ p) ^ 4 - 1 := by
    have : (1 : ℚ) ≤ (1 + 1 / 2 ^ p) ^ 4 := one_le_pow₀ (by linarith [ulp_nonneg p])
    linarith
  have k4 := mul_le_mul_of_nonneg_right k2 k3
  have k5 : |(o.div q d).val - meanOf xs| ≤ |(o.div q d).val - S.val / xs.length| + |S.val / xs.length - meanOf xs| := abs_sub_le _ _ _
  have e1 : (1 + 1 / (2 : ℚ) ^ p) ^ (xs.length + 3) = (1 + 1 / 2 ^ p) ^ (xs.length - 1) * (1 + 1 / 2 ^ p) ^ 4 := by
    rw [← pow_add]
    congr 1
    omega
  rw [e1]
  generalize (1 + 1 / (2 : ℚ) ^ p) ^ (xs.length - 1) = P at *
  generalize (1 + 1 / (2 : ℚ) ^ p) ^ 4 = Q at *
  linarith

include hp hpe O in
theorem cxMean_cell {zs : List (Cx Flt)} {s : Cx Flt} (h : BracketOf (Cx.zeroOf o) (Cx.add o) (Cx.add o) zs s) :
    CxMeanCell p e zs (Cx.div o s (Cx.ofNat o zs.length)) := by
  obtain ⟨b1, b2⟩ := bracketOf_parts h
  rw [O.zero] at b1 b2
  constructor
  · rintro ⟨hx, hn, hm, hf, hre, him⟩
    have h1 : (1 : ℚ) ≤ zs.length := by exact_mod_cast List.length_pos_of_ne_nil hx
    have sums : ∀ (g : Cx Flt → Flt) {S : Flt}, (∀ z ∈ zs, (g z).Finite p e) → BracketOf (.num 0) o.add o.add (zs.map g) S →
        (1 + 1 / 2 ^ p) ^ (zs.length - 1) * (zs.map fun z => |(g z).val|).sum * zs.length ≤ maxFinite p e → SumWithin p e (zs.map g) S := by
      intro g S hg hb hl
      refine bracketOf_within hp hpe O.add hb ⟨by simpa using hg, ?_⟩
      simp only [List.length_map, List.map_map, Function.comp_def]
      refine le_trans (le_mul_of_one_le_right (mul_nonneg (by have := ulp_nonneg p; positivity) ?_) h1) hl
      exact List.sum_nonneg (by rintro _ h; obtain ⟨q, -, rfl⟩ := List.mem_map.1 h; exact abs_nonneg _)
    have r1 := sums Cx.re (fun z hz => (hf z hz).1) b1 hre
    have r2 := sums Cx.im (fun z hz => (hf z hz).2) b2 him
    have hz := zero_finite (p := p) (e := e) hp hpe
    have zeroed : ∀ {x : Flt}, x.Finite p e → (o.mul x (.num 0)).Finite p e ∧ (o.mul x (.num 0)).val = 0 := by
      intro x hx
      have h0 : x.val * (Flt.num 0).val = 0 := by simp [Flt.val, Flt.rat?]
      obtain ⟨k1, k2⟩ := mul_exact O.mul hx hz (by rw [h0]; simpa [Flt.val, Flt.rat?] using finite_rep hz)
      exact ⟨k1, by rw [k2, h0]⟩
    constructor
    · have := cxMean_part hp hpe O (q := o.add (o.mul s.re (o.ofNat (zs.map Cx.re).length)) (o.mul s.im o.zero)) (by simpa using hx) (by simpa using hn) (by simpa using hm) r1
        (by simpa [Function.comp_def] using hre) (fun hq => by
          obtain ⟨k1, k2⟩ := zeroed r2.1
          rw [O.zero]
          have := nearest_exact O.add hq k1 (by rw [k2, add_zero]; exact rep_le_max (finite_rep hq)) (by rw [k2, add_zero]; exact finite_rep hq)
          rwa [k2, add_zero] at this)
      rw [List.length_map] at this
      exact this
    · have := cxMean_part hp hpe O (q := o.sub (o.mul s.im (o.ofNat (zs.map Cx.im).length)) (o.mul s.re o.zero)) (by simpa using hx) (by simpa using hn) (by simpa using hm) r2
        (by simpa [Function.comp_def] using him) (fun hq => by
          obtain ⟨k1, k2⟩ := zeroed r1.1
          rw [O.zero]
          obtain ⟨j1, j2⟩ := O.sub.nearest _ _ hq k1 (by rw [k2, sub_zero]; exact rep_le_max (finite_rep hq))
          refine ⟨j1, ?_⟩
          have := j2 _ (finite_rep hq)
          rw [k2, sub_zero, sub_self, abs_zero] at this
          exact sub_eq_zero.1 (abs_nonpos_iff.1 this))
      rw [List.length_map] at this
      exact this
  · rintro ⟨z, hz, h | h⟩
    · have := bracketOf_nan O.add b1 ⟨_, List.mem_map.2 ⟨z, hz, rfl⟩, h⟩
      exact ⟨O.div.nan _ _ (.inl (O.add.nan _ _ (.inl (O.mul.nan _ _ (.inl this))))),
        O.div.nan _ _ (.inl (O.sub.nan _ _ (.inr (O.mul.nan _ _ (.inl this)))))⟩
    · have := bracketOf_nan O.add b2 ⟨_, List.mem_map.2 ⟨z, hz, rfl⟩, h⟩
      exact ⟨O.div.nan _ _ (.inl (O.add.nan _ _ (.inr (O.mul.nan _ _ (.inl this))))),
        O.div.nan _ _ (.inl (O.sub.nan _ _ (.inl (O.mul.nan _ _ (.inl this)))))⟩

include hp hpe O in
/-- `a * b` of tensors of complex numbers, element by element with broadcasting. -/
theorem C110_mul (dflt : Order) (a b : Tensor (Cx Flt)) (ha : a.WF) (hb : b.WF) (hc : Compatible dflt a.arr.shape b.arr.shape) :
    ∃ (f : Cx Flt → Cx Flt → Cx Flt) (c : Tensor (Cx Flt)), Tensor.binary dflt a b (Cx.mul o) = .ok c ∧ c.WF ∧ IsMap2 dflt f a.arr b.arr c.arr ∧
      ∀ z w, (CxMulInRange p e z w → CxMulWithin p e z w (f z w)) ∧ (z.SomeNaN ∨ w.SomeNaN → (f z w).BothNaN) := by
  obtain ⟨c, h1, h2, h3⟩ := C30_binary dflt a b (Cx.mul o) ha hb hc
  exact ⟨_, c, h1, h2, h3, fun z w => ⟨cxMul_within hp hpe O, cxMul_nan O⟩⟩

include hp hpe O in
/-- The sum of complex numbers, on every device and for every layout. -/
theorem C110_sum (dflt : Order) (par : Option Scheduler) (hd : Device par) (t : Tensor (Cx Flt)) (h : t.WF) :
    ∃ v, t.sumAll dflt par (Cx.zeroOf o) (Cx.add o) = .ok v ∧ CxSumCell p e t.arr.elements v := by
  obtain ⟨s, h1, h2⟩ := C100_reduce dflt par hd t h (sumR (Cx.zeroOf o) (Cx.add o))
  obtain ⟨b1, b2⟩ := bracketOf_parts h1
  rw [O.zero] at b1 b2
  exact ⟨s, h2, ⟨bracketOf_within hp hpe O.add b1, bracketOf_exact hp hpe O.add b1, bracketOf_nan O.add b1⟩,
    bracketOf_within hp hpe O.add b2, bracketOf_exact hp hpe O.add b2, bracketOf_nan O.add b2⟩

include hp hpe O in
/-- The mean of complex numbers, on every device and for every layout. -/
theorem C110_mean (dflt : Order) (par : Option Scheduler) (hd : Device par) (t : Tensor (Cx Flt)) (h : t.WF) :
    ∃ v, t.meanCx o dflt par = .ok v ∧ CxMeanCell p e t.arr.elements v := by
  obtain ⟨s, h1, h2⟩ := C100_reduce dflt par hd t h ⟨Cx.zeroOf o, Cx.add o, Cx.add o, fun acc => Cx.div o acc (Cx.ofNat o t.layout.size)⟩
  refine ⟨_, h2, ?_⟩
  have := cxMean_cell hp hpe O h1
  rwa [(C38_elements t h).1] at this

include hp hpe O in
/-- `mean_axes` of complex numbers: each cell of the result, by its slice. Missing: what `C39_kernel_partial` leaves out. -/
theorem C110_mean_axes_partial (dflt : Order) (par : Option (Nat → Scheduler)) (hd : Devices par) (t : Tensor (Cx Flt)) (h : t.WF)
    (axes : Option (List Int)) (hf : AxesFine t axes) :
    ∃ r, Delivers (t.meanCxAxes o dflt par axes) r ∧ r.WF ∧
      t.arr.ReducedTo (axes.map fun ax => ax.map (normAxis t.arr.shape.length)) (CxMeanCell p e) r.arr := by
  refine axesApi_ok (fun _ => C110_mean hp hpe O dflt _ hd.one t h) fun ax he => ?_
  obtain ⟨ls, lm, g1, g2, -⟩ := slice_ne h (hf ax he).1 (hf ax he).2
  obtain ⟨r, h1, h2, h3⟩ := C100_axes_partial dflt par hd t h (hf ax he).1 ax (hf ax he).2
    ⟨Cx.zeroOf o, Cx.add o, Cx.add o, fun acc => Cx.div o acc (Cx.ofNat o ls.size)⟩
  refine ⟨r, by simp only [g1, ok_bind]; exact h1, h2, ReducedTo.mono h3 fun j hj v ⟨s, k1, k2⟩ => ?_⟩
  cases k2
  have := cxMean_cell hp hpe O k1
  rwa [slice_length h g1 (by rw [g2, ← h3.1]; exact hj)] at this

end

/-! ## The modelled operations -/

/-- The operations of a float format; the square root and the hypotenuse play no part here. -/
def fltParts (p e : Nat) (sqrt : Flt → Flt) (hyp : Flt → Flt → Flt) : PartOps Flt :=
  ⟨.num 0, fltAdd p e, fltSub p e, fltMul p e, fltDiv p e, fltNeg, sqrt, hyp, countFlt p e, fun x => decide (x.rat? = some 0)⟩

/-- The modelled operations are the ones of IEEE 754, for every format. -/
theorem C110_ops_nearest {p e : Nat} (hp : 1 ≤ p) (hpe : p ≤ e) (sqrt : Flt → Flt) (hyp : Flt → Flt → Flt) : IeeeParts p e (fltParts p e sqrt hyp) :=
  ⟨rfl, fltAdd_nearest hp hpe, fltSub_nearest hp hpe, fltMul_nearest hp hpe, fltDiv_nearest hp hpe, countFlt_exact hp hpe⟩

/-! ## What a user would expect and does not hold -/

/-- Single and double precision; the square root and the hypotenuse are not used. -/
def singleParts : PartOps Flt := fltParts 24 127 id fun x _ => x
def doubleParts : PartOps Flt := fltParts 53 1023 id fun x _ => x

/-- `[2¹²⁶, 2¹²⁶ + i]` in single precision. -/
def largePair : Tensor (Cx Flt) := ⟨[⟨.num (2 ^ 126), .num 0⟩, ⟨.num (2 ^ 126), .num 1⟩], ⟨[⟨2, 1⟩], 0⟩⟩

/-- The mean of complex numbers can be infinite although the mean of their real parts alone, taken by the same library,
is right: the division by the number of elements multiplies with it first. -/
theorem C110_false_overflow : largePair.meanCx singleParts .C none = .ok ⟨.inf false, .num (1 / 2)⟩ ∧
    (⟨[.num (2 ^ 126), .num (2 ^ 126)], ⟨[⟨2, 1⟩], 0⟩⟩ : Tensor Flt).meanAll .C none (.num 0) (fltAdd 24 127) (fltDiv 24 127) (countFlt 24 127) =
      .ok (.num (2 ^ 126)) :=
  ⟨okIs (by decide +kernel), okIs (by decide +kernel)⟩

/-- An infinite real part makes the imaginary part of the mean not-a-number. -/
theorem C110_false_infinite : (⟨[⟨.inf false, .num 1⟩], ⟨[⟨1, 1⟩], 0⟩⟩ : Tensor (Cx Flt)).meanCx singleParts .C none =
    .ok ⟨.inf false, .nan false⟩ :=
  okIs (by decide +kernel)

/-- A number far from overflow and from zero, divided by itself, can be not-a-number. -/
theorem C110_false_quotient : ∀ x ∈ [(2 : ℚ) ^ 64, 1 / 2 ^ 75], (⟨[⟨.num x, .num 0⟩], ⟨[⟨1, 1⟩], 0⟩⟩ : Tensor (Cx Flt)).WF ∧
    ∃ (c : Tensor (Cx Flt)) (v : Cx Flt), Tensor.binary .C ⟨[⟨.num x, .num 0⟩], ⟨[⟨1, 1⟩], 0⟩⟩ ⟨[⟨.num x, .num 0⟩], ⟨[⟨1, 1⟩], 0⟩⟩
      (Cx.div singleParts) = .ok c ∧ c.arr.elem [0] = some v ∧ v.re.IsNaN := by
  intro x hx
  simp only [List.mem_cons, List.not_mem_nil, or_false] at hx
  rcases hx with rfl | rfl
  · exact ⟨⟨by decide, rfl⟩, ⟨[⟨.nan true, .num 0⟩], ⟨[⟨1, 1⟩], 0⟩⟩, _, okIs (by decide +kernel), rfl, _, rfl⟩
  · exact ⟨⟨by decide, rfl⟩, ⟨[⟨.nan true, .nan true⟩], ⟨[⟨1, 1⟩], 0⟩⟩, _, okIs (by decide +kernel), rfl, _, rfl⟩

/-- The variance of complex numbers can be negative. -/
theorem C110_false_var : (⟨List.replicate 3 ⟨roundFlt 53 1023 (1 / 10), roundFlt 53 1023 (1 / 10)⟩, ⟨[⟨3, 1⟩], 0⟩⟩ : Tensor (Cx Flt)).varCx
    doubleParts .C none = .ok (.num (-1 / 288230376151711744)) :=
  okIs (by decide +kernel)

/-! ## Concrete cases -/

/-- `[1 + 3 i, 3]` in a format with four digits. -/
def cxPair : Tensor (Cx Flt) := ⟨[⟨.num 1, .num 3⟩, ⟨.num 3, .num 0⟩], ⟨[⟨2, 1⟩], 0⟩⟩

theorem cxPair_wf : cxPair.WF := ⟨by decide, rfl⟩

theorem cxPair_finite : ∀ z ∈ cxPair.arr.elements, z.re.Finite 4 20 ∧ z.im.Finite 4 20 := by
  have f0 : (Flt.num 0).Finite 4 20 := zero_finite (by decide) (by decide)
  have f1 : (Flt.num 1).Finite 4 20 := ⟨1, rfl, 1, 0, by decide, by decide, by decide, by norm_num⟩
  have f3 : (Flt.num 3).Finite 4 20 := ⟨3, rfl, 3, 0, by decide, by decide, by decide, by norm_num⟩
  rw [show cxPair.arr.elements = [⟨.num 1, .num 3⟩, ⟨.num 3, .num 0⟩] from rfl]
  simp [f0, f1, f3]

theorem cxPair_range : CxMeanInRange 4 20 cxPair.arr.elements := by
  refine ⟨by rw [show cxPair.arr.elements = [⟨.num 1, .num 3⟩, ⟨.num 3, .num 0⟩] from rfl]; simp, ?_, ?_, cxPair_finite, ?_, ?_⟩
  all_goals
    rw [show cxPair.arr.elements = [⟨.num 1, .num 3⟩, ⟨.num 3, .num 0⟩] from rfl]
    simp [Flt.val, Flt.rat?, maxFinite]
    try norm_num [abs_of_pos]

example : ∃ v, cxPair.meanCx (fltParts 4 20 id fun x _ => x) .C (some halving) = .ok v ∧ CxMeanWithin 4 20 cxPair.arr.elements v := by
  obtain ⟨v, h1, h2⟩ := C110_mean (p := 4) (e := 20) (by decide) (by decide) (C110_ops_nearest (by decide) (by decide) id fun x _ => x)
    .C _ (.par halving_fits) cxPair cxPair_wf
  exact ⟨v, h1, h2.1 cxPair_range⟩

example : CxMulInRange 4 20 ⟨.num 1, .num 3⟩ ⟨.num 3, .num 0⟩ := by
  have h := cxPair_finite
  rw [show cxPair.arr.elements = [⟨.num 1, .num 3⟩, ⟨.num 3, .num 0⟩] from rfl] at h
  refine ⟨h _ (by simp), h _ (by simp), ?_, ?_⟩
  all_goals
    simp [PairInRange, Flt.val, Flt.rat?, maxFinite, halfTiny]
    norm_num [abs_of_pos]

example : (⟨.num 3, .nan true⟩ : Cx Flt).SomeNaN := .inr ⟨_, rfl⟩

end Rstsr
