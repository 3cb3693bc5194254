import Verif.Spec.FloatMean
import Verif.Proof.FloatDot
import Verif.Model.ElemFns
/-! # Mean and variance of floats: lemmas -/
namespace Rstsr
open Spec

theorem fltNeg_rat {x : Flt} {q : ℚ} (h : x.rat? = some q) : (fltNeg x).rat? = some (-q) := by
  cases x with
  | nan s => cases h
  | inf s => cases h
  | negZero => cases h; simp [fltNeg, Flt.rat?]
  | num r =>
    cases h
    by_cases h0 : q = 0
    · subst h0; simp [fltNeg, Flt.rat?]
    · simp [fltNeg, h0, Flt.rat?]

/-- The modelled subtraction is the one of IEEE 754. -/
theorem fltSub_nearest {p e : Nat} (hp : 1 ≤ p) (hpe : p ≤ e) : NearestSub p e (fltSub p e) where
  nearest x y hx hy hb := by
    obtain ⟨q, h1, h2⟩ := hy
    have hn := fltNeg_rat h1
    have hv : (fltNeg y).val = -y.val := by rw [flt_val_of hn, flt_val_of h1]
    have := (fltAdd_nearest hp hpe).nearest x (fltNeg y) hx ⟨_, hn, representable_neg h2⟩ (by rw [hv, ← sub_eq_add_neg]; exact hb)
    rw [hv, ← sub_eq_add_neg] at this
    exact this
  nan x y h := by
    refine (fltAdd_nearest hp hpe).nan x (fltNeg y) (h.imp_right ?_)
    rintro ⟨s, rfl⟩
    exact ⟨_, rfl⟩

/-- The modelled division is the one of IEEE 754. -/
theorem fltDiv_nearest {p e : Nat} (hp : 1 ≤ p) (hpe : p ≤ e) : NearestDiv p e (fltDiv p e) := by
  constructor
  · intro x y hx hy h0 hb
    have key : (fltDiv p e x y).rat? = some (roundTo p e (x.val / y.val)) := by
      obtain ⟨a, ha, ra⟩ := hx
      obtain ⟨b, hb', rb⟩ := hy
      rw [flt_val_of ha, flt_val_of hb'] at hb ⊢
      rw [flt_val_of hb'] at h0
      cases y with
      | nan s => cases hb'
      | inf s => cases hb'
      | negZero => cases hb'; exact absurd rfl h0
      | num r =>
        cases hb'
        cases x with
        | nan s => cases ha
        | inf s => cases ha
        | negZero => cases ha; rw [zero_div, roundTo_zero, fltDiv, if_neg h0]; exact fltZero_rat _
        | num q =>
          cases ha
          rw [fltDiv, if_neg h0]
          split
          · rename_i h
            have h' : a = 0 := h
            rw [h', zero_div, roundTo_zero]
            exact fltZero_rat _
          · exact roundFlt_rat (roundTo_in_range hp hpe hb)
    refine ⟨⟨_, key, roundTo_representable hp hpe (roundTo_in_range hp hpe hb)⟩, fun s hs => ?_⟩
    rw [flt_val_of key]
    exact roundTo_nearest hp _ hs
  · intro x y h
    rcases h with ⟨s, rfl⟩ | ⟨s, rfl⟩
    · exact ⟨s, by rw [fltDiv]⟩
    · cases x <;> exact ⟨_, rfl⟩

section
variable {p e : Nat} {add sub mul div : Flt → Flt → Flt}

/-- The error of one division. -/
theorem div_err (hp : 1 ≤ p) (hpe : p ≤ e) (D : NearestDiv p e div) {x y : Flt} (hx : x.Finite p e) (hy : y.Finite p e)
    (h0 : y.val ≠ 0) (hb : |x.val / y.val| ≤ maxFinite p e) :
    (div x y).Finite p e ∧ |(div x y).val - x.val / y.val| ≤ |x.val / y.val| * (1 / 2 ^ p) + halfTiny p e := by
  obtain ⟨h1, h2⟩ := D.nearest x y hx hy h0 hb
  exact ⟨h1, (h2 _ (roundTo_representable hp hpe (roundTo_in_range hp hpe hb))).trans (roundTo_err_both p e _)⟩

/-- The error of one subtraction; it is relative even where the result underflows. -/
theorem sub_err (hp : 1 ≤ p) (hpe : p ≤ e) (S : NearestSub p e sub) {x y : Flt} (hx : x.Finite p e) (hy : y.Finite p e)
    (hb : |x.val - y.val| ≤ maxFinite p e) :
    (sub x y).Finite p e ∧ |(sub x y).val - (x.val - y.val)| ≤ |x.val - y.val| * (1 / 2 ^ p) := by
  obtain ⟨h1, h2⟩ := S.nearest x y hx hy hb
  refine ⟨h1, (h2 _ (roundTo_representable hp hpe (roundTo_in_range hp hpe hb))).trans ?_⟩
  have := roundTo_sum_err (finite_rep hx) (representable_neg (finite_rep hy))
  rwa [← sub_eq_add_neg] at this

/-- A bracket over pairs of accumulators is a pair of brackets. -/
theorem bracketOf_moments {z : Flt} {xs : List Flt} {s : Flt × Flt}
    (h : BracketOf (z, z) (fun acc x => (add acc.1 x, add acc.2 (mul x x))) (fun a b => (add a.1 b.1, add a.2 b.2)) xs s) :
    BracketOf z add add xs s.1 ∧ BracketOf z (fun acc x => add acc (mul x x)) add xs s.2 := by
  obtain ⟨b, hb, rfl⟩ := h
  have key : ∀ b : Bracket Flt, b.value (z, z) (fun acc x => (add acc.1 x, add acc.2 (mul x x))) (fun a b => (add a.1 b.1, add a.2 b.2)) =
      (b.value z add add, b.value z (fun acc x => add acc (mul x x)) add) := by
    intro b
    induction b with
    | start => rfl
    | feed b x ih => simp [Bracket.value, ih]
    | both b c ihb ihc => simp [Bracket.value, ihb, ihc]
  rw [key]
  exact ⟨⟨b, hb, rfl⟩, ⟨b, hb, rfl⟩⟩

end

/-! ## Arithmetic -/

theorem tiny_le_one {p e : Nat} (hp : 1 ≤ p) (hpe : p ≤ e) : halfTiny p e ≤ 1 := by
  unfold halfTiny
  have : (2 : ℚ) ^ (2 - (e : Int) - p) ≤ 2 ^ (0 : Int) := zpow_le_zpow_right₀ (by norm_num) (by omega)
  rw [zpow_zero] at this
  linarith

/-- The mean of the absolute values, squared, is at most the mean of the squares. -/
theorem meanAbs_sq (xs : List Flt) : meanAbs xs * meanAbs xs ≤ meanSquare xs := by
  have key : ∀ (l : List Flt) (m : ℚ), 0 ≤ (l.map fun x => x.val * x.val).sum - 2 * m * (l.map fun x => |x.val|).sum + l.length * (m * m) := by
    intro l m
    induction l with
    | nil => simp
    | cons x l ih =>
      simp only [List.map_cons, List.sum_cons, List.length_cons, Nat.cast_succ]
      have h1 := mul_self_nonneg (|x.val| - m)
      have h2 := abs_mul_abs_self x.val
      nlinarith
  unfold meanAbs meanSquare
  by_cases hx : xs = []
  · subst hx; simp
  have hn : (0 : ℚ) < xs.length := by exact_mod_cast List.length_pos_of_ne_nil hx
  have h := key xs ((xs.map fun x => |x.val|).sum / xs.length)
  generalize (xs.map fun x => |x.val|).sum = A at h ⊢
  generalize (xs.map fun x => x.val * x.val).sum = S at h ⊢
  generalize (xs.length : ℚ) = n at h hn ⊢
  rw [le_div_iff₀ hn]
  have e1 : 2 * (A / n) * A = 2 * (A / n * (A / n) * n) := by field_simp
  have e2 : n * (A / n * (A / n)) = A / n * (A / n) * n := by ring
  rw [e1, e2] at h
  linarith

theorem meanAbs_nonneg (xs : List Flt) : 0 ≤ meanAbs xs :=
  div_nonneg (List.sum_nonneg (by rintro _ h; obtain ⟨q, -, rfl⟩ := List.mem_map.1 h; exact abs_nonneg _)) (by positivity)

theorem meanOf_abs (xs : List Flt) : |meanOf xs| ≤ meanAbs xs := by
  unfold meanOf meanAbs
  rw [abs_div, Nat.abs_cast]
  refine div_le_div_of_nonneg_right ?_ (by positivity)
  induction xs with
  | nil => simp
  | cons x xs ih => simp only [List.map_cons, List.sum_cons]; exact (abs_add_le _ _).trans (by linarith)

/-- The variance is the mean of the squares without the square of the mean. -/
theorem varOf_eq {xs : List Flt} (h : xs ≠ []) : varOf xs = meanSquare xs - meanOf xs * meanOf xs := by
  unfold varOf meanSquare
  have hn : (xs.length : ℚ) ≠ 0 := Nat.cast_ne_zero.2 (by simpa using h)
  have key : ∀ (l : List Flt) (m : ℚ), (l.map fun x => (x.val - m) * (x.val - m)).sum =
      (l.map fun x => x.val * x.val).sum - 2 * m * (l.map Flt.val).sum + l.length * (m * m) := by
    intro l m
    induction l with
    | nil => simp
    | cons x l ih => simp only [List.map_cons, List.sum_cons, ih, List.length_cons, Nat.cast_succ]; ring
  rw [key]
  have e1 : (xs.map Flt.val).sum = meanOf xs * xs.length := by unfold meanOf; field_simp
  rw [e1]
  field_simp
  ring

/-- The error of a quotient by a count. -/
theorem quotient_err {u t n s S B E v : ℚ} (hn : 1 ≤ n) (hu : 0 ≤ u) (hS : |S| ≤ B) (h1 : |s - S| ≤ E)
    (h2 : |v - s / n| ≤ |s / n| * u + t) : |v - S / n| ≤ (E + u * (B + E)) / n + t := by
  have hn0 : 0 < n := by linarith
  have h3 : |s / n - S / n| ≤ E / n := by
    rw [← sub_div, abs_div, abs_of_pos hn0]
    exact div_le_div_of_nonneg_right h1 hn0.le
  have h4 : |s / n| ≤ (B + E) / n := by
    rw [abs_div, abs_of_pos hn0]
    refine div_le_div_of_nonneg_right ?_ hn0.le
    have := abs_add_le (s - S) S
    rw [sub_add_cancel] at this
    linarith
  have h5 := mul_le_mul_of_nonneg_right h4 hu
  have h6 : |v - S / n| ≤ |v - s / n| + |s / n - S / n| := abs_sub_le _ _ _
  have e1 : (E + u * (B + E)) / n = E / n + (B + E) / n * u := by field_simp
  rw [e1]
  linarith

/-- The error of a square. -/
theorem square_err {m x A d : ℚ} (hm : |m| ≤ A) (h : |x - m| ≤ d) : |x * x - m * m| ≤ d * (2 * A + d) ∧ |x * x| ≤ (A + d) * (A + d) := by
  have hd : 0 ≤ d := (abs_nonneg _).trans h
  have hA : 0 ≤ A := (abs_nonneg _).trans hm
  have hx : |x| ≤ A + d := by
    have := abs_add_le (x - m) m
    rw [sub_add_cancel] at this
    linarith
  constructor
  · rw [show x * x - m * m = (x - m) * (x + m) by ring, abs_mul]
    refine mul_le_mul h ?_ (abs_nonneg _) hd
    exact (abs_add_le _ _).trans (by linarith)
  · rw [abs_mul]
    exact mul_le_mul hx hx (abs_nonneg _) (by linarith)

/-- The square of a mean with its error. -/
theorem square_bounds {P B M2 t : ℚ} (hP : 1 ≤ P) (hB : 0 ≤ B) (hM : B * B ≤ M2) (ht : 0 ≤ t) (ht1 : t ≤ 1) :
    (B + ((P - 1) * B + t)) * (B + ((P - 1) * B + t)) ≤ P * P * M2 + P * P * (1 + 2 * B) * t ∧
    ((P - 1) * B + t) * (2 * B + ((P - 1) * B + t)) ≤ (P * P - 1) * M2 + P * P * (1 + 2 * B) * t := by
  have hPP : P ≤ P * P := le_mul_of_one_le_left (by linarith) hP
  have g1 : t * t ≤ P * P * t := mul_le_mul_of_nonneg_right (by linarith) ht
  have g2 : P * (B * t) ≤ P * P * (B * t) := mul_le_mul_of_nonneg_right hPP (mul_nonneg hB ht)
  have g3 : P * P * (B * B) ≤ P * P * M2 := mul_le_mul_of_nonneg_left hM (by linarith)
  have g4 : (P * P - 1) * (B * B) ≤ (P * P - 1) * M2 := mul_le_mul_of_nonneg_left hM (by linarith)
  constructor <;> linarith

/-- The difference of the two terms of the variance, with its error. -/
theorem difference_bounds {P B M2 t u q w r v μ : ℚ} (hu : 0 ≤ u) (hP : 1 ≤ P) (hB : 0 ≤ B) (hM : 0 ≤ M2) (ht : 0 ≤ t)
    (hq : |q - M2| ≤ (P * (1 + u) - 1) * M2 + (P + 1) * t) (hw : |w| ≤ P * P * M2 + P * P * (1 + 2 * B) * t)
    (hwm : |w - μ| ≤ (P * P - 1) * M2 + P * P * (1 + 2 * B) * t) (hr : |r - w| ≤ |w| * u + t) :
    |q - r| ≤ 2 * (P * P * (1 + u)) * M2 + 4 * (P * P * (1 + u)) * (1 + B) * t ∧
    (|v - (q - r)| ≤ |q - r| * u → |v - (M2 - μ)| ≤ 2 * (P * P * (1 + u) * (1 + u) - 1) * M2 + 4 * (P * P * (1 + u) * (1 + u)) * (1 + B) * t) := by
  have hPP : P ≤ P * P := le_mul_of_one_le_left (by linarith) hP
  generalize P * P = X at *
  have k1 : P * (M2 * (1 + u)) ≤ X * (M2 * (1 + u)) := mul_le_mul_of_nonneg_right hPP (mul_nonneg hM (by linarith))
  have k2 : P * t ≤ X * t := mul_le_mul_of_nonneg_right hPP ht
  have k3 : t ≤ X * t := le_mul_of_one_le_left ht (by linarith)
  have k4 : 0 ≤ X * t * u := mul_nonneg (mul_nonneg (by linarith) ht) hu
  have k5 : 0 ≤ X * t * B := mul_nonneg (mul_nonneg (by linarith) ht) hB
  have k6 : 0 ≤ X * t * B * u := mul_nonneg k5 hu
  have k7 := mul_le_mul_of_nonneg_right hw hu
  have k8 : 0 ≤ X * M2 * u := mul_nonneg (mul_nonneg (by linarith) hM) hu
  have a1 : |r| ≤ |r - w| + |w| := by simpa using abs_add_le (r - w) w
  have a2 : |q| ≤ |q - M2| + M2 := by simpa [abs_of_nonneg hM] using abs_add_le (q - M2) M2
  have hd : |q - r| ≤ 2 * (X * (1 + u)) * M2 + 4 * (X * (1 + u)) * (1 + B) * t := by
    refine (abs_sub _ _).trans ?_
    linarith
  refine ⟨hd, fun hv => ?_⟩
  have k9 := mul_le_mul_of_nonneg_right hd hu
  have a3 : |v - (M2 - μ)| ≤ |v - (q - r)| + |q - r - (M2 - μ)| := abs_sub_le _ _ _
  have a4 : |q - r - (M2 - μ)| ≤ |q - M2| + |r - μ| := by
    rw [show q - r - (M2 - μ) = (q - M2) - (r - μ) by ring]
    exact abs_sub _ _
  have a5 : |r - μ| ≤ |r - w| + |w - μ| := abs_sub_le _ _ _
  linarith

end Rstsr
