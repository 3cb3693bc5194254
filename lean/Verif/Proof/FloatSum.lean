import Verif.Model.Close
import Verif.Model.ReduceAxes
import Verif.Spec.FloatSum
import Verif.Proof.Scalar
import Mathlib.Algebra.Order.BigOperators.Group.List
import Mathlib.Algebra.BigOperators.Group.List.Basic
import Mathlib.Tactic.GCongr
/-! # Sums of floats: lemmas -/
namespace Rstsr
open Spec

theorem flt_val_of {x : Flt} {q : ℚ} (h : x.rat? = some q) : x.val = q := by simp [Flt.val, h]

theorem finite_rep {p e : Nat} {x : Flt} (h : x.Finite p e) : Representable p e x.val := by
  obtain ⟨q, h1, h2⟩ := h
  rw [flt_val_of h1]
  exact h2

/-- A sum of two numbers of a format rounds with a small relative error, also where the numbers are subnormal. -/
theorem roundTo_sum_err {p e : Nat} {a b : ℚ} (ha : Representable p e a) (hb : Representable p e b) :
    |roundTo p e (a + b) - (a + b)| ≤ |a + b| * (1 / 2 ^ p) := by
  by_cases h0 : a + b = 0
  · rw [h0, roundTo_zero]; simp
  by_cases hu : 2 - (e : Int) - p ≤ Int.log 2 |a + b| + 1 - p
  · have h1 := roundTo_err p e (a + b)
    have h2 : ulpExp p e (a + b) = Int.log 2 |a + b| + 1 - p := max_eq_left hu
    have h3 := zpow_log_le h0
    rw [h2] at h1
    have h4 : (2 : ℚ) ^ (Int.log 2 |a + b| + 1 - p) / 2 = 2 ^ Int.log 2 |a + b| * (1 / 2 ^ p) := by
      rw [zpow_sub₀ (by norm_num), zpow_add₀ (by norm_num), zpow_natCast, zpow_one]
      field_simp
    rw [h4] at h1
    exact h1.trans (mul_le_mul_of_nonneg_right h3 (by positivity))
  · have h2 : ulpExp p e (a + b) = 2 - (e : Int) - p := max_eq_right (by omega)
    obtain ⟨m, k, -, hk, -, rfl⟩ := ha
    obtain ⟨n, l, -, hl, -, rfl⟩ := hb
    have hz : (m : ℚ) * 2 ^ k + n * 2 ^ l =
        ((m * 2 ^ (k - (2 - e - p)).toNat + n * 2 ^ (l - (2 - e - p)).toNat : Int) : ℚ) * 2 ^ (2 - (e : Int) - p) := by
      rw [zpow_mul_grid m hk, zpow_mul_grid n hl, Int.cast_add, add_mul]
    have h3 := round_grid _ hz
    unfold roundTo
    rw [if_neg h0, h2, h3, sub_self, abs_zero]
    positivity

theorem maxFinite_pos {p : Nat} (e : Nat) (hp : 1 ≤ p) : 0 < maxFinite p e := by
  have : (1 : ℚ) < 2 ^ p := one_lt_pow₀ (by norm_num) (by omega)
  exact mul_pos (by linarith) (two_zpow_pos _)

theorem maxFinite_rep {p e : Nat} (hp : 1 ≤ p) (hpe : p ≤ e) : Representable p e (maxFinite p e) := by
  refine ⟨2 ^ p - 1, (e : Int) + 1 - p, ?_, by omega, le_rfl, by simp [maxFinite]⟩
  have : (1 : Int) ≤ 2 ^ p := one_le_pow₀ (by norm_num)
  rw [abs_of_nonneg (by omega)]
  omega

theorem maxFinite_lt {p : Nat} (e : Nat) : maxFinite p e < 2 ^ (e + 1) := by
  have h2 : ((2 : ℚ)) ^ (e + 1) = 2 ^ p * 2 ^ ((e : Int) + 1 - p) := by
    rw [← zpow_natCast, ← zpow_natCast, ← zpow_add₀ (by norm_num)]; congr 1; push_cast; ring
  rw [h2, maxFinite]
  have := two_zpow_pos ((e : Int) + 1 - p)
  nlinarith

/-- A sum in range does not overflow when it is rounded. -/
theorem roundTo_in_range {p e : Nat} (hp : 1 ≤ p) (hpe : p ≤ e) {q : ℚ} (h : |q| ≤ maxFinite p e) : |roundTo p e q| < 2 ^ (e + 1) := by
  have hr := maxFinite_rep hp hpe
  have h1 := roundTo_mono (e := e) hp (abs_le.1 h).2
  have h2 := roundTo_mono (e := e) hp (abs_le.1 h).1
  rw [roundTo_neg, roundTo_exact hr] at h2
  rw [roundTo_exact hr] at h1
  exact lt_of_le_of_lt (abs_le.2 ⟨h2, h1⟩) (maxFinite_lt e)

theorem roundFlt_rat {p e : Nat} {q : ℚ} (h : |roundTo p e q| < 2 ^ (e + 1)) : (roundFlt p e q).rat? = some (roundTo p e q) := by
  unfold roundFlt
  rw [if_neg (not_le.2 h)]
  split
  · rename_i h; rw [h.1]; rfl
  · rfl

/-- The modelled addition is the one of IEEE 754. -/
theorem fltAdd_nearest {p e : Nat} (hp : 1 ≤ p) (hpe : p ≤ e) : NearestAdd p e (fltAdd p e) := by
  constructor
  · intro x y hx hy hb
    have key : (fltAdd p e x y).rat? = some (roundTo p e (x.val + y.val)) := by
      obtain ⟨a, ha, ra⟩ := hx
      obtain ⟨b, hb', rb⟩ := hy
      rw [flt_val_of ha, flt_val_of hb'] at hb ⊢
      cases x with
      | nan s => cases ha
      | inf s => cases ha
      | negZero =>
        cases ha
        cases y with
        | nan s => cases hb'
        | inf s => cases hb'
        | negZero => cases hb'; simp [fltAdd, Flt.rat?, roundTo_zero]
        | num r => cases hb'; rw [zero_add] at hb ⊢; exact roundFlt_rat (roundTo_in_range hp hpe hb)
      | num q =>
        cases ha
        cases y with
        | nan s => cases hb'
        | inf s => cases hb'
        | negZero => cases hb'; rw [add_zero] at hb ⊢; exact roundFlt_rat (roundTo_in_range hp hpe hb)
        | num r =>
          cases hb'
          exact roundFlt_rat (roundTo_in_range hp hpe hb)
    refine ⟨⟨_, key, roundTo_representable hp hpe (roundTo_in_range hp hpe hb)⟩, fun s hs => ?_⟩
    rw [flt_val_of key]
    exact roundTo_nearest hp _ hs
  · intro x y h
    rcases h with ⟨s, rfl⟩ | ⟨s, rfl⟩
    · exact ⟨s, by rw [fltAdd]⟩
    · cases x <;> exact ⟨_, rfl⟩

/-- The relative error of one addition. -/
theorem nearest_err {p e : Nat} (hp : 1 ≤ p) (hpe : p ≤ e) {add : Flt → Flt → Flt} (A : NearestAdd p e add) {x y : Flt}
    (hx : x.Finite p e) (hy : y.Finite p e) (hb : |x.val + y.val| ≤ maxFinite p e) :
    (add x y).Finite p e ∧ |(add x y).val - (x.val + y.val)| ≤ |x.val + y.val| * (1 / 2 ^ p) := by
  obtain ⟨h1, h2⟩ := A.nearest x y hx hy hb
  exact ⟨h1, (h2 _ (roundTo_representable hp hpe (roundTo_in_range hp hpe hb))).trans (roundTo_sum_err (finite_rep hx) (finite_rep hy))⟩

/-- A sum that is a number of the format is exact. -/
theorem nearest_exact {p e : Nat} {add : Flt → Flt → Flt} (A : NearestAdd p e add) {x y : Flt}
    (hx : x.Finite p e) (hy : y.Finite p e) (hb : |x.val + y.val| ≤ maxFinite p e) (hr : Representable p e (x.val + y.val)) :
    (add x y).Finite p e ∧ (add x y).val = x.val + y.val := by
  obtain ⟨h1, h2⟩ := A.nearest x y hx hy hb
  have := h2 _ hr
  rw [sub_self, abs_zero] at this
  exact ⟨h1, sub_eq_zero.1 (abs_nonpos_iff.1 this)⟩

/-- `v` is a sum of `n` numbers that add up to `s` and in absolute value to `m`, with at most one rounding less than
there are numbers on the way of each. -/
structure Approx (p e : Nat) (n : Nat) (s m : ℚ) (v : Flt) : Prop where
  fin : v.Finite p e
  le : |s| ≤ m
  err : |v.val - s| ≤ ((1 + 1 / 2 ^ p) ^ (n - 1) - 1) * m
  none : n = 0 → m = 0

theorem Approx.zero {p e n : Nat} {s m : ℚ} {v : Flt} (h : Approx p e n s m v) (hn : n = 0) : s = 0 ∧ v.val = 0 := by
  have h1 := h.none hn
  have h2 := h.le
  have h3 := h.err
  rw [h1] at h2 h3
  have hs : s = 0 := abs_nonpos_iff.1 h2
  rw [hs, mul_zero, sub_zero] at h3
  exact ⟨hs, abs_nonpos_iff.1 h3⟩

theorem Approx.join {p e : Nat} (hp : 1 ≤ p) (hpe : p ≤ e) {add : Flt → Flt → Flt} (A : NearestAdd p e add) {n k : Nat} {s m s' m' : ℚ} {v w : Flt}
    (h : Approx p e n s m v) (h' : Approx p e k s' m' w) (hm : (1 + 1 / 2 ^ p) ^ (n + k - 1) * (m + m') ≤ maxFinite p e) :
    Approx p e (n + k) (s + s') (m + m') (add v w) := by
  have hu : (0 : ℚ) ≤ 1 / 2 ^ p := by positivity
  have h1u : (1 : ℚ) ≤ 1 + 1 / 2 ^ p := by linarith
  have hm0 : 0 ≤ m := (abs_nonneg s).trans h.le
  have hm0' : 0 ≤ m' := (abs_nonneg s').trans h'.le
  have hle : |s + s'| ≤ m + m' := (abs_add_le _ _).trans (add_le_add h.le h'.le)
  have hnone : n + k = 0 → m + m' = 0 := fun e => by rw [h.none (by omega), h'.none (by omega), add_zero]
  have habs : ∀ {n : Nat} {s m : ℚ} {v : Flt}, Approx p e n s m v → |v.val| ≤ (1 + 1 / 2 ^ p) ^ (n - 1) * m := fun {n s m v} h => by
    have := abs_add_le (v.val - s) s
    rw [sub_add_cancel] at this
    linarith [h.err, h.le]
  by_cases hn : n = 0
  · obtain ⟨hs, hv⟩ := h.zero hn
    have hb : v.val + w.val = w.val := by rw [hv, zero_add]
    have hw : |w.val| ≤ maxFinite p e := by
      refine (habs h').trans (le_trans ?_ hm)
      rw [h.none hn, zero_add, hn, zero_add]
    obtain ⟨g1, g2⟩ := nearest_exact A h.fin h'.fin (by rw [hb]; exact hw) (by rw [hb]; exact finite_rep h'.fin)
    refine ⟨g1, hle, ?_, hnone⟩
    rw [g2, hb, hs, h.none hn, hn, zero_add, zero_add, zero_add]
    exact h'.err
  by_cases hk : k = 0
  · obtain ⟨hs, hv⟩ := h'.zero hk
    have hb : v.val + w.val = v.val := by rw [hv, add_zero]
    have hw : |v.val| ≤ maxFinite p e := by
      refine (habs h).trans (le_trans ?_ hm)
      rw [h'.none hk, add_zero, hk, add_zero]
    obtain ⟨g1, g2⟩ := nearest_exact A h.fin h'.fin (by rw [hb]; exact hw) (by rw [hb]; exact finite_rep h.fin)
    refine ⟨g1, hle, ?_, hnone⟩
    rw [g2, hb, hs, h'.none hk, hk, add_zero, add_zero, add_zero]
    exact h.err
  · obtain ⟨g, hg⟩ : ∃ g, g = (1 + 1 / (2 : ℚ) ^ p) ^ (n + k - 2) := ⟨_, rfl⟩
    have g1 : (1 + 1 / (2 : ℚ) ^ p) ^ (n - 1) ≤ g := by rw [hg]; exact pow_le_pow_right₀ h1u (by omega)
    have g2 : (1 + 1 / (2 : ℚ) ^ p) ^ (k - 1) ≤ g := by rw [hg]; exact pow_le_pow_right₀ h1u (by omega)
    have g3 : (1 + 1 / (2 : ℚ) ^ p) ^ (n + k - 1) = (1 + 1 / 2 ^ p) * g := by
      rw [hg, ← pow_succ']; congr 1; omega
    have g0 : 1 ≤ g := by rw [hg]; exact one_le_pow₀ h1u
    have e1 : |v.val + w.val - (s + s')| ≤ (g - 1) * (m + m') := by
      have a1 := abs_add_le (v.val - s) (w.val - s')
      have a2 : ((1 + 1 / (2 : ℚ) ^ p) ^ (n - 1) - 1) * m ≤ (g - 1) * m := mul_le_mul_of_nonneg_right (by linarith) hm0
      have a3 : ((1 + 1 / (2 : ℚ) ^ p) ^ (k - 1) - 1) * m' ≤ (g - 1) * m' := mul_le_mul_of_nonneg_right (by linarith) hm0'
      have a4 : v.val + w.val - (s + s') = v.val - s + (w.val - s') := by ring
      rw [a4, mul_add]
      linarith [h.err, h'.err]
    have e2 : |v.val + w.val| ≤ g * (m + m') := by
      have := abs_add_le (v.val + w.val - (s + s')) (s + s')
      rw [sub_add_cancel] at this
      linarith
    have hgm : g * (m + m') ≤ maxFinite p e := by
      refine le_trans ?_ hm
      rw [g3]
      have : 0 ≤ g * (m + m') := mul_nonneg (by linarith) (by linarith)
      nlinarith
    obtain ⟨k1, k2⟩ := nearest_err hp hpe A h.fin h'.fin (e2.trans hgm)
    refine ⟨k1, hle, ?_, hnone⟩
    have e3 := abs_add_le ((add v w).val - (v.val + w.val)) (v.val + w.val - (s + s'))
    rw [sub_add_sub_cancel] at e3
    have e4 : |v.val + w.val| * (1 / 2 ^ p) ≤ g * (m + m') * (1 / 2 ^ p) := mul_le_mul_of_nonneg_right e2 hu
    rw [g3]
    calc _ ≤ _ := e3
      _ ≤ g * (m + m') * (1 / 2 ^ p) + (g - 1) * (m + m') := by linarith
      _ = _ := by ring

theorem rep_le_max {p e : Nat} {q : ℚ} (hr : Representable p e q) : |q| ≤ maxFinite p e := by
  obtain ⟨m, k, h1, h2, h3, h4⟩ := hr
  rw [h4, abs_mul, abs_of_pos (two_zpow_pos k), maxFinite]
  have h5 : ((|m| : Int) : ℚ) ≤ ((2 ^ p - 1 : Int) : ℚ) := by
    have : |m| ≤ 2 ^ p - 1 := by omega
    exact_mod_cast this
  push_cast at h5
  exact mul_le_mul h5 (zpow_le_zpow_right₀ (by norm_num) h3) (two_zpow_pos k).le ((abs_nonneg _).trans h5)

theorem zero_finite {p e : Nat} (hp : 1 ≤ p) (hpe : p ≤ e) : (Flt.num 0).Finite p e := by
  refine ⟨0, rfl, ?_⟩
  simpa using representable_int (n := 0) (p := p) (e := e) (by simp) hp hpe

/-- Any way to add floats up. -/
theorem bracket_approx {p e : Nat} (hp : 1 ≤ p) (hpe : p ≤ e) {add : Flt → Flt → Flt} (A : NearestAdd p e add) {N : Nat} {T : ℚ}
    (hT : (1 + 1 / 2 ^ p) ^ (N - 1) * T ≤ maxFinite p e) (b : Bracket Flt) (hf : ∀ x ∈ b.items, x.Finite p e) (hN : b.items.length ≤ N)
    (hm : (b.items.map fun x => |x.val|).sum ≤ T) :
    Approx p e b.items.length (b.items.map Flt.val).sum (b.items.map fun x => |x.val|).sum (b.value (.num 0) add add) := by
  have h1u : (1 : ℚ) ≤ 1 + 1 / 2 ^ p := by
    have : (0 : ℚ) ≤ 1 / 2 ^ p := by positivity
    linarith
  have nn : ∀ l : List Flt, 0 ≤ (l.map fun x => |x.val|).sum := fun l => List.sum_nonneg (by simp)
  have fits : ∀ (n : Nat) (m : ℚ), n ≤ N → 0 ≤ m → m ≤ T → (1 + 1 / (2 : ℚ) ^ p) ^ (n - 1) * m ≤ maxFinite p e := by
    intro n m hn h0 hm
    refine le_trans (mul_le_mul (pow_le_pow_right₀ h1u (by omega)) hm h0 (by positivity)) hT
  induction b with
  | start => exact ⟨zero_finite hp hpe, by simp [Bracket.items], by simp [Bracket.items, Bracket.value, Flt.val, Flt.rat?], fun _ => rfl⟩
  | feed b x ih =>
    simp only [Bracket.items, List.map_append, List.sum_append, List.length_append, List.map_cons, List.map_nil, List.sum_cons,
      List.sum_nil, add_zero, List.length_cons, List.length_nil, Nat.zero_add] at hf hN hm ⊢
    have hx0 := abs_nonneg x.val
    refine (ih (fun y hy => hf y (by simp [hy])) (by omega) (by linarith)).join hp hpe A
      (⟨hf x (by simp), le_rfl, by simp, fun h => by omega⟩ : Approx p e 1 x.val |x.val| x) ?_
    exact fits _ _ hN (add_nonneg (nn _) hx0) hm
  | both b c ihb ihc =>
    simp only [Bracket.items, List.map_append, List.sum_append, List.length_append] at hf hN hm ⊢
    refine (ihb (fun y hy => hf y (by simp [hy])) (by omega) (by linarith [nn c.items])).join hp hpe A
      (ihc (fun y hy => hf y (by simp [hy])) (by omega) (by linarith [nn b.items])) ?_
    exact fits _ _ hN (add_nonneg (nn _) (nn _)) hm

/-- Whole numbers that add up to few digits are added exactly. -/
theorem bracket_exact {p e : Nat} (hp : 1 ≤ p) (hpe : p ≤ e) {add : Flt → Flt → Flt} (A : NearestAdd p e add)
    (b : Bracket Flt) (z : Flt → Int) (hf : ∀ x ∈ b.items, x.Finite p e ∧ x.val = z x)
    (hm : (b.items.map fun x => |z x|).sum ≤ 2 ^ p) :
    (b.value (.num 0) add add).Finite p e ∧ (b.value (.num 0) add add).val = ((b.items.map z).sum : Int) ∧
      |(b.items.map z).sum| ≤ (b.items.map fun x => |z x|).sum := by
  have nn : ∀ l : List Flt, 0 ≤ (l.map fun x => |z x|).sum := fun l => List.sum_nonneg (by simp)
  have big : ∀ n : Int, |n| ≤ 2 ^ p → Representable p e n ∧ |(n : ℚ)| ≤ maxFinite p e := by
    intro n hn
    have hr := representable_int (e := e) hn hp hpe
    exact ⟨hr, rep_le_max hr⟩
  induction b with
  | start => exact ⟨zero_finite hp hpe, by simp [Bracket.items, Bracket.value, Flt.val, Flt.rat?], by simp [Bracket.items]⟩
  | feed b x ih =>
    simp only [Bracket.items, List.map_append, List.sum_append, List.map_cons, List.map_nil, List.sum_cons,
      List.sum_nil, add_zero, Bracket.value] at hf hm ⊢
    have hx0 := abs_nonneg (z x)
    obtain ⟨h1, h2, h3⟩ := ih (fun y hy => hf y (by simp [hy])) (by linarith)
    obtain ⟨k1, k2⟩ := hf x (by simp)
    have hab : |(b.items.map z).sum + z x| ≤ (b.items.map fun x => |z x|).sum + |z x| := (abs_add_le _ _).trans (by linarith)
    obtain ⟨r1, r2⟩ := big _ (hab.trans hm)
    push_cast at r1 r2
    obtain ⟨g1, g2⟩ := nearest_exact A h1 k1 (by rw [h2, k2]; exact r2) (by rw [h2, k2]; exact r1)
    exact ⟨g1, by rw [g2, h2, k2]; push_cast; rfl, hab⟩
  | both b c ihb ihc =>
    simp only [Bracket.items, List.map_append, List.sum_append, Bracket.value] at hf hm ⊢
    obtain ⟨h1, h2, h3⟩ := ihb (fun y hy => hf y (by simp [hy])) (by linarith [nn c.items])
    obtain ⟨k1, k2, k3⟩ := ihc (fun y hy => hf y (by simp [hy])) (by linarith [nn b.items])
    have hab : |(b.items.map z).sum + (c.items.map z).sum| ≤ (b.items.map fun x => |z x|).sum + (c.items.map fun x => |z x|).sum :=
      (abs_add_le _ _).trans (by linarith)
    obtain ⟨r1, r2⟩ := big _ (hab.trans hm)
    push_cast at r1 r2
    obtain ⟨g1, g2⟩ := nearest_exact A h1 k1 (by rw [h2, k2]; exact r2) (by rw [h2, k2]; exact r1)
    exact ⟨g1, by rw [g2, h2, k2]; push_cast; rfl, hab⟩

/-- Not-a-number is never lost in a sum. -/
theorem bracket_nan {p e : Nat} {add : Flt → Flt → Flt} (A : NearestAdd p e add) (b : Bracket Flt) (h : ∃ x ∈ b.items, x.IsNaN) (z : Flt) :
    (b.value z add add).IsNaN := by
  induction b with
  | start => obtain ⟨x, hx, -⟩ := h; simp [Bracket.items] at hx
  | feed b y ih =>
    obtain ⟨x, hx, hn⟩ := h
    rcases List.mem_append.1 hx with hx | hx
    · exact A.nan _ _ (.inl (ih ⟨x, hx, hn⟩))
    · rw [List.mem_singleton.1 hx] at hn
      exact A.nan _ _ (.inr hn)
  | both b c ihb ihc =>
    obtain ⟨x, hx, hn⟩ := h
    rcases List.mem_append.1 hx with hx | hx
    · exact A.nan _ _ (.inl (ihb ⟨x, hx, hn⟩))
    · exact A.nan _ _ (.inr (ihc ⟨x, hx, hn⟩))

/-! ## Least and greatest -/

theorem fltMin_cases (x y : Flt) : fltMin x y = x ∨ fltMin x y = y := by
  unfold fltMin
  split
  · exact .inr rfl
  · split
    · exact .inl rfl
    · split
      · exact .inr rfl
      · exact .inl rfl

theorem fltMin_le {x y : Flt} {u : WithBot (WithTop ℚ)} (hx : x.extended = some u) :
    ∃ w, (fltMin x y).extended = some w ∧ w ≤ u ∧ ∀ v, y.extended = some v → w ≤ v := by
  cases hy : y.extended with
  | none =>
    have : fltMin x y = x := by
      cases y with
      | nan s => cases x <;> first | rfl | cases hx
      | inf s => cases s <;> cases hy
      | negZero => cases hy
      | num q => cases hy
    exact ⟨u, by rw [this, hx], le_rfl, fun v h => by cases h⟩
  | some v =>
    have : fltMin x y = if fltLt y x then y else x := by
      cases x with
      | nan s => cases hx
      | _ => cases y with
        | nan s => cases hy
        | _ => rfl
    rw [this]
    by_cases hl : fltLt y x = true
    · rw [if_pos hl]
      obtain ⟨a, b, ha, hb, hab⟩ := (fltLt_iff y x).1 hl
      rw [hx] at hb; rw [hy] at ha; cases ha; cases hb
      exact ⟨v, hy, hab.le, fun w hw => by cases hw; exact le_rfl⟩
    · rw [if_neg hl]
      refine ⟨u, hx, le_rfl, fun w hw => ?_⟩
      cases hw
      exact not_lt.1 fun h => hl ((fltLt_iff y x).2 ⟨_, _, hy, hx, h⟩)

/-- Any way to take the least: below every number, and an element or the start value. -/
theorem bracket_min {top : Flt} {T : WithBot (WithTop ℚ)} (ht : top.extended = some T) (b : Bracket Flt) :
    (b.value top fltMin fltMin = top ∨ b.value top fltMin fltMin ∈ b.items) ∧
    ∃ w, (b.value top fltMin fltMin).extended = some w ∧ w ≤ T ∧ ∀ x ∈ b.items, ∀ v, x.extended = some v → w ≤ v := by
  induction b with
  | start => exact ⟨.inl rfl, T, ht, le_rfl, fun x hx => by simp [Bracket.items] at hx⟩
  | feed b y ih =>
    obtain ⟨h1, u, h2, h3, h4⟩ := ih
    simp only [Bracket.items, Bracket.value]
    obtain ⟨w, k1, k2, k3⟩ := fltMin_le (y := y) h2
    refine ⟨?_, w, k1, k2.trans h3, fun x hx v hv => ?_⟩
    · rcases fltMin_cases (b.value top fltMin fltMin) y with h | h <;> rw [h]
      · exact h1.imp id (by simp +contextual)
      · simp
    · rcases List.mem_append.1 hx with hx | hx
      · exact k2.trans (h4 x hx v hv)
      · rw [List.mem_singleton.1 hx] at hv
        exact k3 v hv
  | both b c ihb ihc =>
    obtain ⟨h1, u, h2, h3, h4⟩ := ihb
    obtain ⟨i1, u', i2, i3, i4⟩ := ihc
    simp only [Bracket.items, Bracket.value]
    obtain ⟨w, k1, k2, k3⟩ := fltMin_le (y := c.value top fltMin fltMin) h2
    refine ⟨?_, w, k1, k2.trans h3, fun x hx v hv => ?_⟩
    · rcases fltMin_cases (b.value top fltMin fltMin) (c.value top fltMin fltMin) with h | h <;> rw [h]
      · exact h1.imp id (by simp +contextual)
      · exact i1.imp id (by simp +contextual)
    · rcases List.mem_append.1 hx with hx | hx
      · exact k2.trans (h4 x hx v hv)
      · exact (k3 u' i2).trans (i4 x hx v hv)

theorem bracket_least {top : Flt} {T : WithBot (WithTop ℚ)} (ht : top.extended = some T) {xs : List Flt} {v : Flt}
    (h : BracketOf top fltMin fltMin xs v) (hx : ∃ x ∈ xs, ∃ w, x.extended = some w ∧ w ≤ T) : LeastNumber xs v := by
  obtain ⟨b, hp, rfl⟩ := h
  obtain ⟨h1, w, h2, h3, h4⟩ := bracket_min ht b
  refine ⟨w, h2, ?_, fun x hx => h4 x (hp.mem_iff.2 hx)⟩
  rcases h1 with h1 | h1
  · obtain ⟨x, hx, u, hu, hle⟩ := hx
    rw [h1, ht] at h2
    cases h2
    exact ⟨x, hx, by rw [hu, le_antisymm hle (h4 x (hp.mem_iff.2 hx) u hu)]⟩
  · exact ⟨_, hp.mem_iff.1 h1, h2⟩

theorem fltMax_cases (x y : Flt) : fltMax x y = x ∨ fltMax x y = y := by
  unfold fltMax
  split
  · exact .inr rfl
  · split
    · exact .inl rfl
    · split
      · exact .inr rfl
      · exact .inl rfl

theorem le_fltMax {x y : Flt} {u : WithBot (WithTop ℚ)} (hx : x.extended = some u) :
    ∃ w, (fltMax x y).extended = some w ∧ u ≤ w ∧ ∀ v, y.extended = some v → v ≤ w := by
  cases hy : y.extended with
  | none =>
    have : fltMax x y = x := by
      cases y with
      | nan s => cases x <;> first | rfl | cases hx
      | inf s => cases s <;> cases hy
      | negZero => cases hy
      | num q => cases hy
    exact ⟨u, by rw [this, hx], le_rfl, fun v h => by cases h⟩
  | some v =>
    have : fltMax x y = if fltLt x y then y else x := by
      cases x with
      | nan s => cases hx
      | _ => cases y with
        | nan s => cases hy
        | _ => rfl
    rw [this]
    by_cases hl : fltLt x y = true
    · rw [if_pos hl]
      obtain ⟨a, b, ha, hb, hab⟩ := (fltLt_iff x y).1 hl
      rw [hx] at ha; rw [hy] at hb; cases ha; cases hb
      exact ⟨v, hy, hab.le, fun w hw => by cases hw; exact le_rfl⟩
    · rw [if_neg hl]
      refine ⟨u, hx, le_rfl, fun w hw => ?_⟩
      cases hw
      exact not_lt.1 fun h => hl ((fltLt_iff x y).2 ⟨_, _, hx, hy, h⟩)

/-- Any way to take the greatest: above every number, and an element or the start value. -/
theorem bracket_max {bot : Flt} {T : WithBot (WithTop ℚ)} (ht : bot.extended = some T) (b : Bracket Flt) :
    (b.value bot fltMax fltMax = bot ∨ b.value bot fltMax fltMax ∈ b.items) ∧
    ∃ w, (b.value bot fltMax fltMax).extended = some w ∧ T ≤ w ∧ ∀ x ∈ b.items, ∀ v, x.extended = some v → v ≤ w := by
  induction b with
  | start => exact ⟨.inl rfl, T, ht, le_rfl, fun x hx => by simp [Bracket.items] at hx⟩
  | feed b y ih =>
    obtain ⟨h1, u, h2, h3, h4⟩ := ih
    simp only [Bracket.items, Bracket.value]
    obtain ⟨w, k1, k2, k3⟩ := le_fltMax (y := y) h2
    refine ⟨?_, w, k1, h3.trans k2, fun x hx v hv => ?_⟩
    · rcases fltMax_cases (b.value bot fltMax fltMax) y with h | h <;> rw [h]
      · exact h1.imp id (by simp +contextual)
      · simp
    · rcases List.mem_append.1 hx with hx | hx
      · exact (h4 x hx v hv).trans k2
      · rw [List.mem_singleton.1 hx] at hv
        exact k3 v hv
  | both b c ihb ihc =>
    obtain ⟨h1, u, h2, h3, h4⟩ := ihb
    obtain ⟨i1, u', i2, i3, i4⟩ := ihc
    simp only [Bracket.items, Bracket.value]
    obtain ⟨w, k1, k2, k3⟩ := le_fltMax (y := c.value bot fltMax fltMax) h2
    refine ⟨?_, w, k1, h3.trans k2, fun x hx v hv => ?_⟩
    · rcases fltMax_cases (b.value bot fltMax fltMax) (c.value bot fltMax fltMax) with h | h <;> rw [h]
      · exact h1.imp id (by simp +contextual)
      · exact i1.imp id (by simp +contextual)
    · rcases List.mem_append.1 hx with hx | hx
      · exact (h4 x hx v hv).trans k2
      · exact (i4 x hx v hv).trans (k3 u' i2)

theorem bracket_greatest {bot : Flt} {T : WithBot (WithTop ℚ)} (ht : bot.extended = some T) {xs : List Flt} {v : Flt}
    (h : BracketOf bot fltMax fltMax xs v) (hx : ∃ x ∈ xs, ∃ w, x.extended = some w ∧ T ≤ w) : GreatestNumber xs v := by
  obtain ⟨b, hp, rfl⟩ := h
  obtain ⟨h1, w, h2, h3, h4⟩ := bracket_max ht b
  refine ⟨w, h2, ?_, fun x hx => h4 x (hp.mem_iff.2 hx)⟩
  rcases h1 with h1 | h1
  · obtain ⟨x, hx, u, hu, hle⟩ := hx
    rw [h1, ht] at h2
    cases h2
    exact ⟨x, hx, by rw [hu, le_antisymm (h4 x (hp.mem_iff.2 hx) u hu) hle]⟩
  · exact ⟨_, hp.mem_iff.1 h1, h2⟩

end Rstsr
