import Verif.Proof.Float
import Verif.Model.Scalar
/-! # Conversions between element types: lemmas -/
namespace Rstsr
open Spec

theorem roundHalfEven_mono {x y : ℚ} (h : x ≤ y) : roundHalfEven x ≤ roundHalfEven y := by
  have hf : ⌊x⌋ ≤ ⌊y⌋ := Int.floor_le_floor h
  unfold roundHalfEven
  rcases hf.lt_or_eq with hlt | heq
  · split_ifs <;> omega
  · rw [← heq]
    split_ifs <;> first | omega | (exfalso; linarith)

theorem roundHalfEven_neg (x : ℚ) : roundHalfEven (-x) = -roundHalfEven x := by
  have h1 := Int.floor_le x
  have h2 := Int.lt_floor_add_one x
  by_cases hi : x = (⌊x⌋ : ℚ)
  · rw [hi, ← Int.cast_neg, roundHalfEven_int, roundHalfEven_int]
  · have hlt : (⌊x⌋ : ℚ) < x := lt_of_le_of_ne h1 (Ne.symm hi)
    have hn : ⌊-x⌋ = -⌊x⌋ - 1 := by
      rw [Int.floor_eq_iff]; push_cast; constructor <;> linarith
    unfold roundHalfEven
    rw [hn]
    push_cast
    split_ifs <;> first | omega | (exfalso; linarith)

theorem roundTo_zero (p e : Nat) : roundTo p e 0 = 0 := by simp [roundTo]

theorem ulpExp_neg (p e : Nat) (q : ℚ) : ulpExp p e (-q) = ulpExp p e q := by simp [ulpExp]

theorem roundTo_neg (p e : Nat) (q : ℚ) : roundTo p e (-q) = -roundTo p e q := by
  unfold roundTo
  rw [ulpExp_neg, neg_div, roundHalfEven_neg]
  by_cases h : q = 0
  · simp [h]
  · rw [if_neg h, if_neg (by simpa using h)]; push_cast; ring

theorem two_zpow_pos (k : Int) : (0 : ℚ) < 2 ^ k := zpow_pos (by norm_num) _

/-- Rounding in a grid of spacing `2 ^ u` leaves the multiples of it where they are. -/
theorem round_grid {q : ℚ} {u : Int} (z : Int) (h : q = z * 2 ^ u) : (roundHalfEven (q / 2 ^ u) : ℚ) * 2 ^ u = q := by
  have : q / 2 ^ u = z := by rw [div_eq_iff (two_zpow_pos u).ne']; exact h
  rw [this, roundHalfEven_int, ← h]

theorem zpow_mul_grid (m : Int) {k u : Int} (h : u ≤ k) : (m : ℚ) * 2 ^ k = ((m * 2 ^ (k - u).toNat : Int) : ℚ) * 2 ^ u := by
  have : k = ((k - u).toNat : Int) + u := by omega
  conv_lhs => rw [this, zpow_add₀ (by norm_num : (2 : ℚ) ≠ 0), zpow_natCast]
  push_cast; ring

theorem log_lt_of_abs_lt {q : ℚ} {n : Int} (h0 : q ≠ 0) (h : |q| < 2 ^ n) : Int.log 2 |q| < n := by
  by_contra hc
  push Not at hc
  have h1 := zpow_log_le h0
  have : (2 : ℚ) ^ n ≤ 2 ^ Int.log 2 |q| := zpow_le_zpow_right₀ (by norm_num) hc
  linarith

/-- Rounding leaves the numbers of the format alone. -/
theorem roundTo_exact {p e : Nat} {q : ℚ} (h : Representable p e q) : roundTo p e q = q := by
  obtain ⟨m, k, hm, hk1, hk2, rfl⟩ := h
  unfold roundTo
  split
  · rename_i h0; exact h0.symm
  · rename_i h0
    have hab : |(m : ℚ) * 2 ^ k| < 2 ^ ((p : Int) + k) := by
      rw [abs_mul, abs_of_pos (two_zpow_pos k), zpow_add₀ (by norm_num), zpow_natCast]
      refine mul_lt_mul_of_pos_right ?_ (two_zpow_pos k)
      have : ((|m| : Int) : ℚ) < ((2 ^ p : Int) : ℚ) := by exact_mod_cast hm
      simpa using this
    have hu : ulpExp p e ((m : ℚ) * 2 ^ k) ≤ k := by
      have := log_lt_of_abs_lt h0 hab
      unfold ulpExp; omega
    exact round_grid _ (zpow_mul_grid m hu)

theorem representable_bound {p e : Nat} {q : ℚ} (h : Representable p e q) : |q| < 2 ^ (e + 1) := by
  obtain ⟨m, k, hm, hk1, hk2, rfl⟩ := h
  have hmq : |(m : ℚ)| < 2 ^ p := by
    have : ((|m| : Int) : ℚ) < ((2 ^ p : Int) : ℚ) := by exact_mod_cast hm
    simpa using this
  rw [abs_mul, abs_of_pos (two_zpow_pos k)]
  calc |(m : ℚ)| * 2 ^ k < 2 ^ p * 2 ^ k := mul_lt_mul_of_pos_right hmq (two_zpow_pos k)
    _ = (2 : ℚ) ^ ((p : Int) + k) := by rw [zpow_add₀ (by norm_num), zpow_natCast]
    _ ≤ (2 : ℚ) ^ ((e + 1 : Nat) : Int) := zpow_le_zpow_right₀ (by norm_num) (by push_cast; omega)
    _ = 2 ^ (e + 1) := zpow_natCast _ _

theorem roundFlt_exact {p e : Nat} {q : ℚ} (h : Representable p e q) : roundFlt p e q = .num q := by
  unfold roundFlt
  rw [roundTo_exact h, if_neg (not_le.2 (representable_bound h)), if_neg]
  rintro ⟨h1, h2⟩; rw [h1] at h2; exact lt_irrefl _ h2

/-- A wider format has the numbers of a narrower one. -/
theorem Representable.widen {p e p' e' : Nat} {q : ℚ} (h : Representable p e q) (hp : p ≤ p') (he : e ≤ e')
    (hpe : p' ≤ e' + 1) : Representable p' e' q := by
  obtain ⟨m, k, hm, hk1, hk2, rfl⟩ := h
  by_cases hk : k ≤ e' + 1 - p'
  · exact ⟨m, k, lt_of_lt_of_le hm (pow_le_pow_right₀ (by norm_num) hp), by omega, hk, rfl⟩
  · refine ⟨m * 2 ^ (k - (e' + 1 - p')).toNat, e' + 1 - p', ?_, by omega, le_rfl, ?_⟩
    · rw [abs_mul, abs_of_pos (by positivity : (0 : Int) < 2 ^ _)]
      calc |m| * 2 ^ (k - (e' + 1 - p')).toNat < 2 ^ p * 2 ^ (k - (e' + 1 - p')).toNat :=
            mul_lt_mul_of_pos_right hm (by positivity)
        _ = 2 ^ (p + (k - (e' + 1 - p')).toNat) := (pow_add _ _ _).symm
        _ ≤ 2 ^ p' := pow_le_pow_right₀ (by norm_num) (by omega)
    · exact zpow_mul_grid m (by omega)

/-- The integers of up to `p` binary digits, and the next one, are numbers of the format. -/
theorem representable_int {p e : Nat} {n : Int} (h : |n| ≤ 2 ^ p) (hp : 1 ≤ p) (he : p ≤ e) : Representable p e n := by
  rcases h.lt_or_eq with h | h
  · exact ⟨n, 0, h, by omega, by omega, by simp⟩
  · have hd : ∃ m : Int, n = m * 2 ∧ |m| < 2 ^ p := by
      obtain ⟨r, rfl⟩ : ∃ r, p = r + 1 := ⟨p - 1, by omega⟩
      have hpos : (0 : Int) < 2 ^ r := by positivity
      rcases abs_choice n with hc | hc
      · refine ⟨2 ^ r, by rw [pow_succ] at h; omega, ?_⟩
        rw [abs_of_pos hpos, pow_succ]; omega
      · refine ⟨-2 ^ r, by rw [pow_succ] at h; omega, ?_⟩
        rw [abs_neg, abs_of_pos hpos, pow_succ]; omega
    obtain ⟨m, rfl, hm⟩ := hd
    exact ⟨m, 1, hm, by omega, by omega, by push_cast; simp⟩

theorem log_mono {x y : ℚ} (hx : 0 < x) (h : x ≤ y) : Int.log 2 x ≤ Int.log 2 y := Int.log_mono_right hx h

/-- Rounding keeps the order: positive numbers. -/
theorem roundTo_mono_pos {p e : Nat} (hp : 1 ≤ p) {x y : ℚ} (hx : 0 < x) (h : x ≤ y) :
    roundTo p e x ≤ roundTo p e y := by
  have hy : 0 < y := lt_of_lt_of_le hx h
  have hl := log_mono hx h
  unfold roundTo
  rw [if_neg hx.ne', if_neg hy.ne']
  by_cases hu : ulpExp p e x = ulpExp p e y
  · rw [hu]
    refine mul_le_mul_of_nonneg_right ?_ (two_zpow_pos _).le
    exact_mod_cast roundHalfEven_mono (div_le_div_of_nonneg_right h (two_zpow_pos _).le)
  · have hux : ulpExp p e x = max (Int.log 2 x + 1 - p) (2 - e - p) := by unfold ulpExp; rw [abs_of_pos hx]
    have huy : ulpExp p e y = max (Int.log 2 y + 1 - p) (2 - e - p) := by unfold ulpExp; rw [abs_of_pos hy]
    have h1 : Int.log 2 x < Int.log 2 y := by omega
    have h2 : ulpExp p e x ≤ Int.log 2 y := by omega
    have h3 : ulpExp p e y ≤ Int.log 2 y := by omega
    have hxm : x ≤ 2 ^ Int.log 2 y := by
      have := Int.lt_zpow_succ_log_self (b := 2) (R := ℚ) (by norm_num) x
      have h4 : (2 : ℚ) ^ (Int.log 2 x + 1) ≤ 2 ^ Int.log 2 y := zpow_le_zpow_right₀ (by norm_num) (by omega)
      have h5 : x < (2 : ℚ) ^ (Int.log 2 x + 1) := by simpa using this
      linarith
    have hym : (2 : ℚ) ^ Int.log 2 y ≤ y := by
      have := zpow_log_le hy.ne'
      rwa [abs_of_pos hy] at this
    have a1 : (roundHalfEven (x / 2 ^ ulpExp p e x) : ℚ) * 2 ^ ulpExp p e x ≤ 2 ^ Int.log 2 y := by
      have hg := round_grid (q := 2 ^ Int.log 2 y) (u := ulpExp p e x)
        (2 ^ (Int.log 2 y - ulpExp p e x).toNat) (by simpa using zpow_mul_grid 1 h2)
      rw [← hg]
      refine mul_le_mul_of_nonneg_right ?_ (two_zpow_pos _).le
      exact_mod_cast roundHalfEven_mono (div_le_div_of_nonneg_right hxm (two_zpow_pos _).le)
    have a2 : (2 : ℚ) ^ Int.log 2 y ≤ (roundHalfEven (y / 2 ^ ulpExp p e y) : ℚ) * 2 ^ ulpExp p e y := by
      have hg := round_grid (q := 2 ^ Int.log 2 y) (u := ulpExp p e y)
        (2 ^ (Int.log 2 y - ulpExp p e y).toNat) (by simpa using zpow_mul_grid 1 h3)
      rw [← hg]
      refine mul_le_mul_of_nonneg_right ?_ (two_zpow_pos _).le
      exact_mod_cast roundHalfEven_mono (div_le_div_of_nonneg_right hym (two_zpow_pos _).le)
    exact a1.trans a2

theorem roundTo_nonneg {p e : Nat} {x : ℚ} (hx : 0 ≤ x) : 0 ≤ roundTo p e x := by
  unfold roundTo
  split
  · exact le_rfl
  · refine mul_nonneg ?_ (two_zpow_pos _).le
    have := roundHalfEven_mono (x := ((0 : Int) : ℚ)) (y := x / 2 ^ ulpExp p e x)
      (by simpa using div_nonneg hx (two_zpow_pos _).le)
    rw [roundHalfEven_int] at this
    exact_mod_cast this

/-- Rounding keeps the order. -/
theorem roundTo_mono {p e : Nat} (hp : 1 ≤ p) {x y : ℚ} (h : x ≤ y) : roundTo p e x ≤ roundTo p e y := by
  rcases lt_trichotomy x 0 with hx | rfl | hx
  · rcases le_or_gt 0 y with hy | hy
    · have h1 := roundTo_nonneg (p := p) (e := e) (x := -x) (by linarith)
      rw [roundTo_neg] at h1
      exact (by linarith : roundTo p e x ≤ 0).trans (roundTo_nonneg hy)
    · have := roundTo_mono_pos (e := e) hp (x := -y) (y := -x) (by linarith) (by linarith)
      rw [roundTo_neg, roundTo_neg] at this
      linarith
  · rw [roundTo_zero]; exact roundTo_nonneg h
  · exact roundTo_mono_pos hp hx h

/-- Rounding moves a number by at most half a unit in the last place. -/
theorem roundTo_err (p e : Nat) (q : ℚ) : |roundTo p e q - q| ≤ 2 ^ ulpExp p e q / 2 := by
  unfold roundTo
  split
  · rename_i h; rw [h]; simpa using div_nonneg (two_zpow_pos _).le (by norm_num : (0 : ℚ) ≤ 2)
  · have hp := two_zpow_pos (ulpExp p e q)
    have h1 := roundHalfEven_err (q / 2 ^ ulpExp p e q)
    have h2 : (roundHalfEven (q / 2 ^ ulpExp p e q) : ℚ) * 2 ^ ulpExp p e q - q =
        ((roundHalfEven (q / 2 ^ ulpExp p e q) : ℚ) - q / 2 ^ ulpExp p e q) * 2 ^ ulpExp p e q := by
      rw [sub_mul, div_mul_cancel₀ _ hp.ne']
    rw [h2, abs_mul, abs_of_pos hp]
    linarith [mul_le_mul_of_nonneg_right h1 hp.le]

theorem roundHalfEven_nearest (x : ℚ) (z : Int) : |(roundHalfEven x : ℚ) - x| ≤ |(z : ℚ) - x| := by
  by_cases h : z = roundHalfEven x
  · rw [h]
  · have h1 := roundHalfEven_err x
    have h2 : (1 : ℚ) ≤ |(z : ℚ) - roundHalfEven x| := by
      have : (1 : Int) ≤ |z - roundHalfEven x| := Int.one_le_abs (sub_ne_zero.2 h)
      exact_mod_cast this
    have h3 := abs_sub_le (z : ℚ) x (roundHalfEven x)
    rw [abs_sub_comm x] at h3
    linarith

/-- Rounding finds the nearest multiple of the last place. -/
theorem roundTo_nearest_grid {p e : Nat} {q : ℚ} (h0 : q ≠ 0) (z : Int) :
    |roundTo p e q - q| ≤ |(z : ℚ) * 2 ^ ulpExp p e q - q| := by
  unfold roundTo
  rw [if_neg h0]
  have hp := two_zpow_pos (ulpExp p e q)
  have key : ∀ w : ℚ, w * 2 ^ ulpExp p e q - q = (w - q / 2 ^ ulpExp p e q) * 2 ^ ulpExp p e q := fun w => by
    rw [sub_mul, div_mul_cancel₀ _ hp.ne']
  rw [key, key, abs_mul, abs_mul]
  exact mul_le_mul_of_nonneg_right (roundHalfEven_nearest _ z) (abs_nonneg _)

/-- A number of the format that is at least as large as the leading digit of `q` is a multiple of the last place of
`q`. -/
theorem multiple_of_ulp {p e : Nat} {q s : ℚ} (h0 : q ≠ 0) (hs : Representable p e s)
    (hle : 2 ^ Int.log 2 |q| ≤ |s| ∨ Int.log 2 |q| + 1 - p ≤ 2 - e - p) : ∃ z : Int, s = z * 2 ^ ulpExp p e q := by
  obtain ⟨m, k, hm, hk1, hk2, rfl⟩ := hs
  have hu : ulpExp p e q ≤ k := by
    rcases hle with hle | hle
    · have hmq : |(m : ℚ)| < 2 ^ p := by
        have : ((|m| : Int) : ℚ) < ((2 ^ p : Int) : ℚ) := by exact_mod_cast hm
        simpa using this
      rw [abs_mul, abs_of_pos (two_zpow_pos k)] at hle
      have h1 : (2 : ℚ) ^ Int.log 2 |q| < 2 ^ ((p : Int) + k) := by
        rw [zpow_add₀ (by norm_num), zpow_natCast]
        exact lt_of_le_of_lt hle (mul_lt_mul_of_pos_right hmq (two_zpow_pos k))
      have := (zpow_lt_zpow_iff_right₀ (by norm_num : (1 : ℚ) < 2)).1 h1
      unfold ulpExp; omega
    · unfold ulpExp; omega
  exact ⟨_, zpow_mul_grid m hu⟩

theorem roundTo_nearest_pos {p e : Nat} (hp : 1 ≤ p) {q s : ℚ} (h0 : 0 < q) (hs : Representable p e s) :
    |roundTo p e q - q| ≤ |s - q| := by
  have ha : |q| = q := abs_of_pos h0
  by_cases hc : 2 ^ Int.log 2 |q| ≤ s ∨ Int.log 2 |q| + 1 - p ≤ 2 - e - p
  · obtain ⟨z, rfl⟩ := multiple_of_ulp h0.ne' hs (hc.imp_left fun h => h.trans (le_abs_self s))
    exact roundTo_nearest_grid h0.ne' z
  · push Not at hc
    have hle := zpow_log_le h0.ne'
    have hu : ulpExp p e q ≤ Int.log 2 |q| := by unfold ulpExp; omega
    have h1 := roundTo_nearest_grid (p := p) (e := e) h0.ne' (1 * 2 ^ (Int.log 2 |q| - ulpExp p e q).toNat)
    rw [← zpow_mul_grid 1 hu] at h1
    refine h1.trans ?_
    rw [ha] at *
    rw [abs_sub_comm, abs_sub_comm s]
    push_cast
    rw [one_mul, abs_of_nonneg (by linarith), abs_of_nonneg (by linarith [hc.1])]
    linarith [hc.1]

theorem representable_neg {p e : Nat} {s : ℚ} (h : Representable p e s) : Representable p e (-s) := by
  obtain ⟨m, k, hm, h1, h2, rfl⟩ := h
  exact ⟨-m, k, by rwa [abs_neg], h1, h2, by push_cast; ring⟩

/-- Rounding finds the nearest number of the format. -/
theorem roundTo_nearest {p e : Nat} (hp : 1 ≤ p) (q : ℚ) {s : ℚ} (hs : Representable p e s) :
    |roundTo p e q - q| ≤ |s - q| := by
  rcases lt_trichotomy q 0 with h | rfl | h
  · have := roundTo_nearest_pos hp (q := -q) (by linarith) (representable_neg hs)
    rw [roundTo_neg] at this
    rwa [show -roundTo p e q - -q = -(roundTo p e q - q) by ring, abs_neg,
      show -s - -q = -(s - q) by ring, abs_neg] at this
  · rw [roundTo_zero]; simp
  · exact roundTo_nearest_pos hp h hs

theorem roundHalfEven_abs_le {x : ℚ} {n : Int} (h : |x| ≤ n) : |roundHalfEven x| ≤ n := by
  rw [abs_le] at h ⊢
  have h1 := roundHalfEven_mono h.2
  have h2 := roundHalfEven_mono h.1
  rw [roundHalfEven_int] at h1
  rw [← Int.cast_neg, roundHalfEven_int] at h2
  exact ⟨h2, h1⟩

theorem representable_grid {p e : Nat} (hp : 1 ≤ p) (hpe : p ≤ e) {z u : Int} (hz : |z| ≤ 2 ^ p) (hu : 2 - (e : Int) - p ≤ u)
    (h : |(z : ℚ) * 2 ^ u| < 2 ^ (e + 1)) : Representable p e (z * 2 ^ u) := by
  by_cases hue : u ≤ e + 1 - p
  · rcases hz.lt_or_eq with hlt | heq
    · exact ⟨z, u, hlt, hu, hue, rfl⟩
    · obtain ⟨r, rfl⟩ : ∃ r, p = r + 1 := ⟨p - 1, by omega⟩
      have hpos : (0 : Int) < 2 ^ r := by positivity
      obtain ⟨m, hm, hlt⟩ : ∃ m : Int, z = m * 2 ∧ |m| < 2 ^ (r + 1) := by
        rcases abs_choice z with hc | hc
        · refine ⟨2 ^ r, by rw [pow_succ] at heq; omega, ?_⟩
          rw [abs_of_pos hpos, pow_succ]; omega
        · refine ⟨-2 ^ r, by rw [pow_succ] at heq; omega, ?_⟩
          rw [abs_neg, abs_of_pos hpos, pow_succ]; omega
      have hval : |(z : ℚ) * 2 ^ u| = 2 ^ (((r + 1 : Nat) : Int) + u) := by
        rw [abs_mul, abs_of_pos (two_zpow_pos u), zpow_add₀ (by norm_num), zpow_natCast]
        have : ((|z| : Int) : ℚ) = ((2 ^ (r + 1) : Int) : ℚ) := by rw [heq]
        push_cast at this
        rw [this]
      rw [hval, ← zpow_natCast] at h
      have := (zpow_lt_zpow_iff_right₀ (by norm_num : (1 : ℚ) < 2)).1 h
      refine ⟨m, u + 1, hlt, by omega, by push_cast at this ⊢; omega, ?_⟩
      rw [hm, zpow_add₀ (by norm_num)]; push_cast; ring
  · refine ⟨z * 2 ^ (u - (e + 1 - p)).toNat, e + 1 - p, ?_, by omega, le_rfl, zpow_mul_grid z (by omega)⟩
    have hg := zpow_mul_grid z (show ((e : Int) + 1 - p) ≤ u by omega)
    rw [hg, abs_mul, abs_of_pos (two_zpow_pos _)] at h
    have h2 : ((2 : ℚ)) ^ (e + 1) = 2 ^ p * 2 ^ ((e : Int) + 1 - p) := by
      rw [← zpow_natCast, ← zpow_natCast, ← zpow_add₀ (by norm_num)]; congr 1; push_cast; ring
    rw [h2] at h
    have := lt_of_mul_lt_mul_right h (two_zpow_pos _).le
    have h3 : ((|z * 2 ^ (u - (e + 1 - p)).toNat| : Int) : ℚ) < ((2 ^ p : Int) : ℚ) := by
      push_cast at this ⊢; exact this
    exact_mod_cast h3

/-- The result of rounding is a number of the format, unless it is too large. -/
theorem roundTo_representable {p e : Nat} (hp : 1 ≤ p) (hpe : p ≤ e) {q : ℚ} (h : |roundTo p e q| < 2 ^ (e + 1)) :
    Representable p e (roundTo p e q) := by
  by_cases h0 : q = 0
  · rw [h0, roundTo_zero]
    simpa using representable_int (n := 0) (p := p) (e := e) (by simp) hp hpe
  have hlog : |q| < 2 ^ (Int.log 2 |q| + 1) := by
    have := Int.lt_zpow_succ_log_self (b := 2) (R := ℚ) (by norm_num) |q|
    simpa using this
  have hu : Int.log 2 |q| + 1 - p ≤ ulpExp p e q := le_max_left _ _
  have hu2 : 2 - (e : Int) - p ≤ ulpExp p e q := le_max_right _ _
  have hz : |roundHalfEven (q / 2 ^ ulpExp p e q)| ≤ 2 ^ p := by
    have hb : |q / 2 ^ ulpExp p e q| ≤ ((2 ^ p : Int) : ℚ) := by
      rw [abs_div, abs_of_pos (two_zpow_pos _), div_le_iff₀ (two_zpow_pos _)]
      push_cast
      rw [← zpow_natCast, ← zpow_add₀ (by norm_num)]
      exact hlog.le.trans (zpow_le_zpow_right₀ (by norm_num) (by omega))
    exact roundHalfEven_abs_le hb
  have hr : roundTo p e q = roundHalfEven (q / 2 ^ ulpExp p e q) * 2 ^ ulpExp p e q := by
    unfold roundTo; rw [if_neg h0]
  rw [hr] at h ⊢
  exact representable_grid hp hpe hz hu2 h

end Rstsr

namespace Rstsr
open Spec

/-! ## Order -/

/-- The place of a rounded number. -/
theorem roundFlt_extended (p e : Nat) (q : ℚ) : (roundFlt p e q).extended =
    some (if 2 ^ (e + 1) ≤ |roundTo p e q| then (if q < 0 then ⊥ else ((⊤ : WithTop ℚ) : WithBot (WithTop ℚ)))
      else ((roundTo p e q : WithTop ℚ) : WithBot (WithTop ℚ))) := by
  unfold roundFlt
  split
  · by_cases h : q < 0 <;> simp [h, Flt.extended]
  · split
    · rename_i h; simp [Flt.extended, h.1]
    · rfl

theorem roundTo_pos_of {p e : Nat} {q : ℚ} (h : 0 < roundTo p e q) : 0 < q := by
  by_contra hc
  have := roundTo_nonneg (p := p) (e := e) (x := -q) (by linarith)
  rw [roundTo_neg] at this; linarith

theorem roundTo_neg_of {p e : Nat} {q : ℚ} (h : roundTo p e q < 0) : q < 0 := by
  by_contra hc
  have := roundTo_nonneg (p := p) (e := e) (x := q) (by linarith)
  linarith

/-- Rounding to a format keeps the order. -/
theorem roundFlt_mono {p e : Nat} (hp : 1 ≤ p) {x y : ℚ} (h : x ≤ y) : ∃ u v,
    (roundFlt p e x).extended = some u ∧ (roundFlt p e y).extended = some v ∧ u ≤ v := by
  refine ⟨_, _, roundFlt_extended p e x, roundFlt_extended p e y, ?_⟩
  have hm := roundTo_mono (e := e) hp h
  have h2 : (0 : ℚ) < 2 ^ (e + 1) := by positivity
  by_cases hx : 2 ^ (e + 1) ≤ |roundTo p e x|
  · rw [if_pos hx]
    by_cases hx0 : x < 0
    · rw [if_pos hx0]; exact bot_le
    · have h1 := roundTo_nonneg (p := p) (e := e) (x := x) (by linarith)
      rw [abs_of_nonneg h1] at hx
      rw [if_neg hx0, if_pos (by rw [abs_of_nonneg (by linarith)]; linarith), if_neg (by linarith)]
  · rw [if_neg hx]
    by_cases hy : 2 ^ (e + 1) ≤ |roundTo p e y|
    · rw [if_pos hy]
      by_cases hy0 : y < 0
      · exfalso
        have h1 := roundTo_nonneg (p := p) (e := e) (x := -y) (by linarith)
        rw [roundTo_neg] at h1
        rw [abs_of_nonpos (by linarith)] at hy hx
        linarith
      · rw [if_neg hy0]; exact WithBot.coe_le_coe.2 le_top
    · rw [if_neg hy]; exact WithBot.coe_le_coe.2 (WithTop.coe_le_coe.2 hm)

theorem convert_mono {p e : Nat} (hp : 1 ≤ p) (hpe : p ≤ e) {x y : Flt} {u v} (hx : x.extended = some u) (hy : y.extended = some v)
    (h : u ≤ v) : ∃ u' v', (fltConvert p e x).extended = some u' ∧ (fltConvert p e y).extended = some v' ∧ u' ≤ v' := by
  have h0 : roundFlt p e 0 = .num 0 := by
    have := roundFlt_exact (representable_int (n := 0) (p := p) (e := e) (by simp) hp hpe)
    simpa using this
  have hz : ∀ {x : Flt} {u}, x.extended = some u →
      x = .inf true ∧ u = ⊥ ∨ x = .inf false ∧ u = ((⊤ : WithTop ℚ) : WithBot (WithTop ℚ)) ∨
        ∃ q : ℚ, u = ((q : WithTop ℚ) : WithBot (WithTop ℚ)) ∧ (fltConvert p e x).extended = (roundFlt p e q).extended := by
    intro x u hx
    cases x with
    | nan s => simp [Flt.extended] at hx
    | inf s => cases s <;> simp [Flt.extended] at hx <;> simp [hx]
    | negZero =>
      simp only [Flt.extended, Option.some.injEq] at hx
      exact .inr (.inr ⟨0, hx.symm, by rw [h0]; rfl⟩)
    | num q =>
      simp only [Flt.extended, Option.some.injEq] at hx
      exact .inr (.inr ⟨q, hx.symm, rfl⟩)
  rcases hz hx with ⟨rfl, rfl⟩ | ⟨rfl, rfl⟩ | ⟨q, rfl, hq⟩
  · rcases hz hy with ⟨rfl, rfl⟩ | ⟨rfl, rfl⟩ | ⟨r, rfl, hr⟩
    · exact ⟨_, _, rfl, rfl, le_rfl⟩
    · exact ⟨_, _, rfl, rfl, bot_le⟩
    · exact ⟨⊥, _, rfl, hr.trans (roundFlt_extended p e r), bot_le⟩
  · rcases hz hy with ⟨rfl, rfl⟩ | ⟨rfl, rfl⟩ | ⟨r, rfl, hr⟩
    · simp at h
    · exact ⟨_, _, rfl, rfl, le_rfl⟩
    · exact absurd (WithBot.coe_le_coe.1 h) (by simp)
  · rcases hz hy with ⟨rfl, rfl⟩ | ⟨rfl, rfl⟩ | ⟨r, rfl, hr⟩
    · simp at h
    · refine ⟨_, _, hq.trans (roundFlt_extended p e q), rfl, ?_⟩
      split
      · split
        · exact bot_le
        · exact le_rfl
      · exact WithBot.coe_le_coe.2 le_top
    · rw [hq, hr]
      exact roundFlt_mono hp (WithTop.coe_le_coe.1 (WithBot.coe_le_coe.1 h))

theorem fltLt_iff (x y : Flt) :
    fltLt x y = true ↔ ∃ u v, x.extended = some u ∧ y.extended = some v ∧ u < v := by
  have htop : ∀ q : ℚ, ((q : WithTop ℚ) : WithBot (WithTop ℚ)) < ((⊤ : WithTop ℚ) : WithBot (WithTop ℚ)) := fun q =>
    WithBot.coe_lt_coe.2 (WithTop.coe_lt_top q)
  have hbot : ∀ t : WithTop ℚ, (⊥ : WithBot (WithTop ℚ)) < (t : WithBot (WithTop ℚ)) := fun t => WithBot.bot_lt_coe t
  have hc : ∀ q r : ℚ, ((q : WithTop ℚ) : WithBot (WithTop ℚ)) < ((r : WithTop ℚ) : WithBot (WithTop ℚ)) ↔ q < r :=
    fun q r => WithBot.coe_lt_coe.trans WithTop.coe_lt_coe
  cases x with
  | nan s => simp [fltLt, Flt.extended]
  | inf s =>
    cases y with
    | nan t => simp [fltLt, Flt.extended]
    | inf t => cases s <;> cases t <;> simp [fltLt, Flt.extended]
    | negZero => cases s <;> simp [fltLt, Flt.extended, -WithTop.coe_zero, -WithBot.coe_zero, hbot]
    | num q => cases s <;> simp [fltLt, Flt.extended, hbot]
  | negZero =>
    cases y with
    | nan t => simp [fltLt, Flt.extended]
    | inf t => cases t <;> simp [fltLt, Flt.extended, -WithTop.coe_zero, -WithBot.coe_zero, -WithBot.coe_top, htop]
    | negZero => simp [fltLt, Flt.extended]
    | num r => simp [fltLt, Flt.extended, -WithTop.coe_zero, -WithBot.coe_zero, hc]
  | num q =>
    cases y with
    | nan t => simp [fltLt, Flt.extended]
    | inf t => cases t <;> simp [fltLt, Flt.extended, -WithBot.coe_top, htop]
    | negZero => simp [fltLt, Flt.extended, -WithTop.coe_zero, -WithBot.coe_zero, hc]
    | num r => simp [fltLt, Flt.extended, hc]

theorem fltEq_iff (x y : Flt) :
    fltEq x y = true ↔ ∃ u, x.extended = some u ∧ y.extended = some u := by
  have hc : ∀ q r : ℚ, ((q : WithTop ℚ) : WithBot (WithTop ℚ)) = ((r : WithTop ℚ) : WithBot (WithTop ℚ)) ↔ q = r :=
    fun q r => WithBot.coe_inj.trans WithTop.coe_inj
  have ht : ∀ q : ℚ, ((q : WithTop ℚ) : WithBot (WithTop ℚ)) ≠ ((⊤ : WithTop ℚ) : WithBot (WithTop ℚ)) := fun q h =>
    WithTop.coe_ne_top (WithBot.coe_inj.1 h)
  have ht' : ∀ q : ℚ, ((⊤ : WithTop ℚ) : WithBot (WithTop ℚ)) ≠ ((q : WithTop ℚ) : WithBot (WithTop ℚ)) := fun q h =>
    ht q h.symm
  cases x with
  | nan s => simp [fltEq, Flt.extended]
  | inf s =>
    cases y with
    | nan t => simp [fltEq, Flt.extended]
    | inf t => cases s <;> cases t <;> simp [fltEq, Flt.extended]
    | negZero => cases s <;> simp [fltEq, Flt.extended, -WithTop.coe_zero, -WithBot.coe_zero, -WithBot.coe_top, ht]
    | num q => cases s <;> simp [fltEq, Flt.extended]
  | negZero =>
    cases y with
    | nan t => simp [fltEq, Flt.extended]
    | inf t => cases t <;> simp [fltEq, Flt.extended, -WithTop.coe_zero, -WithBot.coe_zero, -WithBot.coe_top, ht']
    | negZero => simp [fltEq, Flt.extended]
    | num r => simp [fltEq, Flt.extended, -WithTop.coe_zero, -WithBot.coe_zero, hc]
  | num q =>
    cases y with
    | nan t => simp [fltEq, Flt.extended]
    | inf t => cases t <;> simp [fltEq, Flt.extended, -WithTop.coe_zero, -WithBot.coe_zero, -WithBot.coe_top, ht']
    | negZero => simp [fltEq, Flt.extended, -WithTop.coe_zero, -WithBot.coe_zero, hc, @eq_comm ℚ 0]
    | num r => simp [fltEq, Flt.extended, hc, @eq_comm ℚ r]

end Rstsr
