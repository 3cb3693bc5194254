import Verif.Proof.Close
import Verif.Thm.Reduce
/-!
# C64: closeness
-/
namespace Rstsr
open Spec

/-- The common types whose elements can be compared with tolerances of type `f64`. -/
def closeTypes : List DType := [.u8, .u16, .u32, .u64, .usize, .i8, .i16, .i32, .i64, .isize, .f32, .f64]

theorem closeTypes_cases {t : DType} (h : t ∈ closeTypes) :
    (∃ b, t.kind = .uint b ∧ castRule t .f64 = some (castTo .f64)) ∨ (∃ b, t.kind = .int b ∧ castRule t .f64 = some (castTo .f64)) ∨
      (t = .f32 ∧ castRule t .f64 = some (castTo .f64)) ∨ (t = .f64 ∧ castRule t .f64 = some id) := by
  cases t <;> first
    | exact absurd h (by decide)
    | exact .inl ⟨_, rfl, rfl⟩
    | exact .inr (.inl ⟨_, rfl, rfl⟩)
    | exact .inr (.inr (.inl ⟨rfl, rfl⟩))
    | exact .inr (.inr (.inr ⟨rfl, rfl⟩))

theorem finite_not_nan {x : Flt} {q : ℚ} (h : x.finite = some q) : fltIsNan x = false := by
  cases x <;> simp_all [Flt.finite, fltIsNan]

theorem fltAbs_finite {x : Flt} {q : ℚ} (h : x.finite = some q) : fltAbs x = .num |q| := by
  cases x <;> simp only [Flt.finite, Option.some.injEq, reduceCtorEq] at h <;> subst h <;> simp [fltAbs]

theorem intArith_ok (wrap : Bool) {b : Nat} (hb : 1 ≤ b) {z : Int} (h0 : 0 ≤ z) (h : z < 2 ^ (b - 1)) :
    intArith wrap (.int b) z = .ok (.int z) := by
  unfold intArith
  rw [if_pos (wrap_int hb (by have : (0 : Int) < 2 ^ (b - 1) := by positivity
                              omega) h)]

theorem finite_fits {x : Flt} {p e : Nat} {q : ℚ} (h : x.Fits p e) (hq : x.finite = some q) (hp : 1 ≤ p) (hpe : p ≤ e) : Representable p e q := by
  cases x <;> simp only [Flt.finite, Option.some.injEq, reduceCtorEq] at hq <;> subst hq
  · simpa using representable_int (n := 0) (p := p) (e := e) (by simp) hp hpe
  · exact h

theorem representable_abs {p e : Nat} {q : ℚ} (h : Representable p e q) : Representable p e |q| := by
  rcases abs_choice q with hc | hc <;> rw [hc]
  · exact h
  · exact representable_neg h

theorem isclose_unfold {wrap : Bool} {a b : DType} {p : Promotion} (h : promotion a b = some p) {cast : Value → Value}
    (hc : castRule p.res .f64 = some cast) (hb : p.res ≠ .bool) {v w : Value} {args : CloseArgs} {d t : Value} {d' t' : Flt}
    (h1 : extAbsDiff wrap p.res (p.self v) (p.other w) = .ok d) (h2 : extAbs wrap p.res (p.other w) = .ok t)
    (h3 : cast d = .real d') (h4 : cast t = .real t') :
    isclose wrap a b v w args = some (.ok (fltLe d' (fltAdd 53 1023 args.atol (fltMul 53 1023 args.rtol t')) ||
      (args.equalNan && valIsNan (p.self v) && valIsNan (p.other w)))) := by
  unfold isclose
  simp only [h, hc, if_neg hb]
  rw [h1, h2]
  simp only [ok_bind, h3, h4]

/-- What `isclose` computes on finite numbers. -/
theorem isclose_finite (wrap : Bool) {a b : DType} {p : Promotion} (h : promotion a b = some p) (hres : p.res ∈ closeTypes)
    {v w : Value} (hv : a.Has v) (hw : b.Has w) (hx : Lossless a p.res v) (hy : Lossless b p.res w) {q r : ℚ}
    (hq : v.number.1.finite = some q) (hr : w.number.1.finite = some r) (hd : p.res.kind.HoldsDiff q r)
    (rtol atol : ℚ) (en : Bool) :
    isclose wrap a b v w ⟨.num rtol, .num atol, en⟩ =
        some (.ok (fltLe (roundFlt 53 1023 (diffIn p.res.kind |q - r|)) (tolerance atol rtol (roundTo 53 1023 |r|)))) ∧
      (r = 0 ∨ 1 ≤ |r| ∨ Representable 53 1023 r) := by
  obtain ⟨hX, hY, nX, nY⟩ := C63_value h hv hw hx hy
  rw [← nX] at hq
  rw [← nY] at hr
  have hb : p.res ≠ .bool := by intro hb; rw [hb] at hres; exact absurd hres (by decide)
  have intCase : ∀ m n : Int, p.self v = .int m → p.other w = .int n → castRule p.res .f64 = some (castTo .f64) →
      extAbsDiff wrap p.res (p.self v) (p.other w) = .ok (.int |m - n|) → extAbs wrap p.res (p.other w) = .ok (.int |n|) →
      (∀ P E, p.res.kind ≠ .float P E) →
      isclose wrap a b v w ⟨.num rtol, .num atol, en⟩ =
        some (.ok (fltLe (roundFlt 53 1023 (diffIn p.res.kind |q - r|)) (tolerance atol rtol (roundTo 53 1023 |r|)))) ∧
      (r = 0 ∨ 1 ≤ |r| ∨ Representable 53 1023 r) := by
    intro m n hm hn hc h1 h2 hk
    have hn' : |(|n|)| ≤ 2 ^ 64 := by
      rw [abs_abs]; rw [hn] at hY; exact int_bound hY
    rw [hm] at hq; rw [hn] at hr
    obtain rfl : (m : ℚ) = q := by simpa [Value.number, Flt.finite] using hq
    obtain rfl : (n : ℚ) = r := by simpa [Value.number, Flt.finite] using hr
    have e1 : (|(m : ℚ) - n|) = ((|m - n| : Int) : ℚ) := by push_cast; rfl
    have e2 : (|(n : ℚ)|) = ((|n| : Int) : ℚ) := by push_cast; rfl
    have e3 : diffIn p.res.kind |(m : ℚ) - n| = ((|m - n| : Int) : ℚ) := by
      rw [← e1]; unfold diffIn
      cases hk' : p.res.kind with
      | float P E => exact absurd hk' (hk P E)
      | _ => rfl
    refine ⟨?_, ?_⟩
    · rw [isclose_unfold h hc hb h1 h2 (d' := roundFlt 53 1023 (|m - n| : Int)) (t' := roundFlt 53 1023 (|n| : Int)) rfl rfl,
        roundFlt_int hn', e3, e2, hm, hn]
      simp [tolerance, valIsNan]
    · by_cases hz : n = 0
      · left; simp [hz]
      · right; left
        have : 1 ≤ |n| := Int.one_le_abs hz
        rw [e2]; exact_mod_cast this
  rcases closeTypes_cases hres with ⟨bits, hk, hc⟩ | ⟨bits, hk, hc⟩ | ⟨hk, hc⟩ | ⟨hk, hc⟩
  · unfold DType.Has at hX hY
    cases hm : p.self v <;> rw [hm, hk] at hX <;> simp only [Kind.Has] at hX
    cases hn : p.other w <;> rw [hn, hk] at hY <;> simp only [Kind.Has] at hY
    rename_i m n
    refine intCase m n hm hn hc ?_ ?_ (by simp [hk])
    · rw [hm, hn]; simp only [extAbsDiff, hk]
    · rw [hn]; simp only [extAbs, hk]; rw [abs_of_nonneg hY.1]
  · unfold DType.Has at hX hY
    have hbits := kind_int_bits _ hk
    cases hm : p.self v <;> rw [hm, hk] at hX <;> simp only [Kind.Has] at hX
    cases hn : p.other w <;> rw [hn, hk] at hY <;> simp only [Kind.Has] at hY
    rename_i m n
    have hq' : (m : ℚ) = q := by rw [hm] at hq; simpa [Value.number, Flt.finite] using hq
    have hr' : (n : ℚ) = r := by rw [hn] at hr; simpa [Value.number, Flt.finite] using hr
    rw [hk, ← hq', ← hr'] at hd
    have hd1 : |m - n| < 2 ^ (bits - 1) := by exact_mod_cast hd.1
    have hd2 : |n| < 2 ^ (bits - 1) := by exact_mod_cast hd.2
    refine intCase m n hm hn hc ?_ ?_ (by simp [hk])
    · rw [hm, hn]; simp only [extAbsDiff, hk]
      split
      · rename_i hle
        rw [abs_of_nonneg (by omega)] at hd1 ⊢
        exact intArith_ok wrap hbits (by omega) hd1
      · rename_i hle
        rw [abs_of_nonpos (by omega)] at hd1 ⊢
        rw [show -(m - n) = n - m by ring] at hd1 ⊢
        exact intArith_ok wrap hbits (by omega) hd1
    · rw [hn]; simp only [extAbs, hk]; exact intArith_ok wrap hbits (abs_nonneg n) hd2
  · have hk' : p.res.kind = .float 24 127 := by rw [hk]; rfl
    obtain ⟨x, hxv⟩ : ∃ x, p.self v = .real x := by
      unfold DType.Has at hX; rw [hk'] at hX
      cases hm : p.self v <;> rw [hm] at hX <;> simp_all [Kind.Has]
    obtain ⟨y, hyv⟩ : ∃ y, p.other w = .real y := by
      unfold DType.Has at hY; rw [hk'] at hY
      cases hm : p.other w <;> rw [hm] at hY <;> simp_all [Kind.Has]
    rw [hxv] at hq; rw [hyv] at hr
    have hq1 : x.finite = some q := hq
    have hr1 : y.finite = some r := hr
    have hfit : y.Fits 24 127 := by unfold DType.Has at hY; rw [hk', hyv] at hY; exact hY
    have hrep := Representable.widen (p' := 53) (e' := 1023) (finite_fits hfit hr1 (by norm_num) (by norm_num)) (by norm_num) (by norm_num) (by norm_num)
    rw [hk'] at hd
    have hd' : |q - r| ≤ 2 ^ 127 := hd
    have hpow := roundTo_le_pow (p := 24) (e := 127) (by norm_num) (by norm_num) hd'
    have h1 : extAbsDiff wrap p.res (p.self v) (p.other w) = .ok (.real (.num (roundTo 24 127 |q - r|))) := by
      rw [hxv, hyv]; simp only [extAbsDiff, hk']
      rw [fltSub_finite (by norm_num) (by norm_num) hq1 hr1]
      rcases roundFlt_pos (p := 24) (e := 127) (abs_nonneg (q - r)) with ⟨_, hc⟩ | ⟨hc, _⟩
      · exfalso; have := hc.trans hpow; norm_num at this
      · rw [hc]
    have h2 : extAbs wrap p.res (p.other w) = .ok (.real (.num |r|)) := by
      rw [hyv]; simp only [extAbs]; rw [fltAbs_finite hr1]
    refine ⟨?_, .inr (.inr hrep)⟩
    rw [isclose_unfold h hc hb h1 h2 (d' := roundFlt 53 1023 (roundTo 24 127 |q - r|)) (t' := roundFlt 53 1023 |r|) rfl rfl, hk',
      roundFlt_exact (representable_abs hrep), roundTo_exact (representable_abs hrep), hxv, hyv]
    simp [tolerance, valIsNan, diffIn, finite_not_nan hq1]
  · have hk' : p.res.kind = .float 53 1023 := by rw [hk]; rfl
    obtain ⟨x, hxv⟩ : ∃ x, p.self v = .real x := by
      unfold DType.Has at hX; rw [hk'] at hX
      cases hm : p.self v <;> rw [hm] at hX <;> simp_all [Kind.Has]
    obtain ⟨y, hyv⟩ : ∃ y, p.other w = .real y := by
      unfold DType.Has at hY; rw [hk'] at hY
      cases hm : p.other w <;> rw [hm] at hY <;> simp_all [Kind.Has]
    rw [hxv] at hq; rw [hyv] at hr
    have hq1 : x.finite = some q := hq
    have hr1 : y.finite = some r := hr
    have hfit : y.Fits 53 1023 := by unfold DType.Has at hY; rw [hk', hyv] at hY; exact hY
    have hrep := finite_fits hfit hr1 (by norm_num) (by norm_num)
    rw [hk'] at hd
    have hd' : |q - r| ≤ 2 ^ 1023 := hd
    have hpow := roundTo_le_pow (p := 53) (e := 1023) (by norm_num) (by norm_num) hd'
    have hlt : (2 : ℚ) ^ 1023 < 2 ^ 1024 := pow_lt_pow_right₀ (by norm_num) (by norm_num)
    have hrr : Representable 53 1023 (roundTo 53 1023 |q - r|) := by
      refine roundTo_representable (by norm_num) (by norm_num) ?_
      rw [abs_of_nonneg (roundTo_nonneg (abs_nonneg _))]; exact hpow.trans_lt hlt
    have h1 : extAbsDiff wrap p.res (p.self v) (p.other w) = .ok (.real (.num (roundTo 53 1023 |q - r|))) := by
      rw [hxv, hyv]; simp only [extAbsDiff, hk']
      rw [fltSub_finite (by norm_num) (by norm_num) hq1 hr1]
      rcases roundFlt_pos (p := 53) (e := 1023) (abs_nonneg (q - r)) with ⟨_, hc⟩ | ⟨hc, _⟩
      · exact absurd (hc.trans hpow) (not_le.2 hlt)
      · rw [hc]
    have h2 : extAbs wrap p.res (p.other w) = .ok (.real (.num |r|)) := by
      rw [hyv]; simp only [extAbs]; rw [fltAbs_finite hr1]
    refine ⟨?_, .inr (.inr hrep)⟩
    rw [isclose_unfold h hc hb h1 h2 rfl rfl, hk', roundTo_exact (representable_abs hrep), hxv, hyv]
    simp only [diffIn]
    rw [roundFlt_exact hrr]
    simp [tolerance, valIsNan, finite_not_nan hq1]

theorem roundoff_bounds {t : DType} (h : t ∈ closeTypes) :
    1 / 2 ^ 53 ≤ t.kind.roundoff ∧ t.kind.roundoff ≤ 1 / 2 ^ 24 ∧ 1 / 2 ^ 1075 ≤ t.kind.tiny ∧ t.kind.tiny ≤ 1 := by
  have h1 : (1 : ℚ) / 2 ^ 1075 ≤ 1 / 2 ^ 150 :=
    one_div_le_one_div_of_le (by positivity) (pow_le_pow_right₀ (by norm_num) (by norm_num))
  have h2 : (1 : ℚ) / 2 ^ 150 ≤ 1 := by norm_num
  have h3 : (1 : ℚ) / 2 ^ 53 ≤ 1 / 2 ^ 24 := by norm_num
  cases t <;> first
    | exact absurd h (by decide)
    | exact ⟨le_rfl, h3, le_rfl, h1.trans h2⟩
    | exact ⟨h3, le_rfl, h1, h2⟩

theorem diffIn_err {t : DType} (h : t ∈ closeTypes) {d : ℚ} (h0 : 0 ≤ d) :
    0 ≤ diffIn t.kind d ∧ |diffIn t.kind d - d| ≤ d * t.kind.roundoff + t.kind.tiny := by
  have hb := roundoff_bounds h
  have h1 : (0 : ℚ) < 1 / 2 ^ 53 := by positivity
  have h2 : (0 : ℚ) < 1 / 2 ^ 1075 := by positivity
  have h3 : 0 ≤ d * t.kind.roundoff := mul_nonneg h0 (by linarith)
  cases hk : t.kind with
  | float p e =>
    have hp := kind_format t (.inl hk)
    refine ⟨roundTo_nonneg h0, ?_⟩
    have := roundTo_rel (e := e) hp.1 d
    rwa [abs_of_nonneg h0] at this
  | _ =>
    rw [hk] at hb h3
    refine ⟨h0, ?_⟩
    simp only [diffIn, sub_self, abs_zero]
    linarith

/-- The bounds on the rounded tolerance. -/
theorem tolerance_err {a ρ R t : ℚ} (ha : 0 ≤ a) (hρ : 0 ≤ ρ) (hR : 0 ≤ R) (ht : |t - R| ≤ R * (1 / 2 ^ 53)) :
    (a + ρ * R) * (1 - 2 * (1 / 2 ^ 53)) - 1 / 2 ^ 1075 ≤ a + roundTo 53 1023 (ρ * t) ∧
      a + roundTo 53 1023 (ρ * t) ≤ (a + ρ * R) * (1 + 3 * (1 / 2 ^ 53)) + 1 / 2 ^ 1075 ∧ 0 ≤ t := by
  generalize hη : (1 : ℚ) / 2 ^ 1075 = η
  have ht0 : 0 ≤ t := by
    have := (abs_le.1 ht).1
    have h2 : R * (1 / 2 ^ 53) ≤ R := by nlinarith
    linarith
  have h := roundTo_rel (p := 53) (e := 1023) (by norm_num) (ρ * t)
  rw [abs_of_nonneg (mul_nonneg hρ ht0)] at h
  have h' : |roundTo 53 1023 (ρ * t) - ρ * t| ≤ ρ * t * (1 / 2 ^ 53) + η := by rw [← hη]; exact h
  obtain ⟨h1, h2⟩ := abs_le.1 h'
  obtain ⟨h3, h4⟩ := abs_le.1 ht
  have h5 : ρ * t ≤ ρ * R * (1 + 1 / 2 ^ 53) := by nlinarith
  have h6 : ρ * R * (1 - 1 / 2 ^ 53) ≤ ρ * t := by nlinarith
  have h7 : 0 ≤ ρ * R := mul_nonneg hρ hR
  generalize roundTo 53 1023 (ρ * t) = z at *
  generalize ρ * t = y at *
  generalize ρ * R = x at *
  have hε1 : (0 : ℚ) < 1 / 2 ^ 53 := by positivity
  have hε2 : (1 : ℚ) / 2 ^ 53 ≤ 1 / 2 := by norm_num
  generalize (1 : ℚ) / 2 ^ 53 = ε at *
  have hx := mul_nonneg h7 hε1.le
  have ha' := mul_nonneg ha hε1.le
  exact ⟨by nlinarith, by nlinarith, ht0⟩

theorem fin_of {Z T B ε η : ℚ} (h0 : 0 ≤ ε) (hε : ε ≤ 1 / 1000) (hT : 0 ≤ T) (hB : T ≤ B) (h1 : η ≤ 1) (h2 : 2 ^ 10 ≤ B)
    (_h3 : 0 ≤ η) (hZ : Z ≤ T * (1 + 3 * ε) + η) : Z < 2 * B := by
  have : T * ε ≤ T * (1 / 1000) := mul_le_mul_of_nonneg_left hε hT
  linarith

theorem fin_of' {Q S T B ε η : ℚ} (h0 : 0 ≤ ε) (hε : ε ≤ 1 / 1000) (hT : 0 ≤ T) (hB : T ≤ B) (h1 : η ≤ 1) (h2 : 2 ^ 10 ≤ B)
    (h3 : 0 ≤ η) (hS : S ≤ T * (1 + 3 * ε) + η) (hQ : Q - S ≤ S * ε + η) : Q < 2 * B := by
  have a1 : T * ε ≤ T * (1 / 1000) := mul_le_mul_of_nonneg_left hε hT
  have a2 : S ≤ T * (1 + 3 / 1000) + 1 := by linarith
  have a3 : S * ε ≤ (T * (1 + 3 / 1000) + 1) * ε := mul_le_mul_of_nonneg_right a2 h0
  have a4 : (T * (1 + 3 / 1000) + 1) * ε ≤ (T * (1 + 3 / 1000) + 1) * (1 / 1000) := mul_le_mul_of_nonneg_left hε (by linarith)
  linarith

theorem gap_of {ε u η' η T D d S Q E : ℚ} (hε0 : 0 < ε) (hu1 : ε ≤ u) (hu3 : u ≤ 1 / 1000) (hpos : 0 < η') (hη1 : η' ≤ η) (hT : 0 ≤ T)
    (hD : 0 ≤ D) (hd0 : 0 ≤ d) (hS0 : 0 ≤ S) (hhi : S ≤ T * (1 + 3 * ε) + η') (hQ : Q - S ≤ S * ε + η')
    (h3 : -(D * u + η) ≤ d - D) (hE : -(d * ε + η') ≤ E - d) (hge : (1 + 8 * u) * T + 6 * η ≤ D) : Q < E := by
  have hη0 : 0 < η := hpos.trans_le hη1
  have hu0 : 0 < u := hε0.trans_le hu1
  have tu := mul_nonneg hT hu0.le
  have du := mul_nonneg hD hu0.le
  have ηu := mul_nonneg hη0.le hu0.le
  have tuu : T * u * u ≤ T * u * (1 / 1000) := mul_le_mul_of_nonneg_left hu3 tu
  have ηuu : η * u ≤ η * (1 / 1000) := mul_le_mul_of_nonneg_left hu3 hη0.le
  have duu : 0 ≤ D * u * u := mul_nonneg du hu0.le
  -- the rounded tolerance
  have a0 : T * ε ≤ T * u := mul_le_mul_of_nonneg_left hu1 hT
  have a1 : S ≤ T * (1 + 3 * u) + η := by linarith
  have a2 : S * ε ≤ S * u := mul_le_mul_of_nonneg_left hu1 hS0
  have a3 : S * u ≤ (T * (1 + 3 * u) + η) * u := mul_le_mul_of_nonneg_right a1 hu0.le
  have a4 : Q ≤ T + 5 * (T * u) + 3 * η := by linarith
  -- the rounded difference
  have b1 : d * ε ≤ d * u := mul_le_mul_of_nonneg_left hu1 hd0
  have b2 : (D - D * u - η) * (1 - u) ≤ d * (1 - u) := mul_le_mul_of_nonneg_right (by linarith) (by linarith)
  have b3 : D * (1 - 2 * u) - 2 * η ≤ E := by linarith
  have b5 : ((1 + 8 * u) * T + 6 * η) * (1 - 2 * u) ≤ D * (1 - 2 * u) := mul_le_mul_of_nonneg_right hge (by linarith)
  linarith

/-- **C64.** On finite numbers `isclose` answers whether `|v - w| <= atol + rtol * |w|`, for all types with a common type it
supports, except that the answer may be either one when the two sides agree to a few rounding errors. The difference and the
reference value must not overflow the common type. -/
theorem C64_close_partial (wrap : Bool) {a b : DType} {p : Promotion} (h : promotion a b = some p) (hres : p.res ∈ closeTypes)
    {v w : Value} (hv : a.Has v) (hw : b.Has w)
    (hx : ¬ (a.kind.wide = true ∧ p.res.kind.floating = true) ∨ ∃ n : Int, v = .int n ∧ |n| ≤ 2 ^ 53)
    (hy : ¬ (b.kind.wide = true ∧ p.res.kind.floating = true) ∨ ∃ n : Int, w = .int n ∧ |n| ≤ 2 ^ 53) {q r : ℚ}
    (hq : v.number.1.finite = some q) (hr : w.number.1.finite = some r) (hd : p.res.kind.HoldsDiff q r)
    {rtol atol : ℚ} (h1 : 0 ≤ rtol) (h2 : 0 ≤ atol) (equalNan : Bool) :
    ∃ res, isclose wrap a b v w ⟨.num rtol, .num atol, equalNan⟩ = some (.ok res) ∧
      (|q - r| ≤ (1 - 4 * p.res.kind.roundoff) * (atol + rtol * |r|) - 2 * p.res.kind.tiny → res = true) ∧
      (atol + rtol * |r| ≤ 2 ^ 1023 →
        (1 + 8 * p.res.kind.roundoff) * (atol + rtol * |r|) + 6 * p.res.kind.tiny ≤ |q - r| → res = false) := by
  obtain ⟨he, hcase⟩ := isclose_finite wrap h hres hv hw hx hy hq hr hd rtol atol equalNan
  obtain ⟨hd0, hde⟩ := diffIn_err hres (abs_nonneg (q - r))
  obtain ⟨hu1, hu2, hη1, hη2⟩ := roundoff_bounds hres
  have hR : 0 ≤ |r| := abs_nonneg r
  have ht : |roundTo 53 1023 |r| - (|r|)| ≤ |r| * (1 / 2 ^ 53) := by
    rcases hcase with rfl | h1 | hrep
    · simpa using roundTo_rel_int (p := 53) (e := 1023) (q := 0) (by norm_num) (.inl rfl)
    · simpa using roundTo_rel_int (p := 53) (e := 1023) (q := |r|) (by norm_num) (.inr (by rwa [abs_abs]))
    · rw [roundTo_exact (representable_abs hrep)]; simp
  obtain ⟨hlo, hhi, ht0⟩ := tolerance_err h2 h1 hR ht
  have hT : 0 ≤ atol + rtol * |r| := add_nonneg h2 (mul_nonneg h1 hR)
  have hpos : (0 : ℚ) < 1 / 2 ^ 1075 := by positivity
  refine ⟨_, he, fun hle => ?_, fun hfin hge => ?_⟩
  · refine le_tolerance h1 ht0 ?_
    have h3 := (abs_le.1 hde).2
    have hD := abs_nonneg (q - r)
    generalize |q - r| = D at *
    generalize diffIn p.res.kind D = d at *
    generalize atol + roundTo 53 1023 (rtol * roundTo 53 1023 |r|) = S at *
    generalize atol + rtol * |r| = T at *
    generalize p.res.kind.roundoff = u at *
    generalize p.res.kind.tiny = η at *
    generalize (1 : ℚ) / 2 ^ 1075 = η' at *
    have h4 : T * (1 - 2 * u) - η ≤ S := by nlinarith
    have hu0 : 0 < u := lt_of_lt_of_le (by norm_num) hu1
    have h5 : d ≤ D * (1 + u) + η := by linarith
    have h6 : D * (1 + u) ≤ ((1 - 4 * u) * T - 2 * η) * (1 + u) := mul_le_mul_of_nonneg_right hle (by linarith)
    have h7 : 0 ≤ u * u * T := by positivity
    have h8 : 0 ≤ η * u := mul_nonneg (by linarith) hu0.le
    have h9 : 0 ≤ u * T := by positivity
    nlinarith
  · have hS0 : 0 ≤ atol + roundTo 53 1023 (rtol * roundTo 53 1023 |r|) :=
      add_nonneg h2 (roundTo_nonneg (mul_nonneg h1 ht0))
    have hrS := roundTo_rel (p := 53) (e := 1023) (by norm_num) (atol + roundTo 53 1023 (rtol * roundTo 53 1023 |r|))
    have hrd := roundTo_rel (p := 53) (e := 1023) (by norm_num) (diffIn p.res.kind |q - r|)
    rw [abs_of_nonneg hS0] at hrS
    rw [abs_of_nonneg hd0] at hrd
    have hrS' := (abs_le.1 hrS).2
    have hrd' := (abs_le.1 hrd).1
    have hrS0 := roundTo_nonneg (p := 53) (e := 1023) hS0
    have hpow : (2 : ℚ) ^ 1024 = 2 * 2 ^ 1023 := by rw [pow_succ]; ring
    have hbig : (2 : ℚ) ^ 10 ≤ 2 ^ 1023 := pow_le_pow_right₀ (by norm_num) (by norm_num)
    have h3 := (abs_le.1 hde).1
    rw [show (53 + 1023 - 1 : Nat) = 1075 from rfl] at hrS' hrd'
    have hη3 := hη1.trans hη2
    refine not_le_tolerance h1 ht0 hd0 ?_ ?_ ?_
    · rw [hpow]
      exact fin_of (ε := 1 / 2 ^ 53) (by norm_num) (by norm_num) hT hfin hη3 hbig hpos.le (le_trans (le_add_of_nonneg_left h2) hhi)
    · rw [abs_of_nonneg hrS0, hpow]
      exact fin_of' (by norm_num) (by norm_num) hT hfin hη3 hbig hpos.le hhi hrS'
    · exact gap_of (by norm_num) hu1 (hu2.trans (by norm_num)) hpos hη1 hT (abs_nonneg _) hd0 hS0 hhi hrS' h3 hrd' hge

/-- The default tolerances, `1e-5` and `1e-8` as doubles. -/
def defaultArgs : CloseArgs := ⟨roundFlt 53 1023 (1 / 100000), roundFlt 53 1023 (1 / 100000000), false⟩

/-- **C64.** When nothing is rounded on the way the answer is exact. -/
theorem C64_exact (wrap : Bool) {a b : DType} {p : Promotion} (h : promotion a b = some p) (hres : p.res ∈ closeTypes)
    {v w : Value} (hv : a.Has v) (hw : b.Has w)
    (hx : ¬ (a.kind.wide = true ∧ p.res.kind.floating = true) ∨ ∃ n : Int, v = .int n ∧ |n| ≤ 2 ^ 53)
    (hy : ¬ (b.kind.wide = true ∧ p.res.kind.floating = true) ∨ ∃ n : Int, w = .int n ∧ |n| ≤ 2 ^ 53) {q r : ℚ}
    (hq : v.number.1.finite = some q) (hr : w.number.1.finite = some r) (hd : p.res.kind.HoldsDiff q r)
    {rtol atol : ℚ} (h1 : 0 ≤ rtol) (equalNan : Bool)
    (e1 : Representable 53 1023 (q - r)) (e2 : ∀ P E, p.res.kind = .float P E → Representable P E (q - r))
    (e3 : Representable 53 1023 r) (e4 : Representable 53 1023 (rtol * |r|)) (e5 : Representable 53 1023 (atol + rtol * |r|)) :
    isclose wrap a b v w ⟨.num rtol, .num atol, equalNan⟩ = some (.ok (decide (|q - r| ≤ atol + rtol * |r|))) := by
  obtain ⟨he, -⟩ := isclose_finite wrap h hres hv hw hx hy hq hr hd rtol atol equalNan
  have hdi : diffIn p.res.kind |q - r| = |q - r| := by
    cases hk : p.res.kind with
    | float P E => exact roundTo_exact (representable_abs (e2 P E hk))
    | _ => rfl
  rw [he, hdi, roundTo_exact (representable_abs e3), roundFlt_exact (representable_abs e1), tolerance,
    fltMul_nonneg h1 (abs_nonneg r), roundFlt_exact e4]
  simp only [fltAdd]
  rw [roundFlt_exact e5, fltLe, fltLt, fltEq]
  congr 2
  rw [Bool.eq_iff_iff]
  simp [le_iff_lt_or_eq]

/-- **C64.** Every finite number is close to itself, unless it is the least value of a signed integer type. -/
theorem C64_self (wrap : Bool) {a : DType} (ha : a ∈ closeTypes) {v : Value} (hv : a.Has v) {q : ℚ}
    (hq : v.number.1.finite = some q) (hmin : ∀ b, a.kind = .int b → q ≠ -2 ^ (b - 1))
    {rtol atol : ℚ} (h1 : 0 ≤ rtol) (h2 : 0 ≤ atol) (equalNan : Bool) :
    isclose wrap a a v v ⟨.num rtol, .num atol, equalNan⟩ = some (.ok true) := by
  have hp : promotion a a = some ⟨a, true, true, id, id⟩ := by unfold promotion; rw [if_pos rfl]
  have hl : Lossless a a v := by left; cases a <;> simp [DType.kind, Kind.wide, Kind.floating]
  have hd : a.kind.HoldsDiff q q := by
    cases hk : a.kind with
    | int b =>
      have hb := kind_int_bits a hk
      refine ⟨by simp, ?_⟩
      have hv' := hv
      unfold DType.Has at hv'
      cases v <;> rw [hk] at hv' <;> simp only [Kind.Has] at hv'
      rename_i n
      obtain rfl : (n : ℚ) = q := by simpa [Value.number, Flt.finite] using hq
      have hne : n ≠ -2 ^ (b - 1) := fun hc => hmin b hk (by rw [hc]; push_cast; ring)
      have : |n| < 2 ^ (b - 1) := by rw [abs_lt]; omega
      exact_mod_cast this
    | float p e => simp [Kind.HoldsDiff]
    | _ => trivial
  obtain ⟨he, -⟩ := isclose_finite wrap hp ha hv hv hl hl hq hq hd rtol atol equalNan
  rw [he]
  have h0 : diffIn a.kind |q - q| = 0 := by
    rw [sub_self, abs_zero]
    cases a.kind <;> simp [diffIn, roundTo_zero]
  simp only [h0]
  rw [le_tolerance h1 (roundTo_nonneg (abs_nonneg q))
    (add_nonneg h2 (roundTo_nonneg (mul_nonneg h1 (roundTo_nonneg (abs_nonneg q)))))]

theorem closeTypes_float {t : DType} (h : t ∈ closeTypes) : (∀ P E, t.kind ≠ .float P E) ∨
    ∃ P E cast, t.kind = .float P E ∧ castRule t .f64 = some cast ∧ ∀ x, ∃ x', cast (.real x) = .real x' ∧
      (∀ s, x = .nan s → x' = .nan s) ∧ (∀ s, x = .inf s → x' = .inf s) := by
  cases t <;> first
    | exact absurd h (by decide)
    | (left; simp [DType.kind]; done)
    | (right
       refine ⟨_, _, _, rfl, rfl, fun x => ⟨_, rfl, ?_, ?_⟩⟩ <;> (rintro s rfl; rfl))

theorem fltLe_nan_left (s : Bool) (y : Flt) : fltLe (.nan s) y = false := by cases y <;> rfl

/-- **C64.** Not-a-number is close to nothing, or to itself only if `equal_nan` is given. -/
theorem C64_nan (wrap : Bool) {a b : DType} {p : Promotion} (h : promotion a b = some p) (hres : p.res ∈ closeTypes)
    {v w : Value} (hv : a.Has v) (hw : b.Has w)
    (hn : (∃ s, v.number.1 = .nan s) ∨ ∃ s, w.number.1 = .nan s) (args : CloseArgs) :
    ∃ res, isclose wrap a b v w args = some (.ok res) ∧
      (res = true ↔ args.equalNan = true ∧ (∃ s, v.number.1 = .nan s) ∧ ∃ s, w.number.1 = .nan s) := by
  have hb : p.res ≠ .bool := by intro hb; rw [hb] at hres; exact absurd hres (by decide)
  rcases closeTypes_float hres with hk | ⟨P, E, cast, hk, hc, hcast⟩
  · exfalso
    have hf : p.res.kind.floating = false := by
      cases hk' : p.res.kind with
      | float P E => exact absurd hk' (hk P E)
      | complex P E =>
        exact absurd hk' (not_complex (by revert hres; cases p.res <;> decide) P E)
      | _ => rfl
    obtain ⟨hX, hY, nX, nY⟩ := C63_value h hv hw (no_float_lossless hf) (no_float_lossless hf)
    rw [← nX, ← nY] at hn
    have key : ∀ z : Value, p.res.Has z → ¬ ∃ s, z.number.1 = .nan s := by
      intro z hz hs
      cases z with
      | real x => obtain ⟨P, E, hk', _⟩ := has_real hz; exact hk P E hk'
      | complex x y => obtain ⟨P, E, hk'⟩ := has_complex hz; rw [hk'] at hf; simp [Kind.floating] at hf
      | bool b => obtain ⟨s, hs⟩ := hs; simp [Value.number] at hs
      | int n => obtain ⟨s, hs⟩ := hs; simp [Value.number] at hs
    rcases hn with hn | hn
    · exact key _ hX hn
    · exact key _ hY hn
  · have hx := (promotion_rounds h).1 P E hk v hv
    have hy := (promotion_rounds h).2 P E hk w hw
    have hnan : ∀ x : Flt, fltIsNan (fltConvert P E x) = true ↔ ∃ s, x = .nan s := by
      intro x
      cases x with
      | num q =>
        simp only [fltConvert, roundFlt]
        split
        · simp [fltIsNan]
        · split <;> simp [fltIsNan]
      | _ => simp [fltConvert, fltIsNan]
    have hd : ∃ s, fltAbs (fltSub P E (fltConvert P E v.number.1) (fltConvert P E w.number.1)) = .nan s := by
      rcases hn with ⟨s, hs⟩ | ⟨s, hs⟩
      · rw [hs]; exact ⟨false, by simp [fltConvert, fltSub, fltAdd, fltAbs]⟩
      · rw [hs]
        generalize fltConvert P E v.number.1 = x
        cases x <;> exact ⟨false, by simp [fltConvert, fltSub, fltAdd, fltAbs, fltNeg]⟩
    obtain ⟨s, hs⟩ := hd
    obtain ⟨d', hd1, hd2, -⟩ := hcast (fltAbs (fltSub P E (fltConvert P E v.number.1) (fltConvert P E w.number.1)))
    obtain ⟨t', ht1, -, -⟩ := hcast (fltAbs (fltConvert P E w.number.1))
    have h1 : extAbsDiff wrap p.res (p.self v) (p.other w) = .ok (.real (fltAbs (fltSub P E (fltConvert P E v.number.1) (fltConvert P E w.number.1)))) := by
      rw [hx, hy]; simp only [extAbsDiff, hk]
    have h2 : extAbs wrap p.res (p.other w) = .ok (.real (fltAbs (fltConvert P E w.number.1))) := by
      rw [hy]; simp only [extAbs]
    refine ⟨_, isclose_unfold h hc hb h1 h2 hd1 ht1, ?_⟩
    rw [hd2 s hs, fltLe_nan_left, hx, hy]
    simp only [valIsNan, Bool.false_or, Bool.and_eq_true, hnan, and_assoc]

/-- **C64.** An infinite number is not close to a finite one, as long as the tolerance is finite. -/
theorem C64_infinite_partial (wrap : Bool) {a b : DType} {p : Promotion} (h : promotion a b = some p) (hres : p.res ∈ closeTypes)
    {v w : Value} (hv : a.Has v) (hw : b.Has w)
    (hy : ¬ (b.kind.wide = true ∧ p.res.kind.floating = true) ∨ ∃ n : Int, w = .int n ∧ |n| ≤ 2 ^ 53) {s : Bool} {r : ℚ}
    (hs : v.number.1 = .inf s) (hr : w.number.1.finite = some r)
    {rtol atol : ℚ} (h1 : 0 ≤ rtol) (h2 : 0 ≤ atol) (hfin : atol + rtol * |r| ≤ 2 ^ 1023) (equalNan : Bool) :
    isclose wrap a b v w ⟨.num rtol, .num atol, equalNan⟩ = some (.ok false) := by
  have hb : p.res ≠ .bool := by intro hb; rw [hb] at hres; exact absurd hres (by decide)
  have hkf : ∃ P E, p.res.kind = .float P E := by
    by_contra hk
    have hf : p.res.kind.floating = false := by
      cases hk' : p.res.kind with
      | float P E => exact absurd ⟨P, E, hk'⟩ hk
      | complex P E => exact absurd hk' (not_complex (by revert hres; cases p.res <;> decide) P E)
      | _ => rfl
    obtain ⟨hX, -, nX, -⟩ := C63_value h hv hw (no_float_lossless hf) (no_float_lossless hf)
    rw [← nX] at hs
    cases hz : p.self v with
    | real x => rw [hz] at hX; obtain ⟨P, E, hk', _⟩ := has_real hX; exact hk ⟨P, E, hk'⟩
    | complex x y => rw [hz] at hX; obtain ⟨P, E, hk'⟩ := has_complex hX; rw [hk'] at hf; simp [Kind.floating] at hf
    | bool b => rw [hz] at hs; simp [Value.number] at hs
    | int n => rw [hz] at hs; simp [Value.number] at hs
  obtain ⟨P, E, hk⟩ := hkf
  have hPE := kind_format _ (.inl hk)
  obtain ⟨cast, hc, hcast⟩ : ∃ cast, castRule p.res .f64 = some cast ∧ (cast (.real (.inf false)) = .real (.inf false)) ∧
      ∀ q, Representable P E q → cast (.real (.num q)) = .real (.num q) ∧ Representable 53 1023 q := by
    rcases closeTypes_cases hres with ⟨bits, hk', _⟩ | ⟨bits, hk', _⟩ | ⟨hk', hc⟩ | ⟨hk', hc⟩
    · rw [hk'] at hk; cases hk
    · rw [hk'] at hk; cases hk
    · refine ⟨_, hc, rfl, fun q hq => ?_⟩
      rw [hk'] at hk; cases hk
      have hrep := Representable.widen (p' := 53) (e' := 1023) hq (by norm_num) (by norm_num) (by norm_num)
      exact ⟨congrArg Value.real (roundFlt_exact hrep), hrep⟩
    · refine ⟨_, hc, rfl, fun q hq => ?_⟩
      rw [hk'] at hk; cases hk
      exact ⟨rfl, hq⟩
  have hx := (promotion_rounds h).1 P E hk v hv
  rw [hs] at hx
  obtain ⟨hY, nY⟩ := (promotion_keeps h).2 w hw hy
  obtain ⟨y, hyv⟩ : ∃ y, p.other w = .real y := by
    have hY' := hY
    unfold DType.Has at hY'; rw [hk] at hY'
    cases hm : p.other w <;> rw [hm] at hY' <;> simp_all [Kind.Has]
  rw [hyv] at hY nY
  have hr1 : y.finite = some r := by rw [← nY] at hr; exact hr
  have hfit : y.Fits P E := by unfold DType.Has at hY; rw [hk] at hY; exact hY
  have hrep := finite_fits hfit hr1 hPE.1 hPE.2
  obtain ⟨hc2, hrep2⟩ := hcast.2 _ (representable_abs hrep)
  have e1 : extAbsDiff wrap p.res (p.self v) (p.other w) = .ok (.real (.inf false)) := by
    rw [hx, hyv]; simp only [extAbsDiff, hk]
    cases y <;> simp only [Flt.finite, reduceCtorEq] at hr1
    · simp [fltConvert, fltSub, fltNeg, fltAdd, fltAbs]
    · simp only [fltConvert, fltSub, fltNeg]; split <;> simp [fltAdd, fltAbs]
  have e2 : extAbs wrap p.res (p.other w) = .ok (.real (.num |r|)) := by
    rw [hyv]; simp only [extAbs]; rw [fltAbs_finite hr1]
  rw [isclose_unfold h hc hb e1 e2 hcast.1 hc2]
  have hR := abs_nonneg r
  have hT : 0 ≤ atol + rtol * |r| := add_nonneg h2 (mul_nonneg h1 hR)
  obtain ⟨hlo, hhi, -⟩ := tolerance_err (t := |r|) h2 h1 hR (by rw [sub_self, abs_zero]; positivity)
  have hS0 : 0 ≤ atol + roundTo 53 1023 (rtol * |r|) := add_nonneg h2 (roundTo_nonneg (mul_nonneg h1 hR))
  have hrS := roundTo_rel (p := 53) (e := 1023) (by norm_num) (atol + roundTo 53 1023 (rtol * |r|))
  rw [abs_of_nonneg hS0] at hrS
  have hrS' := (abs_le.1 hrS).2
  have hpow : (2 : ℚ) ^ 1024 = 2 * 2 ^ 1023 := by rw [pow_succ]; ring
  have hbig : (2 : ℚ) ^ 10 ≤ 2 ^ 1023 := pow_le_pow_right₀ (by norm_num) (by norm_num)
  have hpos : (0 : ℚ) < 1 / 2 ^ 1075 := by positivity
  have hη3 : (1 : ℚ) / 2 ^ 1075 ≤ 1 := by
    rw [div_le_one (by positivity)]; exact one_le_pow₀ (by norm_num)
  rw [show (53 + 1023 - 1 : Nat) = 1075 from rfl] at hrS'
  have f1 : roundFlt 53 1023 (rtol * |r|) = .num (roundTo 53 1023 (rtol * |r|)) := by
    rcases roundFlt_pos (p := 53) (e := 1023) (mul_nonneg h1 hR) with ⟨_, hcon⟩ | ⟨hok, _⟩
    · rw [hpow] at hcon
      exact absurd (fin_of (ε := 1 / 2 ^ 53) (by norm_num) (by norm_num) hT hfin hη3 hbig hpos.le
        (le_trans (le_add_of_nonneg_left h2) hhi)) (not_lt.2 hcon)
    · exact hok
  have f2 : roundFlt 53 1023 (atol + roundTo 53 1023 (rtol * |r|)) = .num (roundTo 53 1023 (atol + roundTo 53 1023 (rtol * |r|))) := by
    rcases roundFlt_pos (p := 53) (e := 1023) hS0 with ⟨_, hcon⟩ | ⟨hok, _⟩
    · rw [hpow] at hcon
      exact absurd (fin_of' (ε := 1 / 2 ^ 53) (by norm_num) (by norm_num) hT hfin hη3 hbig hpos.le hhi hrS') (not_lt.2 hcon)
    · exact hok
  rw [fltMul_nonneg h1 hR, f1]
  simp only [fltAdd]
  rw [f2, hx, hyv]
  simp [fltLe, fltLt, fltEq, valIsNan, finite_not_nan hr1]

/-- **C64.** `allclose` of a tensor of finite numbers with itself holds. -/
theorem C64_allclose_self (dflt dev : Order) (par : Option Scheduler) (hp : Device par) (wrap : Bool) {a : DType}
    (ha : a ∈ closeTypes) (t : Tensor Value) (ht : t.WF) (hne : t.arr.shape.prod ≠ 0)
    (hv : ∀ idx x, t.arr.elem idx = some x → a.Has x ∧ ∃ q, x.number.1.finite = some q ∧ ∀ b, a.kind = .int b → q ≠ -2 ^ (b - 1))
    {rtol atol : ℚ} (h1 : 0 ≤ rtol) (h2 : 0 ≤ atol) (equalNan : Bool) :
    allcloseAll dflt dev par (fun x y => decide (isclose wrap a a x y ⟨.num rtol, .num atol, equalNan⟩ = some (.ok true))) t t =
      .ok true := by
  have hs : BroadcastOf dev t.arr.shape t.arr.shape t.arr.shape := ⟨by simp, fun k _ => ⟨.inl rfl, .inl rfl, .inl rfl⟩⟩
  obtain ⟨r, hr, hri⟩ := ((C38_allclose dflt dev par hp _ t t ht ht).2 _ hs).2 hne
  rw [hr, hri.2 fun idx _ x y hx hy => ?_]
  rw [hx] at hy
  cases hy
  obtain ⟨hx1, q, hx2, hx3⟩ := hv _ _ hx
  exact decide_eq_true (C64_self wrap ha hx1 hx2 hx3 h1 h2 equalNan)

/-! ## Where it fails -/

/-- With the default tolerances every finite number is close to infinity, and so is minus infinity, but infinity is not close to
itself. -/
theorem C64_false_infinite :
    isclose true .f64 .f64 (.real (.num 1)) (.real (.inf false)) defaultArgs = some (.ok true) ∧
    isclose true .f64 .f64 (.real (.inf true)) (.real (.inf false)) defaultArgs = some (.ok true) ∧
    isclose true .f64 .f64 (.real (.inf false)) (.real (.inf false)) defaultArgs = some (.ok false) ∧
    ¬ Close (1 / 100000) (1 / 100000000) false (.real (.num 1)) (.real (.inf false)) ∧
    Close (1 / 100000) (1 / 100000000) false (.real (.inf false)) (.real (.inf false)) := by
  refine ⟨by decide +kernel, by decide +kernel, by decide +kernel, ?_, rfl⟩
  rintro ⟨q, r, _, hr, _⟩
  simp [Value.number, Flt.finite] at hr

/-- The least value of a signed type is not close to itself in a build without overflow checks, and comparing it panics in a
build with them. -/
theorem C64_false_min :
    isclose true .i8 .i8 (.int (-128)) (.int (-128)) defaultArgs = some (.ok false) ∧
    isclose false .i8 .i8 (.int (-128)) (.int (-128)) defaultArgs = some (.error .panic) ∧
    Close (1 / 100000) (1 / 100000000) false (.int (-128)) (.int (-128)) := by
  refine ⟨by decide +kernel, by decide +kernel, -128, -128, ?_, ?_, by norm_num⟩ <;> norm_num [Value.number, Flt.finite]

/-- In a build without overflow checks 100 and -100 are close as `i8`, since their difference wraps around; with them the
comparison panics. -/
theorem C64_false_overflow :
    isclose true .i8 .i8 (.int 100) (.int (-100)) defaultArgs = some (.ok true) ∧
    isclose false .i8 .i8 (.int 100) (.int (-100)) defaultArgs = some (.error .panic) ∧
    ¬ Close (1 / 100000) (1 / 100000000) false (.int 100) (.int (-100)) := by
  refine ⟨by decide +kernel, by decide +kernel, ?_⟩
  rintro ⟨q, r, hq, hr, h⟩
  simp only [Value.number, Flt.finite, Option.some.injEq] at hq hr
  subst hq; subst hr
  norm_num at h

/-! ## The hypotheses are met -/

/-- An `i32` compared with an `f64`: within and beyond the tolerance. -/
example : ∃ res, isclose true .i32 .f64 (.int 3) (.real (.num (25 / 8))) ⟨.num (1 / 16), .num (1 / 1024), false⟩ = some (.ok res) ∧
    res = true := by
  obtain ⟨res, h, ht, -⟩ := C64_close_partial true (a := .i32) (b := .f64) (p := ⟨.f64, false, true, castTo .f64, castTo .f64⟩)
    rfl (by decide) (v := .int 3) (w := .real (.num (25 / 8))) (show (-2 ^ 31 : Int) ≤ 3 ∧ (3 : Int) < 2 ^ 31 by decide) ⟨25, -3, by decide, by decide, by decide, by norm_num⟩
    (.inl (by decide)) (.inl (by decide)) (q := 3) (r := 25 / 8) (by simp [Value.number, Flt.finite]) rfl
    (show |(3 : ℚ) - 25 / 8| ≤ 2 ^ 1023 from le_trans (by norm_num [abs_le]) (one_le_pow₀ (by norm_num)))
    (rtol := 1 / 16) (atol := 1 / 1024) (by norm_num) (by norm_num) false
  refine ⟨res, h, ht ?_⟩
  have h1 : (Kind.float 53 1023).tiny ≤ 1 / 100 := by
    show (1 : ℚ) / 2 ^ 1075 ≤ 1 / 100
    exact one_div_le_one_div_of_le (by norm_num) (le_trans (by norm_num : (100 : ℚ) ≤ 2 ^ 7) (pow_le_pow_right₀ (by norm_num) (by norm_num)))
  have h2 : DType.f64.kind.roundoff = 1 / 2 ^ 53 := rfl
  have h3 : |(3 : ℚ) - 25 / 8| = 1 / 8 := by rw [abs_of_nonpos (by norm_num)]; norm_num
  have h4 : |(25 / 8 : ℚ)| = 25 / 8 := abs_of_nonneg (by norm_num)
  show |(3 : ℚ) - 25 / 8| ≤ (1 - 4 * DType.f64.kind.roundoff) * (1 / 1024 + 1 / 16 * |(25 / 8 : ℚ)|) - 2 * (Kind.float 53 1023).tiny
  rw [h2, h3, h4]
  norm_num at h1 ⊢
  linarith

example : isclose false .u8 .i16 (.int 200) (.int 190) ⟨.num 0, .num 10, false⟩ = some (.ok true) := by decide +kernel
example : isclose false .u8 .i16 (.int 200) (.int 189) ⟨.num 0, .num 10, false⟩ = some (.ok false) := by decide +kernel
example : isclose false .f32 .f64 (.real (.nan false)) (.real (.nan true)) ⟨.num 0, .num 0, true⟩ = some (.ok true) := by decide +kernel
example : isclose false .f32 .f64 (.real (.nan false)) (.real (.num 1)) ⟨.num 0, .num 0, true⟩ = some (.ok false) := by decide +kernel
example : isclose false .f32 .i64 (.real (.inf false)) (.int 5) defaultArgs = some (.ok false) := by decide +kernel

/-- A tensor of doubles that is close to itself. -/
example : allcloseAll .C .C none (fun x y => decide (isclose true .f64 .f64 x y ⟨.num (1 / 16), .num 0, false⟩ = some (.ok true)))
    ⟨[.real (.num 1), .real .negZero], ⟨[⟨2, 1⟩], 0⟩⟩ ⟨[.real (.num 1), .real .negZero], ⟨[⟨2, 1⟩], 0⟩⟩ = .ok true := by decide +kernel

end Rstsr
