import Verif.Thm.Close
import Verif.Model.ElemFns
import Verif.Spec.ElemFns
/-!
# C65: functions of single elements
-/
namespace Rstsr
open Spec

/-! ## Lemmas -/

theorem int_or_real {t : DType} (ht : t ∉ [DType.bool, .c32, .c64]) {v : Value} (hv : t.Has v) :
    (∃ n b, v = .int n ∧ t.kind = .uint b ∧ 0 ≤ n ∧ n < 2 ^ b) ∨
    (∃ n b, v = .int n ∧ t.kind = .int b ∧ 1 ≤ b ∧ -2 ^ (b - 1) ≤ n ∧ n < 2 ^ (b - 1)) ∨
    (∃ x p e, v = .real x ∧ t.kind = .float p e ∧ 1 ≤ p ∧ p ≤ e ∧ x.Fits p e) := by
  unfold DType.Has at hv
  cases hk : t.kind with
  | bool => exfalso; revert ht hk; cases t <;> simp [DType.kind]
  | complex p e => exfalso; revert ht hk; cases t <;> simp [DType.kind]
  | uint b => rw [hk] at hv; cases v <;> simp only [Kind.Has] at hv; exact .inl ⟨_, b, rfl, rfl, hv⟩
  | int b =>
    have hb := kind_int_bits t hk
    rw [hk] at hv; cases v <;> simp only [Kind.Has] at hv; exact .inr (.inl ⟨_, b, rfl, rfl, hb, hv⟩)
  | float p e =>
    have hp := kind_format t (.inl hk)
    rw [hk] at hv; cases v <;> simp only [Kind.Has] at hv; exact .inr (.inr ⟨_, p, e, rfl, rfl, hp.1, hp.2, hv⟩)

theorem kind_bits (t : DType) {b : Nat} (h : t.kind = .uint b ∨ t.kind = .int b) : 8 ≤ b := by
  cases t <;> simp [DType.kind] at h <;> subst h <;> decide

/-! ## Absolute value, sign, parts -/

/-- **C65.** `abs` gives the absolute value, in the same type, except for the least value of a signed integer type. -/
theorem C65_abs_partial (wrap : Bool) {t : DType} (ht : t ∉ [DType.bool, .c32, .c64]) {v : Value} (hv : t.Has v)
    (hmin : ∀ b, t.kind = .int b → v ≠ .int (-2 ^ (b - 1))) :
    ∃ u, extAbs wrap t v = .ok u ∧ t.Has u ∧ IsAbs v.number.1 u.number.1 := by
  have hv' := hv
  rcases int_or_real ht hv with ⟨n, b, rfl, hk, h0, h1⟩ | ⟨n, b, rfl, hk, hb, h0, h1⟩ | ⟨x, p, e, rfl, hk, hp, hpe, hx⟩
  · refine ⟨.int n, by simp only [extAbs, hk], hv', n, rfl, ?_⟩
    have : (0 : ℚ) ≤ n := by exact_mod_cast h0
    simp [Value.number, abs_of_nonneg this]
  · have hne : n ≠ -2 ^ (b - 1) := fun hc => hmin b hk (by rw [hc])
    have hlt : |n| < 2 ^ (b - 1) := by rw [abs_lt]; omega
    refine ⟨.int |n|, ?_, ?_, n, rfl, ?_⟩
    · simp only [extAbs, hk]; exact intArith_ok wrap hb (abs_nonneg n) hlt
    · have h2 := abs_nonneg n
      have h3 : (0 : Int) < 2 ^ (b - 1) := by positivity
      unfold DType.Has; rw [hk]; exact ⟨by omega, hlt⟩
    · simp [Value.number]
  · refine ⟨.real (fltAbs x), rfl, ?_, ?_⟩
    · unfold DType.Has; rw [hk]
      cases x with
      | num q => exact representable_abs hx
      | negZero =>
        have h0 : Representable p e 0 := by simpa using representable_int (n := 0) (p := p) (e := e) (by simp) hp hpe
        exact h0
      | _ => trivial
    · cases x with
      | nan s => exact ⟨false, rfl⟩
      | inf s => rfl
      | negZero => exact ⟨0, rfl, by simp [Value.number, fltAbs]⟩
      | num q => exact ⟨q, rfl, by simp [Value.number, fltAbs]⟩

/-- **C65.** `sign` is -1, 0 or 1, in the same type. -/
theorem C65_sign {t : DType} (ht : t ∉ [DType.bool, .c32, .c64]) {v : Value} (hv : t.Has v) :
    t.Has (extSign v) ∧ IsSign v.number.1 (extSign v).number.1 := by
  rcases int_or_real ht hv with ⟨n, b, rfl, hk, h0, h1⟩ | ⟨n, b, rfl, hk, hb, h0, h1⟩ | ⟨x, p, e, rfl, hk, hp, hpe, hx⟩
  · have hb := kind_bits t (.inl hk)
    have h8 : (2 : Int) ^ 8 ≤ 2 ^ b := pow_le_pow_int hb
    refine ⟨?_, n, rfl, ?_⟩
    · unfold DType.Has; rw [hk]; simp only [extSign]
      show 0 ≤ _ ∧ _ < _
      split
      · omega
      · split <;> omega
    · simp only [extSign, Value.number, Int.cast_pos, Int.cast_lt_zero]
      split
      · simp
      · split <;> simp
  · have hb := kind_bits t (.inr hk)
    have h8 : (2 : Int) ^ 7 ≤ 2 ^ (b - 1) := pow_le_pow_int (by omega)
    refine ⟨?_, n, rfl, ?_⟩
    · unfold DType.Has; rw [hk]; simp only [extSign]
      show _ ≤ _ ∧ _ < _
      split
      · omega
      · split <;> omega
    · simp only [extSign, Value.number, Int.cast_pos, Int.cast_lt_zero]
      split
      · simp
      · split <;> simp
  · have h1 : Representable p e 1 := by simpa using representable_int (n := 1) (p := p) (e := e) (by
      rw [abs_one]; exact one_le_pow₀ (by norm_num)) hp hpe
    have h2 : Representable p e (-1) := representable_neg h1
    have h3 : Representable p e 0 := by simpa using representable_int (n := 0) (p := p) (e := e) (by simp) hp hpe
    refine ⟨?_, ?_⟩
    · unfold DType.Has; rw [hk]; simp only [extSign]
      split
      · exact hx
      · split
        · exact h1
        · split
          · exact h2
          · exact h3
    · cases x with
      | nan s => simp [extSign, fltIsNan, IsSign, Value.number]
      | inf s => cases s <;> simp [extSign, fltIsNan, fltLt, IsSign, Value.number]
      | negZero => exact ⟨0, rfl, by simp [extSign, fltIsNan, fltLt, Value.number]⟩
      | num q =>
        refine ⟨q, rfl, ?_⟩
        have hs : extSign (.real (.num q)) = .real (.num (if 0 < q then 1 else if q < 0 then -1 else 0)) := by
          simp only [extSign, fltIsNan, fltLt, decide_eq_true_eq, Bool.false_eq_true, if_false]
          split
          · rfl
          · split <;> rfl
        rw [hs]; rfl

/-- **C65.** `real` and `imag` are the two parts of the number. -/
theorem C65_parts {t : DType} (ht : t ≠ .bool) {v : Value} (hv : t.Has v) :
    (extReal v).number.1 = v.number.1 ∧ (extImag v).number.1 = v.number.2 := by
  cases v with
  | bool b => exfalso; have := has_bool hv; revert ht this; cases t <;> simp [DType.kind]
  | _ => simp [extReal, extImag, Value.number]

/-- **C65.** Called on a tensor that is consumed, `abs`, `real` and `imag` work in place. They give what they give on a
borrowed tensor, for all types for which the in-place form exists (those whose absolute value has the same type). -/
theorem C65_in_place (wrap : Bool) {t : DType} (ht : t ∉ [DType.bool, .c32, .c64]) {v : Value} (hv : t.Has v) :
    absInPlace wrap t v = extAbs wrap t v ∧ realInPlace t v = .ok (extReal v) ∧ imagInPlace t v = .ok (extImag v) := by
  rcases int_or_real ht hv with ⟨n, b, rfl, hk, -⟩ | ⟨n, b, rfl, hk, -⟩ | ⟨x, p, e, rfl, hk, -⟩ <;>
    simp [absInPlace, realInPlace, imagInPlace, absUnchanged, absSameType, hk, extAbs, extReal]

/-! ## Maximum and minimum -/

theorem realPair_iff {a b : DType} {p : Promotion} : realPair a b = some p ↔ promotion a b = some p ∧ p.res ∉ [DType.bool, .c32, .c64] := by
  unfold realPair
  cases hp : promotion a b with
  | none => simp
  | some p' =>
    simp only [Option.some.injEq]
    constructor
    · intro h
      cases hr : p'.res <;> simp only [hr, DType.kind, reduceCtorEq, Option.some.injEq] at h <;> subst h <;> simp [hr]
    · rintro ⟨rfl, h⟩
      cases hr : p'.res <;> simp [hr, DType.kind] at h ⊢

theorem extended_none {x : Flt} : x.extended = none ↔ fltIsNan x = true := by
  cases x with
  | inf s => cases s <;> simp [Flt.extended, fltIsNan]
  | _ => simp [Flt.extended, fltIsNan]

theorem flt_max (x y : Flt) : IsMaximum (.real x) (.real y) (extMax (.real x) (.real y)) := by
  simp only [IsMaximum, Value.number, extended_none, ne_eq]
  refine ⟨fun u v hu hv => ?_, fun h => by simp [extMax, fltMax, h], fun h1 h2 => by simp [extMax, fltMax, h1, h2]⟩
  have h1 : fltIsNan x = false := by rw [← Bool.not_eq_true, ← extended_none, hu]; simp
  have h2 : fltIsNan y = false := by rw [← Bool.not_eq_true, ← extended_none, hv]; simp
  simp only [extMax, fltMax, h1, h2, Bool.false_eq_true, if_false]
  by_cases hlt : fltLt x y = true
  · rw [if_pos hlt]
    obtain ⟨u', v', hu', hv', hlt⟩ := (fltLt_iff _ _).1 hlt
    rw [hu] at hu'; rw [hv] at hv'; cases hu'; cases hv'
    rw [max_eq_right hlt.le]; exact hv
  · rw [if_neg hlt]
    have : v ≤ u := by
      by_contra hc
      exact hlt ((fltLt_iff _ _).2 ⟨u, v, hu, hv, not_le.1 hc⟩)
    rw [max_eq_left this]; exact hu

theorem flt_min (x y : Flt) : IsMinimum (.real x) (.real y) (extMin (.real x) (.real y)) := by
  simp only [IsMinimum, Value.number, extended_none, ne_eq]
  refine ⟨fun u v hu hv => ?_, fun h => by simp [extMin, fltMin, h], fun h1 h2 => by simp [extMin, fltMin, h1, h2]⟩
  have h1 : fltIsNan x = false := by rw [← Bool.not_eq_true, ← extended_none, hu]; simp
  have h2 : fltIsNan y = false := by rw [← Bool.not_eq_true, ← extended_none, hv]; simp
  simp only [extMin, fltMin, h1, h2, Bool.false_eq_true, if_false]
  by_cases hlt : fltLt y x = true
  · rw [if_pos hlt]
    obtain ⟨v', u', hv', hu', hlt⟩ := (fltLt_iff _ _).1 hlt
    rw [hu] at hu'; rw [hv] at hv'; cases hu'; cases hv'
    rw [min_eq_right hlt.le]; exact hv
  · rw [if_neg hlt]
    have : u ≤ v := by
      by_contra hc
      exact hlt ((fltLt_iff _ _).2 ⟨v, u, hv, hu, not_le.1 hc⟩)
    rw [min_eq_left this]; exact hu

theorem int_max (m n : Int) : IsMaximum (.int m) (.int n) (.int (max m n)) := by
  refine ⟨fun x y hx hy => ?_, fun h => by simp [Value.number, Flt.extended] at h, fun h => by simp [Value.number, Flt.extended] at h⟩
  simp only [Value.number, Flt.extended, Option.some.injEq] at hx hy ⊢
  subst hx; subst hy
  rcases le_total m n with h | h
  · rw [max_eq_right h, max_eq_right (WithBot.coe_le_coe.2 (WithTop.coe_le_coe.2 (by exact_mod_cast h)))]
  · rw [max_eq_left h, max_eq_left (WithBot.coe_le_coe.2 (WithTop.coe_le_coe.2 (by exact_mod_cast h)))]

theorem int_min (m n : Int) : IsMinimum (.int m) (.int n) (.int (min m n)) := by
  refine ⟨fun x y hx hy => ?_, fun h => by simp [Value.number, Flt.extended] at h, fun h => by simp [Value.number, Flt.extended] at h⟩
  simp only [Value.number, Flt.extended, Option.some.injEq] at hx hy ⊢
  subst hx; subst hy
  rcases le_total m n with h | h
  · rw [min_eq_left h, min_eq_left (WithBot.coe_le_coe.2 (WithTop.coe_le_coe.2 (by exact_mod_cast h)))]
  · rw [min_eq_right h, min_eq_right (WithBot.coe_le_coe.2 (WithTop.coe_le_coe.2 (by exact_mod_cast h)))]

/-- Two elements of a real type are both integers or both floats. -/
theorem pair_cases {t : DType} (ht : t ∉ [DType.bool, .c32, .c64]) {v w : Value} (hv : t.Has v) (hw : t.Has w) :
    (∃ m n, v = .int m ∧ w = .int n ∧ ∃ b, t.kind = .uint b ∨ t.kind = .int b) ∨
    ∃ x y p e, v = .real x ∧ w = .real y ∧ t.kind = .float p e ∧ 1 ≤ p ∧ p ≤ e ∧ x.Fits p e ∧ y.Fits p e := by
  rcases int_or_real ht hv with ⟨n, b, rfl, hk, -⟩ | ⟨n, b, rfl, hk, -⟩ | ⟨x, p, e, rfl, hk, hp, hpe, hx⟩ <;>
    rcases int_or_real ht hw with ⟨n', b', rfl, hk', -⟩ | ⟨n', b', rfl, hk', -⟩ | ⟨x', p', e', rfl, hk', -, -, hx'⟩ <;>
    rw [hk] at hk' <;> cases hk'
  · exact .inl ⟨n, n', rfl, rfl, b, .inl hk⟩
  · exact .inl ⟨n, n', rfl, rfl, b, .inr hk⟩
  · exact .inr ⟨x, x', p, e, rfl, rfl, hk, hp, hpe, hx, hx'⟩

/-- **C65.** `maximum` gives the larger one of the two numbers; not-a-number is ignored if the other operand is a number. -/
theorem C65_maximum {a b : DType} {p : Promotion} (h : promotion a b = some p) (hr : p.res ∉ [DType.bool, .c32, .c64])
    {v w : Value} (hv : a.Has v) (hw : b.Has w)
    (hx : ¬ (a.kind.wide = true ∧ p.res.kind.floating = true) ∨ ∃ n : Int, v = .int n ∧ |n| ≤ 2 ^ 53)
    (hy : ¬ (b.kind.wide = true ∧ p.res.kind.floating = true) ∨ ∃ n : Int, w = .int n ∧ |n| ≤ 2 ^ 53) :
    ∃ u, maximumElem a b v w = some u ∧ p.res.Has u ∧ IsMaximum v w u := by
  obtain ⟨hX, hY, nX, nY⟩ := C63_value h hv hw hx hy
  refine ⟨_, by rw [maximumElem, realPair_iff.2 ⟨h, hr⟩]; rfl, ?_⟩
  have hres : p.res.Has (extMax (p.self v) (p.other w)) ∧ IsMaximum (p.self v) (p.other w) (extMax (p.self v) (p.other w)) := by
    rcases pair_cases hr hX hY with ⟨m, n, h1, h2, -⟩ | ⟨x, y, P, E, h1, h2, hk, -⟩
    · rw [h1] at hX; rw [h2] at hY; rw [h1, h2]
      refine ⟨?_, int_max m n⟩
      simp only [extMax]
      rcases max_choice m n with hc | hc <;> rw [hc] <;> assumption
    · rw [h1] at hX; rw [h2] at hY; rw [h1, h2]
      refine ⟨?_, flt_max x y⟩
      simp only [extMax, fltMax]
      split
      · exact hY
      · split
        · exact hX
        · split <;> assumption
  refine ⟨hres.1, ?_⟩
  have := hres.2
  unfold IsMaximum at this ⊢
  rwa [nX, nY] at this

/-- **C65.** `minimum` gives the smaller one of the two numbers; not-a-number is ignored if the other operand is a number. -/
theorem C65_minimum {a b : DType} {p : Promotion} (h : promotion a b = some p) (hr : p.res ∉ [DType.bool, .c32, .c64])
    {v w : Value} (hv : a.Has v) (hw : b.Has w)
    (hx : ¬ (a.kind.wide = true ∧ p.res.kind.floating = true) ∨ ∃ n : Int, v = .int n ∧ |n| ≤ 2 ^ 53)
    (hy : ¬ (b.kind.wide = true ∧ p.res.kind.floating = true) ∨ ∃ n : Int, w = .int n ∧ |n| ≤ 2 ^ 53) :
    ∃ u, minimumElem a b v w = some u ∧ p.res.Has u ∧ IsMinimum v w u := by
  obtain ⟨hX, hY, nX, nY⟩ := C63_value h hv hw hx hy
  refine ⟨_, by rw [minimumElem, realPair_iff.2 ⟨h, hr⟩]; rfl, ?_⟩
  have hres : p.res.Has (extMin (p.self v) (p.other w)) ∧ IsMinimum (p.self v) (p.other w) (extMin (p.self v) (p.other w)) := by
    rcases pair_cases hr hX hY with ⟨m, n, h1, h2, -⟩ | ⟨x, y, P, E, h1, h2, hk, -⟩
    · rw [h1] at hX; rw [h2] at hY; rw [h1, h2]
      refine ⟨?_, int_min m n⟩
      simp only [extMin]
      rcases min_choice m n with hc | hc <;> rw [hc] <;> assumption
    · rw [h1] at hX; rw [h2] at hY; rw [h1, h2]
      refine ⟨?_, flt_min x y⟩
      simp only [extMin, fltMin]
      split
      · exact hY
      · split
        · exact hX
        · split <;> assumption
  refine ⟨hres.1, ?_⟩
  have := hres.2
  unfold IsMinimum at this ⊢
  rwa [nX, nY] at this

/-! ## Division -/

theorem fdiv_eq_floor (m : Int) {n : Int} (hn : n ≠ 0) : Int.fdiv m n = ⌊(m : ℚ) / n⌋ := by
  have key : ∀ (m : Int) (n : Nat), Int.fdiv m n = ⌊(m : ℚ) / (n : ℚ)⌋ := fun m n => by
    rw [Rat.floor_intCast_div_natCast, Int.fdiv_eq_ediv_of_nonneg _ (Int.natCast_nonneg n)]
  rcases lt_or_gt_of_ne hn with h | h
  · have h1 := key (-m) n.natAbs
    have h2 : ((n.natAbs : Int)) = -n := by omega
    have h3 : ((n.natAbs : ℚ)) = -n := by rw [← Int.cast_natCast, h2]; push_cast; rfl
    rw [h2, h3, Int.neg_fdiv_neg] at h1
    rw [h1]; push_cast; rw [neg_div_neg_eq]
  · have h1 := key m n.natAbs
    have h2 : ((n.natAbs : Int)) = n := by omega
    have h3 : ((n.natAbs : ℚ)) = n := by rw [← Int.cast_natCast, h2]
    rwa [h2, h3] at h1

/-- **C65.** `floor_divide` of integers gives the largest integer not above the quotient. -/
theorem C65_floor_divide_int {a b : DType} {p : Promotion} (h : promotion a b = some p) (hr : p.res ∉ [DType.bool, .c32, .c64])
    (hf : p.res.kind.floating = false) {m n : Int} (hv : a.Has (.int m)) (hw : b.Has (.int n)) (hn : n ≠ 0)
    (hmin : ∀ bits, p.res.kind = .int bits → ¬ (m = -2 ^ (bits - 1) ∧ n = -1)) :
    ∃ k : Int, floorDivideElem a b (.int m) (.int n) = some (.ok (.int k)) ∧ p.res.Has (.int k) ∧ k = ⌊(m : ℚ) / n⌋ := by
  obtain ⟨hX, hY, nX, nY⟩ := C63_value h hv hw (no_float_lossless hf) (no_float_lossless hf)
  have he : floorDivideElem a b (.int m) (.int n) = some (extFloorDivide p.res (p.self (.int m)) (p.other (.int n))) := by
    rw [floorDivideElem, realPair_iff.2 ⟨h, hr⟩]; rfl
  have hfl : Int.fdiv m n = ⌊(m : ℚ) / n⌋ := fdiv_eq_floor m hn
  rcases pair_cases hr hX hY with ⟨m', n', h1, h2, bits, hk⟩ | ⟨x, y, P, E, h1, h2, hk, -⟩
  · rw [h1] at nX hX; rw [h2] at nY hY
    obtain rfl : m' = m := by simpa [Value.number] using nX
    obtain rfl : n' = n := by simpa [Value.number] using nY
    have hfit : p.res.Has (.int (Int.fdiv m' n')) ∧ wrapInt p.res.kind (Int.fdiv m' n') = Int.fdiv m' n' := by
      unfold DType.Has at hX hY ⊢
      rcases hk with hk | hk
      · rw [hk] at hX hY ⊢
        obtain ⟨hX0, hX1⟩ := hX
        obtain ⟨hY0, hY1⟩ := hY
        have h3 : Int.fdiv m' n' = m' / n' := Int.fdiv_eq_ediv_of_nonneg _ hY0
        have h4 : 0 ≤ m' / n' := Int.ediv_nonneg hX0 hY0
        have h5 : m' / n' ≤ m' := Int.ediv_le_self _ hX0
        rw [h3]
        exact ⟨⟨h4, by omega⟩, wrap_uint h4 (by omega)⟩
      · have hb := kind_int_bits _ hk
        have hm := hmin _ hk
        rw [hk] at hX hY ⊢
        obtain ⟨hX0, hX1⟩ := hX
        obtain ⟨hY0, hY1⟩ := hY
        have hpow : (0 : Int) < 2 ^ (bits - 1) := by positivity
        refine (fun h3 => ⟨h3, wrap_int hb h3.1 h3.2⟩ : (-2 ^ (bits - 1) ≤ Int.fdiv m' n' ∧ Int.fdiv m' n' < 2 ^ (bits - 1)) → _) ?_
        generalize (2 : Int) ^ (bits - 1) = B at *
        show -B ≤ Int.fdiv m' n' ∧ Int.fdiv m' n' < B
        rw [hfl]
        have hn' : (n' : ℚ) ≠ 0 := by exact_mod_cast hn
        rcases lt_or_gt_of_ne hn with hneg | hpos'
        · have hnq : (n' : ℚ) < 0 := by exact_mod_cast hneg
          constructor
          · rw [Int.le_floor]
            rw [le_div_iff_of_neg hnq]
            have : m' ≤ -B * n' := by nlinarith
            exact_mod_cast this
          · rw [Int.floor_lt]
            rw [div_lt_iff_of_neg hnq]
            have : B * n' < m' := by
              by_cases h1 : n' = -1
              · have : m' ≠ -B := fun hc => hm ⟨hc, h1⟩
                rw [h1]; omega
              · have : n' ≤ -2 := by omega
                nlinarith
            exact_mod_cast this
        · have hnq : (0 : ℚ) < n' := by exact_mod_cast hpos'
          constructor
          · rw [Int.le_floor, le_div_iff₀ hnq]
            have : -B * n' ≤ m' := by nlinarith
            exact_mod_cast this
          · rw [Int.floor_lt, div_lt_iff₀ hnq]
            have : m' < B * n' := by nlinarith
            exact_mod_cast this
    refine ⟨_, ?_, hfit.1, hfl⟩
    rw [he, h1, h2]
    simp only [extFloorDivide, floorDivide]
    rw [if_neg hn, if_pos hfit.2]
  · rw [hk] at hf; simp [Kind.floating] at hf

/-- **C65.** An integer division by zero panics. -/
theorem C65_floor_divide_zero {a b : DType} {p : Promotion} (h : promotion a b = some p) (hr : p.res ∉ [DType.bool, .c32, .c64])
    (hf : p.res.kind.floating = false) {m : Int} (hv : a.Has (.int m)) (hw : b.Has (.int 0)) :
    floorDivideElem a b (.int m) (.int 0) = some (.error .panic) := by
  obtain ⟨hX, hY, nX, nY⟩ := C63_value h hv hw (no_float_lossless hf) (no_float_lossless hf)
  have he : floorDivideElem a b (.int m) (.int 0) = some (extFloorDivide p.res (p.self (.int m)) (p.other (.int 0))) := by
    rw [floorDivideElem, realPair_iff.2 ⟨h, hr⟩]; rfl
  rcases pair_cases hr hX hY with ⟨m', n', h1, h2, bits, hk⟩ | ⟨x, y, P, E, h1, h2, hk, -⟩
  · rw [h2] at nY
    obtain rfl : n' = 0 := by simpa [Value.number] using nY
    rw [he, h1, h2]
    simp [extFloorDivide, floorDivide]
  · rw [hk] at hf; simp [Kind.floating] at hf

theorem representable_of_int_le {p e : Nat} (hp : 1 ≤ p) (hpe : p ≤ e) {n : Int} (h : |n| ≤ 2 ^ p) : Representable p e (n : ℚ) :=
  representable_int h hp hpe

/-- **C65.** `floor_divide` of floats gives the largest integer not above the quotient or, when the division rounds up to an
integer, the next one. The quotient must be below the precision. -/
theorem C65_floor_divide_float_partial {a b : DType} {p : Promotion} (h : promotion a b = some p) {P E : Nat}
    (hk : p.res.kind = .float P E) {v w : Value} (hv : a.Has v) (hw : b.Has w)
    (hx : ¬ (a.kind.wide = true ∧ p.res.kind.floating = true) ∨ ∃ n : Int, v = .int n ∧ |n| ≤ 2 ^ 53)
    (hy : ¬ (b.kind.wide = true ∧ p.res.kind.floating = true) ∨ ∃ n : Int, w = .int n ∧ |n| ≤ 2 ^ 53) {q r : ℚ}
    (hq : v.number.1.finite = some q) (hr : w.number.1.finite = some r) (hr0 : r ≠ 0) (hb : |q / r| ≤ 2 ^ P - 1) :
    ∃ (y : Flt) (k : Int), floorDivideElem a b v w = some (.ok (.real y)) ∧ y.finite = some (k : ℚ) ∧
      (k = ⌊q / r⌋ ∨ k = ⌈q / r⌉) ∧ (Representable P E (q / r) → k = ⌊q / r⌋) := by
  obtain ⟨hP, hPE⟩ := kind_format _ (.inl hk)
  have hres : p.res ∉ [DType.bool, .c32, .c64] := by
    intro hc; revert hk
    simp only [List.mem_cons, List.not_mem_nil, or_false] at hc
    rcases hc with hc | hc | hc <;> rw [hc] <;> simp [DType.kind]
  obtain ⟨hX, hY, nX, nY⟩ := C63_value h hv hw hx hy
  have he : floorDivideElem a b v w = some (extFloorDivide p.res (p.self v) (p.other w)) := by
    rw [floorDivideElem, realPair_iff.2 ⟨h, hres⟩]; rfl
  rcases pair_cases hres hX hY with ⟨m', n', h1, h2, bits, hk' | hk'⟩ | ⟨x, y, P', E', h1, h2, hk', -⟩
  · rw [hk'] at hk; cases hk
  · rw [hk'] at hk; cases hk
  rw [hk'] at hk; cases hk
  rw [h1] at nX; rw [h2] at nY
  have hq1 : x.finite = some q := by rw [← nX] at hq; exact hq
  have hr1 : y.finite = some r := by rw [← nY] at hr; exact hr
  obtain ⟨r', rfl⟩ : ∃ r', y = .num r' := by
    cases y <;> simp only [Flt.finite, Option.some.injEq, reduceCtorEq] at hr1
    · exact absurd hr1.symm hr0
    · exact ⟨_, rfl⟩
  obtain rfl : r' = r := by simpa [Flt.finite] using hr1
  have hval : extFloorDivide p.res (p.self v) (p.other w) = .ok (.real (fltInteger (fun q => ⌊q⌋) (fltDiv P E x (.num r')))) := by
    rw [h1, h2]; simp only [extFloorDivide, hk']
  rw [he, hval]
  by_cases hq0 : q = 0
  · subst hq0
    refine ⟨_, 0, rfl, ?_, by simp, by simp⟩
    cases x <;> simp only [Flt.finite, Option.some.injEq, reduceCtorEq] at hq1
    · simp only [fltDiv, if_neg hr0, fltZero]
      split <;> simp [fltInteger, Flt.finite]
    · subst hq1
      simp only [fltDiv, if_neg hr0, fltZero, if_true]
      split <;> simp [fltInteger, Flt.finite]
  · obtain ⟨q', rfl⟩ : ∃ q', x = .num q' := by
      cases x <;> simp only [Flt.finite, Option.some.injEq, reduceCtorEq] at hq1
      · exact absurd hq1.symm hq0
      · exact ⟨_, rfl⟩
    obtain rfl : q' = q := by simpa [Flt.finite] using hq1
    have hd : fltDiv P E (.num q') (.num r') = roundFlt P E (q' / r') := by simp only [fltDiv, if_neg hr0, if_neg hq0]
    rw [hd]
    have hpow : (1 : ℚ) ≤ 2 ^ P := one_le_pow₀ (by norm_num)
    obtain ⟨hb1, hb2⟩ := abs_le.1 hb
    have hfl : |⌊q' / r'⌋| ≤ 2 ^ P := by
      rw [abs_le]
      have h3 := Int.floor_le (q' / r')
      have h4 := Int.lt_floor_add_one (q' / r')
      constructor
      · have : ((-2 ^ P : Int) : ℚ) ≤ (⌊q' / r'⌋ : ℚ) := by push_cast; linarith
        exact_mod_cast this
      · have : (⌊q' / r'⌋ : ℚ) ≤ ((2 ^ P : Int) : ℚ) := by push_cast; linarith
        exact_mod_cast this
    have hcl : |⌈q' / r'⌉| ≤ 2 ^ P := by
      rw [abs_le]
      have h3 := Int.le_ceil (q' / r')
      have h4 := Int.ceil_lt_add_one (q' / r')
      constructor
      · have : ((-2 ^ P : Int) : ℚ) ≤ (⌈q' / r'⌉ : ℚ) := by push_cast; linarith
        exact_mod_cast this
      · have : (⌈q' / r'⌉ : ℚ) ≤ ((2 ^ P : Int) : ℚ) := by push_cast; linarith
        exact_mod_cast this
    have l1 := roundTo_mono (e := E) hP (Int.floor_le (q' / r'))
    have l2 := roundTo_mono (e := E) hP (Int.le_ceil (q' / r'))
    rw [roundTo_exact (representable_int hfl hP hPE)] at l1
    rw [roundTo_exact (representable_int hcl hP hPE)] at l2
    have hz : |roundTo P E (q' / r')| < 2 ^ (E + 1) := by
      have h5 : (2 : ℚ) ^ P < 2 ^ (E + 1) := pow_lt_pow_right₀ (by norm_num) (by omega)
      refine lt_of_le_of_lt ?_ h5
      rw [abs_le]
      have h6 := (abs_le.1 hfl).1
      have h7 := (abs_le.1 hcl).2
      have h6' : -(2 : ℚ) ^ P ≤ (⌊q' / r'⌋ : ℚ) := by exact_mod_cast h6
      have h7' : (⌈q' / r'⌉ : ℚ) ≤ 2 ^ P := by exact_mod_cast h7
      constructor <;> linarith
    have hfin : ∃ y, fltInteger (fun q => ⌊q⌋) (roundFlt P E (q' / r')) = y ∧ y.finite = some ((⌊roundTo P E (q' / r')⌋ : Int) : ℚ) := by
      refine ⟨_, rfl, ?_⟩
      unfold roundFlt
      rw [if_neg (not_le.2 hz)]
      split
      · rename_i hc; rw [hc.1]; simp [fltInteger, Flt.finite]
      · simp only [fltInteger]
        split
        · rename_i hc; rw [hc.1]; simp [Flt.finite]
        · rfl
    obtain ⟨y, hy1, hy2⟩ := hfin
    refine ⟨y, ⌊roundTo P E (q' / r')⌋, by rw [hy1], hy2, ?_, ?_⟩
    · have h8 : ⌊q' / r'⌋ ≤ ⌊roundTo P E (q' / r')⌋ := Int.le_floor.2 l1
      have h9 : ⌊roundTo P E (q' / r')⌋ ≤ ⌈q' / r'⌉ := by
        have := Int.floor_mono l2
        rwa [Int.floor_intCast] at this
      have h10 := Int.ceil_le_floor_add_one (q' / r')
      omega
    · intro hrep; rw [roundTo_exact hrep]

/-! ## Rounding to integers -/

theorem intoFloat_ok {t : DType} (ht : t ∉ [DType.bool, .c32, .c64]) {v : Value} (hv : t.Has v)
    (hx : t.kind.wide = false ∨ t.kind.floating = true ∨ ∃ n : Int, v = .int n ∧ |n| ≤ 2 ^ 53) :
    ∃ x, intoFloat t v = .real x ∧ x = v.number.1 := by
  rcases int_or_real ht hv with ⟨n, b, rfl, hk, -⟩ | ⟨n, b, rfl, hk, -⟩ | ⟨x, p, e, rfl, hk, -⟩
  · have := castTo_exact (t := .f64) hv (by rw [hk]; simp [Widens, DType.kind]) (by rw [hk]; simp) (by simp [DType.kind])
      (by
        rcases hx with hx | hx | hx
        · left; rw [hx]; simp
        · rw [hk] at hx; simp [Kind.floating] at hx
        · exact .inr hx)
    simp only [intoFloat, hk]
    exact ⟨_, rfl, congrArg Prod.fst this.2⟩
  · have := castTo_exact (t := .f64) hv (by rw [hk]; simp [Widens, DType.kind]) (by rw [hk]; simp) (by simp [DType.kind])
      (by
        rcases hx with hx | hx | hx
        · left; rw [hx]; simp
        · rw [hk] at hx; simp [Kind.floating] at hx
        · exact .inr hx)
    simp only [intoFloat, hk]
    exact ⟨_, rfl, congrArg Prod.fst this.2⟩
  · simp only [intoFloat, hk]; exact ⟨x, rfl, rfl⟩

theorem fltInteger_finite {f : ℚ → Int} (h0 : f 0 = 0) {x : Flt} {q : ℚ} (hq : x.finite = some q) :
    (fltInteger f x).finite = some (f q : ℚ) := by
  cases x <;> simp only [Flt.finite, Option.some.injEq, reduceCtorEq] at hq <;> subst hq
  · simp [fltInteger, Flt.finite, h0]
  · simp only [fltInteger]
    split
    · rename_i hc; rw [hc.1]; simp [Flt.finite]
    · rfl

/-- **C65.** `floor`, `ceil` and `trunc` give the integer below, above and towards zero, for every element that a double
holds; infinities and not-a-number stay. -/
theorem C65_floor_ceil_trunc {t : DType} (ht : t ∉ [DType.bool, .c32, .c64]) {v : Value} (hv : t.Has v)
    (hx : t.kind.wide = false ∨ t.kind.floating = true ∨ ∃ n : Int, v = .int n ∧ |n| ≤ 2 ^ 53) :
    ∃ x y z, floorElem t v = .real x ∧ ceilElem t v = .real y ∧ truncElem t v = .real z ∧
      (∀ q, v.number.1.finite = some q → x.finite = some (⌊q⌋ : ℚ) ∧ y.finite = some (⌈q⌉ : ℚ) ∧
        ∃ n : Int, z.finite = some (n : ℚ) ∧ IsTrunc q n) ∧
      (v.number.1.finite = none → x = v.number.1 ∧ y = v.number.1 ∧ z = v.number.1) := by
  obtain ⟨u, hu, hu'⟩ := intoFloat_ok ht hv hx
  simp only [floorElem, ceilElem, truncElem, hu]
  refine ⟨_, _, _, rfl, rfl, rfl, fun q hq => ?_, fun hq => ?_⟩
  · rw [← hu'] at hq
    refine ⟨fltInteger_finite (by simp) hq, fltInteger_finite (by simp) hq, truncRat q, fltInteger_finite (by simp [truncRat]) hq, ?_⟩
    unfold truncRat IsTrunc
    split
    · rename_i hneg
      have h1 := Int.le_ceil q
      have h2 := Int.ceil_lt_add_one q
      have h3 : ⌈q⌉ ≤ 0 := Int.ceil_le.2 (by simpa using hneg.le)
      have h3' : (⌈q⌉ : ℚ) ≤ 0 := by exact_mod_cast h3
      rw [abs_of_nonpos h3', abs_of_neg hneg]
      exact ⟨by linarith, by linarith, mul_nonneg_of_nonpos_of_nonpos h3' hneg.le⟩
    · rename_i hneg
      have hpos := not_lt.1 hneg
      have h1 := Int.floor_le q
      have h2 := Int.lt_floor_add_one q
      have h3 : 0 ≤ ⌊q⌋ := Int.floor_nonneg.2 hpos
      have h3' : (0 : ℚ) ≤ ⌊q⌋ := by exact_mod_cast h3
      rw [abs_of_nonneg h3', abs_of_nonneg hpos]
      exact ⟨by linarith, by linarith, mul_nonneg h3' hpos⟩
  · rw [← hu'] at hq ⊢
    cases u <;> simp_all [Flt.finite, fltInteger]

theorem roundAway_err (q : ℚ) : |(roundAway q : ℚ) - q| ≤ 1 / 2 := by
  unfold roundAway
  split
  · have h1 := Int.floor_le (-q + 1 / 2)
    have h2 := Int.lt_floor_add_one (-q + 1 / 2)
    push_cast; rw [abs_le]; constructor <;> linarith
  · have h1 := Int.floor_le (q + 1 / 2)
    have h2 := Int.lt_floor_add_one (q + 1 / 2)
    rw [abs_le]; constructor <;> linarith

/-- **C65.** `round` gives a nearest integer, and the nearest integer if there is only one. -/
theorem C65_round_partial {t : DType} (ht : t ∉ [DType.bool, .c32, .c64]) {v : Value} (hv : t.Has v)
    (hx : t.kind.wide = false ∨ t.kind.floating = true ∨ ∃ n : Int, v = .int n ∧ |n| ≤ 2 ^ 53) {q : ℚ}
    (hq : v.number.1.finite = some q) :
    ∃ x, roundElem t v = .real x ∧ ∃ n : Int, x.finite = some (n : ℚ) ∧ (∀ m : Int, |(n : ℚ) - q| ≤ |(m : ℚ) - q|) ∧
      (q - ⌊q⌋ ≠ 1 / 2 → IsRoundEven q n) := by
  obtain ⟨u, hu, hu'⟩ := intoFloat_ok ht hv hx
  simp only [roundElem, hu]
  rw [← hu'] at hq
  have herr := roundAway_err q
  have hnear : ∀ m : Int, |(roundAway q : ℚ) - q| ≤ |(m : ℚ) - q| := by
    intro m
    by_cases hm : m = roundAway q
    · rw [hm]
    · have h1 : (1 : ℚ) ≤ |(m : ℚ) - roundAway q| := by
        have : 1 ≤ |m - roundAway q| := Int.one_le_abs (sub_ne_zero.2 hm)
        exact_mod_cast this
      have h2 : |(m : ℚ) - roundAway q| ≤ |(m : ℚ) - q| + |(roundAway q : ℚ) - q| := by
        have := abs_sub_le (m : ℚ) q (roundAway q : ℚ)
        rwa [abs_sub_comm q] at this
      linarith
  refine ⟨_, rfl, roundAway q, fltInteger_finite (by norm_num [roundAway]) hq, hnear, fun hhalf => ⟨hnear, ?_⟩⟩
  rintro ⟨m, hm, heq⟩
  exfalso
  have h1 : (1 : ℚ) ≤ |(m : ℚ) - roundAway q| := by
    have : 1 ≤ |m - roundAway q| := Int.one_le_abs (sub_ne_zero.2 hm)
    exact_mod_cast this
  have h2 : |(m : ℚ) - roundAway q| ≤ |(m : ℚ) - q| + |(roundAway q : ℚ) - q| := by
    have := abs_sub_le (m : ℚ) q (roundAway q : ℚ)
    rwa [abs_sub_comm q] at this
  have h3 : |(roundAway q : ℚ) - q| = 1 / 2 := le_antisymm herr (by linarith)
  apply hhalf
  rcases abs_choice ((roundAway q : ℚ) - q) with hc | hc
  · rw [hc] at h3
    have h4 : q = ((roundAway q - 1 : Int) : ℚ) + 1 / 2 := by push_cast; linarith
    have h5 : ⌊q⌋ = roundAway q - 1 := by rw [Int.floor_eq_iff]; constructor <;> linarith
    rw [h5]; linarith
  · rw [hc] at h3
    have h4 : q = (roundAway q : ℚ) + 1 / 2 := by linarith
    have h5 : ⌊q⌋ = roundAway q := by rw [Int.floor_eq_iff]; constructor <;> linarith
    rw [h5]; linarith

/-! ## Comparisons -/

/-- **C65.** The other comparisons between real types decide by the numbers themselves, unless a 64-bit integer of more than
53 binary digits meets a float. -/
theorem C65_compare {a b : DType} {p : Promotion} (h : promotion a b = some p) (ha : a ≠ .c32 ∧ a ≠ .c64)
    (hb : b ≠ .c32 ∧ b ≠ .c64) {v w : Value} (hv : a.Has v) (hw : b.Has w)
    (hx : ¬ (a.kind.wide = true ∧ p.res.kind.floating = true) ∨ ∃ n : Int, v = .int n ∧ |n| ≤ 2 ^ 53)
    (hy : ¬ (b.kind.wide = true ∧ p.res.kind.floating = true) ∨ ∃ n : Int, w = .int n ∧ |n| ≤ 2 ^ 53) :
    ∃ ne gt le ge, notEqualElem a b v w = some ne ∧ greaterElem a b v w = some gt ∧ lessEqualElem a b v w = some le ∧
      greaterEqualElem a b v w = some ge ∧ (ne = true ↔ ¬ v.Same w) ∧ (gt = true ↔ w.Less v) ∧
      (le = true ↔ v.Less w ∨ v.Same w) ∧ (ge = true ↔ w.Less v ∨ v.Same w) := by
  have hk := C63_value h hv hw hx hy
  have hc := real_res h (by simpa [isComplex] using ha) (by simpa [isComplex] using hb)
  have e1 := valEq_iff hc hk.1 hk.2.1
  have e2 := valLt_iff hc hk.1 hk.2.1
  have e3 := valLt_iff hc hk.2.1 hk.1
  have s1 : (p.self v).Same (p.other w) ↔ v.Same w := by unfold Value.Same; rw [hk.2.2.1, hk.2.2.2]
  have s2 : (p.self v).Less (p.other w) ↔ v.Less w := by unfold Value.Less; rw [hk.2.2.1, hk.2.2.2]
  have s3 : (p.other w).Less (p.self v) ↔ w.Less v := by unfold Value.Less; rw [hk.2.2.1, hk.2.2.2]
  rw [s1] at e1; rw [s2] at e2; rw [s3] at e3
  refine ⟨_, _, _, _, by rw [notEqualElem, h]; rfl, by rw [greaterElem, h]; rfl, by rw [lessEqualElem, h]; rfl,
    by rw [greaterEqualElem, h]; rfl, ?_, e3, ?_, ?_⟩
  · rw [← e1]; simp
  · rw [Bool.or_eq_true, e1, e2]
  · rw [Bool.or_eq_true, e1, e3]

/-! ## Where it fails -/

/-- `signbit` is inverted: it is true for the positive and false for the negative numbers, and false for an integer zero too.
In general the answer is the opposite of the sign bit for every float. -/
theorem C65_false_signbit : (∀ x : Flt, signbit (.real x) = !SignBit x) ∧
    signbit (.real (.num 1)) = true ∧ SignBit (.num 1) = false ∧ signbit (.int (-1)) = false ∧ SignBit (.num (-1)) = true := by
  refine ⟨fun x => ?_, by decide +kernel, by decide +kernel, by decide +kernel, by decide +kernel⟩
  cases x <;> rfl

/-- `abs` of the least value of a signed type is that negative value in a build without overflow checks, and panics in a build
with them. -/
theorem C65_false_abs : extAbs true .i8 (.int (-128)) = .ok (.int (-128)) ∧ extAbs false .i8 (.int (-128)) = .error .panic ∧
    ¬ IsAbs (Value.int (-128)).number.1 (Value.int (-128)).number.1 := by
  refine ⟨by decide +kernel, by decide +kernel, ?_⟩
  rintro ⟨q, hq, h⟩
  simp only [Value.number, Flt.finite, Option.some.injEq, Flt.num.injEq] at hq h
  subst hq
  norm_num at h

/-- `round` of two and a half is three, not the even two. -/
theorem C65_false_round : roundElem .f64 (.real (.num (5 / 2))) = .real (.num 3) ∧ ¬ IsRoundEven (5 / 2) 3 ∧ IsRoundEven (5 / 2) 2 := by
  have hn : ∀ m : Int, (1 : ℚ) / 2 ≤ |(m : ℚ) - 5 / 2| := by
    intro m
    rcases le_or_gt m 2 with h | h
    · have : (m : ℚ) ≤ 2 := by exact_mod_cast h
      rw [abs_of_nonpos (by linarith)]; linarith
    · have : (3 : ℚ) ≤ m := by exact_mod_cast h
      rw [abs_of_nonneg (by linarith)]; linarith
  refine ⟨by decide +kernel, fun h => ?_, fun m => ?_, fun _ => rfl⟩
  · have := h.2 ⟨2, by decide, by norm_num [abs_of_nonpos, abs_of_nonneg]⟩
    omega
  · refine le_trans (le_of_eq ?_) (hn m)
    rw [abs_of_nonpos (by norm_num)]; norm_num

/-- The double that the literal `0.1` stands for is more than a tenth, so it goes into 1 nine times. `floor_divide` says ten. -/
theorem C65_false_floor_divide : ∃ r : ℚ, roundFlt 53 1023 (1 / 10) = .num r ∧ ⌊1 / r⌋ = 9 ∧
    floorDivideElem .f64 .f64 (.real (.num 1)) (.real (.num r)) = some (.ok (.real (.num 10))) := by
  refine ⟨3602879701896397 / 36028797018963968, by decide +kernel, ?_, by decide +kernel⟩
  rw [Int.floor_eq_iff]; norm_num

/-! ## The hypotheses are met -/

example : maximumElem .i8 .u8 (.int (-3)) (.int 200) = some (.int 200) := by decide +kernel
example : minimumElem .i32 .f64 (.int (-3)) (.real (.inf true)) = some (.real (.inf true)) := by decide +kernel
example : maximumElem .f32 .f64 (.real (.nan true)) (.real (.num (1 / 2))) = some (.real (.num (1 / 2))) := by decide +kernel
example : floorDivideElem .i16 .u8 (.int (-7)) (.int 2) = some (.ok (.int (-4))) := by decide +kernel
example : floorDivideElem .i8 .i8 (.int (-128)) (.int (-1)) = some (.error .panic) := by decide +kernel
example : floorDivideElem .f64 .f64 (.real (.num (-7))) (.real (.num 2)) = some (.ok (.real (.num (-4)))) := by decide +kernel
example : truncElem .f64 (.real (.num (-7 / 2))) = .real (.num (-3)) := by decide +kernel
example : ceilElem .f64 (.real (.num (-1 / 2))) = .real .negZero := by decide +kernel
example : floorElem .i32 (.int (-7)) = .real (.num (-7)) := by decide +kernel
example : greaterEqualElem .u8 .f64 (.int 3) (.real (.nan false)) = some false := by decide +kernel

/-- The theorems apply: an `i16` divided by a `u8`. -/
example : ∃ k : Int, floorDivideElem .i16 .u8 (.int (-7)) (.int 2) = some (.ok (.int k)) ∧ k = ⌊(-7 : ℚ) / 2⌋ := by
  obtain ⟨k, h1, -, h2⟩ := C65_floor_divide_int (a := .i16) (b := .u8) (p := ⟨.i16, true, false, castTo .i16, castTo .i16⟩) rfl
    (by decide) rfl (m := -7) (n := 2) (show (-2 ^ 15 : Int) ≤ -7 ∧ (-7 : Int) < 2 ^ 15 by decide)
    (show (0 : Int) ≤ 2 ∧ (2 : Int) < 2 ^ 8 by decide) (by decide) (fun _ _ h => by omega)
  exact ⟨k, h1, by rw [h2]; norm_num⟩

end Rstsr
