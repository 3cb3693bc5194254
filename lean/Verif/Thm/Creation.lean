import Verif.Spec.Creation
import Verif.Proof.Float
import Verif.Thm.Diag
/-!
# C50, C59, C60: creating tensors
-/
namespace Rstsr
open Spec

/-! ## Counting -/

theorem lt_count {d step : Int} (h : step ≠ 0) (i : Nat) :
    i < ⌈(d : ℚ) / step⌉.toNat ↔ (0 < step ∧ i * step < d) ∨ (step < 0 ∧ d < i * step) := by
  rw [Int.lt_toNat, Int.lt_ceil]
  rcases lt_or_gt_of_ne h with h | h
  · have hq : (step : ℚ) < 0 := by exact_mod_cast h
    rw [lt_div_iff_of_neg hq]
    constructor
    · intro hl; right; exact ⟨h, by exact_mod_cast hl⟩
    · rintro (⟨h', -⟩ | ⟨-, hl⟩)
      · omega
      · exact_mod_cast hl
  · have hq : (0 : ℚ) < step := by exact_mod_cast h
    rw [lt_div_iff₀ hq]
    constructor
    · intro hl; left; exact ⟨h, by exact_mod_cast hl⟩
    · rintro (⟨-, hl⟩ | ⟨h', -⟩)
      · exact_mod_cast hl
      · omega

/-- What `IsIntRange` says: the values are those of the form `start + i step` before `stop`. -/
theorem C50_meaning (start stop step : Int) (h : step ≠ 0) (xs : List Int) (hx : IsIntRange start stop step xs) (x : Int) :
    x ∈ xs ↔ ∃ i : Nat, x = start + i * step ∧ (0 < step → x < stop) ∧ (step < 0 → stop < x) := by
  rw [List.mem_iff_getElem?]
  constructor
  · rintro ⟨i, hi⟩
    have hlt := (List.getElem?_eq_some_iff.1 hi).1
    rw [hx.2 i hlt] at hi
    cases hi
    have := (lt_count h i).1 (hx.1 ▸ hlt)
    refine ⟨i, rfl, ?_, ?_⟩ <;> intro <;> omega
  · rintro ⟨i, rfl, h1, h2⟩
    have hlt : i < xs.length := by
      rw [hx.1, lt_count h]
      rcases lt_or_gt_of_ne h with h' | h'
      · right; have := h2 h'; exact ⟨h', by omega⟩
      · left; have := h1 h'; exact ⟨h', by omega⟩
    exact ⟨i, hx.2 i hlt⟩

theorem tensor_ofList {α : Type} (xs : List α) : (Tensor.ofList xs).WF ∧ (Tensor.ofList xs).arr.Lists xs := by
  have ht := tight_newC [xs.length]
  have hs : (Layout.newCContig [xs.length] 0).shape = [xs.length] := shape_newCContig _ _
  have hn : (Layout.newCContig [xs.length] 0).size = xs.length := by rw [Layout.size, hs]; simp
  rw [hn] at ht
  refine ⟨ht.wf rfl, hs, ?_⟩
  intro i hi
  have hin : InRange [i] (Layout.newCContig [xs.length] 0).shape := by rw [hs]; exact ⟨hi, trivial⟩
  have := elem_pos (d := xs) ht.fit hin
  refine this.trans ?_
  have ha : (Layout.newCContig [xs.length] 0).addr [i] = i := by
    rw [addr_newCContig (by simp)]; simp [rankC]
  rw [Layout.pos, ha, Int.toNat_natCast]

/-! ## Integers -/

theorem u8_holds {x : Int} : IntTy.u8.holds x = true ↔ 0 ≤ x ∧ x ≤ 255 := by
  unfold IntTy.holds
  rw [Bool.and_eq_true, decide_eq_true_eq, decide_eq_true_eq]
  exact Iff.rfl

theorem isize_holds {x : Int} : IntTy.isize.holds x = true ↔ -9223372036854775808 ≤ x ∧ x ≤ 9223372036854775807 := by
  unfold IntTy.holds
  rw [Bool.and_eq_true, decide_eq_true_eq, decide_eq_true_eq]
  exact Iff.rfl


/-- The types with a fast path, among them `i32`, `i64`, `u32`, `u64`, `usize` and `isize`. -/
theorem arangeInt_fast (wrap : Bool) (T : IntTy) (hf : T.fast = true) (start stop step : Int)
    (h1 : T.holds start = true) (h2 : T.holds stop = true)
    (i1 : IntTy.isize.holds start = true) (i2 : IntTy.isize.holds stop = true) (i3 : IntTy.isize.holds step = true)
    (h0 : step ≠ 0) (hd : |stop - start| < 2 ^ 53) :
    ∃ xs, (∀ rounds, arangeInt wrap T start stop step rounds = some (.ok xs)) ∧ IsIntRange start stop step xs := by
  have hcount := ceil_quotient hd h0
  have hbound := ceil_quotient_bound hd h0
  set N := ⌈((stop - start : Int) : ℚ) / step⌉.toNat with hN
  have hlt : ∀ i < N, (0 < step ∧ i * step < stop - start) ∨ (step < 0 ∧ stop - start < i * step) := fun i hi =>
    (lt_count h0 i).1 hi
  rw [isize_holds] at i1 i2 i3
  simp only [IntTy.holds, Bool.and_eq_true, decide_eq_true_eq] at h1 h2
  have hmul : ∀ i < N, |(i : Int) * step| < 2 ^ 53 := by
    intro i hi
    have hd' := abs_lt.1 hd
    rw [abs_lt]
    rcases hlt i hi with ⟨a, b⟩ | ⟨a, b⟩
    · have : 0 ≤ (i : Int) * step := Int.mul_nonneg (by omega) a.le
      constructor <;> omega
    · have : (i : Int) * step ≤ 0 := Int.mul_nonpos_of_nonneg_of_nonpos (by omega) a.le
      constructor <;> omega
  have hbetween : ∀ i < N, (start ≤ start + i * step ∧ start + i * step < stop ∧ 0 < step) ∨
      (start + i * step ≤ start ∧ stop < start + i * step ∧ step < 0) := by
    intro i hi
    rcases hlt i hi with ⟨a, b⟩ | ⟨a, b⟩
    · have : 0 ≤ (i : Int) * step := Int.mul_nonneg (by omega) a.le
      left; refine ⟨?_, ?_, a⟩ <;> omega
    · have : (i : Int) * step ≤ 0 := Int.mul_nonpos_of_nonneg_of_nonpos (by omega) a.le
      right; refine ⟨?_, ?_, a⟩ <;> omega
  have hmap : ((List.range N).mapM fun (i : Nat) => (do
          let m ← IntTy.isize.arith wrap (i * step)
          let v ← IntTy.isize.arith wrap (start + m)
          if T.holds v then pure v else .error .panic : Res Int)) = .ok ((List.range N).map fun i : Nat => start + i * step) := by
    refine mapM_eq_map ?_
    intro i hi
    have hi := List.mem_range.1 hi
    have a1 : IntTy.isize.arith wrap (i * step) = .ok (i * step) := by
      have := abs_lt.1 (hmul i hi)
      rw [IntTy.arith, if_pos]
      rw [isize_holds]
      constructor <;> omega
    have a2 : IntTy.isize.arith wrap (start + i * step) = .ok (start + i * step) := by
      have := hbetween i hi
      rw [IntTy.arith, if_pos]
      rw [isize_holds]
      constructor <;> omega
    have a3 : T.holds (start + i * step) = true := by
      have := hbetween i hi
      simp only [IntTy.holds, Bool.and_eq_true, decide_eq_true_eq]
      constructor <;> omega
    simp only [a1, ok_bind, a2, a3, if_true]
    rfl
  have hdrop : dropOutside (fun x => decide (x ≤ stop)) (fun x => decide (stop ≤ x)) (0 < step) (step < 0)
      ((List.range N).map fun i : Nat => start + i * step) = (List.range N).map fun i : Nat => start + i * step := by
    unfold dropOutside
    rw [if_neg]
    rcases Nat.eq_zero_or_pos N with h | h
    · simp [h]
    · obtain ⟨M, hM⟩ : ∃ M, N = M + 1 := ⟨N - 1, by omega⟩
      have hb := hbetween M (by omega)
      rw [hM, List.range_succ, List.map_append, List.map_singleton, List.getLast?_append]
      simp only [List.getLast?_singleton, Option.some_or, Option.any_some, Bool.or_eq_true, Bool.and_eq_true,
        decide_eq_true_eq]
      omega
  refine ⟨(List.range N).map fun i : Nat => start + i * step, ?_, ?_, ?_⟩
  · intro rounds
    have hI : arangeIsize wrap T start stop step = some (.ok ((List.range N).map fun i : Nat => start + i * step)) := by
      have hd' := abs_lt.1 hd
      have a1 : IntTy.isize.arith wrap (stop - start) = .ok (stop - start) := by
        rw [IntTy.arith, if_pos]
        rw [isize_holds]
        constructor <;> omega
      unfold arangeIsize
      rw [if_neg (by
        simp only [isize_holds, not_not]
        exact ⟨i1, i2, i3⟩)]
      simp only [a1]
      have hb := abs_le.1 hbound
      rw [if_neg (by
        simp only [isize_holds, not_not]
        constructor <;> omega), hcount, hmap]
      simp only [ok_bind, hdrop]
      rfl
    unfold arangeInt
    rw [if_neg h0]
    simp only [hf, if_true, hI]
  · simp [hN]
  · intro i hi
    simp only [List.length_map, List.length_range] at hi
    simp [hi]

/-- C50 for the types with a fast path, when the interval is shorter than `2 ^ 53`: `arange` ends, whatever the
build profile, with exactly the values of the range, as a one-dimensional tensor.
Missing: longer intervals (see `C50_false_large`). -/
theorem C50_arange_partial (wrap : Bool) (T : IntTy) (hf : T.fast = true) (start stop step : Int)
    (h1 : T.holds start = true) (h2 : T.holds stop = true)
    (i1 : IntTy.isize.holds start = true) (i2 : IntTy.isize.holds stop = true) (i3 : IntTy.isize.holds step = true)
    (h0 : step ≠ 0) (hd : |stop - start| < 2 ^ 53) :
    ∃ xs t, IsIntRange start stop step xs ∧
      (∀ rounds, Tensor.arange (arangeInt wrap T start stop step) rounds = some (.ok t)) ∧ t.WF ∧ t.arr.Lists xs := by
  obtain ⟨xs, a, b⟩ := arangeInt_fast wrap T hf start stop step h1 h2 i1 i2 i3 h0 hd
  obtain ⟨c, d⟩ := tensor_ofList xs
  exact ⟨xs, _, b, fun r => by rw [Tensor.arange, a]; rfl, c, d⟩

/-- The loop: with an ascending step it ends with the values of the range, provided that the first value after the
range still fits the type. -/
theorem arangeLoop_int (wrap : Bool) (T : IntTy) (stop step : Int) (hs : 0 < step) (N : Nat) :
    ∀ (start : Int), N = ⌈((stop - start : Int) : ℚ) / step⌉.toNat → T.lo ≤ start → start + N * step ≤ T.hi →
    ∀ rounds, N < rounds →
      arangeLoop (fun a b => decide (a < b)) (fun a b => T.arith wrap (a + b)) stop step rounds start =
        some (.ok ((List.range N).map fun i : Nat => start + i * step)) := by
  induction N with
  | zero =>
    intro start hN _ _ rounds hr
    obtain ⟨r, rfl⟩ : ∃ r, rounds = r + 1 := ⟨rounds - 1, by omega⟩
    have := mt (lt_count (d := stop - start) hs.ne' 0).2 (by omega)
    simp only [Nat.cast_zero, zero_mul, not_or, not_and] at this
    have := this.1 hs
    simp only [arangeLoop, decide_eq_true_eq]
    rw [if_neg (by omega)]
    rfl
  | succ N ih =>
    intro start hN hlo hhi rounds hr
    obtain ⟨r, rfl⟩ : ∃ r, rounds = r + 1 := ⟨rounds - 1, by omega⟩
    have h0 := (lt_count (d := stop - start) hs.ne' 0).1 (by omega)
    have hN' : N = ⌈((stop - (start + step) : Int) : ℚ) / step⌉.toNat := by
      have hq : (step : ℚ) ≠ 0 := by exact_mod_cast hs.ne'
      have : ((stop - (start + step) : Int) : ℚ) / step = ((stop - start : Int) : ℚ) / step - (1 : Int) := by
        push_cast
        field_simp
        ring
      rw [this, Int.ceil_sub_intCast]
      omega
    have hmul : ((N + 1 : Nat) : Int) * step = N * step + step := by push_cast; ring
    have hnn : 0 ≤ (N : Int) * step := Int.mul_nonneg (by omega) hs.le
    rw [hmul] at hhi
    have harith : T.arith wrap (start + step) = .ok (start + step) := by
      rw [IntTy.arith, if_pos]
      simp only [IntTy.holds, Bool.and_eq_true, decide_eq_true_eq]
      constructor <;> omega
    simp only [arangeLoop, decide_eq_true_eq]
    rw [if_pos (by omega), harith]
    simp only [ih (start + step) hN' (by omega) (by omega) r (by omega), Option.map_some]
    congr 1
    show Except.ok _ = Except.ok _
    congr 1
    rw [List.range_succ_eq_map, List.map_cons, List.map_map]
    refine congrArg₂ _ (by simp) (List.map_congr_left fun i _ => ?_)
    simp only [Function.comp_apply]
    push_cast
    ring

/-- C50 for the other integer types (`i8`, `u8`, `i16`, `u16`, `i128`, `u128`), with an ascending step: the loop ends
with exactly the values of the range, provided that the first value past the range does not overflow.
Missing: descending steps (`C50_false_descending`) and ranges that end within one step of the greatest
value (`C50_false_overflow`). -/
theorem C50_arange_slow_partial (wrap : Bool) (T : IntTy) (hf : T.fast = false) (start stop step : Int)
    (h1 : T.holds start = true) (hs : 0 < step)
    (ho : start + ⌈((stop - start : Int) : ℚ) / step⌉.toNat * step ≤ T.hi) :
    ∃ xs t, IsIntRange start stop step xs ∧
      (∀ rounds, xs.length < rounds → Tensor.arange (arangeInt wrap T start stop step) rounds = some (.ok t)) ∧
      t.WF ∧ t.arr.Lists xs := by
  simp only [IntTy.holds, Bool.and_eq_true, decide_eq_true_eq] at h1
  have hloop := arangeLoop_int wrap T stop step hs _ start rfl h1.1 ho
  generalize hN : ⌈((stop - start : Int) : ℚ) / step⌉.toNat = N at *
  obtain ⟨c, d⟩ := tensor_ofList ((List.range N).map fun i : Nat => start + i * step)
  refine ⟨_, _, ⟨by rw [hN]; simp, ?_⟩, ?_, c, d⟩
  · intro i hi
    simp only [List.length_map, List.length_range] at hi
    simp [hi]
  · intro rounds hr
    simp only [List.length_map, List.length_range] at hr
    rw [Tensor.arange, arangeInt, if_neg hs.ne']
    simp only [hf, Bool.false_eq_true, if_false, hloop rounds hr]
    rfl

/-- A zero step is refused. -/
theorem C50_zero_step (wrap : Bool) (T : IntTy) (start stop : Int) (rounds : Nat) :
    Tensor.arange (arangeInt wrap T start stop 0) rounds = some (.error .invalidValue) := rfl

/-- An ascending `u8` range, a descending `i32` range. -/
example : ∃ t, (∀ rounds, 4 < rounds → Tensor.arange (arangeInt false IntTy.u8 3 14 3) rounds = some (.ok t)) ∧
    t.arr.Lists [3, 6, 9, 12] := by
  obtain ⟨xs, t, ⟨h1, h2⟩, h3, -, h5⟩ := C50_arange_slow_partial false IntTy.u8 rfl 3 14 3 rfl (by norm_num)
    (by norm_num [IntTy.u8])
  have hl : xs.length = 4 := by rw [h1]; norm_num; rfl
  rw [hl] at h2 h3
  have : xs = [3, 6, 9, 12] := by
    match xs, hl with
    | [a, b, c, d], _ =>
      have e0 := h2 0 (by omega); have e1 := h2 1 (by omega); have e2 := h2 2 (by omega); have e3 := h2 3 (by omega)
      simp at e0 e1 e2 e3
      simp [e0, e1, e2, e3]
  exact ⟨t, h3, this ▸ h5⟩

example : ∃ xs t, IsIntRange 10 (-5) (-4) xs ∧ xs.length = 4 ∧
    (∀ rounds, Tensor.arange (arangeInt true IntTy.i32 10 (-5) (-4)) rounds = some (.ok t)) ∧ t.arr.Lists xs := by
  obtain ⟨xs, t, h1, h3, -, h5⟩ := C50_arange_partial true IntTy.i32 rfl 10 (-5) (-4) rfl rfl rfl rfl rfl (by norm_num)
    (by norm_num)
  exact ⟨xs, t, h1, by rw [h1.1]; norm_num; rfl, h3, h5⟩

/-! ### Where it fails -/

/-- `arange(0_i64, 2^53 + 1, 2^52)` leaves out the last value `2^53`: the length of the interval is rounded. -/
theorem C50_false_large (wrap : Bool) (rounds : Nat) :
    arangeInt wrap IntTy.i64 0 (2 ^ 53 + 1) (2 ^ 52) rounds = some (.ok [0, 2 ^ 52]) ∧
      ¬ IsIntRange 0 (2 ^ 53 + 1) (2 ^ 52) [0, 2 ^ 52] := by
  have hlog : Int.log 2 |((2 ^ 53 + 1 : Int) : ℚ)| = 53 := by
    have h1 : |((2 ^ 53 + 1 : Int) : ℚ)| = ((2 ^ 53 + 1 : Nat) : ℚ) := by norm_num
    rw [h1, Int.log_natCast, Nat.log_eq_of_pow_le_of_lt_pow (m := 53) (by norm_num) (by norm_num)]
    rfl
  have hd : toF64 ((2 ^ 53 + 1 : Int) : ℚ) = 2 ^ 53 := by
    have hr : roundHalfEven (((2 ^ 53 + 1 : Int) : ℚ) / 2 ^ ((53 : Int) - 52)) = 2 ^ 52 := by
      have : ((2 ^ 53 + 1 : Int) : ℚ) / 2 ^ ((53 : Int) - 52) = 2 ^ 52 + 1 / 2 := by norm_num
      rw [this]
      have hfl : ⌊(2 : ℚ) ^ 52 + 1 / 2⌋ = 2 ^ 52 := by
        rw [Int.floor_eq_iff]; norm_num
      unfold roundHalfEven
      rw [hfl]
      norm_num
    unfold toF64
    rw [if_neg (by norm_num), hlog, hr]
    norm_num
  have hs : toF64 ((2 ^ 52 : Int) : ℚ) = 2 ^ 52 := by
    rw [toF64_int (by norm_num)]; norm_num
  have hq : ⌈toF64 (toF64 ((2 ^ 53 + 1 : Int) : ℚ) / toF64 ((2 ^ 52 : Int) : ℚ))⌉ = 2 := by
    rw [hd, hs]
    have : (2 : ℚ) ^ 53 / 2 ^ 52 = ((2 : Int) : ℚ) := by norm_num
    rw [this, toF64_int (by norm_num), Int.ceil_intCast]
  constructor
  · have hi : arangeIsize wrap IntTy.i64 0 (2 ^ 53 + 1) (2 ^ 52) = some (.ok [0, 2 ^ 52]) := by
      unfold arangeIsize
      rw [if_neg (by decide)]
      have a1 : IntTy.isize.arith wrap (2 ^ 53 + 1 - 0) = .ok (2 ^ 53 + 1) := by cases wrap <;> rfl
      simp only [a1, hq]
      cases wrap <;> rfl
    rw [arangeInt, if_neg (by norm_num)]
    simp only [hi]
    rfl
  · intro h
    have := h.1
    norm_num at this
    exact absurd this (by decide)

/-- A descending range of a type without fast path comes out empty: `arange(5_i8, 0, -1)`. -/
theorem C50_false_descending (wrap : Bool) :
    (∀ rounds, 0 < rounds → arangeInt wrap IntTy.i8 5 0 (-1) rounds = some (.ok [])) ∧ ¬ IsIntRange 5 0 (-1) [] := by
  constructor
  · intro rounds hr
    obtain ⟨r, rfl⟩ : ∃ r, rounds = r + 1 := ⟨rounds - 1, by omega⟩
    rfl
  · intro h
    have := h.1
    norm_num at this
    exact absurd this (by decide)

/-- `arange(0_u8, 255, 2)` has no result: with overflow checks it panics, without them it never ends. -/
theorem C50_false_overflow :
    (∀ rounds, 127 < rounds → arangeInt false IntTy.u8 0 255 2 rounds = some (.error .panic)) ∧
      ∀ rounds, arangeInt true IntTy.u8 0 255 2 rounds = none := by
  constructor
  · have key : ∀ k : Nat, k ≤ 127 → ∀ rounds, k < rounds →
        arangeLoop (fun a b => decide (a < b)) (fun a b => IntTy.u8.arith false (a + b)) 255 2 rounds (254 - 2 * k : Int) =
          some (.error .panic) := by
      intro k
      induction k with
      | zero =>
        intro _ rounds hr
        obtain ⟨r, rfl⟩ : ∃ r, rounds = r + 1 := ⟨rounds - 1, by omega⟩
        rfl
      | succ k ih =>
        intro hk rounds hr
        obtain ⟨r, rfl⟩ : ∃ r, rounds = r + 1 := ⟨rounds - 1, by omega⟩
        have ha : IntTy.u8.arith false ((254 - 2 * (k + 1 : Nat) : Int) + 2) = .ok (254 - 2 * k) := by
          rw [IntTy.arith, if_pos]
          · refine congrArg _ ?_; push_cast; ring
          · rw [u8_holds]
            constructor <;> push_cast <;> omega
        simp only [arangeLoop, decide_eq_true_eq]
        rw [if_pos (by omega), ha]
        simp only [ih (by omega) r (by omega)]
        rfl
    intro rounds hr
    exact key 127 le_rfl rounds hr
  · have key : ∀ (rounds : Nat) (x : Int), 0 ≤ x → x < 255 → x % 2 = 0 →
        arangeLoop (fun a b => decide (a < b)) (fun a b => IntTy.u8.arith true (a + b)) 255 2 rounds x = none := by
      intro rounds
      induction rounds with
      | zero => intros; rfl
      | succ r ih =>
        intro x h0 h1 h2
        have ha : ∃ y, IntTy.u8.arith true (x + 2) = .ok y ∧ 0 ≤ y ∧ y < 255 ∧ y % 2 = 0 := by
          unfold IntTy.arith
          by_cases hx : x + 2 ≤ 255
          · refine ⟨x + 2, ?_, by omega, by omega, by omega⟩
            rw [if_pos]
            rw [u8_holds]
            constructor <;> omega
          · refine ⟨0, ?_, by omega, by omega, by omega⟩
            obtain rfl : x = 254 := by omega
            rfl
        obtain ⟨y, ha, b1, b2, b3⟩ := ha
        simp only [arangeLoop, decide_eq_true_eq]
        rw [if_pos h1, ha]
        simp only [ih y b1 b2 b3]
        rfl
    intro rounds
    exact key rounds 0 (by omega) (by omega) rfl

/-! ## Floating point types, in exact arithmetic -/

section
variable {K : Type} [Field K] [LinearOrder K] [IsStrictOrderedRing K] [FloorRing K]

theorem lt_countK {d step : K} (h : step ≠ 0) (i : Nat) :
    i < ⌈d / step⌉.toNat ↔ (0 < step ∧ i * step < d) ∨ (step < 0 ∧ d < i * step) := by
  rw [Int.lt_toNat, Int.lt_ceil, Int.cast_natCast]
  rcases lt_or_gt_of_ne h with h | h
  · rw [lt_div_iff_of_neg h]
    exact ⟨fun hl => Or.inr ⟨h, hl⟩, fun hl => hl.elim (fun a => absurd a.1 h.not_gt) (·.2)⟩
  · rw [lt_div_iff₀ h]
    exact ⟨fun hl => Or.inl ⟨h, hl⟩, fun hl => hl.elim (·.2) (fun a => absurd a.1 h.not_gt)⟩

theorem arangeLoop_exact (stop step : K) (hs : 0 < step) (N : Nat) :
    ∀ (start : K), N = ⌈(stop - start) / step⌉.toNat → ∀ rounds, N < rounds →
      arangeLoop (fun a b => decide (a < b)) (fun a b => .ok (a + b)) stop step rounds start =
        some (.ok ((List.range N).map fun i : Nat => start + i * step)) := by
  induction N with
  | zero =>
    intro start hN rounds hr
    obtain ⟨r, rfl⟩ : ∃ r, rounds = r + 1 := ⟨rounds - 1, by omega⟩
    have := mt (lt_countK (d := stop - start) hs.ne' 0).2 (by omega)
    simp only [Nat.cast_zero, zero_mul, not_or, not_and, sub_pos] at this
    simp only [arangeLoop, decide_eq_true_eq]
    rw [if_neg (this.1 hs)]
    rfl
  | succ N ih =>
    intro start hN rounds hr
    obtain ⟨r, rfl⟩ : ∃ r, rounds = r + 1 := ⟨rounds - 1, by omega⟩
    have h0 := (lt_countK (d := stop - start) hs.ne' 0).1 (by omega)
    simp only [Nat.cast_zero, zero_mul, sub_pos] at h0
    have h0 : start < stop := h0.elim (·.2) (fun a => absurd a.1 hs.not_gt)
    have hN' : N = ⌈(stop - (start + step)) / step⌉.toNat := by
      have : (stop - (start + step)) / step = (stop - start) / step - ((1 : Int) : K) := by
        rw [Int.cast_one, eq_sub_iff_add_eq, div_add_one hs.ne']
        congr 1
        ring
      rw [this, Int.ceil_sub_intCast]
      omega
    simp only [arangeLoop, decide_eq_true_eq]
    rw [if_pos h0]
    simp only [ih (start + step) hN' r (by omega), Option.map_some]
    congr 1
    show Except.ok _ = Except.ok _
    congr 1
    rw [List.range_succ_eq_map, List.map_cons, List.map_map]
    refine congrArg₂ _ (by simp) (List.map_congr_left fun i _ => ?_)
    simp only [Function.comp_apply]
    push_cast
    ring

theorem dropOutside_exact {start stop step : K} (h0 : step ≠ 0) {N : Nat} (hN : N = ⌈(stop - start) / step⌉.toNat) :
    dropOutside (fun x => decide (x ≤ stop)) (fun x => decide (stop ≤ x)) (0 < step) (step < 0)
      ((List.range N).map fun i : Nat => start + i * step) = (List.range N).map fun i : Nat => start + i * step := by
  unfold dropOutside
  rw [if_neg]
  rcases Nat.eq_zero_or_pos N with h | h
  · simp [h]
  · obtain ⟨M, hM⟩ : ∃ M, N = M + 1 := ⟨N - 1, by omega⟩
    have hb := (lt_countK (d := stop - start) h0 M).1 (by omega)
    rw [hM, List.range_succ, List.map_append, List.map_singleton, List.getLast?_append]
    simp only [List.getLast?_singleton, Option.some_or, Option.any_some, Bool.or_eq_true, Bool.and_eq_true,
      decide_eq_true_eq]
    rcases hb with ⟨a, b⟩ | ⟨a, b⟩
    · rintro (⟨-, c⟩ | ⟨c, -⟩)
      · linarith
      · exact absurd c a.not_gt
    · rintro (⟨c, -⟩ | ⟨-, c⟩)
      · exact absurd c a.not_gt
      · linarith

/-- C50 for floating point types, in exact arithmetic: `arange` ends with exactly the values of the range when the
step leads from `start` towards `stop` or the range has no values because `stop` is at most one step behind.
Missing: rounding, and steps in the wrong direction (`C50_false_wrong_way`). -/
theorem C50_arange_exact_partial (start stop step : K) (h0 : step ≠ 0)
    (hw : 0 < step ∨ (0 ≤ ⌈(stop - start) / step⌉ ∧ ⌈(stop - start) / step⌉ < 2 ^ 64)) :
    ∃ xs t, IsRange start stop step xs ∧
      (∀ rounds, xs.length < rounds → Tensor.arange (arangeExact start stop step) rounds = some (.ok t)) ∧
      t.WF ∧ t.arr.Lists xs := by
  obtain ⟨c, d⟩ := tensor_ofList ((List.range ⌈(stop - start) / step⌉.toNat).map fun i : Nat => start + i * step)
  refine ⟨_, _, ⟨by simp, ?_⟩, ?_, c, d⟩
  · intro i hi
    simp only [List.length_map, List.length_range] at hi
    simp [hi]
  · intro rounds hr
    simp only [List.length_map, List.length_range] at hr
    rw [Tensor.arange, arangeExact, if_neg h0]
    by_cases hn : ⌈(stop - start) / step⌉ < 0 ∨ 2 ^ 64 ≤ ⌈(stop - start) / step⌉
    · have hs : 0 < step := by
        rcases hw with h | h
        · exact h
        · omega
      simp only [arangeF64, if_pos hn, arangeLoop_exact stop step hs _ start rfl rounds hr]
      rfl
    · simp only [arangeF64, if_neg hn, dropOutside_exact h0 rfl]
      rfl

/-- With a negative step and `stop` more than a step ahead of `start`, `arange` never ends. -/
theorem C50_false_wrong_way (start stop step : K) (hs : step < 0) (hn : ⌈(stop - start) / step⌉ < 0) (rounds : Nat) :
    arangeExact start stop step rounds = none := by
  have hlt : start < stop := by
    by_contra hle
    have : 0 ≤ (stop - start) / step := div_nonneg_of_nonpos (by linarith) hs.le
    have := this.trans (Int.le_ceil ((stop - start) / step))
    exact absurd hn (by exact_mod_cast this.not_gt)
  rw [arangeExact, if_neg hs.ne]
  simp only [arangeF64, if_pos (show _ ∨ _ from Or.inl hn)]
  clear hn
  induction rounds generalizing start with
  | zero => rfl
  | succ r ih =>
    simp only [arangeLoop, decide_eq_true_eq]
    rw [if_pos hlt]
    simp only [ih (start + step) (by linarith)]
    rfl

example : ∀ rounds, arangeExact (0 : ℚ) 10 (-1) rounds = none :=
  C50_false_wrong_way 0 10 (-1) (by norm_num) (by norm_num)

example : ∃ xs t, IsRange (1 / 2 : ℚ) (-3) (-1 / 2) xs ∧ xs.length = 7 ∧ (∀ rounds, xs.length < rounds →
    Tensor.arange (arangeExact (1 / 2 : ℚ) (-3) (-1 / 2)) rounds = some (.ok t)) ∧ t.arr.Lists xs := by
  obtain ⟨xs, t, h1, h3, -, h5⟩ := C50_arange_exact_partial (1 / 2 : ℚ) (-3) (-1 / 2) (by norm_num) (by norm_num)
  exact ⟨xs, t, h1, by rw [h1.1]; norm_num; rfl, h3, h5⟩

end

/-! ## `linspace` -/

section
variable {K : Type} [Field K]

theorem linspaceLoop_eq (step : K) (n : Nat) : ∀ v, linspaceLoop step n v = (List.range n).map fun i : Nat => v + i * step := by
  induction n with
  | zero => intro v; rfl
  | succ n ih =>
    intro v
    rw [linspaceLoop, ih, List.range_succ_eq_map, List.map_cons, List.map_map]
    refine congrArg₂ _ (by simp) (List.map_congr_left fun i _ => ?_)
    simp only [Function.comp_apply]
    push_cast
    ring

/-- Linear spacing, in exact arithmetic: the running sum of the serial device and the products of the parallel device
give the same `n` values, the `i`-th being `start + i (stop - start) / (n - 1)`, or `/ n` without the endpoint. -/
theorem C50_linspace (start stop : K) (n : Nat) (endpoint : Bool) :
    linspaceSerial start stop n endpoint = linspacePar start stop n endpoint ∧
    (Tensor.ofList (linspaceSerial start stop n endpoint)).WF ∧
    ∃ xs, (Tensor.ofList (linspaceSerial start stop n endpoint)).arr.Lists xs ∧ xs.length = n ∧
      ∀ i < n, xs[i]? = some (start + i * ((stop - start) / ((if endpoint then n - 1 else n : Nat) : K))) := by
  obtain ⟨c, d⟩ := tensor_ofList (linspaceSerial start stop n endpoint)
  have he : linspaceSerial start stop n endpoint = linspacePar start stop n endpoint := by
    unfold linspaceSerial linspacePar
    simp only [linspaceLoop_eq]
  refine ⟨he, c, _, d, ?_, ?_⟩
  · rw [he]; unfold linspacePar
    split_ifs with h1 <;> simp [*]
  · intro i hi
    rw [he]; unfold linspacePar
    split_ifs with h1 h2 h3
    · omega
    · omega
    · obtain rfl : i = 0 := by omega
      simp
    · obtain rfl : i = 0 := by omega
      simp
    · simp [hi, linspaceStep, *]
    · simp [hi, linspaceStep, *]

/-- With the endpoint, the first value is `start` and the last is `stop`. -/
theorem C50_linspace_ends [CharZero K] (start stop : K) (n : Nat) (h : 2 ≤ n) :
    (linspaceSerial start stop n true)[0]? = some start ∧ (linspaceSerial start stop n true)[n - 1]? = some stop := by
  have hn : ((n - 1 : Nat) : K) ≠ 0 := by
    have : n - 1 ≠ 0 := by omega
    exact_mod_cast this
  unfold linspaceSerial
  rw [if_neg (by omega), if_neg (by omega), linspaceLoop_eq]
  constructor
  · rw [List.getElem?_map, List.getElem?_range (by omega)]; simp
  · rw [List.getElem?_map, List.getElem?_range (by omega)]
    simp only [Option.map_some, linspaceStep, if_true]
    rw [mul_div_cancel₀ _ hn]
    ring_nf

example : linspaceSerial (0 : ℚ) 1 5 true = [0, 1 / 4, 1 / 2, 3 / 4, 1] := by
  norm_num [linspaceSerial, linspaceLoop, linspaceStep]

end

/-! ## Constant tensors -/

section
variable {α : Type}

theorem shape_contigOf (fixed : Bool) (o : Order) (s : List Nat) : (contigOf fixed o s).shape = s := by
  by_cases hz : 0 ∈ s
  · rcases fixed with _ | _ <;> rcases o with _ | _
    · exact shape_newCContig _ _
    · exact shape_newFContig _ _
    · exact mkAxes_dims (by simp [strideCContigFixed])
    · exact mkAxes_dims (by simp [strideFContigFixed])
  · obtain ⟨h1, h2⟩ := C05_fixed_eq_dynamic s 0 hz
    rcases fixed with _ | _ <;> rcases o with _ | _ <;> simp only [contigOf, h1, h2]
    · exact shape_newCContig _ _
    · exact shape_newFContig _ _
    · exact shape_newCContig _ _
    · exact shape_newFContig _ _

theorem tight_contigOf (fixed : Bool) (o : Order) (s : List Nat) : Tight (contigOf fixed o s) (contigOf fixed o s).size := by
  by_cases hz : 0 ∈ s
  · have hd : Dense (contigOf fixed o s) := by
      refine ⟨by rcases fixed with _ | _ <;> rcases o with _ | _ <;> rfl, Or.inl ?_⟩
      have := shape_contigOf fixed o s
      rw [Layout.shape] at this
      rw [dims, this]
      exact hz
    exact hd.tight fun h => absurd (by rwa [shape_contigOf]) h
  · obtain ⟨h1, h2⟩ := C05_fixed_eq_dynamic s 0 hz
    rcases fixed with _ | _ <;> rcases o with _ | _ <;> simp only [contigOf, h1, h2]
    · exact tight_newC s
    · exact tight_newF s
    · exact tight_newC s
    · exact tight_newF s

theorem constant_of_wf {l : Layout} {n : Nat} {v : α} (h : (⟨List.replicate n v, l⟩ : Tensor α).WF) :
    (⟨List.replicate n v, l⟩ : Tensor α).arr.Constant l.shape v := by
  refine ⟨rfl, fun i hi => ?_⟩
  rw [elem_pos (show Fit l.shape l from h.fit) hi]
  have := h.covers i hi
  simp only [List.length_replicate] at this
  simp [this]

/-- C59: `zeros`, `ones` (and `full`) of a shape are tensors of exactly that shape holding the value everywhere, for
both orders and for shapes of fixed and dynamic rank, empty ones included. -/
theorem C59_shape (fixed : Bool) (o : Order) (shape : List Nat) (v : α) :
    ∃ t, Tensor.const fixed o shape v = .ok t ∧ Tensor.full fixed o shape v = .ok t ∧ t.WF ∧ t.arr.Constant shape v ∧
      t.data.length = shape.prod := by
  have ht := tight_contigOf fixed o shape
  have hw : (⟨List.replicate (contigOf fixed o shape).size v, contigOf fixed o shape⟩ : Tensor α).WF := ht.wf (by simp)
  obtain ⟨mn, hb⟩ := ht.bounds
  refine ⟨_, ?_, rfl, hw, ?_, ?_⟩
  · rw [Tensor.const, Tensor.constLayout, hb]
    simp only [ok_bind, Int.toNat_natCast]
    rfl
  · have := constant_of_wf hw
    rwa [shape_contigOf] at this
  · simp [Layout.size, shape_contigOf]

/-- C59: `zeros` and `ones` of a layout work for every layout, with holes, offsets, negative and zero strides. -/
theorem C59_layout (l : Layout) (hl : l.Valid) (ho : 0 ≤ l.offset) (v : α) :
    ∃ t, Tensor.constLayout l v = .ok t ∧ t.layout = l ∧ t.WF ∧ t.arr.Constant l.shape v := by
  have hg : Good l := Accepted.good (valid_iff.1 hl) ho
  obtain ⟨⟨mn, mx⟩, hb⟩ := boundsIndex_ok_iff.2 (Or.inr (hg.imp id fun h => h.1))
  have hmx : 0 ≤ mx := by
    by_cases hz : 0 ∈ l.shape
    · rw [boundsIndex_of_zero hz] at hb
      cases hb; exact ho
    · have hi := inRange_zeros (shape := l.shape) (fun d hd => Nat.pos_of_ne_zero fun e => hz (e ▸ hd))
      have h1 := boundsIndex_sound hb hi
      have h2 := C22_valid_nonNegative l hl ho _ hi
      change 0 ≤ l.addr _ at h2
      omega
  have hw : (⟨List.replicate mx.toNat v, l⟩ : Tensor α).WF := ⟨ho, newF_ok hl hb (by simp)⟩
  refine ⟨_, ?_, rfl, hw, constant_of_wf hw⟩
  rw [Tensor.constLayout, hb]
  rfl

/-- C59: `zeros_like`, `ones_like`, `full_like`: the shape of the model tensor, the value everywhere. -/
theorem C59_like (dflt : Order) (t : Tensor α) (ht : t.WF) (o : IterOrder) (ho : o = .C ∨ o = .F ∨ o = .A ∨ o = .K) (v : α) :
    ∃ r, Tensor.fullLike dflt t o v = .ok r ∧ r.WF ∧ r.arr.Constant t.arr.shape v := by
  obtain ⟨m, h1, h2, h3, h4⟩ := forArrayCopy_spec dflt ht.fit.valid o ho
  have htm := h3.tight (h2 ▸ h4)
  have hw : (⟨List.replicate m.size v, m⟩ : Tensor α).WF := htm.wf (by simp)
  refine ⟨_, ?_, hw, ?_⟩
  · rw [Tensor.fullLike, h1]; rfl
  · have := constant_of_wf hw
    rwa [h2] at this

/-- C59 for `full` of a layout: only when the layout has as many cells as elements.
Missing: other layouts (see `C59_false_full`). -/
theorem C59_full_layout_partial (l : Layout) (hl : l.Valid) (ho : 0 ≤ l.offset) (v : α)
    (hn : ∀ mn mx, l.boundsIndex = .ok (mn, mx) → mx ≤ l.size) :
    ∃ t, Tensor.fullLayout l v = .ok t ∧ t.layout = l ∧ t.WF ∧ t.arr.Constant l.shape v := by
  have hg : Good l := Accepted.good (valid_iff.1 hl) ho
  obtain ⟨⟨mn, mx⟩, hb⟩ := boundsIndex_ok_iff.2 (Or.inr (hg.imp id fun h => h.1))
  have hw : (⟨List.replicate l.size v, l⟩ : Tensor α).WF := ⟨ho, newF_ok hl hb (by simpa using hn _ _ hb)⟩
  exact ⟨_, rfl, rfl, hw, constant_of_wf hw⟩

/-- `full` of a layout with a hole returns a tensor that addresses a cell outside its storage. -/
theorem C59_false_full (v : α) :
    ∃ l t, l.Valid ∧ 0 ≤ l.offset ∧ Tensor.fullLayout l v = .ok t ∧ ¬ t.WF ∧ InRange [1] t.arr.shape ∧
      t.arr.elem [1] = none := by
  refine ⟨⟨[⟨2, 2⟩], 0⟩, _, rfl, by decide, rfl, ?_, ⟨by decide, trivial⟩, rfl⟩
  intro h
  exact absurd h.2 (by intro e; cases e)

example : ∃ t, Tensor.constLayout (⟨[⟨2, -3⟩, ⟨3, 0⟩], 4⟩ : Layout) (7 : Int) = .ok t ∧ t.WF ∧ t.data.length = 5 :=
  ⟨_, rfl, ⟨by decide, rfl⟩, rfl⟩

/-! ## C60: `eye` -/

theorem eye_core (dflt : Order) (o : Order) (m n : Nat) (k : Int) (zero one : α)
    (hk : k < 0 ∨ (k < m ∧ k ≤ n) ∨ (m ≤ k ∧ n ≤ k)) :
    ∃ diag data, (contigOf true o [m, n]).diagonal (some k) (some 0) (some 1) = .ok diag ∧
      fill dflt (List.replicate (contigOf true o [m, n]).size zero) diag one = .ok data ∧
      (⟨data, contigOf true o [m, n]⟩ : Tensor α).WF ∧ (⟨data, contigOf true o [m, n]⟩ : Tensor α).arr.IsEye m n k zero one := by
  have ht := tight_contigOf true o [m, n]
  have hs := shape_contigOf true o [m, n]
  generalize contigOf true o [m, n] = l at *
  obtain ⟨g, h1, h2, h3⟩ := diag_view ht.valid ht.off hs hk
  have hpos : ∀ q < diagLen m n k, InRange [(q + max 0 (-k)).toNat, (q + max 0 k).toNat] l.shape ∧
      g.pos [q] = l.pos [(q + max 0 (-k)).toNat, (q + max 0 k).toNat] := fun q hq => by
    obtain ⟨a, b⟩ := h3 q hq
    exact ⟨a, by rw [Layout.pos, b]; rfl⟩
  have hout : ∀ i, InRange i [diagLen m n k] ↔ ∃ q < diagLen m n k, i = [q] := by
    intro i
    match i with
    | [] => simp [InRange]
    | [q] => simp [InRange]
    | _ :: _ :: _ => simp [InRange]
  have hcov : Covers [diagLen m n k] g (List.replicate l.size zero) := by
    intro i hi
    obtain ⟨q, hq, rfl⟩ := (hout i).1 hi
    obtain ⟨a, b⟩ := hpos q hq
    rw [b, List.length_replicate]
    exact ht.lt _ a
  obtain ⟨data, f1, f2, f3, f4⟩ := fill1_of dflt h2.valid h2.shape h2.nonneg hcov one
  rw [List.length_replicate] at f2
  refine ⟨g, data, h1, f1, ht.wf f2, hs, ?_⟩
  intro i j hi hj
  have hin : InRange [i, j] l.shape := by rw [hs]; exact ⟨hi, hj, trivial⟩
  rw [elem_pos ht.fit hin]
  split
  · rename_i hd
    obtain ⟨q, hq, e1, e2⟩ : ∃ q < diagLen m n k, (q + max 0 (-k)).toNat = i ∧ (q + max 0 k).toNat = j := by
      unfold diagLen
      split
      · exact ⟨j, by omega, by omega, by omega⟩
      · exact ⟨i, by omega, by omega, by omega⟩
    have := f3 [q] ((hout _).2 ⟨q, hq, rfl⟩)
    rwa [(hpos q hq).2, e1, e2] at this
  · rename_i hd
    rw [f4]
    · rw [List.getElem?_replicate, if_pos (ht.lt _ hin)]
    · intro i' hi' e
      obtain ⟨q, hq, rfl⟩ := (hout i').1 hi'
      obtain ⟨a, b⟩ := hpos q hq
      rw [b] at e
      have := ht.inj _ _ a hin e
      simp only [List.cons.injEq, and_true] at this
      apply hd
      omega

/-- C60, row-major: `eye(m, n, k)` is the `m × n` matrix with ones on the `k`-th diagonal and zeros elsewhere.
Missing: `m ≤ k < n` and `n < k < m`, excluded by `hk` (see `C60_false_beyond`). -/
theorem C60_row_major_partial (dflt : Order) (m n : Nat) (k : Int) (zero one : α)
    (hk : k < 0 ∨ (k < m ∧ k ≤ n) ∨ (m ≤ k ∧ n ≤ k)) :
    ∃ t, Tensor.eye dflt m n k .C zero one = .ok t ∧ t.WF ∧ t.arr.IsEye m n k zero one := by
  obtain ⟨g, data, h1, h2, h3, h4⟩ := eye_core dflt .C m n k zero one hk
  refine ⟨_, ?_, h3, h4⟩
  simp only [contigOf] at h1 h2 ⊢
  simp only [Tensor.eye, h1, ok_bind, h2]
  rfl

/-- C60, column-major: square matrices come out right.
Missing: other matrices (see `C60_false_col_major`). -/
theorem C60_col_major_partial (dflt : Order) (n : Nat) (k : Int) (zero one : α) :
    ∃ t, Tensor.eye dflt n n k .F zero one = .ok t ∧ t.WF ∧ t.arr.IsEye n n k zero one := by
  obtain ⟨g, data, h1, h2, h3, h4⟩ := eye_core dflt .F n n k zero one (by omega)
  refine ⟨_, ?_, h3, h4⟩
  simp only [contigOf] at h1 h2 ⊢
  simp only [Tensor.eye, h1, ok_bind, h2]
  rfl

/-- What column-major `eye(m, n, k)` really returns: the `n × m` matrix with ones on its `k`-th diagonal. -/
theorem C60_col_major_swapped (dflt : Order) (m n : Nat) (k : Int) (zero one : α)
    (hk : k < 0 ∨ (k < n ∧ k ≤ m) ∨ (n ≤ k ∧ m ≤ k)) :
    ∃ t, Tensor.eye dflt m n k .F zero one = .ok t ∧ t.WF ∧ t.arr.IsEye n m k zero one := by
  obtain ⟨g, data, h1, h2, h3, h4⟩ := eye_core dflt .F n m k zero one hk
  refine ⟨_, ?_, h3, h4⟩
  simp only [contigOf] at h1 h2 ⊢
  simp only [Tensor.eye, h1, ok_bind, h2]
  rfl

/-- Column-major `eye(2, 3, 0)` has the shape `[3, 2]`. -/
theorem C60_false_col_major (dflt : Order) (zero one : α) :
    ∃ t, Tensor.eye dflt 2 3 0 .F zero one = .ok t ∧ t.arr.shape = [3, 2] ∧ ¬ t.arr.IsEye 2 3 0 zero one := by
  obtain ⟨t, h1, -, h3⟩ := C60_col_major_swapped dflt 2 3 0 zero one (by omega)
  refine ⟨t, h1, h3.1, fun h => ?_⟩
  have := h3.1.symm.trans h.1
  simp at this

end

/-- Row-major `eye(2, 4, 2)` is all zeros, although its second diagonal has two places; `eye(5, 1, 2)`, whose second
diagonal is empty, panics. -/
theorem C60_false_beyond :
    (∃ t, Tensor.eye .C 2 4 2 .C (0 : Int) 1 = .ok t ∧ t.arr.elem [0, 2] = some 0 ∧ ¬ t.arr.IsEye 2 4 2 0 1) ∧
      Tensor.eye .C 5 1 2 .C (0 : Int) 1 = .error .panic := by
  refine ⟨⟨_, rfl, rfl, fun h => ?_⟩, rfl⟩
  have := h.2 0 2 (by omega) (by omega)
  exact absurd this (by decide)

example : ∃ t, Tensor.eye .C 2 3 1 .C (0 : Int) 1 = .ok t ∧ t.data = [0, 1, 0, 0, 0, 1] := ⟨_, rfl, rfl⟩

end Rstsr
