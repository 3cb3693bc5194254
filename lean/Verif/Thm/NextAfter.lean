import Verif.Model.NextAfter
import Verif.Proof.Scalar
/-!
# C66: the next number in a 16-bit format
-/
namespace Rstsr
open Spec

/-! ## Lemmas -/

theorem magnitude_eq {m a b : Nat} (hb : b < 2 ^ m) :
    magnitude m (2 ^ m * a + b) = if a = 0 then b else (2 ^ m + b) * 2 ^ (a - 1) := by
  have hp : 0 < 2 ^ m := by positivity
  have h1 : (2 ^ m * a + b) / 2 ^ m = a := by
    rw [Nat.mul_add_div hp, Nat.div_eq_of_lt hb, Nat.add_zero]
  have h2 : (2 ^ m * a + b) % 2 ^ m = b := by
    rw [Nat.mul_add_mod, Nat.mod_eq_of_lt hb]
  unfold magnitude
  rw [h1, h2]

theorem magnitude_succ (m n : Nat) : magnitude m n < magnitude m (n + 1) := by
  have hp : 0 < 2 ^ m := by positivity
  have hlt := Nat.mod_lt n hp
  rw [← Nat.div_add_mod n (2 ^ m)]
  generalize n / 2 ^ m = a at *
  generalize n % 2 ^ m = b at *
  by_cases hc : b + 1 < 2 ^ m
  · rw [Nat.add_assoc, magnitude_eq hlt, magnitude_eq hc]
    by_cases h0 : a = 0
    · simp [h0]
    · rw [if_neg h0, if_neg h0]
      exact Nat.mul_lt_mul_of_pos_right (by omega) (by positivity)
  · have h3 : b + 1 = 2 ^ m := by omega
    have h4 : 2 ^ m * a + b + 1 = 2 ^ m * (a + 1) + 0 := by rw [Nat.add_assoc, h3]; ring
    rw [h4, magnitude_eq hlt, magnitude_eq hp, if_neg (by omega : a + 1 ≠ 0)]
    by_cases h0 : a = 0
    · subst h0; simp; omega
    · obtain ⟨c, rfl⟩ : ∃ c, a = c + 1 := ⟨a - 1, by omega⟩
      have h5 : 0 < 2 ^ c := by positivity
      rw [if_neg h0, Nat.add_sub_cancel, Nat.add_sub_cancel, pow_succ, Nat.add_zero]
      nlinarith

theorem magnitude_mono (m : Nat) : StrictMono (magnitude m) := strictMono_nat_of_lt_succ (magnitude_succ m)

theorem magnitude_zero (m : Nat) : magnitude m 0 = 0 := by simp [magnitude]

/-- The place of a word among the words in the order of their numbers. -/
def key16 (w : Nat) : Int := if w < 2 ^ 15 then w else -((w : Int) - 2 ^ 15)

theorem low15 (w : Nat) : w &&& 0x7FFF = w % 2 ^ 15 := Nat.and_two_pow_sub_one_eq_mod w 15

theorem high16 {w : Nat} (h : w < 2 ^ 16) : w &&& 0x8000 = if w < 2 ^ 15 then 0 else 0x8000 := by
  apply Nat.eq_of_testBit_eq
  intro i
  rw [Nat.testBit_and, show (0x8000 : Nat) = 2 ^ 15 from rfl, Nat.testBit_two_pow]
  have h2 : w.testBit 15 = decide (¬ w < 2 ^ 15) := by
    rw [Nat.testBit_eq_decide_div_mod_eq]
    congr 1
    rw [eq_iff_iff]
    omega
  by_cases hi : 15 = i
  · subst hi
    rw [h2]
    split
    · simp_all
    · rw [Nat.testBit_two_pow]; simp_all
  · simp only [hi, decide_false, Bool.and_false]
    split
    · simp
    · rw [Nat.testBit_two_pow]; simp [hi]

theorem signs16 {x y : Nat} (hx : x < 2 ^ 16) (hy : y < 2 ^ 16) :
    (x ^^^ y) &&& 0x8000 ≠ 0 ↔ ¬ (x < 2 ^ 15 ↔ y < 2 ^ 15) := by
  rw [Nat.and_xor_distrib_right, high16 hx, high16 hy]
  by_cases h1 : x < 2 ^ 15 <;> by_cases h2 : y < 2 ^ 15 <;> simp only [h1, h2, if_true, if_false] <;> simp

/-- The magnitude of infinity. -/
theorem inf_mag {m : Nat} (hm : m ≤ 13) : 2 ^ m * (2 ^ (15 - m) - 1) + 2 ^ m = 2 ^ 15 := by
  have h1 : 2 ^ m * 2 ^ (15 - m) = 2 ^ 15 := by rw [← pow_add]; congr 1; omega
  have h2 : 0 < 2 ^ (15 - m) := by positivity
  have h3 : 2 ^ m * (2 ^ (15 - m) - 1) + 2 ^ m = 2 ^ m * 2 ^ (15 - m) := by
    obtain ⟨c, hc⟩ : ∃ c, 2 ^ (15 - m) = c + 1 := ⟨2 ^ (15 - m) - 1, by omega⟩
    rw [hc, Nat.add_sub_cancel]; ring
  rw [h3, h1]

theorem inf_mag_int {m : Nat} (hm : m ≤ 13) : ((2 ^ 15 - 2 ^ m : Nat) : Int) = 2 ^ 15 - 2 ^ m := by
  have hP : 2 ^ m ≤ 2 ^ 13 := Nat.pow_le_pow_right (by norm_num) hm
  rw [Nat.cast_sub (by omega)]
  push_cast; rfl

/-- The number of a word in terms of its key. -/
def key16Val (m : Nat) (k : Int) : WithBot (WithTop ℚ) :=
  if (k.natAbs : Int) = 2 ^ 15 - 2 ^ m then (if k < 0 then ⊥ else ((⊤ : WithTop ℚ) : WithBot (WithTop ℚ)))
  else (((if k < 0 then -1 else 1) * (magnitude m k.natAbs : ℚ) * 2 ^ (2 - (2 : Int) ^ (14 - m) - m) : ℚ) : WithTop ℚ)

theorem decode_key {m : Nat} (hm : m ≤ 13) {w : Nat} (hw : w < 2 ^ 16) :
    (decode16 m w).extended = if (key16 w).natAbs ≤ 2 ^ 15 - 2 ^ m then some (key16Val m (key16 w)) else none := by
  have hI := inf_mag hm
  have hp : 0 < 2 ^ m := by positivity
  have hP : 2 ^ m ≤ 2 ^ 13 := Nat.pow_le_pow_right (by norm_num) hm
  have hn : (key16 w).natAbs = w % 2 ^ 15 := by unfold key16; split <;> omega
  have hneg : (w / 2 ^ 15 % 2 = 1) ↔ ¬ w < 2 ^ 15 := by omega
  have hkneg : key16 w < 0 ↔ ¬ w < 2 ^ 15 ∧ w % 2 ^ 15 ≠ 0 := by unfold key16; split <;> omega
  have hlt : w % 2 ^ 15 < 2 ^ 15 := Nat.mod_lt _ (by norm_num)
  have hdiv := Nat.div_add_mod (w % 2 ^ 15) (2 ^ m)
  have hmod := Nat.mod_lt (w % 2 ^ 15) hp
  unfold decode16 key16Val
  simp only [hn, hneg]
  generalize w % 2 ^ 15 = n at *
  have d1 : w < 2 ^ 15 → decide (¬ w < 2 ^ 15) = false := fun h => decide_eq_false (not_not.2 h)
  have d2 : ¬ w < 2 ^ 15 → decide (¬ w < 2 ^ 15) = true := fun h => decide_eq_true h
  by_cases h1 : n / 2 ^ m = 2 ^ (15 - m) - 1
  · rw [if_pos h1]
    rw [h1] at hdiv
    by_cases h2 : n % 2 ^ m = 0
    · have h3 : n = 2 ^ 15 - 2 ^ m := by omega
      have h4 : ((n : Nat) : Int) = 2 ^ 15 - 2 ^ m := by rw [h3]; exact inf_mag_int hm
      rw [if_pos h2, if_pos (by omega), if_pos h4]
      by_cases h5 : w < 2 ^ 15
      · rw [if_neg (by rw [hkneg]; exact fun h => h.1 h5), d1 h5]; rfl
      · rw [if_pos (by rw [hkneg]; exact ⟨h5, by omega⟩), d2 h5]; rfl
    · rw [if_neg h2, if_neg (by omega)]; rfl
  · have hA : n / 2 ^ m < 2 ^ (15 - m) - 1 := by
      have h2 : n / 2 ^ m < 2 ^ (15 - m) := by
        rw [Nat.div_lt_iff_lt_mul hp, ← pow_add]
        have : 15 - m + m = 15 := by omega
        rw [this]; exact hlt
      omega
    have h3 : n < 2 ^ 15 - 2 ^ m := by
      have := Nat.mul_le_mul_left (2 ^ m) hA
      rw [Nat.mul_succ] at this
      omega
    have h4 : ¬ ((n : Nat) : Int) = 2 ^ 15 - 2 ^ m := by
      intro h
      have : ((n : Nat) : Int) = ((2 ^ 15 - 2 ^ m : Nat) : Int) := h.trans (inf_mag_int hm).symm
      omega
    rw [if_neg h1, if_pos h3.le, if_neg h4]
    by_cases h0 : n = 0
    · subst h0
      by_cases h5 : w < 2 ^ 15
      · rw [d1 h5]; simp [Flt.extended, magnitude_zero]
      · rw [d2 h5]; simp [Flt.extended, magnitude_zero]
    · by_cases h5 : w < 2 ^ 15
      · have h6 : ¬ key16 w < 0 := by rw [hkneg]; exact fun h => h.1 h5
        rw [d1 h5, if_neg (by simp)]
        simp [Flt.extended, h6]
      · have h6 : key16 w < 0 := by rw [hkneg]; exact ⟨h5, h0⟩
        rw [d2 h5, if_neg (by simp [h0])]
        simp [Flt.extended, h6]

theorem key16Val_mono {m : Nat} (hm : m ≤ 13) {j k : Int} (hj : j.natAbs ≤ 2 ^ 15 - 2 ^ m) (hk : k.natAbs ≤ 2 ^ 15 - 2 ^ m)
    (h : j < k) : key16Val m j < key16Val m k := by
  have hP : 2 ^ m ≤ 2 ^ 13 := Nat.pow_le_pow_right (by norm_num) hm
  have hc : ((2 ^ 15 - 2 ^ m : Nat) : Int) = 2 ^ 15 - 2 ^ m := inf_mag_int hm
  have hu : (0 : ℚ) < (2 : ℚ) ^ (2 - (2 : Int) ^ (14 - m) - m) := zpow_pos (by norm_num) _
  unfold key16Val
  rw [← hc]
  generalize (2 : ℚ) ^ (2 - (2 : Int) ^ (14 - m) - m) = u at *
  clear hc
  generalize 2 ^ 15 - 2 ^ m = I at *
  by_cases h1 : (j.natAbs : Int) = I
  · rw [if_pos h1]
    by_cases h2 : j < 0
    · rw [if_pos h2]
      by_cases h3 : (k.natAbs : Int) = I
      · rw [if_pos h3, if_neg (by omega)]; exact WithBot.bot_lt_coe _
      · rw [if_neg h3]; exact WithBot.bot_lt_coe _
    · exfalso; omega
  · rw [if_neg h1]
    by_cases h3 : (k.natAbs : Int) = I
    · have h4 : ¬ k < 0 := by omega
      rw [if_pos h3, if_neg h4]
      exact WithBot.coe_lt_coe.2 (WithTop.coe_lt_top _)
    · rw [if_neg h3]
      refine WithBot.coe_lt_coe.2 (WithTop.coe_lt_coe.2 ?_)
      refine mul_lt_mul_of_pos_right ?_ hu
      have hz := magnitude_zero m
      by_cases h4 : j < 0 <;> by_cases h5 : k < 0
      · have : magnitude m k.natAbs < magnitude m j.natAbs := magnitude_mono m (by omega)
        have : (magnitude m k.natAbs : ℚ) < magnitude m j.natAbs := by exact_mod_cast this
        simp only [h4, h5, if_true]; linarith
      · have : magnitude m 0 < magnitude m j.natAbs := magnitude_mono m (by omega)
        have : (0 : ℚ) < magnitude m j.natAbs := by rw [hz] at this; exact_mod_cast this
        have : (0 : ℚ) ≤ magnitude m k.natAbs := Nat.cast_nonneg _
        simp only [h4, h5, if_true, if_false]; linarith
      · exfalso; omega
      · have : magnitude m j.natAbs < magnitude m k.natAbs := magnitude_mono m (by omega)
        have : (magnitude m j.natAbs : ℚ) < magnitude m k.natAbs := by exact_mod_cast this
        simp only [h4, h5, if_false]; linarith

theorem key16Val_lt {m : Nat} (hm : m ≤ 13) {j k : Int} (hj : j.natAbs ≤ 2 ^ 15 - 2 ^ m) (hk : k.natAbs ≤ 2 ^ 15 - 2 ^ m) :
    key16Val m j < key16Val m k ↔ j < k := by
  refine ⟨fun h => ?_, key16Val_mono hm hj hk⟩
  rcases lt_trichotomy j k with h1 | h1 | h1
  · exact h1
  · rw [h1] at h; exact absurd h (lt_irrefl _)
  · exact absurd (h.trans (key16Val_mono hm hk hj h1)) (lt_irrefl _)

theorem isNan16_iff {m : Nat} (hm : m ≤ 13) {w : Nat} (hw : w < 2 ^ 16) :
    isNan16 m w = true ↔ (decode16 m w).extended = none := by
  have hn : (key16 w).natAbs = w % 2 ^ 15 := by unfold key16; split <;> omega
  rw [decode_key hm hw, hn, isNan16, low15, decide_eq_true_eq]
  split <;> simp <;> omega

/-- The key of the result. -/
theorem nextafter_key {m x y : Nat} (hm : m ≤ 13) (hx : x < 2 ^ 16) (hy : y < 2 ^ 16) (nx : isNan16 m x = false)
    (ny : isNan16 m y = false) :
    nextafter16 m x y < 2 ^ 16 ∧
      key16 (nextafter16 m x y) = if key16 x < key16 y then key16 x + 1 else if key16 y < key16 x then key16 x - 1 else key16 y := by
  unfold nextafter16
  rw [nx, ny]
  simp only [Bool.false_eq_true, if_false, low15, signs16 hx hy]
  by_cases h1 : x = y
  · subst h1; simp; omega
  rw [if_neg h1]
  by_cases h2 : x % 2 ^ 15 = 0
  · rw [if_pos h2]
    by_cases h3 : y % 2 ^ 15 = 0
    · rw [if_pos h3]
      refine ⟨hy, ?_⟩
      unfold key16; split <;> split <;> (try split) <;> (try split) <;> omega
    · rw [if_neg h3, high16 hy]
      by_cases h4 : y < 2 ^ 15
      · rw [if_pos h4]
        refine ⟨by decide, ?_⟩
        have : key16 (0 ||| 1) = 1 := by decide
        rw [this]
        unfold key16; split <;> split <;> (try split) <;> (try split) <;> omega
      · rw [if_neg h4]
        refine ⟨by decide, ?_⟩
        have : key16 (0x8000 ||| 1) = -1 := by decide
        rw [this]
        unfold key16; split <;> split <;> (try split) <;> (try split) <;> omega
  · rw [if_neg h2]
    rw [isNan16, low15, decide_eq_false_iff_not] at nx ny
    have hp : 0 < 2 ^ m := by positivity
    split
    · refine ⟨by omega, ?_⟩
      unfold key16; split <;> split <;> (try split) <;> (try split) <;> omega
    · refine ⟨by omega, ?_⟩
      unfold key16; split <;> split <;> (try split) <;> (try split) <;> omega

/-! ## The property -/

/-- **C66.** `nextafter(x, y)` for `f16` (`m = 10`) and `bf16` (`m = 7`): if `x` is below `y`, the result is the least number of the
format above `x`; if `x` is above `y`, the greatest number below `x`; if they are equal, the result is `y`. The numbers of the format
include the infinities. -/
theorem C66_nextafter {m : Nat} (hm : m = 10 ∨ m = 7) {x y : Nat} (hx : x < 2 ^ 16) (hy : y < 2 ^ 16)
    {u v : WithBot (WithTop ℚ)} (hu : (decode16 m x).extended = some u) (hv : (decode16 m y).extended = some v) :
    nextafter16 m x y < 2 ^ 16 ∧ ∃ r, (decode16 m (nextafter16 m x y)).extended = some r ∧
      (u < v → u < r ∧ ∀ z < 2 ^ 16, ∀ t, (decode16 m z).extended = some t → u < t → r ≤ t) ∧
      (v < u → r < u ∧ ∀ z < 2 ^ 16, ∀ t, (decode16 m z).extended = some t → t < u → t ≤ r) ∧
      (u = v → nextafter16 m x y = y) := by
  have hm' : m ≤ 13 := by omega
  have nx : isNan16 m x = false := by
    rw [← Bool.not_eq_true, isNan16_iff hm' hx, hu]; simp
  have ny : isNan16 m y = false := by
    rw [← Bool.not_eq_true, isNan16_iff hm' hy, hv]; simp
  obtain ⟨hlt, hkey⟩ := nextafter_key hm' hx hy nx ny
  have hval : ∀ w < 2 ^ 16, ∀ t, (decode16 m w).extended = some t → (key16 w).natAbs ≤ 2 ^ 15 - 2 ^ m ∧ t = key16Val m (key16 w) := by
    intro w hw t ht
    rw [decode_key hm' hw] at ht
    split at ht
    · rename_i h; exact ⟨h, by simpa using ht.symm⟩
    · cases ht
  obtain ⟨bx, rfl⟩ := hval x hx u hu
  obtain ⟨by', rfl⟩ := hval y hy v hv
  have br : (key16 (nextafter16 m x y)).natAbs ≤ 2 ^ 15 - 2 ^ m := by
    rw [hkey]; split
    · omega
    · split <;> omega
  refine ⟨hlt, key16Val m (key16 (nextafter16 m x y)), ?_, fun h => ⟨?_, fun z hz t ht hzt => ?_⟩,
    fun h => ⟨?_, fun z hz t ht hzt => ?_⟩, fun h => ?_⟩
  · rw [decode_key hm' hlt, if_pos br]
  · rw [key16Val_lt hm' bx by'] at h
    rw [key16Val_lt hm' bx br, hkey, if_pos h]; omega
  · rw [key16Val_lt hm' bx by'] at h
    obtain ⟨bz, rfl⟩ := hval z hz t ht
    rw [key16Val_lt hm' bx bz] at hzt
    rw [← not_lt, key16Val_lt hm' bz br, hkey, if_pos h]; omega
  · rw [key16Val_lt hm' by' bx] at h
    rw [key16Val_lt hm' br bx, hkey, if_neg (by omega), if_pos h]; omega
  · rw [key16Val_lt hm' by' bx] at h
    obtain ⟨bz, rfl⟩ := hval z hz t ht
    rw [key16Val_lt hm' bz bx] at hzt
    rw [← not_lt, key16Val_lt hm' br bz, hkey, if_neg (by omega), if_pos h]; omega
  · have hk : key16 x = key16 y := by
      rcases lt_trichotomy (key16 x) (key16 y) with h1 | h1 | h1
      · have := (key16Val_lt hm' bx by').2 h1; rw [h] at this; exact absurd this (lt_irrefl _)
      · exact h1
      · have := (key16Val_lt hm' by' bx).2 h1; rw [h] at this; exact absurd this (lt_irrefl _)
    unfold nextafter16
    rw [nx, ny]
    simp only [Bool.false_eq_true, if_false, low15]
    by_cases h1 : x = y
    · rw [if_pos h1]
    · have h2 : x % 2 ^ 15 = 0 ∧ y % 2 ^ 15 = 0 := by
        unfold key16 at hk; split at hk <;> split at hk <;> omega
      rw [if_neg h1, if_pos h2.1, if_pos h2.2]

/-- **C66.** If one of the two is not a number, the result is not a number. -/
theorem C66_nan {m : Nat} (hm : m = 10 ∨ m = 7) {x y : Nat} (hx : x < 2 ^ 16) (hy : y < 2 ^ 16)
    (h : (decode16 m x).extended = none ∨ (decode16 m y).extended = none) :
    (decode16 m (nextafter16 m x y)).extended = none := by
  have hm' : m ≤ 13 := by omega
  unfold nextafter16
  split
  · rename_i h1; exact (isNan16_iff hm' hx).1 h1
  · rename_i h1
    have h2 := h.resolve_left (fun h => h1 ((isNan16_iff hm' hx).2 h))
    rw [if_pos ((isNan16_iff hm' hy).2 h2)]; exact h2

/-! ## The hypotheses are met -/

/-- 1 in `f16` is `0x3C00`; the next number towards 2 is 1 + 2^-10, the one towards 0 is 1 - 2^-11. -/
example : nextafter16 10 0x3C00 0x4000 = 0x3C01 ∧ decode16 10 0x3C00 = .num 1 ∧ decode16 10 0x4000 = .num 2 ∧
    decode16 10 0x3C01 = .num (1 + 1 / 1024) ∧ decode16 10 (nextafter16 10 0x3C00 0) = .num (1 - 1 / 2048) := by decide +kernel

/-- Through zero, to infinity and from infinity. -/
example : nextafter16 7 0x8001 0x3F80 = 0x8000 ∧ nextafter16 7 0x8000 0x3F80 = 1 ∧ nextafter16 10 0x7BFF 0x7C00 = 0x7C00 ∧
    decode16 10 0x7C00 = .inf false ∧ nextafter16 10 0x7C00 0 = 0x7BFF ∧ decode16 10 0x7BFF = .num 65504 ∧
    decode16 7 1 = .num (1 / 2 ^ 133) := by decide +kernel

end Rstsr
