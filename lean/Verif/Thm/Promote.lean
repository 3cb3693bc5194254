import Verif.Proof.Scalar
/-!
# C63: the common type of two element types
-/
namespace Rstsr
open Spec

/-! ## Lemmas -/

theorem kind_format (t : DType) {p e : Nat} (h : t.kind = .float p e ∨ t.kind = .complex p e) : 1 ≤ p ∧ p ≤ e := by
  cases t <;> simp [DType.kind] at h <;> obtain ⟨rfl, rfl⟩ := h <;> decide

/-- The conversion loses nothing: the kinds fit and no 64-bit integer is rounded. -/
def Lossless (a r : DType) (v : Value) : Prop :=
  ¬ (a.kind.wide = true ∧ r.kind.floating = true) ∨ ∃ n : Int, v = .int n ∧ |n| ≤ 2 ^ 53

theorem abs_le_of_uint {m p : Nat} {n : Int} (h0 : 0 ≤ n) (h1 : n < 2 ^ m) (h : m ≤ p) : |n| ≤ 2 ^ p := by
  rw [abs_of_nonneg h0]
  exact h1.le.trans (pow_le_pow_right₀ (by norm_num) h)

theorem abs_le_of_int {m p : Nat} {n : Int} (h0 : -2 ^ (m - 1) ≤ n) (h1 : n < 2 ^ (m - 1)) (h : m ≤ p + 1) :
    |n| ≤ 2 ^ p := by
  have : (2 : Int) ^ (m - 1) ≤ 2 ^ p := pow_le_pow_right₀ (by norm_num) (by omega)
  rw [abs_le]; constructor <;> omega

/-- An integer of type `a` is a number of the float format `(p, e)` that `a` widens to. -/
theorem int_representable {a : DType} {n : Int} (hv : a.Has (.int n)) {p e : Nat} (hw : Widens a.kind (.float p e) = true)
    (hp : 1 ≤ p) (he : p ≤ e) (hx : ¬ a.kind.wide = true ∨ |n| ≤ 2 ^ 53) : Representable p e n := by
  refine representable_int ?_ hp he
  unfold DType.Has at hv
  revert hv hw hx
  cases a <;> simp only [DType.kind, Kind.Has, Widens, Kind.wide] <;> intro hv hw hx <;>
    simp at hv hw hx
  all_goals first
    | exact abs_le_of_uint hv.1 (m := 8) (by simpa using hv.2) (by omega)
    | exact abs_le_of_uint hv.1 (m := 16) (by simpa using hv.2) (by omega)
    | exact abs_le_of_uint hv.1 (m := 32) (by simpa using hv.2) (by omega)
    | exact abs_le_of_int (m := 8) (by simpa using hv.1) (by simpa using hv.2) (by omega)
    | exact abs_le_of_int (m := 16) (by simpa using hv.1) (by simpa using hv.2) (by omega)
    | exact abs_le_of_int (m := 32) (by simpa using hv.1) (by simpa using hv.2) (by omega)
    | exact hx.trans (by
        have : 53 ≤ p := by omega
        simpa using pow_le_pow_right₀ (by norm_num : (1 : Int) ≤ 2) this)

theorem pow_le_pow_int {m n : Nat} (h : m ≤ n) : (2 : Int) ^ m ≤ 2 ^ n := pow_le_pow_right₀ (by norm_num) h

theorem wrap_uint {b : Nat} {n : Int} (h0 : 0 ≤ n) (h1 : n < 2 ^ b) : wrapInt (.uint b) n = n :=
  Int.emod_eq_of_lt h0 h1

theorem wrap_int {b : Nat} {n : Int} (hb : 1 ≤ b) (h0 : -2 ^ (b - 1) ≤ n) (h1 : n < 2 ^ (b - 1)) :
    wrapInt (.int b) n = n := by
  have h : (2 : Int) ^ b = 2 ^ (b - 1) + 2 ^ (b - 1) := by
    obtain ⟨c, rfl⟩ : ∃ c, b = c + 1 := ⟨b - 1, by omega⟩
    rw [Nat.add_sub_cancel, pow_succ]; ring
  simp only [wrapInt]
  rw [Int.emod_eq_of_lt (by omega) (by omega)]; omega

theorem kind_int_bits (t : DType) {b : Nat} (h : t.kind = .int b) : 1 ≤ b := by
  cases t <;> simp [DType.kind] at h <;> subst h <;> decide

theorem int_fits {a : DType} {n : Int} (hv : a.Has (.int n)) {t : DType} (hw : Widens a.kind t.kind = true) :
    (∀ b, t.kind = .uint b → 0 ≤ n ∧ n < 2 ^ b) ∧ (∀ b, t.kind = .int b → -2 ^ (b - 1) ≤ n ∧ n < 2 ^ (b - 1)) := by
  unfold DType.Has at hv
  refine ⟨fun b hb => ?_, fun b hb => ?_⟩
  · rw [hb] at hw
    cases hk : a.kind with
    | uint m =>
      simp only [hk, Widens, Kind.Has, decide_eq_true_eq] at hw hv
      exact ⟨hv.1, hv.2.trans_le (pow_le_pow_int hw)⟩
    | _ => simp [hk, Widens, Kind.Has] at hw hv
  · rw [hb] at hw
    cases hk : a.kind with
    | uint m =>
      simp only [hk, Widens, Kind.Has, decide_eq_true_eq] at hw hv
      have h1 := pow_le_pow_int (show m ≤ b - 1 by omega)
      have h2 : (0 : Int) < 2 ^ (b - 1) := by positivity
      exact ⟨by omega, by omega⟩
    | int m =>
      simp only [hk, Widens, Kind.Has, decide_eq_true_eq] at hw hv
      have h1 := pow_le_pow_int (show m - 1 ≤ b - 1 by omega)
      exact ⟨by omega, by omega⟩
    | _ => simp [hk, Widens, Kind.Has] at hw hv

theorem convert_exact {p e p' e' : Nat} {x : Flt} (hx : x.Fits p e) (hp : p ≤ p') (he : e ≤ e') (hpe : p' ≤ e') :
    fltConvert p' e' x = x ∧ x.Fits p' e' := by
  cases x with
  | num q =>
    have h : Representable p' e' q := Representable.widen hx hp he (by omega)
    exact ⟨roundFlt_exact h, h⟩
  | _ => exact ⟨rfl, trivial⟩

/-- `as` between the primitive types keeps the number. -/
theorem castTo_exact {a t : DType} {v : Value} (hv : a.Has v) (hw : Widens a.kind t.kind = true) (hb : a.kind ≠ .bool)
    (ht : ∀ p e, t.kind ≠ .complex p e) (hx : Lossless a t v) :
    t.Has (castTo t v) ∧ (castTo t v).number = v.number := by
  cases v with
  | bool b =>
    exfalso; revert hv hb; unfold DType.Has; cases a.kind <;> simp [Kind.Has]
  | int n =>
    have hf := int_fits hv hw
    cases hk : t.kind with
    | bool => rw [hk] at hw; revert hw hb; cases a.kind <;> simp [Widens]
    | uint b =>
      have h := hf.1 b hk
      have he : castTo t (.int n) = .int n := by simp only [castTo, hk]; rw [wrap_uint h.1 h.2]
      rw [he]; refine ⟨?_, rfl⟩
      unfold DType.Has; rw [hk]; exact h
    | int b =>
      have h := hf.2 b hk
      have he : castTo t (.int n) = .int n := by
        simp only [castTo, hk]; rw [wrap_int (kind_int_bits t hk) h.1 h.2]
      rw [he]; refine ⟨?_, rfl⟩
      unfold DType.Has; rw [hk]; exact h
    | float p e =>
      have hp := kind_format t (.inl hk)
      have hr : Representable p e n := by
        refine int_representable hv (by rw [← hk]; exact hw) hp.1 hp.2 ?_
        rcases hx with hx | ⟨m, hm, hx⟩
        · left; intro hc; exact hx ⟨hc, by rw [hk]; rfl⟩
        · cases hm; exact .inr hx
      have he : castTo t (.int n) = .real (.num n) := by simp only [castTo, hk]; rw [roundFlt_exact hr]
      rw [he]; refine ⟨?_, rfl⟩
      unfold DType.Has; rw [hk]; exact hr
    | complex p e => exact absurd hk (ht p e)
  | real x =>
    cases hka : a.kind with
    | float p e =>
      cases hk : t.kind with
      | float p' e' =>
        rw [hka, hk] at hw
        simp only [Widens, Bool.and_eq_true, decide_eq_true_eq] at hw
        have hx' : x.Fits p e := by unfold DType.Has at hv; rw [hka] at hv; exact hv
        have h := convert_exact hx' hw.1 hw.2 (kind_format t (.inl hk)).2
        have he : castTo t (.real x) = .real x := by simp only [castTo, hk]; rw [h.1]
        rw [he]; refine ⟨?_, rfl⟩
        unfold DType.Has; rw [hk]; exact h.2
      | complex p' e' => exact absurd hk (ht p' e')
      | _ => rw [hka, hk] at hw; simp [Widens] at hw
    | _ => unfold DType.Has at hv; rw [hka] at hv; simp [Kind.Has] at hv
  | complex x y =>
    cases hka : a.kind with
    | complex p e =>
      cases hk : t.kind with
      | complex p' e' => exact absurd hk (ht p' e')
      | _ => rw [hka, hk] at hw; simp [Widens] at hw
    | _ => unfold DType.Has at hv; rw [hka] at hv; simp [Kind.Has] at hv

theorem part_kind {t : DType} (ht : t = .c32 ∨ t = .c64) :
    ∃ p e, t.kind = .complex p e ∧ (partType t).kind = .float p e := by
  rcases ht with rfl | rfl
  · exact ⟨_, _, rfl, rfl⟩
  · exact ⟨_, _, rfl, rfl⟩

theorem castTo_zero {t : DType} {p e : Nat} (h : t.kind = .float p e) : castTo t (.int 0) = .real (.num 0) := by
  have hp := kind_format t (.inl h)
  simp only [castTo, h]
  have := roundFlt_exact (representable_int (n := 0) (p := p) (e := e) (by simp) hp.1 hp.2)
  simpa using this

theorem castTo_float {t : DType} {p e : Nat} (h : t.kind = .float p e) {v : Value} (hv : ∀ b, v ≠ .bool b)
    (hc : ∀ x y, v ≠ .complex x y) : ∃ x, castTo t v = .real x := by
  cases v with
  | bool b => exact absurd rfl (hv b)
  | int n => exact ⟨roundFlt p e n, by simp only [castTo, h]⟩
  | real x => exact ⟨fltConvert p e x, by simp only [castTo, h]⟩
  | complex x y => exact absurd rfl (hc x y)

/-- A real number as a complex number. -/
theorem realToComplex_exact {a t : DType} {v : Value} (hv : a.Has v) (hw : Widens a.kind t.kind = true)
    (hb : a.kind ≠ .bool) (hc : ∀ p e, a.kind ≠ .complex p e) (ht : t = .c32 ∨ t = .c64) (hx : Lossless a t v) :
    t.Has (realToComplex t v) ∧ (realToComplex t v).number = v.number := by
  obtain ⟨p, e, hk, hkp⟩ := part_kind ht
  have hw' : Widens a.kind (partType t).kind = true := by
    rw [hkp]; rw [hk] at hw
    revert hw hc
    cases a.kind <;> simp [Widens]
  have hx' : Lossless a (partType t) v := by
    rcases hx with hx | hx
    · left; rintro ⟨h1, _⟩; exact hx ⟨h1, by rw [hk]; rfl⟩
    · exact .inr hx
  have h := castTo_exact hv hw' hb (by rw [hkp]; intro _ _ h; cases h) hx'
  obtain ⟨x, hxe⟩ : ∃ x, castTo (partType t) v = .real x := by
    refine castTo_float hkp ?_ ?_
    · rintro b rfl; revert hv hb; unfold DType.Has; cases a.kind <;> simp [Kind.Has]
    · rintro x y rfl
      unfold DType.Has at hv
      cases hka : a.kind with
      | complex p e => exact hc p e hka
      | _ => rw [hka] at hv; simp [Kind.Has] at hv
  have he : realToComplex t v = .complex x (.num 0) := by
    unfold realToComplex newComplex
    rw [hxe, castTo_zero hkp]
  rw [hxe] at h
  rw [he]
  refine ⟨?_, h.2⟩
  have h1 := h.1
  unfold DType.Has at h1 ⊢
  rw [hkp] at h1; rw [hk]
  have hp := kind_format t (.inr hk)
  have h0 := representable_int (n := 0) (p := p) (e := e) (by simp) hp.1 hp.2
  exact ⟨h1, show Representable p e 0 by simpa using h0⟩

/-- A complex number as a wider one. -/
theorem complexToComplex_exact {a t : DType} {v : Value} (hv : a.Has v) (hw : Widens a.kind t.kind = true)
    (ha : a = .c32 ∨ a = .c64) (ht : t = .c32 ∨ t = .c64) : t.Has (complexToComplex t v) ∧ complexToComplex t v = v := by
  obtain ⟨p, e, hka, _⟩ := part_kind ha
  obtain ⟨p', e', hk, hkp⟩ := part_kind ht
  unfold DType.Has at hv ⊢
  rw [hka] at hv hw; rw [hk] at hw ⊢
  simp only [Widens, Bool.and_eq_true, decide_eq_true_eq] at hw
  have hp := kind_format t (.inr hk)
  cases v with
  | complex x y =>
    have h1 := convert_exact hv.1 hw.1 hw.2 hp.2
    have h2 := convert_exact hv.2 hw.1 hw.2 hp.2
    have he : complexToComplex t (.complex x y) = .complex x y := by
      simp only [complexToComplex, newComplex, castTo, hkp]
      rw [h1.1, h2.1]
    rw [he]
    exact ⟨⟨h1.2, h2.2⟩, rfl⟩
  | _ => simp [Kind.Has] at hv

theorem boolTo_exact {t : DType} {v : Value} (hv : DType.bool.Has v) :
    t.Has (boolTo t v) ∧ (boolTo t v).number = v.number := by
  cases v with
  | bool b =>
    have hn : ∀ {p e : Nat}, 1 ≤ p → p ≤ e → ∀ b : Bool, Representable p e (if b then 1 else 0) := by
      intro p e hp he b
      have h1 : (1 : Int) ≤ 2 ^ p := one_le_pow₀ (by norm_num)
      cases b
      · simpa using representable_int (n := 0) (by simp) hp he
      · simpa using representable_int (n := 1) (by simpa using h1) hp he
    have h0 : ∀ {p e : Nat}, 1 ≤ p → p ≤ e → Representable p e 0 := fun hp he => by
      simpa using hn hp he false
    unfold DType.Has
    cases hk : t.kind with
    | bool => simp only [boolTo, hk]; exact ⟨trivial, trivial⟩
    | uint m =>
      simp only [boolTo, hk]
      refine ⟨?_, by cases b <;> rfl⟩
      have : 1 < (2 : Int) ^ m := by cases t <;> simp [DType.kind] at hk <;> subst hk <;> norm_num
      cases b <;> simp [Kind.Has] <;> omega
    | int m =>
      simp only [boolTo, hk]
      refine ⟨?_, by cases b <;> rfl⟩
      have : 1 < (2 : Int) ^ (m - 1) := by cases t <;> simp [DType.kind] at hk <;> subst hk <;> norm_num
      cases b <;> simp [Kind.Has] <;> omega
    | float p e =>
      have hp := kind_format t (.inl hk)
      simp only [boolTo, hk]
      exact ⟨hn hp.1 hp.2 b, rfl⟩
    | complex p e =>
      have hp := kind_format t (.inr hk)
      simp only [boolTo, hk]
      exact ⟨⟨hn hp.1 hp.2 b, h0 hp.1 hp.2⟩, rfl⟩
  | _ => simp [DType.Has, DType.kind, Kind.Has] at hv

/-! ## The tables -/

/-- What is checked of every line of the tables. -/
def Row.ok (r : Row) : Bool :=
  Widens r.lhs.kind r.res.kind && Widens r.rhs.kind r.res.kind

def isComplex (t : DType) : Bool := t == .c32 || t == .c64

theorem isComplex_iff {t : DType} : isComplex t = true ↔ t = .c32 ∨ t = .c64 := by simp [isComplex]

theorem not_complex {t : DType} (h : isComplex t = false) : ∀ p e, t.kind ≠ .complex p e := by
  cases t <;> simp [isComplex, DType.kind] at h ⊢

theorem lookup_mem {rows : List Row} {a b : DType} {r : Row} (h : lookup rows a b = some r) :
    r ∈ rows ∧ r.lhs = a ∧ r.rhs = b := by
  have h1 := List.mem_of_find?_eq_some h
  have h2 := List.find?_some h
  simp only [Bool.and_eq_true, beq_iff_eq] at h2
  exact ⟨h1, h2⟩

theorem asable_ok : ∀ r ∈ asable, r.ok = true ∧ r.lhs.kind ≠ .bool ∧ r.rhs.kind ≠ .bool ∧ isComplex r.res = false := by
  decide +kernel

theorem complexPrimitive_ok : ∀ r ∈ complexPrimitive, r.ok = true ∧ isComplex r.lhs = true ∧ r.rhs.kind ≠ .bool ∧
    isComplex r.rhs = false ∧ isComplex r.res = true := by
  decide +kernel

theorem primitiveComplex_ok : ∀ r ∈ primitiveComplex, r.ok = true ∧ isComplex r.rhs = true ∧ r.lhs.kind ≠ .bool ∧
    isComplex r.lhs = false ∧ isComplex r.res = true := by
  decide +kernel

theorem complexComplex_ok : ∀ r ∈ complexComplex, r.ok = true ∧ isComplex r.lhs = true ∧ isComplex r.rhs = true ∧
    isComplex r.res = true := by
  decide +kernel

/-- A conversion of the promotion rules. -/
def KeepsNumber (a r : DType) (f : Value → Value) : Prop :=
  ∀ v, a.Has v → Lossless a r v → r.Has (f v) ∧ (f v).number = v.number

theorem keeps_id (a : DType) : KeepsNumber a a id := fun _ hv _ => ⟨hv, rfl⟩

theorem keeps_complex {a r : DType} (ha : isComplex a = true) (hr : isComplex r = true)
    (hw : Widens a.kind r.kind = true) : KeepsNumber a r (complexToComplex r) := fun v hv _ => by
  have := complexToComplex_exact hv hw (isComplex_iff.1 ha) (isComplex_iff.1 hr)
  exact ⟨this.1, by rw [this.2]⟩

theorem keeps_if {a r : DType} {c : Prop} [Decidable c] (hc : c → a = r) (ha : isComplex a = true) (hr : isComplex r = true)
    (hw : Widens a.kind r.kind = true) : KeepsNumber a r (if c then id else complexToComplex r) := by
  by_cases h : c
  · rw [if_pos h, hc h]; exact keeps_id r
  · rw [if_neg h]; exact keeps_complex ha hr hw

/-- Both conversions of a rule keep the number. -/
theorem promotion_keeps {a b : DType} {p : Promotion} (h : promotion a b = some p) :
    KeepsNumber a p.res p.self ∧ KeepsNumber b p.res p.other := by
  unfold promotion at h
  split at h
  · rename_i hab; subst hab; cases h; exact ⟨keeps_id a, keeps_id a⟩
  split at h
  · rename_i ha; subst ha; cases h; exact ⟨fun v hv _ => boolTo_exact hv, keeps_id b⟩
  split at h
  · rename_i hb; subst hb; cases h; exact ⟨keeps_id a, fun v hv _ => boolTo_exact hv⟩
  split at h
  · rename_i r hr
    obtain ⟨hm, rfl, rfl⟩ := lookup_mem hr
    obtain ⟨hok, h1, h2, h3⟩ := asable_ok r hm
    simp only [Row.ok, Bool.and_eq_true] at hok
    cases h
    exact ⟨fun v hv hx => castTo_exact hv hok.1 h1 (not_complex h3) hx,
      fun v hv hx => castTo_exact hv hok.2 h2 (not_complex h3) hx⟩
  split at h
  · rename_i r hr
    obtain ⟨hm, rfl, rfl⟩ := lookup_mem hr
    obtain ⟨hok, h1, h2, h3, h4⟩ := complexPrimitive_ok r hm
    simp only [Row.ok, Bool.and_eq_true] at hok
    cases h
    exact ⟨keeps_if id h1 h4 hok.1,
      fun v hv hx => realToComplex_exact hv hok.2 h2 (not_complex h3) (isComplex_iff.1 h4) hx⟩
  split at h
  · rename_i r hr
    obtain ⟨hm, rfl, rfl⟩ := lookup_mem hr
    obtain ⟨hok, h1, h2, h3, h4⟩ := primitiveComplex_ok r hm
    simp only [Row.ok, Bool.and_eq_true] at hok
    cases h
    exact ⟨fun v hv hx => realToComplex_exact hv hok.1 h2 (not_complex h3) (isComplex_iff.1 h4) hx,
      keeps_if And.left h1 h4 hok.2⟩
  split at h
  · rename_i r hr
    obtain ⟨hm, rfl, rfl⟩ := lookup_mem hr
    obtain ⟨hok, h1, h2, h4⟩ := complexComplex_ok r hm
    simp only [Row.ok, Bool.and_eq_true] at hok
    cases h
    exact ⟨keeps_if id h1 h4 hok.1, keeps_if id h2 h4 hok.2⟩
  · cases h

theorem has_bool {a : DType} {b : Bool} (hv : a.Has (.bool b)) : a.kind = .bool := by
  revert hv; unfold DType.Has; cases a.kind <;> simp [Kind.Has]

theorem has_int {a : DType} {n : Int} (hv : a.Has (.int n)) : ∃ b, a.kind = .uint b ∨ a.kind = .int b := by
  revert hv; unfold DType.Has; cases a.kind <;> simp [Kind.Has]

theorem has_real {a : DType} {x : Flt} (hv : a.Has (.real x)) : ∃ p e, a.kind = .float p e ∧ x.Fits p e := by
  revert hv; unfold DType.Has; cases hk : a.kind <;> simp [Kind.Has]

theorem has_complex {a : DType} {x y : Flt} (hv : a.Has (.complex x y)) : ∃ p e, a.kind = .complex p e := by
  revert hv; unfold DType.Has; cases hk : a.kind <;> simp [Kind.Has]

/-- A conversion to a float type rounds the number. -/
def Rounds (a r : DType) (f : Value → Value) : Prop :=
  ∀ P E, r.kind = .float P E → ∀ v, a.Has v → f v = .real (fltConvert P E v.number.1)

theorem rounds_id (a : DType) : Rounds a a id := fun P E hk v hv => by
  unfold DType.Has at hv; rw [hk] at hv
  cases v with
  | real x => exact congrArg Value.real (convert_exact hv le_rfl le_rfl (kind_format a (.inl hk)).2).1.symm
  | _ => simp [Kind.Has] at hv

theorem rounds_bool (r : DType) : Rounds .bool r (boolTo r) := fun P E hk v hv => by
  have h := boolTo_exact (t := r) hv
  cases v with
  | bool b =>
    have he : boolTo r (.bool b) = .real (.num (if b then 1 else 0)) := by simp only [boolTo, hk]
    rw [he] at h ⊢
    have h1 := h.1
    unfold DType.Has at h1; rw [hk] at h1
    exact congrArg Value.real (convert_exact (x := .num (if b then 1 else 0)) h1 le_rfl le_rfl (kind_format r (.inl hk)).2).1.symm
  | _ => simp [DType.Has, DType.kind, Kind.Has] at hv

theorem rounds_cast {a r : DType} (hb : a.kind ≠ .bool) (hw : Widens a.kind r.kind = true) : Rounds a r (castTo r) :=
  fun P E hk v hv => by
    cases v with
    | bool b => exact absurd (has_bool hv) hb
    | int n => simp only [castTo, hk]; rfl
    | real x => simp only [castTo, hk]; rfl
    | complex x y =>
      obtain ⟨p, e, h⟩ := has_complex hv
      rw [h, hk] at hw; simp [Widens] at hw

theorem rounds_complex {a r : DType} (h : isComplex r = true) (f : Value → Value) : Rounds a r f := fun P E hk => by
  rcases isComplex_iff.1 h with rfl | rfl <;> simp [DType.kind] at hk

theorem promotion_rounds {a b : DType} {p : Promotion} (h : promotion a b = some p) :
    Rounds a p.res p.self ∧ Rounds b p.res p.other := by
  unfold promotion at h
  split at h
  · rename_i hab; subst hab; cases h; exact ⟨rounds_id a, rounds_id a⟩
  split at h
  · rename_i ha; subst ha; cases h; exact ⟨rounds_bool b, rounds_id b⟩
  split at h
  · rename_i hb; subst hb; cases h; exact ⟨rounds_id a, rounds_bool a⟩
  split at h
  · rename_i r hr
    obtain ⟨hm, rfl, rfl⟩ := lookup_mem hr
    obtain ⟨hok, h1, h2, h3⟩ := asable_ok r hm
    simp only [Row.ok, Bool.and_eq_true] at hok
    cases h
    exact ⟨rounds_cast h1 hok.1, rounds_cast h2 hok.2⟩
  split at h
  · rename_i r hr
    have h4 := (complexPrimitive_ok r (lookup_mem hr).1).2.2.2.2
    cases h
    exact ⟨rounds_complex h4 _, rounds_complex h4 _⟩
  split at h
  · rename_i r hr
    have h4 := (primitiveComplex_ok r (lookup_mem hr).1).2.2.2.2
    cases h
    exact ⟨rounds_complex h4 _, rounds_complex h4 _⟩
  split at h
  · rename_i r hr
    have h4 := (complexComplex_ok r (lookup_mem hr).1).2.2.2
    cases h
    exact ⟨rounds_complex h4 _, rounds_complex h4 _⟩
  · cases h

/-- All the types. -/
def allTypes : List DType :=
  [.bool, .u8, .u16, .u32, .u64, .usize, .i8, .i16, .i32, .i64, .isize, .f16, .bf16, .f32, .f64, .c32, .c64]

theorem mem_allTypes (t : DType) : t ∈ allTypes := by cases t <;> decide

/-- A check over all the types holds of each. -/
theorem forall_types {P : DType → Bool} (h : allTypes.all P = true) (t : DType) : P t = true :=
  List.all_eq_true.1 h t (mem_allTypes t)

/-! ## Theorems -/

/-- **C63.** The common type is the first type that holds the values of both: integers are preferred to floats and
floats to complex numbers, and narrow types to wide ones. -/
theorem C63_common_type {a b : DType} {p : Promotion} (h : promotion a b = some p) : IsCommonType a b p.res := by
  have hc : (allTypes.all fun a => allTypes.all fun b => match promotion a b with
      | some p => Widens a.kind p.res.kind && Widens b.kind p.res.kind && allTypes.all fun c =>
          !(Widens a.kind c.kind && Widens b.kind c.kind) || rankLe p.res.kind.rank c.kind.rank
      | none => true) = true := by decide +kernel
  have := forall_types (forall_types hc a) b
  rw [h] at this
  simp only [Bool.and_eq_true] at this
  refine ⟨this.1.1, this.1.2, fun c h1 h2 => ?_⟩
  have hcc := forall_types this.2 c
  simpa [h1, h2] using hcc

/-- **C63.** The order of the operands does not matter: whenever both orders have a rule, the common type is the same and
each operand is converted in the same way. Both orders have a rule unless the types are `i8` and `i16`. -/
theorem C63_order_partial {a b : DType} {p : Promotion} (h : promotion a b = some p) (hne : ¬ (a = .i16 ∧ b = .i8)) :
    ∃ p', promotion b a = some p' ∧ p'.res = p.res ∧ p'.canCastSelf = p.canCastOther ∧
      p'.canCastOther = p.canCastSelf ∧ (∀ v, a.Has v → p'.other v = p.self v) ∧ ∀ w, b.Has w → p'.self w = p.other w := by
  cases a <;> cases b <;> first
    | (exfalso; exact hne ⟨rfl, rfl⟩)
    | exact absurd (show (none : Option Promotion) = some p from h) (by simp)
    | (obtain rfl := Option.some.inj h
       exact ⟨_, rfl, rfl, rfl, rfl, fun _ _ => rfl, fun _ _ => rfl⟩)
    | (obtain rfl := Option.some.inj h
       exact ⟨_, rfl, rfl, rfl, rfl, fun _ _ => rfl, fun w hw =>
        ((complexToComplex_exact hw (by decide) (by decide) (by decide)).2).symm⟩)
    | (obtain rfl := Option.some.inj h
       exact ⟨_, rfl, rfl, rfl, rfl, fun v hv =>
        ((complexToComplex_exact hv (by decide) (by decide) (by decide)).2), fun _ _ => rfl⟩)

/-- **C63.** Converting to the common type keeps the number, for every value of every type, except that a 64-bit integer
of more than 53 binary digits that meets a float is rounded. -/
theorem C63_value {a b : DType} {p : Promotion} (h : promotion a b = some p) {v w : Value} (hv : a.Has v) (hw : b.Has w)
    (hx : ¬ (a.kind.wide = true ∧ p.res.kind.floating = true) ∨ ∃ n : Int, v = .int n ∧ |n| ≤ 2 ^ 53)
    (hy : ¬ (b.kind.wide = true ∧ p.res.kind.floating = true) ∨ ∃ n : Int, w = .int n ∧ |n| ≤ 2 ^ 53) :
    p.res.Has (p.self v) ∧ p.res.Has (p.other w) ∧ (p.self v).number = v.number ∧ (p.other w).number = w.number := by
  have hk := promotion_keeps h
  have h1 := hk.1 v hv hx
  have h2 := hk.2 w hw hy
  exact ⟨h1.1, h2.1, h1.2, h2.2⟩

theorem roundTo_int_bound {n : Int} (h : |n| ≤ 2 ^ 64) : |roundTo 53 1023 n| ≤ 2 ^ 64 := by
  have hr : Representable 53 1023 ((2 : ℚ) ^ 64) := ⟨2 ^ 52, 12, by norm_num, by norm_num, by norm_num, by norm_num⟩
  have h1 : (n : ℚ) ≤ 2 ^ 64 := by exact_mod_cast (le_abs_self n).trans h
  have h2 : -(2 : ℚ) ^ 64 ≤ n := by exact_mod_cast (abs_le.1 h).1
  have a1 := roundTo_mono (p := 53) (e := 1023) (by norm_num) h1
  have a2 := roundTo_mono (p := 53) (e := 1023) (by norm_num) h2
  rw [roundTo_exact hr] at a1
  rw [roundTo_neg, roundTo_exact hr] at a2
  exact abs_le.2 ⟨a2, a1⟩

/-- A 64-bit integer becomes the nearest double. -/
theorem roundFlt_int {n : Int} (h : |n| ≤ 2 ^ 64) : roundFlt 53 1023 n = .num (roundTo 53 1023 n) := by
  have hb := roundTo_int_bound h
  unfold roundFlt
  rw [if_neg, if_neg]
  · rintro ⟨h0, hn⟩
    have hn' : n ≤ -1 := by have : n < 0 := by exact_mod_cast hn
                            omega
    have hq : (n : ℚ) ≤ -1 := by exact_mod_cast hn'
    have := roundTo_mono (p := 53) (e := 1023) (by norm_num) hq
    have h1 : Representable 53 1023 (1 : ℚ) := by
      have := representable_int (n := 1) (p := 53) (e := 1023) (by norm_num) (by norm_num) (by norm_num)
      simpa using this
    rw [roundTo_neg, roundTo_exact h1, h0] at this
    linarith
  · rw [not_le]
    refine lt_of_le_of_lt hb (pow_lt_pow_right₀ (by norm_num) (by norm_num))

theorem int_bound {a : DType} {n : Int} (hv : a.Has (.int n)) : |n| ≤ 2 ^ 64 := by
  unfold DType.Has at hv
  revert hv
  cases a <;> simp only [DType.kind, Kind.Has, false_imp_iff] <;> intro hv <;> rw [abs_le] <;> norm_num at hv ⊢ <;>
    constructor <;> omega

/-- **C63.** The exceptional case: a 64-bit integer that meets a float becomes the nearest double. -/
theorem C63_rounded {a b : DType} {p : Promotion} (h : promotion a b = some p) {n : Int} (hv : a.Has (.int n))
    (hr : p.res = .f64) : ∃ r : ℚ, p.self (.int n) = .real (.num r) ∧ Representable 53 1023 r ∧
      ∀ s, Representable 53 1023 s → |r - n| ≤ |s - n| := by
  have h1 := (promotion_rounds h).1 53 1023 (by rw [hr]; rfl) _ hv
  have h2 : fltConvert 53 1023 (Value.int n).number.1 = roundFlt 53 1023 n := rfl
  rw [h2, roundFlt_int (int_bound hv)] at h1
  refine ⟨_, h1, roundTo_representable (by norm_num) (by norm_num) ?_, fun s hs => roundTo_nearest (by norm_num) _ hs⟩
  exact lt_of_le_of_lt (roundTo_int_bound (int_bound hv)) (pow_lt_pow_right₀ (by norm_num) (by norm_num))

theorem real_res {a b : DType} {p : Promotion} (h : promotion a b = some p) (ha : isComplex a = false)
    (hb : isComplex b = false) : isComplex p.res = false := by
  have hc : (allTypes.all fun a => allTypes.all fun b => match promotion a b with
      | some p => isComplex a || isComplex b || !isComplex p.res
      | none => true) = true := by decide +kernel
  have := forall_types (forall_types hc a) b
  rw [h] at this
  simpa [ha, hb] using this

theorem no_float_lossless {a r : DType} {v : Value} (h : r.kind.floating = false) : Lossless a r v := by
  left; rintro ⟨_, h2⟩; rw [h] at h2; cases h2

/-- Comparing two elements of a real type compares their numbers. -/
theorem valLt_iff {t : DType} (ht : isComplex t = false) {v w : Value} (hv : t.Has v) (hw : t.Has w) :
    valLt v w = true ↔ v.Less w := by
  have hc : ∀ q r : ℚ, ((q : WithTop ℚ) : WithBot (WithTop ℚ)) < ((r : WithTop ℚ) : WithBot (WithTop ℚ)) ↔ q < r :=
    fun q r => WithBot.coe_lt_coe.trans WithTop.coe_lt_coe
  cases v with
  | bool x =>
    cases w with
    | bool y =>
      simp only [Value.Less, Value.number, Flt.extended, Option.some.injEq, exists_eq_left', hc]
      cases x <;> cases y <;> simp [valLt]
    | _ => exfalso; revert hw; rw [DType.Has, has_bool hv]; simp [Kind.Has]
  | int x =>
    obtain ⟨b, hk⟩ := has_int hv
    cases w with
    | int y =>
      simp only [Value.Less, Value.number, Flt.extended, Option.some.injEq, exists_eq_left', hc]
      simp [valLt]
    | _ => exfalso; revert hw; rcases hk with hk | hk <;> rw [DType.Has, hk] <;> simp [Kind.Has]
  | real x =>
    obtain ⟨p, e, hk, _⟩ := has_real hv
    cases w with
    | real y => exact fltLt_iff x y
    | _ => exfalso; revert hw; rw [DType.Has, hk]; simp [Kind.Has]
  | complex x y => obtain ⟨p, e, hk⟩ := has_complex hv; exact absurd hk (not_complex ht p e)

theorem valEq_iff {t : DType} (ht : isComplex t = false) {v w : Value} (hv : t.Has v) (hw : t.Has w) :
    valEq v w = true ↔ v.Same w := by
  have hc : ∀ q r : ℚ, ((q : WithTop ℚ) : WithBot (WithTop ℚ)) = ((r : WithTop ℚ) : WithBot (WithTop ℚ)) ↔ q = r :=
    fun q r => WithBot.coe_inj.trans WithTop.coe_inj
  cases v with
  | bool x =>
    cases w with
    | bool y =>
      simp only [Value.Same, Value.number, Flt.extended, Option.some.injEq, exists_eq_left', hc]
      cases x <;> cases y <;> simp [valEq]
    | _ => exfalso; revert hw; rw [DType.Has, has_bool hv]; simp [Kind.Has]
  | int x =>
    obtain ⟨b, hk⟩ := has_int hv
    cases w with
    | int y =>
      simp only [Value.Same, Value.number, Flt.extended, Option.some.injEq, exists_eq_left', hc]
      simp [valEq, @eq_comm Int y]
    | _ => exfalso; revert hw; rcases hk with hk | hk <;> rw [DType.Has, hk] <;> simp [Kind.Has]
  | real x =>
    obtain ⟨p, e, hk, _⟩ := has_real hv
    cases w with
    | real y => exact fltEq_iff x y
    | _ => exfalso; revert hw; rw [DType.Has, hk]; simp [Kind.Has]
  | complex x y => obtain ⟨p, e, hk⟩ := has_complex hv; exact absurd hk (not_complex ht p e)

/-- **C63.** `less` between real types decides by the numbers themselves, unless a 64-bit integer of more than 53 binary
digits meets a float. -/
theorem C63_less {a b : DType} {p : Promotion} (h : promotion a b = some p) (ha : a ≠ .c32 ∧ a ≠ .c64)
    (hb : b ≠ .c32 ∧ b ≠ .c64) {v w : Value} (hv : a.Has v) (hw : b.Has w)
    (hx : ¬ (a.kind.wide = true ∧ p.res.kind.floating = true) ∨ ∃ n : Int, v = .int n ∧ |n| ≤ 2 ^ 53)
    (hy : ¬ (b.kind.wide = true ∧ p.res.kind.floating = true) ∨ ∃ n : Int, w = .int n ∧ |n| ≤ 2 ^ 53) :
    ∃ r, lessElem a b v w = some r ∧ (r = true ↔ v.Less w) := by
  have hk := C63_value h hv hw hx hy
  have hc := real_res h (by simpa [isComplex] using ha) (by simpa [isComplex] using hb)
  refine ⟨_, by rw [lessElem, h]; rfl, ?_⟩
  rw [valLt_iff hc hk.1 hk.2.1]
  unfold Value.Less
  rw [hk.2.2.1, hk.2.2.2]

/-- **C63.** `equal` between real types decides by the numbers themselves, with the same exception. -/
theorem C63_equal {a b : DType} {p : Promotion} (h : promotion a b = some p) (ha : a ≠ .c32 ∧ a ≠ .c64)
    (hb : b ≠ .c32 ∧ b ≠ .c64) {v w : Value} (hv : a.Has v) (hw : b.Has w)
    (hx : ¬ (a.kind.wide = true ∧ p.res.kind.floating = true) ∨ ∃ n : Int, v = .int n ∧ |n| ≤ 2 ^ 53)
    (hy : ¬ (b.kind.wide = true ∧ p.res.kind.floating = true) ∨ ∃ n : Int, w = .int n ∧ |n| ≤ 2 ^ 53) :
    ∃ r, equalElem a b v w = some r ∧ (r = true ↔ v.Same w) := by
  have hk := C63_value h hv hw hx hy
  have hc := real_res h (by simpa [isComplex] using ha) (by simpa [isComplex] using hb)
  refine ⟨_, by rw [equalElem, h]; rfl, ?_⟩
  rw [valEq_iff hc hk.1 hk.2.1]
  unfold Value.Same
  rw [hk.2.2.1, hk.2.2.2]

/-- **C63.** Even in the exceptional case the order is never reversed: `less` says yes only if the first number is less, and
equal numbers always compare equal. -/
theorem C63_compare_partial {a b : DType} {p : Promotion} (h : promotion a b = some p) (ha : a ≠ .c32 ∧ a ≠ .c64)
    (hb : b ≠ .c32 ∧ b ≠ .c64) {v w : Value} (hv : a.Has v) (hw : b.Has w) :
    (lessElem a b v w = some true → v.Less w) ∧ (v.Same w → equalElem a b v w = some true) := by
  have hc := real_res h (by simpa [isComplex] using ha) (by simpa [isComplex] using hb)
  by_cases hf : p.res.kind.floating = true
  · obtain ⟨P, E, hk⟩ : ∃ P E, p.res.kind = .float P E := by
      cases hk : p.res.kind with
      | float P E => exact ⟨P, E, rfl⟩
      | complex P E => exact absurd hk (not_complex hc P E)
      | _ => rw [hk] at hf; simp [Kind.floating] at hf
    have hP := kind_format p.res (.inl hk)
    have h1 := (promotion_rounds h).1 P E hk v hv
    have h2 := (promotion_rounds h).2 P E hk w hw
    constructor
    · intro hl
      rw [lessElem, h, Option.map_some, Option.some.injEq, h1, h2] at hl
      obtain ⟨u, u', hu, hu', hlt⟩ := (fltLt_iff _ _).1 hl
      cases hx : v.number.1.extended with
      | none =>
        exfalso; revert hx hu
        cases v.number.1 <;> simp [Flt.extended, fltConvert]
        rename_i s; cases s <;> simp
      | some x =>
        cases hy : w.number.1.extended with
        | none =>
          exfalso; revert hy hu'
          cases w.number.1 <;> simp [Flt.extended, fltConvert]
          rename_i s; cases s <;> simp
        | some y =>
          refine ⟨x, y, hx, hy, ?_⟩
          by_contra hcon
          obtain ⟨c, d, hc', hd, hle⟩ := convert_mono hP.1 hP.2 hy hx (not_lt.1 hcon)
          rw [hc'] at hu'; rw [hd] at hu
          cases hu; cases hu'
          exact absurd hlt (not_lt.2 hle)
    · rintro ⟨x, hx, hy⟩
      obtain ⟨c, d, hc', hd, hle⟩ := convert_mono hP.1 hP.2 hx hy le_rfl
      obtain ⟨c2, d2, hc2, hd2, hle2⟩ := convert_mono hP.1 hP.2 hy hx le_rfl
      rw [hc'] at hd2; rw [hd] at hc2
      cases hc2; cases hd2
      rw [equalElem, h, Option.map_some, Option.some.injEq, h1, h2]
      exact (fltEq_iff _ _).2 ⟨_, hc', by rw [hd, le_antisymm hle2 hle]⟩
  · have hx : ∀ {a : DType} {v : Value}, Lossless a p.res v := no_float_lossless (by simpa using hf)
    obtain ⟨r, hr, hri⟩ := C63_less h ha hb hv hw hx hx
    obtain ⟨s, hs, hsi⟩ := C63_equal h ha hb hv hw hx hx
    exact ⟨fun hl => hri.1 (by rw [hr] at hl; exact Option.some.inj hl), fun hm => by rw [hs, hsi.2 hm]⟩

/-! ## Where it fails -/

/-- There is no rule for an `i8` and an `i16` in this order, although there is one in the other order and both types are
held by `i16`: the line that would give it (`promotion.rs:231`) is part of a comment. -/
theorem C63_false_missing : promotion .i8 .i16 = none ∧ castRule .i8 .i16 = none ∧
    (∃ p, promotion .i16 .i8 = some p ∧ p.res = .i16) ∧ IsCommonType .i8 .i16 .i16 := by
  refine ⟨rfl, rfl, ⟨_, rfl, rfl⟩, rfl, rfl, fun c => ?_⟩
  cases c <;> decide

/-- There is no rule for a `usize` and an `isize`, although there is one for a `u64` and an `i64`. -/
theorem C63_false_index_types : promotion .usize .isize = none ∧ promotion .isize .usize = none ∧
    ∃ p, promotion .u64 .i64 = some p ∧ p.res = .f64 :=
  ⟨rfl, rfl, _, rfl, rfl⟩

theorem round_2_53_1 : roundFlt 53 1023 ((2 ^ 53 + 1 : Int) : ℚ) = .num (2 ^ 53) := by
  rw [roundFlt_int (by norm_num)]
  have hlog : Int.log 2 |((2 ^ 53 + 1 : Int) : ℚ)| = 53 := by
    have h1 : |((2 ^ 53 + 1 : Int) : ℚ)| = ((2 ^ 53 + 1 : Nat) : ℚ) := by norm_num
    rw [h1, Int.log_natCast, Nat.log_eq_of_pow_le_of_lt_pow (m := 53) (by norm_num) (by norm_num)]
    rfl
  have hu : ulpExp 53 1023 ((2 ^ 53 + 1 : Int) : ℚ) = 1 := by unfold ulpExp; rw [hlog]; norm_num
  have hr : roundHalfEven (((2 ^ 53 + 1 : Int) : ℚ) / 2 ^ (1 : Int)) = 2 ^ 52 := by
    have : ((2 ^ 53 + 1 : Int) : ℚ) / 2 ^ (1 : Int) = 2 ^ 52 + 1 / 2 := by norm_num
    rw [this]
    have hfl : ⌊(2 : ℚ) ^ 52 + 1 / 2⌋ = 2 ^ 52 := by rw [Int.floor_eq_iff]; norm_num
    unfold roundHalfEven
    rw [hfl]
    norm_num
  unfold roundTo
  rw [if_neg (by norm_num), hu, hr]
  norm_num

/-- `equal` says that the `u64` 9007199254740993 and the `i64` 9007199254740992 are the same number: both become the double
9007199254740992. -/
theorem C63_false_equal : equalElem .u64 .i64 (.int (2 ^ 53 + 1)) (.int (2 ^ 53)) = some true ∧
    ¬ (Value.int (2 ^ 53 + 1)).Same (.int (2 ^ 53)) := by
  constructor
  · have h1 : castTo .f64 (.int (2 ^ 53 + 1)) = .real (.num (2 ^ 53)) := congrArg Value.real round_2_53_1
    have h2 : castTo .f64 (.int (2 ^ 53)) = .real (.num (2 ^ 53)) := by
      have := roundFlt_exact (representable_int (n := 2 ^ 53) (p := 53) (e := 1023) (by norm_num) (by norm_num) (by norm_num))
      refine congrArg Value.real (this.trans ?_)
      norm_num
    have h3 : equalElem .u64 .i64 (.int (2 ^ 53 + 1)) (.int (2 ^ 53)) =
        some (valEq (castTo .f64 (.int (2 ^ 53 + 1))) (castTo .f64 (.int (2 ^ 53)))) := rfl
    rw [h3, h1, h2]
    simp [valEq, fltEq]
  · rintro ⟨x, h1, h2⟩
    simp only [Value.number, Flt.extended, Option.some.injEq] at h1 h2
    rw [← h2] at h1
    have := WithTop.coe_inj.1 (WithBot.coe_inj.1 h1)
    norm_num at this

/-! ## Cases -/

/-- A `u16` and an `i16` meet in an `i32`, which holds 65535 and -32768. -/
example : ∃ p, promotion .u16 .i16 = some p ∧ p.res = .i32 ∧ p.self (.int 65535) = .int 65535 ∧
    p.other (.int (-32768)) = .int (-32768) :=
  ⟨_, rfl, rfl, by decide, by decide⟩

/-- The hypotheses of `C63_value`, `C63_less` and `C63_equal` are met by an `i64` of 53 digits and a `f32`. -/
example : ∃ p, promotion .i64 .f32 = some p ∧ DType.i64.Has (.int (-2 ^ 53)) ∧ DType.f32.Has (.real (.num (3 / 4))) ∧
    (∃ n : Int, Value.int (-2 ^ 53) = .int n ∧ |n| ≤ 2 ^ 53) ∧ ¬ (DType.f32.kind.wide = true ∧ p.res.kind.floating = true) :=
  ⟨_, rfl, ⟨by decide, by decide⟩, ⟨3, -2, by norm_num, by norm_num, by norm_num, by norm_num⟩,
    ⟨_, rfl, by norm_num⟩, by rintro ⟨h, _⟩; cases h⟩

/-- Those of `C63_rounded` by the largest `u64` and an `i8`. -/
example : ∃ p, promotion .u64 .i8 = some p ∧ DType.u64.Has (.int (2 ^ 64 - 1)) ∧ p.res = .f64 :=
  ⟨_, rfl, ⟨by decide, by decide⟩, rfl⟩

end Rstsr
