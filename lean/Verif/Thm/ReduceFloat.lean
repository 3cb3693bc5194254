import Verif.Thm.Reduce
import Verif.Thm.ElemFns
/-!
# Minimum and maximum of floating-point tensors (C80)

The elements are floating-point numbers of a format with precision `p` and greatest exponent `e`.
-/
namespace Rstsr
open Spec

/-- The order in which what is not a number comes last. -/
def keyMin (x : Flt) : WithTop (WithBot (WithTop ℚ)) := x.extended

/-- The order of the maximum, in which what is not a number comes last as well. -/
def keyMax (x : Flt) : WithTop ((WithBot (WithTop ℚ))ᵒᵈ) := x.extended.map OrderDual.toDual

theorem keyMin_min (x y : Flt) : keyMin (fltMin x y) = min (keyMin x) (keyMin y) := by
  obtain ⟨h1, h2, h3⟩ := flt_min x y
  simp only [Value.number, extMin] at h1 h2 h3
  cases hx : x.extended with
  | none =>
    have hx' : keyMin x = ⊤ := hx
    rw [hx', min_eq_right le_top]
    exact congrArg Flt.extended (congrArg Prod.fst (h2 hx))
  | some a =>
    cases hy : y.extended with
    | none =>
      have hy' : keyMin y = ⊤ := hy
      rw [hy', min_eq_left le_top]
      exact congrArg Flt.extended (congrArg Prod.fst (h3 hy (by rw [hx]; simp)))
    | some b =>
      have hx' : keyMin x = (a : WithTop (WithBot (WithTop ℚ))) := hx
      have hy' : keyMin y = (b : WithTop (WithBot (WithTop ℚ))) := hy
      rw [hx', hy', ← WithTop.coe_min]
      exact h1 a b hx hy

theorem keyMax_max (x y : Flt) : keyMax (fltMax x y) = min (keyMax x) (keyMax y) := by
  obtain ⟨h1, h2, h3⟩ := flt_max x y
  simp only [Value.number, extMax] at h1 h2 h3
  cases hx : x.extended with
  | none =>
    have hx' : keyMax x = ⊤ := by unfold keyMax; rw [hx]; rfl
    rw [hx', min_eq_right le_top]
    have := congrArg Flt.extended (congrArg Prod.fst (h2 hx))
    unfold keyMax
    rw [this]
  | some a =>
    cases hy : y.extended with
    | none =>
      have hy' : keyMax y = ⊤ := by unfold keyMax; rw [hy]; rfl
      rw [hy', min_eq_left le_top]
      have := congrArg Flt.extended (congrArg Prod.fst (h3 hy (by rw [hx]; simp)))
      unfold keyMax
      rw [this]
    | some b =>
      have hx' : keyMax x = WithTop.some (OrderDual.toDual a) := by unfold keyMax; rw [hx]; rfl
      have hy' : keyMax y = WithTop.some (OrderDual.toDual b) := by unfold keyMax; rw [hy]; rfl
      rw [hx', hy', ← WithTop.coe_min]
      unfold keyMax
      rw [h1 a b hx hy]
      rfl

theorem min_start (p e : Nat) (dflt : Order) (par : Option Scheduler) (hp : Device par) (t : Tensor Flt) (h : t.WF)
    (hf : ∃ x ∈ t.arr.elements, ∃ q, x.extended = some q ∧ q ≤ ((fltGreatest p e : WithTop ℚ) : WithBot (WithTop ℚ))) :
    ∃ y u, t.minAll dflt par (.num (fltGreatest p e)) fltMin = .ok y ∧ y.extended = some u ∧ (∃ x ∈ t.arr.elements, x.extended = some u) ∧
      ∀ x ∈ t.arr.elements, ∀ v, x.extended = some v → u ≤ v := by
  obtain ⟨y, y1, y2⟩ := reduce_minKey keyMin fltMin keyMin_min dflt par hp h (.num (fltGreatest p e))
  obtain ⟨f1, f2, f3⟩ := foldl_min (t.arr.elements.map keyMin) (keyMin (.num (fltGreatest p e)))
  rw [← y2] at f1 f2 f3
  obtain ⟨x0, hx0, q, hq, hle⟩ := hf
  have hne : t.arr.elements ≠ [] := List.ne_nil_of_mem hx0
  cases hy : y.extended with
  | none =>
    have hy' : keyMin y = ⊤ := hy
    rw [hy'] at f2
    exact absurd (top_le_iff.1 f2) (WithTop.coe_ne_top (a := ((fltGreatest p e : WithTop ℚ) : WithBot (WithTop ℚ))))
  | some u =>
    have hy' : keyMin y = (u : WithTop (WithBot (WithTop ℚ))) := hy
    have f3 : ∀ x ∈ t.arr.elements, ∀ v, x.extended = some v → u ≤ v := fun x hx v hv => by
      have := f3 _ (List.mem_map.2 ⟨x, hx, rfl⟩)
      rw [hy', show keyMin x = (v : WithTop (WithBot (WithTop ℚ))) from hv] at this
      exact WithTop.coe_le_coe.1 this
    refine ⟨y, u, ?_, hy, ?_, f3⟩
    · unfold Tensor.minAll
      rw [if_neg ((elements_ne h).2 hne), y1]
    · rcases f1 with f1 | f1
      · have e1 : u = ((fltGreatest p e : WithTop ℚ) : WithBot (WithTop ℚ)) := by
          rw [hy'] at f1
          exact WithTop.coe_inj.1 f1
        have := f3 x0 hx0 q hq
        rw [e1] at this ⊢
        exact ⟨x0, hx0, by rw [hq, le_antisymm hle this]⟩
      · obtain ⟨x, hx, he⟩ := List.mem_map.1 f1
        exact ⟨x, hx, he.trans hy'⟩

theorem max_start (p e : Nat) (dflt : Order) (par : Option Scheduler) (hp : Device par) (t : Tensor Flt) (h : t.WF)
    (hf : ∃ x ∈ t.arr.elements, ∃ q, x.extended = some q ∧ ((-fltGreatest p e : ℚ) : WithBot (WithTop ℚ)) ≤ q) :
    ∃ y u, t.maxAll dflt par (.num (-fltGreatest p e)) fltMax = .ok y ∧ y.extended = some u ∧ (∃ x ∈ t.arr.elements, x.extended = some u) ∧
      ∀ x ∈ t.arr.elements, ∀ v, x.extended = some v → v ≤ u := by
  obtain ⟨y, y1, y2⟩ := reduce_minKey keyMax fltMax keyMax_max dflt par hp h (.num (-fltGreatest p e))
  obtain ⟨f1, f2, f3⟩ := foldl_min (t.arr.elements.map keyMax) (keyMax (.num (-fltGreatest p e)))
  rw [← y2] at f1 f2 f3
  obtain ⟨x0, hx0, q, hq, hle⟩ := hf
  have hne : t.arr.elements ≠ [] := List.ne_nil_of_mem hx0
  have hk : ∀ x v, Flt.extended x = some v → keyMax x = WithTop.some (OrderDual.toDual v) := fun x v hv => by
    unfold keyMax; rw [hv]; rfl
  have hk' : ∀ x v, keyMax x = WithTop.some (OrderDual.toDual v) → Flt.extended x = some v := fun x v hv => by
    unfold keyMax at hv
    cases hx : x.extended with
    | none => rw [hx] at hv; cases hv
    | some w => rw [hx] at hv; exact congrArg some (WithTop.coe_inj.1 hv)
  cases hy : y.extended with
  | none =>
    have hy' : keyMax y = ⊤ := by unfold keyMax; rw [hy]; rfl
    rw [hy'] at f2
    exact absurd (top_le_iff.1 f2) (WithTop.coe_ne_top (a := OrderDual.toDual ((-fltGreatest p e : ℚ) : WithBot (WithTop ℚ))))
  | some u =>
    have hy' := hk y u hy
    have f3 : ∀ x ∈ t.arr.elements, ∀ v, x.extended = some v → v ≤ u := fun x hx v hv => by
      have := f3 _ (List.mem_map.2 ⟨x, hx, rfl⟩)
      rw [hy', hk x v hv] at this
      exact OrderDual.toDual_le_toDual.1 (WithTop.coe_le_coe.1 this)
    refine ⟨y, u, ?_, hy, ?_, f3⟩
    · unfold Tensor.maxAll
      rw [if_neg ((elements_ne h).2 hne), y1]
    · rcases f1 with f1 | f1
      · have e1 : u = ((-fltGreatest p e : ℚ) : WithBot (WithTop ℚ)) := by
          rw [hy'] at f1
          exact OrderDual.toDual.injective (WithTop.coe_inj.1 f1)
        have := f3 x0 hx0 q hq
        rw [e1] at this ⊢
        exact ⟨x0, hx0, by rw [hq, le_antisymm this hle]⟩
      · obtain ⟨x, hx, he⟩ := List.mem_map.1 f1
        exact ⟨x, hx, hk' x u (he.trans hy')⟩

/-- No number of the format is beyond the start values. -/
theorem fits_greatest {p e : Nat} {x : Flt} (hx : x.Fits p e) :
    (∀ q, x.extended = some q → q ≠ ((⊤ : WithTop ℚ) : WithBot (WithTop ℚ)) → q ≤ ((fltGreatest p e : WithTop ℚ) : WithBot (WithTop ℚ))) ∧
    (∀ q, x.extended = some q → q ≠ ⊥ → ((-fltGreatest p e : ℚ) : WithBot (WithTop ℚ)) ≤ q) := by
  have h0 : (0 : ℚ) ≤ fltGreatest p e := by
    unfold fltGreatest
    have : (1 : ℚ) ≤ 2 ^ p := one_le_pow₀ (by norm_num)
    have h2 : (0 : ℚ) < 2 ^ ((e : Int) + 1 - p) := zpow_pos (by norm_num) _
    exact mul_nonneg (by linarith) h2.le
  have key : ∀ q : ℚ, Representable p e q → |q| ≤ fltGreatest p e := by
    rintro q ⟨m, k, hm, -, hk, rfl⟩
    unfold fltGreatest
    rw [abs_mul, abs_of_pos (zpow_pos (by norm_num) _ : (0 : ℚ) < 2 ^ k)]
    have h1 : |(m : ℚ)| ≤ 2 ^ p - 1 := by
      have : |m| ≤ 2 ^ p - 1 := by omega
      exact_mod_cast this
    exact mul_le_mul h1 (zpow_le_zpow_right₀ (by norm_num) hk) (zpow_pos (by norm_num) _).le (le_trans (abs_nonneg _) h1)
  have up : ∀ {a b : ℚ}, a ≤ b → ((a : WithTop ℚ) : WithBot (WithTop ℚ)) ≤ ((b : WithTop ℚ) : WithBot (WithTop ℚ)) := fun h =>
    WithBot.coe_le_coe.2 (WithTop.coe_le_coe.2 h)
  match x, hx with
  | .nan _, _ => exact ⟨fun q h => (by cases h), fun q h => (by cases h)⟩
  | .inf true, _ => exact ⟨fun q h _ => (by cases h; exact bot_le), fun q h hb => (by cases h; exact absurd rfl hb)⟩
  | .inf false, _ => exact ⟨fun q h ht => (by cases h; exact absurd rfl ht), fun q h _ => (by cases h; exact WithBot.coe_le_coe.2 le_top)⟩
  | .negZero, _ => exact ⟨fun q h _ => (by cases h; exact up h0), fun q h _ => (by cases h; exact up (by linarith))⟩
  | .num r, hr =>
    have := abs_le.1 (key r hr)
    exact ⟨fun q h _ => (by cases h; exact up this.2), fun q h _ => (by cases h; exact up this.1)⟩

/-- C80: the minimum of a tensor with an element below plus infinity is the number of an element, and no element is below it; what is not a number does not
count. -/
theorem C80_min_partial (p e : Nat) (dflt : Order) (par : Option Scheduler) (hp : Device par) (t : Tensor Flt) (h : t.WF)
    (hfit : ∀ x ∈ t.arr.elements, x.Fits p e)
    (hf : ∃ x ∈ t.arr.elements, ∃ q, x.extended = some q ∧ q ≠ ((⊤ : WithTop ℚ) : WithBot (WithTop ℚ))) :
    ∃ y u, t.minAll dflt par (.num (fltGreatest p e)) fltMin = .ok y ∧ y.extended = some u ∧ (∃ x ∈ t.arr.elements, x.extended = some u) ∧
      ∀ x ∈ t.arr.elements, ∀ v, x.extended = some v → u ≤ v := by
  obtain ⟨x, hx, q, h1, h2⟩ := hf
  exact min_start p e dflt par hp t h ⟨x, hx, q, h1, (fits_greatest (hfit x hx)).1 q h1 h2⟩

/-- C80: the maximum of a tensor with an element above minus infinity. -/
theorem C80_max_partial (p e : Nat) (dflt : Order) (par : Option Scheduler) (hp : Device par) (t : Tensor Flt) (h : t.WF)
    (hfit : ∀ x ∈ t.arr.elements, x.Fits p e) (hf : ∃ x ∈ t.arr.elements, ∃ q, x.extended = some q ∧ q ≠ ⊥) :
    ∃ y u, t.maxAll dflt par (.num (-fltGreatest p e)) fltMax = .ok y ∧ y.extended = some u ∧ (∃ x ∈ t.arr.elements, x.extended = some u) ∧
      ∀ x ∈ t.arr.elements, ∀ v, x.extended = some v → v ≤ u := by
  obtain ⟨x, hx, q, h1, h2⟩ := hf
  exact max_start p e dflt par hp t h ⟨x, hx, q, h1, (fits_greatest (hfit x hx)).2 q h1 h2⟩

/-- A tensor without elements has neither. -/
theorem C80_empty (dflt : Order) (par : Option Scheduler) (t : Tensor Flt) (h : t.WF) (he : t.arr.elements = []) (x : Flt) :
    t.minAll dflt par x fltMin = .error .invalidValue ∧ t.maxAll dflt par x fltMax = .error .invalidValue := by
  have h0 : t.layout.size = 0 := by by_contra hn; exact (elements_ne h).1 hn he
  exact ⟨if_pos h0, if_pos h0⟩

/-- The operations and start values of these reductions are those of the element type. -/
theorem C80_element (p e : Nat) (x y : Flt) : extMin (.real x) (.real y) = .real (fltMin x y) ∧ extMax (.real x) (.real y) = .real (fltMax x y) ∧
    extMaxValue (.float p e) = .real (.num (fltGreatest p e)) ∧ extMinValue (.float p e) = .real (.num (-fltGreatest p e)) := ⟨rfl, rfl, rfl, rfl⟩

/-- C80 fails without such an element: on the serial device the minimum of infinities is the greatest finite number, the maximum of negative infinities the
smallest one, and the minimum of values that are not numbers is the greatest finite number as well. None of these is an element. -/
theorem C80_false_infinite (p e : Nat) (dflt : Order) :
    let x : Flt → Tensor Flt := fun v => ⟨[v, v], ⟨[⟨2, 1⟩], 0⟩⟩
    (∀ v, (x v).WF ∧ (x v).arr.elements = [v, v]) ∧
    (x (.inf false)).minAll dflt none (.num (fltGreatest p e)) fltMin = .ok (.num (fltGreatest p e)) ∧
    (x (.inf true)).maxAll dflt none (.num (-fltGreatest p e)) fltMax = .ok (.num (-fltGreatest p e)) ∧
    (x (.nan false)).minAll dflt none (.num (fltGreatest p e)) fltMin = .ok (.num (fltGreatest p e)) := by
  refine ⟨fun v => ⟨⟨Int.le_refl 0, rfl⟩, rfl⟩, ?_, ?_, ?_⟩ <;> cases dflt <;> rfl

/-- Two doubles, one of them plus infinity, and something that is not a number. -/
def mixedT : Tensor Flt := ⟨[.inf false, .nan true, .num (3 / 2)], ⟨[⟨3, -1⟩], 2⟩⟩

theorem mixedT_fits (p e : Nat) (hp : 2 ≤ p) (he : p ≤ e) : ∀ x ∈ mixedT.arr.elements, x.Fits p e := by
  have : mixedT.arr.elements = [.num (3 / 2), .nan true, .inf false] := by decide +kernel
  rw [this]
  simp only [List.mem_cons, List.not_mem_nil, or_false, forall_eq_or_imp, forall_eq]
  refine ⟨⟨3, -1, ?_, by omega, by omega, by norm_num⟩, trivial, trivial⟩
  calc |(3 : Int)| < 2 ^ 2 := by norm_num
    _ ≤ 2 ^ p := pow_le_pow_right₀ (by norm_num) hp

example := C80_min_partial 53 1023 .C none Device.serial mixedT ⟨by decide, rfl⟩ (mixedT_fits 53 1023 (by decide) (by decide))
  ⟨.num (3 / 2), by decide +kernel, _, rfl, fun h => by simp at h⟩

example := C80_max_partial 24 127 .F none Device.serial mixedT ⟨by decide, rfl⟩ (mixedT_fits 24 127 (by decide) (by decide))
  ⟨.inf false, by decide +kernel, _, rfl, fun h => by simp at h⟩

example : mixedT.minAll .C none (.num (fltGreatest 53 1023)) fltMin = .ok (.num (3 / 2)) := by decide +kernel

example := C80_empty .C none ⟨[], ⟨[⟨0, 1⟩], 0⟩⟩ ⟨Int.le_refl 0, rfl⟩ rfl (.num 0)

end Rstsr
