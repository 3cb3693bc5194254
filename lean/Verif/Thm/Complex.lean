import Verif.Model.Complex
import Verif.Thm.ReduceAxes
import Verif.Thm.Elementwise
import Mathlib.Tactic.Ring
import Mathlib.Tactic.FieldSimp
import Mathlib.Tactic.Positivity
import Mathlib.Algebra.Order.BigOperators.Group.List
import Mathlib.Data.Rat.Cast.Order
import Mathlib.Data.Real.Sqrt
import Mathlib.Data.Complex.Basic
/-!
# C103: statistics and functions of complex elements

The parts are elements of a field with exact operations; the square root is any function, the hypotenuse is one by
its documentation.
-/
namespace Rstsr
open Spec

section
variable {α : Type}

/-- Exact operations of a field on the parts. -/
def exactParts [Field α] [DecidableEq α] (sqrt : α → α) (hyp : α → α → α) : PartOps α :=
  ⟨0, (· + ·), (· - ·), (· * ·), (· / ·), (- ·), sqrt, hyp, fun n => (n : α), fun x => decide (x = 0)⟩

variable [Field α] [DecidableEq α] (sqrt : α → α) (hyp : α → α → α)

theorem selfDot_eq (z : Cx α) : Cx.selfDot (exactParts sqrt hyp) z = z.abs2 := by
  simp only [Cx.selfDot, Cx.mul, Cx.conj, exactParts, Cx.abs2]; ring

theorem div_ofNat [CharZero α] (z : Cx α) {n : Nat} (hn : n ≠ 0) :
    Cx.div (exactParts sqrt hyp) z (Cx.ofNat (exactParts sqrt hyp) n) = ⟨z.re / n, z.im / n⟩ := by
  have : (n : α) ≠ 0 := Nat.cast_ne_zero.2 hn
  simp only [Cx.div, Cx.ofNat, exactParts, Cx.mk.injEq]
  constructor <;> field_simp <;> ring

theorem cx_foldl_sum (l : List (Cx α)) (z : Cx α) :
    l.foldl (Cx.add (exactParts sqrt hyp)) z = ⟨z.re + (l.map Cx.re).sum, z.im + (l.map Cx.im).sum⟩ := by
  induction l generalizing z with
  | nil => simp
  | cons x l ih =>
    rw [List.foldl_cons, ih]
    simp [Cx.add, exactParts, add_assoc]

theorem cx_foldl_moments (l : List (Cx α)) (p : Cx α × α) :
    l.foldl (fun acc x => (Cx.add (exactParts sqrt hyp) acc.1 x, acc.2 + Cx.selfDot (exactParts sqrt hyp) x)) p =
      (⟨p.1.re + (l.map Cx.re).sum, p.1.im + (l.map Cx.im).sum⟩, p.2 + (l.map Cx.abs2).sum) := by
  induction l generalizing p with
  | nil => simp
  | cons x l ih =>
    rw [List.foldl_cons, ih, selfDot_eq]
    simp [Cx.add, exactParts, add_assoc]

theorem cx_foldl_squares (l : List (Cx α)) (a : α) :
    l.foldl (fun acc x => acc + Cx.selfDot (exactParts sqrt hyp) x) a = a + (l.map Cx.abs2).sum := by
  induction l generalizing a with
  | nil => simp
  | cons x l ih =>
    rw [List.foldl_cons, ih, selfDot_eq]
    simp [add_assoc]

theorem cx_sum_monoidal : Monoidal (Cx.zeroOf (exactParts sqrt hyp)) (Cx.add (exactParts sqrt hyp)) (Cx.add (exactParts sqrt hyp)) :=
  ⟨fun _ _ _ => by simp [Cx.add, exactParts, add_assoc], fun _ _ => by simp [Cx.add, exactParts, add_comm],
    fun _ => by simp [Cx.add, Cx.zeroOf, exactParts], fun _ _ => by simp [Cx.add, Cx.zeroOf, exactParts]⟩

theorem cx_var_monoidal (n : Nat) (last : α → α) :
    Monoidal (varCxR (exactParts sqrt hyp) n last).init (varCxR (exactParts sqrt hyp) n last).f
      (varCxR (exactParts sqrt hyp) n last).fSum :=
  ⟨fun _ _ _ => by simp [varCxR, Cx.add, exactParts, add_assoc], fun _ _ => by simp [varCxR, Cx.add, exactParts, add_comm],
    fun _ => by simp [varCxR, Cx.add, Cx.zeroOf, exactParts], fun _ _ => by simp [varCxR, Cx.add, Cx.zeroOf, exactParts]⟩

theorem cx_l2_monoidal : Monoidal (l2CxR (exactParts sqrt hyp)).init (l2CxR (exactParts sqrt hyp)).f (l2CxR (exactParts sqrt hyp)).fSum :=
  ⟨add_assoc, add_comm, zero_add, fun a x => by simp [l2CxR, exactParts]⟩

theorem cx_sum_dev (l : List (Cx α)) (m : Cx α) :
    (l.map fun z => z.dist2 m).sum =
      (l.map Cx.abs2).sum - 2 * (m.re * (l.map Cx.re).sum + m.im * (l.map Cx.im).sum) + (l.length : α) * m.abs2 := by
  induction l with
  | nil => simp
  | cons x l ih =>
    simp only [List.map_cons, List.sum_cons, ih, List.length_cons, Nat.cast_succ]
    simp only [Cx.dist2, Cx.abs2]; ring

theorem cx_var_eq [CharZero α] {l : List (Cx α)} (hl : l ≠ []) :
    (l.map Cx.abs2).sum / (l.length : α) - (cxMean l).abs2 = cxVar l := by
  have hn : (l.length : α) ≠ 0 := Nat.cast_ne_zero.2 (by simpa using hl)
  unfold cxVar
  rw [cx_sum_dev]
  simp only [Cx.abs2, cxMean]
  field_simp
  ring

/-- The end of `var` and `std` over the moments of a list. -/
theorem cx_var_out [CharZero α] {l : List (Cx α)} (hl : l ≠ []) {n : Nat} (hn : l.length = n) (last : α → α) :
    (varCxR (exactParts sqrt hyp) n last).fOut
      (l.foldl (varCxR (exactParts sqrt hyp) n last).f (varCxR (exactParts sqrt hyp) n last).init) = last (cxVar l) := by
  subst hn
  have h := cx_foldl_moments sqrt hyp l (Cx.zeroOf (exactParts sqrt hyp), 0)
  show last (_ - Cx.selfDot _ (Cx.div _ (Prod.fst (l.foldl _ _)) _)) = _
  rw [show (varCxR (exactParts sqrt hyp) l.length last).f =
    fun acc x => (Cx.add (exactParts sqrt hyp) acc.1 x, acc.2 + Cx.selfDot (exactParts sqrt hyp) x) from rfl,
    show (varCxR (exactParts sqrt hyp) l.length last).init = (Cx.zeroOf (exactParts sqrt hyp), 0) from rfl, h,
    div_ofNat sqrt hyp _ (by simpa using hl), selfDot_eq, ← cx_var_eq hl]
  simp [Cx.zeroOf, exactParts, cxMean]

theorem nonempty_length {l : List (Cx α)} (hl : l ≠ []) : l.length ≠ 0 := by simpa using hl

variable [CharZero α]

/-- `mean` of complex elements: the mean of the real parts and the mean of the imaginary parts. -/
theorem C103_mean (dflt : Order) (par : Option Scheduler) (hp : Device par) (t : Tensor (Cx α)) (h : t.WF)
    (hne : t.arr.elements ≠ []) :
    t.meanCx (exactParts sqrt hyp) dflt par = .ok (cxMean t.arr.elements) := by
  unfold Tensor.meanCx Tensor.meanAll
  rw [C38_reduce dflt par hp t h ⟨Cx.zeroOf (exactParts sqrt hyp), Cx.add (exactParts sqrt hyp), Cx.add (exactParts sqrt hyp), _⟩
    (cx_sum_monoidal sqrt hyp)]
  simp only [cx_foldl_sum]
  have hl : t.arr.elements.length = t.layout.size := (C38_elements t h).1
  rw [div_ofNat sqrt hyp _ (by rw [← hl]; exact nonempty_length hne), ← hl]
  simp [cxMean, Cx.zeroOf, exactParts]

/-- `var` of complex elements: the mean squared distance from the mean. -/
theorem C103_var (dflt : Order) (par : Option Scheduler) (hp : Device par) (t : Tensor (Cx α)) (h : t.WF)
    (hne : t.arr.elements ≠ []) :
    t.varCx (exactParts sqrt hyp) dflt par = .ok (cxVar t.arr.elements) := by
  unfold Tensor.varCx
  rw [C38_reduce dflt par hp t h _ (cx_var_monoidal sqrt hyp _ _)]
  exact congrArg Except.ok (cx_var_out sqrt hyp hne (C38_elements t h).1 id)

/-- `std` of complex elements: the square root of the variance. -/
theorem C103_std (dflt : Order) (par : Option Scheduler) (hp : Device par) (t : Tensor (Cx α)) (h : t.WF)
    (hne : t.arr.elements ≠ []) :
    t.stdCx (exactParts sqrt hyp) dflt par = .ok (sqrt (cxVar t.arr.elements)) := by
  unfold Tensor.stdCx
  rw [C38_reduce dflt par hp t h _ (cx_var_monoidal sqrt hyp _ _)]
  exact congrArg Except.ok (cx_var_out sqrt hyp hne (C38_elements t h).1 sqrt)

omit [CharZero α] in
/-- `l2_norm` of complex elements: the square root of the sum of the squared absolute values. -/
theorem C103_l2_norm (dflt : Order) (par : Option Scheduler) (hp : Device par) (t : Tensor (Cx α)) (h : t.WF) :
    t.l2NormCx (exactParts sqrt hyp) dflt par = .ok (sqrt (t.arr.elements.map Cx.abs2).sum) := by
  unfold Tensor.l2NormCx
  rw [C38_reduce dflt par hp t h _ (cx_l2_monoidal sqrt hyp)]
  show Except.ok (sqrt (List.foldl (fun acc x => acc + Cx.selfDot (exactParts sqrt hyp) x) 0 _)) = _
  rw [cx_foldl_squares, zero_add]

variable (dflt : Order) (par : Option (Nat → Scheduler)) (hp : Devices par)
include hp

/-- `mean_axes` of complex elements. -/
theorem C103_mean_axes_partial (t : Tensor (Cx α)) (h : t.WF) (axes : Option (List Int)) (hf : AxesFine t axes)
    (hne : t.arr.elements ≠ []) :
    ∃ r, Delivers (t.meanCxAxes (exactParts sqrt hyp) dflt par axes) r ∧ r.WF ∧
      t.arr.ReducedTo (axes.map fun ax => ax.map (normAxis t.arr.shape.length)) (fun xs v => v = cxMean xs) r.arr := by
  refine axesApi_ok (fun _ => ⟨_, C103_mean sqrt hyp dflt _ hp.one t h hne, rfl⟩) fun ax e => ?_
  obtain ⟨ls, lm, g1, g2, g3⟩ := slice_ne h (hf ax e).1 (hf ax e).2
  obtain ⟨r, h1, h2, h3⟩ := C39_kernel_partial dflt par hp t h (hf ax e).1 ax (hf ax e).2
    ⟨Cx.zeroOf (exactParts sqrt hyp), Cx.add (exactParts sqrt hyp), Cx.add (exactParts sqrt hyp), fun acc => Cx.div (exactParts sqrt hyp) acc (Cx.ofNat (exactParts sqrt hyp) ls.size)⟩ (cx_sum_monoidal sqrt hyp)
  refine ⟨r, by simp only [g1, ok_bind]; exact h1, h2, ReducedTo.mono h3 fun j hj v hv => ?_⟩
  have hj' : InRange j lm.shape := by rw [g2, ← h3.1]; exact hj
  have hl := slice_length h g1 hj'
  rw [hv]
  simp only [cx_foldl_sum]
  rw [div_ofNat sqrt hyp _ (by rw [← hl]; exact nonempty_length (g3 j hj')), ← hl]
  simp [cxMean, Cx.zeroOf, exactParts]

/-- `var_axes` of complex elements. -/
theorem C103_var_axes_partial (t : Tensor (Cx α)) (h : t.WF) (axes : Option (List Int)) (hf : AxesFine t axes)
    (hne : t.arr.elements ≠ []) :
    ∃ r, Delivers (t.varCxAxes (exactParts sqrt hyp) dflt par axes) r ∧ r.WF ∧
      t.arr.ReducedTo (axes.map fun ax => ax.map (normAxis t.arr.shape.length)) (fun xs v => v = cxVar xs) r.arr := by
  refine axesApi_ok (fun _ => ⟨_, C103_var sqrt hyp dflt _ hp.one t h hne, rfl⟩) fun ax e => ?_
  obtain ⟨ls, lm, g1, g2, g3⟩ := slice_ne h (hf ax e).1 (hf ax e).2
  obtain ⟨r, h1, h2, h3⟩ := C39_kernel_partial dflt par hp t h (hf ax e).1 ax (hf ax e).2
    (varCxR (exactParts sqrt hyp) ls.size id) (cx_var_monoidal sqrt hyp _ _)
  refine ⟨r, by simp only [g1, ok_bind]; exact h1, h2, ReducedTo.mono h3 fun j hj v hv => ?_⟩
  have hj' : InRange j lm.shape := by rw [g2, ← h3.1]; exact hj
  rw [hv]
  exact cx_var_out sqrt hyp (g3 j hj') (slice_length h g1 hj') id

/-- `std_axes` of complex elements. -/
theorem C103_std_axes_partial (t : Tensor (Cx α)) (h : t.WF) (axes : Option (List Int)) (hf : AxesFine t axes)
    (hne : t.arr.elements ≠ []) :
    ∃ r, Delivers (t.stdCxAxes (exactParts sqrt hyp) dflt par axes) r ∧ r.WF ∧
      t.arr.ReducedTo (axes.map fun ax => ax.map (normAxis t.arr.shape.length)) (fun xs v => v = sqrt (cxVar xs)) r.arr := by
  refine axesApi_ok (fun _ => ⟨_, C103_std sqrt hyp dflt _ hp.one t h hne, rfl⟩) fun ax e => ?_
  obtain ⟨ls, lm, g1, g2, g3⟩ := slice_ne h (hf ax e).1 (hf ax e).2
  obtain ⟨r, h1, h2, h3⟩ := C39_kernel_partial dflt par hp t h (hf ax e).1 ax (hf ax e).2
    (varCxR (exactParts sqrt hyp) ls.size sqrt) (cx_var_monoidal sqrt hyp _ _)
  refine ⟨r, by simp only [g1, ok_bind]; exact h1, h2, ReducedTo.mono h3 fun j hj v hv => ?_⟩
  have hj' : InRange j lm.shape := by rw [g2, ← h3.1]; exact hj
  rw [hv]
  exact cx_var_out sqrt hyp (g3 j hj') (slice_length h g1 hj') sqrt

omit [CharZero α] in
/-- `l2_norm_axes` of complex elements. -/
theorem C103_l2_norm_axes_partial (t : Tensor (Cx α)) (h : t.WF) (axes : Option (List Int)) (hf : AxesFine t axes) :
    ∃ r, Delivers (t.l2NormCxAxes (exactParts sqrt hyp) dflt par axes) r ∧ r.WF ∧
      t.arr.ReducedTo (axes.map fun ax => ax.map (normAxis t.arr.shape.length))
        (fun xs v => v = sqrt (xs.map Cx.abs2).sum) r.arr := by
  refine axesApi_ok (fun _ => ⟨_, C103_l2_norm sqrt hyp dflt _ hp.one t h, rfl⟩) fun ax e => ?_
  obtain ⟨r, h1, h2, h3⟩ := C39_kernel_partial dflt par hp t h (hf ax e).1 ax (hf ax e).2 _ (cx_l2_monoidal sqrt hyp)
  refine ⟨r, h1, h2, ReducedTo.mono h3 fun j hj v hv => ?_⟩
  rw [hv]
  show sqrt (List.foldl (fun acc x => acc + Cx.selfDot (exactParts sqrt hyp) x) 0 _) = _
  rw [cx_foldl_squares, zero_add]

end

section
variable {α : Type} [Field α] [LinearOrder α] [IsStrictOrderedRing α] (sqrt : α → α) {hyp : α → α → α}

/-- The variance is not negative, and is zero exactly when all elements are equal to the mean. -/
theorem C103_var_nonneg (dflt : Order) (par : Option Scheduler) (hp : Device par) (t : Tensor (Cx α)) (h : t.WF)
    (hne : t.arr.elements ≠ []) :
    ∃ v, t.varCx (exactParts sqrt hyp) dflt par = .ok v ∧ 0 ≤ v ∧ (v = 0 ↔ ∀ z ∈ t.arr.elements, z = cxMean t.arr.elements) := by
  refine ⟨_, C103_var sqrt hyp dflt par hp t h hne, ?_, ?_⟩
  · exact div_nonneg (List.sum_nonneg (by rintro _ hx; obtain ⟨z, -, rfl⟩ := List.mem_map.1 hx; unfold Cx.dist2; positivity))
      (Nat.cast_nonneg _)
  · generalize t.arr.elements = l at hne ⊢
    have hn : (l.length : α) ≠ 0 := Nat.cast_ne_zero.2 (by simpa using hne)
    unfold cxVar
    rw [div_eq_zero_iff, or_iff_left hn]
    generalize cxMean l = m
    clear hn hne
    induction l with
    | nil => simp
    | cons x l ih =>
      have h1 : 0 ≤ x.dist2 m := by unfold Cx.dist2; positivity
      have h2 : 0 ≤ (l.map fun z => z.dist2 m).sum :=
        List.sum_nonneg (by rintro _ hx; obtain ⟨z, -, rfl⟩ := List.mem_map.1 hx; unfold Cx.dist2; positivity)
      have h3 : x.dist2 m = 0 ↔ x = m := by
        unfold Cx.dist2
        constructor
        · intro e
          obtain ⟨e1, e2⟩ := (add_eq_zero_iff_of_nonneg (sq_nonneg _) (sq_nonneg _)).1 e
          cases x; cases m
          simp only [Cx.mk.injEq]
          exact ⟨sub_eq_zero.1 (pow_eq_zero_iff (two_ne_zero) |>.1 e1), sub_eq_zero.1 (pow_eq_zero_iff (two_ne_zero) |>.1 e2)⟩
        · rintro rfl; simp
      simp only [List.map_cons, List.sum_cons, add_eq_zero_iff_of_nonneg h1 h2, h3, ih, List.forall_mem_cons]

variable (H : IsHypot hyp)
include H

/-- `abs` of a complex number: the number that is not negative and whose square is the sum of the squares of the parts. -/
theorem C103_abs (z : Cx α) :
    0 ≤ Cx.extAbs (exactParts sqrt hyp) z ∧ Cx.extAbs (exactParts sqrt hyp) z ^ 2 = z.abs2 ∧
      (Cx.extAbs (exactParts sqrt hyp) z = 0 ↔ z.re = 0 ∧ z.im = 0) := by
  obtain ⟨h1, h2⟩ := H z.re z.im
  refine ⟨h1, h2, ?_⟩
  show hyp z.re z.im = 0 ↔ _
  rw [← pow_eq_zero_iff (two_ne_zero), h2, add_eq_zero_iff_of_nonneg (sq_nonneg _) (sq_nonneg _), pow_eq_zero_iff two_ne_zero,
    pow_eq_zero_iff two_ne_zero]

/-- The absolute difference: the distance. -/
theorem C103_abs_diff (z w : Cx α) :
    0 ≤ Cx.extAbsDiff (exactParts sqrt hyp) z w ∧ Cx.extAbsDiff (exactParts sqrt hyp) z w ^ 2 = z.dist2 w :=
  H _ _

/-- `sign` of a complex number: zero of zero; otherwise of absolute value one and, times the absolute value, the number. -/
theorem C103_sign (z : Cx α) :
    let s := Cx.extSign (exactParts sqrt hyp) z
    let a := Cx.extAbs (exactParts sqrt hyp) z
    (z.re = 0 ∧ z.im = 0 → s.re = 0 ∧ s.im = 0) ∧
      (¬ (z.re = 0 ∧ z.im = 0) → Cx.extAbs (exactParts sqrt hyp) s = 1 ∧ s.re * a = z.re ∧ s.im * a = z.im) := by
  intro s a
  obtain ⟨a1, a2, a3⟩ := C103_abs sqrt H z
  constructor
  · intro h
    have : s = Cx.zeroOf (exactParts sqrt hyp) := if_pos (decide_eq_true (a3.2 h))
    rw [this]; exact ⟨rfl, rfl⟩
  · intro h
    have ha : a ≠ 0 := fun e => h (a3.1 e)
    have hs : s = ⟨z.re / a, z.im / a⟩ := if_neg (Bool.eq_false_iff.1 (decide_eq_false ha))
    obtain ⟨b1, b2, -⟩ := C103_abs sqrt H s
    refine ⟨?_, by rw [hs]; exact div_mul_cancel₀ _ ha, by rw [hs]; exact div_mul_cancel₀ _ ha⟩
    have : Cx.extAbs (exactParts sqrt hyp) s ^ 2 = 1 ^ 2 := by
      have e : z.re ^ 2 + z.im ^ 2 = a ^ 2 := a2.symm
      rw [b2, hs]
      simp only [Cx.abs2]
      rw [div_pow, div_pow, ← add_div, e, one_pow]
      exact div_self (pow_ne_zero 2 ha)
    exact (pow_left_inj₀ b1 zero_le_one two_ne_zero).1 this

omit H [IsStrictOrderedRing α] in
/-- `real`, `imag` and `conj`. -/
theorem C103_parts (z : Cx α) :
    Cx.extReal z = z.re ∧ Cx.extImag z = z.im ∧ Cx.extConj (exactParts sqrt hyp) z = ⟨z.re, -z.im⟩ := ⟨rfl, rfl, rfl⟩
end

/-- The complex number that a pair of parts stands for. -/
def asComplex (z : Cx ℝ) : ℂ := ⟨z.re, z.im⟩

/-- Sums, products, quotients by numbers other than zero and conjugates are those of the complex numbers. -/
theorem C103_arithmetic (sqrt : ℝ → ℝ) (hyp : ℝ → ℝ → ℝ) (z w : Cx ℝ) :
    asComplex (Cx.add (exactParts sqrt hyp) z w) = asComplex z + asComplex w ∧
    asComplex (Cx.mul (exactParts sqrt hyp) z w) = asComplex z * asComplex w ∧
    (asComplex w ≠ 0 → asComplex (Cx.div (exactParts sqrt hyp) z w) = asComplex z / asComplex w) ∧
    asComplex (Cx.conj (exactParts sqrt hyp) z) = (starRingEnd ℂ) (asComplex z) := by
  refine ⟨rfl, ?_, fun hw => ?_, rfl⟩
  · apply Complex.ext <;> simp [asComplex, Cx.mul, exactParts]
  · rw [eq_div_iff hw]
    have hn : w.re * w.re + w.im * w.im ≠ 0 := by
      intro h
      have h1 : w.re = 0 := by nlinarith [mul_self_nonneg w.re, mul_self_nonneg w.im]
      have h2 : w.im = 0 := by nlinarith [mul_self_nonneg w.re, mul_self_nonneg w.im]
      exact hw (Complex.ext h1 h2)
    apply Complex.ext
    · simp only [asComplex, Cx.div, exactParts, Complex.mul_re]
      rw [div_mul_eq_mul_div, div_mul_eq_mul_div, ← sub_div, div_eq_iff hn]; ring
    · simp only [asComplex, Cx.div, exactParts, Complex.mul_im]
      rw [div_mul_eq_mul_div, div_mul_eq_mul_div, ← add_div, div_eq_iff hn]; ring

/-- `a + b`, `a * b` and `a / b` of tensors of complex numbers, element by element with broadcasting. -/
theorem C103_operators (sqrt : ℝ → ℝ) (hyp : ℝ → ℝ → ℝ) (dflt : Order) (a b : Tensor (Cx ℝ)) (ha : a.WF) (hb : b.WF)
    (hc : Compatible dflt a.arr.shape b.arr.shape) :
    ∃ (f g h : Cx ℝ → Cx ℝ → Cx ℝ) (s p q : Tensor (Cx ℝ)),
      (Tensor.binary dflt a b (Cx.add (exactParts sqrt hyp)) = .ok s ∧ s.WF ∧ IsMap2 dflt f a.arr b.arr s.arr ∧
        ∀ z w, asComplex (f z w) = asComplex z + asComplex w) ∧
      (Tensor.binary dflt a b (Cx.mul (exactParts sqrt hyp)) = .ok p ∧ p.WF ∧ IsMap2 dflt g a.arr b.arr p.arr ∧
        ∀ z w, asComplex (g z w) = asComplex z * asComplex w) ∧
      (Tensor.binary dflt a b (Cx.div (exactParts sqrt hyp)) = .ok q ∧ q.WF ∧ IsMap2 dflt h a.arr b.arr q.arr ∧
        ∀ z w, asComplex w ≠ 0 → asComplex (h z w) = asComplex z / asComplex w) := by
  obtain ⟨s, s1, s2, s3⟩ := C30_binary dflt a b (Cx.add (exactParts sqrt hyp)) ha hb hc
  obtain ⟨p, p1, p2, p3⟩ := C30_binary dflt a b (Cx.mul (exactParts sqrt hyp)) ha hb hc
  obtain ⟨q, q1, q2, q3⟩ := C30_binary dflt a b (Cx.div (exactParts sqrt hyp)) ha hb hc
  have k := C103_arithmetic sqrt hyp
  exact ⟨_, _, _, s, p, q, ⟨s1, s2, s3, fun z w => (k z w).1⟩, ⟨p1, p2, p3, fun z w => (k z w).2.1⟩, q1, q2, q3, fun z w => (k z w).2.2.1⟩

example : asComplex ⟨3, 4⟩ ≠ 0 := fun h => by have := congrArg Complex.re h; simp [asComplex] at this

/-! ## Concrete cases -/

/-- Two rows of two complex numbers over the rationals. -/
def cxT : Tensor (Cx ℚ) := ⟨[⟨1, 0⟩, ⟨0, 1⟩, ⟨3, 4⟩, ⟨0, 0⟩], ⟨[⟨2, 2⟩, ⟨2, 1⟩], 0⟩⟩
example : cxT.WF ∧ cxT.arr.elements ≠ [] := ⟨⟨by decide, rfl⟩, by decide +kernel⟩
example : cxT.arr.elements = [⟨1, 0⟩, ⟨0, 1⟩, ⟨3, 4⟩, ⟨0, 0⟩] := by decide +kernel
example : cxVar ([⟨1, 0⟩, ⟨0, 1⟩, ⟨3, 4⟩, ⟨0, 0⟩] : List (Cx ℚ)) = 67 / 16 ∧
    cxMean ([⟨1, 0⟩, ⟨0, 1⟩, ⟨3, 4⟩, ⟨0, 0⟩] : List (Cx ℚ)) = ⟨1, 5 / 4⟩ := by
  norm_num [cxVar, cxMean, Cx.dist2]
example : AxesFine cxT (some [0]) :=
  fun _ h => by cases h; exact ⟨⟨by decide, by decide⟩, by intro a ha; simp at ha; subst ha; exact ⟨by decide, by decide⟩, by decide⟩
example : IsHypot fun x y : ℝ => √(x ^ 2 + y ^ 2) :=
  fun _ _ => ⟨Real.sqrt_nonneg _, Real.sq_sqrt (by positivity)⟩
end Rstsr
