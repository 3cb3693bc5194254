import Verif.Proof.ReduceAxesPar
import Verif.Thm.Reduce
/-!
# Theorems on reductions along axes (C39)

`axes = none` reduces everything, `axes = some list` the listed axes, negative numbers counting from the end.
`Arr.ReducedTo` (`Spec/Reduce.lean`) says what the result is. `par = none` is the serial device; on the
parallel one `par = some s`, where `s` gives a schedule for every loop.

The theorems carry the suffix `_partial`: they need a tensor without zero lengths and without broadcast axes
when axes are listed. On other tensors the code is wrong, as the theorems `C39_false_*` show.
-/
namespace Rstsr
open Spec

section
variable {α σ ω : Type}

/-- Every execution of the reduction ends, and ends with the tensor `r`; no two threads access a cell at the
same time. -/
def Delivers (run : Res (AxesRun ω (Tensor ω))) (r : Tensor ω) : Prop :=
  run = .ok (.done r) ∨
  ∃ p n fin c, run = .ok (.threads p n fin) ∧ Computes p (uninit n) c ∧ RaceFree p (uninit n) ∧ fin c = .ok r

/-- The serial device, or the parallel one with schedulers that split within the ranges. -/
def Devices (par : Option (Nat → Scheduler)) : Prop := ∀ s, par = some s → ∀ k, (s k).Fits

theorem Devices.one {par : Option (Nat → Scheduler)} (h : Devices par) : Device (onePar par) := by
  intro s hs
  cases par with
  | none => cases hs
  | some f => cases hs; exact h f rfl 0

/-- Axes that a tensor with `n` axes has, none named twice. -/
def LegalAxes (n : Nat) (axes : List Int) : Prop :=
  (∀ a ∈ axes, AxisOk n a) ∧ (axes.map (normAxis n)).Nodup

/-- No zero length, and no axis along which different indices share their cells by stride zero. -/
def Unstretched (t : Tensor α) : Prop :=
  0 ∉ t.arr.shape ∧ ∀ x ∈ t.layout.axes, x.dim ≠ 1 → x.str ≠ 0

/-- The kernel: every listed reduction, whatever the monoid. Missing: tensors with zero lengths or broadcast
axes, for which the claim is false (`C39_false_*`). -/
theorem C39_kernel_partial (dflt : Order) (par : Option (Nat → Scheduler)) (hp : Devices par) (t : Tensor α) (h : t.WF)
    (hu : Unstretched t) (axes : List Int) (hax : LegalAxes t.arr.shape.length axes)
    (R : Reducer α σ ω) (M : Monoidal R.init R.f R.fSum) :
    ∃ r, Delivers (t.axesKernel dflt par R axes) r ∧ r.WF ∧
      t.arr.ReducedTo (some (axes.map (normAxis t.arr.shape.length))) (fun xs v => v = R.fOut (xs.foldl R.f R.init)) r.arr := by
  have hn : t.arr.shape.length = t.layout.ndim := by simp [Tensor.arr, Layout.shape, Layout.ndim]
  have hpl : Plain t.layout := ⟨hu.1, hu.2⟩
  obtain ⟨⟨ls, lm⟩, hd⟩ := (C52_split_axes_accept_iff t.layout h.fit.valid h.1 hu.1 axes).2 (by rw [← hn]; exact hax)
  have hsh : lm.shape = takeAxes (otherAxes t.arr.shape.length (axes.map (normAxis t.arr.shape.length))) t.arr.shape :=
    (split_facts h hd).1
  have fin : ∀ {d : List ω} {lo : Layout}, lo.shape = lm.shape → (∀ j, InRange j lm.shape → (⟨d, lo⟩ : Tensor ω).arr.elem j =
      some (R.fOut ((t.arr.slice (axes.map (normAxis t.arr.shape.length)) j).elements.foldl R.f R.init))) →
      t.arr.ReducedTo (some (axes.map (normAxis t.arr.shape.length))) (fun xs v => v = R.fOut (xs.foldl R.f R.init))
        (⟨d, lo⟩ : Tensor ω).arr := fun h1 h2 =>
    ⟨show _ = _ from h1.trans hsh, fun j hj => ⟨_, h2 j (h1 ▸ hj), rfl⟩⟩
  have serial : ∃ d lo, reduceAxes dflt R t.data t.layout axes = .ok (d, lo) ∧ (⟨d, lo⟩ : Tensor ω).WF ∧
      t.arr.ReducedTo (some (axes.map (normAxis t.arr.shape.length))) (fun xs v => v = R.fOut (xs.foldl R.f R.init))
        (⟨d, lo⟩ : Tensor ω).arr := by
    obtain ⟨d, lo, h1, h2, h3, h4⟩ := reduceAxes_ok dflt h hpl hd M
    exact ⟨d, lo, h1, h3, fin h2 h4⟩
  cases par with
  | none =>
    obtain ⟨d, lo, h1, h2, h3⟩ := serial
    refine ⟨⟨d, lo⟩, .inl ?_, h2, h3⟩
    simp only [Tensor.axesKernel, h1, ok_bind, h2.2]
    rfl
  | some s =>
    by_cases hsz : t.layout.size < reduceParSwitch
    · obtain ⟨d, lo, h1, h2, h3⟩ := serial
      refine ⟨⟨d, lo⟩, .inl ?_, h2, h3⟩
      have : reduceAxesPar dflt s R t.data t.layout axes = .ok (.done (d, lo)) := by
        unfold reduceAxesPar
        rw [if_pos hsz, h1]
        rfl
      simp only [Tensor.axesKernel, this, ok_bind, AxesRun.andThen, h2.2]
      rfl
    · obtain ⟨p, n, f, c, d, lo, h1, h2, h3, h4, h5, h6, h7⟩ := reduceAxesPar_ok M (hp s rfl) dflt h hpl hd hsz
      refine ⟨⟨d, lo⟩, .inr ⟨p, n, fun c => do let r ← f c; Tensor.newF r.1 r.2, c, ?_, h2, h3, ?_⟩, h6, fin h5 h7⟩
      · simp only [Tensor.axesKernel, h1, ok_bind, AxesRun.andThen]
      · simp only [h4, ok_bind, h6.2]

/-- Axes that the tensor does not have, or named twice, are rejected, on every device. -/
theorem C39_reject (dflt : Order) (par : Option (Nat → Scheduler)) (t : Tensor α) (h : t.WF) (hz : 0 ∉ t.arr.shape)
    (axes : List Int) (hax : ¬ LegalAxes t.arr.shape.length axes) (R : Reducer α σ ω) :
    ∃ e, t.axesKernel dflt par R axes = .error e := by
  have hn : t.arr.shape.length = t.layout.ndim := by simp [Tensor.arr, Layout.shape, Layout.ndim]
  have hd : ∃ e, t.layout.dimSplitAxes axes = .error e := by
    cases hd : t.layout.dimSplitAxes axes with
    | error e => exact ⟨e, rfl⟩
    | ok p =>
      exact absurd ((C52_split_axes_accept_iff t.layout h.fit.valid h.1 hz axes).1 ⟨p, hd⟩) (by rw [← hn]; exact hax)
  obtain ⟨e, he⟩ := hd
  have hs : reduceAxes dflt R t.data t.layout axes = .error e := by
    unfold reduceAxes; rw [he]; rfl
  refine ⟨e, ?_⟩
  cases par with
  | none => simp only [Tensor.axesKernel, hs, error_bind]
  | some s =>
    have : reduceAxesPar dflt s R t.data t.layout axes = .error e := by
      unfold reduceAxesPar
      split
      · rw [hs]; rfl
      · rw [he]; rfl
    simp only [Tensor.axesKernel, this, error_bind]

/-! ## The reductions of the API -/

/-- What the API gives, for a full reduction and a kernel. -/
theorem axesApi_ok {t : Tensor α} {val : List α → ω → Prop} {all : Res ω}
    {some_ : List Int → Res (AxesRun ω (Tensor ω))} {axes : Option (List Int)}
    (hall : axes = none → ∃ v, all = .ok v ∧ val t.arr.elements v)
    (hsome : ∀ ax, axes = some ax → ∃ r, Delivers (some_ ax) r ∧ r.WF ∧
      t.arr.ReducedTo (some (ax.map (normAxis t.arr.shape.length))) val r.arr) :
    ∃ r, Delivers (Tensor.axesApi all some_ axes) r ∧ r.WF ∧
      t.arr.ReducedTo (axes.map fun ax => ax.map (normAxis t.arr.shape.length)) val r.arr := by
  cases axes with
  | none =>
    obtain ⟨v, h1, h2⟩ := hall rfl
    have hw : (⟨[v], ⟨[], 0⟩⟩ : Tensor ω).WF := ⟨by simp, rfl⟩
    refine ⟨⟨[v], ⟨[], 0⟩⟩, .inl ?_, hw, ?_⟩
    · simp only [Tensor.axesApi, h1, ok_bind, hw.2]
      rfl
    · exact ⟨rfl, v, rfl, h2⟩
  | some ax => exact hsome ax rfl

theorem ReducedTo.mono {A : Arr α} {S : List Nat} {P Q : List α → ω → Prop} {B : Arr ω} (h : A.ReducedTo (some S) P B)
    (hi : ∀ j, InRange j B.shape → ∀ v, P (A.slice S j).elements v → Q (A.slice S j).elements v) : A.ReducedTo (some S) Q B :=
  ⟨h.1, fun j hj => by
    obtain ⟨v, h1, h2⟩ := h.2 j hj
    exact ⟨v, h1, hi j hj v h2⟩⟩

/-- A slice has as many elements as its shape says. -/
theorem slice_length {t : Tensor α} (h : t.WF) {axes : List Int} {ls lm : Layout}
    (hd : t.layout.dimSplitAxes axes = .ok (ls, lm)) {j : List Nat} (hj : InRange j lm.shape) :
    (t.arr.slice (axes.map (normAxis t.arr.shape.length)) j).elements.length = ls.size := by
  obtain ⟨s1, s2, s3, s4, s5, s6⟩ := split_facts h hd
  unfold Arr.elements
  rw [List.length_filterMap_eq_countP, List.countP_eq_length.2, length_all]
  · show (takeAxes _ _).prod = _
    rw [← s4]; rfl
  · intro i hi
    have hi : InRange i ls.shape := by rw [s4]; exact mem_all.1 hi
    obtain ⟨v, hv⟩ := h.full _ ((s6 j hj).2 i hi).1
    show (t.arr.elem _).isSome
    rw [hv]; rfl

/-- What the theorems ask of the listed axes, if any are listed. -/
def AxesFine (t : Tensor α) (axes : Option (List Int)) : Prop :=
  ∀ ax, axes = some ax → Unstretched t ∧ LegalAxes t.arr.shape.length ax

theorem slice_ne {t : Tensor α} (h : t.WF) (hu : Unstretched t) {axes : List Int} (hax : LegalAxes t.arr.shape.length axes) :
    ∃ ls lm, t.layout.dimSplitAxes axes = .ok (ls, lm) ∧
      lm.shape = takeAxes (otherAxes t.arr.shape.length (axes.map (normAxis t.arr.shape.length))) t.arr.shape ∧
      ∀ j, InRange j lm.shape → (t.arr.slice (axes.map (normAxis t.arr.shape.length)) j).elements ≠ [] := by
  have hn : t.arr.shape.length = t.layout.ndim := by simp [Tensor.arr, Layout.shape, Layout.ndim]
  obtain ⟨⟨ls, lm⟩, hd⟩ := (C52_split_axes_accept_iff t.layout h.fit.valid h.1 hu.1 axes).2 (by rw [← hn]; exact hax)
  refine ⟨ls, lm, hd, (split_facts h hd).1, fun j hj h0 => ?_⟩
  have h1 := slice_length h hd hj
  rw [h0] at h1
  have hw := (split_walk h ⟨hu.1, hu.2⟩ hd).1
  exact prod_ne_zero_iff.2 (fun x hx => Nat.pos_of_ne_zero fun h2 => hw.plain.pos (h2 ▸ hx)) h1.symm

variable (dflt : Order) (par : Option (Nat → Scheduler)) (hp : Devices par)
include hp

/-- `sum_axes`. -/
theorem C39_sum_partial [AddCommMonoid α] (t : Tensor α) (h : t.WF) (axes : Option (List Int)) (hf : AxesFine t axes) :
    ∃ r, Delivers (t.sumAxes dflt par 0 (· + ·) axes) r ∧ r.WF ∧
      t.arr.ReducedTo (axes.map fun ax => ax.map (normAxis t.arr.shape.length)) (fun xs v => v = xs.sum) r.arr := by
  refine axesApi_ok (fun _ => ⟨_, C38_sum dflt _ hp.one t h, rfl⟩) fun ax e => ?_
  obtain ⟨r, h1, h2, h3⟩ := C39_kernel_partial dflt par hp t h (hf ax e).1 ax (hf ax e).2 (sumR (0 : α) (· + ·))
    ⟨add_assoc, add_comm, zero_add, fun a x => by simp [sumR]⟩
  exact ⟨r, h1, h2, ReducedTo.mono h3 fun _ _ v hv => by simpa [sumR, foldl_sum] using hv⟩

/-- `prod_axes`. -/
theorem C39_prod_partial [CommMonoid α] (t : Tensor α) (h : t.WF) (axes : Option (List Int)) (hf : AxesFine t axes) :
    ∃ r, Delivers (t.prodAxes dflt par 1 (· * ·) axes) r ∧ r.WF ∧
      t.arr.ReducedTo (axes.map fun ax => ax.map (normAxis t.arr.shape.length)) (fun xs v => v = xs.prod) r.arr := by
  refine axesApi_ok (fun _ => ⟨_, C38_prod dflt _ hp.one t h, rfl⟩) fun ax e => ?_
  obtain ⟨r, h1, h2, h3⟩ := C39_kernel_partial dflt par hp t h (hf ax e).1 ax (hf ax e).2 ⟨(1 : α), (· * ·), (· * ·), id⟩
    ⟨mul_assoc, mul_comm, one_mul, fun a x => by simp⟩
  exact ⟨r, h1, h2, ReducedTo.mono h3 fun _ _ v hv => by simpa [foldl_prod] using hv⟩

/-- `min_axes`: the least element of every slice. -/
theorem C39_min_partial [LinearOrder α] (t : Tensor α) (h : t.WF) (top : α) (htop : ∀ x, x ≤ top)
    (axes : Option (List Int)) (hf : AxesFine t axes) (hne : t.arr.elements ≠ []) :
    ∃ r, Delivers (t.minAxes dflt par top min axes) r ∧ r.WF ∧
      t.arr.ReducedTo (axes.map fun ax => ax.map (normAxis t.arr.shape.length))
        (fun xs v => v ∈ xs ∧ ∀ x ∈ xs, v ≤ x) r.arr := by
  refine axesApi_ok (fun _ => (C38_min dflt _ hp.one t h top fun x _ => htop x).2 hne) fun ax e => ?_
  obtain ⟨r, h1, h2, h3⟩ := C39_kernel_partial dflt par hp t h (hf ax e).1 ax (hf ax e).2 ⟨top, min, min, id⟩
    ⟨min_assoc, min_comm, fun x => min_eq_right (htop x), fun a x => by simp [min_eq_right (htop x)]⟩
  refine ⟨r, by rw [if_neg ((elements_ne h).2 hne)]; exact h1, h2, ReducedTo.mono h3 fun j hj v hv => ?_⟩
  obtain ⟨ls, lm, -, g2, g3⟩ := slice_ne h (hf ax e).1 (hf ax e).2
  have hne := g3 j (by rw [g2, ← h3.1]; exact hj)
  obtain ⟨k1, -, k3⟩ := foldl_min (t.arr.slice (ax.map (normAxis t.arr.shape.length)) j).elements top
  rw [hv]
  refine ⟨?_, k3⟩
  rcases k1 with k1 | k1
  · obtain ⟨x, hx⟩ := List.exists_mem_of_ne_nil _ hne
    have : x = top := le_antisymm (htop x) (k1 ▸ k3 x hx)
    show List.foldl min top _ ∈ _
    rw [k1, ← this]; exact hx
  · exact k1

/-- `max_axes`: the greatest element of every slice. -/
theorem C39_max_partial [LinearOrder α] (t : Tensor α) (h : t.WF) (bot : α) (hbot : ∀ x, bot ≤ x)
    (axes : Option (List Int)) (hf : AxesFine t axes) (hne : t.arr.elements ≠ []) :
    ∃ r, Delivers (t.maxAxes dflt par bot max axes) r ∧ r.WF ∧
      t.arr.ReducedTo (axes.map fun ax => ax.map (normAxis t.arr.shape.length))
        (fun xs v => v ∈ xs ∧ ∀ x ∈ xs, x ≤ v) r.arr := by
  refine axesApi_ok (fun _ => (C38_max dflt _ hp.one t h bot fun x _ => hbot x).2 hne) fun ax e => ?_
  obtain ⟨r, h1, h2, h3⟩ := C39_kernel_partial dflt par hp t h (hf ax e).1 ax (hf ax e).2 ⟨bot, max, max, id⟩
    ⟨max_assoc, max_comm, fun x => max_eq_right (hbot x), fun a x => by simp [max_eq_right (hbot x)]⟩
  refine ⟨r, by rw [if_neg ((elements_ne h).2 hne)]; exact h1, h2, ReducedTo.mono h3 fun j hj v hv => ?_⟩
  obtain ⟨ls, lm, -, g2, g3⟩ := slice_ne h (hf ax e).1 (hf ax e).2
  have hne := g3 j (by rw [g2, ← h3.1]; exact hj)
  obtain ⟨k1, -, k3⟩ := foldl_max (t.arr.slice (ax.map (normAxis t.arr.shape.length)) j).elements bot
  rw [hv]
  refine ⟨?_, k3⟩
  rcases k1 with k1 | k1
  · obtain ⟨x, hx⟩ := List.exists_mem_of_ne_nil _ hne
    have : x = bot := le_antisymm (k1 ▸ k3 x hx) (hbot x)
    show List.foldl max bot _ ∈ _
    rw [k1, ← this]; exact hx
  · exact k1

/-- `mean_axes`: the sum of every slice divided by its number of elements. -/
theorem C39_mean_partial [Field α] (t : Tensor α) (h : t.WF) (axes : Option (List Int)) (hf : AxesFine t axes) :
    ∃ r, Delivers (t.meanAxes dflt par 0 (· + ·) (· / ·) (fun n => (n : α)) axes) r ∧ r.WF ∧
      t.arr.ReducedTo (axes.map fun ax => ax.map (normAxis t.arr.shape.length))
        (fun xs v => v = xs.sum / (xs.length : α)) r.arr := by
  refine axesApi_ok (fun _ => ⟨_, C38_mean dflt _ hp.one t h, rfl⟩) fun ax e => ?_
  obtain ⟨ls, lm, g1, g2, g3⟩ := slice_ne h (hf ax e).1 (hf ax e).2
  obtain ⟨r, h1, h2, h3⟩ := C39_kernel_partial dflt par hp t h (hf ax e).1 ax (hf ax e).2
    ⟨(0 : α), (· + ·), (· + ·), fun acc => acc / (ls.size : α)⟩ ⟨add_assoc, add_comm, zero_add, fun a x => by simp⟩
  refine ⟨r, by simp only [g1, ok_bind]; exact h1, h2, ReducedTo.mono h3 fun j hj v hv => ?_⟩
  rw [slice_length h g1 (by rw [g2, ← h3.1]; exact hj), hv]
  simp only [foldl_sum, zero_add]

/-- `var_axes`: the mean of the squared deviations from the mean, of every slice. -/
theorem C39_var_partial [Field α] [CharZero α] (t : Tensor α) (h : t.WF) (axes : Option (List Int)) (hf : AxesFine t axes)
    (hne : t.arr.elements ≠ []) :
    ∃ r, Delivers (t.varAxes dflt par 0 (· + ·) (· - ·) (· * ·) (· / ·) (fun n => (n : α)) axes) r ∧ r.WF ∧
      t.arr.ReducedTo (axes.map fun ax => ax.map (normAxis t.arr.shape.length))
        (fun xs v => v = (xs.map fun x => (x - xs.sum / (xs.length : α)) * (x - xs.sum / (xs.length : α))).sum /
          (xs.length : α)) r.arr := by
  refine axesApi_ok (fun _ => ⟨_, C38_var dflt _ hp.one t h hne, rfl⟩) fun ax e => ?_
  obtain ⟨ls, lm, g1, g2, g3⟩ := slice_ne h (hf ax e).1 (hf ax e).2
  obtain ⟨r, h1, h2, h3⟩ := C39_kernel_partial dflt par hp t h (hf ax e).1 ax (hf ax e).2
    ⟨((0, 0) : α × α), fun acc x => (acc.1 + x, acc.2 + x * x), fun p q => (p.1 + q.1, p.2 + q.2), fun acc =>
      acc.2 / (ls.size : α) - acc.1 / (ls.size : α) * (acc.1 / (ls.size : α))⟩ moments
  refine ⟨r, by simp only [g1, ok_bind]; exact h1, h2, ReducedTo.mono h3 fun j hj v hv => ?_⟩
  have hj' : InRange j lm.shape := by rw [g2, ← h3.1]; exact hj
  rw [← var_eq (g3 j hj'), slice_length h g1 hj', hv]
  simp only [foldl_moments, zero_add]

/-- `std_axes`: the square root of the variance of every slice. -/
theorem C39_std_partial [Field α] [CharZero α] (sqrt : α → α) (t : Tensor α) (h : t.WF) (axes : Option (List Int))
    (hf : AxesFine t axes) (hne : t.arr.elements ≠ []) :
    ∃ r, Delivers (t.stdAxes dflt par 0 (· + ·) (· - ·) (· * ·) (· / ·) (fun n => (n : α)) sqrt axes) r ∧ r.WF ∧
      t.arr.ReducedTo (axes.map fun ax => ax.map (normAxis t.arr.shape.length))
        (fun xs v => v = sqrt ((xs.map fun x => (x - xs.sum / (xs.length : α)) * (x - xs.sum / (xs.length : α))).sum /
          (xs.length : α))) r.arr := by
  refine axesApi_ok (fun _ => ⟨_, C38_std sqrt dflt _ hp.one t h hne, rfl⟩) fun ax e => ?_
  obtain ⟨ls, lm, g1, g2, g3⟩ := slice_ne h (hf ax e).1 (hf ax e).2
  obtain ⟨r, h1, h2, h3⟩ := C39_kernel_partial dflt par hp t h (hf ax e).1 ax (hf ax e).2
    ⟨((0, 0) : α × α), fun acc x => (acc.1 + x, acc.2 + x * x), fun p q => (p.1 + q.1, p.2 + q.2), fun acc =>
      sqrt (acc.2 / (ls.size : α) - acc.1 / (ls.size : α) * (acc.1 / (ls.size : α)))⟩ moments
  refine ⟨r, by simp only [g1, ok_bind]; exact h1, h2, ReducedTo.mono h3 fun j hj v hv => ?_⟩
  have hj' : InRange j lm.shape := by rw [g2, ← h3.1]; exact hj
  rw [← var_eq (g3 j hj'), slice_length h g1 hj', hv]
  simp only [foldl_moments, zero_add]

/-- `l2_norm_axes`: the square root of the sum of squares of every slice. -/
theorem C39_l2_norm_partial [Semiring α] (sqrt : α → α) (t : Tensor α) (h : t.WF) (axes : Option (List Int))
    (hf : AxesFine t axes) :
    ∃ r, Delivers (t.l2NormAxes dflt par 0 (· + ·) (· * ·) sqrt axes) r ∧ r.WF ∧
      t.arr.ReducedTo (axes.map fun ax => ax.map (normAxis t.arr.shape.length))
        (fun xs v => v = sqrt (xs.map fun x => x * x).sum) r.arr := by
  refine axesApi_ok (fun _ => ⟨_, C38_l2_norm sqrt dflt _ hp.one t h, rfl⟩) fun ax e => ?_
  obtain ⟨r, h1, h2, h3⟩ := C39_kernel_partial dflt par hp t h (hf ax e).1 ax (hf ax e).2
    ⟨(0 : α), fun acc x => acc + x * x, (· + ·), sqrt⟩ ⟨add_assoc, add_comm, zero_add, fun a x => by simp⟩
  refine ⟨r, h1, h2, ReducedTo.mono h3 fun j hj v hv => ?_⟩
  rw [hv]
  simp only [foldl_squares, zero_add]

/-- `all_axes`: true exactly when every element of the slice is true. -/
theorem C39_all_partial (t : Tensor Bool) (h : t.WF) (axes : Option (List Int)) (hf : AxesFine t axes) :
    ∃ r, Delivers (t.allAxes dflt par axes) r ∧ r.WF ∧
      t.arr.ReducedTo (axes.map fun ax => ax.map (normAxis t.arr.shape.length))
        (fun xs v => v = true ↔ ∀ x ∈ xs, x = true) r.arr := by
  refine axesApi_ok (fun _ => C38_all dflt _ hp.one t h) fun ax e => ?_
  obtain ⟨r, h1, h2, h3⟩ := C39_kernel_partial dflt par hp t h (hf ax e).1 ax (hf ax e).2 ⟨true, and, and, id⟩
    ⟨Bool.and_assoc, Bool.and_comm, Bool.true_and, fun a x => by simp⟩
  refine ⟨r, h1, h2, ReducedTo.mono h3 fun j hj v hv => ?_⟩
  rw [hv]
  simp [foldl_and]

/-- `any_axes`: true exactly when some element of the slice is true. -/
theorem C39_any_partial (t : Tensor Bool) (h : t.WF) (axes : Option (List Int)) (hf : AxesFine t axes) :
    ∃ r, Delivers (t.anyAxes dflt par axes) r ∧ r.WF ∧
      t.arr.ReducedTo (axes.map fun ax => ax.map (normAxis t.arr.shape.length))
        (fun xs v => v = true ↔ ∃ x ∈ xs, x = true) r.arr := by
  refine axesApi_ok (fun _ => C38_any dflt _ hp.one t h) fun ax e => ?_
  obtain ⟨r, h1, h2, h3⟩ := C39_kernel_partial dflt par hp t h (hf ax e).1 ax (hf ax e).2 ⟨false, or, or, id⟩
    ⟨Bool.or_assoc, Bool.or_comm, Bool.false_or, fun a x => by simp⟩
  refine ⟨r, h1, h2, ReducedTo.mono h3 fun j hj v hv => ?_⟩
  rw [hv]
  simp [foldl_or]

/-- `count_nonzero_axes`: the number of elements of the slice that are not zero. -/
theorem C39_count_nonzero_partial (isZero : α → Bool) (t : Tensor α) (h : t.WF) (axes : Option (List Int))
    (hf : AxesFine t axes) :
    ∃ r, Delivers (t.countNonzeroAxes dflt par isZero axes) r ∧ r.WF ∧
      t.arr.ReducedTo (axes.map fun ax => ax.map (normAxis t.arr.shape.length))
        (fun xs v => v = xs.countP fun x => !isZero x) r.arr := by
  refine axesApi_ok (fun _ => ⟨_, C38_count_nonzero isZero dflt _ hp.one t h, rfl⟩) fun ax e => ?_
  obtain ⟨r, h1, h2, h3⟩ := C39_kernel_partial dflt par hp t h (hf ax e).1 ax (hf ax e).2
    ⟨0, fun acc x => if isZero x then acc else acc + 1, (· + ·), id⟩
    ⟨Nat.add_assoc, Nat.add_comm, Nat.zero_add, fun a x => by cases hx : isZero x <;> simp [hx]⟩
  refine ⟨r, h1, h2, ReducedTo.mono h3 fun j hj v hv => ?_⟩
  rw [hv]
  simp only [foldl_count, Nat.zero_add, id]

/-- `sum_axes` of a boolean tensor: the number of true elements of the slice. -/
theorem C39_sum_bool_partial (t : Tensor Bool) (h : t.WF) (axes : Option (List Int)) (hf : AxesFine t axes) :
    ∃ r, Delivers (t.sumBoolAxes dflt par axes) r ∧ r.WF ∧
      t.arr.ReducedTo (axes.map fun ax => ax.map (normAxis t.arr.shape.length))
        (fun xs v => v = xs.countP fun x => x) r.arr := by
  refine axesApi_ok (fun _ => ⟨_, C38_sum_bool dflt _ hp.one t h, rfl⟩) fun ax e => ?_
  obtain ⟨r, h1, h2, h3⟩ := C39_kernel_partial dflt par hp t h (hf ax e).1 ax (hf ax e).2 ⟨0, countTrue, (· + ·), id⟩
    ⟨Nat.add_assoc, Nat.add_comm, Nat.zero_add, fun a x => by cases x <;> simp [countTrue]⟩
  refine ⟨r, h1, h2, ReducedTo.mono h3 fun j hj v hv => ?_⟩
  rw [hv]
  simp only [foldl_countTrue, Nat.zero_add, id]

end

/-! ## Where the code is wrong -/

/-- A row of three, stretched to two rows. Its sum over the rows is `[2, 4, 6]`. -/
def twoRows : Tensor Nat := ⟨[1, 2, 3], ⟨[⟨2, 0⟩, ⟨3, 1⟩], 0⟩⟩

/-- Reducing a broadcast axis: the number of repetitions is read off the remaining axes, here 3 instead of 2. -/
theorem C39_false_broadcast_reduced : twoRows.WF ∧ twoRows.arr.elements = [1, 2, 3, 1, 2, 3] ∧
    (match twoRows.sumAxes .C none 0 (· + ·) (some [0]) with | .ok (.done r) => some r.data | _ => none) = some [3, 6, 9] :=
  ⟨⟨by decide, rfl⟩, by decide, by decide⟩

/-- Reducing the only axis, broadcast, of a tensor panics. -/
theorem C39_false_broadcast_vector : (⟨[7], ⟨[⟨4, 0⟩], 0⟩⟩ : Tensor Nat).WF ∧
    (match (⟨[7], ⟨[⟨4, 0⟩], 0⟩⟩ : Tensor Nat).sumAxes .C none 0 (· + ·) (some [0]) with
      | .error e => some e | _ => none) = some .panic :=
  ⟨⟨by decide, rfl⟩, by decide⟩

/-- A broadcast axis remains and a contiguous one as well: the operation fails with an internal error. -/
theorem C39_false_broadcast_remains : (⟨List.range 8, ⟨[⟨3, 0⟩, ⟨2, 4⟩, ⟨4, 1⟩], 0⟩⟩ : Tensor Nat).WF ∧
    (match (⟨List.range 8, ⟨[⟨3, 0⟩, ⟨2, 4⟩, ⟨4, 1⟩], 0⟩⟩ : Tensor Nat).sumAxes .C none 0 (· + ·) (some [1]) with
      | .error e => some e | _ => none) = some .runtimeError :=
  ⟨⟨by decide, rfl⟩, by decide⟩

/-- Summing an empty axis (of a 3 × 0 tensor) panics instead of giving zeros. -/
theorem C39_false_empty : (⟨[], ⟨[⟨3, 0⟩, ⟨0, 1⟩], 0⟩⟩ : Tensor Nat).WF ∧
    (match (⟨[], ⟨[⟨3, 0⟩, ⟨0, 1⟩], 0⟩⟩ : Tensor Nat).sumAxes .C none 0 (· + ·) (some [1]) with
      | .error e => some e | _ => none) = some .panic :=
  ⟨⟨by decide, rfl⟩, by decide⟩

/-! ## Concrete cases -/

example : Devices (some fun _ => halving) := fun _ h k => by cases h; exact halving_fits
example : AxesFine fortyT (some [-1]) :=
  fun _ h => by cases h; exact ⟨⟨by decide, by decide⟩, by intro a ha; simp at ha; subst ha; exact ⟨by decide, by decide⟩, by decide⟩
/-- What a serial run returns. -/
def shown {ω : Type} : Res (AxesRun ω (Tensor ω)) → Option (List Nat × List ω)
  | .ok (.done r) => some (r.arr.shape, r.data)
  | _ => none
/-- The contiguous axis is reduced, remains, or there is none. -/
example : shown ((⟨List.range 6, ⟨[⟨2, 3⟩, ⟨3, 1⟩], 0⟩⟩ : Tensor Nat).sumAxes .C none 0 (· + ·) (some [1])) =
    some ([2], [3, 12]) := by decide
example : shown ((⟨List.range 6, ⟨[⟨2, 3⟩, ⟨3, 1⟩], 0⟩⟩ : Tensor Nat).sumAxes .C none 0 (· + ·) (some [0])) =
    some ([3], [3, 5, 7]) := by decide
example : shown ((⟨List.range 16, ⟨[⟨2, 8⟩, ⟨3, 2⟩], 1⟩⟩ : Tensor Nat).sumAxes .C none 0 (· + ·) (some [-2])) =
    some ([3], [10, 14, 18]) := by decide
example : shown (fortyT.sumAxes .C none 0 (· + ·) (some [0])) =
    some ([8], [10, 35, 60, 85, 110, 135, 160, 185]) := by decide
example : shown (fortyT.sumAxes .C none 0 (· + ·) none) = some ([], [780]) := by decide
/-- Threads are started for a large tensor. -/
example : Unstretched bigA ∧ LegalAxes bigA.arr.shape.length [0] ∧ ¬ bigA.layout.size < reduceParSwitch :=
  ⟨⟨by decide, by decide⟩, ⟨by intro a ha; simp at ha; subst ha; exact ⟨by decide, by decide⟩, by decide⟩, by decide⟩
end Rstsr
