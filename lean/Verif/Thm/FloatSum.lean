import Verif.Proof.FloatSum
import Verif.Proof.Race
import Verif.Thm.ReduceAxes
import Mathlib.Algebra.Order.Group.Multiset
/-!
# C100 and C80: reductions with floating-point operations

C38 and C39 assume that the operation of a reduction is associative and commutative. Addition of floats is not.
Here nothing is assumed: whatever the device, the schedule of the threads and the layout, a reduction takes in
every element exactly once, in some order and with some brackets. Error bounds for sums of floats follow, and
what `min` and `max` return when infinities and not-a-number occur.
-/
namespace Rstsr
open Spec
variable {α σ ω : Type}

/-- What a reduction is compared with: the multiset of the elements it has taken in. -/
def collectR (α : Type) : Reducer α (Multiset α) (Multiset α) := ⟨0, fun m x => m + {x}, (· + ·), id⟩

theorem collectR_monoidal (α : Type) : Monoidal (collectR α).init (collectR α).f (collectR α).fSum :=
  ⟨add_assoc, add_comm, zero_add, fun a x => by simp [collectR]⟩

theorem foldl_collect (xs : List α) (m : Multiset α) : xs.foldl (collectR α).f m = m + (xs : Multiset α) := by
  induction xs generalizing m with
  | nil => simp
  | cons x xs ih =>
    rw [List.foldl_cons, ih, ← Multiset.cons_coe, ← Multiset.singleton_add, ← add_assoc]
    rfl

/-- A partial result and the multiset of what went into it. -/
def PutTogether (R : Reducer α σ ω) (s : σ) (m : Multiset α) : Prop :=
  ∃ b : Bracket α, (b.items : Multiset α) = m ∧ s = b.value R.init R.f R.fSum

theorem related_collect (R : Reducer α σ ω) :
    Related (PutTogether R) (fun v m => ∃ s, PutTogether R s m ∧ v = R.fOut s) R (collectR α) where
  init := ⟨.start, rfl, rfl⟩
  f := by
    rintro s m x ⟨b, rfl, rfl⟩
    exact ⟨.feed b x, by simp [Bracket.items, collectR, ← Multiset.coe_add], rfl⟩
  fSum := by
    rintro s m s' m' ⟨b, rfl, rfl⟩ ⟨c, rfl, rfl⟩
    exact ⟨.both b c, by simp [Bracket.items, collectR, ← Multiset.coe_add], rfl⟩
  fOut := fun h => ⟨_, h, rfl⟩

theorem putTogether_iff (R : Reducer α σ ω) (s : σ) (xs : List α) :
    PutTogether R s (xs : Multiset α) ↔ BracketOf R.init R.f R.fSum xs s :=
  ⟨fun ⟨b, h1, h2⟩ => ⟨b, Multiset.coe_eq_coe.1 h1, h2⟩, fun ⟨b, h1, h2⟩ => ⟨b, Multiset.coe_eq_coe.2 h1, h2⟩⟩

/-- Every reduction of all elements, for every operation: it succeeds, and its result is that of putting the
elements together, each of them once. -/
theorem C100_reduce (dflt : Order) (par : Option Scheduler) (hp : Device par) (t : Tensor α) (h : t.WF) (R : Reducer α σ ω) :
    ∃ s, BracketOf R.init R.f R.fSum t.arr.elements s ∧ t.reduce dflt par R = .ok (R.fOut s) := by
  have key := reduce_rel (related_collect R) dflt par t
  rw [C38_reduce dflt par hp t h _ (collectR_monoidal α), foldl_collect] at key
  generalize hx : t.reduce dflt par R = x at key
  generalize hy : (Except.ok ((collectR α).fOut ((collectR α).init + (t.arr.elements : Multiset α))) : Res (Multiset α)) = y at key
  cases key with
  | err e => cases hy
  | ok hv =>
    cases hy
    obtain ⟨s, h1, rfl⟩ := hv
    refine ⟨s, (putTogether_iff R s _).1 ?_, rfl⟩
    simpa [collectR] using h1

section
variable {υ : Type} {O : ω → υ → Prop}

theorem tensorRel_wf {t : Tensor ω} {u : Tensor υ} (hr : TensorRel O t u) (h : u.WF) : t.WF := by
  obtain ⟨hd, hl⟩ := hr
  obtain ⟨d, l⟩ := t
  simp only at hl
  subst hl
  refine ⟨h.1, ?_⟩
  have h2 := h.2
  unfold Tensor.newF at h2 ⊢
  obtain ⟨_, e1, h2⟩ := bind_ok.1 h2
  obtain ⟨⟨mn, mx⟩, e2, h2⟩ := bind_ok.1 h2
  simp only at e1 e2 ⊢
  rw [e1]
  simp only [ok_bind, e2]
  have hlen := hd.length_eq
  by_cases hle : mx ≤ u.data.length
  · rw [if_pos (by simp only at hlen; rw [hlen]; exact hle)]
  · simp only [if_neg hle] at h2
    cases h2

theorem tensorRel_elem {t : Tensor ω} {u : Tensor υ} (hr : TensorRel O t u) {idx : List Nat} {m : υ} (h : u.arr.elem idx = some m) :
    ∃ v, t.arr.elem idx = some v ∧ O v m := by
  obtain ⟨hd, hl⟩ := hr
  have get : ∀ {a : List ω} {b : List υ}, List.Forall₂ O a b → ∀ k : Nat, b[k]? = some m → ∃ v, a[k]? = some v ∧ O v m := by
    intro a b hab
    induction hab with
    | nil => intro k hk; simp at hk
    | cons h1 _ ih =>
      intro k hk
      cases k with
      | zero => simp at hk; subst hk; exact ⟨_, rfl, h1⟩
      | succ k => simpa using ih k (by simpa using hk)
  simp only [Tensor.arr, element] at h ⊢
  rw [hl]
  split at h
  · cases h
  · rename_i hc
    rw [if_neg hc]
    exact get hd _ h

/-- What a related kernel delivers. -/
theorem delivers_rel {run : Res (AxesRun ω (Tensor ω))} {run' : Res (AxesRun υ (Tensor υ))}
    (hr : ResRel (RunRel O (TensorRel O)) run run') {r : Tensor υ} (h : Delivers run' r) : ∃ r', Delivers run r' ∧ TensorRel O r' r := by
  cases hr with
  | err e => rcases h with h | ⟨_, _, _, _, h, _⟩ <;> cases h
  | ok hr =>
    cases hr with
    | done hp =>
      rcases h with h | ⟨_, _, _, _, h, _⟩
      · cases h; exact ⟨_, .inl rfl, hp⟩
      · cases h
    | threads hp hfin =>
      rcases h with h | ⟨p, n, fin, c, h, hc, hf, he⟩
      · cases h
      · cases h
        obtain ⟨c', k1, k2, k3⟩ := computes_rel hp (uninit_rel O _) hc hf
        have := hfin _ _ k3
        rw [he] at this
        rename_i fin0 _
        generalize hx : fin0 c' = x at this
        generalize hy : (Except.ok r : Res (Tensor υ)) = y at this
        cases this with
        | err e => cases hy
        | ok hv => cases hy; exact ⟨_, .inr ⟨_, _, _, c', rfl, k1, k2, hx⟩, hv⟩

end

/-- Every reduction along axes, for every operation: each cell of the result holds what putting together the
elements of its slice gives, each of them once. Missing: tensors with zero lengths or broadcast axes
(`C39_false_*`). -/
theorem C100_axes_partial (dflt : Order) (par : Option (Nat → Scheduler)) (hp : Devices par) (t : Tensor α) (h : t.WF)
    (hu : Unstretched t) (axes : List Int) (hax : LegalAxes t.arr.shape.length axes) (R : Reducer α σ ω) :
    ∃ r, Delivers (t.axesKernel dflt par R axes) r ∧ r.WF ∧
      t.arr.ReducedTo (some (axes.map (normAxis t.arr.shape.length)))
        (fun xs v => ∃ s, BracketOf R.init R.f R.fSum xs s ∧ v = R.fOut s) r.arr := by
  obtain ⟨r, h1, h2, h3, h4⟩ := C39_kernel_partial dflt par hp t h hu axes hax (collectR α) (collectR_monoidal α)
  obtain ⟨r', k1, k2⟩ := delivers_rel (axesKernel_rel (related_collect R) dflt par t axes) h1
  have hs : r'.arr.shape = r.arr.shape := by simp only [Tensor.arr, k2.2]
  refine ⟨r', k1, tensorRel_wf k2 h2, hs.trans h3, fun j hj => ?_⟩
  obtain ⟨m, e1, e2⟩ := h4 j (hs ▸ hj)
  obtain ⟨v, e3, s, e4, e5⟩ := tensorRel_elem k2 e1
  refine ⟨v, e3, s, (putTogether_iff R s _).1 ?_, e5⟩
  rw [foldl_collect] at e2
  simpa [e2, collectR] using e4

/-! ## Sums -/

section
variable {p e : Nat} (hp : 1 ≤ p) (hpe : p ≤ e) {add : Flt → Flt → Flt} (A : NearestAdd p e add)

/-- What a sum of floats is: finite, and its error is at most `(1 + 2⁻ᵖ)ⁿ⁻¹ - 1` times the sum of the absolute
values. -/
def SumWithin (p e : Nat) (xs : List Flt) (v : Flt) : Prop :=
  v.Finite p e ∧ |v.val - (xs.map Flt.val).sum| ≤ ((1 + 1 / 2 ^ p) ^ (xs.length - 1) - 1) * (xs.map fun x => |x.val|).sum

/-- Finite floats far enough from overflow. -/
def SumInRange (p e : Nat) (xs : List Flt) : Prop :=
  (∀ x ∈ xs, x.Finite p e) ∧ (1 + 1 / 2 ^ p) ^ (xs.length - 1) * (xs.map fun x => |x.val|).sum ≤ maxFinite p e

/-- Whole numbers with few digits. -/
def FewDigits (p e : Nat) (xs : List Flt) : Prop :=
  ∃ z : Flt → Int, (∀ x ∈ xs, x.Finite p e ∧ x.val = z x) ∧ (xs.map fun x => |z x|).sum ≤ 2 ^ p

include hp hpe A in
theorem bracketOf_within {xs : List Flt} {v : Flt} (h : BracketOf (.num 0) add add xs v) (hr : SumInRange p e xs) : SumWithin p e xs v := by
  obtain ⟨b, hb, rfl⟩ := h
  have e1 := hb.length_eq
  have e2 := (hb.map Flt.val).sum_eq
  have e3 := (hb.map fun x => |x.val|).sum_eq
  have := bracket_approx hp hpe A hr.2 b (fun x hx => hr.1 x (hb.mem_iff.1 hx)) e1.le e3.le
  rw [e1, e2, e3] at this
  exact ⟨this.fin, this.err⟩

include hp hpe A in
theorem bracketOf_exact {xs : List Flt} {v : Flt} (h : BracketOf (.num 0) add add xs v) (hr : FewDigits p e xs) :
    v.Finite p e ∧ v.val = (xs.map Flt.val).sum := by
  obtain ⟨b, hb, rfl⟩ := h
  obtain ⟨z, h1, h2⟩ := hr
  obtain ⟨k1, k2, -⟩ := bracket_exact hp hpe A b z (fun x hx => h1 x (hb.mem_iff.1 hx)) ((hb.map fun x => |z x|).sum_eq.le.trans h2)
  refine ⟨k1, k2.trans ?_⟩
  have key : ∀ l : List Flt, (∀ x ∈ l, x.val = z x) → ((l.map z).sum : Int) = (l.map Flt.val).sum := by
    intro l hl
    induction l with
    | nil => simp
    | cons x l ih =>
      simp only [List.map_cons, List.sum_cons, Int.cast_add]
      rw [ih fun y hy => hl y (by simp [hy]), hl x (by simp)]
  rw [← (hb.map Flt.val).sum_eq]
  exact key _ fun x hx => (h1 x (hb.mem_iff.1 hx)).2

include A in
theorem bracketOf_nan {xs : List Flt} {v : Flt} {z : Flt} (h : BracketOf z add add xs v) (hr : ∃ x ∈ xs, x.IsNaN) : v.IsNaN := by
  obtain ⟨b, hb, rfl⟩ := h
  obtain ⟨x, hx, hn⟩ := hr
  exact bracket_nan A b ⟨x, hb.mem_iff.2 hx, hn⟩ z

include hp hpe A in
/-- The sum of floats, for every addition that rounds to a nearest float, on every device and for every layout. -/
theorem C100_sum_error (dflt : Order) (par : Option Scheduler) (hd : Device par) (t : Tensor Flt) (h : t.WF)
    (hr : SumInRange p e t.arr.elements) : ∃ v, t.sumAll dflt par (.num 0) add = .ok v ∧ SumWithin p e t.arr.elements v := by
  obtain ⟨s, h1, h2⟩ := C100_reduce dflt par hd t h (sumR (Flt.num 0) add)
  exact ⟨s, h2, bracketOf_within hp hpe A h1 hr⟩

include hp hpe A in
/-- Whole numbers whose absolute values add up to at most `2ᵖ` are added without error, so that the result is the
same on every device. -/
theorem C100_sum_exact (dflt : Order) (par : Option Scheduler) (hd : Device par) (t : Tensor Flt) (h : t.WF)
    (hr : FewDigits p e t.arr.elements) :
    ∃ v, t.sumAll dflt par (.num 0) add = .ok v ∧ v.Finite p e ∧ v.val = (t.arr.elements.map Flt.val).sum := by
  obtain ⟨s, h1, h2⟩ := C100_reduce dflt par hd t h (sumR (Flt.num 0) add)
  exact ⟨s, h2, bracketOf_exact hp hpe A h1 hr⟩

include A in
/-- A sum with not-a-number among the elements is not-a-number. -/
theorem C100_sum_nan (dflt : Order) (par : Option Scheduler) (hd : Device par) (t : Tensor Flt) (h : t.WF)
    (hr : ∃ x ∈ t.arr.elements, x.IsNaN) : ∃ v, t.sumAll dflt par (.num 0) add = .ok v ∧ v.IsNaN := by
  obtain ⟨s, h1, h2⟩ := C100_reduce dflt par hd t h (sumR (Flt.num 0) add)
  exact ⟨s, h2, bracketOf_nan A h1 hr⟩

include hp hpe A in
/-- `sum_axes` of floats: each cell of the result, by the slice it sums. -/
theorem C100_sum_axes_partial (dflt : Order) (par : Option (Nat → Scheduler)) (hd : Devices par) (t : Tensor Flt) (h : t.WF)
    (axes : Option (List Int)) (hf : AxesFine t axes) :
    ∃ r, Delivers (t.sumAxes dflt par (.num 0) add axes) r ∧ r.WF ∧
      t.arr.ReducedTo (axes.map fun ax => ax.map (normAxis t.arr.shape.length))
        (fun xs v => (SumInRange p e xs → SumWithin p e xs v) ∧
          (FewDigits p e xs → v.Finite p e ∧ v.val = (xs.map Flt.val).sum) ∧ ((∃ x ∈ xs, x.IsNaN) → v.IsNaN)) r.arr := by
  refine axesApi_ok (fun _ => ?_) fun ax e => ?_
  · obtain ⟨s, h1, h2⟩ := C100_reduce dflt _ hd.one t h (sumR (Flt.num 0) add)
    exact ⟨s, h2, bracketOf_within hp hpe A h1, bracketOf_exact hp hpe A h1, bracketOf_nan A h1⟩
  · obtain ⟨r, h1, h2, h3⟩ := C100_axes_partial dflt par hd t h (hf ax e).1 ax (hf ax e).2 (sumR (Flt.num 0) add)
    refine ⟨r, h1, h2, ReducedTo.mono h3 fun _ _ v ⟨s, k1, k2⟩ => ?_⟩
    cases k2
    exact ⟨bracketOf_within hp hpe A k1, bracketOf_exact hp hpe A k1, bracketOf_nan A k1⟩

end

/-- The modelled addition is an addition that rounds to a nearest float, for every format. -/
theorem C100_add_nearest {p e : Nat} (hp : 1 ≤ p) (hpe : p ≤ e) : NearestAdd p e (fltAdd p e) := fltAdd_nearest hp hpe

/-! ## Least and greatest -/

theorem top_extended (p e : Nat) : (Flt.num (fltGreatest p e)).extended = some ((maxFinite p e : WithTop ℚ) : WithBot (WithTop ℚ)) := rfl
theorem bot_extended (p e : Nat) : (Flt.num (-fltGreatest p e)).extended = some ((-maxFinite p e : ℚ) : WithTop ℚ) := rfl

/-- Some element is a number below `+∞`. -/
def SomeBelow (p e : Nat) (xs : List Flt) : Prop := ∃ x ∈ xs, x.Finite p e ∨ x = .inf true

/-- Some element is a number above `-∞`. -/
def SomeAbove (p e : Nat) (xs : List Flt) : Prop := ∃ x ∈ xs, x.Finite p e ∨ x = .inf false

theorem finite_extended {p e : Nat} {x : Flt} (h : x.Finite p e) :
    ∃ q : ℚ, x.extended = some ((q : WithTop ℚ) : WithBot (WithTop ℚ)) ∧ |q| ≤ maxFinite p e := by
  obtain ⟨q, h1, h2⟩ := h
  refine ⟨q, ?_, rep_le_max h2⟩
  cases x <;> cases h1 <;> rfl

theorem someBelow_le {p e : Nat} {xs : List Flt} (h : SomeBelow p e xs) :
    ∃ x ∈ xs, ∃ w, x.extended = some w ∧ w ≤ ((maxFinite p e : WithTop ℚ) : WithBot (WithTop ℚ)) := by
  obtain ⟨x, hx, hf | rfl⟩ := h
  · obtain ⟨q, h1, h2⟩ := finite_extended hf
    exact ⟨x, hx, _, h1, WithBot.coe_le_coe.2 (WithTop.coe_le_coe.2 (abs_le.1 h2).2)⟩
  · exact ⟨_, hx, _, rfl, bot_le⟩

theorem le_someAbove {p e : Nat} {xs : List Flt} (h : SomeAbove p e xs) :
    ∃ x ∈ xs, ∃ w, x.extended = some w ∧ (((-maxFinite p e : ℚ) : WithTop ℚ) : WithBot (WithTop ℚ)) ≤ w := by
  obtain ⟨x, hx, hf | rfl⟩ := h
  · obtain ⟨q, h1, h2⟩ := finite_extended hf
    exact ⟨x, hx, _, h1, WithBot.coe_le_coe.2 (WithTop.coe_le_coe.2 (abs_le.1 h2).1)⟩
  · exact ⟨_, hx, _, rfl, WithBot.coe_le_coe.2 le_top⟩

/-- `min_axes` of floats; slices in which every element is `+∞` or not-a-number are left out. -/
theorem C80_min_axes_partial {p e : Nat} (dflt : Order) (par : Option (Nat → Scheduler)) (hd : Devices par) (t : Tensor Flt) (h : t.WF)
    (axes : Option (List Int)) (hf : AxesFine t axes) (hz : t.layout.size ≠ 0) :
    ∃ r, Delivers (t.minAxes dflt par (.num (fltGreatest p e)) fltMin axes) r ∧ r.WF ∧
      t.arr.ReducedTo (axes.map fun ax => ax.map (normAxis t.arr.shape.length))
        (fun xs v => SomeBelow p e xs → LeastNumber xs v) r.arr := by
  refine axesApi_ok (fun _ => ?_) fun ax he => ?_
  · obtain ⟨s, h1, h2⟩ := C100_reduce dflt _ hd.one t h ⟨.num (fltGreatest p e), fltMin, fltMin, id⟩
    refine ⟨s, ?_, fun hr => bracket_least (top_extended p e) h1 (someBelow_le hr)⟩
    rw [Tensor.minAll, if_neg hz]
    exact h2
  · obtain ⟨r, h1, h2, h3⟩ := C100_axes_partial dflt par hd t h (hf ax he).1 ax (hf ax he).2 ⟨.num (fltGreatest p e), fltMin, fltMin, id⟩
    refine ⟨r, by rw [if_neg hz]; exact h1, h2, ReducedTo.mono h3 fun _ _ v ⟨s, k1, k2⟩ => ?_⟩
    cases k2
    exact fun hr => bracket_least (top_extended _ _) k1 (someBelow_le hr)

/-- `max_axes` of floats; slices in which every element is `-∞` or not-a-number are left out. -/
theorem C80_max_axes_partial {p e : Nat} (dflt : Order) (par : Option (Nat → Scheduler)) (hd : Devices par) (t : Tensor Flt) (h : t.WF)
    (axes : Option (List Int)) (hf : AxesFine t axes) (hz : t.layout.size ≠ 0) :
    ∃ r, Delivers (t.maxAxes dflt par (.num (-fltGreatest p e)) fltMax axes) r ∧ r.WF ∧
      t.arr.ReducedTo (axes.map fun ax => ax.map (normAxis t.arr.shape.length))
        (fun xs v => SomeAbove p e xs → GreatestNumber xs v) r.arr := by
  refine axesApi_ok (fun _ => ?_) fun ax he => ?_
  · obtain ⟨s, h1, h2⟩ := C100_reduce dflt _ hd.one t h ⟨.num (-fltGreatest p e), fltMax, fltMax, id⟩
    refine ⟨s, ?_, fun hr => bracket_greatest (bot_extended p e) h1 (le_someAbove hr)⟩
    rw [Tensor.maxAll, if_neg hz]
    exact h2
  · obtain ⟨r, h1, h2, h3⟩ := C100_axes_partial dflt par hd t h (hf ax he).1 ax (hf ax he).2 ⟨.num (-fltGreatest p e), fltMax, fltMax, id⟩
    refine ⟨r, by rw [if_neg hz]; exact h1, h2, ReducedTo.mono h3 fun _ _ v ⟨s, k1, k2⟩ => ?_⟩
    cases k2
    exact fun hr => bracket_greatest (bot_extended _ _) k1 (le_someAbove hr)

/-! ## Concrete cases -/

/-- Four and thirty-one ones, one after the other. -/
def fourOnes : Tensor Flt := ⟨.num 4 :: List.replicate 31 (.num 1), ⟨[⟨32, 1⟩], 0⟩⟩

/-- The same array with gaps between the elements in memory. -/
def fourOnesApart : Tensor Flt := ⟨.num 4 :: .num 9 :: (List.replicate 31 [.num 1, .num 9]).flatten, ⟨[⟨32, 2⟩], 0⟩⟩

theorem fourOnes_wf : fourOnes.WF := ⟨by decide, rfl⟩
theorem fourOnesApart_wf : fourOnesApart.WF := ⟨by decide, rfl⟩
theorem fourOnes_elements : fourOnes.arr.elements = .num 4 :: List.replicate 31 (.num 1) := rfl
theorem fourOnesApart_elements : fourOnesApart.arr.elements = .num 4 :: List.replicate 31 (.num 1) := rfl

theorem okIs {x : Res α} {v : α} (h : (match x with | .ok w => some w | .error _ => none) = some v) : x = .ok v := by
  cases x with
  | error e => cases h
  | ok w => cases h; rfl

/-- Results do depend on the layout: the same numbers, in a format with two digits, add up to 32 or to 4. -/
theorem C100_layout_matters : fourOnes.arr.elements = fourOnesApart.arr.elements ∧
    fourOnes.sumAll .C none (.num 0) (fltAdd 2 20) = .ok (.num 32) ∧
    fourOnesApart.sumAll .C none (.num 0) (fltAdd 2 20) = .ok (.num 4) :=
  ⟨rfl, okIs (by decide +kernel), okIs (by decide +kernel)⟩

theorem fourOnes_range : SumInRange 2 20 fourOnes.arr.elements := by
  rw [fourOnes_elements]
  constructor
  · intro x hx
    rcases List.mem_cons.1 hx with rfl | hx
    · exact ⟨4, rfl, 1, 2, by decide, by decide, by decide, by norm_num⟩
    · rw [(List.mem_replicate.1 hx).2]
      exact ⟨1, rfl, 1, 0, by decide, by decide, by decide, by norm_num⟩
  · simp only [List.length_cons, List.length_replicate, List.map_cons, List.map_replicate, List.sum_cons, List.sum_replicate, Flt.val, Flt.rat?,
      Option.getD_some, maxFinite]
    norm_num

example : ∃ v, fourOnes.sumAll .C (some halving) (.num 0) (fltAdd 2 20) = .ok v ∧ SumWithin 2 20 fourOnes.arr.elements v :=
  C100_sum_error (by decide) (by decide) (fltAdd_nearest (by decide) (by decide)) .C _ (.par halving_fits) fourOnes fourOnes_wf fourOnes_range

/-- With 53 digits the same numbers are added without error. -/
example : ∃ v, fourOnes.sumAll .C (some halving) (.num 0) (fltAdd 53 1023) = .ok v ∧ v.Finite 53 1023 ∧ v.val = 35 := by
  obtain ⟨v, h1, h2, h3⟩ := C100_sum_exact (by decide) (by decide) (fltAdd_nearest (p := 53) (e := 1023) (by decide) (by decide)) .C _
    (.par halving_fits) fourOnes fourOnes_wf ⟨fun x => if x = .num 4 then 4 else 1, by
      rw [fourOnes_elements]
      intro x hx
      rcases List.mem_cons.1 hx with rfl | hx
      · exact ⟨⟨4, rfl, representable_int (n := 4) (by norm_num) (by decide) (by decide)⟩, by simp [Flt.val, Flt.rat?]⟩
      · rw [(List.mem_replicate.1 hx).2]
        exact ⟨⟨1, rfl, by simpa using representable_int (n := 1) (p := 53) (e := 1023) (by norm_num) (by decide) (by decide)⟩, by simp [Flt.val, Flt.rat?]⟩, by
      rw [fourOnes_elements]
      simp⟩
  refine ⟨v, h1, h2, h3.trans ?_⟩
  rw [fourOnes_elements]
  simp [Flt.val, Flt.rat?]
  norm_num

/-- Infinities and not-a-number among the elements. -/
def oddOnes : Tensor Flt := ⟨[.inf false, .nan false, .num 3, .negZero], ⟨[⟨2, 2⟩, ⟨2, 1⟩], 0⟩⟩

theorem oddOnes_wf : oddOnes.WF := ⟨by decide, rfl⟩

example : SomeBelow 53 1023 oddOnes.arr.elements :=
  ⟨.num 3, by decide, .inl ⟨3, rfl, representable_int (n := 3) (by norm_num) (by decide) (by decide)⟩⟩
example : oddOnes.minAll .C none (.num (fltGreatest 53 1023)) fltMin = .ok .negZero := okIs (by decide +kernel)
example : AxesFine oddOnes (some [1]) :=
  fun _ h => by cases h; exact ⟨⟨by decide, by decide⟩, by intro a ha; simp at ha; subst ha; exact ⟨by decide, by decide⟩, by decide⟩
example : ∃ x ∈ oddOnes.arr.elements, x.IsNaN := ⟨.nan false, by decide, false, rfl⟩

end Rstsr
