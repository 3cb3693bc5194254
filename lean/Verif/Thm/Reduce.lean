import Verif.Proof.ReduceHom
import Verif.Thm.Parallel
import Mathlib.Algebra.BigOperators.Group.List.Basic
import Mathlib.Algebra.Field.Basic
import Mathlib.Algebra.CharZero.Defs
import Mathlib.Tactic.FieldSimp
import Mathlib.Tactic.Ring
/-!
# Theorems on full reductions (C38)

`par = none` is the serial device, `par = some s` the parallel one with the scheduler `s`, an arbitrary
choice of how the loops are split and how blocks are chunked. `t.arr.elements` are the elements in row-major
order; a reduction with a commutative monoid is their left fold. Floating-point addition is not associative:
for it the theorems do not apply, and the code gives no such promise.
-/
namespace Rstsr
open Spec

/-- The device is the serial one, or the parallel one with a scheduler that splits within the range. -/
def Device (par : Option Scheduler) : Prop := ∀ s, par = some s → s.Fits

theorem Device.serial : Device none := fun _ h => nomatch h
theorem Device.par {s : Scheduler} (h : s.Fits) : Device (some s) := fun _ e => by cases e; exact h

section
variable {α β σ ω : Type}

/-- Reducing gives the left fold over the elements in row-major order. -/
theorem C38_reduce (dflt : Order) (par : Option Scheduler) (hp : Device par) (t : Tensor α) (h : t.WF)
    (R : Reducer α σ ω) (M : Monoidal R.init R.f R.fSum) :
    t.reduce dflt par R = .ok (R.fOut (t.arr.elements.foldl R.f R.init)) := reduce_eq dflt par hp h M

theorem filterMap_getElem? {γ δ : Type} {f : γ → Option δ} {L : List γ} (h : ∀ i ∈ L, (f i).isSome) (k : Nat) :
    (L.filterMap f)[k]? = L[k]?.bind f := by
  induction L generalizing k with
  | nil => rfl
  | cons i L ih =>
    obtain ⟨x, hx⟩ := Option.isSome_iff_exists.1 (h i (by simp))
    rw [List.filterMap_cons_some hx]
    cases k with
    | zero => simp [hx]
    | succ k => simpa using ih (fun j hj => h j (by simp [hj])) k

/-- The elements in row-major order: the element at every index, at the place of that index; and no others. -/
theorem C38_elements (t : Tensor α) (h : t.WF) :
    t.arr.elements.length = t.arr.shape.prod ∧
    ∀ idx, InRange idx t.arr.shape → t.arr.elements[rank .C t.arr.shape idx]? = t.arr.elem idx := by
  have hs : ∀ i ∈ all .C t.arr.shape, (t.arr.elem i).isSome := by
    intro i hi
    obtain ⟨x, hx⟩ := h.full i (mem_all.1 hi)
    rw [hx]; rfl
  constructor
  · unfold Arr.elements
    rw [List.length_filterMap_eq_countP, List.countP_eq_length.2 hs, length_all]
  · intro idx hi
    unfold Arr.elements
    rw [filterMap_getElem? hs]
    have : (all .C t.arr.shape)[rank .C t.arr.shape idx]? = some idx := by
      have hlt : rank .C t.arr.shape idx < (all .C t.arr.shape).length := by rw [length_all]; exact rank_lt hi
      rw [List.getElem?_eq_getElem hlt]
      congr 1
      have hm := mem_all.1 (List.getElem_mem hlt)
      exact (rank_inj hi hm (rank_all_getElem hlt).symm).symm
    rw [this]; rfl

theorem elements_ne {t : Tensor α} (h : t.WF) : t.layout.size ≠ 0 ↔ t.arr.elements ≠ [] := by
  rw [← List.length_pos_iff, (C38_elements t h).1]
  exact Nat.pos_iff_ne_zero.symm

theorem foldl_sum [AddCommMonoid α] (l : List α) (a : α) : l.foldl (· + ·) a = a + l.sum := by
  induction l generalizing a with
  | nil => simp
  | cons x l ih => simp [ih, add_assoc]

theorem foldl_prod [CommMonoid α] (l : List α) (a : α) : l.foldl (· * ·) a = a * l.prod := by
  induction l generalizing a with
  | nil => simp
  | cons x l ih => simp [ih, mul_assoc]

/-- `sum`. -/
theorem C38_sum [AddCommMonoid α] (dflt : Order) (par : Option Scheduler) (hp : Device par) (t : Tensor α) (h : t.WF) :
    t.sumAll dflt par 0 (· + ·) = .ok t.arr.elements.sum := by
  unfold Tensor.sumAll
  rw [C38_reduce dflt par hp t h (sumR 0 (· + ·)) ⟨add_assoc, add_comm, zero_add, fun a x => by simp [sumR]⟩]
  simp [sumR, foldl_sum]

/-- `prod`. -/
theorem C38_prod [CommMonoid α] (dflt : Order) (par : Option Scheduler) (hp : Device par) (t : Tensor α) (h : t.WF) :
    t.prodAll dflt par 1 (· * ·) = .ok t.arr.elements.prod := by
  unfold Tensor.prodAll
  rw [C38_reduce dflt par hp t h ⟨1, (· * ·), (· * ·), id⟩ ⟨mul_assoc, mul_comm, one_mul, fun a x => by simp⟩]
  simp [foldl_prod]

theorem foldl_min [LinearOrder α] (l : List α) (a : α) :
    (l.foldl min a = a ∨ l.foldl min a ∈ l) ∧ l.foldl min a ≤ a ∧ ∀ x ∈ l, l.foldl min a ≤ x := by
  induction l generalizing a with
  | nil => simp
  | cons x l ih =>
    obtain ⟨h1, h2, h3⟩ := ih (min a x)
    simp only [List.foldl_cons, List.mem_cons, forall_eq_or_imp]
    refine ⟨?_, h2.trans (min_le_left _ _), h2.trans (min_le_right _ _), h3⟩
    rcases h1 with h1 | h1
    · rw [h1]
      rcases min_choice a x with h | h
      · exact .inl h
      · exact .inr (.inl h)
    · exact .inr (.inr h1)

theorem foldl_max [LinearOrder α] (l : List α) (a : α) :
    (l.foldl max a = a ∨ l.foldl max a ∈ l) ∧ a ≤ l.foldl max a ∧ ∀ x ∈ l, x ≤ l.foldl max a :=
  foldl_min (α := αᵒᵈ) l a

/-- `min`: the least element; an empty tensor is rejected. `top`, the largest finite value of the type, is not below
any element (see `C38_false_infinite`). -/
theorem C38_min [LinearOrder α] (dflt : Order) (par : Option Scheduler) (hp : Device par) (t : Tensor α) (h : t.WF)
    (top : α) (htop : ∀ x ∈ t.arr.elements, x ≤ top) :
    (t.arr.elements = [] → t.minAll dflt par top min = .error .invalidValue) ∧
    (t.arr.elements ≠ [] → ∃ m, t.minAll dflt par top min = .ok m ∧ m ∈ t.arr.elements ∧ ∀ x ∈ t.arr.elements, m ≤ x) := by
  constructor
  · intro he
    unfold Tensor.minAll
    rw [if_pos (by by_contra hn; exact (elements_ne h).1 hn he)]
  · intro he
    unfold Tensor.minAll
    rw [if_neg ((elements_ne h).2 he), reduce_min dflt par hp h top]
    obtain ⟨h1, -, h3⟩ := foldl_min t.arr.elements top
    refine ⟨_, rfl, ?_, h3⟩
    rcases h1 with h1 | h1
    · obtain ⟨x, hx⟩ := List.exists_mem_of_ne_nil _ he
      have : x = top := le_antisymm (htop x hx) (h1 ▸ h3 x hx)
      show t.arr.elements.foldl min top ∈ _
      rw [h1, ← this]; exact hx
    · exact h1

/-- `max`: the greatest element; an empty tensor is rejected. `bot`, the smallest finite value of the type, is not
above any element. -/
theorem C38_max [LinearOrder α] (dflt : Order) (par : Option Scheduler) (hp : Device par) (t : Tensor α) (h : t.WF)
    (bot : α) (hbot : ∀ x ∈ t.arr.elements, bot ≤ x) :
    (t.arr.elements = [] → t.maxAll dflt par bot max = .error .invalidValue) ∧
    (t.arr.elements ≠ [] → ∃ m, t.maxAll dflt par bot max = .ok m ∧ m ∈ t.arr.elements ∧ ∀ x ∈ t.arr.elements, x ≤ m) := by
  constructor
  · intro he
    unfold Tensor.maxAll
    rw [if_pos (by by_contra hn; exact (elements_ne h).1 hn he)]
  · intro he
    unfold Tensor.maxAll
    rw [if_neg ((elements_ne h).2 he), reduce_max dflt par hp h bot]
    obtain ⟨h1, -, h3⟩ := foldl_max t.arr.elements bot
    refine ⟨_, rfl, ?_, h3⟩
    rcases h1 with h1 | h1
    · obtain ⟨x, hx⟩ := List.exists_mem_of_ne_nil _ he
      have : x = bot := le_antisymm (h1 ▸ h3 x hx) (hbot x hx)
      show t.arr.elements.foldl max bot ∈ _
      rw [h1, ← this]; exact hx
    · exact h1

/-- `mean`: the sum divided by the number of elements. -/
theorem C38_mean [Field α] (dflt : Order) (par : Option Scheduler) (hp : Device par) (t : Tensor α) (h : t.WF) :
    t.meanAll dflt par 0 (· + ·) (· / ·) (fun n => (n : α)) =
      .ok (t.arr.elements.sum / (t.arr.elements.length : α)) := by
  unfold Tensor.meanAll
  rw [C38_reduce dflt par hp t h ⟨0, (· + ·), (· + ·), fun acc => acc / (t.layout.size : α)⟩
    ⟨add_assoc, add_comm, zero_add, fun a x => by simp⟩, (C38_elements t h).1]
  simp only [foldl_sum, zero_add]
  rfl

theorem foldl_moments [Field α] (l : List α) (p : α × α) :
    l.foldl (fun acc x => (acc.1 + x, acc.2 + x * x)) p = (p.1 + l.sum, p.2 + (l.map fun x => x * x).sum) := by
  induction l generalizing p with
  | nil => simp
  | cons x l ih => simp [ih, add_assoc]

theorem moments [Field α] : Monoidal (α := α) ((0, 0) : α × α) (fun acc x => (acc.1 + x, acc.2 + x * x))
    (fun p q => (p.1 + q.1, p.2 + q.2)) :=
  ⟨fun _ _ _ => by simp [add_assoc], fun _ _ => by simp [add_comm], fun _ => by simp, fun _ _ => by simp⟩

theorem sum_dev [Field α] (l : List α) (m : α) :
    (l.map fun x => (x - m) * (x - m)).sum =
      (l.map fun x => x * x).sum - 2 * m * l.sum + (l.length : α) * (m * m) := by
  induction l with
  | nil => simp
  | cons x l ih => simp only [List.map_cons, List.sum_cons, ih, List.length_cons, Nat.cast_succ]; ring

theorem var_eq [Field α] [CharZero α] {l : List α} (hl : l ≠ []) :
    (l.map fun x => x * x).sum / (l.length : α) - l.sum / (l.length : α) * (l.sum / (l.length : α)) =
      (l.map fun x => (x - l.sum / (l.length : α)) * (x - l.sum / (l.length : α))).sum / (l.length : α) := by
  rw [sum_dev]
  have hn : (l.length : α) ≠ 0 := Nat.cast_ne_zero.2 (by simpa using hl)
  field_simp
  ring

/-- `var`: the mean of the squared deviations from the mean. -/
theorem C38_var [Field α] [CharZero α] (dflt : Order) (par : Option Scheduler) (hp : Device par) (t : Tensor α)
    (h : t.WF) (hne : t.arr.elements ≠ []) :
    let n := (t.arr.elements.length : α)
    let mean := t.arr.elements.sum / n
    t.varAll dflt par 0 (· + ·) (· - ·) (· * ·) (· / ·) (fun n => (n : α)) =
      .ok ((t.arr.elements.map fun x => (x - mean) * (x - mean)).sum / n) := by
  unfold Tensor.varAll
  simp only
  rw [C38_reduce dflt par hp t h ⟨(0, 0), _, _, _⟩ moments, ← var_eq hne, (C38_elements t h).1]
  simp only [foldl_moments, zero_add]
  rfl

/-- `std`: the square root of the variance. -/
theorem C38_std [Field α] [CharZero α] (sqrt : α → α) (dflt : Order) (par : Option Scheduler) (hp : Device par)
    (t : Tensor α) (h : t.WF) (hne : t.arr.elements ≠ []) :
    let n := (t.arr.elements.length : α)
    let mean := t.arr.elements.sum / n
    t.stdAll dflt par 0 (· + ·) (· - ·) (· * ·) (· / ·) (fun n => (n : α)) sqrt =
      .ok (sqrt ((t.arr.elements.map fun x => (x - mean) * (x - mean)).sum / n)) := by
  unfold Tensor.stdAll
  simp only
  rw [C38_reduce dflt par hp t h ⟨(0, 0), _, _, _⟩ moments, ← var_eq hne, (C38_elements t h).1]
  simp only [foldl_moments, zero_add]
  rfl

theorem foldl_squares [Semiring α] (l : List α) (a : α) :
    l.foldl (fun acc x => acc + x * x) a = a + (l.map fun x => x * x).sum := by
  induction l generalizing a with
  | nil => simp
  | cons x l ih => simp [ih, add_assoc]

/-- `l2_norm`: the square root of the sum of the squares. -/
theorem C38_l2_norm [Semiring α] (sqrt : α → α) (dflt : Order) (par : Option Scheduler) (hp : Device par)
    (t : Tensor α) (h : t.WF) :
    t.l2NormAll dflt par 0 (· + ·) (· * ·) sqrt = .ok (sqrt (t.arr.elements.map fun x => x * x).sum) := by
  unfold Tensor.l2NormAll
  rw [C38_reduce dflt par hp t h ⟨0, fun acc x => acc + x * x, (· + ·), sqrt⟩
    ⟨add_assoc, add_comm, zero_add, fun a x => by simp⟩]
  simp only [foldl_squares, zero_add]

theorem foldl_and (l : List Bool) (a : Bool) : l.foldl and a = (a && l.all id) := by
  induction l generalizing a with
  | nil => simp
  | cons x l ih => simp [ih, Bool.and_assoc]

theorem foldl_or (l : List Bool) (a : Bool) : l.foldl or a = (a || l.any id) := by
  induction l generalizing a with
  | nil => simp
  | cons x l ih => simp [ih, Bool.or_assoc]

/-- `all`: true exactly when every element is true. -/
theorem C38_all (dflt : Order) (par : Option Scheduler) (hp : Device par) (t : Tensor Bool) (h : t.WF) :
    ∃ r, t.allAll dflt par = .ok r ∧ (r = true ↔ ∀ x ∈ t.arr.elements, x = true) := by
  unfold Tensor.allAll
  rw [C38_reduce dflt par hp t h ⟨true, and, and, id⟩ ⟨Bool.and_assoc, Bool.and_comm, Bool.true_and, fun a x => by simp⟩]
  exact ⟨_, rfl, by simp [foldl_and]⟩

/-- `any`: true exactly when some element is true. -/
theorem C38_any (dflt : Order) (par : Option Scheduler) (hp : Device par) (t : Tensor Bool) (h : t.WF) :
    ∃ r, t.anyAll dflt par = .ok r ∧ (r = true ↔ ∃ x ∈ t.arr.elements, x = true) := by
  unfold Tensor.anyAll
  rw [C38_reduce dflt par hp t h ⟨false, or, or, id⟩ ⟨Bool.or_assoc, Bool.or_comm, Bool.false_or, fun a x => by simp⟩]
  exact ⟨_, rfl, by simp [foldl_or]⟩

theorem foldl_count (p : α → Bool) (l : List α) (a : Nat) :
    l.foldl (fun acc x => if p x then acc else acc + 1) a = a + l.countP (fun x => !p x) := by
  induction l generalizing a with
  | nil => simp
  | cons x l ih =>
    simp only [List.foldl_cons, ih, List.countP_cons]
    cases p x <;> simp <;> omega

/-- `count_nonzero`: the number of elements that are not zero. -/
theorem C38_count_nonzero (isZero : α → Bool) (dflt : Order) (par : Option Scheduler) (hp : Device par)
    (t : Tensor α) (h : t.WF) :
    t.countNonzeroAll dflt par isZero = .ok (t.arr.elements.countP fun x => !isZero x) := by
  unfold Tensor.countNonzeroAll
  rw [C38_reduce dflt par hp t h ⟨0, fun acc x => if isZero x then acc else acc + 1, (· + ·), id⟩
    ⟨Nat.add_assoc, Nat.add_comm, Nat.zero_add, fun a x => by cases hx : isZero x <;> simp [hx]⟩]
  simp only [foldl_count, Nat.zero_add]
  rfl

theorem foldl_countTrue (l : List Bool) (a : Nat) : l.foldl countTrue a = a + l.countP fun x => x := by
  induction l generalizing a with
  | nil => simp
  | cons x l ih => simp only [List.foldl_cons, ih, List.countP_cons]; cases x <;> simp [countTrue] <;> omega

/-- The sum of a boolean tensor: the number of true elements. -/
theorem C38_sum_bool (dflt : Order) (par : Option Scheduler) (hp : Device par) (t : Tensor Bool) (h : t.WF) :
    t.sumBoolAll dflt par = .ok (t.arr.elements.countP fun x => x) := by
  unfold Tensor.sumBoolAll
  rw [C38_reduce dflt par hp t h ⟨0, countTrue, (· + ·), id⟩
    ⟨Nat.add_assoc, Nat.add_comm, Nat.zero_add, fun a x => by cases x <;> simp [countTrue]⟩]
  simp only [foldl_countTrue, Nat.zero_add]
  rfl

theorem pairs_cells {s : List Nat} {A : Arr α} {B : Arr β} {a : List α} {b : List β} {la lb : Layout} {c : α × β → σ}
    (hA : A.shape = s) (ga : ∀ i, InRange i s → ∃ x, a[la.pos i]? = some x ∧ A.elem i = some x)
    (gb : ∀ i, InRange i s → ∃ x, b[lb.pos i]? = some x ∧ B.elem i = some x)
    {R : Reducer (α × β) σ ω} (hc : c = fun p => R.f R.init p) :
    ((all .C s).map fun i => (la.pos i, lb.pos i)).map (cellVal2 R a b) = (A.pairs B).map c := by
  subst hA hc
  unfold Arr.pairs
  have key : ∀ L : List (List Nat), (∀ i ∈ L, InRange i A.shape) →
      (L.map fun i => (la.pos i, lb.pos i)).map (cellVal2 R a b) =
        (L.filterMap fun idx => (A.elem idx).bind fun x => (B.elem idx).map fun y => (x, y)).map fun p => R.f R.init p := by
    intro L
    induction L with
    | nil => intro _; rfl
    | cons i L ih =>
      intro hL
      obtain ⟨x, h1, h2⟩ := ga i (hL i (by simp))
      obtain ⟨y, h3, h4⟩ := gb i (hL i (by simp))
      have e : ((A.elem i).bind fun x => (B.elem i).map fun y => (x, y)) = some (x, y) := by rw [h2, h4]; rfl
      simp only [List.map_cons]
      rw [List.filterMap_cons_some (f := fun idx => (A.elem idx).bind fun x => (B.elem idx).map fun y => (x, y)) e,
        List.map_cons, ih fun j hj => hL j (by simp [hj])]
      congr 1
      unfold cellVal2
      simp [h1, h3]
  exact key _ fun i hi => mem_all.1 hi

/-- `allclose`: shapes that do not broadcast and empty operands are rejected; otherwise the answer is true
exactly when the elements that meet at every index of the common shape are close. -/
theorem C38_allclose (dflt dev : Order) (par : Option Scheduler) (hp : Device par) (close : α → β → Bool)
    (a : Tensor α) (b : Tensor β) (ha : a.WF) (hb : b.WF) :
    (¬ Compatible dev a.arr.shape b.arr.shape → allcloseAll dflt dev par close a b = .error .invalidLayout) ∧
    ∀ s, BroadcastOf dev a.arr.shape b.arr.shape s →
      (s.prod = 0 → allcloseAll dflt dev par close a b = .error .invalidValue) ∧
      (s.prod ≠ 0 → ∃ r, allcloseAll dflt dev par close a b = .ok r ∧
        (r = true ↔ ∀ idx, InRange idx s → ∀ x y, a.arr.elem (stretchIndex dev a.arr.shape idx) = some x →
          b.arr.elem (stretchIndex dev b.arr.shape idx) = some y → close x y = true)) := by
  constructor
  · intro hn
    unfold allcloseAll
    rw [C17_reject a.layout b.layout dev hn]
    rfl
  · intro s hs
    have hc : Compatible dev a.layout.shape b.layout.shape := by
      intro k
      by_cases hk : k < s.length
      · obtain ⟨h1, h2, h3⟩ := hs.2 k hk
        rcases h1 with h1 | h1
        · rcases h2 with h2 | h2
          · exact .inl (h1.trans h2.symm)
          · exact .inr (.inr h2)
        · exact .inr (.inl h1)
      · left
        have hl : a.layout.shape.length ≤ k ∧ b.layout.shape.length ≤ k := by
          have := hs.1
          have e1 : a.arr.shape.length = a.layout.shape.length := rfl
          have e2 : b.arr.shape.length = b.layout.shape.length := rfl
          omega
        cases dev <;> simp [axisAt, List.getD_eq_getElem?_getD, hl.1, hl.2]
    obtain ⟨⟨la, lb⟩, hr⟩ := (C17_accept_iff a.layout b.layout dev).2 hc
    obtain ⟨h1, fa, fb, ca, cb, ga, gb⟩ := bc_facts ha hb hr
    have hss : la.shape = s := broadcastOf_unique h1 hs
    have hsb : lb.size = la.size := by unfold Layout.size; rw [fb.shape]
    constructor
    · intro h0
      unfold allcloseAll
      rw [hr]
      simp only [ok_bind]
      rw [if_pos (.inl (by unfold Layout.size; rw [hss]; exact h0))]
    · intro h0
      have hla : la.size ≠ 0 := by unfold Layout.size; rw [hss]; exact h0
      let R : Reducer (α × β) Bool Bool := ⟨true, fun acc p => acc && close p.1 p.2, and, id⟩
      have M : Monoidal R.init R.f R.fSum :=
        ⟨Bool.and_assoc, Bool.and_comm, Bool.true_and, fun a x => by simp [R]⟩
      let A : Arr α := ⟨la.shape, fun i => a.arr.elem (stretchIndex dev a.layout.shape i)⟩
      let B : Arr β := ⟨la.shape, fun i => b.arr.elem (stretchIndex dev b.layout.shape i)⟩
      have hval : allcloseAll dflt dev par close a b = .ok (R.fOut (total R.init R.fSum ((A.pairs B).map (R.f R.init)))) := by
        rw [← pairs_cells (R := R) (A := A) (B := B) (s := la.shape) rfl ga gb rfl]
        unfold allcloseAll
        rw [hr]
        simp only [ok_bind]
        rw [if_neg (by rw [hsb]; simp [hla])]
        cases par with
        | none => exact reduceAllBinary_eq dflt fa fb M ca cb
        | some s => exact reduceAllBinaryPar_eq dflt (hp s rfl) fa fb M ca cb
      refine ⟨_, hval, ?_⟩
      rw [← foldl_init M]
      have key : ∀ (l : List (α × β)) (acc : Bool), l.foldl R.f acc = (acc && l.all fun p => close p.1 p.2) := by
        intro l
        induction l with
        | nil => simp
        | cons x l ih => intro acc; simp [ih, R, Bool.and_assoc]
      show (A.pairs B).foldl R.f true = true ↔ _
      rw [key, Bool.true_and, List.all_eq_true]
      unfold Arr.pairs
      simp only [List.mem_filterMap]
      constructor
      · intro h idx hi x y hx hy
        refine h (x, y) ⟨idx, mem_all.2 (show InRange idx la.shape by rw [hss]; exact hi), ?_⟩
        show ((a.arr.elem (stretchIndex dev a.arr.shape idx)).bind fun x =>
          (b.arr.elem (stretchIndex dev b.arr.shape idx)).map fun y => (x, y)) = _
        rw [hx, hy]; rfl
      · rintro h ⟨x, y⟩ ⟨idx, hi, he⟩
        obtain ⟨x', hx, he⟩ := Option.bind_eq_some_iff.1 he
        obtain ⟨y', hy, he⟩ := Option.map_eq_some_iff.1 he
        cases he
        have hi := mem_all.1 hi
        exact h idx (hss ▸ hi) _ _ hx hy

end

/-! ## Concrete cases -/

/-- A 5 × 8 tensor, columns first and reversed along the first axis. -/
def fortyT : Tensor Nat := ⟨List.range 40, ⟨[⟨5, -1⟩, ⟨8, 5⟩], 4⟩⟩

theorem fortyT_wf : fortyT.WF := ⟨by decide, rfl⟩

example : fortyT.WF ∧ Device (some halving) ∧ fortyT.arr.elements.take 3 = [4, 9, 14] :=
  ⟨fortyT_wf, .par halving_fits, by decide⟩
example : fortyT.sumAll .C none 0 (· + ·) = .ok 780 :=
  (C38_sum .C none .serial fortyT fortyT_wf).trans (by decide)
example : bigA.sumAll .C (some halving) 0 (· + ·) = .ok bigA.arr.elements.sum :=
  C38_sum .C _ (.par halving_fits) bigA big_wf.2
example : (1024 : Nat) ≤ bigA.layout.size := by decide
/-- The eight-way loop is used: a block of 40 elements is one contiguous piece. -/
example : reduceContigSwitch ≤ (Layout.withContig [⟨[⟨40, 1⟩], 0⟩]).2 := by decide

/-- Distinct values in a layout with a stretched axis. -/
def stretchedT : Tensor Bool := ⟨[true, false, true], ⟨[⟨3, 1⟩, ⟨2, 0⟩], 0⟩⟩
example : stretchedT.WF ∧ stretchedT.arr.elements = [true, true, false, false, true, true] :=
  ⟨⟨by decide, rfl⟩, by decide⟩
example : stretchedT.allAll .C none = .ok false ∧ stretchedT.anyAll .C none = .ok true ∧
    stretchedT.sumBoolAll .C none = .ok 4 ∧ stretchedT.countNonzeroAll .C none (fun x => !x) = .ok 4 := by decide

example : allcloseAll .C .C none (fun x y : Nat => x == y) ⟨[1, 2], ⟨[⟨2, 1⟩], 0⟩⟩ ⟨[1, 2, 1, 2], ⟨[⟨2, 2⟩, ⟨2, 1⟩], 0⟩⟩ =
    .ok true := by decide
example : BroadcastOf .C [2] [2, 2] [2, 2] := ⟨rfl, by decide⟩

end Rstsr
