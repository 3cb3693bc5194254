import Verif.Model.Machine
import Verif.Spec.Word
import Verif.Thm.Args
import Verif.Thm.AsArray
/-! # Lemmas about arithmetic of the machine -/
namespace Rstsr
open Spec

namespace Machine
variable {m : Machine}

theorem isize_ok {x : Int} (h : HasIsize m.w x) : m.isize x = .ok x := if_pos h

theorem usize_ok {x : Nat} (h : x < 2 ^ m.w) : m.usize x = .ok x := if_pos h

theorem asIsize_ok (hw : 0 < m.w) {x : Int} (h : HasIsize m.w x) : asIsize m.w x = x := asIsize_of hw h

theorem two_pow (hw : 0 < m.w) : (2 : Nat) ^ m.w = 2 * 2 ^ (m.w - 1) := by
  obtain ⟨k, hk⟩ : ∃ k, m.w = k + 1 := ⟨m.w - 1, by omega⟩
  rw [hk, Nat.add_sub_cancel]; ring

theorem two_pow_int (hw : 0 < m.w) : (2 : Int) ^ m.w = 2 * 2 ^ (m.w - 1) := by
  have := two_pow hw
  exact_mod_cast this

theorem asUsize_ok (hw : 0 < m.w) {x : Int} (h0 : 0 ≤ x) (h : x < 2 ^ (m.w - 1)) : m.asUsize x = x.toNat := by
  unfold asUsize
  have := two_pow_int hw
  rw [Int.emod_eq_of_lt h0 (by omega)]

/-! ## Products -/

theorem one_le_prod_max (ds : List Nat) : 1 ≤ (ds.map (max 1)).prod := by
  induction ds with
  | nil => simp
  | cons d ds ih =>
    rw [List.map_cons, List.prod_cons]
    exact Nat.mul_le_mul (Nat.le_max_left 1 d) ih

theorem le_prod_max {ds : List Nat} {d : Nat} (h : d ∈ ds) : d ≤ (ds.map (max 1)).prod := by
  induction ds with
  | nil => cases h
  | cons e ds ih =>
    rw [List.map_cons, List.prod_cons]
    have h1 := one_le_prod_max ds
    rcases List.mem_cons.1 h with rfl | h
    · calc d ≤ max 1 d * 1 := by rw [Nat.mul_one]; exact Nat.le_max_right 1 d
        _ ≤ _ := Nat.mul_le_mul_left _ h1
    · calc d ≤ 1 * (ds.map (max 1)).prod := by rw [Nat.one_mul]; exact ih h
        _ ≤ _ := Nat.mul_le_mul_right _ (Nat.le_max_left 1 e)

theorem step_le (acc d : Nat) (p : Nat) : acc * d * p ≤ acc * (max 1 d * p) := by
  rw [Nat.mul_assoc]
  exact Nat.mul_le_mul_left _ (Nat.mul_le_mul_right _ (Nat.le_max_right 1 d))

theorem le_mul_prod (acc : Nat) (ds : List Nat) : acc ≤ acc * (ds.map (max 1)).prod :=
  Nat.le_mul_of_pos_right _ (one_le_prod_max ds)

theorem product_ok {ds : List Nat} {acc : Nat} (h : acc * (ds.map (max 1)).prod < 2 ^ m.w) :
    m.product acc ds = .ok (acc * ds.prod) := by
  induction ds generalizing acc with
  | nil => simp [product]
  | cons d ds ih =>
    rw [List.map_cons, List.prod_cons] at h
    have h1 := Nat.lt_of_le_of_lt (step_le acc d _) h
    unfold product
    rw [usize_ok (Nat.lt_of_le_of_lt (le_mul_prod _ ds) h1)]
    simp only [ok_bind]
    rw [ih h1, List.prod_cons, Nat.mul_assoc]

theorem fStrides_ok (hw : 0 < m.w) {ds : List Nat} {acc : Nat} (hd : ∀ d ∈ ds, d < 2 ^ (m.w - 1))
    (h : acc * (ds.map (max 1)).prod < 2 ^ (m.w - 1)) : m.fStrides acc ds = .ok (Rstsr.fStrides acc ds) := by
  induction ds generalizing acc with
  | nil => rfl
  | cons d ds ih =>
    cases ds with
    | nil => rfl
    | cons e es =>
      rw [List.map_cons, List.prod_cons] at h
      have h1 := Nat.lt_of_le_of_lt (step_le acc d _) h
      have h2 := Nat.lt_of_le_of_lt (le_mul_prod _ _) h1
      have hd0 := hd d List.mem_cons_self
      have c1 : asIsize m.w (d : Int) = d :=
        asIsize_ok hw ⟨by have : (0 : Int) < 2 ^ (m.w - 1) := by positivity
                          omega, by exact_mod_cast hd0⟩
      have c2 : m.isize ((acc : Int) * d) = .ok ((acc * d : Nat) : Int) := by
        rw [isize_ok ⟨by have : (0 : Int) < 2 ^ (m.w - 1) := by positivity
                         have : (0 : Int) ≤ acc * d := by positivity
                         omega, by exact_mod_cast h2⟩]
        push_cast; rfl
      unfold fStrides
      rw [c1, c2]
      simp only [ok_bind]
      rw [ih (fun x hx => hd x (List.mem_cons_of_mem _ hx)) h1]
      simp [Rstsr.fStrides, pure_eq_ok]

theorem contigLoop_ok (hw : 0 < m.w) {as : List Axis} {acc : Nat} (hd : ∀ a ∈ as, a.dim < 2 ^ (m.w - 1))
    (h : acc * ((dims as).map (max 1)).prod < 2 ^ (m.w - 1)) : m.contigLoop acc as = .ok (Layout.contigLoop acc as) := by
  induction as generalizing acc with
  | nil => rfl
  | cons a as ih =>
    rw [dims, List.map_cons, List.map_cons, List.prod_cons] at h
    have h1 := Nat.lt_of_le_of_lt (step_le acc a.dim _) h
    have h2 := Nat.lt_of_le_of_lt (le_mul_prod _ _) h1
    have hd0 := hd a List.mem_cons_self
    unfold contigLoop Layout.contigLoop
    split
    · rfl
    · have c1 : asIsize m.w (a.dim : Int) = a.dim :=
        asIsize_ok hw ⟨by have : (0 : Int) < 2 ^ (m.w - 1) := by positivity
                          omega, by exact_mod_cast hd0⟩
      have c2 : m.isize ((acc : Int) * a.dim) = .ok ((acc * a.dim : Nat) : Int) := by
        rw [isize_ok ⟨by have : (0 : Int) < 2 ^ (m.w - 1) := by positivity
                         have : (0 : Int) ≤ acc * a.dim := by positivity
                         omega, by exact_mod_cast h2⟩]
        push_cast; rfl
      rw [c1, c2]
      simp only [ok_bind]
      rw [ih (fun x hx => hd x (List.mem_cons_of_mem _ hx)) h1]
      simp [pure_eq_ok]

/-! ## Positions -/

/-- The reach of a list of axes. -/
def upOf (as : List Axis) : Nat := reachUp (as.map (·.dim)) (as.map (·.str))
def downOf (as : List Axis) : Nat := reachDown (as.map (·.dim)) (as.map (·.str))

theorem upOf_cons (a : Axis) (as : List Axis) : upOf (a :: as) = (a.dim - 1) * a.str.toNat + upOf as := rfl
theorem downOf_cons (a : Axis) (as : List Axis) : downOf (a :: as) = (a.dim - 1) * (-a.str).toNat + downOf as := rfl

/-- Steps along one axis stay within its reach. -/
theorem term_bounds {d i : Nat} {s : Int} (h : i < d) :
    -(((d - 1) * (-s).toNat : Nat) : Int) ≤ s * i ∧ s * i ≤ (((d - 1) * s.toNat : Nat) : Int) := by
  have h1 : (i : Int) ≤ ((d - 1 : Nat) : Int) := by omega
  have h0 : (0 : Int) ≤ i := by omega
  rw [Nat.cast_mul, Nat.cast_mul]
  rcases Int.le_total 0 s with hs | hs
  · have e1 : (((-s).toNat : Nat) : Int) = 0 := by omega
    have e2 : ((s.toNat : Nat) : Int) = s := by omega
    rw [e1, e2]
    exact ⟨by simpa using Int.mul_nonneg hs h0, by nlinarith⟩
  · have e1 : (((-s).toNat : Nat) : Int) = -s := by omega
    have e2 : ((s.toNat : Nat) : Int) = 0 := by omega
    rw [e1, e2]
    exact ⟨by nlinarith, by simpa using Int.mul_nonpos_of_nonpos_of_nonneg hs h0⟩

structure Room (m : Machine) (pos : Int) (as : List Axis) : Prop where
  up : upOf as < 2 ^ (m.w - 1)
  down : downOf as < 2 ^ (m.w - 1)
  hi : pos + upOf as < 2 ^ (m.w - 1)
  lo : -2 ^ (m.w - 1) ≤ pos - downOf as

theorem powCast (k : Nat) : (2 : Int) ^ k = ((2 ^ k : Nat) : Int) := by push_cast; rfl

theorem Room.step {pos : Int} {a : Axis} {as : List Axis} (h : Room m pos (a :: as)) {i : Nat} (hi : i < a.dim) :
    m.isize (a.str * i) = .ok (a.str * i) ∧ m.isize (pos + a.str * i) = .ok (pos + a.str * i) ∧
      Room m (pos + a.str * i) as := by
  obtain ⟨h1, h2, h3, h4⟩ := h
  rw [upOf_cons] at h1 h3
  rw [downOf_cons] at h2 h4
  obtain ⟨t1, t2⟩ := term_bounds (s := a.str) hi
  have key : HasIsize m.w (a.str * i) ∧ HasIsize m.w (pos + a.str * i) ∧ Room m (pos + a.str * i) as := by
    have : Room m (pos + a.str * i) as ↔ (upOf as < 2 ^ (m.w - 1) ∧ downOf as < 2 ^ (m.w - 1) ∧
        pos + a.str * i + upOf as < 2 ^ (m.w - 1) ∧ -2 ^ (m.w - 1) ≤ pos + a.str * i - downOf as) :=
      ⟨fun h => ⟨h.1, h.2, h.3, h.4⟩, fun h => ⟨h.1, h.2.1, h.2.2.1, h.2.2.2⟩⟩
    rw [this]
    unfold HasIsize
    rw [powCast] at h3 h4 ⊢
    generalize (2 : Nat) ^ (m.w - 1) = N at *
    generalize a.str * (i : Int) = t at *
    generalize (a.dim - 1) * a.str.toNat = u at *
    generalize (a.dim - 1) * (-a.str).toNat = d at *
    omega
  exact ⟨isize_ok key.1, isize_ok key.2.1, key.2.2⟩

theorem dim_isize (hw : 0 < m.w) {d : Nat} (h : d < 2 ^ (m.w - 1)) : HasIsize m.w d ∧ asIsize m.w (d : Int) = d := by
  have : HasIsize m.w (d : Int) := by
    unfold HasIsize
    rw [powCast]
    omega
  exact ⟨this, asIsize_ok hw this⟩

theorem posLoop_ok (hw : 0 < m.w) {as : List Axis} {idx : List Nat} {pos : Int} (hd : ∀ a ∈ as, a.dim < 2 ^ (m.w - 1))
    (h : Room m pos as) (hi : InRange idx (dims as)) : m.posLoop pos as idx = .ok (pos + dot idx as) := by
  induction as generalizing idx pos with
  | nil => cases idx <;> simp [posLoop]
  | cons a as ih =>
    cases idx with
    | nil => simp at hi
    | cons i is =>
      simp only [List.map_cons, inRange_cons] at hi
      obtain ⟨h1, h2, h3⟩ := h.step hi.1
      have hd0 := hd a List.mem_cons_self
      unfold posLoop
      rw [(dim_isize hw (Nat.lt_trans hi.1 hd0)).2, h1]
      simp only [ok_bind]
      rw [h2]
      simp only [ok_bind]
      rw [ih (fun x hx => hd x (List.mem_cons_of_mem _ hx)) h3 hi.2, dot_cons]
      congr 1; ring

theorem indexLoop_ok (hw : 0 < m.w) {as : List Axis} {idx : List Int} {pos : Int} (hd : ∀ a ∈ as, a.dim < 2 ^ (m.w - 1))
    (h : Room m pos as) (hi : ∀ i ∈ idx, HasIsize m.w i) :
    m.indexLoop pos idx as = Layout.indexLoop pos idx as := by
  induction as generalizing idx pos with
  | nil => cases idx <;> simp [indexLoop, Layout.indexLoop]
  | cons a as ih =>
    cases idx with
    | nil => simp [indexLoop, Layout.indexLoop]
    | cons i is =>
      have hd0 := hd a List.mem_cons_self
      obtain ⟨d1, d2⟩ := dim_isize hw hd0
      unfold indexLoop Layout.indexLoop
      have hn : m.foldIndex i a.dim = .ok (if i < 0 then i + (a.dim : Int) else i) := by
        unfold foldIndex
        split
        · rw [d2]
          refine isize_ok ?_
          obtain ⟨x1, x2⟩ := hi i List.mem_cons_self
          obtain ⟨y1, y2⟩ := d1
          unfold HasIsize
          constructor <;> omega
        · rfl
      rw [hn, d2]
      simp only [ok_bind]
      generalize (if i < 0 then i + (a.dim : Int) else i) = j
      split
      · rename_i hj
        obtain ⟨k, rfl⟩ := Int.eq_ofNat_of_zero_le hj.1
        obtain ⟨h1, h2, h3⟩ := h.step (i := k) (by omega)
        rw [h1]
        simp only [ok_bind]
        rw [h2]
        simp only [ok_bind]
        exact ih (fun x hx => hd x (List.mem_cons_of_mem _ hx)) h3 fun x hx => hi x (List.mem_cons_of_mem _ hx)
      · rfl

theorem indexLoop_le {as : List Axis} {idx : List Int} {pos p : Int} (h : Layout.indexLoop pos idx as = .ok p) :
    p ≤ pos + upOf as := by
  induction as generalizing idx pos with
  | nil =>
    cases idx <;> (simp [Layout.indexLoop] at h; omega)
  | cons a as ih =>
    cases idx with
    | nil => simp [Layout.indexLoop] at h; omega
    | cons i is =>
      unfold Layout.indexLoop at h
      simp only at h
      generalize (if i < 0 then i + (a.dim : Int) else i) = j at h
      split at h
      · rename_i hj
        obtain ⟨k, rfl⟩ := Int.eq_ofNat_of_zero_le hj.1
        have h1 := ih h
        have h2 := (term_bounds (s := a.str) (show k < a.dim by omega)).2
        rw [upOf_cons]
        omega
      · cases h

theorem boundsLoop_ok (hw : 0 < m.w) {as : List Axis} {mn mx : Int} (hd : ∀ a ∈ as, a.dim < 2 ^ (m.w - 1))
    (h : Room m mn as) (h' : Room m mx as) (hz : HasIsize m.w 0) :
    m.boundsLoop mn mx as = .ok (Layout.boundsLoop mn mx as) := by
  induction as generalizing mn mx with
  | nil => rfl
  | cons a as ih =>
    unfold boundsLoop Layout.boundsLoop
    split
    · rfl
    · rename_i h0
      have hd0 := hd a List.mem_cons_self
      obtain ⟨d1, d2⟩ := dim_isize hw hd0
      have e : (a.dim : Int) - 1 = ((a.dim - 1 : Nat) : Int) := by omega
      rw [d2, e, isize_ok (dim_isize hw (by omega : a.dim - 1 < 2 ^ (m.w - 1))).1]
      simp only [ok_bind]
      obtain ⟨h1, h2, h3⟩ := h.step (i := a.dim - 1) (by omega)
      obtain ⟨-, h5, h6⟩ := h'.step (i := a.dim - 1) (by omega)
      have hz0 : 0 < a.dim := by omega
      obtain ⟨-, -, g3⟩ := h.step (i := 0) hz0
      obtain ⟨-, -, g6⟩ := h'.step (i := 0) hz0
      simp only [Nat.cast_zero, Int.mul_zero, Int.add_zero, mul_zero, add_zero] at g3 g6
      rw [h1]
      simp only [ok_bind]
      split
      · rw [h5]
        simp only [ok_bind]
        exact ih (fun x hx => hd x (List.mem_cons_of_mem _ hx)) g3 h6
      · rw [h2]
        simp only [ok_bind]
        exact ih (fun x hx => hd x (List.mem_cons_of_mem _ hx)) h3 g6

/-! ## The check of strides -/

/-- What the loop of `check_strides` adds up. -/
def span (as : List Axis) : Nat := (as.map fun a => (a.dim - 1) * a.str.natAbs).sum

theorem span_eq (as : List Axis) : span as = upOf as + downOf as := by
  induction as with
  | nil => rfl
  | cons a as ih =>
    rw [upOf_cons, downOf_cons]
    have : span (a :: as) = (a.dim - 1) * a.str.natAbs + span as := by simp [span]
    rw [this, ih]
    have : a.str.natAbs = a.str.toNat + (-a.str).toNat := by omega
    rw [this]; ring

theorem span_perm {as bs : List Axis} (h : as.Perm bs) : span as = span bs := (h.map _).sum_eq

theorem span_filter (p : Axis → Bool) (as : List Axis) : span (as.filter p) ≤ span as := by
  induction as with
  | nil => exact Nat.le_refl _
  | cons a as ih =>
    have e : span (a :: as) = (a.dim - 1) * a.str.natAbs + span as := by simp [span]
    rw [List.filter_cons]
    split
    · have : span (a :: as.filter p) = (a.dim - 1) * a.str.natAbs + span (as.filter p) := by simp [span]
      omega
    · omega

theorem strideLoop_ok {as : List Axis} {cum : Nat} (sz : Bool) (h : cum + span as < 2 ^ m.w) :
    m.strideLoop sz cum as = Layout.strideLoop sz cum as := by
  induction as generalizing cum with
  | nil => rfl
  | cons a as ih =>
    have e : span (a :: as) = (a.dim - 1) * a.str.natAbs + span as := by simp [span]
    rw [e] at h
    unfold strideLoop Layout.strideLoop
    split
    · exact ih (by omega)
    · split
      · rw [usize_ok (by omega)]
        simp only [ok_bind]
        rw [usize_ok (by omega)]
        simp only [ok_bind]
        exact ih (by omega)
      · rfl

theorem mapM_ok' {β γ : Type} {f : β → Res γ} {g : β → γ} {xs : List β} (h : ∀ x ∈ xs, f x = .ok (g x)) :
    xs.mapM f = .ok (xs.map g) := by
  induction xs with
  | nil => rfl
  | cons x xs ih =>
    rw [List.mapM_cons, h x List.mem_cons_self, ih fun y hy => h y (List.mem_cons_of_mem _ hy)]
    rfl

theorem sortedAxes_ok {as : List Axis} (h : ∀ a ∈ as, 1 < a.dim → (a.str.natAbs : Int) < 2 ^ (m.w - 1)) :
    m.sortedAxes as = .ok (Layout.sortedAxes as) := by
  unfold sortedAxes Layout.sortedAxes
  generalize hl : as.filter (fun a => 1 < a.dim) = long
  have hlong : ∀ a ∈ long, (a.str.natAbs : Int) < 2 ^ (m.w - 1) := by
    intro a ha
    rw [← hl] at ha
    obtain ⟨h1, h2⟩ := List.mem_filter.1 ha
    exact h a h1 (by simpa using h2)
  simp only
  split
  · rename_i hlt
    match long, hlt with
    | [], _ => rfl
    | [a], _ => rfl
  · have hk : long.mapM (fun a => do return (← m.isize a.str.natAbs, a)) =
        (.ok (long.map fun a => ((a.str.natAbs : Int), a)) : Res (List (Int × Axis))) := by
      refine mapM_ok' fun a ha => ?_
      rw [isize_ok ⟨by have : (0 : Int) < 2 ^ (m.w - 1) := by positivity
                       omega, hlong a ha⟩]
      rfl
    rw [hk]
    simp only [ok_bind, pure_eq_ok]
    rw [← List.map_insertionSort (r := fun a b : Axis => a.str.natAbs ≤ b.str.natAbs)
      (s := fun a b : Int × Axis => a.1 ≤ b.1) (f := fun a => ((a.str.natAbs : Int), a))]
    · rw [List.map_map]
      congr 1
      exact List.map_id _
    · intro a _ b _
      exact Int.ofNat_le.symm

theorem hi_lo_eq {as : List Axis} (h : 0 ∉ dims as) : hiSum as = upOf as ∧ loSum as = -(downOf as : Int) := by
  induction as with
  | nil => exact ⟨rfl, rfl⟩
  | cons a as ih =>
    have h0 : a.dim ≠ 0 := by rintro e; apply h; simp [e]
    have h' : 0 ∉ dims as := by intro e; apply h; simp at e ⊢; exact Or.inr e
    obtain ⟨i1, i2⟩ := ih h'
    rw [upOf_cons, downOf_cons]
    unfold hiSum loSum
    rw [i1, i2, Nat.cast_add, Nat.cast_add, Nat.cast_mul, Nat.cast_mul]
    have e : (a.dim : Int) - 1 = ((a.dim - 1 : Nat) : Int) := by omega
    rw [e]
    split
    · have e1 : ((a.str.toNat : Nat) : Int) = a.str := by omega
      have e2 : (((-a.str).toNat : Nat) : Int) = 0 := by omega
      rw [e1, e2]
      constructor <;> ring
    · have e1 : ((a.str.toNat : Nat) : Int) = 0 := by omega
      have e2 : (((-a.str).toNat : Nat) : Int) = -a.str := by omega
      rw [e1, e2]
      constructor <;> ring

/-! ## Contiguous layouts -/

theorem upOf_sum (as : List Axis) : upOf as = (as.map fun a => (a.dim - 1) * a.str.toNat).sum := by
  induction as with
  | nil => rfl
  | cons a as ih => rw [upOf_cons, ih]; simp

theorem downOf_sum (as : List Axis) : downOf as = (as.map fun a => (a.dim - 1) * (-a.str).toNat).sum := by
  induction as with
  | nil => rfl
  | cons a as ih => rw [downOf_cons, ih]; simp

theorem up_fStrides (f : Nat → Nat) (hf : ∀ d, f d = max 1 d ∨ (d = 0 ∧ f d = 0)) (ds : List Nat) (acc : Nat) :
    upOf (mkAxes ds (Rstsr.fStrides acc (ds.map f))) + acc ≤ acc * (ds.map (max 1)).prod ∧
    (∀ s ∈ Rstsr.fStrides acc (ds.map f), 0 ≤ s ∧ s ≤ acc * (ds.map (max 1)).prod) ∧
    downOf (mkAxes ds (Rstsr.fStrides acc (ds.map f))) = 0 := by
  induction ds generalizing acc with
  | nil => exact ⟨by simp [mkAxes, upOf, reachUp], by simp [Rstsr.fStrides], rfl⟩
  | cons d ds ih =>
    have e : Rstsr.fStrides acc ((d :: ds).map f) = (acc : Int) :: Rstsr.fStrides ((acc * f d : Nat) : Int) (ds.map f) := by
      simp [Rstsr.fStrides]
    obtain ⟨i1, i2, i3⟩ := ih (acc * f d)
    rw [e]
    have e2 : mkAxes (d :: ds) ((acc : Int) :: Rstsr.fStrides ((acc * f d : Nat) : Int) (ds.map f)) =
        ⟨d, acc⟩ :: mkAxes ds (Rstsr.fStrides ((acc * f d : Nat) : Int) (ds.map f)) := rfl
    have hp := one_le_prod_max ds
    have hm : acc * f d * (ds.map (max 1)).prod ≤ acc * (max 1 d * (ds.map (max 1)).prod) := by
      rw [Nat.mul_assoc]
      refine Nat.mul_le_mul_left _ (Nat.mul_le_mul_right _ ?_)
      rcases hf d with h | ⟨h, h'⟩
      · omega
      · omega
    have ha : acc ≤ acc * (max 1 d * (ds.map (max 1)).prod) :=
      Nat.le_mul_of_pos_right _ (Nat.mul_pos (by omega) hp)
    rw [e2, upOf_cons, downOf_cons, List.map_cons, List.prod_cons]
    refine ⟨?_, ?_, ?_⟩
    · simp only [Int.toNat_natCast]
      rcases hf d with h | ⟨h, h'⟩
      · have h1 : (d - 1) * acc + acc ≤ acc * f d := by
          rw [h]
          obtain ⟨k, hk⟩ : ∃ k, max 1 d = k + 1 := ⟨max 1 d - 1, by omega⟩
          have : d - 1 = k := by omega
          rw [this, hk]; nlinarith
        omega
      · subst h
        rw [h'] at i1
        simp only [Nat.mul_zero, Nat.zero_mul, Nat.add_zero, Nat.le_zero_eq] at i1
        rw [h']
        simp only [Nat.mul_zero]
        simp only [Nat.zero_sub, Nat.zero_mul, Nat.zero_add]
        rw [i1]
        omega
    · intro s hs
      rcases List.mem_cons.1 hs with rfl | hs
      · exact ⟨by omega, by exact_mod_cast ha⟩
      · obtain ⟨s1, s2⟩ := i2 s hs
        refine ⟨s1, Int.le_trans s2 ?_⟩
        exact_mod_cast hm
    · rw [i3]
      simp only [Nat.add_zero]
      have : (-(acc : Int)).toNat = 0 := by omega
      rw [this, Nat.mul_zero]

/-- The strides of contiguous layouts, before `max 1`. -/
def lens (fixed : Bool) : Nat → Nat := if fixed then max 1 else id

theorem lens_cases (fixed : Bool) (d : Nat) : lens fixed d = max 1 d ∨ (d = 0 ∧ lens fixed d = 0) := by
  cases fixed
  · simp only [lens, Bool.false_eq_true, if_false, id]
    omega
  · simp [lens]

theorem contigLayout_axes (fixed : Bool) (s : List Nat) :
    (contigLayout fixed .F s 0).axes = mkAxes s (Rstsr.fStrides 1 (s.map (lens fixed))) ∧
    (contigLayout fixed .C s 0).axes = (mkAxes s.reverse (Rstsr.fStrides 1 (s.reverse.map (lens fixed)))).reverse := by
  cases fixed
  · refine ⟨by simp [contigLayout, Layout.newFContig, strideFContig, lens], ?_⟩
    have := newCContig_axes s 0
    simpa [contigLayout, Layout.newFContig, strideFContig, lens] using this
  · refine ⟨by simp [contigLayout, Layout.newFContigFixed, strideFContigFixed, lens], ?_⟩
    simp only [contigLayout, if_true, Layout.newCContigFixed, strideCContigFixed, lens, List.map_reverse]
    rw [← mkAxes_reverse (by simp), List.reverse_reverse]

theorem contig_fits {w : Nat} (fixed : Bool) (o : Order) (s : List Nat) (h : (s.map (max 1)).prod < 2 ^ (w - 1)) :
    FitsWord w (contigLayout fixed o s 0).shape (contigLayout fixed o s 0).stride (contigLayout fixed o s 0).offset := by
  have key : ∀ ds : List Nat, (ds.map (max 1)).prod < 2 ^ (w - 1) →
      (upOf (mkAxes ds (Rstsr.fStrides 1 (ds.map (lens fixed)))) : Int) < 2 ^ (w - 1) ∧
      (∀ s ∈ Rstsr.fStrides 1 (ds.map (lens fixed)), HasIsize w s) ∧
      downOf (mkAxes ds (Rstsr.fStrides 1 (ds.map (lens fixed)))) = 0 := by
    intro ds hds
    obtain ⟨h1, h2, h3⟩ := up_fStrides (lens fixed) (lens_cases fixed) ds 1
    rw [Nat.one_mul, Nat.cast_one] at h1
    simp only [Nat.cast_one, one_mul] at h2 h3
    refine ⟨by rw [powCast]; omega, ?_, h3⟩
    intro x hx
    obtain ⟨x1, x2⟩ := h2 x hx
    unfold HasIsize
    rw [powCast]
    omega
  have hpow : 0 < 2 ^ (w - 1) := Nat.two_pow_pos _
  have hsh := contigLayout_shape fixed o s 0
  refine ⟨by rw [contigLayout_offset], ?_, by rw [hsh]; exact h, ?_, ?_⟩
  · cases o with
    | F =>
      unfold Layout.stride
      rw [(contigLayout_axes fixed s).1, mkAxes_str (by simp)]
      exact (key s h).2.1
    | C =>
      unfold Layout.stride
      rw [(contigLayout_axes fixed s).2, List.map_reverse, mkAxes_str (by simp)]
      intro x hx
      refine (key s.reverse ?_).2.1 x (List.mem_reverse.1 hx)
      rwa [List.map_reverse, List.prod_reverse]
  · rw [contigLayout_offset, Int.zero_add]
    show (upOf (contigLayout fixed o s 0).axes : Int) < 2 ^ (w - 1)
    cases o with
    | F => rw [(contigLayout_axes fixed s).1]; exact (key s h).1
    | C =>
      rw [(contigLayout_axes fixed s).2, upOf_sum, List.map_reverse, List.sum_reverse, ← upOf_sum]
      exact (key s.reverse (by rwa [List.map_reverse, List.prod_reverse])).1
  · show downOf (contigLayout fixed o s 0).axes < 2 ^ (w - 1)
    cases o with
    | F => rw [(contigLayout_axes fixed s).1, (key s h).2.2]; exact hpow
    | C =>
      rw [(contigLayout_axes fixed s).2, downOf_sum, List.map_reverse, List.sum_reverse, ← downOf_sum,
        (key s.reverse (by rwa [List.map_reverse, List.prod_reverse])).2.2]
      exact hpow

theorem newContig_of {fixed : Bool} {o : Order} {s : List Nat} {l : Layout}
    (h : ∀ ds : List Nat, (ds = s ∨ ds = s.reverse) → m.fStrides 1 (ds.map (lens fixed)) = .ok (Rstsr.fStrides 1 (ds.map (lens fixed)))) :
    m.newContig fixed o s = .ok (contigLayout fixed o s 0) := by
  have e : (if fixed then s.map (max 1) else s) = s.map (lens fixed) := by cases fixed <;> simp [lens]
  unfold newContig strideContig
  simp only [e]
  cases o with
  | F =>
    simp only
    rw [h s (.inl rfl)]
    cases fixed <;> simp [contigLayout, Layout.newFContig, Layout.newFContigFixed, strideFContig, strideFContigFixed, lens, pure_eq_ok, ok_bind]
  | C =>
    simp only
    rw [← List.map_reverse, h s.reverse (.inr rfl)]
    cases fixed <;> simp [contigLayout, Layout.newCContig, Layout.newCContigFixed, strideCContig, strideCContigFixed, lens, pure_eq_ok, ok_bind]

theorem newContig_ok (hw : 0 < m.w) (fixed : Bool) (o : Order) {s : List Nat} (h : (s.map (max 1)).prod < 2 ^ (m.w - 1)) :
    m.newContig fixed o s = .ok (contigLayout fixed o s 0) := by
  refine newContig_of (l := contigLayout fixed o s 0) fun ds hds => ?_
  have hp : (ds.map (max 1)).prod < 2 ^ (m.w - 1) := by
    rcases hds with rfl | rfl
    · exact h
    · rwa [List.map_reverse, List.prod_reverse]
  have e : ((ds.map (lens fixed)).map (max 1)).prod = (ds.map (max 1)).prod := by
    rw [List.map_map]
    congr 1
    refine List.map_congr_left fun d _ => ?_
    simp only [Function.comp]
    rcases lens_cases fixed d with h | ⟨h, h'⟩ <;> omega
  refine fStrides_ok (acc := 1) hw (fun d hd => ?_) (by rw [Nat.one_mul, e]; exact hp)
  exact Nat.lt_of_le_of_lt (le_prod_max hd) (by rw [e]; exact hp)

/-! ## With overflow checks -/

theorem isize_inv (hc : m.checked = true) {x y : Int} (h : m.isize x = .ok y) : y = x ∧ HasIsize m.w x := by
  unfold isize at h
  split at h
  · rename_i hx
    cases h; exact ⟨rfl, hx⟩
  · simp [hc] at h

theorem usize_inv (hc : m.checked = true) {x y : Nat} (h : m.usize x = .ok y) : y = x ∧ x < 2 ^ m.w := by
  unfold usize at h
  split at h
  · rename_i hx
    cases h; exact ⟨rfl, hx⟩
  · simp [hc] at h

theorem product_inv (hc : m.checked = true) {ds : List Nat} {acc n : Nat} (h : m.product acc ds = .ok n) :
    n = acc * ds.prod := by
  induction ds generalizing acc with
  | nil => cases h; simp
  | cons d ds ih =>
    unfold product at h
    obtain ⟨a, h1, h⟩ := bind_ok.1 h
    rw [ih h, (usize_inv hc h1).1, List.prod_cons, Nat.mul_assoc]

theorem fStrides_inv (hc : m.checked = true) (hw : 0 < m.w) {ds : List Nat} {acc : Int} {ss : List Int}
    (hd : ∀ d ∈ ds, d < 2 ^ (m.w - 1)) (h : m.fStrides acc ds = .ok ss) : ss = Rstsr.fStrides acc ds := by
  induction ds generalizing acc ss with
  | nil => cases h; rfl
  | cons d ds ih =>
    cases ds with
    | nil => cases h; rfl
    | cons e es =>
      unfold fStrides at h
      obtain ⟨a, h1, h⟩ := bind_ok.1 h
      obtain ⟨r, h2, h⟩ := bind_ok.1 h
      cases h
      rw [ih (fun x hx => hd x (List.mem_cons_of_mem _ hx)) h2, (isize_inv hc h1).1,
        (dim_isize hw (hd d List.mem_cons_self)).2]
      rfl

theorem boundsLoop_inv (hc : m.checked = true) (hw : 0 < m.w) {as : List Axis} {mn mx : Int} {r : Option (Int × Int)}
    (hd : ∀ a ∈ as, a.dim < 2 ^ (m.w - 1)) (h1 : HasIsize m.w mn) (h2 : HasIsize m.w mx)
    (h : m.boundsLoop mn mx as = .ok r) :
    r = Layout.boundsLoop mn mx as ∧ ∀ p ∈ r, HasIsize m.w p.1 ∧ HasIsize m.w p.2 := by
  induction as generalizing mn mx with
  | nil => cases h; exact ⟨rfl, by rintro p hp; cases hp; exact ⟨h1, h2⟩⟩
  | cons a as ih =>
    unfold boundsLoop at h
    unfold Layout.boundsLoop
    split at h
    · rename_i h0
      cases h
      rw [if_pos h0]
      exact ⟨rfl, by rintro p hp; cases hp⟩
    · rename_i h0
      rw [if_neg h0]
      obtain ⟨a1, e1, h⟩ := bind_ok.1 h
      obtain ⟨a2, e2, h⟩ := bind_ok.1 h
      obtain ⟨rfl, -⟩ := isize_inv hc e1
      obtain ⟨rfl, -⟩ := isize_inv hc e2
      rw [(dim_isize hw (hd a List.mem_cons_self)).2] at h
      split at h
      · rename_i hs
        obtain ⟨a3, e3, h⟩ := bind_ok.1 h
        obtain ⟨rfl, x⟩ := isize_inv hc e3
        rw [if_pos hs]
        exact ih (fun x hx => hd x (List.mem_cons_of_mem _ hx)) h1 x h
      · rename_i hs
        obtain ⟨a3, e3, h⟩ := bind_ok.1 h
        obtain ⟨rfl, x⟩ := isize_inv hc e3
        rw [if_neg hs]
        exact ih (fun x hx => hd x (List.mem_cons_of_mem _ hx)) x h2 h

theorem asIsize_cases (hw : 0 < m.w) {x : Int} (h0 : 0 ≤ x) (h1 : x < 2 ^ m.w) :
    HasIsize m.w (asIsize m.w x) ∧ (0 ≤ asIsize m.w x → asIsize m.w x = x) := by
  by_cases hx : x < 2 ^ (m.w - 1)
  · have : HasIsize m.w x := ⟨by have : (0 : Int) < 2 ^ (m.w - 1) := by positivity
                                 omega, hx⟩
    rw [asIsize_ok hw this]
    exact ⟨this, fun _ => rfl⟩
  · have e := two_pow_int hw
    have e' : ((2 ^ m.w : Nat) : Int) = 2 ^ m.w := by push_cast; rfl
    have hb : asIsize m.w x = x - 2 ^ m.w := by
      unfold asIsize
      rw [Int.bmod_def, e', Int.emod_eq_of_lt h0 h1, if_neg (by omega)]
    rw [hb]
    unfold HasIsize
    exact ⟨by omega, by omega⟩

theorem boundsIndex_inv (hc : m.checked = true) (hw : 0 < m.w) {l : Layout} {r : Nat × Nat}
    (hd : ∀ a ∈ l.axes, a.dim < 2 ^ (m.w - 1)) (h0 : 0 ≤ l.offset) (h1 : l.offset < 2 ^ m.w)
    (h : m.boundsIndex l = .ok r) : l.boundsIndex = .ok ((r.1 : Int), (r.2 : Int)) := by
  unfold boundsIndex at h
  unfold Layout.boundsIndex
  split at h
  · rename_i hn
    rw [if_pos hn]
    obtain ⟨a, e, h⟩ := bind_ok.1 h
    cases h
    rw [(usize_inv hc e).1]
    simp only [Nat.cast_add, Nat.cast_one]
    rw [Int.toNat_of_nonneg h0]
  · rename_i hn
    rw [if_neg hn]
    obtain ⟨x, e, h⟩ := bind_ok.1 h
    obtain ⟨c1, c2⟩ := asIsize_cases hw h0 h1
    obtain ⟨e1, e2⟩ := boundsLoop_inv hc hw hd c1 c1 e
    by_cases hz : 0 ∈ dims l.axes
    · rw [boundsLoop_eq_none.2 hz] at e1
      rw [boundsLoop_eq_none.2 hz]
      subst e1
      cases h
      simp only [Int.toNat_of_nonneg h0]
    · rw [boundsLoop_eq_some hz] at e1
      rw [boundsLoop_eq_some hz]
      subst e1
      simp only at h
      split at h
      · rename_i hlo
        have hl := loSum_nonpos hz
        have hoff := c2 (by omega)
        rw [hoff] at hlo h e2
        obtain ⟨a, e, h⟩ := bind_ok.1 h
        obtain ⟨rfl, -⟩ := usize_inv hc e
        cases h
        obtain ⟨b1, b2⟩ := e2 _ rfl
        have hh : 0 ≤ hiSum l.axes := by rw [(hi_lo_eq hz).1]; omega
        rw [asUsize_ok hw hlo b1.2, asUsize_ok hw (by omega) b2.2]
        simp only [if_pos hlo, Nat.cast_add, Nat.cast_one]
        rw [Int.toNat_of_nonneg hlo, Int.toNat_of_nonneg (by omega)]
      · cases h

theorem strideLoop_inv (hc : m.checked = true) {as : List Axis} {cum : Nat} {sz : Bool} {u : Unit}
    (h : m.strideLoop sz cum as = .ok u) : Layout.strideLoop sz cum as = .ok u := by
  induction as generalizing cum with
  | nil => exact h
  | cons a as ih =>
    unfold strideLoop at h
    unfold Layout.strideLoop
    split at h
    · rename_i h0
      rw [if_pos h0]; exact ih h
    · rename_i h0
      rw [if_neg h0]
      split at h
      · rename_i h1
        rw [if_pos h1]
        obtain ⟨x, e1, h⟩ := bind_ok.1 h
        obtain ⟨y, e2, h⟩ := bind_ok.1 h
        obtain ⟨rfl, -⟩ := usize_inv hc e1
        obtain ⟨rfl, -⟩ := usize_inv hc e2
        exact ih h
      · cases h

theorem mapM_inv {β γ : Type} {f : β → Res γ} {P : β → Prop} (hf : ∀ x y, f x = .ok y → P x) {xs : List β} {ys : List γ}
    (h : xs.mapM f = .ok ys) : ∀ x ∈ xs, P x := by
  induction xs generalizing ys with
  | nil => simp
  | cons x xs ih =>
    rw [List.mapM_cons] at h
    obtain ⟨y, h1, h⟩ := bind_ok.1 h
    obtain ⟨zs, h2, h⟩ := bind_ok.1 h
    intro z hz
    rcases List.mem_cons.1 hz with rfl | hz
    · exact hf _ _ h1
    · exact ih h2 z hz

theorem sortedAxes_inv (hc : m.checked = true) {as L : List Axis} (h : m.sortedAxes as = .ok L) :
    L = Layout.sortedAxes as := by
  by_cases hlen : (as.filter fun a => 1 < a.dim).length < 2
  · unfold sortedAxes at h
    unfold Layout.sortedAxes
    simp only at h
    rw [if_pos hlen] at h
    cases h
    generalize as.filter (fun a => 1 < a.dim) = L at hlen
    match L, hlen with
    | [], _ => rfl
    | [a], _ => rfl
    | _ :: _ :: _, h => exact absurd h (by simp)
  · have hs : ∀ a ∈ as.filter (fun a => 1 < a.dim), (a.str.natAbs : Int) < 2 ^ (m.w - 1) := by
      unfold sortedAxes at h
      simp only at h
      rw [if_neg hlen] at h
      obtain ⟨ks, h1, -⟩ := bind_ok.1 h
      refine mapM_inv (fun a y hy => ?_) h1
      obtain ⟨z, hz, -⟩ := bind_ok.1 hy
      exact (isize_inv hc hz).2.2
    have := sortedAxes_ok (m := m) (as := as) fun a ha hd => hs a (List.mem_filter.2 ⟨ha, by simpa using hd⟩)
    rw [this] at h
    cases h; rfl

theorem checkStrides_inv (hc : m.checked = true) {l : Layout} {sz : Bool} {u : Unit} (h : m.checkStrides l sz = .ok u) :
    l.checkStrides sz = .ok u := by
  unfold checkStrides at h
  unfold Layout.checkStrides
  obtain ⟨n, h1, h⟩ := bind_ok.1 h
  have : n = l.size := by
    have := product_inv hc h1
    rw [Nat.one_mul] at this
    exact this
  subst this
  split at h
  · rename_i h0
    rw [if_pos h0]
  · rename_i h0
    rw [if_neg h0]
    obtain ⟨L, h2, h⟩ := bind_ok.1 h
    rw [sortedAxes_inv hc h2] at h
    exact strideLoop_inv hc h

theorem newContig_inv (hc : m.checked = true) (hw : 1 < m.w) {fixed : Bool} {o : Order} {s : List Nat} {l : Layout}
    (hd : ∀ d ∈ s, d < 2 ^ (m.w - 1)) (h : m.newContig fixed o s = .ok l) : l = contigLayout fixed o s 0 := by
  have e : (if fixed then s.map (max 1) else s) = s.map (lens fixed) := by cases fixed <;> simp [lens]
  have hp : 2 ≤ 2 ^ (m.w - 1) := by
    calc 2 = 2 ^ 1 := rfl
      _ ≤ _ := Nat.pow_le_pow_right (by omega) (by omega)
  have hd' : ∀ d ∈ s.map (lens fixed), d < 2 ^ (m.w - 1) := by
    intro d hd1
    obtain ⟨x, hx, rfl⟩ := List.mem_map.1 hd1
    have h1 := hd x hx
    rcases lens_cases fixed x with h | ⟨h, h'⟩ <;> omega
  unfold newContig strideContig at h
  simp only [e] at h
  obtain ⟨ss, h1, h⟩ := bind_ok.1 h
  cases h
  cases o with
  | F =>
    simp only at h1
    rw [fStrides_inv hc (by omega) hd' h1]
    cases fixed <;> simp [contigLayout, Layout.newFContig, Layout.newFContigFixed, strideFContig, strideFContigFixed, lens]
  | C =>
    simp only at h1
    obtain ⟨rs, h3, h2⟩ := bind_ok.1 h1
    cases h2
    rw [fStrides_inv hc (by omega) (fun d hd => hd' d (List.mem_reverse.1 hd)) h3]
    cases fixed <;> simp [contigLayout, Layout.newCContig, Layout.newCContigFixed, strideCContig, strideCContigFixed, lens]

end Machine
end Rstsr
