import Verif.Proof.Index
/-! # Lemmas about `checkStrides` -/
namespace Rstsr
open Spec

/-- Every stride exceeds the extent accumulated over the previous axes (starting at `c`). -/
def SuperInc : Nat → List Axis → Prop
  | _, [] => True
  | c, a :: rest => c < a.str.natAbs ∧ SuperInc (c + (a.dim - 1) * a.str.natAbs) rest

/-- Axes on which two indices can differ and move the position. -/
def Axis.ess (a : Axis) : Bool := decide (1 < a.dim) && decide (a.str ≠ 0)

/-- Order-independent form of the stride check. -/
def NoOverlap (axes : List Axis) : Prop :=
  ∃ L : List Axis, L.Perm (axes.filter Axis.ess) ∧ SuperInc 0 L

theorem strideLoop_iff {c : Nat} {L : List Axis} :
    Layout.strideLoop true c L = .ok () ↔ SuperInc c (L.filter fun a => a.str ≠ 0) := by
  induction L generalizing c with
  | nil => simp [Layout.strideLoop, SuperInc]
  | cons a L ih =>
    unfold Layout.strideLoop
    by_cases h0 : a.str = 0
    · simp [h0, ih]
    · have h1 : a.str.natAbs ≠ 0 := by omega
      simp only [h1, false_and, if_false]
      rw [List.filter_cons_of_pos (by simpa using h0)]
      simp only [SuperInc, ← ih]
      split <;> simp_all

theorem SuperInc.lt {c : Nat} {L : List Axis} (h : SuperInc c L) : ∀ a ∈ L, c < a.str.natAbs := by
  induction L generalizing c with
  | nil => simp
  | cons a L ih =>
    intro b hb
    rcases List.mem_cons.1 hb with rfl | hb
    · exact h.1
    · exact Nat.lt_of_le_of_lt (Nat.le_add_right _ _) (ih h.2 b hb)

theorem SuperInc.pairwise {c : Nat} {L : List Axis} (h : SuperInc c L) (hd : ∀ a ∈ L, 1 < a.dim) :
    L.Pairwise fun a b => a.str.natAbs < b.str.natAbs := by
  induction L generalizing c with
  | nil => simp
  | cons a L ih =>
    rw [List.pairwise_cons]
    refine ⟨fun b hb => ?_, ih h.2 fun x hx => hd x (by simp [hx])⟩
    have h1 := h.2.lt b hb
    have h2 := hd a (by simp)
    have : a.str.natAbs ≤ (a.dim - 1) * a.str.natAbs := Nat.le_mul_of_pos_left _ (by omega)
    omega

theorem SuperInc.mono {c c' : Nat} {L : List Axis} (hc : c' ≤ c) (h : SuperInc c L) :
    SuperInc c' L := by
  induction L generalizing c c' with
  | nil => trivial
  | cons a L ih => exact ⟨Nat.lt_of_le_of_lt hc h.1, ih (by omega) h.2⟩

theorem SuperInc.sublist {c : Nat} {L L' : List Axis} (hs : L'.Sublist L) (h : SuperInc c L) :
    SuperInc c L' := by
  induction hs generalizing c with
  | slnil => trivial
  | cons a _ ih => exact ih (h.2.mono (Nat.le_add_right _ _))
  | cons_cons a _ ih => exact ⟨h.1, ih h.2⟩

instance : Std.Total (fun a b : Axis => a.str.natAbs ≤ b.str.natAbs) := ⟨fun _ _ => Nat.le_total _ _⟩
instance : IsTrans Axis (fun a b : Axis => a.str.natAbs ≤ b.str.natAbs) := ⟨fun _ _ _ => Nat.le_trans⟩

theorem filter_ess (axes : List Axis) :
    (axes.filter fun a => 1 < a.dim).filter (fun a => a.str ≠ 0) = axes.filter Axis.ess := by
  rw [List.filter_filter]
  congr 1
  funext a
  simp [Axis.ess, Bool.and_comm]

/-- The sorted check is equivalent to the existence of some order that works. -/
theorem strideLoop_sorted_iff {axes : List Axis} :
    Layout.strideLoop true 0 (Layout.sortedAxes axes) = .ok () ↔ NoOverlap axes := by
  rw [strideLoop_iff]
  have hperm : ((Layout.sortedAxes axes).filter fun a => a.str ≠ 0).Perm (axes.filter Axis.ess) := by
    rw [← filter_ess]
    exact (List.perm_insertionSort _ _).filter _
  constructor
  · intro h; exact ⟨_, hperm, h⟩
  · rintro ⟨L, hL, hs⟩
    have hdim : ∀ a ∈ L, 1 < a.dim := by
      intro a ha
      have := hL.mem_iff.1 ha
      simp [Axis.ess] at this
      exact this.2.1
    have hpw := hs.pairwise hdim
    have heq : L = (Layout.sortedAxes axes).filter fun a => a.str ≠ 0 := by
      refine List.Perm.eq_of_pairwise (le := fun a b : Axis => a.str.natAbs ≤ b.str.natAbs) ?_
        (hpw.imp fun h => Nat.le_of_lt h) ?_ (hL.trans hperm.symm)
      · intro a b ha hb hab hba
        by_contra hne
        have hbL : b ∈ L := (hL.trans hperm.symm).mem_iff.2 hb
        rcases List.pairwise_iff_getElem.1 hpw with h
        obtain ⟨i, hi, rfl⟩ := List.getElem_of_mem ha
        obtain ⟨j, hj, rfl⟩ := List.getElem_of_mem hbL
        rcases Nat.lt_trichotomy i j with hij | rfl | hij
        · have := h i j hi hj hij; omega
        · exact hne rfl
        · have := h j i hj hi hij; omega
      · exact List.Pairwise.filter _ (List.pairwise_insertionSort _ _)
    rw [← heq]; exact hs

theorem checkStrides_iff {l : Layout} :
    l.checkStrides true = .ok () ↔ l.size = 0 ∨ NoOverlap l.axes := by
  unfold Layout.checkStrides
  split
  · rename_i h
    simp only [true_iff]
    rcases h with h | h
    · exact Or.inl h
    · right
      have : l.axes = [] := List.length_eq_zero_iff.1 h
      rw [this]; exact ⟨[], by simp, trivial⟩
  · rename_i h
    rw [strideLoop_sorted_iff]
    constructor
    · exact Or.inr
    · rintro (h' | h')
      · exact absurd (Or.inl h') h
      · exact h'

/-! ## Closure of `NoOverlap` -/

theorem exists_perm_of_map_perm {α β : Type} {f : α → β} {L : List β} {Z : List α}
    (h : L.Perm (Z.map f)) : ∃ Z' : List α, Z'.Perm Z ∧ Z'.map f = L := by
  induction L generalizing Z with
  | nil =>
    have : Z = [] := by simpa using h.symm.eq_nil
    exact ⟨[], by simp [this], rfl⟩
  | cons b L ih =>
    have hb : b ∈ Z.map f := h.mem_iff.1 (by simp)
    obtain ⟨z, hz, rfl⟩ := List.mem_map.1 hb
    obtain ⟨s, t, rfl⟩ := List.append_of_mem hz
    have h2 : L.Perm ((s ++ t).map f) := by
      have : (f z :: L).Perm (f z :: (s ++ t).map f) :=
        h.trans (((List.perm_middle (a := z) (l₁ := s) (l₂ := t)).map f))
      exact this.cons_inv
    obtain ⟨Z', hp, rfl⟩ := ih h2
    exact ⟨z :: Z', (hp.cons z).trans List.perm_middle.symm, rfl⟩

theorem NoOverlap.perm {A B : List Axis} (hp : A.Perm B) (h : NoOverlap B) : NoOverlap A := by
  obtain ⟨L, hL, hs⟩ := h
  exact ⟨L, hL.trans (hp.symm.filter _), hs⟩

theorem NoOverlap.sublist {A B : List Axis} (hsub : A.Sublist B) (h : NoOverlap B) :
    NoOverlap A := by
  obtain ⟨L, hL, hs⟩ := h
  have hsp : (A.filter Axis.ess).Subperm L := ((hsub.filter _).subperm).trans hL.symm.subperm
  obtain ⟨L', hp, hsub'⟩ := hsp
  exact ⟨L', hp, hs.sublist hsub'⟩

/-- `a'` addresses a subset of the steps of `a`. -/
def SubAxis (a' a : Axis) : Prop :=
  a'.ess → a.ess ∧ a.str.natAbs ≤ a'.str.natAbs ∧
    (a'.dim - 1) * a'.str.natAbs ≤ (a.dim - 1) * a.str.natAbs

theorem SubAxis.refl (a : Axis) : SubAxis a a := fun h => ⟨h, le_refl _, le_refl _⟩

theorem superInc_sub {Z : List (Axis × Axis)} {c c' : Nat} (hc : c' ≤ c)
    (hz : ∀ z ∈ Z, SubAxis z.1 z.2) (h : SuperInc c (Z.map (·.2))) :
    SuperInc c' ((Z.filter fun z => z.1.ess).map (·.1)) := by
  induction Z generalizing c c' with
  | nil => trivial
  | cons z Z ih =>
    have hz' : ∀ x ∈ Z, SubAxis x.1 x.2 := fun x hx => hz x (by simp [hx])
    by_cases he : z.1.ess
    · rw [List.filter_cons_of_pos (by simpa using he)]
      obtain ⟨_, h1, h2⟩ := hz z (by simp) he
      simp only [List.map_cons, SuperInc] at h ⊢
      exact ⟨by have := h.1; omega, ih (by omega) hz' h.2⟩
    · rw [List.filter_cons_of_neg (by simpa using he)]
      exact ih (c := c + _) (by omega) hz' h.2

theorem NoOverlap.subAxes {A' A : List Axis} (hf : List.Forall₂ SubAxis A' A) (h : NoOverlap A) :
    NoOverlap A' := by
  obtain ⟨L, hL, hs⟩ := h
  -- pair up the axes
  have hlen := hf.length_eq
  let Z := A'.zip A
  have hA' : Z.map (·.1) = A' := by simp [Z, List.map_fst_zip, hlen]
  have hA : Z.map (·.2) = A := by simp [Z, List.map_snd_zip, hlen]
  have hZ : ∀ z ∈ Z, SubAxis z.1 z.2 := by
    rintro ⟨x, y⟩ hz
    exact (List.forall₂_iff_zip.1 hf).2 hz
  have hfil : A.filter Axis.ess = (Z.filter fun z => z.2.ess).map (·.2) := by
    rw [← hA, List.filter_map]; rfl
  rw [hfil] at hL
  obtain ⟨Z', hp, rfl⟩ := exists_perm_of_map_perm hL
  have hZ' : ∀ z ∈ Z', SubAxis z.1 z.2 := fun z hz =>
    hZ z (List.mem_of_mem_filter (hp.mem_iff.1 hz))
  refine ⟨_, ?_, superInc_sub (le_refl 0) hZ' hs⟩
  have h1 : (Z'.filter fun z => z.1.ess).Perm ((Z.filter fun z => z.2.ess).filter fun z => z.1.ess) :=
    hp.filter _
  have h2 : (Z.filter fun z => z.2.ess).filter (fun z => z.1.ess) = Z.filter fun z => z.1.ess := by
    rw [List.filter_filter]
    apply List.filter_congr
    intro z hz
    by_cases he : z.1.ess
    · simp [he, (hZ z hz he).1]
    · simp [he]
  rw [h2] at h1
  have h3 : A'.filter Axis.ess = (Z.filter fun z => z.1.ess).map (·.1) := by
    conv_lhs => rw [← hA']
    rw [List.filter_map]; rfl
  rw [h3]
  exact h1.map _

/-! ## Injectivity -/

theorem superInc_inj {Z : List (Axis × Int)} {c : Nat} (h : SuperInc c (Z.map (·.1)))
    (hd : ∀ z ∈ Z, z.2.natAbs ≤ z.1.dim - 1) {x : Int} (hx : x.natAbs ≤ c)
    (hsum : x + (Z.map fun z => z.2 * z.1.str).sum = 0) : x = 0 ∧ ∀ z ∈ Z, z.2 = 0 := by
  induction Z generalizing c x with
  | nil => simpa using hsum
  | cons z Z ih =>
    simp only [List.map_cons, SuperInc] at h
    have hz := hd z (by simp)
    have hprod : (z.2 * z.1.str).natAbs ≤ (z.1.dim - 1) * z.1.str.natAbs := by
      rw [Int.natAbs_mul]; exact Nat.mul_le_mul_right _ hz
    obtain ⟨h1, h2⟩ := ih (x := x + z.2 * z.1.str) h.2 (fun y hy => hd y (by simp [hy]))
      (by have := Int.natAbs_add_le x (z.2 * z.1.str); omega)
      (by simp only [List.map_cons, List.sum_cons] at hsum; linarith)
    have hlt := h.1
    have hz0 : z.2 = 0 := by
      by_contra hne
      have h3 : x.natAbs = z.2.natAbs * z.1.str.natAbs := by
        rw [← Int.natAbs_mul, ← Int.natAbs_neg x]; congr 1; linarith
      have h4 : z.1.str.natAbs ≤ z.2.natAbs * z.1.str.natAbs :=
        Nat.le_mul_of_pos_left _ (by omega)
      omega
    refine ⟨by simpa [hz0] using h1, fun y hy => ?_⟩
    rcases List.mem_cons.1 hy with rfl | hy
    · exact hz0
    · exact h2 y hy

/-- Pairs of an axis and the difference of two coordinates on it. -/
def diffs : List Nat → List Nat → List Axis → List (Axis × Int)
  | i :: is, j :: js, a :: as => (a, (i : Int) - j) :: diffs is js as
  | _, _, _ => []

theorem diffs_sum {is js : List Nat} {as : List Axis} (h1 : is.length = as.length)
    (h2 : js.length = as.length) :
    ((diffs is js as).map fun z => z.2 * z.1.str).sum = dot is as - dot js as := by
  induction as generalizing is js with
  | nil => cases is <;> cases js <;> simp_all [diffs]
  | cons a as ih =>
    cases is with
    | nil => simp at h1
    | cons i is =>
      cases js with
      | nil => simp at h2
      | cons j js =>
        simp only [diffs, List.map_cons, List.sum_cons, dot_cons]
        rw [ih (by simpa using h1) (by simpa using h2)]; ring

theorem diffs_fst {is js : List Nat} {as : List Axis} (h1 : is.length = as.length)
    (h2 : js.length = as.length) : (diffs is js as).map (·.1) = as := by
  induction as generalizing is js with
  | nil => cases is <;> cases js <;> simp_all [diffs]
  | cons a as ih =>
    cases is with
    | nil => simp at h1
    | cons i is =>
      cases js with
      | nil => simp at h2
      | cons j js => simp [diffs, ih (by simpa using h1) (by simpa using h2)]

theorem diffs_bound {is js : List Nat} {as : List Axis} (h1 : InRange is (dims as))
    (h2 : InRange js (dims as)) : ∀ z ∈ diffs is js as, z.2.natAbs ≤ z.1.dim - 1 := by
  induction as generalizing is js with
  | nil => cases is <;> cases js <;> simp_all [diffs]
  | cons a as ih =>
    cases is with
    | nil => simp at h1
    | cons i is =>
      cases js with
      | nil => simp at h2
      | cons j js =>
        simp only [List.map_cons, inRange_cons] at h1 h2
        intro z hz
        simp only [diffs, List.mem_cons] at hz
        rcases hz with rfl | hz
        · simp only; omega
        · exact ih h1.2 h2.2 z hz

/-- Two in-range indices at the same position agree on every axis of non-zero stride. -/
theorem noOverlap_inj {as : List Axis} (h : NoOverlap as) {is js : List Nat}
    (hi : InRange is (dims as)) (hj : InRange js (dims as)) (he : dot is as = dot js as) :
    ∀ z ∈ diffs is js as, z.1.str ≠ 0 → z.2 = 0 := by
  have l1 : is.length = as.length := by simpa using hi.length_eq
  have l2 : js.length = as.length := by simpa using hj.length_eq
  obtain ⟨L, hL, hs⟩ := h
  let Z := diffs is js as
  have hA : Z.map (·.1) = as := diffs_fst l1 l2
  have hfil : as.filter Axis.ess = (Z.filter fun z => z.1.ess).map (·.1) := by
    rw [← hA, List.filter_map]; rfl
  rw [hfil] at hL
  obtain ⟨Z', hp, rfl⟩ := exists_perm_of_map_perm hL
  have hbound := diffs_bound hi hj
  -- non-essential axes contribute nothing
  have hzero : ∀ z ∈ Z, ¬ z.1.ess → z.2 * z.1.str = 0 := by
    intro z hz hne
    have hb := hbound z hz
    simp only [Axis.ess, Bool.and_eq_true, decide_eq_true_eq, not_and_or, not_lt, not_not] at hne
    rcases hne with h1 | h1
    · have : z.2 = 0 := by omega
      simp [this]
    · simp [h1]
  have hsumfil : ∀ W : List (Axis × Int), (∀ z ∈ W, ¬ z.1.ess → z.2 * z.1.str = 0) →
      (W.map fun z => z.2 * z.1.str).sum = ((W.filter fun z => z.1.ess).map fun z => z.2 * z.1.str).sum := by
    intro W hW
    induction W with
    | nil => rfl
    | cons w W ih =>
      have ih' := ih fun z hz => hW z (by simp [hz])
      by_cases hw : w.1.ess
      · rw [List.filter_cons_of_pos (by simpa using hw)]; simp [ih']
      · rw [List.filter_cons_of_neg (by simpa using hw)]; simp [ih', hW w (by simp) hw]
  have hsum : (Z.map fun z => z.2 * z.1.str).sum = 0 := by
    rw [diffs_sum l1 l2, he]; ring
  rw [hsumfil Z hzero] at hsum
  have hsum' : (Z'.map fun z => z.2 * z.1.str).sum = 0 := by
    rw [(hp.map fun z : Axis × Int => z.2 * z.1.str).sum_eq]; exact hsum
  have key := superInc_inj hs (fun z hz => hbound z (List.mem_of_mem_filter (hp.mem_iff.1 hz)))
    (x := 0) (by simp) (by simpa using hsum')
  intro z hz hstr
  by_cases he' : z.1.ess
  · exact key.2 z (hp.mem_iff.2 (by simp [he']; exact hz))
  · have hb := hbound z hz
    simp only [Axis.ess, Bool.and_eq_true, decide_eq_true_eq, not_and_or, not_lt, not_not] at he'
    rcases he' with h1 | h1
    · omega
    · exact absurd h1 hstr

end Rstsr
