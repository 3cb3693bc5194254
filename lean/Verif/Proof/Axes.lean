import Mathlib.Data.List.Nodup
import Mathlib.Data.List.Perm.Subperm
import Verif.Spec.Axes
import Verif.Proof.Core
import Verif.Model.Manip
/-! # Lemmas about axis arguments and permutations of axes -/
namespace Rstsr
open Spec

theorem checkAxis_ok {a : Int} {n k : Nat} :
    checkAxis a n = .ok k ↔ AxisOk n a ∧ k = normAxis n a := by
  unfold checkAxis AxisOk normAxis
  dsimp only
  split <;> split <;> simp_all <;> omega

theorem checkAxis_ok' {a : Int} {n k : Nat} (h : checkAxis a n = .ok k) : k < n := by
  obtain ⟨h1, rfl⟩ := checkAxis_ok.1 h
  unfold AxisOk at h1; unfold normAxis
  split <;> omega

theorem checkAxis_error {a : Int} {n : Nat} {e : Err} (h : checkAxis a n = .error e) :
    e = .axisError ∧ ¬ AxisOk n a := by
  unfold checkAxis at h
  unfold AxisOk
  dsimp only at h
  split at h <;> split at h <;> simp_all
  omega

theorem normAxis_lt {a : Int} {n : Nat} (h : AxisOk n a) : normAxis n a < n :=
  checkAxis_ok' (checkAxis_ok.2 ⟨h, rfl⟩)

theorem normAxis_ofNat (n k : Nat) : normAxis n (k : Int) = k := by
  unfold normAxis; split <;> omega

theorem axisOk_ofNat {n k : Nat} (h : k < n) : AxisOk n (k : Int) := by
  unfold AxisOk; omega

theorem checkAxis_ofNat {n k : Nat} (h : k < n) : checkAxis (k : Int) n = .ok k :=
  checkAxis_ok.2 ⟨axisOk_ofNat h, (normAxis_ofNat n k).symm⟩

theorem checkAxes_ok {axes : List Int} {n : Nat} {v : List Nat} :
    checkAxes axes n = .ok v ↔ (∀ a ∈ axes, AxisOk n a) ∧ v = axes.map (normAxis n) := by
  unfold checkAxes
  rw [mapM_ok]
  induction axes generalizing v with
  | nil => cases v <;> simp
  | cons a as ih =>
    cases v with
    | nil => simp
    | cons b v =>
      rw [List.forall₂_cons, ih, checkAxis_ok]
      simp only [List.mem_cons, forall_eq_or_imp, List.map_cons, List.cons.injEq]
      tauto

theorem hasAdjacentDup_iff {v : List Nat} (hs : v.Pairwise (· ≤ ·)) :
    hasAdjacentDup v = true ↔ ¬ v.Nodup := by
  induction v with
  | nil => simp [hasAdjacentDup]
  | cons a v ih =>
    cases v with
    | nil => simp [hasAdjacentDup]
    | cons b v =>
      have ih' := ih (List.pairwise_cons.1 hs).2
      unfold hasAdjacentDup
      rw [Bool.or_eq_true, ih']
      constructor
      · rintro (h | h) hn
        · simp at h; subst h; simp at hn
        · exact h (List.nodup_cons.1 hn).2
      · intro h
        rw [List.nodup_cons] at h
        by_cases hab : a = b
        · left; simp [hab]
        · right
          intro hn
          apply h
          refine ⟨?_, hn⟩
          intro hmem
          rcases List.mem_cons.1 hmem with h1 | h1
          · exact hab h1
          · have h2 := (List.pairwise_cons.1 (List.pairwise_cons.1 hs).2).1 a h1
            have h3 := (List.pairwise_cons.1 hs).1 b (by simp)
            omega

theorem sorted_insertionSort (v : List Nat) : (v.insertionSort (· ≤ ·)).Pairwise (· ≤ ·) :=
  List.pairwise_insertionSort _ _

theorem normalizeAxes_ok {axes : List Int} {n : Nat} {dup sort : Bool} {v : List Nat} :
    normalizeAxes (some axes) n dup sort = .ok v ↔ (∀ a ∈ axes, AxisOk n a) ∧
      (dup = false → (axes.map (normAxis n)).Nodup) ∧
      v = if sort then (axes.map (normAxis n)).insertionSort (· ≤ ·) else axes.map (normAxis n) := by
  unfold normalizeAxes
  simp only
  rw [bind_ok]
  constructor
  · rintro ⟨u, hu, h⟩
    obtain ⟨h1, rfl⟩ := checkAxes_ok.1 hu
    refine ⟨h1, ?_⟩
    generalize hw : (if sort = true then (axes.map (normAxis n)).insertionSort (· ≤ ·)
      else axes.map (normAxis n)) = w at h
    split at h
    · cases h
    · rename_i hc
      cases h
      refine ⟨?_, rfl⟩
      rintro rfl
      subst hw
      simp only [Bool.not_false, Bool.true_and, Bool.not_eq_true] at hc
      rw [← Bool.not_eq_true, hasAdjacentDup_iff (sorted_insertionSort _), not_not] at hc
      have := (List.perm_insertionSort (· ≤ ·) _).nodup_iff.1 hc
      split at this
      · exact (List.perm_insertionSort (· ≤ ·) _).nodup_iff.1 this
      · exact this
  · rintro ⟨h1, h2, rfl⟩
    refine ⟨_, checkAxes_ok.2 ⟨h1, rfl⟩, ?_⟩
    rw [if_neg]
    simp only [Bool.and_eq_true, Bool.not_eq_true', not_and, Bool.not_eq_true]
    intro hd
    rw [← Bool.not_eq_true, hasAdjacentDup_iff (sorted_insertionSort _), not_not]
    rw [(List.perm_insertionSort (· ≤ ·) _).nodup_iff]
    split
    · exact (List.perm_insertionSort (· ≤ ·) _).nodup_iff.2 (h2 hd)
    · exact h2 hd

theorem perm_range_of {p : List Nat} {n : Nat} (hlen : p.length = n) (hlt : ∀ a ∈ p, a < n)
    (hn : p.Nodup) : p.Perm (List.range n) := by
  have hsub : p.Subperm (List.range n) :=
    List.subperm_of_subset hn fun a ha => List.mem_range.2 (hlt a ha)
  exact hsub.perm_of_length_le (by simp [hlen])

theorem perm_range_iff {p : List Nat} {n : Nat} :
    p.Perm (List.range n) ↔ p.length = n ∧ (∀ a ∈ p, a < n) ∧ p.Nodup := by
  constructor
  · intro h
    exact ⟨by simpa using h.length_eq, fun a ha => by simpa using h.mem_iff.1 ha,
      h.nodup_iff.2 List.nodup_range⟩
  · rintro ⟨h1, h2, h3⟩; exact perm_range_of h1 h2 h3

/-- Axes picked by a list of axis numbers. -/
def pick (axes : List Axis) (p : List Nat) : List Axis := p.map fun a => axes.getD a default

theorem transpose_ok {l m : Layout} {axes : List Int} :
    l.transpose axes = .ok m ↔ (∀ a ∈ axes, AxisOk l.ndim a) ∧
      (axes.map (normAxis l.ndim)).Perm (List.range l.ndim) ∧
      m = ⟨pick l.axes (axes.map (normAxis l.ndim)), l.offset⟩ := by
  unfold Layout.transpose
  split
  · rename_i hl
    simp only [reduceCtorEq, false_iff, not_and]
    intro _ hp
    exfalso; apply hl
    simpa using hp.length_eq
  · rename_i hl
    have hl : axes.length = l.ndim := by omega
    rw [bind_ok]
    constructor
    · rintro ⟨p, hp, h⟩
      obtain ⟨h1, h2, h3⟩ := normalizeAxes_ok.1 hp
      simp only [Bool.false_eq_true, if_false] at h3
      subst h3
      cases h
      refine ⟨h1, perm_range_of (by simpa using hl) ?_ (h2 rfl), rfl⟩
      intro a ha
      obtain ⟨b, hb, rfl⟩ := List.mem_map.1 ha
      exact normAxis_lt (h1 b hb)
    · rintro ⟨h1, h2, rfl⟩
      refine ⟨_, normalizeAxes_ok.2 ⟨h1, fun _ => h2.nodup_iff.2 List.nodup_range, rfl⟩, ?_⟩
      simp [pick]

theorem pick_length (axes : List Axis) (p : List Nat) : (pick axes p).length = p.length := by
  simp [pick]

theorem dims_pick (axes : List Axis) (p : List Nat) :
    dims (pick axes p) = p.map fun a => (dims axes).getD a 0 := by
  simp only [dims, pick, List.map_map]
  apply List.map_congr_left
  intro a _
  simp only [Function.comp, List.getD_eq_getElem?_getD, List.getElem?_map]
  cases axes[a]? <;> rfl

theorem map_getD_range {α : Type} (l : List α) (d : α) :
    ((List.range l.length).map fun k => l.getD k d) = l := by
  apply List.ext_getElem
  · simp
  · intro i h1 h2
    simp only [List.getElem_map, List.getElem_range]
    rw [List.getD_eq_getElem?_getD, List.getElem?_eq_getElem h2]; rfl

theorem pick_perm {axes : List Axis} {p : List Nat} (hp : p.Perm (List.range axes.length)) :
    (pick axes p).Perm axes := by
  have := hp.map fun a => axes.getD a default
  rw [map_getD_range] at this
  exact this

/-- Coordinates picked by a list of axis numbers. -/
def pickIdx (idx : List Nat) (p : List Nat) : List Nat := p.map fun a => idx.getD a 0

theorem pick_addr {axes : List Axis} {p idx : List Nat} (hp : p.Perm (List.range axes.length))
    (hi : InRange idx (dims axes)) :
    InRange (pickIdx idx p) (dims (pick axes p)) ∧ dot (pickIdx idx p) (pick axes p) = dot idx axes := by
  have hl : idx.length = axes.length := by simpa using hi.length_eq
  refine ⟨?_, dot_perm hp hl⟩
  rw [dims_pick]
  exact (inRange_perm (shape := dims axes) (by simpa using hp) (by simpa using hl)).2 hi

/-- Every list of coordinates for the picked axes comes from coordinates for the original axes. -/
theorem exists_pickIdx {n : Nat} {p j : List Nat} (hp : p.Perm (List.range n)) (hj : j.length = n) :
    ∃ i : List Nat, i.length = n ∧ pickIdx i p = j := by
  refine ⟨(List.range n).map fun a => j.getD (p.idxOf a) 0, by simp, ?_⟩
  have hpl : p.length = n := by simpa using hp.length_eq
  have hnd : p.Nodup := hp.nodup_iff.2 List.nodup_range
  unfold pickIdx
  apply List.ext_getElem
  · simp [hpl, hj]
  · intro k h1 h2
    have hk : k < p.length := by simpa using h1
    have hlt : p[k] < n := by simpa using hp.mem_iff.1 (List.getElem_mem hk)
    simp only [List.getElem_map, List.getD_eq_getElem?_getD, List.getElem?_map, List.getElem?_range hlt,
      Option.map_some, Option.getD_some]
    rw [hnd.idxOf_getElem k hk, List.getElem?_eq_getElem h2]; rfl

/-- Reordering axes by a permutation permutes coordinates. -/
theorem pick_addr_inv {axes : List Axis} {p j : List Nat} (hp : p.Perm (List.range axes.length))
    (hj : InRange j (dims (pick axes p))) :
    ∃ i, InRange i (dims axes) ∧ pickIdx i p = j ∧ dot j (pick axes p) = dot i axes := by
  have hjl : j.length = axes.length := by
    have := hj.length_eq
    have h2 := hp.length_eq
    simp [pick] at this h2
    omega
  obtain ⟨i, hil, rfl⟩ := exists_pickIdx hp hjl
  refine ⟨i, ?_, rfl, dot_perm hp hil⟩
  rw [dims_pick] at hj
  exact (inRange_perm (shape := dims axes) (by simpa using hp) (by simpa using hil)).1 hj

/-! ## Acceptance is preserved by permutations of axes -/

theorem loSum_perm {A B : List Axis} (h : A.Perm B) : loSum A = loSum B := by
  induction h with
  | nil => rfl
  | cons a _ ih => simp [loSum, ih]
  | swap a b _ => simp [loSum]; ring
  | trans _ _ ih1 ih2 => rw [ih1, ih2]

theorem boundsIndex_ok_iff {l : Layout} :
    (∃ b, l.boundsIndex = .ok b) ↔ l.axes = [] ∨ 0 ∈ dims l.axes ∨ 0 ≤ l.offset + loSum l.axes := by
  unfold Layout.boundsIndex
  split
  · rename_i h
    have : l.axes = [] := List.length_eq_zero_iff.1 h
    simp [this]
  · rename_i h
    have h' : l.axes ≠ [] := by rintro e; apply h; simp [Layout.ndim, e]
    by_cases hz : 0 ∈ dims l.axes
    · rw [boundsLoop_eq_none.2 hz]; exact ⟨fun _ => Or.inr (Or.inl hz), fun _ => ⟨_, rfl⟩⟩
    · rw [boundsLoop_eq_some hz]
      simp only
      split
      · rename_i h1; exact ⟨fun _ => Or.inr (Or.inr h1), fun _ => ⟨_, rfl⟩⟩
      · rename_i h1
        refine ⟨fun ⟨_, h⟩ => (nomatch h), ?_⟩
        rintro (h2 | h2 | h2)
        · exact absurd h2 h'
        · exact absurd h2 hz
        · exact absurd h2 h1

/-- What `Layout::new` requires of its arguments. -/
theorem newAxes_ok_iff {axes : List Axis} {off : Int} {l : Layout} :
    Layout.newAxes axes off = .ok l ↔ l = ⟨axes, off⟩ ∧
      (axes = [] ∨ 0 ∈ dims axes ∨ (0 ≤ off + loSum axes ∧ NoOverlap axes)) := by
  rw [newAxes_ok]
  constructor
  · rintro ⟨rfl, h1, h2⟩
    refine ⟨rfl, ?_⟩
    rw [boundsIndex_ok_iff] at h1
    rw [checkStrides_iff] at h2
    by_cases hz : 0 ∈ dims axes
    · exact Or.inr (Or.inl hz)
    · rcases h1 with h1 | h1 | h1
      · exact Or.inl h1
      · exact Or.inr (Or.inl h1)
      · rcases h2 with h2 | h2
        · exfalso
          refine absurd h2 (size_ne_zero_iff.2 fun d hd => Nat.pos_of_ne_zero ?_)
          rintro rfl; exact hz hd
        · exact Or.inr (Or.inr ⟨h1, h2⟩)
  · rintro ⟨rfl, h⟩
    refine ⟨rfl, ?_, ?_⟩
    · rw [boundsIndex_ok_iff]
      rcases h with h | h | h
      · exact Or.inl h
      · exact Or.inr (Or.inl h)
      · exact Or.inr (Or.inr h.1)
    · rw [checkStrides_iff]
      rcases h with h | h | h
      · right; rw [h]; exact ⟨[], by simp, trivial⟩
      · left; exact prod_eq_zero_of h
      · exact Or.inr h.2

/-- The layout is one that `Layout::new` returns. -/
def Accepted (l : Layout) : Prop := Layout.newAxes l.axes l.offset = .ok l

theorem accepted_iff {l : Layout} : Accepted l ↔
    (l.axes = [] ∨ 0 ∈ dims l.axes ∨ (0 ≤ l.offset + loSum l.axes ∧ NoOverlap l.axes)) := by
  unfold Accepted; rw [newAxes_ok_iff]; simp

theorem accepted_of_newAxes {axes : List Axis} {off : Int} {l : Layout}
    (h : Layout.newAxes axes off = .ok l) : Accepted l ∧ l = ⟨axes, off⟩ := by
  obtain ⟨rfl, h'⟩ := newAxes_ok_iff.1 h
  exact ⟨h, rfl⟩

theorem accepted_new {shape : List Nat} {stride : List Int} {off : Int} {l : Layout}
    (h : Layout.new shape stride off = .ok l) : Accepted l := by
  obtain ⟨_, rfl, rfl, rfl, h1, h2⟩ := new_ok.1 h
  exact newAxes_ok.2 ⟨rfl, h1, h2⟩

theorem Accepted.perm {A B : List Axis} {off : Int} (hp : A.Perm B) (h : Accepted ⟨B, off⟩) :
    Accepted ⟨A, off⟩ := by
  rw [accepted_iff] at *
  simp only at *
  rcases h with h | h | ⟨h1, h2⟩
  · left; subst h; exact hp.eq_nil
  · exact Or.inr (Or.inl ((hp.map _).mem_iff.2 h))
  · exact Or.inr (Or.inr ⟨by rw [loSum_perm hp]; exact h1, h2.perm hp⟩)

end Rstsr
