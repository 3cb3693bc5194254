import Mathlib.Data.List.Basic
import Verif.Spec.Tensordot
import Verif.Model.Tensordot
import Verif.Proof.Axes
/-!
# C58: the subscripts of a tensordot
-/
namespace Rstsr
open Spec

theorem letters_nodup : einsumLetters.Nodup := by decide

theorem letters_length : einsumLetters.length = 52 := by decide

/-- What the loop over the pairs does. -/
theorem labelPairs_ok (ps : List (Nat × Nat)) : ∀ (letters : List Char) (la lb : List (Option Char)), ps.length ≤ letters.length →
    (ps.map Prod.fst).Nodup → (ps.map Prod.snd).Nodup → (∀ p ∈ ps, p.1 < la.length ∧ p.2 < lb.length) →
    ∃ la' lb', labelPairs letters ps la lb = .ok (letters.drop ps.length, la', lb') ∧
      la'.length = la.length ∧ lb'.length = lb.length ∧
      (∀ t (h : t < ps.length), la'[ps[t].1]? = some letters[t]? ∧ lb'[ps[t].2]? = some letters[t]?) ∧
      (∀ i, i ∉ ps.map Prod.fst → la'[i]? = la[i]?) ∧ (∀ j, j ∉ ps.map Prod.snd → lb'[j]? = lb[j]?) := by
  induction ps with
  | nil => intro letters la lb _ _ _ _; exact ⟨la, lb, by simp [labelPairs], rfl, rfl, by simp, by simp, by simp⟩
  | cons p ps ih =>
    obtain ⟨i, j⟩ := p
    intro letters la lb hl na nb hr
    obtain ⟨c, letters, rfl⟩ : ∃ c cs, letters = c :: cs := by
      cases letters with
      | nil => simp at hl
      | cons c cs => exact ⟨c, cs, rfl⟩
    simp only [List.map_cons, List.nodup_cons] at na nb
    obtain ⟨r1, r2⟩ := hr (i, j) (by simp)
    obtain ⟨la', lb', h1, h2, h3, h4, h5, h6⟩ := ih letters (la.set i (some c)) (lb.set j (some c)) (by simpa using hl) na.2 nb.2
      (fun p hp => by simpa using hr p (by simp [hp]))
    refine ⟨la', lb', by simpa [labelPairs] using h1, by simpa using h2, by simpa using h3, ?_, ?_, ?_⟩
    · intro t ht
      cases t with
      | zero =>
        simp only [List.getElem_cons_zero, List.getElem?_cons_zero]
        rw [h5 i na.1, h6 j nb.1]
        simp only at r1 r2
        simp [r1, r2]
      | succ t =>
        simp only [List.getElem_cons_succ, List.getElem?_cons_succ]
        exact h4 t (by simpa using ht)
    · intro k hk
      simp only [List.map_cons, List.mem_cons, not_or] at hk
      rw [h5 k hk.2, List.getElem?_set_ne (fun e => hk.1 e.symm)]
    · intro k hk
      simp only [List.map_cons, List.mem_cons, not_or] at hk
      rw [h6 k hk.2, List.getElem?_set_ne (fun e => hk.1 e.symm)]

theorem labelPairs_error (ps : List (Nat × Nat)) : ∀ (letters : List Char) (la lb : List (Option Char)), letters.length < ps.length →
    labelPairs letters ps la lb = .error .invalidValue := by
  induction ps with
  | nil => intro letters _ _ h; simp at h
  | cons p ps ih =>
    intro letters la lb h
    cases letters with
    | nil => rfl
    | cons c cs => exact ih cs _ _ (by simpa using h)

/-- What the loop over the remaining axes does. -/
theorem labelRest_ok (L : List (Option Char)) : ∀ (letters : List Char), L.count none ≤ letters.length →
    ∃ cs, labelRest letters L = .ok (letters.drop (L.count none), cs) ∧ cs.length = L.length ∧
      (∀ (i : Nat) c, L[i]? = some (some c) → cs[i]? = some c) ∧
      (∀ i : Nat, L[i]? = some none → cs[i]? = letters[(L.take i).count none]?) := by
  induction L with
  | nil => intro letters _; exact ⟨[], rfl, rfl, by simp, by simp⟩
  | cons x L ih =>
    intro letters hl
    cases x with
    | some c =>
      rw [List.count_cons_of_ne (by simp)] at hl
      obtain ⟨cs, h1, h2, h3, h4⟩ := ih letters hl
      refine ⟨c :: cs, ?_, by simp [h2], ?_, ?_⟩
      · rw [labelRest, h1, List.count_cons_of_ne (by simp)]; rfl
      · intro i d hi
        cases i with
        | zero => simpa using hi
        | succ i => exact h3 i d (by simpa using hi)
      · intro i hi
        cases i with
        | zero => simp at hi
        | succ i =>
          rw [List.take_succ_cons, List.count_cons_of_ne (by simp)]
          exact h4 i (by simpa using hi)
    | none =>
      rw [List.count_cons_self] at hl
      obtain ⟨c, letters, rfl⟩ : ∃ c cs, letters = c :: cs := by
        cases letters with
        | nil => simp at hl
        | cons c cs => exact ⟨c, cs, rfl⟩
      obtain ⟨cs, h1, h2, h3, h4⟩ := ih letters (by simpa using hl)
      refine ⟨c :: cs, ?_, by simp [h2], ?_, ?_⟩
      · rw [labelRest, h1, List.count_cons_self]; rfl
      · intro i d hi
        cases i with
        | zero => simp at hi
        | succ i => exact h3 i d (by simpa using hi)
      · intro i hi
        cases i with
        | zero => rfl
        | succ i =>
          rw [List.take_succ_cons, List.count_cons_self, List.getElem?_cons_succ, List.getElem?_cons_succ]
          exact h4 i (by simpa using hi)

theorem labelRest_error (L : List (Option Char)) : ∀ (letters : List Char), letters.length < L.count none →
    labelRest letters L = .error .invalidValue := by
  induction L with
  | nil => intro letters h; simp at h
  | cons x L ih =>
    intro letters hl
    cases x with
    | some c =>
      rw [List.count_cons_of_ne (by simp)] at hl
      rw [labelRest, ih letters hl]; rfl
    | none =>
      rw [List.count_cons_self] at hl
      cases letters with
      | nil => rfl
      | cons c cs => rw [labelRest, ih cs (by simpa using hl)]; rfl

/-- The free places before `j` outnumber those before an earlier free place `i`. -/
theorem count_take_lt {L : List (Option Char)} {i j : Nat} (h : i < j) (hi : L[i]? = some none) :
    (L.take i).count none < (L.take j).count none := by
  have hlt := (List.getElem?_eq_some_iff.1 hi).1
  have h1 : (L.take (i + 1)).count none = (L.take i).count none + 1 := by
    rw [List.take_add_one, hi, List.count_append]; simp
  have h2 : (L.take (i + 1)).count none ≤ (L.take j).count none :=
    List.Sublist.count_le _ (List.take_sublist_take_left (by omega))
  omega

theorem count_take_lt_total {L : List (Option Char)} {i : Nat} (hi : L[i]? = some none) :
    (L.take i).count none < L.count none := by
  have := count_take_lt (Nat.lt_succ_self i) hi
  exact lt_of_lt_of_le this (List.Sublist.count_le _ (List.take_sublist _ _))

/-- How many axes are left after labelling the pairs. -/
theorem count_none {L : List (Option Char)} {A : List Nat} {n : Nat} (hL : L.length = n) (hn : A.Nodup) (hr : ∀ x ∈ A, x < n)
    (h1 : ∀ i, i ∈ A → ∃ c, L[i]? = some (some c)) (h2 : ∀ i, i < n → i ∉ A → L[i]? = some none) :
    L.count none = n - A.length := by
  have e1 : L.count none = ((List.range n).filter fun i => i ∉ A).length := by
    have : L = (List.range n).map fun i => L[i]?.getD none := by
      apply List.ext_getElem?
      intro i
      by_cases hi : i < n
      · rw [List.getElem?_map, List.getElem?_range hi]
        obtain ⟨x, hx⟩ : ∃ x, L[i]? = some x := ⟨_, List.getElem?_eq_getElem (hL ▸ hi)⟩
        simp [hx]
      · rw [List.getElem?_eq_none (by omega), List.getElem?_eq_none (by simp; omega)]
    rw [this, List.count_eq_countP, List.countP_map, List.countP_eq_length_filter]
    congr 1
    apply List.filter_congr
    intro i hi
    have hi := List.mem_range.1 hi
    by_cases ha : i ∈ A
    · obtain ⟨c, hc⟩ := h1 i ha
      simp [hc, ha]
    · simp [h2 i hi ha, ha]
  have e2 : ((List.range n).filter fun i => i ∈ A).length = A.length := by
    apply List.Perm.length_eq
    rw [List.perm_ext_iff_of_nodup (List.nodup_range.filter _) hn]
    intro i
    simp only [List.mem_filter, List.mem_range, decide_eq_true_eq]
    exact ⟨fun h => h.2, fun h => ⟨hr i h, h⟩⟩
  have e3 := List.length_eq_length_filter_add (l := List.range n) (fun i => decide (i ∈ A))
  simp only [List.length_range] at e3
  have e4 : ((List.range n).filter fun i => !decide (i ∈ A)) = (List.range n).filter fun i => i ∉ A := by
    apply List.filter_congr; intro i _; simp
  rw [e4] at e3
  rw [e1]
  omega

theorem letters_inj {i j : Nat} {c : Char} (hi : einsumLetters[i]? = some c) (hj : einsumLetters[j]? = some c) : i = j := by
  obtain ⟨h1, e1⟩ := List.getElem?_eq_some_iff.1 hi
  obtain ⟨h2, e2⟩ := List.getElem?_eq_some_iff.1 hj
  exact (List.Nodup.getElem_inj_iff letters_nodup).1 (e1.trans e2.symm)

/-- The number of the letter of each axis of one operand: that of its pair, or one after `base`. -/
def Coded (A : List Nat) (base n : Nat) (s : List Char) : Prop :=
  ∃ L : List (Option Char), L.length = n ∧ s.length = n ∧ L.count none = n - A.length ∧
    (∀ t i : Nat, A[t]? = some i → s[i]? = einsumLetters[t]?) ∧
    ∀ i : Nat, i < n → i ∉ A → L[i]? = some none ∧ s[i]? = einsumLetters[base + (L.take i).count none]?

theorem Coded.nodup {A : List Nat} {base n : Nat} {s : List Char} (h : Coded A base n s) (hA : A.Nodup) (hb : A.length ≤ base) :
    s.Nodup := by
  obtain ⟨L, hL, hs, hc, h1, h2⟩ := h
  have key : ∀ i j, i < n → j < n → i < j → s[i]? ≠ s[j]? := by
    intro i j hi hj hij e
    obtain ⟨c, ei⟩ : ∃ c, s[i]? = some c := ⟨_, List.getElem?_eq_getElem (hs ▸ hi)⟩
    have ej : s[j]? = some c := e ▸ ei
    by_cases ia : i ∈ A
    · obtain ⟨t, ht⟩ := List.mem_iff_getElem?.1 ia
      have ht' := (List.getElem?_eq_some_iff.1 ht).1
      have e1 := (h1 t i ht).symm.trans ei
      by_cases ja : j ∈ A
      · obtain ⟨u, hu⟩ := List.mem_iff_getElem?.1 ja
        have e2 := (h1 u j hu).symm.trans ej
        have := letters_inj e1 e2
        subst this
        rw [ht] at hu
        cases hu
        omega
      · have e2 := (h2 j hj ja).2.symm.trans ej
        have := letters_inj e1 e2
        omega
    · have e1 := (h2 i hi ia).2.symm.trans ei
      by_cases ja : j ∈ A
      · obtain ⟨u, hu⟩ := List.mem_iff_getElem?.1 ja
        have hu' := (List.getElem?_eq_some_iff.1 hu).1
        have e2 := (h1 u j hu).symm.trans ej
        have := letters_inj e1 e2
        omega
      · have e2 := (h2 j hj ja).2.symm.trans ej
        have := letters_inj e1 e2
        have := count_take_lt hij (h2 i hi ia).1
        omega
  rw [List.nodup_iff_getElem?_ne_getElem?]
  intro i j hij hj
  exact key i j (by omega) (by omega) hij

/-- The labelling, for legal axes. -/
theorem labels_core {na nb : Nat} {A B : List Nat} (hab : A.length = B.length) (hA : A.Nodup) (hB : B.Nodup)
    (ra : ∀ x ∈ A, x < na) (rb : ∀ x ∈ B, x < nb) (hn : na + nb - A.length ≤ 52) :
    ∃ l1 la lb l2 sa l3 sb, labelPairs einsumLetters (A.zip B) (List.replicate na none) (List.replicate nb none) = .ok (l1, la, lb) ∧
      labelRest l1 la = .ok (l2, sa) ∧ labelRest l2 lb = .ok (l3, sb) ∧
      Coded A A.length na sa ∧ Coded B na nb sb := by
  have len : ∀ {A : List Nat} {n : Nat}, A.Nodup → (∀ x ∈ A, x < n) → A.length ≤ n := by
    intro A n hA hr
    have := (List.subperm_of_subset hA (l₂ := List.range n) fun x hx => List.mem_range.2 (hr x hx)).length_le
    simpa using this
  have lena := len hA ra
  have lenb := len hB rb
  have hzl : (A.zip B).length = A.length := by simp [hab]
  have fA : (A.zip B).map Prod.fst = A := List.map_fst_zip (by omega)
  have fB : (A.zip B).map Prod.snd = B := List.map_snd_zip (by omega)
  obtain ⟨la, lb, h1, h2, h3, h4, h5, h6⟩ := labelPairs_ok (A.zip B) einsumLetters (List.replicate na none) (List.replicate nb none)
    (by rw [hzl, letters_length]; omega) (fA.symm ▸ hA) (fB.symm ▸ hB) (fun p hp => by
      rw [List.length_replicate, List.length_replicate]
      exact ⟨ra _ (fA ▸ List.mem_map_of_mem hp), rb _ (fB ▸ List.mem_map_of_mem hp)⟩)
  rw [List.length_replicate] at h2 h3
  rw [fA] at h5
  rw [fB] at h6
  have get : ∀ t < A.length, ∃ c, einsumLetters[t]? = some c := fun t ht =>
    ⟨_, List.getElem?_eq_getElem (by rw [letters_length]; omega)⟩
  have pA : ∀ t i : Nat, A[t]? = some i → la[i]? = some einsumLetters[t]? := by
    intro t i ht
    obtain ⟨h, e⟩ := List.getElem?_eq_some_iff.1 ht
    have := (h4 t (by omega)).1
    rw [List.getElem_zip] at this
    rwa [e] at this
  have pB : ∀ t j : Nat, B[t]? = some j → lb[j]? = some einsumLetters[t]? := by
    intro t j ht
    obtain ⟨h, e⟩ := List.getElem?_eq_some_iff.1 ht
    have := (h4 t (by omega)).2
    rw [List.getElem_zip] at this
    rwa [e] at this
  have nA : ∀ i, i < na → i ∉ A → la[i]? = some none := by
    intro i hi ha; rw [h5 i ha]; simp [hi]
  have nB : ∀ i, i < nb → i ∉ B → lb[i]? = some none := by
    intro i hi ha; rw [h6 i ha]; simp [hi]
  have sA : ∀ i, i ∈ A → ∃ c, la[i]? = some (some c) := by
    intro i hi
    obtain ⟨t, ht⟩ := List.mem_iff_getElem?.1 hi
    obtain ⟨c, hc⟩ := get t (List.getElem?_eq_some_iff.1 ht).1
    exact ⟨c, by rw [pA t i ht, hc]⟩
  have sB : ∀ i, i ∈ B → ∃ c, lb[i]? = some (some c) := by
    intro i hi
    obtain ⟨t, ht⟩ := List.mem_iff_getElem?.1 hi
    obtain ⟨c, hc⟩ := get t (hab ▸ (List.getElem?_eq_some_iff.1 ht).1)
    exact ⟨c, by rw [pB t i ht, hc]⟩
  have cA := count_none h2 hA ra sA nA
  have cB := count_none h3 hB rb sB nB
  obtain ⟨sa, a1, a2, a3, a4⟩ := labelRest_ok la (einsumLetters.drop (A.zip B).length)
    (by rw [List.length_drop, letters_length, hzl, cA]; omega)
  obtain ⟨sb, b1, b2, b3, b4⟩ := labelRest_ok lb ((einsumLetters.drop (A.zip B).length).drop (la.count none))
    (by rw [List.length_drop, List.length_drop, letters_length, hzl, cA, cB]; omega)
  refine ⟨_, la, lb, _, sa, _, sb, h1, a1, b1, ⟨la, h2, by omega, cA, ?_, ?_⟩, ⟨lb, h3, by omega, cB, ?_, ?_⟩⟩
  · intro t i ht
    obtain ⟨c, hc⟩ := get t (List.getElem?_eq_some_iff.1 ht).1
    rw [hc]
    exact a3 i c (by rw [pA t i ht, hc])
  · intro i hi ha
    refine ⟨nA i hi ha, ?_⟩
    rw [a4 i (nA i hi ha), List.getElem?_drop, hzl]
  · intro t i ht
    obtain ⟨c, hc⟩ := get t (hab ▸ (List.getElem?_eq_some_iff.1 ht).1)
    rw [hc]
    exact b3 i c (by rw [pB t i ht, hc])
  · intro i hi ha
    refine ⟨nB i hi ha, ?_⟩
    rw [b4 i (nB i hi ha), List.getElem?_drop, List.getElem?_drop, hzl, cA]
    congr 1
    omega

theorem freeLabels_eq (A : List Nat) (s : List Char) : freeLabels A s = dropAxes A s := by
  unfold freeLabels dropAxes
  congr 1
  apply List.filter_congr
  intro p _
  simp

theorem dropAxes_map {α β : Type} (A : List Nat) (f : α → β) (xs : List α) : dropAxes A (xs.map f) = (dropAxes A xs).map f := by
  unfold dropAxes
  rw [List.zipIdx_map, List.filter_map, List.map_map, List.map_map]
  rfl

/-- The labels are shared exactly by the requested pairs. -/
theorem coded_shared {na nb : Nat} {A B : List Nat} {sa sb : List Char} (hab : A.length = B.length)
    (hA : A.Nodup) (ra : ∀ x ∈ A, x < na)
    (ha : Coded A A.length na sa) (hb : Coded B na nb sb) {i j : Nat} (hi : i < na) (hj : j < nb) :
    sa[i]? = sb[j]? ↔ ∃ t : Nat, A[t]? = some i ∧ B[t]? = some j := by
  have lena : A.length ≤ na := by
    have := (List.subperm_of_subset hA (l₂ := List.range na) fun x hx => List.mem_range.2 (ra x hx)).length_le
    simpa using this
  obtain ⟨L, hL, hs, hc, h1, h2⟩ := ha
  obtain ⟨M, hM, ks, kc, k1, k2⟩ := hb
  constructor
  · intro e
    obtain ⟨c, ei⟩ : ∃ c, sa[i]? = some c := ⟨_, List.getElem?_eq_getElem (hs ▸ hi)⟩
    have ej : sb[j]? = some c := e ▸ ei
    by_cases ia : i ∈ A
    · obtain ⟨t, ht⟩ := List.mem_iff_getElem?.1 ia
      have ht' := (List.getElem?_eq_some_iff.1 ht).1
      have e1 := (h1 t i ht).symm.trans ei
      by_cases ja : j ∈ B
      · obtain ⟨u, hu⟩ := List.mem_iff_getElem?.1 ja
        have e2 := (k1 u j hu).symm.trans ej
        have := letters_inj e1 e2
        subst this
        exact ⟨t, ht, hu⟩
      · have e2 := (k2 j hj ja).2.symm.trans ej
        have := letters_inj e1 e2
        omega
    · have e1 := (h2 i hi ia).2.symm.trans ei
      have hlt := count_take_lt_total (h2 i hi ia).1
      by_cases ja : j ∈ B
      · obtain ⟨u, hu⟩ := List.mem_iff_getElem?.1 ja
        have hu' := (List.getElem?_eq_some_iff.1 hu).1
        have e2 := (k1 u j hu).symm.trans ej
        have := letters_inj e1 e2
        omega
      · have e2 := (k2 j hj ja).2.symm.trans ej
        have := letters_inj e1 e2
        omega
  · rintro ⟨t, ht, hu⟩
    rw [h1 t i ht, k1 t j hu]

/-- The meaning of subscripts whose labels are shared exactly by the pairs. -/
theorem einsum_terms {L : Type} [DecidableEq L] {sa sb : List L} (na : sa.Nodup) (nb : sb.Nodup) {A B : List Nat}
    (ra : ∀ x ∈ A, x < sa.length) (rb : ∀ x ∈ B, x < sb.length)
    (hp : ∀ i j, i < sa.length → j < sb.length → (sa[i]? = sb[j]? ↔ ∃ t : Nat, A[t]? = some i ∧ B[t]? = some j))
    {ia ib ic : List Nat} (la : ia.length = sa.length) (lb : ib.length = sb.length) :
    EinsumTerm sa sb (dropAxes A sa ++ dropAxes B sb) ia ib ic ↔ TensordotTerm A B ia ib ic := by
  constructor
  · rintro ⟨σ, rfl, rfl, rfl⟩
    refine ⟨?_, by rw [List.map_append, dropAxes_map, dropAxes_map]⟩
    intro t x y hx hy
    have h1 := ra x (List.mem_of_getElem? hx)
    have h2 := rb y (List.mem_of_getElem? hy)
    rw [List.getElem?_map, List.getElem?_map, (hp x y h1 h2).2 ⟨t, hx, hy⟩]
  · rintro ⟨h1, rfl⟩
    let σ : L → Nat := fun c => if c ∈ sa then ia.getD (sa.idxOf c) 0 else ib.getD (sb.idxOf c) 0
    have ea : ia = sa.map σ := by
      apply List.ext_getElem (by simpa using la)
      intro i hi hi'
      simp only [List.length_map] at hi'
      rw [List.getElem_map]
      simp only [σ]
      rw [if_pos (List.getElem_mem _), na.idxOf_getElem, List.getD_eq_getElem?_getD, List.getElem?_eq_getElem hi]
      rfl
    have eb : ib = sb.map σ := by
      apply List.ext_getElem (by simpa using lb)
      intro j hj hj'
      simp only [List.length_map] at hj'
      rw [List.getElem_map]
      simp only [σ]
      split
      · rename_i hm
        obtain ⟨i, hi, e⟩ := List.getElem_of_mem hm
        obtain ⟨t, hx, hy⟩ := (hp i j hi hj').1 (by
          rw [List.getElem?_eq_getElem hi, List.getElem?_eq_getElem hj', e])
        have := h1 t i j hx hy
        rw [← e, na.idxOf_getElem, List.getD_eq_getElem?_getD, this, List.getElem?_eq_getElem hj]
        rfl
      · rw [nb.idxOf_getElem, List.getD_eq_getElem?_getD, List.getElem?_eq_getElem hj]
        rfl
    refine ⟨σ, ea, eb, ?_⟩
    rw [List.map_append, ← dropAxes_map, ← dropAxes_map, ← ea, ← eb]

/-- The subscripts for resolved axes. -/
theorem subscripts_core {na nb : Nat} {axes : AxesPair} {A B : List Nat} (hr : tensordotAxes na nb axes = .ok (A, B))
    (hab : A.length = B.length) (hA : A.Nodup) (hB : B.Nodup)
    (ra : ∀ x ∈ A, x < na) (rb : ∀ x ∈ B, x < nb) (hn : na + nb - A.length ≤ 52) :
    ∃ sa sb sc, tensordotSubscripts na nb axes = .ok (sa, sb, sc) ∧ sa.length = na ∧ sb.length = nb ∧
      ∀ ia ib ic : List Nat, ia.length = na → ib.length = nb →
        (EinsumTerm sa sb sc ia ib ic ↔ TensordotTerm A B ia ib ic) := by
  obtain ⟨l1, la, lb, l2, sa, l3, sb, h1, h2, h3, ca, cb⟩ := labels_core hab hA hB ra rb hn
  have lena : A.length ≤ na := by
    have := (List.subperm_of_subset hA (l₂ := List.range na) fun x hx => List.mem_range.2 (ra x hx)).length_le
    simpa using this
  have ea : sa.length = na := by obtain ⟨_, _, h, _⟩ := ca; exact h
  have eb : sb.length = nb := by obtain ⟨_, _, h, _⟩ := cb; exact h
  refine ⟨sa, sb, freeLabels A sa ++ freeLabels B sb, ?_, ea, eb, ?_⟩
  · unfold tensordotSubscripts
    simp only [hr, ok_bind, h1, h2, h3]
  · intro ia ib ic ha hb
    rw [freeLabels_eq, freeLabels_eq]
    refine einsum_terms (ca.nodup hA le_rfl) (cb.nodup hB (by omega)) (ea.symm ▸ ra) (eb.symm ▸ rb) ?_ (by omega) (by omega)
    intro i j hi hj
    exact coded_shared hab hA ra ca cb (ea ▸ hi) (eb ▸ hj)

/-- C58 for explicit axes: for equally long lists of legal, distinct axes the subscripts sum exactly the terms of the
tensordot, as long as the letters suffice. -/
theorem C58_pairs (na nb : Nat) (xa xb : List Int) (hl : xa.length = xb.length)
    (oa : ∀ x ∈ xa, AxisOk na x) (ob : ∀ x ∈ xb, AxisOk nb x)
    (da : (xa.map (normAxis na)).Nodup) (db : (xb.map (normAxis nb)).Nodup) (hn : na + nb - xa.length ≤ 52) :
    ∃ sa sb sc, tensordotSubscripts na nb (.pair (some xa) (some xb)) = .ok (sa, sb, sc) ∧ sa.length = na ∧ sb.length = nb ∧
      ∀ ia ib ic : List Nat, ia.length = na → ib.length = nb →
        (EinsumTerm sa sb sc ia ib ic ↔ TensordotTerm (xa.map (normAxis na)) (xb.map (normAxis nb)) ia ib ic) := by
  refine subscripts_core ?_ (by simp [hl]) da db ?_ ?_ (by simpa using hn)
  · have h1 : normalizeAxes (some xa) na false false = .ok (xa.map (normAxis na)) :=
      normalizeAxes_ok.2 ⟨oa, fun _ => da, by simp⟩
    have h2 : normalizeAxes (some xb) nb false false = .ok (xb.map (normAxis nb)) :=
      normalizeAxes_ok.2 ⟨ob, fun _ => db, by simp⟩
    simp only [tensordotAxes, h1, h2, ok_bind]
  · intro x hx
    obtain ⟨y, hy, rfl⟩ := List.mem_map.1 hx
    exact normAxis_lt (oa y hy)
  · intro x hx
    obtain ⟨y, hy, rfl⟩ := List.mem_map.1 hx
    exact normAxis_lt (ob y hy)

/-- C58 for a number of axes: the last `n` of the first operand are summed against the first `n` of the second. -/
theorem C58_count (na nb n : Nat) (ha : n ≤ na) (hb : n ≤ nb) (hn : na + nb - n ≤ 52) :
    ∃ sa sb sc, tensordotSubscripts na nb (.val n) = .ok (sa, sb, sc) ∧ sa.length = na ∧ sb.length = nb ∧
      ∀ ia ib ic : List Nat, ia.length = na → ib.length = nb →
        (EinsumTerm sa sb sc ia ib ic ↔
          (∀ t < n, ia[na - n + t]? = ib[t]?) ∧ ic = ia.take (na - n) ++ ib.drop n) := by
  have hr : tensordotAxes na nb (.val n) = .ok (List.range' (na - n) n, List.range n) := by
    simp only [tensordotAxes, Int.toNat_natCast]
    rw [if_neg (by omega), if_neg (by omega)]
  obtain ⟨sa, sb, sc, h1, h2, h3, h4⟩ := subscripts_core hr (by simp) (List.nodup_range' ..) List.nodup_range
    (fun x hx => by rw [List.mem_range'_1] at hx; omega) (fun x hx => by rw [List.mem_range] at hx; omega) (by simpa using hn)
  refine ⟨sa, sb, sc, h1, h2, h3, fun ia ib ic la lb => (h4 ia ib ic la lb).trans ?_⟩
  have dropTail : ∀ (xs : List Nat) (m : Nat), xs.length = m + n → dropAxes (List.range' m n) xs = xs.take m := by
    intro xs m hx
    unfold dropAxes
    have e : (xs.zipIdx.filter fun p => p.2 ∉ List.range' m n) = xs.zipIdx.filter fun p => p.2 < m := by
      apply List.filter_congr
      rintro ⟨x, k⟩ hp
      have := (List.mem_zipIdx hp).2.1
      simp only [List.mem_range'_1, decide_eq_decide]
      omega
    rw [e]
    have hsplit : xs = xs.take m ++ xs.drop m := (List.take_append_drop m xs).symm
    conv_lhs => rw [hsplit, List.zipIdx_append]
    rw [List.filter_append, List.filter_eq_self.2, List.filter_eq_nil_iff.2]
    · simp
    · rintro ⟨x, k⟩ hp
      have := (List.mem_zipIdx hp).1
      simp only [List.length_take] at this
      simp only [decide_eq_true_eq]
      omega
    · rintro ⟨x, k⟩ hp
      have := (List.mem_zipIdx hp).2.1
      simp only [List.length_take] at this
      simp only [decide_eq_true_eq]
      omega
  have dropHead : ∀ (xs : List Nat), n ≤ xs.length → dropAxes (List.range n) xs = xs.drop n := by
    intro xs hx
    unfold dropAxes
    have hsplit : xs = xs.take n ++ xs.drop n := (List.take_append_drop n xs).symm
    conv_lhs => rw [hsplit, List.zipIdx_append]
    rw [List.filter_append, List.filter_eq_nil_iff.2, List.filter_eq_self.2]
    · simp
    · rintro ⟨x, k⟩ hp
      have := (List.mem_zipIdx hp).1
      simp only [List.length_take] at this
      simp only [List.mem_range, decide_eq_true_eq]
      omega
    · rintro ⟨x, k⟩ hp
      have := (List.mem_zipIdx hp).2.1
      simp only [List.length_take] at this
      simp only [List.mem_range, decide_eq_true_eq]
      omega
  unfold TensordotTerm
  rw [dropTail ia (na - n) (by omega), dropHead ib (by omega)]
  refine and_congr_left fun _ => ⟨fun h t ht => h t _ _ (by simp [ht]) (by simp [ht]), fun h t x y hx hy => ?_⟩
  obtain ⟨k, rfl⟩ := List.getElem?_eq_some_iff.1 hy
  obtain ⟨k', rfl⟩ := List.getElem?_eq_some_iff.1 hx
  simp only [List.length_range] at k
  have := h t k
  simpa using this

/-- Without axes, two are summed. -/
theorem C58_default (na nb : Nat) : tensordotSubscripts na nb .none = tensordotSubscripts na nb (.val 2) := rfl

/-- Requests that are refused: a negative number of axes, more axes than an operand has, axes out of range or
repeated, and more labels than letters. -/
theorem C58_reject (na nb : Nat) :
    (∀ n : Int, n < 0 → tensordotSubscripts na nb (.val n) = .error .invalidValue) ∧
    (∀ n : Nat, na < n ∨ nb < n → tensordotSubscripts na nb (.val n) = .error .invalidLayout) ∧
    (∀ xa xb r, tensordotSubscripts na nb (.pair (some xa) (some xb)) = .ok r →
      (∀ x ∈ xa, AxisOk na x) ∧ (∀ x ∈ xb, AxisOk nb x) ∧ (xa.map (normAxis na)).Nodup ∧ (xb.map (normAxis nb)).Nodup) := by
  refine ⟨?_, ?_, ?_⟩
  · intro n hn
    simp only [tensordotSubscripts, tensordotAxes, if_pos hn]
    rfl
  · intro n hn
    simp only [tensordotSubscripts, tensordotAxes, Int.toNat_natCast]
    rw [if_neg (by omega), if_pos hn]
    rfl
  · intro xa xb r h
    unfold tensordotSubscripts at h
    obtain ⟨⟨A, B⟩, h1, -⟩ := bind_ok.1 h
    simp only [tensordotAxes] at h1
    obtain ⟨a, ha, h2⟩ := bind_ok.1 h1
    obtain ⟨b, hb, -⟩ := bind_ok.1 h2
    obtain ⟨a1, a2, -⟩ := normalizeAxes_ok.1 ha
    obtain ⟨b1, b2, -⟩ := normalizeAxes_ok.1 hb
    exact ⟨a1, b1, a2 rfl, b2 rfl⟩

/-- Axis lists of different lengths are accepted although the request makes no sense: the unpaired axis 1 of the first
operand is summed on its own, against nothing. -/
theorem C58_false_lengths :
    ∃ sa sb sc, tensordotSubscripts 2 2 (.pair (some [0, 1]) (some [0])) = .ok (sa, sb, sc) ∧
      ∀ j, EinsumTerm sa sb sc [0, j] [0, 5] [5] := by
  refine ⟨['a', 'b'], ['a', 'c'], ['c'], rfl, fun j => ⟨fun c => if c = 'a' then 0 else if c = 'b' then j else 5, ?_, ?_, ?_⟩⟩ <;> simp

/-- More than 52 labels are refused although the contraction is legal. -/
theorem C58_false_letters : tensordotSubscripts 27 27 (.val 1) = .error .invalidValue := rfl

example : tensordotSubscripts 3 3 (.pair (some [-1, 0]) (some [0, 2])) =
    .ok (['b', 'c', 'a'], ['a', 'd', 'b'], ['c', 'd']) := rfl

end Rstsr
