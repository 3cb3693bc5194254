import Verif.Proof.Reshape
import Verif.Proof.Diagonal
/-! # Layouts made by a no-copy reshape pass the stride check -/
namespace Rstsr
open Spec

theorem SuperInc.append {c : Nat} {P Q : List Axis} :
    SuperInc c (P ++ Q) ↔ SuperInc c P ∧ SuperInc (c + (P.map fun a => (a.dim - 1) * a.str.natAbs).sum) Q := by
  induction P generalizing c with
  | nil => simp [SuperInc]
  | cons a P ih => simp only [List.cons_append, SuperInc, ih, List.map_cons, List.sum_cons, Nat.add_assoc, and_assoc]

theorem noOverlap_cons_skip {a : Axis} {Z : List Axis} (h : a.ess = false) : NoOverlap (a :: Z) ↔ NoOverlap Z := by
  unfold NoOverlap
  rw [List.filter_cons_of_neg (by simp [h])]

/-- One axis of length `d1 * d2` cut into two. -/
theorem noOverlap_cut {d1 d2 : Nat} {s : Int} {Z : List Axis} (h1 : 0 < d1) (h2 : 0 < d2)
    (h : NoOverlap (⟨d1 * d2, s⟩ :: Z)) : NoOverlap (⟨d1, s⟩ :: ⟨d2, s * d1⟩ :: Z) := by
  by_cases hs : s = 0
  · subst hs
    rw [noOverlap_cons_skip (by simp [Axis.ess])] at h
    rw [noOverlap_cons_skip (by simp [Axis.ess]), noOverlap_cons_skip (by simp [Axis.ess])]
    exact h
  by_cases e1 : d1 = 1
  · subst e1
    rw [noOverlap_cons_skip (by simp [Axis.ess])]
    simpa using h
  by_cases e2 : d2 = 1
  · subst e2
    have := (List.Perm.swap (⟨1, s * d1⟩ : Axis) ⟨d1, s⟩ Z)
    refine NoOverlap.perm this ?_
    rw [noOverlap_cons_skip (by simp [Axis.ess])]
    simpa using h
  have hd1 : 1 < d1 := by omega
  have hd2 : 1 < d2 := by omega
  have hd : 1 < d1 * d2 := by nlinarith
  obtain ⟨L, hp, hL⟩ := h
  rw [List.filter_cons_of_pos (by simp [Axis.ess, hd, hs])] at hp
  have hmem : (⟨d1 * d2, s⟩ : Axis) ∈ L := hp.mem_iff.2 (by simp)
  obtain ⟨P, Q, rfl⟩ := List.append_of_mem hmem
  refine ⟨P ++ ⟨d1, s⟩ :: ⟨d2, s * d1⟩ :: Q, ?_, ?_⟩
  · rw [List.filter_cons_of_pos (by simp [Axis.ess, hd1, hs]),
      List.filter_cons_of_pos (by simp [Axis.ess, hd2, hs]; omega)]
    have hp' := (List.perm_middle.symm.trans hp).cons_inv
    refine List.perm_middle.trans (List.Perm.cons _ ?_)
    exact List.perm_middle.trans (List.Perm.cons _ hp')
  · rw [SuperInc.append] at hL ⊢
    obtain ⟨g1, g2, g3⟩ := hL
    refine ⟨g1, g2, ?_, ?_⟩
    · simp only at g2 ⊢
      rw [Int.natAbs_mul, Int.natAbs_natCast]
      obtain ⟨d, rfl⟩ : ∃ d, d1 = d + 1 := ⟨d1 - 1, by omega⟩
      simp only [Nat.add_sub_cancel]
      nlinarith
    · simp only at g3 ⊢
      rw [Int.natAbs_mul, Int.natAbs_natCast]
      convert g3 using 1
      obtain ⟨d, rfl⟩ : ∃ d, d1 = d + 1 := ⟨d1 - 1, by omega⟩
      obtain ⟨e, rfl⟩ : ∃ e, d2 = e + 1 := ⟨d2 - 1, by omega⟩
      have : (d + 1) * (e + 1) - 1 = d + (d + 1) * e := by
        have : (d + 1) * (e + 1) = d + (d + 1) * e + 1 := by ring
        omega
      rw [this]
      simp only [Nat.add_sub_cancel]
      ring

/-- Two axes that continue each other joined into one. -/
theorem noOverlap_join {d1 d2 : Nat} {s : Int} {Z : List Axis} (h1 : 0 < d1) (h2 : 0 < d2)
    (h : NoOverlap (⟨d1, s⟩ :: ⟨d2, s * d1⟩ :: Z)) : NoOverlap (⟨d1 * d2, s⟩ :: Z) := by
  by_cases hs : s = 0
  · subst hs
    rw [noOverlap_cons_skip (by simp [Axis.ess])]
    rw [noOverlap_cons_skip (by simp [Axis.ess]), noOverlap_cons_skip (by simp [Axis.ess])] at h
    exact h
  by_cases e1 : d1 = 1
  · subst e1
    rw [noOverlap_cons_skip (by simp [Axis.ess])] at h
    simpa using h
  by_cases e2 : d2 = 1
  · subst e2
    have := (List.Perm.swap (⟨1, s * d1⟩ : Axis) ⟨d1, s⟩ Z)
    have h := NoOverlap.perm this.symm h
    rw [noOverlap_cons_skip (by simp [Axis.ess])] at h
    simpa using h
  have hd1 : 1 < d1 := by omega
  have hd2 : 1 < d2 := by omega
  have hd : 1 < d1 * d2 := by nlinarith
  have hsa : 0 < s.natAbs := Int.natAbs_pos.2 hs
  obtain ⟨L, hp, hL⟩ := h
  rw [List.filter_cons_of_pos (by simp [Axis.ess, hd1, hs]),
    List.filter_cons_of_pos (by simp [Axis.ess, hd2, hs]; omega)] at hp
  have hess : ∀ a ∈ L, 1 < a.dim := by
    intro a ha
    have := hp.mem_iff.1 ha
    rcases List.mem_cons.1 this with rfl | this
    · exact hd1
    rcases List.mem_cons.1 this with rfl | this
    · exact hd2
    · simp [Axis.ess] at this
      exact this.2.1
  have hpw := hL.pairwise hess
  obtain ⟨P, T, rfl⟩ := List.append_of_mem (hp.mem_iff.2 (by simp) : (⟨d1, s⟩ : Axis) ∈ L)
  have hp' := (List.perm_middle.symm.trans hp).cons_inv
  have hm2 : (⟨d2, s * d1⟩ : Axis) ∈ P ++ T := hp'.mem_iff.2 (by simp)
  have habs : (s * d1).natAbs = s.natAbs * d1 := by rw [Int.natAbs_mul, Int.natAbs_natCast]
  rcases List.mem_append.1 hm2 with hm2 | hm2
  · have := (List.pairwise_append.1 hpw).2.2 _ hm2 ⟨d1, s⟩ (by simp)
    simp only [habs] at this
    have : s.natAbs * 1 ≤ s.natAbs * d1 := Nat.mul_le_mul_left _ (by omega)
    omega
  · obtain ⟨Q, R, rfl⟩ := List.append_of_mem hm2
    have hQ : Q = [] := by
      cases Q with
      | nil => rfl
      | cons q Q =>
        exfalso
        rw [SuperInc.append] at hL
        obtain ⟨_, g1, g2⟩ := hL
        simp only [List.cons_append, SuperInc] at g2
        obtain ⟨g2, g3⟩ := g2
        rw [SuperInc.append] at g3
        obtain ⟨_, g4, _⟩ := g3
        simp only [habs] at g1 g2 g4
        have hq : 1 < q.dim := hess q (by simp)
        obtain ⟨d, rfl⟩ : ∃ d, d1 = d + 2 := ⟨d1 - 2, by omega⟩
        obtain ⟨e, he⟩ : ∃ e, q.dim = e + 2 := ⟨q.dim - 2, by omega⟩
        rw [he] at g4
        have e3 : d + 2 - 1 = d + 1 := by omega
        have e4 : e + 2 - 1 = e + 1 := by omega
        rw [e3] at g2 g4
        rw [e4] at g4
        generalize (List.map (fun a => (a.dim - 1) * a.str.natAbs) P).sum = c at *
        generalize (List.map (fun a => (a.dim - 1) * a.str.natAbs) Q).sum = c' at *
        nlinarith [Nat.zero_le (e * q.str.natAbs), Nat.zero_le (d * s.natAbs)]
    subst hQ
    refine ⟨P ++ ⟨d1 * d2, s⟩ :: R, ?_, ?_⟩
    · rw [List.filter_cons_of_pos (by simp [Axis.ess, hd, hs])]
      have hp2 : (P ++ R).Perm (Z.filter Axis.ess) :=
        (List.perm_middle.symm.trans hp').cons_inv
      exact List.perm_middle.trans (List.Perm.cons _ hp2)
    · rw [SuperInc.append] at hL ⊢
      obtain ⟨g1, g2, g3, g4⟩ := hL
      refine ⟨g1, g2, ?_⟩
      simp only [habs] at g4 ⊢
      convert g4 using 1
      obtain ⟨d, rfl⟩ : ∃ d, d1 = d + 1 := ⟨d1 - 1, by omega⟩
      obtain ⟨e, rfl⟩ : ∃ e, d2 = e + 1 := ⟨d2 - 1, by omega⟩
      have : (d + 1) * (e + 1) - 1 = d + (d + 1) * e := by
        have : (d + 1) * (e + 1) = d + (d + 1) * e + 1 := by ring
        omega
      rw [this]
      simp only [Nat.add_sub_cancel]
      ring

theorem noOverlap_fStrides {ng : List Nat} {s : Int} {Z : List Axis} (hn : ∀ d ∈ ng, 0 < d)
    (h : NoOverlap (⟨ng.prod, s⟩ :: Z)) : NoOverlap (mkAxes ng (fStrides s ng) ++ Z) := by
  induction ng generalizing s Z with
  | nil =>
    rw [noOverlap_cons_skip (by simp [Axis.ess])] at h
    simpa [mkAxes] using h
  | cons d ds ih =>
    rw [List.prod_cons] at h
    have h1 := noOverlap_cut (hn d (by simp)) (prod_pos_of fun x hx => hn x (by simp [hx])) h
    have h2 := ih (fun x hx => hn x (by simp [hx])) (NoOverlap.perm (List.Perm.swap _ _ _) h1)
    refine NoOverlap.perm ?_ h2
    simp only [mkAxes, fStrides, List.zipWith_cons_cons, List.cons_append]
    exact List.perm_middle.symm

theorem noOverlap_chainF {a : Axis} {r Z : List Axis} (hd : ∀ x ∈ a :: r, 0 < x.dim)
    (hc : canCombine .F (a :: r) = true) (h : NoOverlap ((a :: r) ++ Z)) :
    NoOverlap (⟨(dims (a :: r)).prod, a.str⟩ :: Z) := by
  induction r generalizing a Z with
  | nil => simpa using h
  | cons b r ih =>
    simp only [canCombine, Bool.and_eq_true, beq_iff_eq] at hc
    have h1 : NoOverlap ((b :: r) ++ (a :: Z)) := NoOverlap.perm (by
      simp only [List.cons_append]
      exact (List.Perm.cons b List.perm_middle).trans (List.Perm.swap _ _ _)) h
    have h2 := ih (fun x hx => hd x (by simp at hx ⊢; tauto)) hc.2 h1
    rw [hc.1, mul_comm] at h2
    have h3 := NoOverlap.perm (List.Perm.swap _ _ _) h2
    have hp : 0 < (dims (b :: r)).prod := prod_pos_of fun d hx => by
      obtain ⟨x, hx', rfl⟩ := List.mem_map.1 hx
      exact hd x (List.mem_cons_of_mem _ hx')
    have := noOverlap_join (d1 := a.dim) (s := a.str) (hd a (by simp)) hp h3
    simpa [dims] using this

theorem noOverlap_group {o : Order} {ng : List Nat} {og Z : List Axis} (hne : og ≠ [])
    (hc : canCombine o og = true) (hp : ng.prod = (dims og).prod) (hn : ∀ d ∈ ng, 0 < d) (ho : ∀ a ∈ og, 0 < a.dim)
    (h : NoOverlap (og ++ Z)) : NoOverlap (mkAxes ng (groupStrides o ng og) ++ Z) := by
  cases o with
  | F =>
    cases og with
    | nil => exact absurd rfl hne
    | cons a r =>
      have := noOverlap_chainF ho hc h
      rw [← hp] at this
      exact noOverlap_fStrides hn this
  | C =>
    rw [canCombine_reverse] at hc
    have hrev : ∃ a r, og.reverse = a :: r ∧ (og.getLastD default) = a := by
      rcases List.eq_nil_or_concat og with e | ⟨r, a, rfl⟩
      · exact absurd e hne
      · exact ⟨a, r.reverse, by simp, by simp⟩
    obtain ⟨a, r, e, hl⟩ := hrev
    have h1 : NoOverlap ((a :: r) ++ Z) := by
      rw [← e]; exact NoOverlap.perm ((List.reverse_perm og).append_right Z) h
    rw [e] at hc
    have h2 := noOverlap_chainF (fun x hx => ho x (by rw [← e] at hx; simpa using hx)) hc h1
    have hp' : (dims (a :: r)).prod = ng.reverse.prod := by
      rw [← e, dims, List.map_reverse, List.prod_reverse, List.prod_reverse, hp]
    rw [hp'] at h2
    have h3 := noOverlap_fStrides (fun d hd => hn d (by simpa using hd)) h2
    simp only [groupStrides, hl]
    have hm := mkAxes_reverse (s := ng.reverse) (t := fStrides a.str ng.reverse) (by simp)
    rw [List.reverse_reverse] at hm
    rw [hm]
    exact NoOverlap.perm ((List.reverse_perm _).append_right Z) h3

theorem nocopyLoop_noOverlap {fuel : Nat} {o : Order} {last : Option Axis} {news : List Nat} {olds Z : List Axis}
    {strs : List Int} (h : nocopyLoop fuel o last news olds = some strs) (hn : ∀ d ∈ news, 0 < d)
    (ho : ∀ a ∈ olds, 1 < a.dim) (hp : news.prod = (dims olds).prod) (hno : NoOverlap (olds ++ Z)) :
    NoOverlap (mkAxes news strs ++ Z) := by
  induction fuel generalizing last news olds strs Z with
  | zero => simp [nocopyLoop] at h
  | succ fuel ih =>
    unfold nocopyLoop at h
    split at h
    · rename_i d nrest a orest
      cases hg : growGroup (nrest.length + orest.length + 1) d a.dim [d] nrest [a] orest with
      | none => rw [hg] at h; cases h
      | some x =>
        obtain ⟨ng, nrest', og, orest'⟩ := x
        rw [hg] at h
        obtain ⟨e1, e2, e3, e4, e5⟩ := growGroup_spec hg (by simp) (by simp)
        simp only [Option.bind_eq_bind, Option.bind_some] at h
        split at h
        · rename_i hc
          cases hr : nocopyLoop fuel o (some ⟨ng.getLastD 0, (groupStrides o ng og).getLastD 0⟩) nrest' orest' with
          | none => rw [hr] at h; cases h
          | some rest =>
            rw [hr] at h
            simp only [Option.bind_some, Option.some.injEq] at h
            subst h
            have hnews : d :: nrest = ng ++ nrest' := by rw [e1]; rfl
            have holds : a :: orest = og ++ orest' := by rw [e2]; rfl
            rw [hnews] at hn hp ⊢
            rw [holds] at ho hp hno
            have hpos : 0 < ng.prod := prod_pos_of fun x hx => hn x (by simp [hx])
            have hp' : nrest'.prod = (dims orest').prod := by
              simp only [dims, List.map_append, List.prod_append] at hp
              rw [← dims, ← e3] at hp
              exact Nat.eq_of_mul_eq_mul_left hpos hp
            rw [mkAxes_append (groupStrides_length o ng og).symm]
            have g1 : NoOverlap (mkAxes ng (groupStrides o ng og) ++ (orest' ++ Z)) :=
              noOverlap_group (by rintro rfl; simp at e5) hc e3 (fun x hx => hn x (by simp [hx]))
                (fun x hx => by have := ho x (by simp [hx]); omega) (by simpa using hno)
            have g2 : NoOverlap (orest' ++ (mkAxes ng (groupStrides o ng og) ++ Z)) :=
              NoOverlap.perm (by
                rw [← List.append_assoc, ← List.append_assoc]
                exact List.perm_append_comm.append_right Z) g1
            have g3 := ih hr (fun x hx => hn x (by simp [hx])) (fun x hx => ho x (by simp [hx])) hp' g2
            refine NoOverlap.perm ?_ g3
            rw [← List.append_assoc]
            exact List.perm_append_comm.append_right Z
        · cases h
    · rename_i hx
      cases h
      have hold : olds = [] := by
        cases olds with
        | nil => rfl
        | cons a r =>
          cases news with
          | nil =>
            have h1 : (dims (a :: r)).prod = 1 := by rw [← hp]; rfl
            have := eq_one_of_prod h1 a.dim (by simp)
            have := ho a (by simp)
            omega
          | cons d n => exact (hx d n a r rfl rfl).elim
      subst hold
      have h1 := eq_one_of_prod (l := news) (by rw [hp]; rfl)
      clear ih hx hp ho hn
      generalize (match last with
        | some x => if o = Order.F then x.str * (x.dim : Int) else x.str
        | none => 1) = s
      induction news with
      | nil => simpa [mkAxes] using hno
      | cons d n ih =>
        have := h1 d (by simp)
        subst this
        simp only [mkAxes, List.map_cons, List.zipWith_cons_cons, List.cons_append] at ih ⊢
        rw [noOverlap_cons_skip (by simp [Axis.ess])]
        exact ih fun d hd => h1 d (by simp [hd])

theorem attemptNocopy_noOverlap {axes : List Axis} {news : List Nat} {o : Order} {strs : List Int}
    (h : attemptNocopy axes news o = some strs) (hp : news.prod = (dims axes).prod) (h0 : news.prod ≠ 0)
    (hno : NoOverlap axes) : NoOverlap (mkAxes news strs) := by
  have hpos : ∀ a ∈ axes, 0 < a.dim := by
    intro a ha
    exact prod_ne_zero_iff.1 (hp ▸ h0) a.dim (by simp [dims]; exact ⟨a, ha, rfl⟩)
  have := nocopyLoop_noOverlap (Z := []) h (prod_ne_zero_iff.1 h0) (by
    intro a ha
    simp only [List.mem_filter, decide_eq_true_eq] at ha
    have := hpos a ha.1
    omega) (by rw [hp, (sameE_drop_ones o axes).1])
    (by simpa using hno.sublist List.filter_sublist)
  simpa using this

end Rstsr
