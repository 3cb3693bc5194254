import Verif.Model.Reshape
import Verif.Proof.Rank
/-! # Lemmas about reshaping without a copy -/
namespace Rstsr
open Spec

theorem rank_lt {o : Order} {shape idx : List Nat} (h : InRange idx shape) : rank o shape idx < shape.prod := by
  cases o
  · exact rankC_lt h
  · exact rankF_lt h

theorem rank_inj {o : Order} {shape i j : List Nat} (hi : InRange i shape) (hj : InRange j shape)
    (h : rank o shape i = rank o shape j) : i = j := by
  cases o
  · exact rankC_inj hi hj h
  · exact rankF_inj hi hj h

theorem exists_rank {o : Order} {shape : List Nat} {k : Nat} (h : k < shape.prod) :
    ∃ idx, InRange idx shape ∧ rank o shape idx = k := by
  cases o
  · exact exists_rankC h
  · exact exists_rankF h

theorem rankC_append {s t i j : List Nat} (h : i.length = s.length) :
    rankC (s ++ t) (i ++ j) = rankC s i * t.prod + rankC t j := by
  induction s generalizing i with
  | nil => cases i <;> simp_all
  | cons d ds ih =>
    cases i with
    | nil => simp at h
    | cons a is =>
      simp only [List.cons_append, rankC_cons, ih (by simpa using h), List.prod_append]; ring

@[simp] theorem rank_nil (o : Order) (is : List Nat) : rank o [] is = 0 := by cases o <;> simp [rank]

theorem rank_zeros (o : Order) (shape : List Nat) : rank o shape (List.replicate shape.length 0) = 0 := by
  cases o
  · show rankC _ _ = 0
    rw [rankC_eq (by simp), List.reverse_replicate]; exact rankF_zeros _
  · exact rankF_zeros _

/-- Equal ranks of concatenated indices over equal block sizes mean equal ranks in both blocks. -/
theorem rank_append_inj {o : Order} {s1 s2 t1 t2 i1 i2 j1 j2 : List Nat}
    (hi1 : InRange i1 s1) (hi2 : InRange i2 s2) (hj1 : InRange j1 t1) (hj2 : InRange j2 t2)
    (h1 : s1.prod = t1.prod) (h2 : s2.prod = t2.prod)
    (h : rank o (s1 ++ s2) (i1 ++ i2) = rank o (t1 ++ t2) (j1 ++ j2)) :
    rank o s1 i1 = rank o t1 j1 ∧ rank o s2 i2 = rank o t2 j2 := by
  cases o with
  | C =>
    simp only [rank] at *
    rw [rankC_append hi1.length_eq, rankC_append hj1.length_eq, h2] at h
    have e1 := rankC_lt hi2
    have e2 := rankC_lt hj2
    rw [h2] at e1
    have hp : 0 < t2.prod := by omega
    have := congrArg (· / t2.prod) h
    simp only [Nat.mul_comm _ t2.prod, Nat.mul_add_div hp, Nat.div_eq_of_lt e1, Nat.div_eq_of_lt e2] at this
    have hr : rankC s1 i1 = rankC t1 j1 := by simpa using this
    rw [hr] at h
    exact ⟨hr, by omega⟩
  | F =>
    simp only [rank] at *
    rw [rankF_append hi1.length_eq, rankF_append hj1.length_eq, h1] at h
    have e1 := rankF_lt hi1
    have e2 := rankF_lt hj1
    rw [h1] at e1
    have hp : 0 < t1.prod := by omega
    have := congrArg (· % t1.prod) h
    simp only [Nat.add_mul_mod_self_left, Nat.mod_eq_of_lt e1, Nat.mod_eq_of_lt e2] at this
    refine ⟨this, Nat.eq_of_mul_eq_mul_left hp (by omega)⟩

theorem inRange_split {i s t : List Nat} (h : InRange i (s ++ t)) :
    ∃ i1 i2, i = i1 ++ i2 ∧ InRange i1 s ∧ InRange i2 t := by
  have hl := h.length_eq
  rw [List.length_append] at hl
  refine ⟨i.take s.length, i.drop s.length, (List.take_append_drop _ _).symm, ?_⟩
  rw [← inRange_append (by simp; omega), List.take_append_drop]
  exact h

/-- The two axis lists have as many elements, and elements of equal rank have equal positions. -/
def SameE (o : Order) (A B : List Axis) : Prop :=
  (dims A).prod = (dims B).prod ∧ ∀ i j, InRange i (dims A) → InRange j (dims B) →
    rank o (dims A) i = rank o (dims B) j → dot i A = dot j B

theorem SameE.refl (o : Order) (A : List Axis) : SameE o A A :=
  ⟨rfl, fun i j hi hj h => by rw [rank_inj hi hj h]⟩

theorem SameE.symm {o : Order} {A B : List Axis} (h : SameE o A B) : SameE o B A :=
  ⟨h.1.symm, fun i j hi hj e => (h.2 j i hj hi e.symm).symm⟩

theorem SameE.trans {o : Order} {A B C : List Axis} (h1 : SameE o A B) (h2 : SameE o B C) : SameE o A C := by
  refine ⟨h1.1.trans h2.1, fun i j hi hj e => ?_⟩
  obtain ⟨k, hk, hr⟩ := exists_rank (o := o) (shape := dims B) (k := rank o (dims A) i)
    (by rw [← h1.1]; exact rank_lt hi)
  rw [h1.2 i k hi hk hr.symm, h2.2 k j hk hj (by rw [hr, e])]

theorem SameE.append {o : Order} {A1 A2 B1 B2 : List Axis} (h1 : SameE o A1 B1) (h2 : SameE o A2 B2) :
    SameE o (A1 ++ A2) (B1 ++ B2) := by
  refine ⟨by simp only [dims, List.map_append, List.prod_append]; rw [h1.1, h2.1], ?_⟩
  intro i j hi hj e
  simp only [dims, List.map_append] at hi hj e
  obtain ⟨i1, i2, rfl, hi1, hi2⟩ := inRange_split hi
  obtain ⟨j1, j2, rfl, hj1, hj2⟩ := inRange_split hj
  obtain ⟨e1, e2⟩ := rank_append_inj hi1 hi2 hj1 hj2 h1.1 h2.1 e
  rw [dot_append (by simpa using hi1.length_eq), dot_append (by simpa using hj1.length_eq),
    h1.2 _ _ hi1 hj1 e1, h2.2 _ _ hi2 hj2 e2]

/-- Positions are rank times a fixed step. -/
def LinearE (o : Order) (A : List Axis) (s : Int) : Prop :=
  ∀ i, InRange i (dims A) → dot i A = (rank o (dims A) i : Int) * s

theorem LinearE.same {o : Order} {A B : List Axis} {s : Int} (h1 : LinearE o A s) (h2 : LinearE o B s)
    (hp : (dims A).prod = (dims B).prod) : SameE o A B :=
  ⟨hp, fun i j hi hj e => by rw [h1 i hi, h2 j hj, e]⟩

theorem combineC_str {a : Axis} {r : List Axis} (h : canCombine .C (a :: r) = true) :
    a.str = (dims r).prod * ((a :: r).getLastD default).str := by
  induction r generalizing a with
  | nil => simp
  | cons b r ih =>
    simp only [canCombine, Bool.and_eq_true, beq_iff_eq] at h
    rw [h.1, ih h.2]
    simp only [List.map_cons, List.prod_cons]
    rw [List.getLastD_cons, List.getLastD_cons, List.getLastD_cons]
    push_cast; ring

/-- Step between consecutive elements of a combinable group. -/
def stepOf (o : Order) (og : List Axis) : Int :=
  match o with
  | .F => (og.headD default).str
  | .C => (og.getLastD default).str

theorem combine_linear {o : Order} {og : List Axis} (h : canCombine o og = true) :
    LinearE o og (stepOf o og) := by
  cases o with
  | C =>
    intro i hi
    simp only [rank, stepOf]
    induction og generalizing i with
    | nil => simp
    | cons a r ih =>
      cases i with
      | nil => simp at hi
      | cons x i =>
        have hs := combineC_str h
        cases r with
        | nil =>
          have : i = [] := inRange_nil_right.1 hi.2
          subst this
          simp
        | cons b r =>
          have h' : canCombine .C (b :: r) = true := by
            simp only [canCombine, Bool.and_eq_true] at h; exact h.2
          have := ih h' i hi.2
          rw [dot_cons, this, hs]
          simp only [List.map_cons, rankC_cons, List.getLastD_cons]
          push_cast; ring
  | F =>
    intro i hi
    simp only [rank, stepOf]
    induction og generalizing i with
    | nil => simp
    | cons a r ih =>
      cases i with
      | nil => simp at hi
      | cons x i =>
        cases r with
        | nil =>
          have : i = [] := inRange_nil_right.1 hi.2
          subst this
          simp
        | cons b r =>
          simp only [canCombine, Bool.and_eq_true, beq_iff_eq] at h
          have := ih h.2 i hi.2
          rw [dot_cons, this]
          simp only [List.map_cons, rankF_cons, List.headD_cons]
          rw [h.1]
          push_cast; ring

theorem groupStrides_length (o : Order) (ng : List Nat) (og : List Axis) :
    (groupStrides o ng og).length = ng.length := by
  cases o <;> simp [groupStrides]

theorem group_linear (o : Order) (ng : List Nat) (og : List Axis) :
    LinearE o (mkAxes ng (groupStrides o ng og)) (stepOf o og) := by
  intro i hi
  have hd : dims (mkAxes ng (groupStrides o ng og)) = ng := mkAxes_dims (groupStrides_length o ng og).symm
  rw [hd] at hi ⊢
  cases o with
  | F =>
    simp only [groupStrides, rank, stepOf]
    rw [dot_fStrides hi.length_eq, mul_comm]
  | C =>
    simp only [groupStrides, rank, stepOf]
    have hm := mkAxes_reverse (s := ng.reverse) (t := fStrides (og.getLastD default).str ng.reverse) (by simp)
    rw [List.reverse_reverse] at hm
    have hl : i.length = ng.length := hi.length_eq
    rw [hm, rankC_eq hl]
    have : dot i (mkAxes ng.reverse (fStrides (og.getLastD default).str ng.reverse)).reverse =
        dot i.reverse (mkAxes ng.reverse (fStrides (og.getLastD default).str ng.reverse)) := by
      conv_lhs => rw [← List.reverse_reverse i]
      exact dot_reverse (by simp [mkAxes, hl])
    rw [this, dot_fStrides (by simpa using hl), mul_comm]

theorem growGroup_spec {fuel np op : Nat} {ng nrest : List Nat} {og orest : List Axis}
    {ng' nrest' : List Nat} {og' orest' : List Axis}
    (h : growGroup fuel np op ng nrest og orest = some (ng', nrest', og', orest'))
    (hn : np = ng.prod) (ho : op = (dims og).prod) :
    ng' ++ nrest' = ng ++ nrest ∧ og' ++ orest' = og ++ orest ∧ ng'.prod = (dims og').prod ∧
      ng.length ≤ ng'.length ∧ og.length ≤ og'.length := by
  induction fuel generalizing np op ng nrest og orest with
  | zero => simp [growGroup] at h
  | succ fuel ih =>
    unfold growGroup at h
    split at h
    · rename_i e
      simp only [Option.some.injEq, Prod.mk.injEq] at h
      obtain ⟨rfl, rfl, rfl, rfl⟩ := h
      exact ⟨rfl, rfl, by rw [← hn, ← ho, e], le_refl _, le_refl _⟩
    · split at h
      · cases nrest with
        | nil => cases h
        | cons d nrest =>
          have := ih h (by simp [hn]) ho
          simp only [List.append_assoc, List.singleton_append, List.length_append, List.length_singleton] at this
          exact ⟨this.1, this.2.1, this.2.2.1, by omega, this.2.2.2.2⟩
      · cases orest with
        | nil => cases h
        | cons a orest =>
          have := ih h hn (by simp [ho])
          simp only [List.append_assoc, List.singleton_append, List.length_append, List.length_singleton] at this
          exact ⟨this.1, this.2.1, this.2.2.1, this.2.2.2.1, by omega⟩

theorem eq_one_of_prod {l : List Nat} (h : l.prod = 1) : ∀ d ∈ l, d = 1 := by
  induction l with
  | nil => simp
  | cons x l ih =>
    rw [List.prod_cons] at h
    have : x = 1 ∧ l.prod = 1 := ⟨Nat.eq_one_of_mul_eq_one_right h, Nat.eq_one_of_mul_eq_one_left h⟩
    intro d hd
    rcases List.mem_cons.1 hd with rfl | hd
    · exact this.1
    · exact ih this.2 d hd

theorem inRange_ones {l i : List Nat} (h : ∀ d ∈ l, d = 1) (hi : InRange i l) :
    i = List.replicate l.length 0 := by
  induction l generalizing i with
  | nil => rw [inRange_nil_right] at hi; simpa using hi
  | cons d l ih =>
    cases i with
    | nil => simp at hi
    | cons x i =>
      have h1 := h d (by simp)
      have := hi.1
      rw [ih (fun d hd => h d (by simp [hd])) hi.2]
      simp [List.replicate_succ]; omega

theorem sameE_ones (o : Order) {A : List Axis} (h : ∀ d ∈ dims A, d = 1) : SameE o [] A := by
  have hp : (dims A).prod = 1 := by
    induction A with
    | nil => rfl
    | cons a A ih =>
      simp only [dims, List.map_cons, List.prod_cons] at *
      rw [ih fun d hd => h d (by simp [hd]), h a.dim (by simp)]
  refine ⟨by rw [hp]; rfl, fun i j hi hj _ => ?_⟩
  rw [inRange_nil_right.1 hi, inRange_ones h hj, dot_zeros]
  simp

theorem mkAxes_append {s1 s2 : List Nat} {t1 t2 : List Int} (h : s1.length = t1.length) :
    mkAxes (s1 ++ s2) (t1 ++ t2) = mkAxes s1 t1 ++ mkAxes s2 t2 := by
  unfold mkAxes
  exact List.zipWith_append h

theorem nocopyLoop_sound {fuel : Nat} {o : Order} {last : Option Axis} {news : List Nat} {olds : List Axis}
    {strs : List Int} (h : nocopyLoop fuel o last news olds = some strs) (hn : ∀ d ∈ news, 0 < d)
    (ho : ∀ a ∈ olds, 1 < a.dim) (hp : news.prod = (dims olds).prod) :
    strs.length = news.length ∧ SameE o olds (mkAxes news strs) := by
  induction fuel generalizing last news olds strs with
  | zero => simp [nocopyLoop] at h
  | succ fuel ih =>
    have base : ∀ (s : Int), (news = [] ∨ olds = []) →
        (news.map fun _ => s).length = news.length ∧ SameE o olds (mkAxes news (news.map fun _ => s)) := by
      intro s hc
      have hold : olds = [] := by
        rcases hc with e | e
        · subst e
          cases olds with
          | nil => rfl
          | cons a r =>
            have h1 : (dims (a :: r)).prod = 1 := by rw [← hp]; rfl
            have := eq_one_of_prod h1 a.dim (by simp)
            have := ho a (by simp)
            omega
        · exact e
      subst hold
      refine ⟨by simp, sameE_ones o ?_⟩
      rw [mkAxes_dims (by simp)]
      exact eq_one_of_prod (by rw [hp]; rfl)
    unfold nocopyLoop at h
    split at h
    · rename_i d nrest a orest
      cases hg : growGroup (nrest.length + orest.length + 1) d a.dim [d] nrest [a] orest with
      | none => rw [hg] at h; cases h
      | some x =>
        obtain ⟨ng, nrest', og, orest'⟩ := x
        rw [hg] at h
        obtain ⟨e1, e2, e3, e4, e5⟩ := growGroup_spec hg (by simp) (by simp)
        simp only [Option.bind_eq_bind, Option.bind_some] at h
        split at h
        · rename_i hc
          cases hr : nocopyLoop fuel o (some ⟨ng.getLastD 0, (groupStrides o ng og).getLastD 0⟩) nrest' orest' with
          | none => rw [hr] at h; cases h
          | some rest =>
            rw [hr] at h
            simp only [Option.bind_some, Option.some.injEq] at h
            subst h
            have hnews : d :: nrest = ng ++ nrest' := by rw [e1]; rfl
            have holds : a :: orest = og ++ orest' := by rw [e2]; rfl
            rw [hnews] at hn hp ⊢
            rw [holds] at ho hp ⊢
            have hpos : 0 < ng.prod := prod_pos_of fun x hx => hn x (by simp [hx])
            have hp' : nrest'.prod = (dims orest').prod := by
              simp only [dims, List.map_append, List.prod_append] at hp
              rw [← dims, ← e3] at hp
              exact Nat.eq_of_mul_eq_mul_left hpos hp
            obtain ⟨h1, h2⟩ := ih hr (fun x hx => hn x (by simp [hx])) (fun x hx => ho x (by simp [hx])) hp'
            have hgl := groupStrides_length o ng og
            refine ⟨by simp [hgl, h1], ?_⟩
            rw [mkAxes_append hgl.symm]
            refine SameE.append ?_ h2
            exact (combine_linear hc).same (group_linear o ng og) (by rw [mkAxes_dims hgl.symm, e3])
        · cases h
    · rename_i hx
      cases h
      apply base
      cases news with
      | nil => exact Or.inl rfl
      | cons d n =>
        cases olds with
        | nil => exact Or.inr rfl
        | cons a r => exact (hx d n a r rfl rfl).elim

theorem sameE_drop_ones (o : Order) (A : List Axis) : SameE o (A.filter fun a => a.dim ≠ 1) A := by
  induction A with
  | nil => exact SameE.refl o []
  | cons a A ih =>
    by_cases h : a.dim = 1
    · rw [List.filter_cons_of_neg (by simpa using h)]
      have h1 : SameE o [] [a] := sameE_ones o (by simpa using h)
      simpa using h1.append ih
    · rw [List.filter_cons_of_pos (by simpa using h)]
      simpa using (SameE.refl o [a]).append ih

theorem attemptNocopy_sound {axes : List Axis} {news : List Nat} {o : Order} {strs : List Int}
    (h : attemptNocopy axes news o = some strs) (hp : news.prod = (dims axes).prod) (h0 : news.prod ≠ 0) :
    strs.length = news.length ∧ SameE o axes (mkAxes news strs) := by
  have hs := sameE_drop_ones o axes
  have hpos : ∀ a ∈ axes, 0 < a.dim := by
    intro a ha
    exact prod_ne_zero_iff.1 (hp ▸ h0) a.dim (by simp [dims]; exact ⟨a, ha, rfl⟩)
  obtain ⟨h1, h2⟩ := nocopyLoop_sound h (prod_ne_zero_iff.1 h0) (by
    intro a ha
    simp only [List.mem_filter, decide_eq_true_eq] at ha
    have := hpos a ha.1
    omega) (by rw [hp, hs.1])
  exact ⟨h1, hs.symm.trans h2⟩

/-! ## Completeness: `None` only when no strides exist -/

/-- Position of the element of column-major rank `r`. -/
def fval : List Axis → Nat → Int
  | [], _ => 0
  | a :: as, r => ((r % a.dim : Nat) : Int) * a.str + fval as (r / a.dim)

theorem fval_zero (A : List Axis) : fval A 0 = 0 := by
  induction A with
  | nil => rfl
  | cons a A ih => simp [fval, ih]

theorem fval_rank {A : List Axis} {i : List Nat} (h : InRange i (dims A)) :
    fval A (rankF (dims A) i) = dot i A := by
  induction A generalizing i with
  | nil => simp [fval]
  | cons a A ih =>
    cases i with
    | nil => simp at h
    | cons x i =>
      have h1 : x < a.dim := h.1
      simp only [List.map_cons, rankF_cons, fval, dot_cons]
      rw [Nat.add_mul_mod_self_left, Nat.mod_eq_of_lt h1, Nat.add_mul_div_left _ _ (by omega),
        Nat.div_eq_of_lt h1, Nat.zero_add, ih h.2]

/-- Splitting off the largest unit step below `r`. -/
theorem fval_split {A : List Axis} {r : Nat} (h1 : 1 ≤ r) (h2 : r < (dims A).prod) :
    ∃ k, (dims (A.take k)).prod ≤ r ∧ fval A r = fval A (dims (A.take k)).prod + fval A (r - (dims (A.take k)).prod) := by
  induction A generalizing r with
  | nil => simp at h2; omega
  | cons a A ih =>
    simp only [dims, List.map_cons, List.prod_cons] at h2
    by_cases hr : r < a.dim
    · refine ⟨0, by simpa using h1, ?_⟩
      simp only [List.take_zero, dims, List.map_nil, List.prod_nil, fval]
      rw [Nat.mod_eq_of_lt hr, Nat.mod_eq_of_lt (by omega : 1 < a.dim),
        Nat.mod_eq_of_lt (by omega : r - 1 < a.dim), Nat.div_eq_of_lt hr,
        Nat.div_eq_of_lt (by omega : 1 < a.dim), Nat.div_eq_of_lt (by omega : r - 1 < a.dim), fval_zero]
      push_cast [h1]; ring
    · have hd : 0 < a.dim := by
        rcases Nat.eq_zero_or_pos a.dim with e | e
        · rw [e] at h2; omega
        · exact e
      have hq : 1 ≤ r / a.dim := (Nat.one_le_div_iff hd).2 (by omega)
      have hq2 : r / a.dim < (dims A).prod := Nat.div_lt_of_lt_mul (by simpa [dims] using h2)
      obtain ⟨k, e1, e2⟩ := ih hq hq2
      refine ⟨k + 1, ?_, ?_⟩
      · simp only [List.take_succ_cons, dims, List.map_cons, List.prod_cons]
        calc a.dim * (dims (A.take k)).prod ≤ a.dim * (r / a.dim) := Nat.mul_le_mul_left _ e1
          _ ≤ r := Nat.mul_div_le _ _
      · simp only [List.take_succ_cons, dims, List.map_cons, List.prod_cons, fval]
        change _ = ((a.dim * (dims (A.take k)).prod % a.dim : Nat) : Int) * a.str +
          fval A (a.dim * (dims (A.take k)).prod / a.dim) +
          (((r - a.dim * (dims (A.take k)).prod) % a.dim : Nat) * a.str +
          fval A ((r - a.dim * (dims (A.take k)).prod) / a.dim))
        generalize (dims (A.take k)).prod = P at *
        have hle : a.dim * P ≤ r := by
          calc a.dim * P ≤ a.dim * (r / a.dim) := Nat.mul_le_mul_left _ e1
            _ ≤ r := Nat.mul_div_le _ _
        have m1 : a.dim * P % a.dim = 0 := by simp
        have m2 : a.dim * P / a.dim = P := Nat.mul_div_cancel_left _ hd
        have m3 : (r - a.dim * P) % a.dim = r % a.dim := Nat.sub_mul_mod hle
        have m4 : (r - a.dim * P) / a.dim = r / a.dim - P := Nat.sub_mul_div _ _ _
        rw [m1, m2, m3, m4, e2]
        push_cast; ring

/-- `SameE` in column-major order as equality of functions. -/
theorem SameE.fval {A B : List Axis} (h : SameE .F A B) {r : Nat} (hr : r < (dims A).prod) :
    fval A r = fval B r := by
  obtain ⟨i, hi, ei⟩ := exists_rankF hr
  obtain ⟨j, hj, ej⟩ := exists_rankF (shape := dims B) (k := r) (by rw [← h.1]; exact hr)
  have := h.2 i j hi hj (by simp only [rank]; rw [ei, ej])
  rw [← fval_rank hi, ← fval_rank hj, ei, ej] at this
  exact this

/-- Without a common intermediate boundary the old axes must be equally spaced. -/
theorem fval_linear {A B : List Axis} (h : SameE .F A B)
    (hmin : ∀ k m, 1 < (dims (A.take k)).prod → (dims (A.take k)).prod < (dims A).prod →
      (dims (A.take k)).prod ≠ (dims (B.take m)).prod)
    (hposA : ∀ a ∈ A, 0 < a.dim) (hposB : ∀ b ∈ B, 0 < b.dim)
    {r : Nat} (hr : r < (dims A).prod) : fval A r = r * fval A 1 := by
  induction r using Nat.strong_induction_on with
  | _ r ih =>
    rcases Nat.lt_or_ge r 2 with h2 | h2
    · have : r = 0 ∨ r = 1 := by omega
      rcases this with e | e
      · subst e; simp [fval_zero]
      · subst e; simp
    · have hpos : ∀ (C : List Axis) (k : Nat), (∀ a ∈ C, 0 < a.dim) → 1 ≤ (dims (C.take k)).prod := by
        intro C k hC
        exact prod_pos_of fun d hd => by
          simp only [dims, List.mem_map] at hd
          obtain ⟨a, ha, rfl⟩ := hd
          exact hC a (List.mem_of_mem_take ha)
      obtain ⟨k, e1, e2⟩ := fval_split (A := A) (r := r) (by omega) hr
      by_cases hk : (dims (A.take k)).prod = r
      · obtain ⟨m, f1, f2⟩ := fval_split (A := B) (r := r) (by omega) (by rw [← h.1]; exact hr)
        have hne := hmin k m (by omega) (by omega)
        have hp := hpos B m hposB
        have b1 := ih (dims (B.take m)).prod (by omega) (by omega)
        have b2 := ih (r - (dims (B.take m)).prod) (by omega) (by omega)
        rw [h.fval hr, f2, ← h.fval (by omega), ← h.fval (by omega), b1, b2]
        rw [Nat.cast_sub f1]; ring
      · have hp := hpos A k hposA
        have b1 := ih (dims (A.take k)).prod (by omega) (by omega)
        have b2 := ih (r - (dims (A.take k)).prod) (by omega) (by omega)
        rw [e2, b1, b2, Nat.cast_sub e1]; ring

theorem combineF_of_linear {A : List Axis} (hd : ∀ a ∈ A, 1 < a.dim) {c : Int}
    (h : ∀ r, r < (dims A).prod → fval A r = r * c) : canCombine .F A = true := by
  induction A generalizing c with
  | nil => rfl
  | cons a A ih =>
    cases A with
    | nil => rfl
    | cons b A =>
      have ha := hd a (by simp)
      have hb := hd b (by simp)
      have hA : 1 ≤ (dims A).prod := prod_pos_of fun d hx => by
        simp only [dims, List.mem_map] at hx
        obtain ⟨x, hx, rfl⟩ := hx
        have := hd x (by simp [hx]); omega
      have htail : ∀ r, r < (dims (b :: A)).prod → fval (b :: A) r = r * (a.dim * c) := by
        intro r hr
        have hlt : a.dim * r < (dims (a :: b :: A)).prod := by
          rw [dims, List.map_cons, List.prod_cons]
          exact Nat.mul_lt_mul_of_pos_left hr (by omega)
        have := h (a.dim * r) hlt
        rw [fval, Nat.mul_mod_right, Nat.mul_div_cancel_left _ (by omega)] at this
        simp only [Nat.cast_zero, zero_mul, zero_add] at this
        rw [this]; push_cast; ring
      simp only [canCombine, Bool.and_eq_true, beq_iff_eq]
      refine ⟨?_, ih (fun x hx => hd x (by simp [hx])) htail⟩
      have hp2 : 2 ≤ (dims (b :: A)).prod := by
        rw [dims, List.map_cons, List.prod_cons]
        calc 2 ≤ b.dim * 1 := by omega
          _ ≤ _ := Nat.mul_le_mul_left _ hA
      have h1 := htail 1 (by omega)
      have h0 := h 1 (by
        rw [dims, List.map_cons, List.prod_cons]
        calc 1 < a.dim * 1 := by omega
          _ ≤ _ := Nat.mul_le_mul_left _ (by simp only [dims] at hp2; omega))
      rw [fval, Nat.mod_eq_of_lt hb, Nat.div_eq_of_lt hb, fval_zero] at h1
      rw [fval, Nat.mod_eq_of_lt ha, Nat.div_eq_of_lt ha, fval_zero] at h0
      simp only [Nat.cast_one, one_mul, add_zero] at h0 h1
      rw [h1, h0]

theorem canCombine_append {o : Order} {A : List Axis} {x y : Axis} :
    canCombine o (A ++ [x, y]) = (canCombine o (A ++ [x]) && canCombine o [x, y]) := by
  induction A with
  | nil => simp [canCombine]
  | cons a A ih =>
    cases A with
    | nil => simp [canCombine]
    | cons b A =>
      simp only [List.cons_append] at ih ⊢
      simp only [canCombine] at ih ⊢
      rw [ih, Bool.and_assoc]

theorem canCombine_reverse (A : List Axis) : canCombine .C A = canCombine .F A.reverse := by
  induction A with
  | nil => rfl
  | cons a A ih =>
    cases A with
    | nil => rfl
    | cons b A =>
      rw [canCombine, ih]
      simp only [List.reverse_cons, List.append_assoc, List.singleton_append, List.cons_append, List.nil_append]
      rw [canCombine_append]
      simp [canCombine, Bool.and_comm]

theorem SameE.reverse {A B : List Axis} (h : SameE .C A B) : SameE .F A.reverse B.reverse := by
  refine ⟨by simpa [dims] using h.1, fun i j hi hj e => ?_⟩
  have hi' : InRange i.reverse (dims A) := by simpa [dims, List.map_reverse] using hi.reverse
  have hj' : InRange j.reverse (dims B) := by simpa [dims, List.map_reverse] using hj.reverse
  have := h.2 i.reverse j.reverse hi' hj' (by
    simp only [rank] at e ⊢
    rw [rankC_eq hi'.length_eq, rankC_eq hj'.length_eq]
    simpa [dims, List.map_reverse] using e)
  have e1 : dot i A.reverse = dot i.reverse A := by
    conv_lhs => rw [← List.reverse_reverse i]
    exact dot_reverse (by simpa using hi'.length_eq)
  have e2 : dot j B.reverse = dot j.reverse B := by
    conv_lhs => rw [← List.reverse_reverse j]
    exact dot_reverse (by simpa using hj'.length_eq)
  rw [e1, e2, this]

/-- Every common boundary of the groups lies at an end. -/
def NoInner (ng : List Nat) (og : List Axis) : Prop :=
  ∀ k m, 1 < (dims (og.take k)).prod → (dims (og.take k)).prod < (dims og).prod →
    (dims (og.take k)).prod ≠ (ng.take m).prod

theorem prod_take_drop (l : List Nat) (k : Nat) : (l.take k).prod * (l.drop k).prod = l.prod := by
  rw [← List.prod_append, List.take_append_drop]

theorem combine_of_same {o : Order} {og : List Axis} {ng : List Nat} {t : List Int}
    (hl : ng.length = t.length) (hs : SameE o og (mkAxes ng t)) (hno : NoInner ng og)
    (ho : ∀ a ∈ og, 1 < a.dim) (hn : ∀ d ∈ ng, 0 < d) : canCombine o og = true := by
  have hd : dims (mkAxes ng t) = ng := mkAxes_dims hl
  have hposB : ∀ b ∈ mkAxes ng t, 0 < b.dim := fun b hb =>
    hn b.dim (hd ▸ List.mem_map.2 ⟨b, hb, rfl⟩)
  cases o with
  | F =>
    refine combineF_of_linear ho (c := fval og 1) fun r hr => fval_linear hs ?_ ?_ hposB hr
    · intro k m h1 h2
      have : dims ((mkAxes ng t).take m) = ng.take m := by rw [dims, List.map_take, ← dims, hd]
      rw [this]
      exact hno k m h1 h2
    · intro a ha; have := ho a ha; omega
  | C =>
    rw [canCombine_reverse]
    refine combineF_of_linear (fun a ha => ho a (by simpa using ha)) (c := fval og.reverse 1)
      fun r hr => fval_linear hs.reverse ?_ ?_ ?_ hr
    · intro k m h1 h2 e
      have e1 : (dims (og.reverse.take k)).prod = ((dims og).drop ((dims og).length - k)).prod := by
        rw [dims, List.map_take, List.map_reverse, List.take_reverse, List.prod_reverse]
      have e2 : (dims ((mkAxes ng t).reverse.take m)).prod = (ng.drop (ng.length - m)).prod := by
        rw [dims, List.map_take, List.map_reverse, ← dims, hd, List.take_reverse, List.prod_reverse]
      have e3 : (dims og.reverse).prod = (dims og).prod := by rw [dims, List.map_reverse, List.prod_reverse]
      have hp : (dims og).prod = ng.prod := by rw [hs.1, hd]
      have hpo : 0 < (dims og).prod := prod_pos_of fun d hx => by
        simp only [dims, List.mem_map] at hx
        obtain ⟨a, ha, rfl⟩ := hx
        have := ho a ha; omega
      have q1 := prod_take_drop (dims og) ((dims og).length - k)
      have q2 := prod_take_drop ng (ng.length - m)
      rw [e1] at h1 h2 e
      rw [e2] at e
      rw [e3] at h2
      generalize hX : ((dims og).drop ((dims og).length - k)).prod = X at *
      have hx : (dims (og.take ((dims og).length - k))).prod = ((dims og).take ((dims og).length - k)).prod := by
        rw [dims, List.map_take]
      refine hno ((dims og).length - k) (ng.length - m) ?_ ?_ ?_
      · rw [hx]
        by_contra hc
        have : ((dims og).take ((dims og).length - k)).prod ≤ 1 := by omega
        have : (dims og).prod ≤ 1 * X := by rw [← q1]; exact Nat.mul_le_mul_right _ this
        omega
      · rw [hx, ← q1]
        have ht : 0 < ((dims og).take ((dims og).length - k)).prod := by
          rcases Nat.eq_zero_or_pos ((dims og).take ((dims og).length - k)).prod with z | z
          · rw [z] at q1; omega
          · exact z
        calc _ = ((dims og).take ((dims og).length - k)).prod * 1 := by ring
          _ < _ := Nat.mul_lt_mul_of_pos_left h1 ht
      · rw [hx]
        refine Nat.eq_of_mul_eq_mul_right (by omega : 0 < X) ?_
        rw [q1, hp, ← q2, e]
    · intro a ha; have := ho a (by simpa using ha); omega
    · intro b hb; exact hposB b (by simpa using hb)

theorem SameE.split {o : Order} {A1 A2 B1 B2 : List Axis} (h : SameE o (A1 ++ A2) (B1 ++ B2))
    (h1 : (dims A1).prod = (dims B1).prod) (h2 : (dims A2).prod = (dims B2).prod)
    (hA : 0 ∉ dims A1 ++ dims A2) (hB : 0 ∉ dims B1 ++ dims B2) : SameE o A1 B1 ∧ SameE o A2 B2 := by
  have pos : ∀ {X : List Nat} {Y : List Nat}, 0 ∉ X ++ Y → (∀ d ∈ X, 0 < d) ∧ ∀ d ∈ Y, 0 < d := by
    intro X Y hh
    constructor
    · intro d hd
      rcases Nat.eq_zero_or_pos d with e | e
      · exact absurd (by rw [← e]; simp [hd]) hh
      · exact e
    · intro d hd
      rcases Nat.eq_zero_or_pos d with e | e
      · exact absurd (by rw [← e]; simp [hd]) hh
      · exact e
  obtain ⟨pA1, pA2⟩ := pos hA
  obtain ⟨pB1, pB2⟩ := pos hB
  have hall := h.2
  simp only [dims, List.map_append] at hall
  have rk : ∀ (s t i j : List Nat), i.length = s.length →
      rank o (s ++ t) (i ++ j) = (match o with
        | .C => rank o s i * t.prod + rank o t j
        | .F => rank o s i + s.prod * rank o t j) := by
    intro s t i j hh
    cases o
    · exact rankC_append hh
    · exact rankF_append hh
  constructor
  · refine ⟨h1, fun i j hi hj e => ?_⟩
    have zA := inRange_zeros pA2
    have zB := inRange_zeros pB2
    have := hall (i ++ List.replicate (dims A2).length 0) (j ++ List.replicate (dims B2).length 0)
      ((inRange_append hi.length_eq).2 ⟨hi, zA⟩) ((inRange_append hj.length_eq).2 ⟨hj, zB⟩) (by
        have a1 := rk (dims A1) (dims A2) i (List.replicate (dims A2).length 0) hi.length_eq
        have a2 := rk (dims B1) (dims B2) j (List.replicate (dims B2).length 0) hj.length_eq
        rw [rank_zeros] at a1 a2
        rw [a1, a2, e, h2, h1])
    rw [dot_append (by simpa using hi.length_eq), dot_append (by simpa using hj.length_eq),
      dot_zeros, dot_zeros] at this
    simpa using this
  · refine ⟨h2, fun i j hi hj e => ?_⟩
    have zA := inRange_zeros pA1
    have zB := inRange_zeros pB1
    have := hall (List.replicate (dims A1).length 0 ++ i) (List.replicate (dims B1).length 0 ++ j)
      ((inRange_append zA.length_eq).2 ⟨zA, hi⟩) ((inRange_append zB.length_eq).2 ⟨zB, hj⟩) (by
        have a1 := rk (dims A1) (dims A2) (List.replicate (dims A1).length 0) i zA.length_eq
        have a2 := rk (dims B1) (dims B2) (List.replicate (dims B1).length 0) j zB.length_eq
        rw [rank_zeros] at a1 a2
        rw [a1, a2, e, h2, h1])
    rw [dot_append (by simpa using zA.length_eq), dot_append (by simpa using zB.length_eq),
      dot_zeros, dot_zeros] at this
    simpa using this

theorem dims_take_prod_lt {og : List Axis} (ho : ∀ a ∈ og, 1 < a.dim) {k : Nat} (hk : k < og.length) :
    (dims (og.take k)).prod < (dims og).prod := by
  have q := prod_take_drop (dims og) k
  rw [dims, List.map_take, ← dims, ← q]
  have hpos : 0 < ((dims og).take k).prod := prod_pos_of fun d hx => by
    have := List.mem_of_mem_take hx
    simp only [dims, List.mem_map] at this
    obtain ⟨a, ha, rfl⟩ := this
    have := ho a ha; omega
  have hk' : k < (dims og).length := by simpa using hk
  have h2 : 1 < ((dims og).drop k).prod := by
    rw [List.drop_eq_getElem_cons hk', List.prod_cons]
    have h3 : 1 ≤ ((dims og).drop (k + 1)).prod := prod_pos_of fun d hx => by
      have := List.mem_of_mem_drop hx
      simp only [dims, List.mem_map] at this
      obtain ⟨a, ha, rfl⟩ := this
      have := ho a ha; omega
    have h4 : 1 < (dims og)[k] := by
      have := List.getElem_mem hk'
      simp only [dims, List.mem_map] at this
      obtain ⟨a, ha, e⟩ := this
      have := ho a ha
      simp only [dims]
      omega
    calc 1 < (dims og)[k] * 1 := by omega
      _ ≤ _ := Nat.mul_le_mul_left _ h3
  calc _ = ((dims og).take k).prod * 1 := by ring
    _ < _ := Nat.mul_lt_mul_of_pos_left h2 hpos

/-- With equal total products the group always closes, and at the first common boundary. -/
theorem growGroup_total {fuel np op : Nat} {ng nrest : List Nat} {og orest : List Axis}
    (hf : nrest.length + orest.length < fuel) (hn : np = ng.prod) (ho : op = (dims og).prod)
    (hposn : ∀ d ∈ ng ++ nrest, 0 < d) (hposo : ∀ a ∈ og ++ orest, 1 < a.dim)
    (hp : (ng ++ nrest).prod = (dims (og ++ orest)).prod)
    (hinv : ∀ k m, k < og.length → 0 < k → m ≤ ng.length → (dims (og.take k)).prod ≠ (ng.take m).prod)
    (hinv2 : ∀ m, m < ng.length → (ng.take m).prod < op)
    (hinv3 : ∀ k, k < og.length → 0 < k → (dims (og.take k)).prod < np) :
    ∃ ng' nrest' og' orest', growGroup fuel np op ng nrest og orest = some (ng', nrest', og', orest') ∧
      (∀ k m, k < og'.length → 0 < k → m ≤ ng'.length → (dims (og'.take k)).prod ≠ (ng'.take m).prod) := by
  induction fuel generalizing np op ng nrest og orest with
  | zero => omega
  | succ fuel ih =>
    unfold growGroup
    by_cases h1 : np = op
    · rw [if_pos h1]
      exact ⟨_, _, _, _, rfl, hinv⟩
    · rw [if_neg h1]
      have hprod : np * nrest.prod = op * (dims orest).prod := by
        have := hp
        simp only [dims, List.map_append, List.prod_append] at this
        rw [hn, ho]; exact this
      by_cases h2 : np < op
      · rw [if_pos h2]
        cases nrest with
        | nil =>
          exfalso
          have hpo : 1 ≤ (dims orest).prod := prod_pos_of fun d hx => by
            simp only [dims, List.mem_map] at hx
            obtain ⟨a, ha, rfl⟩ := hx
            have := hposo a (by simp [ha]); omega
          simp only [List.prod_nil, mul_one] at hprod
          have : op * 1 ≤ op * (dims orest).prod := Nat.mul_le_mul_left _ hpo
          omega
        | cons d nrest =>
          simp only
          apply ih
          · simp at hf; omega
          · simp [hn]
          · exact ho
          · simpa using hposn
          · exact hposo
          · simpa using hp
          · intro k m hk hk0 hm
            rcases Nat.lt_or_ge m (ng.length + 1) with hm' | hm'
            · rw [List.take_append_of_le_length (by omega)]
              exact hinv k m hk hk0 (by omega)
            · have ht : (ng ++ [d]).take m = ng ++ [d] := List.take_of_length_le (by simpa using hm')
              rw [ht]
              have := hinv3 k hk hk0
              have hd : 0 < d := hposn d (by simp)
              have hle : np ≤ (ng ++ [d]).prod := by
                rw [List.prod_append, ← hn]; simp only [List.prod_cons, List.prod_nil, mul_one]
                exact Nat.le_mul_of_pos_right _ hd
              omega
          · intro m hm
            simp at hm
            rcases Nat.lt_or_ge m ng.length with hm' | hm'
            · rw [List.take_append_of_le_length (by omega)]
              exact hinv2 m hm'
            · have : m = ng.length := by omega
              subst this
              rw [List.take_left, ← hn]
              exact h2
          · intro k hk hk0
            have := hinv3 k hk hk0
            have hd : 0 < d := hposn d (by simp)
            exact Nat.lt_of_lt_of_le this (Nat.le_mul_of_pos_right _ hd)
      · rw [if_neg h2]
        cases orest with
        | nil =>
          exfalso
          have hpn : 1 ≤ nrest.prod := prod_pos_of fun d hx => hposn d (by simp [hx])
          simp only [dims, List.map_nil, List.prod_nil, mul_one] at hprod
          have : np * 1 ≤ np * nrest.prod := Nat.mul_le_mul_left _ hpn
          omega
        | cons a orest =>
          simp only
          apply ih
          · simp at hf; omega
          · exact hn
          · simp [ho]
          · exact hposn
          · simpa using hposo
          · simpa using hp
          · intro k m hk hk0 hm
            simp at hk
            rcases Nat.lt_or_ge k og.length with hk' | hk'
            · rw [List.take_append_of_le_length (by omega)]
              exact hinv k m hk' hk0 hm
            · have : k = og.length := by omega
              subst this
              rw [List.take_left, ← ho]
              rcases Nat.lt_or_ge m ng.length with hm' | hm'
              · have := hinv2 m hm'; omega
              · rw [List.take_of_length_le hm', ← hn]; omega
          · intro m hm
            have := hinv2 m hm
            have := hposo a (by simp)
            exact Nat.lt_of_lt_of_le (hinv2 m hm) (Nat.le_mul_of_pos_right _ (by omega))
          · intro k hk hk0
            simp at hk
            rcases Nat.lt_or_ge k og.length with hk' | hk'
            · rw [List.take_append_of_le_length (by omega)]
              exact hinv3 k hk' hk0
            · have : k = og.length := by omega
              subst this
              rw [List.take_left, ← ho]; omega

theorem nocopyLoop_complete {fuel : Nat} {o : Order} {last : Option Axis} {news : List Nat} {olds : List Axis}
    (hf : news.length < fuel) (hn : ∀ d ∈ news, 0 < d) (ho : ∀ a ∈ olds, 1 < a.dim) {t : List Int}
    (ht : news.length = t.length) (hs : SameE o olds (mkAxes news t)) :
    ∃ strs, nocopyLoop fuel o last news olds = some strs := by
  induction fuel generalizing last news olds t with
  | zero => omega
  | succ fuel ih =>
    unfold nocopyLoop
    split
    · rename_i d nrest a orest
      have hd : dims (mkAxes (d :: nrest) t) = d :: nrest := mkAxes_dims ht
      have hp : (d :: nrest).prod = (dims (a :: orest)).prod := by rw [hs.1, hd]
      obtain ⟨ng, nrest', og, orest', hg, hmin⟩ := growGroup_total (fuel := nrest.length + orest.length + 1)
        (np := d) (op := a.dim) (ng := [d]) (nrest := nrest) (og := [a]) (orest := orest) (by omega)
        (by simp) (by simp) (by simpa using hn) (by simpa using ho) (by simpa using hp)
        (by intro k m h1 h2; simp at h1; omega)
        (by intro m hm; simp at hm; subst hm; simpa using ho a (by simp))
        (by intro k hk hk0; simp at hk; omega)
      rw [hg]
      obtain ⟨e1, e2, e3, e4, e5⟩ := growGroup_spec hg (by simp) (by simp)
      have hnews : d :: nrest = ng ++ nrest' := by rw [e1]; rfl
      have holds : a :: orest = og ++ orest' := by rw [e2]; rfl
      have hlen : nrest'.length < fuel := by
        have := congrArg List.length hnews
        simp only [List.length_cons, List.length_append] at this hf e4
        simp at e4
        omega
      rw [hnews] at hn ht hs hp
      rw [holds] at ho hs hp
      obtain ⟨t1, t2, rfl, ht1⟩ : ∃ t1 t2, t = t1 ++ t2 ∧ ng.length = t1.length :=
        ⟨t.take ng.length, t.drop ng.length, (List.take_append_drop _ _).symm, by
          simp at ht ⊢; omega⟩
      have ht2 : nrest'.length = t2.length := by simp at ht; omega
      rw [mkAxes_append ht1] at hs
      have d1 : dims (mkAxes ng t1) = ng := mkAxes_dims ht1
      have d2 : dims (mkAxes nrest' t2) = nrest' := mkAxes_dims ht2
      have hpos : 0 < ng.prod := prod_pos_of fun x hx => hn x (by simp [hx])
      have hp' : nrest'.prod = (dims orest').prod := by
        simp only [dims, List.map_append, List.prod_append] at hp
        rw [← dims, ← e3] at hp
        exact Nat.eq_of_mul_eq_mul_left hpos hp
      obtain ⟨s1, s2⟩ := hs.split (by rw [d1, e3]) (by rw [d2, hp']) (by
          rw [← List.map_append]
          intro h0
          obtain ⟨x, hx, e⟩ := List.mem_map.1 h0
          have := ho x hx
          omega) (by
          rw [d1, d2]
          intro h0
          have := hn 0 h0
          omega)
      have hno : NoInner ng og := by
        intro k m h1 h2
        rcases Nat.lt_or_ge k og.length with hk | hk
        · rcases Nat.eq_zero_or_pos k with h0 | h0
          · subst h0; simp at h1
          · rcases Nat.le_total m ng.length with hm | hm
            · exact hmin k m hk h0 hm
            · rw [List.take_of_length_le hm]
              have := hmin k ng.length hk h0 (le_refl _)
              rwa [List.take_length] at this
        · rw [List.take_of_length_le hk] at h2; omega
      have hc := combine_of_same ht1 s1 hno (fun x hx => ho x (by simp [hx])) (fun x hx => hn x (by simp [hx]))
      obtain ⟨rest, hr⟩ := ih (last := some ⟨ng.getLastD 0, (groupStrides o ng og).getLastD 0⟩) hlen
        (fun x hx => hn x (by simp [hx])) (fun x hx => ho x (by simp [hx])) ht2 s2
      simp only [Option.bind_eq_bind, Option.bind_some, hc, if_true, hr]
      exact ⟨_, rfl⟩
    · exact ⟨_, rfl⟩

theorem attemptNocopy_complete {axes : List Axis} {news : List Nat} {o : Order} {t : List Int}
    (h0 : news.prod ≠ 0) (ht : news.length = t.length) (hs : SameE o axes (mkAxes news t)) :
    ∃ strs, attemptNocopy axes news o = some strs := by
  have hp : news.prod = (dims axes).prod := by rw [hs.1, mkAxes_dims ht]
  refine nocopyLoop_complete (by omega) (prod_ne_zero_iff.1 h0) ?_ ht ((sameE_drop_ones o axes).trans hs)
  intro a ha
  simp only [List.mem_filter, decide_eq_true_eq] at ha
  have := prod_ne_zero_iff.1 (hp ▸ h0) a.dim (List.mem_map.2 ⟨a, ha.1, rfl⟩)
  omega

end Rstsr
