import Verif.Proof.Dense
/-! # The output layout of binary operations -/
namespace Rstsr
open Spec

theorem contigPart_sublist (axes : List Axis) (cur : Int) (L : List Nat) :
    (Layout.contigPart axes cur L).Sublist L := by
  induction L generalizing cur with
  | nil => exact List.Sublist.refl _
  | cons i rest ih =>
    simp only [Layout.contigPart]
    split
    · exact (ih _).cons_cons _
    · exact (ih _).cons _

theorem commonPrefix_sublist (as bs : List Nat) : (Layout.commonPrefix as bs).Sublist as := by
  induction as generalizing bs with
  | nil => cases bs <;> exact List.Sublist.refl _
  | cons a as ih =>
    cases bs with
    | nil => exact List.nil_sublist _
    | cons b bs =>
      simp only [Layout.commonPrefix]
      split
      · exact (ih _).cons_cons _
      · exact List.nil_sublist _

theorem growStrides_length {shape : List Nat} {cur : Int} {st : List Int} {P : List Nat} :
    (Layout.growStrides shape cur st P).length = st.length := by
  induction P generalizing cur st with
  | nil => rfl
  | cons i P ih => rw [Layout.growStrides, ih, List.length_set]

theorem growStrides_off {shape : List Nat} {cur : Int} {st : List Int} {P : List Nat} {k : Nat} (hk : k ∉ P) :
    (Layout.growStrides shape cur st P).getD k 0 = st.getD k 0 := by
  induction P generalizing cur st with
  | nil => rfl
  | cons i P ih =>
    simp only [List.mem_cons, not_or] at hk
    rw [Layout.growStrides, ih hk.2]
    simp [List.getD_eq_getElem?_getD, List.getElem?_set_ne (Ne.symm hk.1)]

theorem growStrides_packed {shape : List Nat} {cur : Int} {st : List Int} {P : List Nat} (hnd : P.Nodup)
    (hlt : ∀ i ∈ P, i < st.length) :
    Packed cur (P.map fun i => ⟨shape.getD i 0, (Layout.growStrides shape cur st P).getD i 0⟩) := by
  induction P generalizing cur st with
  | nil => trivial
  | cons i P ih =>
    have hn := List.nodup_cons.1 hnd
    have hi := hlt i List.mem_cons_self
    refine ⟨?_, ?_⟩
    · show (Layout.growStrides shape _ _ P).getD i 0 = cur
      rw [growStrides_off hn.1]
      simp [List.getD_eq_getElem?_getD, hi]
    · exact ih hn.2 fun j hj => by rw [List.length_set]; exact hlt j (List.mem_cons_of_mem _ hj)

theorem unitStrides_length {o : Order} {st : List Int} {A : List Nat} :
    (Layout.unitStrides o st A).length = st.length := by
  induction A generalizing st with
  | nil => rfl
  | cons i A ih => simp only [Layout.unitStrides]; rw [ih, List.length_set]

theorem unitStrides_off {o : Order} {st : List Int} {A : List Nat} {k : Nat} (hk : k ∉ A) :
    (Layout.unitStrides o st A).getD k 0 = st.getD k 0 := by
  induction A generalizing st with
  | nil => rfl
  | cons i A ih =>
    simp only [List.mem_cons, not_or] at hk
    simp only [Layout.unitStrides]
    rw [ih hk.2]
    simp [List.getD_eq_getElem?_getD, List.getElem?_set_ne (Ne.symm hk.1)]

theorem packed_pos {cur : Int} {L : List Axis} (h : Packed cur L) (hc : 0 < cur) (hd : ∀ x ∈ L, 0 < x.dim) :
    ∀ x ∈ L, 0 < x.str := by
  induction L generalizing cur with
  | nil => simp
  | cons y L ih =>
    intro x hx
    have hy := hd y List.mem_cons_self
    rcases List.mem_cons.1 hx with rfl | hx
    · rw [h.1]; exact hc
    · exact ih h.2 (Int.mul_pos hc (by omega)) (fun z hz => hd z (List.mem_cons_of_mem _ hz)) x hx

theorem mkAxes_getD {s : List Nat} {t : List Int} (h : s.length = t.length) {k : Nat} (hk : k < s.length) :
    (mkAxes s t).getD k default = ⟨s.getD k 0, t.getD k 0⟩ := by
  have hk2 : k < t.length := by omega
  simp [mkAxes, List.getD_eq_getElem?_getD, List.getElem?_zipWith, List.getElem?_eq_getElem hk,
    List.getElem?_eq_getElem hk2]

/-- Dense from a list of the moving axes. -/
theorem dense_of_list {axes : List Axis} {P : List Nat} 
    (hnd : P.Nodup) (hP : ∀ i, i ∈ P ↔ i < axes.length ∧ (axes.getD i default).ess = true)
    (hk : Packed 1 (P.map fun i => axes.getD i default)) : Dense ⟨axes, 0⟩ := by
  refine ⟨rfl, Or.inr ⟨_, ?_, hk⟩⟩
  have e : axes.filter Axis.ess =
      ((List.range axes.length).filter fun i => (axes.getD i default).ess).map fun i => axes.getD i default := by
    conv_lhs => rw [← map_getD_range axes default]
    rw [List.filter_map]
    rfl
  rw [e]
  refine List.Perm.map _ ((List.perm_ext_iff_of_nodup hnd (List.nodup_range.filter _)).2 fun i => ?_)
  rw [hP, List.mem_filter, List.mem_range]

theorem dot_congr_getD {axes : List Axis} {i j : List Nat} (hi : i.length = axes.length)
    (hj : j.length = axes.length)
    (h : ∀ k < axes.length, i.getD k 0 = j.getD k 0 ∨ (axes.getD k default).str = 0) : dot i axes = dot j axes := by
  rw [dot_eq_sum_range hi, dot_eq_sum_range hj]
  refine congrArg _ (List.map_congr_left fun k hk => ?_)
  rcases h k (List.mem_range.1 hk) with e | e
  · simp only [e]
  · simp only [e]; simp

/-- The output layout of a binary operation: the common shape, dense, and two indices stored in the same
cell denote the same cells of both inputs. -/
theorem forBinaryOp_spec {la lb : Layout} (hs : la.shape = lb.shape) (o : Order) :
    ∃ m, Layout.forBinaryOp la lb o = .ok m ∧ m.shape = la.shape ∧ Dense m ∧
      ∀ i j, InRange i la.shape → InRange j la.shape → m.pos i = m.pos j →
        la.pos i = la.pos j ∧ lb.pos i = lb.pos j := by
  have hn : la.shape.length = la.ndim := by simp [Layout.shape, Layout.ndim]
  have hnb : lb.ndim = la.ndim := by
    have := congrArg List.length hs
    simpa [Layout.shape, Layout.ndim] using this.symm
  unfold Layout.forBinaryOp
  rw [if_neg (by simpa using hs)]
  simp only [Layout.axesComposition]
  -- names for the axis sets
  generalize hci : ((List.range la.ndim).filter fun i => decide ((la.axes.getD i default).dim = 1)) = ci
  generalize hcb : ((List.range la.ndim).filter fun i =>
    decide ((la.axes.getD i default).dim ≠ 1 ∧ (la.axes.getD i default).str = 0)) = cba
  generalize hcbb : ((List.range lb.ndim).filter fun i =>
    decide ((lb.axes.getD i default).dim ≠ 1 ∧ (lb.axes.getD i default).str = 0)) = cbb
  generalize hra : (((List.range la.ndim).filter fun i => !ci.contains i && !cba.contains i).insertionSort
    fun a b => (la.axes.getD a default).str.natAbs ≤ (la.axes.getD b default).str.natAbs) = ra
  generalize hrb : Layout.contigPart lb.axes 1 _ = rb
  generalize hac : Layout.commonPrefix (Layout.contigPart la.axes 1 ra) rb = ac
  generalize had0 : ((List.range la.ndim).filter fun i =>
    !(cba.filter cbb.contains).contains i && !ac.contains i && !ci.contains i) = ad0
  generalize had : (match o with | .C => ad0.reverse | .F => ad0) = ad
  have hdimEq : ∀ i, (lb.axes.getD i default).dim = (la.axes.getD i default).dim := by
    intro i
    rw [← dims_getD, ← dims_getD]
    exact congrArg (fun s : List Nat => s.getD i 0) hs.symm
  have mci : ∀ i, i ∈ ci ↔ i < la.ndim ∧ (la.axes.getD i default).dim = 1 := by
    intro i; rw [← hci]; simp [List.mem_filter]
  have mcb : ∀ i, i ∈ cba ↔ i < la.ndim ∧ (la.axes.getD i default).dim ≠ 1 ∧ (la.axes.getD i default).str = 0 := by
    intro i; rw [← hcb]; simp [List.mem_filter]
  have mcbb : ∀ i, i ∈ cbb ↔ i < la.ndim ∧ (la.axes.getD i default).dim ≠ 1 ∧ (lb.axes.getD i default).str = 0 := by
    intro i; rw [← hcbb]; simp only [List.mem_filter, List.mem_range, decide_eq_true_eq, hdimEq, hnb]
  have hrp : ra.Perm ((List.range la.ndim).filter fun i => !ci.contains i && !cba.contains i) := by
    rw [← hra]; exact List.perm_insertionSort _ _
  have hrnd : ra.Nodup := hrp.nodup_iff.2 (List.nodup_range.filter _)
  have hsub : ac.Sublist ra := by
    rw [← hac]; exact (commonPrefix_sublist _ _).trans (contigPart_sublist _ _ _)
  have macr : ∀ i ∈ ac, i < la.ndim ∧ i ∉ ci ∧ i ∉ cba := by
    intro i hi
    have := hrp.mem_iff.1 (hsub.subset hi)
    simpa [List.mem_filter] using this
  have mad0 : ∀ i, i ∈ ad0 ↔ i < la.ndim ∧ ¬ (i ∈ cba ∧ i ∈ cbb) ∧ i ∉ ac ∧ i ∉ ci := by
    intro i; rw [← had0]; simp [List.mem_filter, and_assoc]; tauto
  have hadp : ad.Perm ad0 := by
    rw [← had]; cases o
    · exact List.reverse_perm _
    · exact List.Perm.refl _
  have mad : ∀ i, i ∈ ad ↔ i < la.ndim ∧ ¬ (i ∈ cba ∧ i ∈ cbb) ∧ i ∉ ac ∧ i ∉ ci := by
    intro i; rw [hadp.mem_iff, mad0]
  have hadnd : ad.Nodup := hadp.nodup_iff.2 (by rw [← had0]; exact List.nodup_range.filter _)
  have mP : ∀ i, i ∈ ac ++ ad ↔ i < la.ndim ∧ ¬ (i ∈ cba ∧ i ∈ cbb) ∧ i ∉ ci := by
    intro i
    rw [List.mem_append, mad]
    constructor
    · rintro (h | h)
      · have := macr i h
        exact ⟨this.1, fun c => this.2.2 c.1, this.2.1⟩
      · exact ⟨h.1, h.2.1, h.2.2.2⟩
    · intro h
      by_cases hc : i ∈ ac
      · exact Or.inl hc
      · exact Or.inr ⟨h.1, h.2.1, hc, h.2.2⟩
  have hPnd : (ac ++ ad).Nodup := by
    refine List.nodup_append'.2 ⟨hsub.nodup hrnd, hadnd, ?_⟩
    intro i h1 h2
    exact ((mad i).1 h2).2.2.1 h1
  generalize hP : ac ++ ad = P at mP hPnd
  generalize hst : Layout.growStrides la.shape 1 (List.replicate la.ndim 0) P = st
  have hstl : st.length = la.ndim := by rw [← hst, growStrides_length, List.length_replicate]
  have hul : (Layout.unitStrides o st ci).length = la.ndim := by rw [unitStrides_length, hstl]
  have hshape : dims (mkAxes la.shape (Layout.unitStrides o st ci)) = la.shape :=
    mkAxes_dims (by rw [hul]; exact hn)
  have hlen : (mkAxes la.shape (Layout.unitStrides o st ci)).length = la.ndim := by
    have := congrArg List.length hshape
    rw [hn] at this
    simpa [dims] using this
  have hget : ∀ k < la.ndim, (mkAxes la.shape (Layout.unitStrides o st ci)).getD k default =
      ⟨la.shape.getD k 0, (Layout.unitStrides o st ci).getD k 0⟩ := fun k hk =>
    mkAxes_getD (by rw [hul]; exact hn) (by rw [hn]; exact hk)
  have hPget : ∀ k ∈ P, (mkAxes la.shape (Layout.unitStrides o st ci)).getD k default =
      ⟨la.shape.getD k 0, st.getD k 0⟩ := fun k hk => by
    have := (mP k).1 hk
    rw [hget k this.1, unitStrides_off this.2.2]
  have hpk : Packed 1 (P.map fun i => ⟨la.shape.getD i 0, st.getD i 0⟩) := by
    rw [← hst]
    exact growStrides_packed hPnd fun i hi => by simpa using ((mP i).1 hi).1
  have hpk' : Packed 1 (P.map fun i => (mkAxes la.shape (Layout.unitStrides o st ci)).getD i default) := by
    rw [List.map_congr_left hPget]; exact hpk
  have hd : ∀ k, la.shape.getD k 0 = (la.axes.getD k default).dim := fun k => dims_getD _ _
  have hess : 0 ∉ la.shape → ∀ i, i ∈ P ↔ i < (mkAxes la.shape (Layout.unitStrides o st ci)).length ∧
      ((mkAxes la.shape (Layout.unitStrides o st ci)).getD i default).ess = true := by
    intro hz i
    rw [hlen]
    have hdp : ∀ k < la.ndim, 0 < la.shape.getD k 0 := by
      intro k hk
      have hk' : k < la.shape.length := by omega
      rw [List.getD_eq_getElem?_getD, List.getElem?_eq_getElem hk']
      exact Nat.pos_of_ne_zero fun e => hz (by rw [← e]; exact List.getElem_mem hk')
    constructor
    · intro h
      have h' := (mP i).1 h
      refine ⟨h'.1, ?_⟩
      rw [hPget i h]
      have hne : la.shape.getD i 0 ≠ 1 := fun e => h'.2.2 ((mci i).2 ⟨h'.1, by rw [← hd]; exact e⟩)
      have hp := hdp i h'.1
      have hs := packed_pos hpk (by decide) (by
        intro x hx
        obtain ⟨k, hk, rfl⟩ := List.mem_map.1 hx
        exact hdp k ((mP k).1 hk).1) _ (List.mem_map_of_mem h)
      simp only [Axis.ess, Bool.and_eq_true, decide_eq_true_eq] at hs ⊢
      omega
    · rintro ⟨h1, h2⟩
      by_contra hP'
      rw [hget i h1] at h2
      simp only [Axis.ess, Bool.and_eq_true, decide_eq_true_eq] at h2
      have hci' : i ∉ ci := fun h => by
        have := ((mci i).1 h).2
        rw [← hd] at this; omega
      apply h2.2
      rw [unitStrides_off hci', ← hst, growStrides_off hP']
      simp [List.getD_eq_getElem?_getD, h1]
  have hDense : Dense ⟨mkAxes la.shape (Layout.unitStrides o st ci), 0⟩ := by
    by_cases hz : 0 ∈ la.shape
    · exact ⟨rfl, Or.inl (by rw [hshape]; exact hz)⟩
    · exact dense_of_list hPnd (hess hz) hpk'
  refine ⟨⟨mkAxes la.shape (Layout.unitStrides o st ci), 0⟩, ?_, hshape, hDense, ?_⟩
  · rw [← hst, ← hP, ← had]; all_goals (cases o <;> rfl)
  intro i j hi hj he
  have hz : 0 ∉ la.shape := fun h => absurd (hi.pos 0 h) (by simp)
  have hacc := valid_iff.1 hDense.spec.1
  have hno := ((hacc.good (by simp)).resolve_left (by rw [hshape]; exact hz))
  have hnn : ∀ k : List Nat, InRange k la.shape → 0 ≤ dot k (mkAxes la.shape (Layout.unitStrides o st ci)) := by
    intro k hk
    have h1 := (dot_bounds (axes := mkAxes la.shape (Layout.unitStrides o st ci)) (idx := k)
      (by rw [hshape]; exact hk)).1
    have h2 := hno.1
    simp only at h2
    omega
  have hdot : dot i (mkAxes la.shape (Layout.unitStrides o st ci)) =
      dot j (mkAxes la.shape (Layout.unitStrides o st ci)) := by
    have h1 := hnn i hi
    have h2 := hnn j hj
    unfold Layout.pos at he
    rw [addr_eq, addr_eq] at he
    simp only [zero_add] at he
    omega
  have hcoord : ∀ k < la.ndim, i.getD k 0 = j.getD k 0 ∨
      ((la.axes.getD k default).str = 0 ∧ (lb.axes.getD k default).str = 0) := by
    intro k hk
    by_cases hkP : k ∈ P
    · left
      refine noOverlap_getD hno.2 (by rw [hshape]; exact hi) (by rw [hshape]; exact hj) hdot (by rw [hlen]; exact hk) ?_
      have := ((hess hz k).1 hkP).2
      simp only [Axis.ess, Bool.and_eq_true, decide_eq_true_eq] at this
      exact this.2
    · by_cases hkc : k ∈ ci
      · left
        have h1 := ((mci k).1 hkc).2
        have h2 := hi.getD (a := k) (by omega)
        have h3 := hj.getD (a := k) (by omega)
        rw [hd] at h2 h3
        omega
      · right
        have : k ∈ cba ∧ k ∈ cbb := by
          by_contra h
          exact hkP ((mP k).2 ⟨hk, h, hkc⟩)
        exact ⟨((mcb k).1 this.1).2.2, ((mcbb k).1 this.2).2.2⟩
  have li := hi.length_eq
  have lj := hj.length_eq
  constructor
  · unfold Layout.pos
    rw [addr_eq, addr_eq, dot_congr_getD (axes := la.axes) (i := i) (j := j) (by rw [li]; exact hn) (by rw [lj]; exact hn)
      fun k hk => (hcoord k hk).imp_right And.left]
  · unfold Layout.pos
    have hb : lb.axes.length = la.ndim := hnb
    rw [addr_eq, addr_eq, dot_congr_getD (axes := lb.axes) (i := i) (j := j) (by rw [li, hb]; exact hn)
      (by rw [lj, hb]; exact hn) fun k hk => (hcoord k (by rw [← hb]; exact hk)).imp_right And.right]

end Rstsr
