import Verif.Proof.BinaryLayout
import Verif.Proof.Kernel
import Verif.Thm.Views
import Verif.Model.ReduceAxes
import Verif.Proof.Slices
/-! # Composition of the axes of a layout, and traversals that leave out unit axes -/
namespace Rstsr
open Spec

/-- No zero length, and no axis of length other than 1 is broadcast (has stride 0). -/
structure Plain (l : Layout) : Prop where
  pos : 0 ∉ l.shape
  moves : ∀ x ∈ l.axes, x.dim ≠ 1 → x.str ≠ 0

theorem Plain.getD {l : Layout} (h : Plain l) {i : Nat} (hi : i < l.ndim) :
    (l.axes.getD i default).dim ≠ 0 ∧ ((l.axes.getD i default).dim ≠ 1 → (l.axes.getD i default).str ≠ 0) := by
  have hm : l.axes.getD i default ∈ l.axes := by
    rw [List.getD_eq_getElem?_getD, List.getElem?_eq_getElem hi]; exact List.getElem_mem hi
  exact ⟨fun e => h.pos (by rw [← e]; exact List.mem_map_of_mem hm), h.moves _ hm⟩

theorem mem_moving {l : Layout} {i : Nat} :
    i ∈ l.movingAxes ↔ i < l.ndim ∧ (l.axes.getD i default).dim ≠ 1 ∧ (l.axes.getD i default).str ≠ 0 := by
  unfold Layout.movingAxes
  rw [(List.perm_insertionSort _ _).mem_iff]
  simp [List.mem_filter]

theorem moving_nodup (l : Layout) : l.movingAxes.Nodup := by
  unfold Layout.movingAxes
  exact (List.perm_insertionSort _ _).nodup_iff.2 (List.nodup_range.filter _)

theorem moving_sorted (l : Layout) : l.movingAxes.Pairwise fun a b =>
    (l.axes.getD a default).str.natAbs ≤ (l.axes.getD b default).str.natAbs := by
  unfold Layout.movingAxes
  haveI : Std.Total (fun a b : Nat => (l.axes.getD a default).str.natAbs ≤ (l.axes.getD b default).str.natAbs) :=
    ⟨fun _ _ => Nat.le_total _ _⟩
  haveI : IsTrans Nat (fun a b : Nat => (l.axes.getD a default).str.natAbs ≤ (l.axes.getD b default).str.natAbs) :=
    ⟨fun _ _ _ => Nat.le_trans⟩
  exact List.pairwise_insertionSort _ _

theorem composition_contig (l : Layout) : l.axesComposition.2.2 = Layout.contigPart l.axes 1 l.movingAxes := by
  unfold Layout.axesComposition Layout.movingAxes
  simp only
  congr 2
  apply List.filter_congr
  intro i hi
  have hi := List.mem_range.1 hi
  have e1 : ((List.range l.ndim).filter fun i => decide ((l.axes.getD i default).dim = 1)).contains i =
      decide ((l.axes.getD i default).dim = 1) := by
    rw [Bool.eq_iff_iff]; simp [List.mem_filter, hi]
  have e2 : ((List.range l.ndim).filter fun i => decide ((l.axes.getD i default).dim ≠ 1 ∧ (l.axes.getD i default).str = 0)).contains i =
      decide ((l.axes.getD i default).dim ≠ 1 ∧ (l.axes.getD i default).str = 0) := by
    rw [Bool.eq_iff_iff]; simp [List.mem_filter, hi]
  rw [e1, e2]
  generalize (l.axes.getD i default).dim = d
  generalize (l.axes.getD i default).str = t
  by_cases h1 : d = 1 <;> by_cases h2 : t = 0 <;> simp [h1, h2]

theorem composition_broadcast {l : Layout} (h : Plain l) : l.axesComposition.2.1 = [] := by
  show ((List.range l.ndim).filter _) = []
  rw [List.filter_eq_nil_iff]
  intro i hi
  simp only [decide_eq_true_eq, not_and]
  exact (h.getD (List.mem_range.1 hi)).2

/-- The lengths of the axes that are not moving are 1. -/
theorem Plain.unit {l : Layout} (h : Plain l) {i : Nat} (hi : i < l.ndim) (hm : i ∉ l.movingAxes) :
    l.shape.getD i 0 = 1 := by
  rw [show l.shape.getD i 0 = (l.axes.getD i default).dim from dims_getD _ _]
  by_contra hc
  exact hm (mem_moving.2 ⟨hi, hc, (h.getD hi).2 hc⟩)

/-- Two lists of the same items are equal if the items have different keys and both are sorted by key. -/
theorem perm_eq_of_strict {γ : Type} (f : γ → Nat) {L M : List γ} (hp : L.Perm M) (h1 : L.Pairwise fun a b => f a < f b)
    (h2 : M.Pairwise fun a b => f a ≤ f b) : L = M := by
  refine List.Perm.eq_of_pairwise (le := fun a b => f a ≤ f b) ?_ (h1.imp fun h => Nat.le_of_lt h) h2 hp
  intro a b ha hb hab hba
  by_contra hne
  have hb' : b ∈ L := hp.mem_iff.2 hb
  have hle : f a = f b := Nat.le_antisymm hab hba
  have key : ∀ (K : List γ), K.Pairwise (fun a b => f a < f b) → a ∈ K → b ∈ K → False := by
    intro K
    induction K with
    | nil => intro _ h; cases h
    | cons x K ih =>
      intro hK ha hb
      have hK' := List.pairwise_cons.1 hK
      rcases List.mem_cons.1 ha with rfl | ha
      · rcases List.mem_cons.1 hb with rfl | hb
        · exact hne rfl
        · have := hK'.1 b hb; omega
      · rcases List.mem_cons.1 hb with e | hb
        · have := hK'.1 a ha; subst e; omega
        · exact ih hK'.2 ha hb
  exact key L h1 ha hb'

/-- The moving axes in order of stride do not overlap. -/
theorem moving_superInc' {l : Layout} (hl : l.Valid) (hz : 0 ∉ l.shape) :
    SuperInc 0 (pick l.axes l.movingAxes) ∧ ∀ x ∈ pick l.axes l.movingAxes, 1 < x.dim := by
  have pos : ∀ {i : Nat}, i < l.ndim → (l.axes.getD i default).dim ≠ 0 := by
    intro i hi e
    apply hz
    have hm : l.axes.getD i default ∈ l.axes := by
      rw [List.getD_eq_getElem?_getD, List.getElem?_eq_getElem hi]; exact List.getElem_mem hi
    rw [← e]; exact List.mem_map_of_mem hm
  have hd : ∀ x ∈ pick l.axes l.movingAxes, 1 < x.dim := by
    intro x hx
    obtain ⟨i, hi, rfl⟩ := List.mem_map.1 hx
    have h1 := mem_moving.1 hi
    have h2 := pos h1.1
    have h3 := h1.2.1
    show 1 < (l.axes.getD i default).dim
    omega
  refine ⟨?_, hd⟩
  have hno : NoOverlap l.axes := by
    rcases accepted_iff.1 (valid_iff.1 hl) with e | e | e
    · rw [e]; exact ⟨[], by simp, trivial⟩
    · exact absurd e hz
    · exact e.2
  obtain ⟨L, h1, h2⟩ := hno
  have hp : (pick l.axes l.movingAxes).Perm (l.axes.filter Axis.ess) := by
    have e : l.axes.filter Axis.ess = pick l.axes ((List.range l.ndim).filter fun i => (l.axes.getD i default).ess) := by
      conv_lhs => rw [← map_getD_range l.axes default]
      rw [List.filter_map]
      rfl
    rw [e]
    refine List.Perm.map _ ((List.perm_ext_iff_of_nodup (moving_nodup l) (List.nodup_range.filter _)).2 fun i => ?_)
    rw [mem_moving, List.mem_filter, List.mem_range]
    constructor
    · rintro ⟨a, b, c⟩
      have := pos a
      exact ⟨a, by simp only [Axis.ess, Bool.and_eq_true, decide_eq_true_eq]; omega⟩
    · rintro ⟨a, b⟩
      simp only [Axis.ess, Bool.and_eq_true, decide_eq_true_eq] at b
      exact ⟨a, by omega, b.2⟩
  have hperm : L.Perm (pick l.axes l.movingAxes) := h1.trans hp.symm
  have hdL : ∀ x ∈ L, 1 < x.dim := fun x hx => hd x (hperm.mem_iff.1 hx)
  have hst := h2.pairwise hdL
  have hs2 : (pick l.axes l.movingAxes).Pairwise fun a b => a.str.natAbs ≤ b.str.natAbs :=
    List.pairwise_map.2 (moving_sorted l)
  have : L = pick l.axes l.movingAxes := perm_eq_of_strict (fun x : Axis => x.str.natAbs) hperm hst hs2
  exact this ▸ h2

theorem moving_superInc {l : Layout} (hl : l.Valid) (h : Plain l) :
    SuperInc 0 (pick l.axes l.movingAxes) ∧ ∀ x ∈ pick l.axes l.movingAxes, 1 < x.dim := moving_superInc' hl h.pos

/-- The contiguous part is a beginning of the sorted axes, and packed. -/
theorem contigPart_prefix {axes : List Axis} (L : List Nat) (c : Nat) (hs : SuperInc c (pick axes L))
    (hd : ∀ x ∈ pick axes L, 1 < x.dim) :
    ∃ k, Layout.contigPart axes ((c : Int) + 1) L = L.take k ∧ Packed ((c : Int) + 1) (pick axes (L.take k)) := by
  induction L generalizing c with
  | nil => exact ⟨0, rfl, trivial⟩
  | cons i L ih =>
    have hdi : 1 < (axes.getD i default).dim := hd _ List.mem_cons_self
    obtain ⟨h1, h2⟩ := hs
    have h1 : c < (axes.getD i default).str.natAbs := h1
    have h2 : SuperInc (c + ((axes.getD i default).dim - 1) * (axes.getD i default).str.natAbs) (pick axes L) := h2
    simp only [Layout.contigPart]
    by_cases hx : (axes.getD i default).str = (c : Int) + 1
    · rw [if_pos hx]
      have hn : (axes.getD i default).str.natAbs = c + 1 := by omega
      obtain ⟨d, hdd⟩ : ∃ d, (axes.getD i default).dim = d + 1 := ⟨(axes.getD i default).dim - 1, by omega⟩
      have e : ((c + ((axes.getD i default).dim - 1) * (axes.getD i default).str.natAbs : Nat) : Int) + 1 =
          ((c : Int) + 1) * ((axes.getD i default).dim : Int) := by
        rw [hn, hdd, Nat.add_sub_cancel]; push_cast; ring
      obtain ⟨k, k1, k2⟩ := ih _ h2 fun x hx => hd x (List.mem_cons_of_mem _ hx)
      rw [e] at k1 k2
      exact ⟨k + 1, by rw [k1]; rfl, hx, k2⟩
    · rw [if_neg hx]
      refine ⟨0, ?_, trivial⟩
      have hbig : ∀ j ∈ L, (axes.getD j default).str ≠ (c : Int) + 1 := by
        intro j hj e
        have := h2.lt (axes.getD j default) (List.mem_map_of_mem hj)
        have hm : (axes.getD i default).str.natAbs ≤ ((axes.getD i default).dim - 1) * (axes.getD i default).str.natAbs :=
          Nat.le_mul_of_pos_left _ (by omega)
        omega
      have : ∀ L : List Nat, (∀ j ∈ L, (axes.getD j default).str ≠ (c : Int) + 1) →
          Layout.contigPart axes ((c : Int) + 1) L = [] := by
        intro L
        induction L with
        | nil => intro _; rfl
        | cons j L ih =>
          intro h
          simp only [Layout.contigPart]
          rw [if_neg (h j (by simp))]
          exact ih fun x hx => h x (by simp [hx])
      rw [this L hbig]; rfl

/-- The contiguous and the discontiguous part, one after the other, are the moving axes; the contiguous part
is packed. -/
theorem composition_spec {l : Layout} (hl : l.Valid) (h : Plain l) :
    l.axesComposition.2.2 ++ l.axesDiscontig = l.movingAxes ∧ Packed 1 (pick l.axes l.axesComposition.2.2) ∧
    ∃ k, l.axesComposition.2.2 = l.movingAxes.take k := by
  obtain ⟨h1, h2⟩ := moving_superInc hl h
  obtain ⟨k, k1, k2⟩ := contigPart_prefix l.movingAxes 0 h1 h2
  have k1 : Layout.contigPart l.axes 1 l.movingAxes = l.movingAxes.take k := k1
  have e : l.axesDiscontig = l.movingAxes.drop k := by
    unfold Layout.axesDiscontig
    rw [composition_contig, k1]
    have hnd := moving_nodup l
    generalize l.movingAxes = L at hnd
    conv_lhs => rw [← List.take_append_drop k L]
    rw [← List.take_append_drop k L] at hnd
    rw [List.filter_append, List.filter_eq_nil_iff.2, List.filter_eq_self.2, List.nil_append]
    · intro a ha
      have := (List.nodup_append'.1 hnd).2.2
      rw [List.take_append_drop]
      simpa using fun hc => this hc ha
    · intro a ha
      rw [List.take_append_drop]
      simpa using ha
  rw [composition_contig, k1, e, List.take_append_drop]
  exact ⟨rfl, k2, k, rfl⟩

/-! ## The layout of a copy in K order -/

theorem packed_append {L M : List Axis} {cur : Int} (h : Packed cur (L ++ M)) : Packed cur L := by
  induction L generalizing cur with
  | nil => trivial
  | cons x L ih => exact ⟨h.1, ih h.2⟩

theorem packed_nonunit {L : List Axis} {cur : Int} (h : Packed cur L) :
    Packed cur (L.filter fun x => decide (x.dim ≠ 1)) := by
  induction L generalizing cur with
  | nil => trivial
  | cons x L ih =>
    by_cases hx : x.dim = 1
    · rw [List.filter_cons_of_neg (by simp [hx])]
      have := ih h.2
      rwa [hx, Int.natCast_one, Int.mul_one] at this
    · rw [List.filter_cons_of_pos (by simp [hx])]
      exact ⟨h.1, ih h.2⟩

theorem packed_contigLoop {L : List Axis} {cur : Int} (h : Packed cur L) : Layout.contigLoop cur L = L.length := by
  induction L generalizing cur with
  | nil => rfl
  | cons x L ih =>
    unfold Layout.contigLoop
    rw [if_neg (by rintro ⟨_, h2⟩; exact h2 h.1), ih h.2]
    rfl

theorem packed_fContig {L : List Axis} {off : Int} (h : Packed 1 L) : (⟨L, off⟩ : Layout).fContig = true := by
  unfold Layout.fContig Layout.ndimOfFContig
  split
  · simp
  · rw [packed_contigLoop h]; simp [Layout.ndim]

theorem absAxis_getD (l : Layout) (i : Nat) :
    ((l.axes.map absAxis).getD i default).dim = (l.axes.getD i default).dim ∧
    ((l.axes.map absAxis).getD i default).str.natAbs = (l.axes.getD i default).str.natAbs := by
  rw [List.getD_eq_getElem?_getD, List.getD_eq_getElem?_getD, List.getElem?_map]
  cases l.axes[i]? with
  | none => exact ⟨rfl, rfl⟩
  | some x =>
    simp only [Option.map_some, Option.getD_some, absAxis]
    exact ⟨by split <;> rfl, by split <;> simp⟩

theorem greedyIndex_sorted (l : Layout) :
    (greedyIndex l).Pairwise fun a b => Layout.greedyLe true (l.axes.map absAxis) a b = true := by
  unfold greedyIndex
  haveI : Std.Total (fun a b : Nat => Layout.greedyLe true (l.axes.map absAxis) a b = true) := ⟨by
    intro a b
    unfold Layout.greedyLe
    simp only
    cases Layout.still ((l.axes.map absAxis).getD a default) <;> cases Layout.still ((l.axes.map absAxis).getD b default) <;>
      simp <;> omega⟩
  haveI : IsTrans Nat (fun a b : Nat => Layout.greedyLe true (l.axes.map absAxis) a b = true) := ⟨by
    intro a b c
    unfold Layout.greedyLe
    simp only
    cases Layout.still ((l.axes.map absAxis).getD a default) <;> cases Layout.still ((l.axes.map absAxis).getD b default) <;>
      cases Layout.still ((l.axes.map absAxis).getD c default) <;> simp <;> omega⟩
  exact List.pairwise_insertionSort _ _

/-- The moving axes appear in the same order in the permutation of the greedy layout. -/
theorem greedyIndex_moving {l : Layout} (hl : l.Valid) (h : Plain l) :
    (greedyIndex l).filter (fun i => decide ((l.axes.getD i default).dim ≠ 1)) = l.movingAxes := by
  obtain ⟨h1, h2⟩ := moving_superInc hl h
  have hst : l.movingAxes.Pairwise fun a b => (l.axes.getD a default).str.natAbs < (l.axes.getD b default).str.natAbs :=
    by
      have := h1.pairwise h2
      unfold pick at this
      rw [List.pairwise_map] at this
      exact this
  symm
  refine perm_eq_of_strict (fun i => (l.axes.getD i default).str.natAbs) ?_ hst ?_
  · refine (List.perm_ext_iff_of_nodup (moving_nodup l) (((greedyIndex_perm l).nodup_iff.2 List.nodup_range).filter _)).2 ?_
    intro i
    rw [mem_moving, List.mem_filter, (greedyIndex_perm l).mem_iff, List.mem_range]
    simp only [decide_eq_true_eq]
    exact ⟨fun k => ⟨k.1, k.2.1⟩, fun k => ⟨k.1, k.2, (h.getD k.1).2 k.2⟩⟩
  · have hs := greedyIndex_sorted l
    have hs2 : ((greedyIndex l).filter fun i => decide ((l.axes.getD i default).dim ≠ 1)).Pairwise
        fun a b => Layout.greedyLe true (l.axes.map absAxis) a b = true := hs.filter _
    refine hs2.imp_of_mem ?_
    intro a b ha hb hab
    obtain ⟨a1, a2⟩ := List.mem_filter.1 ha
    obtain ⟨b1, b2⟩ := List.mem_filter.1 hb
    simp only [decide_eq_true_eq] at a2 b2
    have a3 := (h.getD (List.mem_range.1 ((greedyIndex_perm l).mem_iff.1 a1))).2 a2
    have b3 := (h.getD (List.mem_range.1 ((greedyIndex_perm l).mem_iff.1 b1))).2 b2
    have sa : Layout.still ((l.axes.map absAxis).getD a default) = false := by
      have := absAxis_getD l a
      simp only [Layout.still, Bool.or_eq_false_iff, beq_eq_false_iff_ne, this.1]
      exact ⟨a2, by omega⟩
    have sb : Layout.still ((l.axes.map absAxis).getD b default) = false := by
      have := absAxis_getD l b
      simp only [Layout.still, Bool.or_eq_false_iff, beq_eq_false_iff_ne, this.1]
      exact ⟨b2, by omega⟩
    unfold Layout.greedyLe at hab
    simp only [sa, sb, decide_eq_true_eq, (absAxis_getD l a).2, (absAxis_getD l b).2] at hab
    exact hab

/-- In the layout of a copy the moving axes are packed in the order of their strides. -/
theorem copyK_packed (dflt : Order) {l lo : Layout} (hl : l.Valid) (h : Plain l)
    (ho : l.forArrayCopy dflt .K = .ok lo) : Packed 1 (pick lo.axes l.movingAxes) := by
  obtain ⟨lo', h1, h2, -, -⟩ := forArrayCopy_spec dflt hl .K (by simp)
  rw [ho] at h1
  cases h1
  have hs : l.size ≠ 0 := fun e => h.pos (size_zero_iff.1 e)
  have hgp := greedyIndex_perm l
  simp only [Layout.forArrayCopy, greedy_keep (valid_iff.1 hl) hs, ok_bind] at ho
  generalize hF : (Layout.newFContig (⟨pick (l.axes.map absAxis) (greedyIndex l), l.offset + loSum l.axes⟩ : Layout).shape 0) = F at ho
  have hFl : F.axes.length = l.ndim := by
    have e : F.shape.length = (greedyIndex l).length := by
      rw [← hF, shape_newFContig]
      show ((pick _ _).map _).length = _
      rw [List.length_map, pick_length]
    simpa [Layout.shape, hgp.length_eq] using e
  have hrev : (Layout.reversedPermute (greedyIndex l)).Perm (List.range F.ndim) := by
    rw [reversedPermute_eq hgp, show F.ndim = l.ndim from hFl]; exact idxOf_perm hgp
  rw [transpose_perm hrev] at ho
  cases ho
  have hpk : Packed 1 F.axes := by rw [← hF]; exact packed_fStrides 1 _
  have hnd : (greedyIndex l).Nodup := hgp.nodup_iff.2 List.nodup_range
  have e1 : pick (pick F.axes (Layout.reversedPermute (greedyIndex l))) (greedyIndex l) = F.axes := by
    rw [reversedPermute_eq hgp]
    apply List.ext_getElem
    · rw [pick_length, hgp.length_eq, hFl, List.length_range]
    · intro k k1 k2
      have hk : k < (greedyIndex l).length := by rwa [pick_length] at k1
      have hlt : (greedyIndex l)[k] < l.ndim := List.mem_range.1 (hgp.mem_iff.1 (List.getElem_mem hk))
      simp only [pick, List.getElem_map, List.map_map, List.getD_eq_getElem?_getD, List.getElem?_map,
        List.getElem?_range hlt, Option.map_some, Option.getD_some, Function.comp_apply]
      rw [hnd.idxOf_getElem k hk, List.getElem?_eq_getElem k2]; rfl
  have hdim : ∀ i, ((pick F.axes (Layout.reversedPermute (greedyIndex l))).getD i default).dim = (l.axes.getD i default).dim := by
    intro i
    have := congrArg (·.getD i 0) h2
    exact (dims_getD _ _).symm.trans (this.trans (dims_getD _ _))
  rw [← greedyIndex_moving hl h]
  have e2 : pick (pick F.axes (Layout.reversedPermute (greedyIndex l)))
      ((greedyIndex l).filter fun i => decide ((l.axes.getD i default).dim ≠ 1)) =
      F.axes.filter fun x => decide (x.dim ≠ 1) := by
    conv_rhs => rw [← e1]
    unfold pick
    rw [List.filter_map]
    congr 1
    apply List.filter_congr
    intro i _
    simp only [Function.comp_apply]
    have := hdim i
    unfold pick at this
    rw [this]
  show Packed 1 (pick (pick F.axes (Layout.reversedPermute (greedyIndex l))) _)
  rw [e2]
  exact packed_nonunit hpk

/-! ## Traversals of some axes -/

theorem splitSel_ok {l : Layout} (hl : l.Valid) (ho : 0 ≤ l.offset) (hz : 0 ∉ l.shape) {p : List Nat} (hnd : p.Nodup)
    (hlt : ∀ a ∈ p, a < l.ndim) : splitSel l p = .ok ⟨pick l.axes p, l.offset⟩ := by
  have e1 : (p.map Int.ofNat).map (normAxis l.ndim) = p := by
    rw [List.map_map]
    conv_rhs => rw [← List.map_id p]
    apply List.map_congr_left
    intro a _
    exact normAxis_ofNat _ _
  obtain ⟨q, hq⟩ := (C52_split_axes_accept_iff l hl ho hz (p.map Int.ofNat)).2
    ⟨fun a ha => by
      obtain ⟨b, hb, rfl⟩ := List.mem_map.1 ha
      exact axisOk_ofNat (hlt b hb), by rwa [e1]⟩
  unfold splitSel
  rw [hq]
  unfold Layout.dimSplitAxes at hq
  obtain ⟨v, hv, hq⟩ := bind_ok.1 hq
  obtain ⟨-, -, rfl⟩ := normalizeAxes_ok.1 hv
  obtain ⟨a, ha, hq⟩ := bind_ok.1 hq
  obtain ⟨b, hb, hq⟩ := bind_ok.1 hq
  cases hq
  obtain ⟨-, rfl⟩ := accepted_of_newAxes ha
  simp only [Bool.false_eq_true, if_false, e1]
  rfl

/-- The full index with coordinates `j` on the axes `p` and 0 elsewhere. -/
def fullIdx (n : Nat) (p j : List Nat) : List Nat :=
  unpick (p ++ otherAxes n p) (j ++ List.replicate (otherAxes n p).length 0)

theorem replicate_of {γ : Type} {L : List γ} {x : γ} (h : ∀ y ∈ L, y = x) : L = List.replicate L.length x :=
  List.eq_replicate_iff.2 ⟨rfl, h⟩

theorem others_unit {s p : List Nat} (hu : ∀ i < s.length, i ∉ p → s.getD i 0 = 1) :
    ((otherAxes s.length p).map fun a => s.getD a 0) = List.replicate (otherAxes s.length p).length 1 := by
  have := replicate_of (L := (otherAxes s.length p).map fun a => s.getD a 0) (x := 1) (by
    intro y hy
    obtain ⟨a, ha, rfl⟩ := List.mem_map.1 hy
    obtain ⟨h1, h2⟩ := mem_otherAxes.1 ha
    exact hu a h1 h2)
  rw [this]
  simp

/-- Axes of length 1 may be left out of a traversal. -/
theorem joint_pick {s p : List Nat} (hnd : p.Nodup) (hlt : ∀ a ∈ p, a < s.length)
    (hu : ∀ i < s.length, i ∉ p → s.getD i 0 = 1) :
    ((all .F (p.map fun a => s.getD a 0)).map (fullIdx s.length p)).Perm (all .C s) ∧
    ∀ m : Layout, m.shape = s → ∀ j, InRange j (p.map fun a => s.getD a 0) →
      (⟨pick m.axes p, m.offset⟩ : Layout).addr j = m.addr (fullIdx s.length p j) := by
  have hp := append_otherAxes_perm hnd hlt
  have hj := joint_K (shape := s) (ls := []) (by simp) hp
  have e : all .F ((p ++ otherAxes s.length p).map fun a => s.getD a 0) =
      (all .F (p.map fun a => s.getD a 0)).map (· ++ List.replicate (otherAxes s.length p).length 0) := by
    rw [List.map_append, others_unit hu]
    show allF _ = (allF _).map _
    rw [allF_append, allF_ones]
    simp
  refine ⟨?_, ?_⟩
  · have h1 := hj.1
    rw [e, List.map_map] at h1
    exact h1
  · intro m hm j hj
    have hn : m.axes.length = s.length := by rw [← hm]; simp [Layout.shape]
    have hr : InRange (j ++ List.replicate (otherAxes s.length p).length 0) (dims (pick m.axes (p ++ otherAxes s.length p))) := by
      rw [dims_pick, show dims m.axes = s from hm]
      exact (mem_all (o := .F)).1 (by rw [e]; exact List.mem_map_of_mem (mem_all.2 hj))
    have := (unpick_spec (axes := m.axes) (by rw [hn]; exact hp) hr).2
    rw [addr_eq, addr_eq]
    unfold fullIdx
    rw [← this]
    have hl : j.length = (pick m.axes p).length := by rw [pick_length]; simpa using hj.length_eq
    have e2 : pick m.axes (p ++ otherAxes s.length p) = pick m.axes p ++ pick m.axes (otherAxes s.length p) := by
      unfold pick; rw [List.map_append]
    rw [e2, dot_append hl, dot_zeros]
    simp

end Rstsr
