import Verif.Model.Chain
import Verif.Thm.Reshape
import Verif.Thm.Broadcast
import Verif.Thm.Views
import Verif.Thm.Slice
import Verif.Thm.Perm
/-!
# Theorem C13: every chain of view operations stays inside storage
-/
namespace Rstsr
open Spec

/-- Every element of `m` is an element of `l`. -/
def AddrSub (m l : Layout) : Prop := ∀ j, InRange j m.shape → ∃ i, InRange i l.shape ∧ m.addr j = l.addr i

theorem AddrSub.refl (l : Layout) : AddrSub l l := fun j hj => ⟨j, hj, rfl⟩

theorem AddrSub.trans {k m l : Layout} (h1 : AddrSub k m) (h2 : AddrSub m l) : AddrSub k l := by
  intro j hj
  obtain ⟨i, hi, e⟩ := h1 j hj
  obtain ⟨i', hi', e'⟩ := h2 i hi
  exact ⟨i', hi', e.trans e'⟩

/-- A step that keeps layouts good and only shows old elements. -/
def Keeps (f : Layout → Res Layout) : Prop := ∀ l m, Good l → f l = .ok m → Good m ∧ AddrSub m l

theorem keeps_transpose (axes : List Int) : Keeps fun l => l.transpose axes := by
  intro l m hl h
  have hs : AddrSub m l := fun j hj => by
    obtain ⟨i, hi, e, _⟩ := C07_transpose_element l m axes h j hj
    exact ⟨i, hi, e⟩
  refine ⟨good_of_sub hl hs fun hz hzm => ?_, hs⟩
  have := C07_transpose_accepted l m axes h (valid_iff.2 hl.accepted)
  exact (accepted_new this).noOverlap hzm

theorem keeps_narrow (axis : Int) (s : SliceI) : Keeps fun l => l.dimNarrow axis s := by
  intro l m hl h
  obtain ⟨h1, h2⟩ := dimNarrow_ok_axis h
  obtain ⟨m', n, start, h3, h4, -⟩ := dimNarrow_spec hl.accepted h1 h2
  rw [show l.dimNarrow axis s = .ok m from h] at h3
  cases h3
  exact ⟨h4.good hl.accepted, fun j hj => ⟨_, (h4.elem hj).1, (h4.elem hj).2.1⟩⟩

theorem keeps_select (axis index : Int) : Keeps fun l => l.dimSelect axis index := by
  intro l m hl h
  have hs : AddrSub m l := fun j hj => by
    have := (C10_select_element l m (valid_iff.2 hl.accepted) axis index h).2 j hj
    exact ⟨_, this.1, this.2⟩
  refine ⟨good_of_sub hl hs fun hz hzm => ?_, hs⟩
  exact (valid_iff.1 (C10_result_valid l m axis index h)).noOverlap hzm

theorem keeps_insert (axis : Int) : Keeps fun l => l.dimInsert axis := by
  intro l m hl h
  obtain ⟨h1, s, rfl, hs⟩ := (dimInsert_ok hl).1 h
  have ha : normAxis (l.ndim + 1) axis < l.ndim + 1 := normAxis_lt h1
  refine ⟨insert_good hl (Nat.lt_succ_iff.1 ha), fun j hj => ?_⟩
  obtain ⟨m', g1, -, -, -, -, -, g7⟩ := expand_fold (A := [normAxis (l.ndim + 1) axis]) (by simp) hl (by simpa using ha)
  obtain ⟨m'', h3, h4⟩ := bind_ok.1 g1
  cases h4
  obtain ⟨-, s', rfl, hs'⟩ := (dimInsert_ok hl).1 h3
  have e : normAxis (l.ndim + 1) (Int.ofNat (normAxis (l.ndim + 1) axis)) = normAxis (l.ndim + 1) axis :=
    normAxis_ofNat _ _
  rw [e] at g7 hs'
  rw [← hs] at hs'
  subst hs'
  exact ⟨_, (g7 j hj).1, (g7 j hj).2⟩

theorem keeps_eliminate (axis : Int) : Keeps fun l => l.dimEliminate axis := by
  intro l m hl h
  obtain ⟨h1, h2, rfl⟩ := (dimEliminate_ok hl.accepted).1 h
  refine keeps_select axis 0 l _ hl ((dimSelect_ok hl.accepted).2 ⟨h1, ?_, ?_⟩)
  · rw [h2]; unfold AxisOk; omega
  · have : normAxis (l.axes.getD (normAxis l.ndim axis) default).dim 0 = 0 := normAxis_ofNat _ 0
    rw [this]; simp

theorem keeps_foldAxes {f : Layout → Int → Res Layout} (hf : ∀ a, Keeps fun l => f l a) (axes : List Int) :
    Keeps fun l => Layout.foldAxes f l axes := by
  induction axes with
  | nil => intro l m hl h; cases h; exact ⟨hl, AddrSub.refl l⟩
  | cons a axes ih =>
    intro l m hl h
    obtain ⟨k, h1, h2⟩ := bind_ok.1 h
    obtain ⟨g1, g2⟩ := hf a l k hl h1
    obtain ⟨g3, g4⟩ := ih k m g1 h2
    exact ⟨g3, g4.trans g2⟩

theorem keeps_sliceLoop (ix : List Indexer) : ∀ (l m : Layout) (c c' : Int), Good l →
    Layout.sliceLoop l c ix = .ok (m, c') → Good m ∧ AddrSub m l := by
  induction ix with
  | nil => intro l m c c' hl h; cases h; exact ⟨hl, AddrSub.refl l⟩
  | cons e ix ih =>
    intro l m c c' hl h
    cases e with
    | slice s =>
      obtain ⟨k, h1, h2⟩ := bind_ok.1 h
      obtain ⟨g1, g2⟩ := keeps_narrow _ s l k hl h1
      obtain ⟨g3, g4⟩ := ih k m _ _ g1 h2
      exact ⟨g3, g4.trans g2⟩
    | select i =>
      obtain ⟨k, h1, h2⟩ := bind_ok.1 h
      obtain ⟨g1, g2⟩ := keeps_select _ i l k hl h1
      obtain ⟨g3, g4⟩ := ih k m _ _ g1 h2
      exact ⟨g3, g4.trans g2⟩
    | insert =>
      obtain ⟨k, h1, h2⟩ := bind_ok.1 h
      obtain ⟨g1, g2⟩ := keeps_insert _ l k hl h1
      obtain ⟨g3, g4⟩ := ih k m _ _ g1 h2
      exact ⟨g3, g4.trans g2⟩
    | ellipsis => cases h

theorem keeps_slice (ix : List Indexer) : Keeps fun l => l.dimSlice ix := by
  intro l m hl h
  dsimp only at h
  unfold Layout.dimSlice at h
  obtain ⟨l', h1, h⟩ := bind_ok.1 h
  obtain ⟨-, rfl⟩ := accepted_of_newAxes h1
  obtain ⟨⟨cnt, ell⟩, h2, h⟩ := bind_ok.1 h
  dsimp only at h
  split at h
  · obtain ⟨⟨m', cur⟩, h3, h⟩ := bind_ok.1 h
    dsimp only at h
    split at h
    · cases h
      exact keeps_sliceLoop _ l m _ _ hl h3
    · cases h
  · cases h

theorem Good.of_accepted {l m : Layout} (hl : Good l) (hm : Accepted m) (h : AddrSub m l) : Good m ∧ AddrSub m l :=
  ⟨good_of_sub hl h fun _ hz => hm.noOverlap hz, h⟩

theorem keeps_reverse : Keeps fun l => .ok l.reverseAxes := fun l m hl h =>
  keeps_transpose _ l m hl ((C08_reverse_axes_eq_transpose l).trans h)

theorem keeps_swapaxes (a b : Int) : Keeps fun l => l.swapaxes a b := by
  intro l m hl h
  obtain ⟨h1, h2, -⟩ := swapaxes_ok.1 h
  exact keeps_transpose _ l m hl ((C08_swapaxes_eq_transpose l a b h1 h2).symm.trans h)

theorem keeps_moveaxis (s d : Option (List Int)) : Keeps fun l => l.moveaxis s d := by
  intro l m hl h
  dsimp only at h
  unfold Layout.moveaxis at h
  obtain ⟨s', -, h⟩ := bind_ok.1 h
  obtain ⟨d', -, h⟩ := bind_ok.1 h
  split at h
  · cases h
  · obtain ⟨o, -, h⟩ := bind_ok.1 h
    exact keeps_transpose _ l m hl h

theorem keeps_flip (axes : Option (List Int)) : Keeps fun l => l.flip axes := by
  intro l m hl h
  dsimp only at h
  unfold Layout.flip at h
  cases axes with
  | none => exact keeps_foldAxes (fun a => keeps_narrow a _) _ l m hl h
  | some axes =>
    obtain ⟨a, -, h⟩ := bind_ok.1 h
    exact keeps_foldAxes (fun a => keeps_narrow a _) _ l m hl h

theorem keeps_expandDims (axes : Option (List Int)) : Keeps fun l => l.expandDims axes := by
  intro l m hl h
  obtain ⟨a, -, h⟩ := bind_ok.1 h
  exact keeps_foldAxes keeps_insert _ l m hl h

theorem keeps_squeeze (axes : Option (List Int)) : Keeps fun l => l.squeeze axes := by
  intro l m hl h
  dsimp only at h
  unfold Layout.squeeze at h
  split at h
  · exact keeps_foldAxes keeps_eliminate _ l m hl h
  · dsimp only at h
    split at h
    · cases h
    split at h
    · cases h
    exact keeps_foldAxes keeps_eliminate _ l m hl h

theorem keeps_broadcastTo (s : List Nat) (o : Order) : Keeps fun l => l.broadcastTo s o := by
  intro l m hl h
  obtain ⟨h1, h2⟩ := C17_broadcast_to l m s o h
  obtain ⟨⟨s', t1, t2⟩, hs, h'⟩ := bind_ok.1 h
  clear h
  dsimp only at h'
  split at h'
  · rename_i e
    subst e
    obtain ⟨k, e1, -, s1, a1, p1⟩ := updateByShape_first hs
    rw [e1] at h'
    cases h'
    have hs : AddrSub m l := fun j hj => ⟨_, h2 j (h1 ▸ hj)⟩
    exact ⟨broadcast_good p1 hs hl, hs⟩
  · cases h'

theorem keeps_broadcastWith (l2 : Layout) (o : Order) : Keeps fun l => (·.1) <$> l.broadcast l2 o := by
  intro l m hl h
  obtain ⟨⟨m1, m2⟩, h1, h2⟩ := map_eq_ok.1 h
  cases h2
  obtain ⟨-, -, hb⟩ := C17_broadcast_layout l l2 m1 m2 o h1
  have hs : AddrSub m1 l := fun j hj => ⟨_, (hb j hj).1⟩
  refine ⟨?_, hs⟩
  unfold Layout.broadcast at h1
  obtain ⟨⟨s, t1, t2⟩, hs', h1⟩ := bind_ok.1 h1
  obtain ⟨k1, e1, -, s1, a1, p1⟩ := updateByShape_first hs'
  obtain ⟨k2, e2, -⟩ := updateByShape_first (broadcastShape_swap hs')
  simp only [e1, e2, ok_bind] at h1
  cases h1
  exact broadcast_good p1 hs hl

theorem keeps_reshape (s : List Nat) (o : Order) : Keeps fun l => (ViewOp.reshape s o).apply l := by
  intro l m hl h
  obtain ⟨r, h1, h2⟩ := bind_ok.1 h
  cases r with
  | none => cases h2
  | some k =>
    cases h2
    exact ⟨reshapeable_good hl h1, (reshapeable_some h1).2.sub⟩

theorem diagonal_keeps {l m : Layout} {k a b : Option Int} (hl : Good l)
    (hne : normAxis l.ndim (a.getD 0) ≠ normAxis l.ndim (b.getD 1)) (h : l.diagonal k a b = .ok m) :
    Good m ∧ AddrSub m l := by
  refine ⟨diagonal_good h, fun j hj => ?_⟩
  obtain ⟨h1, h2, h3, h4, h5⟩ := (diagonal_ok hl hne).1 h
  have hsh : m.shape = dims (dropAxes [normAxis l.ndim (a.getD 0), normAxis l.ndim (b.getD 1)] l.axes) ++
      [(codeDiagLen (l.axes.getD (normAxis l.ndim (a.getD 0)) default).dim
        (l.axes.getD (normAxis l.ndim (b.getD 1)) default).dim (k.getD 0)).toNat] := by
    rw [h4]; simp [Layout.shape]
  rw [hsh] at hj
  have hjl := hj.length_eq
  have hne' : j ≠ [] := by rintro rfl; simp at hjl
  obtain ⟨r, t, rfl⟩ : ∃ r t, j = r ++ [t] := ⟨_, _, (List.dropLast_append_getLast hne').symm⟩
  obtain ⟨i, g1, g2, g3, g4, g5⟩ := diagonal_sub (off := m.offset) (k := k.getD 0) hne (normAxis_lt h1) (normAxis_lt h2) rfl (by
    intro hn0
    unfold codeDiagLen at hn0
    rw [h5]
    split_ifs at hn0 ⊢ with q1 q2
    · rw [show max 0 (-(k.getD 0)) = -(k.getD 0) by omega, show max 0 (k.getD 0) = 0 by omega]; ring
    · rw [show max 0 (-(k.getD 0)) = 0 by omega, show max 0 (k.getD 0) = k.getD 0 by omega]; ring
    · simp at hn0) r t hj
  exact ⟨i, g1, by rw [← g5, h4, addr_mk]⟩

theorem adjacentDupInt_nodup {xs : List Int} (hs : xs.Pairwise (· ≤ ·)) (h : Layout.adjacentDupInt xs = false) :
    xs.Nodup := by
  induction xs with
  | nil => simp
  | cons a xs ih =>
    cases xs with
    | nil => simp
    | cons b xs =>
      simp only [Layout.adjacentDupInt, Bool.or_eq_false_iff, beq_eq_false_iff_ne] at h
      obtain ⟨h1, h2⟩ := List.pairwise_cons.1 hs
      refine List.nodup_cons.2 ⟨?_, ih h2 h.2⟩
      intro hm
      have hab := h1 b (by simp)
      rcases List.mem_cons.1 hm with e | e
      · exact h.1 e
      · have := (List.pairwise_cons.1 h2).1 a e
        exact h.1 (by omega)

/-- What an accepted axis iteration splits the layout into. -/
theorem axesIterSplit_ok {l outer inner : Layout} {axes : List Int} (h : l.axesIterSplit axes = .ok (outer, inner)) :
    (∀ a ∈ axes, AxisOk l.ndim a) ∧ (axes.map (normAxis l.ndim)).Nodup ∧
    outer = ⟨pick l.axes (axes.map (normAxis l.ndim)), l.offset⟩ ∧
    inner = ⟨pick l.axes (otherAxes l.ndim (axes.map (normAxis l.ndim))), l.offset⟩ := by
  unfold Layout.axesIterSplit at h
  dsimp only at h
  split at h
  · cases h
  split at h
  · cases h
  split at h
  · cases h
  rename_i _ _ hd
  split at h
  · cases h
  rename_i hr
  simp only [List.any_map, List.any_eq_true, not_exists, not_and, Function.comp_apply] at hr
  have hax : ∀ a ∈ axes, AxisOk l.ndim a := by
    intro a ha
    have := hr a ha
    simp only [Bool.or_eq_true, decide_eq_true_eq, not_or] at this
    unfold AxisOk
    split at this <;> omega
  have hmap : axes.map (fun (v : Int) => if v ≥ 0 then v else v + l.ndim)
      = (axes.map (normAxis l.ndim)).map Int.ofNat := by
    rw [List.map_map]
    apply List.map_congr_left
    intro a ha
    have := hax a ha
    unfold AxisOk at this
    simp only [Function.comp_apply, normAxis, Int.ofNat_eq_natCast]
    split <;> split <;> omega
  rw [hmap] at h hd
  have hnd : (axes.map (normAxis l.ndim)).Nodup := by
    have := adjacentDupInt_nodup (List.pairwise_insertionSort (· ≤ ·) _) (Bool.not_eq_true _ ▸ hd)
    rw [(List.perm_insertionSort _ _).nodup_iff] at this
    exact List.Nodup.of_map _ this
  cases h
  refine ⟨hax, hnd, ?_, ?_⟩
  · unfold pick; rw [List.map_map]; rfl
  · congr 1
    unfold pick otherAxes
    congr 1
    apply List.filter_congr
    intro k _
    rw [Bool.eq_iff_iff]
    simp

theorem keeps_axisView (axes : List Int) (idx : List Nat) : Keeps fun l => (ViewOp.axisView axes idx).apply l := by
  intro l m hl h
  obtain ⟨⟨outer, inner⟩, h1, h2⟩ := bind_ok.1 h
  obtain ⟨h3, h4, rfl, rfl⟩ := axesIterSplit_ok h1
  dsimp only at h2
  split at h2
  · rename_i hi
    cases h2
    have hlt : ∀ a ∈ axes.map (normAxis l.ndim), a < l.axes.length := by
      intro a ha
      obtain ⟨b, hb, rfl⟩ := List.mem_map.1 ha
      exact normAxis_lt (h3 b hb)
    obtain ⟨-, -, g3, g4⟩ := split_laws (l := l) h4 hlt
    have hs : AddrSub ⟨pick l.axes (otherAxes l.ndim (axes.map (normAxis l.ndim))),
        (⟨pick l.axes (axes.map (normAxis l.ndim)), l.offset⟩ : Layout).addr idx⟩ l := by
      intro j hj
      obtain ⟨k, k1, k2, k3⟩ := g4 idx j hi hj
      refine ⟨k, k1, ?_⟩
      rw [(g3 k k1).2.2, k2, k3, addr_mk, addr_mk]
    refine ⟨good_of_sub hl hs fun hz _ => ?_, hs⟩
    have hp : (pick l.axes (axes.map (normAxis l.ndim) ++ otherAxes l.ndim (axes.map (normAxis l.ndim)))).Perm l.axes :=
      pick_perm (append_otherAxes_perm h4 hlt)
    refine ((hl.resolve_left hz).2.perm hp).sublist ?_
    simp only [pick, List.map_append]
    exact List.sublist_append_right _ _
  · cases h2

/-- A diagonal is taken of two different axes (no condition on the other operations). -/
def ViewOp.DistinctAxes (op : ViewOp) (l : Layout) : Prop :=
  match op with
  | .diagonal _ a b => normAxis l.ndim (a.getD 0) ≠ normAxis l.ndim (b.getD 1)
  | _ => True

theorem viewOp_keeps {op : ViewOp} {l m : Layout} (hl : Good l) (hd : op.DistinctAxes l) (h : op.apply l = .ok m) :
    Good m ∧ AddrSub m l := by
  cases op with
  | transpose axes => exact keeps_transpose axes l m hl h
  | reverseAxes => exact keeps_reverse l m hl h
  | swapaxes a b => exact keeps_swapaxes a b l m hl h
  | moveaxis s d => exact keeps_moveaxis s d l m hl h
  | slice ix => exact keeps_slice ix l m hl h
  | narrow a s => exact keeps_narrow a s l m hl h
  | select a i => exact keeps_select a i l m hl h
  | insert a => exact keeps_insert a l m hl h
  | eliminate a => exact keeps_eliminate a l m hl h
  | flip axes => exact keeps_flip axes l m hl h
  | expandDims axes => exact keeps_expandDims axes l m hl h
  | squeeze axes => exact keeps_squeeze axes l m hl h
  | broadcastTo s o => exact keeps_broadcastTo s o l m hl h
  | broadcastWith l2 o => exact keeps_broadcastWith l2 o l m hl h
  | diagonal k a b => exact diagonal_keeps hl hd h
  | axisView axes idx => exact keeps_axisView axes idx l m hl h
  | reshape s o => exact keeps_reshape s o l m hl h

/-- In the history `ops` starting at `l`, every diagonal is taken of two different axes. -/
def DistinctRun (l : Layout) : List ViewOp → Prop
  | [] => True
  | op :: rest => op.DistinctAxes l ∧ ∀ m, op.apply l = .ok m → DistinctRun m rest

theorem runViews_keeps {ops : List ViewOp} {l m : Layout} (hl : Good l) (hd : DistinctRun l ops)
    (h : runViews l ops = .ok m) : Good m ∧ AddrSub m l := by
  induction ops generalizing l with
  | nil => cases h; exact ⟨hl, AddrSub.refl _⟩
  | cons op ops ih =>
    obtain ⟨k, h1, h2⟩ := bind_ok.1 h
    obtain ⟨g1, g2⟩ := viewOp_keeps hl hd.1 h1
    obtain ⟨g3, g4⟩ := ih g1 (hd.2 k h1) h2
    exact ⟨g3, g4.trans g2⟩

theorem newF_good {α : Type} {data : List α} {l : Layout} {t : Tensor α} (ho : 0 ≤ l.offset)
    (ht : Tensor.newF data l = .ok t) : Good l := by
  unfold Tensor.newF at ht
  obtain ⟨_, h1, ht⟩ := bind_ok.1 ht
  obtain ⟨b, h2, -⟩ := bind_ok.1 ht
  have : Accepted l := newAxes_ok.2 ⟨rfl, ⟨b, h2⟩, h1⟩
  exact this.good ho

/-- Histories of any length: every element of the final view is an element of the original tensor, and
its position lies inside the original storage. Missing for the full claim: diagonals whose two axes are
the same axis, which leave the storage (`C13_equal_axes_witness`). -/
theorem C13_view_chain_partial {α : Type} (data : List α) (l m : Layout) (t : Tensor α) (ho : 0 ≤ l.offset)
    (ht : Tensor.newF data l = .ok t) (ops : List ViewOp) (hd : DistinctRun l ops)
    (h : runViews l ops = .ok m) (j : List Nat) (hj : InRange j m.shape) :
    (∃ i, InRange i l.shape ∧ m.addr j = l.addr i) ∧ 0 ≤ m.addr j ∧ m.addr j < data.length := by
  obtain ⟨i, hi, e⟩ := (runViews_keeps (newF_good ho ht) hd h).2 j hj
  refine ⟨⟨i, hi, e⟩, ?_⟩
  rw [e]
  exact C03_in_bounds data l t ho ht i hi

theorem distinctRun_of_no_diagonal {ops : List ViewOp} (h : ∀ op ∈ ops, ∀ k a b, op ≠ .diagonal k a b) (l : Layout) :
    DistinctRun l ops := by
  induction ops generalizing l with
  | nil => trivial
  | cons op ops ih =>
    refine ⟨?_, fun m _ => ih (fun o ho => h o (by simp [ho])) m⟩
    cases op <;> first | trivial | exact absurd rfl (h _ List.mem_cons_self _ _ _)

/-- Without diagonals there is no further condition on the history. -/
theorem C13_view_chain_no_diagonal {α : Type} (data : List α) (l m : Layout) (t : Tensor α) (ho : 0 ≤ l.offset)
    (ht : Tensor.newF data l = .ok t) (ops : List ViewOp)
    (hops : ∀ op ∈ ops, ∀ k a b, op ≠ .diagonal k a b)
    (h : runViews l ops = .ok m) (j : List Nat) (hj : InRange j m.shape) :
    (∃ i, InRange i l.shape ∧ m.addr j = l.addr i) ∧ 0 ≤ m.addr j ∧ m.addr j < data.length :=
  C13_view_chain_partial data l m t ho ht ops (distinctRun_of_no_diagonal hops l) h j hj

/-- Every view in such a history is again a layout that the checked constructor accepts. -/
theorem C13_view_valid_partial {α : Type} (data : List α) (l m : Layout) (t : Tensor α) (ho : 0 ≤ l.offset)
    (ht : Tensor.newF data l = .ok t) (ops : List ViewOp) (hd : DistinctRun l ops)
    (h : runViews l ops = .ok m) : m.Valid :=
  valid_iff.2 (runViews_keeps (newF_good ho ht) hd h).1.accepted

/-- The excluded case: the diagonal of axis 0 with itself of a 3×3 tensor with nine cells reads cell 12. -/
theorem C13_equal_axes_witness :
    (Tensor.newF (List.range 9) ⟨[⟨3, 3⟩, ⟨3, 1⟩], 0⟩).toOption.isSome = true ∧
    runViews ⟨[⟨3, 3⟩, ⟨3, 1⟩], 0⟩ [.diagonal none (some 0) (some 0)] = .ok ⟨[⟨3, 1⟩, ⟨3, 6⟩], 0⟩ ∧
    InRange [0, 2] (⟨[⟨3, 1⟩, ⟨3, 6⟩], 0⟩ : Layout).shape ∧
    ¬ (⟨[⟨3, 1⟩, ⟨3, 6⟩], 0⟩ : Layout).addr [0, 2] < ((List.range 9).length : Int) := by decide

-- a history using many of the operations
example : runViews ⟨[⟨4, 30⟩, ⟨6, 5⟩, ⟨5, 1⟩], 0⟩
    [.slice [.slice ⟨none, none, some (-1)⟩, .ellipsis, .insert, .slice ⟨some 1, some 4, none⟩],
      .transpose [-1, 0, 1, 2], .flip (some [0]), .axisView [-2] [4], .reshape [3, 4] .C,
      .broadcastTo [2, 3, 4] .C, .diagonal (some 1) (some 1) (some 2), .select (-1) 0]
    = .ok ⟨[⟨2, 0⟩], 83⟩ := by decide
example : DistinctRun ⟨[⟨3, 3⟩, ⟨4, 1⟩], 0⟩ [.diagonal (some 1) none none] :=
  ⟨by show ¬ (_ : Nat) = _; decide, fun _ _ => trivial⟩
example : ∃ t, Tensor.newF (List.replicate 120 true) ⟨[⟨4, 30⟩, ⟨6, 5⟩, ⟨5, 1⟩], 0⟩ = .ok t := by
  unfold Tensor.newF; rw [List.length_replicate]; exact ⟨_, rfl⟩

end Rstsr
