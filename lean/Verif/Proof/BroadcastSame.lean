import Verif.Proof.Elementwise
import Verif.Thm.Broadcast
/-! # Broadcasting to the shape a layout already has -/
namespace Rstsr
open Spec

theorem bcDim_preserve {a b : Nat} {t1 t2 : BType} (h : bcDim a b = .ok (a, t1, t2)) : t1 = .preserve := by
  unfold bcDim at h
  split at h
  · cases h; rfl
  · cases h; rfl
  · rename_i h1 h2
    simp only [Except.ok.injEq, Prod.mk.injEq] at h
    simp at h1 h2
    omega
  · split at h
    · cases h; rfl
    · cases h

theorem bcLoop_preserve {a b : List Nat} {r : List (Nat × BType × BType)} (h : bcLoop a b = .ok r)
    (ha : r.map (·.1) = a) : ∀ x ∈ r, x.2.1 = .preserve := by
  induction a, b using pairInd generalizing r with
  | h0 => rw [bcLoop_nil_nil] at h; cases h; simp
  | h1 a b hne ih =>
    obtain ⟨d, t1, t2, rest, h1, h2, rfl⟩ := (bcLoop_step hne).1 h
    cases a with
    | nil => simp at ha
    | cons x a =>
      simp only [List.map_cons, List.cons.injEq] at ha
      obtain ⟨rfl, ha⟩ := ha
      intro y hy
      rcases List.mem_cons.1 hy with rfl | hy
      · simpa using bcDim_preserve h1
      · exact ih h2 ha y hy

theorem updateC_preserve {l : Layout} {tp : List BType} (hl : tp.length = l.ndim) (ht : ∀ t ∈ tp, t = .preserve) :
    l.updateByShapeC l.shape tp = .ok l := by
  have hn : l.shape.length = l.ndim := by simp [Layout.shape, Layout.ndim]
  unfold Layout.updateByShapeC
  rw [if_neg (by omega)]
  simp only [hn, Nat.sub_self, List.replicate_zero, List.nil_append]
  have : List.zipWith (fun (t : BType) (s : Int) => if t = .expand ∨ t = .upcast then 0 else s) tp l.stride = l.stride := by
    apply List.ext_getElem
    · simp [hl, Layout.stride, Layout.ndim]
    · intro k h1 h2
      have h3 : k < tp.length := by
        rw [List.length_zipWith] at h1; omega
      have : tp[k] = .preserve := ht _ (List.getElem_mem h3)
      simp [this]
  rw [this]
  show Except.ok (⟨mkAxes (l.axes.map (·.dim)) (l.axes.map (·.str)), l.offset⟩ : Layout) = _
  rw [mkAxes_shape_stride]

/-- When the common shape is the shape of the first layout, that layout is returned unchanged. -/
theorem broadcast_same {l1 l2 m1 m2 : Layout} {o : Order} (h : l1.broadcast l2 o = .ok (m1, m2))
    (hs : m1.shape = l1.shape) : m1 = l1 := by
  unfold Layout.broadcast at h
  obtain ⟨⟨s, t1, t2⟩, e, h⟩ := bind_ok.1 h
  obtain ⟨k1, e1, -, s1, -⟩ := updateByShape_first e
  simp only [e1, ok_bind] at h
  obtain ⟨k2, e2, h⟩ := bind_ok.1 h
  cases h
  obtain ⟨r, hr, h1, h2, h3⟩ := broadcastShape_ok.1 e
  have hsl : s = l1.shape := s1 ▸ hs
  subst hsl
  have hp := bcLoop_preserve hr h1.symm
  have hrl : r.length = l1.ndim := by
    have := congrArg List.length h1
    simpa [Layout.shape, Layout.ndim] using this.symm
  have ht1 : t1.length = l1.ndim := by
    have := congrArg List.length h2
    simpa [hrl] using this
  have htp : ∀ t ∈ t1, t = .preserve := by
    intro t ht
    have : t ∈ alignL o t1 := by cases o <;> simpa [alignL] using ht
    rw [h2] at this
    obtain ⟨x, hx, rfl⟩ := List.mem_map.1 this
    exact hp x hx
  have : l1.updateByShape l1.shape t1 o = .ok l1 := by
    unfold Layout.updateByShape
    split
    · have hr : l1.shape.reverse = l1.reverseAxes.shape := by simp [Layout.shape, Layout.reverseAxes]
      rw [hr, updateC_preserve (by simpa [Layout.ndim, Layout.reverseAxes] using ht1) (by simpa using htp)]
      simp [Layout.reverseAxes]
    · exact updateC_preserve ht1 htp
  rw [e1] at this
  exact Except.ok.inj this

theorem eqLoop_refl (axes : List Axis) : Layout.eqLoop axes axes = true := by
  induction axes with
  | nil => rfl
  | cons a as ih => simp [Layout.eqLoop, ih]

theorem beqLayout_refl (l : Layout) : l.beqLayout l = true := by
  simp [Layout.beqLayout, eqLoop_refl]

/-- The test "the broadcast layout equals the layout" succeeds exactly when the shape is unchanged. -/
theorem beq_broadcast {l1 l2 m1 m2 : Layout} {o : Order} (h : l1.broadcast l2 o = .ok (m1, m2)) :
    m1.beqLayout l1 = true ↔ m1 = l1 := by
  constructor
  · intro hb
    exact broadcast_same h (C53_eq_sound m1 l1 hb).1
  · rintro rfl; exact beqLayout_refl _

theorem zipWith_unit_self {s idx : List Nat} (h : InRange idx s) :
    List.zipWith (fun d i => if d = 1 then 0 else i) s idx = idx := by
  induction s generalizing idx with
  | nil => cases idx <;> simp_all
  | cons d s ih =>
    cases idx with
    | nil => simp at h
    | cons i is =>
      simp only [inRange_cons] at h
      simp only [List.zipWith_cons_cons, ih h.2]
      split
      · rename_i h1
        have : i = 0 := by omega
        rw [this]
      · rfl

theorem stretchIndex_self {o : Order} {s idx : List Nat} (h : InRange idx s) : stretchIndex o s idx = idx := by
  have hl := h.length_eq
  cases o
  · simp only [stretchIndex, hl, Nat.sub_self, List.drop_zero]; exact zipWith_unit_self h
  · simp only [stretchIndex, ← hl, List.take_length]; exact zipWith_unit_self h

theorem broadcastOf_unique {o : Order} {a b s t : List Nat} (h1 : BroadcastOf o a b s) (h2 : BroadcastOf o a b t) :
    s = t := by
  rw [← C16_shape_iff] at h1 h2
  rw [h1] at h2
  cases h2; rfl

theorem broadcastOf_comm {o : Order} {a b s : List Nat} (h : BroadcastOf o a b s) : BroadcastOf o b a s := by
  rw [← C16_shape_iff] at h ⊢
  rw [← C16_comm]; exact h

theorem compatible_of {o : Order} {a b s : List Nat} (h : BroadcastOf o a b s) : Compatible o a b :=
  (C16_accept_iff o a b).1 ⟨s, (C16_shape_iff o a b s).2 h⟩

/-- The first layout stays unchanged when the second one can be stretched to it. -/
theorem toFirst_ok {l1 l2 : Layout} {o : Order} (h : BroadcastOf o l1.shape l2.shape l1.shape) :
    ∃ m2, l1.broadcastToFirst l2 o = .ok (l1, m2) := by
  obtain ⟨⟨m1, m2⟩, hr⟩ := (C17_accept_iff l1 l2 o).2 (compatible_of h)
  have := broadcastOf_unique (C17_broadcast_layout l1 l2 m1 m2 o hr).1 h
  have := broadcast_same hr this
  subst this
  exact ⟨m2, hr⟩

/-- Otherwise it is refused or the first layout changes. -/
theorem toFirst_no {l1 l2 : Layout} {o : Order} (h : ¬ BroadcastOf o l1.shape l2.shape l1.shape) :
    l1.broadcastToFirst l2 o = .error .invalidLayout ∨
      ∃ m1 m2, l1.broadcastToFirst l2 o = .ok (m1, m2) ∧ m1.beqLayout l1 = false := by
  by_cases hc : Compatible o l1.shape l2.shape
  · obtain ⟨⟨m1, m2⟩, hr⟩ := (C17_accept_iff l1 l2 o).2 hc
    refine .inr ⟨m1, m2, hr, ?_⟩
    by_contra hb
    have hb := (beq_broadcast hr).1 (by simpa using hb)
    subst hb
    exact h (C17_broadcast_layout _ l2 _ m2 o hr).1
  · exact .inl (C17_reject l1 l2 o hc)

section
variable {α β : Type}

/-- Everything the operations need to know about the two broadcast layouts. -/
theorem bc_facts {a : Tensor α} {b : Tensor β} (ha : a.WF) (hb : b.WF) {o : Order} {la lb : Layout}
    (h : a.layout.broadcast b.layout o = .ok (la, lb)) :
    BroadcastOf o a.layout.shape b.layout.shape la.shape ∧ Fit la.shape la ∧ Fit la.shape lb ∧
    Covers la.shape la a.data ∧ Covers la.shape lb b.data ∧
    (∀ i, InRange i la.shape → ∃ x, a.data[la.pos i]? = some x ∧ a.arr.elem (stretchIndex o a.layout.shape i) = some x) ∧
    (∀ i, InRange i la.shape → ∃ y, b.data[lb.pos i]? = some y ∧ b.arr.elem (stretchIndex o b.layout.shape i) = some y) := by
  obtain ⟨h1, h2, h3⟩ := C17_broadcast_layout a.layout b.layout la lb o h
  obtain ⟨v1, v2⟩ := C17_valid a.layout b.layout la lb o h ha.fit.valid hb.fit.valid ha.1 hb.1
  have hoff : la.offset = a.layout.offset ∧ lb.offset = b.layout.offset := by
    unfold Layout.broadcast at h
    obtain ⟨⟨s, t1, t2⟩, hs, h⟩ := bind_ok.1 h
    obtain ⟨k1, e1, o1, -⟩ := updateByShape_first hs
    obtain ⟨k2, e2, o2, -⟩ := updateByShape_first (broadcastShape_swap hs)
    simp only [e1, e2, ok_bind] at h
    cases h
    exact ⟨o1, o2⟩
  have ga : ∀ i, InRange i la.shape →
      ∃ x, a.data[la.pos i]? = some x ∧ a.arr.elem (stretchIndex o a.layout.shape i) = some x := by
    intro i hi
    obtain ⟨x, hx, hx'⟩ := ha.get (h3 i hi).1.1
    refine ⟨x, ?_, hx'⟩
    have : la.pos i = a.layout.pos (stretchIndex o a.layout.shape i) := by
      unfold Layout.pos; rw [(h3 i hi).1.2]
    rw [this]; exact hx
  have gb : ∀ i, InRange i la.shape →
      ∃ x, b.data[lb.pos i]? = some x ∧ b.arr.elem (stretchIndex o b.layout.shape i) = some x := by
    intro i hi
    obtain ⟨x, hx, hx'⟩ := hb.get (h3 i hi).2.1
    refine ⟨x, ?_, hx'⟩
    have : lb.pos i = b.layout.pos (stretchIndex o b.layout.shape i) := by
      unfold Layout.pos; rw [(h3 i hi).2.2]
    rw [this]; exact hx
  refine ⟨h1, ⟨v1, by rw [hoff.1]; exact ha.1, rfl⟩, ⟨v2, by rw [hoff.2]; exact hb.1, h2⟩, ?_, ?_, ga, gb⟩
  · intro i hi
    obtain ⟨x, hx, _⟩ := ga i hi
    exact (List.getElem?_eq_some_iff.1 hx).1
  · intro i hi
    obtain ⟨x, hx, _⟩ := gb i hi
    exact (List.getElem?_eq_some_iff.1 hx).1

end
end Rstsr
