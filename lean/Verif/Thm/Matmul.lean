import Verif.Proof.Matmul
import Verif.Thm.Copy
import Verif.Thm.Perm
import Verif.Thm.Parallel
/-!
# Theorems on matrix products (C41, C42)
-/
namespace Rstsr
open Spec

section
variable {α β γ : Type}

theorem inRange_glue {o : Order} {t bc i core : List Nat} (ht : InRange t bc) (hi : InRange i core) :
    InRange (glue o t i) (glue o bc core) := by
  cases o
  · exact (inRange_append ht.length_eq).2 ⟨ht, hi⟩
  · exact (inRange_append hi.length_eq).2 ⟨hi, ht⟩

theorem inRange_stretch {o : Order} {a b s t : List Nat} (h : BroadcastOf o a b s) (ht : InRange t s) :
    InRange (stretchIndex o a t) a := by
  have hl : (⟨a.map fun d => ⟨d, 0⟩, 0⟩ : Layout).shape = a := by simp [Layout.shape, Function.comp_def]
  have h' : BroadcastOf o a s s := ⟨by have := h.1; omega, fun k _ => ⟨(h.at k).1, .inl rfl, .inr rfl⟩⟩
  obtain ⟨m, hm⟩ := (C17_broadcast_to_iff ⟨a.map fun d => ⟨d, 0⟩, 0⟩ s o).2 (by rw [hl]; exact h')
  have := ((C17_broadcast_to _ m s o hm).2 t ht).1
  rw [hl] at this
  exact this

theorem _root_.Spec.BroadcastOf.symm {o : Order} {a b s : List Nat} (h : BroadcastOf o a b s) : BroadcastOf o b a s :=
  ⟨by have := h.1; omega, fun k hk => ⟨(h.2 k hk).2.1, (h.2 k hk).1, (h.2 k hk).2.2.symm⟩⟩

/-- The elements of the left factor as a function. -/
theorem left_elems [Nonempty α] {o : Order} {a : Tensor α} (ha : a.WF) {ba bb bc rows : List Nat} {K : Nat}
    (hs : a.layout.shape = glue o ba (rows ++ [K])) (hr : rows.length ≤ 1) (hb : BroadcastOf o ba bb bc) :
    ∃ X : List Nat → Nat → Nat → α, ∀ t, InRange t bc → ∀ i < rows.headD 1, ∀ p < K,
      InRange (glue o (stretchIndex o ba t) (rows.map (fun _ => i) ++ [p])) a.layout.shape ∧
      a.data[a.layout.pos (glue o (stretchIndex o ba t) (rows.map (fun _ => i) ++ [p]))]? = some (X t i p) := by
  refine ⟨fun t i p => (a.data[a.layout.pos (glue o (stretchIndex o ba t) (rows.map (fun _ => i) ++ [p]))]?).getD
    (Classical.arbitrary α), ?_⟩
  intro t ht i hi p hp
  have hin : InRange (glue o (stretchIndex o ba t) (rows.map (fun _ => i) ++ [p])) a.layout.shape := by
    rw [hs]
    refine inRange_glue (inRange_stretch hb ht) ((inRange_append (by simp)).2 ⟨inRange_opt hr hi, by simpa using hp⟩)
  obtain ⟨x, hx, -⟩ := ha.get hin
  exact ⟨hin, by simp only [hx, Option.getD_some]⟩

theorem right_elems [Nonempty β] {o : Order} {b : Tensor β} (hb : b.WF) {ba bb bc cols : List Nat} {K : Nat}
    (hs : b.layout.shape = glue o bb (K :: cols)) (hr : cols.length ≤ 1) (hbc : BroadcastOf o ba bb bc) :
    ∃ Y : List Nat → Nat → Nat → β, ∀ t, InRange t bc → ∀ p < K, ∀ j < cols.headD 1,
      InRange (glue o (stretchIndex o bb t) (p :: cols.map fun _ => j)) b.layout.shape ∧
      b.data[b.layout.pos (glue o (stretchIndex o bb t) (p :: cols.map fun _ => j))]? = some (Y t p j) := by
  refine ⟨fun t p j => (b.data[b.layout.pos (glue o (stretchIndex o bb t) (p :: cols.map fun _ => j))]?).getD
    (Classical.arbitrary β), ?_⟩
  intro t ht p hp j hj
  have hin : InRange (glue o (stretchIndex o bb t) (p :: cols.map fun _ => j)) b.layout.shape := by
    rw [hs]
    exact inRange_glue (inRange_stretch hbc.symm ht) (by rw [inRange_cons]; exact ⟨hp, inRange_opt hr hj⟩)
  obtain ⟨x, hx, -⟩ := hb.get hin
  exact ⟨hin, by simp only [hx, Option.getD_some]⟩

/-- The product has no cells in common between elements, and empty operands have no wrapped positions. -/
def Tensor.Settled (t : Tensor γ) : Prop := 0 ∈ t.arr.shape → t.layout.Settled

theorem rev_addr {l : Layout} {idx : List Nat} (h : idx.length = l.ndim) : l.reverseAxes.addr idx = l.addr idx.reverse := by
  rw [Layout.reverseAxes, addr_mk, addr_eq, ← dot_reverse (idx := idx.reverse) (by simpa [Layout.ndim] using h), List.reverse_reverse]

theorem rev_shape (l : Layout) : l.reverseAxes.shape = l.shape.reverse := by
  simp [Layout.reverseAxes, Layout.shape, List.map_reverse]

theorem rev_pos {l : Layout} {idx : List Nat} (h : idx.length = l.ndim) : l.reverseAxes.pos idx = l.pos idx.reverse :=
  pos_of_addr (rev_addr h)

theorem rev_opt {β : Type} {l : List β} (h : l.length ≤ 1) : l.reverse = l := by
  match l, h with
  | [], _ => rfl
  | [x], _ => rfl

theorem _root_.Spec.MatShapes.rev {a b c ba bb bc rows cols : List Nat} {K : Nat} (h : MatShapes .F a b c ba bb bc rows cols K) :
    MatShapes .C b.reverse a.reverse c.reverse bb.reverse ba.reverse bc.reverse cols rows K := by
  obtain ⟨h1, h2, h3, h4, h5, h6, h7, h8⟩ := h
  refine ⟨?_, ?_, ?_, h5, h4, fun e => by simp [h7 e], fun e => by simp [h6 e], ?_⟩
  · rw [h2]; simp [glue, rev_opt h5]
  · rw [h1]; simp [glue, rev_opt h4]
  · rw [h3]; simp [glue, rev_opt h4, rev_opt h5]
  · have h8 := h8.symm
    refine ⟨by simpa using h8.1, fun k hk => ?_⟩
    have := h8.2 k (by simpa using hk)
    simpa [axisAt] using this

theorem stretch_rev {a t : List Nat} (h : a.length ≤ t.length) :
    stretchIndex .C a.reverse t = (stretchIndex .F a t.reverse).reverse := by
  have h1 := stretchIndex_eq (o := .C) (a := a.reverse) (idx := t) (by simpa using h)
  have h2 := stretchIndex_eq (o := .F) (a := a) (idx := t.reverse) (by simpa using h)
  simp only [alignL, List.reverse_reverse] at h1 h2
  rw [h2, ← h1, List.reverse_reverse]

theorem Fit.rev {s : List Nat} {l : Layout} (h : Fit s l) : Fit s.reverse l.reverseAxes := by
  have hg := (valid_iff.1 h.valid).good h.off
  refine ⟨?_, h.off, by rw [rev_shape, h.shape]⟩
  exact valid_iff.2 (keeps_reverse l l.reverseAxes hg rfl).1.accepted

theorem Layout.Settled.rev {l : Layout} (h : l.Settled) : l.reverseAxes.Settled := by
  intro idx hi
  rw [rev_addr (by have := hi.length_eq; simpa [Layout.shape, Layout.ndim, Layout.reverseAxes] using this)]
  apply h
  have := hi.reverse
  rw [rev_shape] at this
  simpa [List.map_reverse] using this

/-- From the cells to the arrays. -/
theorem matUpdateBy_of {o : Order} {P : List (α × β) → γ → γ → Prop} {a : Tensor α} {b : Tensor β} {c : Tensor γ}
    (ha : a.WF) (hb : b.WF) (hc : c.WF) {ba bb bc rows cols : List Nat} {K : Nat}
    (S : MatShapes o a.layout.shape b.layout.shape c.layout.shape ba bb bc rows cols K) {X : List Nat → Nat → Nat → α}
    {Y : List Nat → Nat → Nat → β}
    (hX : ∀ t, InRange t bc → ∀ i < rows.headD 1, ∀ p < K,
      InRange (glue o (stretchIndex o ba t) (rows.map (fun _ => i) ++ [p])) a.layout.shape ∧
      a.data[a.layout.pos (glue o (stretchIndex o ba t) (rows.map (fun _ => i) ++ [p]))]? = some (X t i p))
    (hY : ∀ t, InRange t bc → ∀ p < K, ∀ j < cols.headD 1,
      InRange (glue o (stretchIndex o bb t) (p :: cols.map fun _ => j)) b.layout.shape ∧
      b.data[b.layout.pos (glue o (stretchIndex o bb t) (p :: cols.map fun _ => j))]? = some (Y t p j))
    {cell : List Nat → Nat → Nat → γ → γ}
    (hP : ∀ t i j v, P ((List.range K).map fun k => (X t i k, Y t k j)) v (cell t i j v)) {d : List γ}
    (hd : ∀ t, InRange t bc → ∀ i < rows.headD 1, ∀ j < cols.headD 1,
      d[c.layout.pos (glue o t (rows.map (fun _ => i) ++ cols.map fun _ => j))]? =
      c.data[c.layout.pos (glue o t (rows.map (fun _ => i) ++ cols.map fun _ => j))]?.map
        (cell t i j)) :
    MatUpdateBy o P a.arr b.arr ba bb bc rows cols K c.arr (⟨d, c.layout⟩ : Tensor γ).arr := by
  refine ⟨rfl, ?_⟩
  intro t i j ht hi hj
  obtain ⟨i, hi', rfl⟩ := of_inRange_opt S.rowsLen hi
  obtain ⟨j, hj', rfl⟩ := of_inRange_opt S.colsLen hj
  have hin : InRange (glue o t (rows.map (fun _ => i) ++ cols.map fun _ => j)) c.layout.shape := by
    rw [S.out]
    exact inRange_glue ht ((inRange_append (by simp)).2 ⟨hi, hj⟩)
  obtain ⟨v, hv, hv'⟩ := hc.get hin
  refine ⟨v, _, X t i, fun p => Y t p j, hv', ?_, fun p hp => ?_, hP t i j v⟩
  · rw [elem_pos hc.fit hin, hd t ht i hi' j hj', hv]
    rfl
  · obtain ⟨x1, x2⟩ := hX t ht i hi' p hp
    obtain ⟨y1, y2⟩ := hY t ht p hp j hj'
    exact ⟨(elem_pos ha.fit x1).trans x2, (elem_pos hb.fit y1).trans y2⟩

/-- From a row-major product to tensors of either order. -/
theorem lift_matmulBy [Nonempty α] [Nonempty β] (P : List (α × β) → γ → γ → Prop) (dev : Order)
    (a : Tensor α) (b : Tensor β) (c : Tensor γ) (ha : a.WF) (hb : b.WF) (hc : c.WF)
    (ba bb bc rows cols : List Nat) (K : Nat) (S : MatShapes dev a.arr.shape b.arr.shape c.arr.shape ba bb bc rows cols K)
    (hz : 0 ∉ c.arr.shape → (0 : Int) ∉ c.layout.stride) (W : Res (Work γ))
    (hC : dev = .C → ∀ X Y, Job a.data b.data c.data a.layout b.layout c.layout ba bb bc rows cols K X Y → ∃ w d cell, W = .ok w ∧
      w.Leaves c.data d ∧ (∀ t i j v, P ((List.range K).map fun k => (X t i k, Y t k j)) v (cell t i j v)) ∧
      Filled bc rows cols c.layout cell c.data d)
    (hF : dev = .F → ∀ X Y, Job b.data a.data c.data b.layout.reverseAxes a.layout.reverseAxes c.layout.reverseAxes bb.reverse ba.reverse
      bc.reverse cols rows K X Y → ∃ w d cell, W = .ok w ∧ w.Leaves c.data d ∧
      (∀ t i j v, P ((List.range K).map fun k => (Y t k j, X t i k)) v (cell t i j v)) ∧
      Filled bc.reverse cols rows c.layout.reverseAxes cell c.data d) :
    ∃ w d, W = .ok w ∧ w.Leaves c.data d ∧
      (⟨d, c.layout⟩ : Tensor γ).WF ∧
      MatUpdateBy dev P a.arr b.arr ba bb bc rows cols K c.arr (⟨d, c.layout⟩ : Tensor γ).arr ∧
      ChangedOnly (Addressed c.layout.stride c.layout.offset c.layout.shape) c.data d := by
  have S : MatShapes dev a.layout.shape b.layout.shape c.layout.shape ba bb bc rows cols K := S
  have inj : ∀ i j, InRange i c.layout.shape → InRange j c.layout.shape → c.layout.pos i = c.layout.pos j → i = j := by
    by_cases z : 0 ∈ c.layout.shape
    · intro i j hi
      exact absurd (hi.pos 0 z) (by omega)
    · exact hc.inj (hz z)
  obtain ⟨X, hX⟩ := left_elems ha S.left S.rowsLen S.common
  obtain ⟨Y, hY⟩ := right_elems hb S.right S.colsLen S.common
  cases dev with
  | C =>
    have J : Job a.data b.data c.data a.layout b.layout c.layout ba bb bc rows cols K X Y := by
      refine ⟨S, ?_, ?_, S.rowsLen, S.colsLen, ?_, ?_, ?_⟩
      · intro t ht i hi p hp
        obtain ⟨h1, h2⟩ := hX t ht i hi p hp
        exact ⟨ha.fit.nonneg _ h1, h2⟩
      · intro t ht p hp j hj
        obtain ⟨h1, h2⟩ := hY t ht p hp j hj
        exact ⟨hb.fit.nonneg _ h1, h2⟩
      · have := S.out; simp only [glue] at this; rw [← this]; exact hc.fit
      · have := S.out; simp only [glue] at this; rw [← this]; exact hc.covers
      · have := S.out; simp only [glue] at this; rw [← this]; exact inj
    obtain ⟨w, d, cell, h1, h2, hP, h3⟩ := hC rfl _ _ J
    refine ⟨w, d, h1, h2, hc.of_data h3.len, matUpdateBy_of ha hb hc S hX hY hP ?_, changed_of hc.fit h3.len ?_⟩
    · intro t ht i hi j hj
      exact h3.cell t ht i hi j hj
    · exact h3.keep
  | F =>
    have R := S.rev
    have hlen : ∀ t : List Nat, InRange t bc.reverse → ba.length ≤ t.length ∧ bb.length ≤ t.length := by
      intro t ht
      have h1 := ht.length_eq
      have h2 := S.common.1
      rw [List.length_reverse] at h1
      omega
    have ndc : c.layout.ndim = bc.length + (rows.length + cols.length) := by
      rw [ndim_eq S.out]; simp [glue]; omega
    have hcell : ∀ t i j, t.length = bc.length → c.layout.reverseAxes.pos (cellIx cols rows t j i) =
        c.layout.pos (glue .F t.reverse (rows.map (fun _ => i) ++ cols.map fun _ => j)) := by
      intro t i j ht
      rw [rev_pos (by simp [cellIx, ndc]; omega)]
      have e1 : (rows.map fun _ => i).reverse = rows.map fun _ => i := rev_opt (by simpa using S.rowsLen)
      have e2 : (cols.map fun _ => j).reverse = cols.map fun _ => j := rev_opt (by simpa using S.colsLen)
      rw [cellIx, List.reverse_append, List.reverse_append, e1, e2]
      rfl
    have J : Job b.data a.data c.data b.layout.reverseAxes a.layout.reverseAxes c.layout.reverseAxes bb.reverse ba.reverse
        bc.reverse cols rows K (fun t j p => Y t.reverse p j) (fun t p i => X t.reverse i p) := by
      refine ⟨by rw [rev_shape, rev_shape, rev_shape]; exact R, ?_, ?_, S.colsLen, S.rowsLen, ?_, ?_, ?_⟩
      · intro t ht j hj p hp
        obtain ⟨h1, h2⟩ := hY t.reverse (by simpa using ht.reverse) p hp j hj
        have hidx : stretchIndex .C bb.reverse t ++ (cols.map (fun _ => j) ++ [p]) =
            (glue .F (stretchIndex .F bb t.reverse) (p :: cols.map fun _ => j)).reverse := by
          rw [stretch_rev (hlen t ht).2]
          have e2 : (cols.map fun _ => j).reverse = cols.map fun _ => j := rev_opt (by simpa using S.colsLen)
          simp [glue]
        have hl : (glue .F (stretchIndex .F bb t.reverse) (p :: cols.map fun _ => j)).reverse.length = b.layout.ndim := by
          have := h1.length_eq
          simpa [Layout.shape, Layout.ndim] using this
        rw [hidx, rev_pos hl, rev_addr hl, List.reverse_reverse]
        exact ⟨hb.fit.nonneg _ h1, h2⟩
      · intro t ht p hp i hi
        obtain ⟨h1, h2⟩ := hX t.reverse (by simpa using ht.reverse) i hi p hp
        have hidx : stretchIndex .C ba.reverse t ++ (p :: rows.map fun _ => i) =
            (glue .F (stretchIndex .F ba t.reverse) (rows.map (fun _ => i) ++ [p])).reverse := by
          rw [stretch_rev (hlen t ht).1]
          have e2 : (rows.map fun _ => i).reverse = rows.map fun _ => i := rev_opt (by simpa using S.rowsLen)
          simp [glue]
        have hl : (glue .F (stretchIndex .F ba t.reverse) (rows.map (fun _ => i) ++ [p])).reverse.length = a.layout.ndim := by
          have := h1.length_eq
          simpa [Layout.shape, Layout.ndim] using this
        rw [hidx, rev_pos hl, rev_addr hl, List.reverse_reverse]
        exact ⟨ha.fit.nonneg _ h1, h2⟩
      · have := R.out
        simp only [glue] at this
        rw [← this]
        exact hc.fit.rev
      · have := R.out
        simp only [glue] at this
        rw [← this]
        intro i hi
        rw [rev_pos (by have := hi.length_eq; simpa [Layout.shape, Layout.ndim] using this)]
        exact hc.covers _ (by simpa using hi.reverse)
      · have := R.out
        simp only [glue] at this
        rw [← this]
        intro i j hi hj e
        rw [rev_pos (by have := hi.length_eq; simpa [Layout.shape, Layout.ndim] using this),
          rev_pos (by have := hj.length_eq; simpa [Layout.shape, Layout.ndim] using this)] at e
        have := inj _ _ (by simpa using hi.reverse) (by simpa using hj.reverse) e
        exact List.reverse_inj.1 this
    obtain ⟨w, d, cell, h1, h2, hP, h3⟩ := hF rfl _ _ J
    refine ⟨w, d, h1, h2, hc.of_data h3.len, matUpdateBy_of ha hb hc S hX hY (cell := fun t i j => cell t.reverse j i)
      (fun t i j v => by simpa using hP t.reverse j i v) ?_, changed_of hc.fit h3.len ?_⟩
    · intro t ht i hi j hj
      have := h3.cell t.reverse ht.reverse j hj i hi
      rw [hcell _ _ _ (by simpa using ht.length_eq), List.reverse_reverse] at this
      rw [this]
    · intro k hk
      refine h3.keep k fun idx hi => ?_
      rw [rev_shape] at hi
      rw [rev_pos (by have := hi.length_eq; simpa [Layout.shape, Layout.ndim] using this)]
      exact hk _ (by simpa using hi.reverse)

theorem isMatUpdate_by [CommSemiring γ] {o : Order} {mul : α → β → γ} {A : Arr α} {B : Arr β} {ba bb bc rows cols : List Nat} {K : Nat}
    {alpha beta : γ} {C D : Arr γ}
    (h : MatUpdateBy o (fun ps v r => r = beta * v + alpha * (ps.map fun p => mul p.1 p.2).sum) A B ba bb bc rows cols K C D) :
    IsMatUpdate o mul A B ba bb bc rows cols K alpha beta C D := by
  refine ⟨h.1, fun t i j ht hi hj => ?_⟩
  obtain ⟨v, r, x, y, h1, h2, h3, rfl⟩ := h.2 t i j ht hi hj
  refine ⟨v, _, h1, ⟨x, y, h3, rfl⟩, ?_⟩
  rw [h2, List.map_map]
  rfl

/-- The same over a commutative semiring. -/
theorem lift_matmul [CommSemiring γ] [Nonempty α] [Nonempty β] (mul : α → β → γ) (mul' : β → α → γ)
    (hmul : ∀ x y, mul' y x = mul x y) (dev : Order)
    (a : Tensor α) (b : Tensor β) (c : Tensor γ) (ha : a.WF) (hb : b.WF) (hc : c.WF)
    (ba bb bc rows cols : List Nat) (K : Nat) (S : MatShapes dev a.arr.shape b.arr.shape c.arr.shape ba bb bc rows cols K)
    (hz : 0 ∉ c.arr.shape → (0 : Int) ∉ c.layout.stride) (alpha beta : γ) (W : Res (Work γ))
    (hC : dev = .C → ∀ X Y, Job a.data b.data c.data a.layout b.layout c.layout ba bb bc rows cols K X Y → ∃ w d, W = .ok w ∧
      w.Leaves c.data d ∧ Filled bc rows cols c.layout (fun t i j => entry mul K (X t i) (fun p => Y t p j) alpha beta) c.data d)
    (hF : dev = .F → ∀ X Y, Job b.data a.data c.data b.layout.reverseAxes a.layout.reverseAxes c.layout.reverseAxes bb.reverse ba.reverse
      bc.reverse cols rows K X Y → ∃ w d, W = .ok w ∧ w.Leaves c.data d ∧
      Filled bc.reverse cols rows c.layout.reverseAxes (fun t i j => entry mul' K (X t i) (fun p => Y t p j) alpha beta) c.data d) :
    ∃ w d, W = .ok w ∧ w.Leaves c.data d ∧
      (⟨d, c.layout⟩ : Tensor γ).WF ∧
      IsMatUpdate dev mul a.arr b.arr ba bb bc rows cols K alpha beta c.arr (⟨d, c.layout⟩ : Tensor γ).arr ∧
      ChangedOnly (Addressed c.layout.stride c.layout.offset c.layout.shape) c.data d := by
  obtain ⟨w, d, h1, h2, h3, h4, h5⟩ := lift_matmulBy (fun ps v r => r = beta * v + alpha * (ps.map fun p => mul p.1 p.2).sum) dev a b c
    ha hb hc ba bb bc rows cols K S hz W
    (fun e X Y J => by
      obtain ⟨w, d, h1, h2, h3⟩ := hC e X Y J
      refine ⟨w, d, _, h1, h2, fun t i j v => ?_, h3⟩
      rw [List.map_map]
      rfl)
    (fun e X Y J => by
      obtain ⟨w, d, h1, h2, h3⟩ := hF e X Y J
      refine ⟨w, d, _, h1, h2, fun t i j v => ?_, h3⟩
      rw [List.map_map]
      unfold entry
      simp only [hmul]
      rfl)
  exact ⟨w, d, h1, h2, h3, isMatUpdate_by h4, h5⟩

/-- `matmul_from`: `C := beta * C + alpha * A B`, for operands and results of every layout, serially and under
every schedule of the threads, and no other cell of the storage of `C` changes. Missing: batched operands of
different ranks (`C41_false_batch_ranks`), a scalar result away from the start of its storage on the serial device
(`C42_false_inner_offset`), results with shared cells. -/
theorem C42_matmul_from_partial [CommSemiring γ] [Nonempty α] [Nonempty β] (mul : α → β → γ) (mul' : β → α → γ)
    (hmul : ∀ x y, mul' y x = mul x y) (dev : Order) (par : Option MatPar) (hp : MatDevice par)
    (a : Tensor α) (b : Tensor β) (c : Tensor γ) (ha : a.WF) (hb : b.WF) (hc : c.WF)
    (ba bb bc rows cols : List Nat) (K : Nat) (S : MatShapes dev a.arr.shape b.arr.shape c.arr.shape ba bb bc rows cols K)
    (hr : ba ≠ [] → bb ≠ [] → ba.length = bb.length)
    (h0 : par = none → rows = [] → cols = [] → c.layout.offset = 0)
    (hz : 0 ∉ c.arr.shape → (0 : Int) ∉ c.layout.stride) (sa : a.Settled) (sb : b.Settled) (sc : c.Settled) (alpha beta : γ) :
    ∃ w d, c.matmulFrom (ringOps mul) mul' dev par a b alpha beta = .ok w ∧ w.Leaves c.data d ∧
      (⟨d, c.layout⟩ : Tensor γ).WF ∧
      IsMatUpdate dev mul a.arr b.arr ba bb bc rows cols K alpha beta c.arr (⟨d, c.layout⟩ : Tensor γ).arr ∧
      ChangedOnly (Addressed c.layout.stride c.layout.offset c.layout.shape) c.data d := by
  have sa := ha.fit.settled sa
  have sb := hb.fit.settled sb
  have sc := hc.fit.settled sc
  refine lift_matmul mul mul' hmul dev a b c ha hb hc ba bb bc rows cols K S hz alpha beta _ ?_ ?_
  · rintro rfl X Y J
    exact rowMajor mul par hp J sa sb sc hr h0 alpha beta
  · rintro rfl X Y J
    exact rowMajor mul' par hp J sb.rev sa.rev sc.rev
      (fun e1 e2 => by simpa using (hr (by simpa using e2) (by simpa using e1)).symm)
      (fun e1 e2 e3 => h0 e1 e3 e2) alpha beta

/-! ## C41: the shapes of a product -/

theorem glue_len (o : Order) (a b : List Nat) : (glue o a b).length = a.length + b.length := by
  cases o <;> simp [glue] <;> omega

/-- Any operand is a vector or a batch of matrices. -/
theorem exists_left {l : Layout} (h : l.ndim ≠ 0) : ∃ ba rows K, l.shape = ba ++ (rows ++ [K]) ∧ rows.length ≤ 1 ∧
    (rows = [] → ba = []) := by
  have hl : l.shape.length = l.ndim := by simp [Layout.shape, Layout.ndim]
  generalize l.shape = s at hl
  obtain rfl | ⟨s', K, rfl⟩ := s.eq_nil_or_concat'
  · simp at hl; omega
  · obtain rfl | ⟨s'', M, rfl⟩ := s'.eq_nil_or_concat'
    · exact ⟨[], [], K, by simp, by simp, by simp⟩
    · exact ⟨s'', [M], K, by simp, by simp, by simp⟩

theorem exists_right {l : Layout} (h : l.ndim ≠ 0) : ∃ bb cols K, l.shape = bb ++ (K :: cols) ∧ cols.length ≤ 1 ∧
    (cols = [] → bb = []) := by
  obtain ⟨ba, rows, K, h1, h2, h3⟩ := exists_left h
  match rows, h2 with
  | [], _ => exact ⟨ba, [], K, by simpa using h1, by simp, h3⟩
  | [M], _ => exact ⟨ba, [K], M, by simpa using h1, by simp, by simp⟩

theorem dimAt_eq (l : Layout) (k d : Nat) (h : l.shape[k]? = some d) : l.dimAt k = d := by
  rw [Layout.dimAt, List.getD_eq_getElem?_getD, h]; rfl

theorem split_rest {l : Layout} {bl core : List Nat} (h : l.shape = bl ++ core) :
    (⟨l.axes.take bl.length, l.offset⟩ : Layout).shape = bl ∧ (⟨l.axes.drop bl.length, l.offset⟩ : Layout).shape = core :=
  ⟨(splitAs_of h).dx, (splitAs_of h).dy⟩

/-- The planner, once the operands are taken apart. -/
theorem rowMajor_eq {la lb : Layout} {ba bb rows cols : List Nat} {K L : Nat} (ha : la.shape = ba ++ (rows ++ [K]))
    (hb : lb.shape = bb ++ (L :: cols)) (lr : rows.length ≤ 1) (lc : cols.length ≤ 1) (vr : rows = [] → ba = [])
    (vc : cols = [] → bb = []) :
    (la.matmulRowMajor lb).map (fun cfg => cfg.lc) = if K ≠ L then .error .invalidLayout else
      (bshape .C ba bb).map fun bc => Layout.newCContig (bc ++ (rows ++ cols)) 0 := by
  have da := ndim_eq ha
  have db := ndim_eq hb
  match rows, cols, lr, lc with
  | [], [], _, _ =>
    obtain rfl := vr rfl
    obtain rfl := vc rfl
    simp only [List.nil_append, List.length_cons, List.length_nil, Nat.zero_add] at da db ha hb
    unfold Layout.matmulRowMajor
    simp only [da, db, ha, hb]
    by_cases e : K = L
    · subst e; simp [C16_idem]; rfl
    · simp [e]; rfl
  | [], [N], _, _ =>
    obtain rfl := vr rfl
    have da : la.ndim = 1 := by simpa using da
    have db : lb.ndim = bb.length + 2 := by simpa using db
    have e1 : la.dimAt 0 = K := dimAt_eq _ _ _ (by simp [ha])
    obtain ⟨s1, s2⟩ := split_rest hb
    have q2 := dimAt_eq _ 0 L (congrArg (·[0]?) s2)
    have q3 := dimAt_eq _ 1 N (congrArg (·[1]?) s2)
    unfold Layout.matmulRowMajor
    simp only [da, db]
    rw [dimSplitAt_of hb (by simp) (by simp), ok_bind]
    dsimp only
    rw [q2, q3, s1, e1, (C16_unit .C bb).1,
      dimSplitAt_of (bl := bb) (core := [N]) (shape_newCContig _ _) (by simp) (by simp)]
    split <;> rfl
  | [M], [], _, _ =>
    obtain rfl := vc rfl
    have da : la.ndim = ba.length + 2 := by simpa using da
    have db : lb.ndim = 1 := by simpa using db
    have e1 : lb.dimAt 0 = L := dimAt_eq _ _ _ (by simp [hb])
    obtain ⟨s1, s2⟩ := split_rest ha
    have q0 := dimAt_eq _ 0 M (congrArg (·[0]?) s2)
    have q1 := dimAt_eq _ 1 K (congrArg (·[1]?) s2)
    unfold Layout.matmulRowMajor
    simp only [da, db]
    rw [dimSplitAt_of ha (by simp) (by simp), ok_bind]
    dsimp only
    rw [q0, q1, s1, e1, (C16_unit .C ba).2,
      dimSplitAt_of (bl := ba) (core := [M]) (shape_newCContig _ _) (by simp) (by simp)]
    simp only [ne_comm (a := L)]
    split <;> rfl
  | [M], [N], _, _ =>
    obtain ⟨s1, s2⟩ := split_rest ha
    have q0 := dimAt_eq _ 0 M (congrArg (·[0]?) s2)
    have q1 := dimAt_eq _ 1 K (congrArg (·[1]?) s2)
    obtain ⟨s3, s4⟩ := split_rest hb
    have q2 := dimAt_eq _ 0 L (congrArg (·[0]?) s4)
    have q3 := dimAt_eq _ 1 N (congrArg (·[1]?) s4)
    match ba, bb with
    | [], [] =>
      have da : la.ndim = 2 := by simpa using da
      have db : lb.ndim = 2 := by simpa using db
      unfold Layout.matmulRowMajor
      simp only [da, db]
      rw [dimAt_eq la 0 M (by rw [ha]; rfl), dimAt_eq la 1 K (by rw [ha]; rfl), dimAt_eq lb 0 L (by rw [hb]; rfl),
        dimAt_eq lb 1 N (by rw [hb]; rfl), C16_idem]
      split <;> rfl
    | [], b0 :: bb' =>
      have da : la.ndim = 2 := by simpa using da
      have db : lb.ndim = bb'.length + 3 := by simpa using db
      unfold Layout.matmulRowMajor
      simp only [da, db]
      rw [dimSplitAt_of hb (by simp) (by simp), ok_bind]
      dsimp only
      rw [dimAt_eq la 0 M (by rw [ha]; rfl), dimAt_eq la 1 K (by rw [ha]; rfl), q2,
        q3, s3, (C16_unit .C _).1,
        dimSplitAt_of (bl := b0 :: bb') (core := [M, N]) (shape_newCContig _ _) (by simp) (by simp)]
      split <;> rfl
    | a0 :: ba', [] =>
      have da : la.ndim = ba'.length + 3 := by simpa using da
      have db : lb.ndim = 2 := by simpa using db
      unfold Layout.matmulRowMajor
      simp only [da, db]
      rw [dimSplitAt_of ha (by simp) (by simp), ok_bind]
      dsimp only
      rw [q0, q1, dimAt_eq lb 0 L (by rw [hb]; rfl),
        dimAt_eq lb 1 N (by rw [hb]; rfl), s1, (C16_unit .C _).2,
        dimSplitAt_of (bl := a0 :: ba') (core := [M, N]) (shape_newCContig _ _) (by simp) (by simp)]
      split <;> rfl
    | a0 :: ba', b0 :: bb' =>
      have da : la.ndim = ba'.length + 3 := by simpa using da
      have db : lb.ndim = bb'.length + 3 := by simpa using db
      unfold Layout.matmulRowMajor
      simp only [da, db]
      rw [dimSplitAt_of ha (by simp) (by simp), ok_bind]
      dsimp only
      rw [dimSplitAt_of hb (by simp) (by simp), ok_bind]
      dsimp only
      rw [q0, q1, q2,
        q3]
      by_cases e : K ≠ L
      · rw [if_pos e, if_pos e]; rfl
      · rw [if_neg e, if_neg e]
        by_cases hc : Compatible .C (a0 :: ba') (b0 :: bb')
        · obtain ⟨⟨m, r⟩, hr⟩ := (C17_accept_iff ⟨la.axes.take (a0 :: ba').length, la.offset⟩
            ⟨lb.axes.take (b0 :: bb').length, lb.offset⟩ .C).2 (by rw [s1, s3]; exact hc)
          obtain ⟨h1, -, -⟩ := C17_broadcast_layout _ _ _ _ _ hr
          rw [s1, s3] at h1
          rw [hr, ok_bind, (C16_shape_iff _ _ _ _).2 h1]
          dsimp only
          rw [dimSplitAt_of (bl := m.shape) (core := [M, N]) (shape_newCContig _ _) (by simp) (by simp)]
          rfl
        · rw [C17_reject _ _ _ (by rw [s1, s3]; exact hc), C16_reject _ _ _ hc]
          rfl

theorem _root_.Spec.MatShapes.unrev {a b c ba bb bc rows cols : List Nat} {K : Nat}
    (h : MatShapes .C b.reverse a.reverse c ba bb bc rows cols K) :
    MatShapes .F a b c.reverse bb.reverse ba.reverse bc.reverse cols rows K := by
  obtain ⟨h1, h2, h3, h4, h5, h6, h7, h8⟩ := h
  refine ⟨?_, ?_, ?_, h5, h4, fun e => by simp [h7 e], fun e => by simp [h6 e], ?_⟩
  · rw [← List.reverse_reverse (as := a), h2]; simp [glue, rev_opt h5]
  · rw [← List.reverse_reverse (as := b), h1]; simp [glue, rev_opt h4]
  · rw [h3]; simp [glue, rev_opt h4, rev_opt h5]
  · have h8 := h8.symm
    refine ⟨by simpa using h8.1, fun k hk => ?_⟩
    have := h8.2 k (by simpa using hk)
    simpa [axisAt] using this

theorem left_unique {ba ba' rows rows' : List Nat} {K K' : Nat} (h : ba ++ (rows ++ [K]) = ba' ++ (rows' ++ [K']))
    (lr : rows.length ≤ 1) (lr' : rows'.length ≤ 1) (vr : rows = [] → ba = []) (vr' : rows' = [] → ba' = []) :
    ba = ba' ∧ rows = rows' ∧ K = K' := by
  simp only [← List.append_assoc] at h
  obtain ⟨h1, h3⟩ := List.append_inj' h rfl
  match rows, rows', lr, lr' with
  | [], [], _, _ => simp_all
  | [], [M], _, _ => rw [vr rfl] at h1; simp at h1
  | [M], [], _, _ => rw [vr' rfl] at h1; simp at h1
  | [M], [M'], _, _ => simp_all

theorem right_unique {ba ba' cols cols' : List Nat} {K K' : Nat} (h : ba ++ (K :: cols) = ba' ++ (K' :: cols'))
    (lr : cols.length ≤ 1) (lr' : cols'.length ≤ 1) (vr : cols = [] → ba = []) (vr' : cols' = [] → ba' = []) :
    ba = ba' ∧ cols = cols' ∧ K = K' := by
  match cols, cols', lr, lr' with
  | [], [], _, _ => obtain ⟨h1, h3⟩ := List.append_inj' h rfl; simp_all
  | [], [M], _, _ => rw [vr rfl] at h; have := congrArg List.length h; simp at this
  | [M], [], _, _ => rw [vr' rfl] at h; have := congrArg List.length h; simp at this
  | [M], [M'], _, _ => obtain ⟨h1, h3⟩ := List.append_inj' h rfl; simp_all

theorem rowMajor_iff (la lb lc : Layout) : (∃ cfg, la.matmulRowMajor lb = .ok cfg ∧ cfg.lc = lc) ↔
    ∃ s ba bb bc rows cols K, MatShapes .C la.shape lb.shape s ba bb bc rows cols K ∧ lc = Layout.newCContig s 0 := by
  have hz : la.ndim = 0 ∨ lb.ndim = 0 → ¬ ∃ s ba bb bc rows cols K, MatShapes .C la.shape lb.shape s ba bb bc rows cols K ∧
      lc = Layout.newCContig s 0 := by
    rintro h ⟨s, ba, bb, bc, rows, cols, K, ⟨h1, h2, -⟩, -⟩
    have := ndim_eq h1
    have := ndim_eq h2
    simp only [glue_len, List.length_append, List.length_cons] at *
    omega
  by_cases ea : la.ndim = 0
  · refine iff_of_false ?_ (hz (.inl ea))
    rintro ⟨cfg, h, -⟩
    unfold Layout.matmulRowMajor at h
    simp only [ea] at h
    cases h
  by_cases eb : lb.ndim = 0
  · refine iff_of_false ?_ (hz (.inr eb))
    rintro ⟨cfg, h, -⟩
    unfold Layout.matmulRowMajor at h
    simp only [eb] at h
    cases h
  obtain ⟨ba, rows, K, ha, lr, vr⟩ := exists_left ea
  obtain ⟨bb, cols, L, hb, ll, vc⟩ := exists_right eb
  have key := rowMajor_eq ha hb lr ll vr vc
  have h1 : (∃ cfg, la.matmulRowMajor lb = .ok cfg ∧ cfg.lc = lc) ↔ (la.matmulRowMajor lb).map (fun cfg => cfg.lc) = .ok lc := by
    cases la.matmulRowMajor lb <;> simp [Except.map]
  rw [h1, key]
  constructor
  · intro h
    split_ifs at h with e
    simp only [ne_eq, not_not] at e
    subst e
    cases hbc : bshape .C ba bb with
    | error e => rw [hbc] at h; cases h
    | ok bc =>
      rw [hbc] at h
      cases h
      exact ⟨_, ba, bb, bc, rows, cols, K, ⟨ha, hb, rfl, lr, ll, vr, vc, (C16_shape_iff _ _ _ _).1 hbc⟩, rfl⟩
  · rintro ⟨s, ba', bb', bc, rows', cols', K', ⟨g1, g2, rfl, l1, l2, v1, v2, hbc⟩, rfl⟩
    have e1 : ba = ba' ∧ rows = rows' ∧ K = K' := left_unique (ha.symm.trans g1) lr l1 vr v1
    have e2 : bb = bb' ∧ cols = cols' ∧ L = K' := right_unique (hb.symm.trans g2) ll l2 vc v2
    obtain ⟨rfl, rfl, rfl⟩ := e1
    obtain ⟨rfl, rfl, rfl⟩ := e2
    rw [if_neg (by simp), (C16_shape_iff _ _ _ _).2 hbc]
    rfl

theorem rev_contig (s : List Nat) : (Layout.newCContig s 0).reverseAxes = Layout.newFContig s.reverse 0 := by
  show (⟨_, _⟩ : Layout) = ⟨_, _⟩
  rw [newCContig_axes, List.reverse_reverse]
  rfl

theorem rev_rev (l : Layout) : l.reverseAxes.reverseAxes = l := by
  simp [Layout.reverseAxes]

/-- Two operands can be multiplied exactly if their shapes fit, and the product is a contiguous array of the shape
of the rules, in the order of the device. -/
theorem C41_accept_iff (la lb lc : Layout) (o : Order) : (∃ cfg, la.matmulCfg lb o = .ok cfg ∧ cfg.lc = lc) ↔
    ∃ s ba bb bc rows cols K, MatShapes o la.shape lb.shape s ba bb bc rows cols K ∧ lc = freshLayout o s := by
  cases o with
  | C => exact rowMajor_iff la lb lc
  | F =>
    have h := rowMajor_iff lb.reverseAxes la.reverseAxes lc.reverseAxes
    rw [rev_shape, rev_shape] at h
    constructor
    · rintro ⟨cfg, h1, rfl⟩
      simp only [Layout.matmulCfg, Layout.matmulColMajor] at h1
      split_ifs at h1 with hz
      obtain ⟨c0, h2, h3⟩ := bind_ok.1 h1
      cases h3
      obtain ⟨s, ba, bb, bc, rows, cols, K, h4, h5⟩ := h.1 ⟨c0, h2, (rev_rev _).symm⟩
      refine ⟨_, _, _, _, _, _, _, h4.unrev, ?_⟩
      rw [rev_rev] at h5
      show c0.lc.reverseAxes = _
      rw [h5, rev_contig]
      rfl
    · rintro ⟨s, ba, bb, bc, rows, cols, K, h1, rfl⟩
      obtain ⟨c0, h2, h3⟩ := h.2 ⟨_, _, _, _, _, _, _, h1.rev, by
        show (Layout.newFContig s 0).reverseAxes = Layout.newCContig s.reverse 0
        rw [← rev_rev (Layout.newCContig s.reverse 0), rev_contig, List.reverse_reverse]⟩
      have hz : ¬ (la.ndim = 0 ∨ lb.ndim = 0) := by
        have := ndim_eq h1.left
        have := ndim_eq h1.right
        simp only [glue_len, List.length_append, List.length_cons] at *
        omega
      refine ⟨⟨c0.type, c0.lc.reverseAxes, c0.lbRest.map Layout.reverseAxes, c0.laRest.map Layout.reverseAxes,
        c0.lcRest.map Layout.reverseAxes, c0.lbM.reverseAxes, c0.laM.reverseAxes, c0.lcM.reverseAxes⟩, ?_, ?_⟩
      · simp only [Layout.matmulCfg, Layout.matmulColMajor]
        rw [if_neg hz, h2, ok_bind]
        rfl
      · show c0.lc.reverseAxes = _
        rw [h3, rev_rev]

/-- The shape of a product, and how its operands are taken apart, is determined by their shapes. -/
theorem C41_shape_unique {o : Order} {a b c c' ba bb bc rows cols ba' bb' bc' rows' cols' : List Nat} {K K' : Nat}
    (h : MatShapes o a b c ba bb bc rows cols K) (h' : MatShapes o a b c' ba' bb' bc' rows' cols' K') :
    c = c' ∧ ba = ba' ∧ bb = bb' ∧ bc = bc' ∧ rows = rows' ∧ cols = cols' ∧ K = K' := by
  have key : ∀ {a b c c' ba bb bc rows cols ba' bb' bc' rows' cols' : List Nat} {K K' : Nat},
      MatShapes .C a b c ba bb bc rows cols K → MatShapes .C a b c' ba' bb' bc' rows' cols' K' →
      c = c' ∧ ba = ba' ∧ bb = bb' ∧ bc = bc' ∧ rows = rows' ∧ cols = cols' ∧ K = K' := by
    intro a b c c' ba bb bc rows cols ba' bb' bc' rows' cols' K K' h h'
    obtain ⟨rfl, rfl, rfl⟩ := left_unique (h.left.symm.trans h'.left) h.rowsLen h'.rowsLen h.rowVec h'.rowVec
    obtain ⟨rfl, rfl, -⟩ := right_unique (h.right.symm.trans h'.right) h.colsLen h'.colsLen h.colVec h'.colVec
    obtain rfl := broadcastOf_unique h.common h'.common
    exact ⟨h.out.trans h'.out.symm, rfl, rfl, rfl, rfl, rfl, rfl⟩
  cases o with
  | C => exact key h h'
  | F =>
    obtain ⟨h1, h2, h3, h4, h5, h6, h7⟩ := key h.rev h'.rev
    exact ⟨List.reverse_inj.1 h1, List.reverse_inj.1 h3, List.reverse_inj.1 h2, List.reverse_inj.1 h4, h6, h5, h7⟩

theorem rowMajor_error {la lb : Layout} {e : Err} (h : la.matmulRowMajor lb = .error e) :
    e = .invalidValue ∨ e = .invalidLayout := by
  by_cases ea : la.ndim = 0
  · unfold Layout.matmulRowMajor at h
    simp only [ea] at h
    cases h; exact .inl rfl
  by_cases eb : lb.ndim = 0
  · unfold Layout.matmulRowMajor at h
    simp only [eb] at h
    cases h; exact .inl rfl
  obtain ⟨ba, rows, K, ha, lr, vr⟩ := exists_left ea
  obtain ⟨bb, cols, L, hb, ll, vc⟩ := exists_right eb
  have key := rowMajor_eq ha hb lr ll vr vc
  rw [h] at key
  simp only [Except.map] at key
  split_ifs at key with hk
  · cases key; exact .inr rfl
  · cases hbc : bshape .C ba bb with
    | ok bc => rw [hbc] at key; cases key
    | error e' => rw [hbc, bshape_error hbc] at key; cases key; exact .inr rfl

/-- Operands that do not fit are refused with an error value: the planner never panics. -/
theorem C41_reject (la lb : Layout) (o : Order) (h : ¬ ∃ s ba bb bc rows cols K, MatShapes o la.shape lb.shape s ba bb bc rows cols K) :
    la.matmulCfg lb o = .error .invalidValue ∨ la.matmulCfg lb o = .error .invalidLayout := by
  cases hc : la.matmulCfg lb o with
  | ok cfg =>
    obtain ⟨s, ba, bb, bc, rows, cols, K, h1, -⟩ := (C41_accept_iff la lb cfg.lc o).1 ⟨cfg, hc, rfl⟩
    exact absurd ⟨s, ba, bb, bc, rows, cols, K, h1⟩ h
  | error e =>
    have he : e = .invalidValue ∨ e = .invalidLayout := by
      cases o with
      | C => exact rowMajor_error hc
      | F =>
        simp only [Layout.matmulCfg, Layout.matmulColMajor] at hc
        split_ifs at hc with hz
        · cases hc; exact .inl rfl
        · cases hr : lb.reverseAxes.matmulRowMajor la.reverseAxes with
          | ok c => rw [hr] at hc; cases hc
          | error e' => rw [hr] at hc; cases hc; exact rowMajor_error hr
    rcases he with rfl | rfl
    · exact .inl rfl
    · exact .inr rfl

/-- Static ranks: two vectors. -/
theorem C41_static_vectors (la lb : Layout) (ha : la.ndim = 1) (hb : lb.ndim = 1) (o : Order) :
    (la.matmulFixed11 lb o).map (fun c => c.lc) = (la.matmulCfg lb o).map fun c => c.lc := by
  have key : ∀ {la lb : Layout}, la.ndim = 1 → lb.ndim = 1 → (la.matmulFixed11 lb .C).map (fun c => c.lc) =
      (la.matmulRowMajor lb).map fun c => c.lc := by
    intro la lb ha hb
    unfold Layout.matmulRowMajor Layout.matmulFixed11
    simp only [ha, hb]
  cases o with
  | C => exact key ha hb
  | F =>
    have h := key (la := lb.reverseAxes) (lb := la.reverseAxes) (by simpa [Layout.reverseAxes, Layout.ndim] using hb)
      (by simpa [Layout.reverseAxes, Layout.ndim] using ha)
    have e : la.matmulFixed11 lb .F = if la.shape ≠ lb.shape then .error .invalidLayout
      else .ok ⟨.innerDot, ⟨[], 0⟩, none, none, none, la, lb, ⟨[], 0⟩⟩ := rfl
    simp only [Layout.matmulCfg, Layout.matmulColMajor]
    rw [if_neg (by omega), e]
    have hs : ∀ {l : Layout}, l.ndim = 1 → l.reverseAxes = l := by
      intro l hl
      simp only [Layout.reverseAxes]
      rw [rev_opt (by show l.ndim ≤ 1; omega)]
    rw [hs ha, hs hb] at h ⊢
    unfold Layout.matmulFixed11 at h
    by_cases hn : la.shape = lb.shape
    · rw [if_neg (by simpa using hn)]
      rw [if_neg (by simpa using hn.symm)] at h
      cases hr : lb.matmulRowMajor la with
      | ok c => rw [hr] at h; simp only [Except.map, Except.ok.injEq] at h; show Except.ok _ = Except.ok c.lc.reverseAxes; rw [← h]; rfl
      | error c => rw [hr] at h; simp [Except.map] at h
    · rw [if_pos hn]
      rw [if_pos fun e => hn e.symm] at h
      cases hr : lb.matmulRowMajor la with
      | ok c => rw [hr] at h; simp [Except.map] at h
      | error c => rw [hr] at h; simp only [Except.map, Except.error.injEq] at h; rw [← h]; rfl

/-- Static ranks: two matrices. -/
theorem C41_static_matrices (la lb : Layout) (ha : la.ndim = 2) (hb : lb.ndim = 2) (o : Order) (s : List Nat) :
    (∃ cfg, la.matmulFixed22 lb o = .ok cfg ∧ cfg.lc.shape = s) ↔
      ∃ M K N, la.shape = [M, K] ∧ lb.shape = [K, N] ∧ s = [M, N] := by
  have two : ∀ {l : Layout}, l.ndim = 2 → ∃ x y, l.shape = [x, y] := by
    intro l hl
    have : l.shape.length = 2 := by simpa [Layout.shape, Layout.ndim] using hl
    generalize l.shape = s at this
    obtain ⟨x, y, rfl⟩ := List.length_eq_two.1 this
    exact ⟨x, y, rfl⟩
  obtain ⟨M, K, h1⟩ := two ha
  obtain ⟨L, N, h2⟩ := two hb
  simp only [Layout.matmulFixed22, Layout.dimAt, h1, h2, List.getD_cons_zero, List.getD_cons_succ]
  by_cases e : K = L
  · subst e
    rw [if_neg (by simp)]
    have fwd : s = [M, N] ↔ ∃ M_1 K_1 N_1, [M, K] = [M_1, K_1] ∧ [K, N] = [K_1, N_1] ∧ s = [M_1, N_1] := by
      constructor
      · rintro rfl; exact ⟨M, K, N, rfl, rfl, rfl⟩
      · rintro ⟨M', K', N', h1, h2, rfl⟩
        simp only [List.cons.injEq, and_true] at h1 h2
        rw [h1.1, h2.2]
    rw [← fwd]
    have : ∀ c : MatMulCfg, c.lc.shape = [M, N] → ((∃ cfg, Except.ok c = (Except.ok cfg : Res MatMulCfg) ∧ cfg.lc.shape = s) ↔ s = [M, N]) := by
      intro c hc
      constructor
      · rintro ⟨_, h, rfl⟩; cases h; exact hc
      · rintro rfl; exact ⟨c, rfl, hc⟩
    cases o
    · exact this _ (by simp [Layout.newCContigFixed, Layout.shape, mkAxes, strideCContigFixed, fStrides])
    · exact this _ (by simp [Layout.newFContigFixed, Layout.shape, mkAxes, strideFContigFixed, fStrides])
  · rw [if_pos e]
    constructor
    · rintro ⟨_, h, -⟩; cases h
    · rintro ⟨M', K', N', h1, h2, -⟩
      simp only [List.cons.injEq, and_true] at h1 h2
      exact absurd (h1.2.trans h2.1.symm) e

/-- Which matrices are multiplied, for a product into `c`: for every batch of the result, the plan takes the (stretched)
batch of each operand. Missing: batched operands of different ranks (`C41_false_batch_ranks`), and the check that `c`
has the shape of the product (`C41_false_truncated`). -/
theorem C41_pairing_partial (la lb lc : Layout) (ba bb bc rows cols : List Nat) (K : Nat)
    (h : MatShapes .C la.shape lb.shape lc.shape ba bb bc rows cols K) (sa : la.Settled) (sb : lb.Settled) (sc : lc.Settled)
    (hr : ba ≠ [] → bb ≠ [] → ba.length = bb.length) (h1 : rows ≠ [] ∨ cols ≠ [])
    (h2 : rows ≠ [] → cols ≠ [] → ba ≠ [] ∨ bb ≠ []) :
    ∃ cfg ra rb rc, la.matmulWithLc lb lc = .ok cfg ∧ cfg.laRest = some ra ∧ cfg.lbRest = some rb ∧ cfg.lcRest = some rc ∧
      ra.shape = bc ∧ rb.shape = bc ∧ rc.shape = bc ∧
      ∀ t, InRange t bc → ∀ i < rows.headD 1, ∀ j < cols.headD 1,
        (cfg.lcM.setOffset (rc.pos t)).addr [i, j] = lc.addr (t ++ (rows.map (fun _ => i) ++ cols.map fun _ => j)) ∧
        ∀ p < K, (cfg.laM.setOffset (ra.pos t)).addr [i, p] = la.addr (stretchIndex .C ba t ++ (rows.map (fun _ => i) ++ [p])) ∧
          (cfg.lbM.setOffset (rb.pos t)).addr [p, j] = lb.addr (stretchIndex .C bb t ++ (p :: cols.map fun _ => j)) := by
  obtain ⟨cfg, ra, rb, rc, P⟩ := plan_ok sa sb sc h hr (by rintro ⟨e1, e2⟩; rcases h1 with h1 | h1 <;> contradiction)
    (by rintro ⟨e1, e2, e3, e4⟩; rcases h2 e1 e2 with h2 | h2 <;> contradiction)
  refine ⟨cfg, ra, rb, rc, P.plan, P.ea, P.eb, P.ec, P.pa.rshape, P.pb.rshape, P.pc.rshape, fun t ht i hi j hj => ⟨?_, fun p hp => ⟨?_, ?_⟩⟩⟩
  · rw [P.pc.addr t ht i hi j hj, stretchIndex_self ht]
  · exact P.pa.addr t ht i hi p hp
  · exact P.pb.addr t ht p hp j hj

theorem freshLayout_settled (o : Order) (s : List Nat) : (freshLayout o s).Settled := by
  intro idx hi
  have hl : idx.length = s.length := by
    have := hi.length_eq
    cases o <;> simpa [freshLayout, shape_newCContig, shape_newFContig] using this
  cases o
  · show 0 ≤ (Layout.newCContig s 0).addr idx
    rw [addr_newCContig hl]; omega
  · show 0 ≤ (Layout.newFContig s 0).addr idx
    rw [addr_newFContig hl]; omega

theorem freshLayout_shape (o : Order) (s : List Nat) : (freshLayout o s).shape = s := by
  cases o
  · exact shape_newCContig _ _
  · exact shape_newFContig _ _

theorem freshLayout_tight (o : Order) (s : List Nat) : Tight (freshLayout o s) (freshLayout o s).size := by
  cases o
  · exact tight_newC _
  · exact tight_newF _

theorem freshLayout_nonzero (o : Order) (s : List Nat) (hz : 0 ∉ s) : (0 : Int) ∉ (freshLayout o s).stride := by
  intro h
  obtain ⟨x, hx, he⟩ := List.mem_map.1 h
  cases o
  · exact newCContig_nonzero s hz x hx he
  · exact newFContig_nonzero s hz x hx he

/-- `matmul` (and `%`): a new tensor with the product, whatever the fresh storage held. Missing: batched operands of
different ranks (`C41_false_batch_ranks`), element types where zero times a value is not zero (`C42_false_fresh`). -/
theorem C42_matmul_partial [CommSemiring γ] [Nonempty α] [Nonempty β] (mul : α → β → γ) (mul' : β → α → γ)
    (hmul : ∀ x y, mul' y x = mul x y) (dev : Order) (par : Option MatPar) (hp : MatDevice par) (fresh : Nat → γ)
    (a : Tensor α) (b : Tensor β) (ha : a.WF) (hb : b.WF)
    (s ba bb bc rows cols : List Nat) (K : Nat) (S : MatShapes dev a.arr.shape b.arr.shape s ba bb bc rows cols K)
    (hr : ba ≠ [] → bb ≠ [] → ba.length = bb.length) (sa : a.Settled) (sb : b.Settled) (alpha : γ) :
    ∃ c w d, a.matmul (ringOps mul) mul' dev par fresh b alpha = .ok (c, w) ∧ w.Leaves c.data d ∧
      (⟨d, c.layout⟩ : Tensor γ).WF ∧ c.layout = freshLayout dev s ∧ (⟨d, c.layout⟩ : Tensor γ).arr.shape = s ∧
      ∀ t i j, InRange t bc → InRange i rows → InRange j cols → ∃ e, IsMatEntry dev mul a.arr b.arr ba bb K t i j e ∧
        (⟨d, c.layout⟩ : Tensor γ).arr.elem (glue dev t (i ++ j)) = some (alpha * e) := by
  obtain ⟨cfg, e1, e2⟩ := (C41_accept_iff a.layout b.layout (freshLayout dev s) dev).2 ⟨s, ba, bb, bc, rows, cols, K, S, rfl⟩
  have T := freshLayout_tight dev s
  obtain ⟨mn, hbd⟩ := T.bounds
  have hc : (⟨(List.range (freshLayout dev s).size).map fresh, freshLayout dev s⟩ : Tensor γ).WF := T.wf (by simp)
  have hs := freshLayout_shape dev s
  have h0 : (freshLayout dev s).offset = 0 := by cases dev <;> rfl
  obtain ⟨w, d, k1, k2, k3, k4, -⟩ := C42_matmul_from_partial mul mul' hmul dev par hp a b _ ha hb hc ba bb bc rows cols K
    (by show MatShapes dev _ _ (freshLayout dev s).shape _ _ _ _ _ _; rw [hs]; exact S) hr (fun _ _ _ => h0)
    (fun hz => freshLayout_nonzero dev s (by rw [← hs]; exact hz)) sa sb (fun _ => freshLayout_settled dev s) alpha 0
  refine ⟨_, w, d, ?_, k2, k3, rfl, hs, ?_⟩
  · unfold Tensor.matmul
    rw [e1, ok_bind, e2, hbd, ok_bind]
    simp only [Int.toNat_natCast]
    have : (ringOps mul).zero = 0 := rfl
    rw [this, k1]
    rfl
  · intro t i j ht hi hj
    obtain ⟨v, e, -, h2, h3⟩ := k4.2 t i j ht hi hj
    exact ⟨e, h2, by rw [h3]; simp⟩

/-! ## Where the code falls short -/

def mat (shape : List Nat) (data : List Int) : Tensor Int := ⟨data, Layout.newCContig shape 0⟩
def intOps : MatOps Int Int Int := ringOps (· * ·)

/-- Batches of different ranks fit by the rules, and the planner of the result accepts them, but the product fails:
the plan with a given result wants equal ranks (`matmul.rs:390-395`). -/
theorem C41_false_batch_ranks :
    MatShapes .C [1, 1, 1, 1] [1, 1, 1] [1, 1, 1, 1] [1, 1] [1] [1, 1] [1] [1] 1 ∧
    (∃ cfg, (mat [1, 1, 1, 1] [2]).layout.matmulCfg (mat [1, 1, 1] [3]).layout .C = .ok cfg) ∧
    ∀ par fresh, ((mat [1, 1, 1, 1] [2]).matmul intOps (· * ·) .C par fresh (mat [1, 1, 1] [3]) 1).map (fun _ => ()) =
      .error .invalidLayout := by
  refine ⟨⟨rfl, rfl, rfl, by decide, by decide, by decide, by decide, ⟨rfl, by decide⟩⟩, ⟨_, rfl⟩, fun par fresh => ?_⟩
  cases par <;> rfl

/-- The plan for a batch of matrices times a batch of matrices has the whole left operand in the place of its
matrix (`matmul.rs:265`). -/
theorem C41_false_whole_operand : ∃ cfg, (mat [2, 1, 1] [2, 3]).layout.matmulCfg (mat [2, 1, 1] [4, 5]).layout .C = .ok cfg ∧
    cfg.laM = (mat [2, 1, 1] [2, 3]).layout ∧ cfg.laM.ndim = 3 ∧ cfg.lbM.ndim = 2 := ⟨_, rfl, by decide⟩

/-- A result with too few batches is accepted; the product fills it and drops the others. -/
theorem C41_false_truncated : (¬ ∃ ba bb bc rows cols K, MatShapes .C [3, 1, 1] [1, 1] [2, 1, 1] ba bb bc rows cols K) ∧
    (mat [2, 1, 1] [0, 0]).matmulFrom intOps (· * ·) .C none (mat [3, 1, 1] [5, 6, 7]) (mat [1, 1] [10]) 1 0 = .ok (.done [50, 60]) := by
  refine ⟨?_, rfl⟩
  rintro ⟨ba, bb, bc, rows, cols, K, h⟩
  have h' : MatShapes .C [3, 1, 1] [1, 1] [3, 1, 1] [3] [] [3] [1] [1] 1 :=
    ⟨rfl, rfl, rfl, by decide, by decide, by decide, by decide, ⟨rfl, by decide⟩⟩
  exact absurd (C41_shape_unique h h').1 (by decide)

/-- The serial product of two vectors into a scalar view writes the first cell of the storage instead of the cell of
the view (`cpu_serial/matmul_naive.rs:239`). -/
theorem C42_false_inner_offset : (⟨[10, 20], ⟨[], 1⟩⟩ : Tensor Int).WF ∧
    (⟨[10, 20], ⟨[], 1⟩⟩ : Tensor Int).matmulFrom intOps (· * ·) .C none (mat [2] [2, 3]) (mat [2] [4, 5]) 1 0 =
      .ok (.done [23, 20]) := ⟨⟨by decide, rfl⟩, rfl⟩

/-- Numbers with a value like NaN. -/
def nanOps : MatOps (Option Int) (Option Int) (Option Int) :=
  let f (g : Int → Int → Int) (x y : Option Int) : Option Int := x.bind fun x => y.map (g x)
  ⟨f (· * ·), f (· * ·), f (· + ·), some 0⟩

/-- With NaN the product depends on what the fresh storage held: it is read and multiplied by zero. -/
theorem C42_false_fresh :
    let a : Tensor (Option Int) := ⟨[some 2], Layout.newCContig [1, 1] 0⟩
    (a.matmul nanOps nanOps.mul .C none (fun _ => some 7) a (some 1)).map (·.2) = .ok (.done [some 4]) ∧
    (a.matmul nanOps nanOps.mul .C none (fun _ => none) a (some 1)).map (·.2) = .ok (.done [none]) := ⟨rfl, rfl⟩

/-! ## The hypotheses are met -/

theorem matShapes_ex : MatShapes .C [2, 1, 2, 3] [3, 3, 2] [2, 3, 2, 2] [2, 1] [3] [2, 3] [2] [2] 3 :=
  ⟨rfl, rfl, rfl, by decide, by decide, by decide, by decide, ⟨rfl, by decide⟩⟩

theorem matShapes_ex' : MatShapes .F [2, 3, 2] [3, 4, 1] [2, 4, 2] [2] [1] [2] [2] [4] 3 :=
  ⟨rfl, rfl, rfl, by decide, by decide, by decide, by decide, ⟨rfl, by decide⟩⟩

/-- A batch of two, read backwards, times a transposed matrix, into a result with gaps. -/
def exA : Tensor Int := ⟨[1, 2, 3, 4, 5, 6, 7, 8], ⟨[⟨2, -4⟩, ⟨2, 2⟩, ⟨2, 1⟩], 4⟩⟩
def exB : Tensor Int := ⟨[1, 2, 3, 4], ⟨[⟨2, 1⟩, ⟨2, 2⟩], 0⟩⟩
def exC : Tensor Int := ⟨List.replicate 17 9, ⟨[⟨2, 8⟩, ⟨2, 4⟩, ⟨2, 2⟩], 1⟩⟩

theorem exA_wf : exA.WF := ⟨by decide, rfl⟩
theorem exB_wf : exB.WF := ⟨by decide, rfl⟩
theorem exC_wf : exC.WF := ⟨by decide, rfl⟩

example (par : Option MatPar) (hp : MatDevice par) := C42_matmul_from_partial (· * ·) (· * ·) (fun x y : Int => mul_comm y x) .C par hp
  exA exB exC exA_wf exB_wf exC_wf [2] [] [2] [2] [2] 2
  ⟨rfl, rfl, rfl, by decide, by decide, by decide, by decide, ⟨rfl, by decide⟩⟩ (by decide) (fun _ h => absurd h (by decide)) (fun _ => by decide)
  (fun h => absurd h (by decide)) (fun h => absurd h (by decide)) (fun h => absurd h (by decide)) 2 3

example : exC.matmulFrom intOps (· * ·) .C none exA exB 1 0 =
    .ok (.done [9, 17, 9, 39, 9, 23, 9, 53, 9, 5, 9, 11, 9, 11, 9, 25, 9]) := rfl

example : MatDevice (some ⟨4, fun _ => halving, fun _ => .run⟩) := by
  intro p hp
  cases hp
  exact halving_fits

example (par : Option MatPar) (hp : MatDevice par) (fresh : Nat → Int) := C42_matmul_partial (· * ·) (· * ·)
  (fun x y : Int => mul_comm y x) .C par hp fresh exA exB exA_wf exB_wf [2, 2, 2] [2] [] [2] [2] [2] 2
  ⟨rfl, rfl, rfl, by decide, by decide, by decide, by decide, ⟨rfl, by decide⟩⟩ (by decide)
  (fun h => absurd h (by decide)) (fun h => absurd h (by decide)) 1

example := C41_pairing_partial exA.layout exB.layout exC.layout [2] [] [2] [2] [2] 2
  ⟨rfl, rfl, rfl, by decide, by decide, by decide, by decide, ⟨rfl, by decide⟩⟩
  (exA_wf.fit.settled fun h => absurd h (by decide)) (exB_wf.fit.settled fun h => absurd h (by decide))
  (exC_wf.fit.settled fun h => absurd h (by decide)) (by decide) (by decide) (by decide)

example := C41_accept_iff (mat [2, 3] []).layout (mat [3, 4] []).layout (Layout.newCContig [2, 4] 0) .C
example : ¬ ∃ s ba bb bc rows cols K, MatShapes .C [2, 3] [2, 4] s ba bb bc rows cols K := by
  rintro ⟨s, ba, bb, bc, rows, cols, K, h⟩
  have := (C41_accept_iff (mat [2, 3] []).layout (mat [2, 4] []).layout _ .C).2 ⟨s, ba, bb, bc, rows, cols, K, h, rfl⟩
  obtain ⟨cfg, h, -⟩ := this
  exact absurd h (by rw [show (mat [2, 3] []).layout.matmulCfg (mat [2, 4] []).layout .C = .error .invalidLayout from rfl]; simp)

end
end Rstsr
