import Verif.Proof.Broadcast
/-!
# Theorems C16, C17, C18: broadcasting
-/
namespace Rstsr
open Spec

/-- The shape returned by `broadcast_shape`. -/
abbrev bshape (o : Order) (a b : List Nat) : Res (List Nat) := (·.1) <$> broadcastShape a b o

/-! ## C16: the broadcast shape -/

/-- The returned shape is the common shape, and every common shape is returned. -/
theorem C16_shape_iff (o : Order) (a b s : List Nat) :
    bshape o a b = .ok s ↔ BroadcastOf o a b s := broadcastShape_shape

/-- Exact acceptance: aligned lengths are equal or one of them is 1. -/
theorem C16_accept_iff (o : Order) (a b : List Nat) :
    (∃ s, bshape o a b = .ok s) ↔ Compatible o a b := by
  rw [← broadcastShape_accept]
  constructor
  · rintro ⟨s, h⟩
    obtain ⟨r, hr, _⟩ := map_eq_ok.1 h
    exact ⟨r, hr⟩
  · rintro ⟨r, hr⟩
    exact ⟨r.1, by rw [bshape, hr]; rfl⟩

/-- Refusals are `InvalidLayout` errors. -/
theorem C16_reject (o : Order) (a b : List Nat) (h : ¬ Compatible o a b) :
    bshape o a b = .error .invalidLayout := by
  cases hr : broadcastShape a b o with
  | ok r => exact absurd (broadcastShape_accept.1 ⟨r, hr⟩) h
  | error e => rw [bshape, hr, broadcastShape_error hr]; rfl

theorem res_ext {α : Type} {x y : Res α} (h : ∀ s, x = .ok s ↔ y = .ok s)
    (hx : ∀ e, x = .error e → e = .invalidLayout) (hy : ∀ e, y = .error e → e = .invalidLayout) : x = y := by
  cases x with
  | ok s => exact ((h s).1 rfl).symm
  | error e =>
    cases y with
    | ok s => exact (h s).2 rfl
    | error e' => rw [hx e rfl, hy e' rfl]

theorem bshape_error {o : Order} {a b : List Nat} {e : Err} (h : bshape o a b = .error e) :
    e = .invalidLayout := by
  by_cases hc : Compatible o a b
  · obtain ⟨s, hs⟩ := (C16_accept_iff o a b).2 hc
    rw [hs] at h; cases h
  · rw [C16_reject o a b hc] at h; cases h; rfl

theorem C16_comm (o : Order) (a b : List Nat) : bshape o a b = bshape o b a := by
  apply res_ext _ (fun _ => bshape_error) (fun _ => bshape_error)
  intro s
  rw [C16_shape_iff, C16_shape_iff, broadcastOf_iff, broadcastOf_iff]
  exact ⟨StretchRel.comm, StretchRel.comm⟩

theorem C16_assoc (o : Order) (a b c : List Nat) :
    (bshape o a b >>= fun ab => bshape o ab c) = (bshape o b c >>= fun bc => bshape o a bc) := by
  apply res_ext
  · intro s
    simp only [bind_ok, C16_shape_iff, broadcastOf_iff]
    constructor
    · rintro ⟨ab, h1, h2⟩
      obtain ⟨bc, h3, h4⟩ := h1.assoc h2
      exact ⟨alignL o bc, by simpa using h3, by simpa using h4⟩
    · rintro ⟨bc, h1, h2⟩
      obtain ⟨ab, h3, h4⟩ := h1.comm.assoc h2.comm
      exact ⟨alignL o ab, by simpa using h3.comm, by simpa using h4.comm⟩
  · intro e h
    rcases bind_error.1 h with h | ⟨_, _, h⟩ <;> exact bshape_error h
  · intro e h
    rcases bind_error.1 h with h | ⟨_, _, h⟩ <;> exact bshape_error h

theorem C16_idem (o : Order) (a : List Nat) : bshape o a a = .ok a := by
  rw [C16_shape_iff, broadcastOf_iff]; exact StretchRel.self _

theorem C16_unit (o : Order) (a : List Nat) : bshape o [] a = .ok a ∧ bshape o a [] = .ok a := by
  have h : bshape o [] a = .ok a := by
    rw [C16_shape_iff, broadcastOf_iff]
    have : alignL o ([] : List Nat) = [] := by cases o <;> rfl
    rw [this]; exact StretchRel.unit _
  exact ⟨h, by rw [C16_comm]; exact h⟩

/-! Several shapes at once. -/

theorem axisAt_ge {o : Order} {a : List Nat} {k : Nat} (h : a.length ≤ k) : axisAt o a k = 1 := by
  rw [axisAt_eq]; exact getD_ge (by simpa using h)

theorem _root_.Spec.BroadcastOf.at {o : Order} {a b s : List Nat} (h : BroadcastOf o a b s) (k : Nat) :
    (axisAt o a k = axisAt o s k ∨ axisAt o a k = 1) ∧ (axisAt o b k = axisAt o s k ∨ axisAt o b k = 1) ∧
    (axisAt o s k = axisAt o a k ∨ axisAt o s k = axisAt o b k) := by
  simp only [axisAt_eq]
  exact (broadcastOf_iff.1 h).all k

theorem broadcastOfAll_step {o : Order} {seen : List (List Nat)} {acc x s : List Nat}
    (h : BroadcastOfAll o seen acc) (hx : BroadcastOf o x acc s) : BroadcastOfAll o (seen ++ [x]) s := by
  obtain ⟨h1, ⟨a0, ha0, hl0⟩, h3⟩ := h
  have hlen := hx.1
  refine ⟨?_, ?_, ?_⟩
  · intro a ha
    rcases List.mem_append.1 ha with ha | ha
    · obtain ⟨e1, e2⟩ := h1 a ha
      refine ⟨by omega, fun k => ?_⟩
      have := e2 k
      have := hx.at k
      omega
    · rw [List.mem_singleton] at ha
      subst ha
      exact ⟨by omega, fun k => (hx.at k).1⟩
  · by_cases hc : x.length ≤ acc.length
    · exact ⟨a0, by simp [ha0], by omega⟩
    · exact ⟨x, by simp, by omega⟩
  · intro k
    rcases (hx.at k).2.2 with e | e
    · exact ⟨x, by simp, e⟩
    · obtain ⟨a, ha, e'⟩ := h3 k
      exact ⟨a, by simp [ha], by rw [e, e']⟩

theorem broadcastOfAll_unique {o : Order} {shapes : List (List Nat)} {s t : List Nat}
    (h1 : BroadcastOfAll o shapes s) (h2 : BroadcastOfAll o shapes t) : s = t := by
  have hl : s.length = t.length := by
    obtain ⟨a, ha, e1⟩ := h1.2.1
    obtain ⟨b, hb, e2⟩ := h2.2.1
    have := (h1.1 b hb).1
    have := (h2.1 a ha).1
    omega
  apply alignL_inj (o := o)
  apply List.ext_getElem (by simpa using hl)
  intro k hk hk'
  obtain ⟨a, ha, e1⟩ := h1.2.2 k
  obtain ⟨b, hb, e2⟩ := h2.2.2 k
  have f1 := (h1.1 b hb).2 k
  have f2 := (h2.1 a ha).2 k
  have g1 : axisAt o s k = (alignL o s)[k] := by
    rw [axisAt_eq, List.getD_eq_getElem?_getD, List.getElem?_eq_getElem hk]; rfl
  have g2 : axisAt o t k = (alignL o t)[k] := by
    rw [axisAt_eq, List.getD_eq_getElem?_getD, List.getElem?_eq_getElem hk']; rfl
  omega

theorem foldShapes_iff {o : Order} {seen rest : List (List Nat)} {acc s : List Nat}
    (h : BroadcastOfAll o seen acc) :
    rest.foldlM (fun result shape => (do return (← broadcastShape shape result o).1 : Res (List Nat))) acc = .ok s ↔
      BroadcastOfAll o (seen ++ rest) s := by
  induction rest generalizing seen acc with
  | nil =>
    simp only [List.foldlM_nil, List.append_nil]
    constructor
    · intro e; cases e; exact h
    · intro e; rw [broadcastOfAll_unique e h]; rfl
  | cons x rest ih =>
    rw [List.foldlM_cons, bind_ok]
    have key : ∀ s, (do return (← broadcastShape x acc o).1 : Res (List Nat)) = .ok s ↔ BroadcastOf o x acc s := by
      intro s
      rw [← C16_shape_iff, bshape]
      cases broadcastShape x acc o <;> simp
    constructor
    · rintro ⟨acc', h1, h2⟩
      have := (ih (broadcastOfAll_step h ((key _).1 h1))).1 h2
      simpa using this
    · intro hs
      have hc : Compatible o x acc := by
        intro k
        have e1 := (hs.1 x (by simp)).2 k
        obtain ⟨a, ha, e2⟩ := h.2.2 k
        have e3 := (hs.1 a (by simp [ha])).2 k
        omega
      obtain ⟨acc', h1⟩ := (C16_accept_iff o x acc).2 hc
      have h1' := (C16_shape_iff o x acc acc').1 h1
      exact ⟨acc', (key _).2 h1', (ih (broadcastOfAll_step h h1')).2 (by simpa using hs)⟩

theorem broadcastOfAll_single (o : Order) (a : List Nat) : BroadcastOfAll o [a] a :=
  ⟨by simp, by simp, by simp⟩

/-- `broadcast_shapes` of a non-empty list returns the common shape of all, independently of order and
grouping, and refuses exactly when there is none. -/
theorem C16_shapes_iff (o : Order) (shapes : List (List Nat)) (hne : shapes ≠ []) (s : List Nat) :
    broadcastShapes shapes o = .ok s ↔ BroadcastOfAll o shapes s := by
  match shapes, hne with
  | [a], _ =>
    simp only [broadcastShapes]
    constructor
    · intro e; cases e; exact broadcastOfAll_single o _
    · intro e; rw [broadcastOfAll_unique e (broadcastOfAll_single o a)]
  | a :: b :: rest, _ => exact foldShapes_iff (broadcastOfAll_single o a)

theorem C16_shapes_empty (o : Order) : broadcastShapes [] o = .ok [] := rfl

example : BroadcastOf .C [4, 1, 3] [2, 1] [4, 2, 3] := by
  rw [← C16_shape_iff]; decide
example : bshape .C [2, 3] [2] = .error .invalidLayout ∧ bshape .F [2, 3] [2] = .ok [2, 3] := by decide
example : broadcastShapes [[3, 1], [4], [1, 1, 1]] .C = .ok [1, 3, 4] := by decide
example : bshape .C [0] [1] = .ok [0] ∧ bshape .C [0] [2] = .error .invalidLayout := by decide

/-! ## C17: broadcast layouts repeat elements -/

/-- Everything `broadcast_layout` does: the common shape, unchanged offsets, and each element of a
result is the operand's element at the aligned index with stretched coordinates 0 — so no new storage
positions are addressed. -/
theorem C17_broadcast_layout (l1 l2 m1 m2 : Layout) (o : Order) (h : l1.broadcast l2 o = .ok (m1, m2)) :
    BroadcastOf o l1.shape l2.shape m1.shape ∧ m2.shape = m1.shape ∧
    (∀ idx, InRange idx m1.shape →
      (InRange (stretchIndex o l1.shape idx) l1.shape ∧ m1.addr idx = l1.addr (stretchIndex o l1.shape idx)) ∧
      (InRange (stretchIndex o l2.shape idx) l2.shape ∧ m2.addr idx = l2.addr (stretchIndex o l2.shape idx))) := by
  unfold Layout.broadcast at h
  obtain ⟨⟨s, t1, t2⟩, hs, h⟩ := bind_ok.1 h
  obtain ⟨k1, e1, -, s1, a1, -⟩ := updateByShape_first hs
  obtain ⟨k2, e2, -, s2, a2, -⟩ := updateByShape_first (broadcastShape_swap hs)
  simp only [e1, e2, ok_bind] at h
  cases h
  refine ⟨?_, by rw [s1, s2], fun idx hi => ?_⟩
  · rw [← C16_shape_iff, s1, bshape, hs]; rfl
  · rw [s1] at hi
    exact ⟨a1 idx hi, a2 idx hi⟩

/-- Exact acceptance. -/
theorem C17_accept_iff (l1 l2 : Layout) (o : Order) :
    (∃ r, l1.broadcast l2 o = .ok r) ↔ Compatible o l1.shape l2.shape := by
  rw [← broadcastShape_accept]
  unfold Layout.broadcast
  constructor
  · rintro ⟨r, h⟩
    obtain ⟨x, hx, _⟩ := bind_ok.1 h
    exact ⟨x, hx⟩
  · rintro ⟨⟨s, t1, t2⟩, hs⟩
    obtain ⟨k1, e1, -⟩ := updateByShape_first hs
    obtain ⟨k2, e2, -⟩ := updateByShape_first (broadcastShape_swap hs)
    exact ⟨(k1, k2), by simp [hs, e1, e2]⟩

theorem C17_reject (l1 l2 : Layout) (o : Order) (h : ¬ Compatible o l1.shape l2.shape) :
    l1.broadcast l2 o = .error .invalidLayout := by
  unfold Layout.broadcast
  cases hr : broadcastShape l1.shape l2.shape o with
  | ok r => exact absurd (broadcastShape_accept.1 ⟨r, hr⟩) h
  | error e => rw [broadcastShape_error hr]; rfl

theorem broadcast_good {l m : Layout} (hp : (m.axes.filter Axis.ess).Perm (l.axes.filter Axis.ess))
    (hsub : ∀ idx, InRange idx m.shape → ∃ i, InRange i l.shape ∧ m.addr idx = l.addr i)
    (hl : Good l) : Good m :=
  good_of_sub hl hsub fun hz _ => by
    rcases hl with h | ⟨_, L, h1, h2⟩
    · exact absurd h hz
    · exact ⟨L, h1.trans hp.symm, h2⟩

/-- The broadcast layouts pass the checks of `Layout::new` (stride-0 axes are exempt). -/
theorem C17_valid (l1 l2 m1 m2 : Layout) (o : Order) (h : l1.broadcast l2 o = .ok (m1, m2))
    (h1 : l1.Valid) (h2 : l2.Valid) (o1 : 0 ≤ l1.offset) (o2 : 0 ≤ l2.offset) : m1.Valid ∧ m2.Valid := by
  unfold Layout.broadcast at h
  obtain ⟨⟨s, t1, t2⟩, hs, h⟩ := bind_ok.1 h
  obtain ⟨k1, e1, -, s1, a1, p1⟩ := updateByShape_first hs
  obtain ⟨k2, e2, -, s2, a2, p2⟩ := updateByShape_first (broadcastShape_swap hs)
  simp only [e1, e2, ok_bind] at h
  cases h
  constructor
  · refine valid_iff.2 (broadcast_good p1 (fun idx hi => ?_) ((valid_iff.1 h1).good o1)).accepted
    rw [s1] at hi
    exact ⟨_, a1 idx hi⟩
  · refine valid_iff.2 (broadcast_good p2 (fun idx hi => ?_) ((valid_iff.1 h2).good o2)).accepted
    rw [s2] at hi
    exact ⟨_, a2 idx hi⟩

/-- Broadcasting to a fixed shape: accepted exactly when the shape stretches to it. -/
theorem C17_broadcast_to_iff (l : Layout) (s : List Nat) (o : Order) :
    (∃ m, l.broadcastTo s o = .ok m) ↔ BroadcastOf o l.shape s s := by
  unfold Layout.broadcastTo
  rw [← C16_shape_iff]
  constructor
  · rintro ⟨m, h⟩
    obtain ⟨⟨s', t1, t2⟩, hs, h⟩ := bind_ok.1 h
    dsimp only at h
    split at h
    · rename_i e
      rw [bshape, hs]; simp [e]
    · cases h
  · intro h
    obtain ⟨⟨s', t1, t2⟩, hs, rfl⟩ := map_eq_ok.1 h
    obtain ⟨m, e, -⟩ := updateByShape_first hs
    exact ⟨m, by simp [hs, e]⟩

/-- The element law of `broadcast_to`. -/
theorem C17_broadcast_to (l m : Layout) (s : List Nat) (o : Order) (h : l.broadcastTo s o = .ok m) :
    m.shape = s ∧ ∀ idx, InRange idx s →
      InRange (stretchIndex o l.shape idx) l.shape ∧ m.addr idx = l.addr (stretchIndex o l.shape idx) := by
  unfold Layout.broadcastTo at h
  obtain ⟨⟨s', t1, t2⟩, hs, h'⟩ := bind_ok.1 h
  clear h
  dsimp only at h'
  split at h'
  · rename_i e
    subst e
    obtain ⟨k, e1, -, s1, a1, -⟩ := updateByShape_first hs
    rw [e1] at h'
    cases h'
    exact ⟨s1, a1⟩
  · cases h'

theorem C17_broadcast_to_valid (l m : Layout) (s : List Nat) (o : Order) (h : l.broadcastTo s o = .ok m)
    (hl : l.Valid) (ho : 0 ≤ l.offset) : m.Valid ∧ m.offset = l.offset := by
  unfold Layout.broadcastTo at h
  obtain ⟨⟨s', t1, t2⟩, hs, h'⟩ := bind_ok.1 h
  clear h
  dsimp only at h'
  split at h'
  · rename_i e
    subst e
    obtain ⟨k, e1, e2, s1, a1, p1⟩ := updateByShape_first hs
    rw [e1] at h'
    cases h'
    refine ⟨valid_iff.2 (broadcast_good p1 (fun idx hi => ?_) ((valid_iff.1 hl).good ho)).accepted, e2⟩
    rw [s1] at hi
    exact ⟨_, a1 idx hi⟩
  · cases h'

/-- Broadcasting loses nothing: when the result has elements, every element of the operand occurs. -/
theorem C17_covers (o : Order) (a s : List Nat) (h : BroadcastOf o a s s) (hz : 0 ∉ s) (i : List Nat)
    (hi : InRange i a) : ∃ idx, InRange idx s ∧ stretchIndex o a idx = i := by
  have hrel := broadcastOf_iff.1 h
  have hle : (alignL o a).length ≤ (alignL o s).length := by have := hrel.1; omega
  have hi' : InRange (alignL o i) (alignL o a) := by
    cases o
    · exact hi.reverse
    · exact hi
  have hz' : ∀ d ∈ alignL o s, 0 < d := by
    intro d hd
    have : d ∈ s := by cases o <;> simpa [alignL] using hd
    rcases Nat.eq_zero_or_pos d with e | e
    · exact absurd (e ▸ this) hz
    · exact e
  have hk : ∀ k, (alignL o a).getD k 1 = (alignL o s).getD k 1 ∨ (alignL o a).getD k 1 = 1 :=
    fun k => (hrel.all k).1
  have gen : ∀ (i a s : List Nat), InRange i a → a.length ≤ s.length → (∀ d ∈ s, 0 < d) →
      (∀ k, a.getD k 1 = s.getD k 1 ∨ a.getD k 1 = 1) →
      ∃ idx, InRange idx s ∧ stretchF a idx = i := by
    clear * -
    intro i a s
    induction s generalizing i a with
    | nil =>
      intro h1 h2 _ _
      have : a = [] := by simpa using h2
      subst this
      exact ⟨[], trivial, by simpa [stretchF, eq_comm] using inRange_nil_right.1 h1⟩
    | cons d s ih =>
      intro h1 h2 h3 h4
      cases a with
      | nil =>
        rw [inRange_nil_right] at h1
        subst h1
        exact ⟨_, inRange_zeros h3, by simp [stretchF]⟩
      | cons x a =>
        cases i with
        | nil => simp at h1
        | cons j i =>
          obtain ⟨idx, e1, e2⟩ := ih i a h1.2 (by simpa using h2) (fun d hd => h3 d (by simp [hd]))
            (fun k => by simpa using h4 (k + 1))
          have hj := h1.1
          have h0 := h4 0
          have hd := h3 d (by simp)
          simp at h0
          refine ⟨j :: idx, ⟨by omega, e1⟩, ?_⟩
          simp only [stretchF, List.zipWith_cons_cons] at e2 ⊢
          rw [e2]
          congr 1
          split <;> omega
  obtain ⟨idx, e1, e2⟩ := gen _ _ _ hi' hle hz' hk
  refine ⟨alignL o idx, ?_, ?_⟩
  · cases o
    · simpa [alignL] using e1.reverse
    · exact e1
  · apply alignL_inj (o := o)
    rw [stretchIndex_eq (by have := e1.length_eq; simp at this hle ⊢; omega), alignL_alignL, e2]

/-- `broadcast_arrays`: all results share the common shape and repeat the elements of their source. -/
theorem C17_broadcast_arrays (ls ms : List Layout) (o : Order) (hne : 2 ≤ ls.length)
    (h : broadcastArrays ls o = .ok ms) :
    ∃ s, BroadcastOfAll o (ls.map Layout.shape) s ∧
      List.Forall₂ (fun l m => m.shape = s ∧ ∀ idx, InRange idx s →
        InRange (stretchIndex o l.shape idx) l.shape ∧ m.addr idx = l.addr (stretchIndex o l.shape idx)) ls ms := by
  match ls, hne with
  | l :: l' :: rest, _ =>
    unfold broadcastArrays at h
    obtain ⟨s, hs, h⟩ := bind_ok.1 h
    have hf : (l' :: rest).foldlM (fun result (m : Layout) =>
        (do return (← broadcastShape m.shape result o).1 : Res (List Nat))) l.shape =
        ((l' :: rest).map Layout.shape).foldlM (fun result shape =>
        (do return (← broadcastShape shape result o).1 : Res (List Nat))) l.shape := by
      generalize l.shape = acc
      induction (l' :: rest) generalizing acc with
      | nil => rfl
      | cons x xs ih =>
        simp only [List.map_cons, List.foldlM_cons]
        congr 1
        funext r
        exact ih r
    rw [hf] at hs
    refine ⟨s, (foldShapes_iff (broadcastOfAll_single o l.shape)).1 hs, ?_⟩
    refine (mapM_ok.1 h).imp fun a b hab => C17_broadcast_to a b s o hab

example : ∃ m1 m2, (⟨[⟨3, 2⟩, ⟨1, 7⟩], 5⟩ : Layout).broadcast ⟨[⟨4, -1⟩], 3⟩ .C = .ok (m1, m2) ∧
    m1.axes = [⟨3, 2⟩, ⟨4, 0⟩] ∧ m2.axes = [⟨3, 0⟩, ⟨4, -1⟩] := ⟨_, _, rfl, by decide, by decide⟩
example : (⟨[⟨3, 2⟩], 5⟩ : Layout).broadcastTo [3, 2] .F = .ok ⟨[⟨3, 2⟩, ⟨2, 0⟩], 5⟩ := by decide
example : (⟨[⟨3, 2⟩], 5⟩ : Layout).broadcastTo [1] .C = .error .invalidLayout := by decide
example : BroadcastOf .C [3, 1] [2, 3, 4] [2, 3, 4] := by rw [← C16_shape_iff]; decide
example : ∃ ms, broadcastArrays [⟨[⟨3, 1⟩], 0⟩, ⟨[⟨2, 1⟩, ⟨1, 1⟩], 0⟩, ⟨[], 4⟩] .C = .ok ms := ⟨_, rfl⟩

/-- `broadcast_layout_to_first` does not keep the first shape: with dynamic ranks both a longer and a
stretched first operand are accepted. Its callers therefore can write one element several times. -/
theorem C17_to_first_enlarges :
    ∃ l1 l2 m1 m2 : Layout, l1.broadcastToFirst l2 .C = .ok (m1, m2) ∧ m1.shape ≠ l1.shape ∧
      m1.addr [0, 0] = m1.addr [1, 0] :=
  ⟨⟨[⟨3, 1⟩], 0⟩, ⟨[⟨2, 3⟩, ⟨3, 1⟩], 0⟩, ⟨[⟨2, 0⟩, ⟨3, 1⟩], 0⟩, ⟨[⟨2, 3⟩, ⟨3, 1⟩], 0⟩,
    by decide, by decide, by decide⟩

/-- With fixed ranks the rank of the first operand is kept, but a unit axis of it is still stretched. -/
theorem C17_to_first_fixed (l1 l2 m1 m2 : Layout) (o : Order)
    (h : l1.broadcastToFirstFixed l2 o = .ok (m1, m2)) : m1.ndim = l1.ndim ∧ l1.broadcast l2 o = .ok (m1, m2) := by
  unfold Layout.broadcastToFirstFixed at h
  obtain ⟨⟨k1, k2⟩, hk, h⟩ := bind_ok.1 h
  dsimp only at h
  split at h
  · cases h; exact ⟨by assumption, hk⟩
  · cases h

theorem C17_to_first_fixed_stretches :
    ∃ l1 l2 m1 m2 : Layout, l1.broadcastToFirstFixed l2 .C = .ok (m1, m2) ∧ m1.shape ≠ l1.shape :=
  ⟨⟨[⟨1, 1⟩], 0⟩, ⟨[⟨3, 1⟩], 0⟩, ⟨[⟨3, 0⟩], 0⟩, ⟨[⟨3, 1⟩], 0⟩, by decide, by decide⟩

/-! ## C18: broadcastability predicates -/

theorem bcToLoop_iff (a b : List Nat) (h : a.length ≤ b.length) : bcToLoop a b = true ↔ StretchRel a b b := by
  induction a generalizing b with
  | nil =>
    have : ∀ b, bcToLoop [] b = true := by
      intro b
      simp [bcToLoop]
    simp only [this, true_iff]
    exact StretchRel.unit b
  | cons x a ih =>
    cases b with
    | nil => simp at h
    | cons y b =>
      rw [stretchRel_step (by simp)]
      simp only [bcToLoop, List.headD_cons, List.tail_cons]
      split
      · rename_i hc
        simp only [Bool.false_eq_true, false_iff]
        rintro ⟨d, t, e, h1, _⟩
        cases e
        omega
      · rename_i hc
        rw [ih b (by simpa using h)]
        constructor
        · intro hr
          exact ⟨y, b, rfl, by omega, hr⟩
        · rintro ⟨d, t, e, _, hr⟩
          cases e; exact hr

/-- `broadcastable_to(a, b)` holds exactly when broadcasting `a` with `b` (aligned at the last axis)
succeeds and gives `b`. -/
theorem C18_to_iff (a b : List Nat) : broadcastableTo a b = true ↔ bshape .C a b = .ok b := by
  rw [C16_shape_iff, broadcastOf_iff]
  unfold broadcastableTo
  split
  · rename_i h
    simp only [Bool.false_eq_true, false_iff]
    rintro ⟨hl, _⟩
    simp at hl
    omega
  · rename_i h
    exact bcToLoop_iff _ _ (by simp; omega)

theorem bcFromLoop_eq (a b : List Nat) : bcFromLoop a b = bcToLoop b a := by
  induction a, b using pairInd with
  | h0 => rfl
  | h1 a b hne ih =>
    cases a with
    | nil =>
      cases b with
      | nil => rfl
      | cons y b =>
        simp only [List.tail_nil, List.tail_cons] at ih
        rw [bcToLoop, ← ih]
        simp only [bcFromLoop, List.all_cons]
        by_cases hy : y = 1 <;> simp [hy, eq_comm]
    | cons x a =>
      cases b with
      | nil =>
        simp only [List.tail_nil, List.tail_cons] at ih
        rw [bcFromLoop, ih]
        simp [bcToLoop]
      | cons y b => simp only [List.tail_cons] at ih; simp [bcFromLoop, bcToLoop, ih, eq_comm]

/-- `broadcastable_from` is the converse relation. -/
theorem C18_from_iff (a b : List Nat) : broadcastableFrom a b = broadcastableTo b a := by
  unfold broadcastableFrom broadcastableTo
  rw [bcFromLoop_eq, max_comm]

/-- The predicates take no order argument and always align at the last axis: for column-major
broadcasting they give a different answer. -/
theorem C18_not_column_major :
    ∃ a b, broadcastableTo a b = false ∧ bshape .F a b = .ok b := ⟨[2], [2, 3], by decide, by decide⟩

example : broadcastableTo [3, 1] [2, 3, 4] = true ∧ broadcastableTo [2, 3, 4] [3, 1] = false ∧
    broadcastableFrom [2, 3, 4] [3, 1] = true := by decide

end Rstsr
