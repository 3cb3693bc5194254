import Verif.Proof.Own
/-!
# C51: mutation is seen through no other owner
-/
namespace Rstsr
open Spec
namespace Own
variable {α : Type}

/-- The states of programs: what some history of operations leads to. -/
def Reachable (dflt : Order) (s : State α) : Prop := ∃ ops, State.run dflt ops start = .ok s

theorem inv_start : Inv ([] : List (List α)) [] := by
  constructor <;> (intros; simp_all [alive])

theorem tensor_of {s : State α} (hi : Inv s.heap s.hs) {k : Nat} {h : Handle} (e : alive s.hs k = some h) :
    s.tensor k = some (s.seen h) := by
  unfold State.tensor State.seen
  have hb := (hi.wf k h e).1
  rw [live_eq, e, Option.bind_some, List.getD_eq_getElem?_getD, List.getElem?_eq_getElem hb]
  rfl

theorem tensor_some {s : State α} {k : Nat} {t : Tensor α} (ht : s.tensor k = some t) :
    ∃ h, alive s.hs k = some h ∧ t = s.seen h ∧ h.data.buf < s.heap.length := by
  unfold State.tensor at ht
  obtain ⟨h, h1, h2⟩ := Option.bind_eq_some_iff.1 ht
  obtain ⟨d, h3, h4⟩ := Option.map_eq_some_iff.1 h2
  refine ⟨h, h1, ?_, (List.getElem?_eq_some_iff.1 h3).1⟩
  unfold State.seen
  rw [← h4, List.getD_eq_getElem?_getD, h3]
  rfl

theorem use_ok {s : State α} {k : Nat} {h : Handle} (e : s.use k = .ok h) : alive s.hs k = some h := by
  unfold State.use at e
  rw [live_eq] at e
  split at e
  · cases e; assumption
  · cases e

theorem lift_ok {β : Type} {r : Res β} {x : β} (e : lift r = .ok x) : r = .ok x := by
  cases r with
  | ok y => cases e; rfl
  | error e' => cases e' <;> cases e

theorem ebind_ok {β γ : Type} {x : Except Stop β} {f : β → Except Stop γ} {y : γ} (e : (x >>= f) = .ok y) :
    ∃ z, x = .ok z ∧ f z = .ok y := by
  cases x with
  | error e' => cases e
  | ok z => exact ⟨z, rfl, e⟩

theorem checked_ok {s : State α} {b : Nat} {l : Layout} {u : Unit} (e : s.checked b l = .ok u) :
    (⟨s.heap.getD b [], l⟩ : Tensor α).WF := by
  unfold State.checked at e
  split at e
  · cases e
  · rename_i h
    obtain ⟨t, h1, -⟩ := ebind_ok e
    have h1 := lift_ok h1
    have ht : t = ⟨s.heap.getD b [], l⟩ := by
      unfold Tensor.newF at h1
      obtain ⟨_, -, h1⟩ := bind_ok.1 h1
      obtain ⟨⟨_, mx⟩, -, h1⟩ := bind_ok.1 h1
      simp only at h1
      split at h1
      · cases h1; rfl
      · cases h1
    subst ht
    exact ⟨by show 0 ≤ l.offset; omega, h1⟩

/-- The tensor of a new last handle. -/
theorem tensor_last {heap : List (List α)} {hs : List (Option Handle)} {x : Handle} {n : Nat} (hn : n = hs.length)
    (hi : Inv heap (hs ++ [some x])) :
    (⟨heap, hs ++ [some x]⟩ : State α).tensor n = some ⟨heap.getD x.data.buf [], x.layout⟩ :=
  tensor_of (s := ⟨heap, hs ++ [some x]⟩) hi (by rw [alive_add, if_pos hn])

/-- What every operation other than an in-place one does: the invariant stays, every handle that is still there shows
what it showed, and the new handle, if there is one, is well-formed and shows `want`. -/
structure Effect (s s' : State α) (want : Option (Tensor α → Prop)) : Prop where
  inv : Inv s'.heap s'.hs
  old : ∀ j t, j < s.hs.length → s'.tensor j = some t → s.tensor j = some t
  new : ∀ P, want = some P → ∃ t, s'.tensor s.hs.length = some t ∧ t.WF ∧ P t

theorem getD_append_left {heap : List (List α)} (xs : List (List α)) {b : Nat} (h : b < heap.length) :
    (heap ++ xs).getD b [] = heap.getD b [] := by
  rw [List.getD_eq_getElem?_getD, List.getElem?_append_left h, ← List.getD_eq_getElem?_getD]

/-- Handles that stay, on buffers that stay. -/
theorem effect_of {s : State α} (hi : Inv s.heap s.hs) {xs : List (List α)} {hs' : List (Option Handle)} {x : Handle}
    (hl : hs'.length = s.hs.length) (hp : ∀ j h, alive hs' j = some h → alive s.hs j = some h)
    (hn : Inv (s.heap ++ xs) (hs' ++ [some x])) {P : Tensor α → Prop} (hP : P ⟨(s.heap ++ xs).getD x.data.buf [], x.layout⟩) :
    Effect s ⟨s.heap ++ xs, hs' ++ [some x]⟩ (some P) := by
  refine ⟨hn, ?_, ?_⟩
  · intro j t hj ht
    obtain ⟨h, h1, rfl, -⟩ := tensor_some ht
    have h2 := h1
    simp only at h2
    rw [alive_add, if_neg (by omega)] at h2
    have h3 := hp j h h2
    rw [tensor_of hi h3]
    unfold State.seen
    rw [getD_append_left _ (hi.wf j h h3).1]
  · intro Q hQ
    cases hQ
    refine ⟨_, tensor_last hl.symm hn, ?_, hP⟩
    exact (hn.wf s.hs.length x (by rw [alive_add, if_pos hl.symm])).2

theorem effect_of' {s : State α} (hi : Inv s.heap s.hs) {hs' : List (Option Handle)} {x : Handle}
    (hl : hs'.length = s.hs.length) (hp : ∀ j h, alive hs' j = some h → alive s.hs j = some h)
    (hn : Inv s.heap (hs' ++ [some x])) {P : Tensor α → Prop} (hP : P ⟨s.heap.getD x.data.buf [], x.layout⟩) :
    Effect s ⟨s.heap, hs' ++ [some x]⟩ (some P) := by
  have := effect_of (s := s) hi (xs := []) hl hp (by rw [List.append_nil]; exact hn) (P := P) (by rw [List.append_nil]; exact hP)
  rwa [List.append_nil] at this

/-- The owned copy that `into_owned` and `to_owned` make. -/
theorem owning_ok {dflt : Order} {s : State α} (hi : Inv s.heap s.hs) {k : Nat} {h : Handle} (e : alive s.hs k = some h)
    {d : Data} (hd : d.buf = h.data.buf) {heap : List (List α)} {b : Nat} {l : Layout}
    (ho : s.owning dflt { h with data := d } = .ok (heap, b, l)) :
    (s.seen h).arr.Same (⟨heap.getD b [], l⟩ : Tensor α).arr ∧ (⟨heap.getD b [], l⟩ : Tensor α).WF ∧
      ((∃ x, heap = s.heap ++ [x] ∧ b = s.heap.length) ∨
        (heap = s.heap ∧ l = h.layout ∧ d.intoOwned s.heap (s.sole d.buf) = .ok (s.heap, b))) := by
  have hseen : s.seen { h with data := d } = s.seen h := by unfold State.seen; simp only [hd]
  have hw : (s.seen h).WF := (hi.wf k h e).2
  unfold State.owning at ho
  obtain ⟨f, h1, h2⟩ := ebind_ok ho
  have self : (s.seen h).arr.Same (s.seen h).arr :=
    ⟨rfl, fun i hi' => by obtain ⟨x, -, hx⟩ := hw.get hi'; exact ⟨x, hx, hx⟩⟩
  split at h2
  · obtain ⟨⟨hp, c⟩, h3, h4⟩ := ebind_ok h2
    cases h4
    have copy : ∀ r : Borrow, r.buf = h.data.buf → cloneBuf s.heap r.buf = (heap, b) →
        (⟨heap.getD b [], h.layout⟩ : Tensor α) = s.seen h ∧ ∃ x, heap = s.heap ++ [x] ∧ b = s.heap.length := by
      intro r hr hc
      simp only [cloneBuf, Prod.mk.injEq] at hc
      obtain ⟨rfl, rfl⟩ := hc
      refine ⟨?_, _, rfl, rfl⟩
      unfold State.seen
      rw [hr]
      congr 1
      simp [List.getD_eq_getElem?_getD]
    have keep : heap = s.heap → b = h.data.buf →
        (s.seen h).arr.Same (⟨heap.getD b [], h.layout⟩ : Tensor α).arr ∧ (⟨heap.getD b [], h.layout⟩ : Tensor α).WF := by
      rintro rfl rfl
      exact ⟨self, hw⟩
    cases d with
    | owned b' =>
      cases h3
      obtain ⟨k1, k2⟩ := keep rfl hd
      exact ⟨k1, k2, Or.inr ⟨rfl, rfl, rfl⟩⟩
    | cowOwned b' =>
      cases h3
      obtain ⟨k1, k2⟩ := keep rfl hd
      exact ⟨k1, k2, Or.inr ⟨rfl, rfl, rfl⟩⟩
    | arc b' =>
      have h3' := h3
      simp only [Data.intoOwned] at h3
      split at h3
      · cases h3
        obtain ⟨k1, k2⟩ := keep rfl hd
        exact ⟨k1, k2, Or.inr ⟨rfl, rfl, h3'⟩⟩
      · cases h3
    | ref r =>
      obtain ⟨k1, k2⟩ := copy r hd (Except.ok.inj h3)
      rw [k1]; exact ⟨self, hw, Or.inl k2⟩
    | mutRef r =>
      obtain ⟨k1, k2⟩ := copy r hd (Except.ok.inj h3)
      rw [k1]; exact ⟨self, hw, Or.inl k2⟩
    | cowRef r =>
      obtain ⟨k1, k2⟩ := copy r hd (Except.ok.inj h3)
      rw [k1]; exact ⟨self, hw, Or.inl k2⟩
    | refRef r =>
      obtain ⟨k1, k2⟩ := copy r hd (Except.ok.inj h3)
      rw [k1]; exact ⟨self, hw, Or.inl k2⟩
    | refMut r =>
      obtain ⟨k1, k2⟩ := copy r hd (Except.ok.inj h3)
      rw [k1]; exact ⟨self, hw, Or.inl k2⟩
  · obtain ⟨t, h3, h4⟩ := ebind_ok h2
    rw [hseen] at h3
    obtain ⟨c, c1, c2, c3, -⟩ := C35_asarray dflt (s.seen h) hw .K (by simp)
    have h3 := lift_ok h3
    have ec : c = t := Except.ok.inj (c1.symm.trans h3)
    subst ec
    cases h4
    have : (⟨(s.heap ++ [c.data]).getD s.heap.length [], c.layout⟩ : Tensor α) = c := by
      cases c; simp [List.getD_eq_getElem?_getD]
    rw [this]
    exact ⟨c3, c2, Or.inl ⟨_, rfl, rfl⟩⟩

/-- What the new handle of an operation has to show. -/
def wanted (s : State α) : Op α → Option (Tensor α → Prop)
  | .create data l => some fun t => t = ⟨data, l⟩
  | .view k l _ => some fun t => ∃ t0, s.tensor k = some t0 ∧ t = ⟨t0.data, l⟩
  | .viewMut k l _ => some fun t => ∃ t0, s.tensor k = some t0 ∧ t = ⟨t0.data, l⟩
  | .relayout k l => some fun t => ∃ t0, s.tensor k = some t0 ∧ t = ⟨t0.data, l⟩
  | .again k => some fun t => ∃ t0, s.tensor k = some t0 ∧ t0.arr.Same t.arr
  | .intoReference k => some fun t => ∃ t0, s.tensor k = some t0 ∧ t0.arr.Same t.arr
  | .fromReference k _ => some fun t => ∃ t0, s.tensor k = some t0 ∧ t0.arr.Same t.arr
  | .intoCow k => some fun t => ∃ t0, s.tensor k = some t0 ∧ t0.arr.Same t.arr
  | .intoOwned k => some fun t => ∃ t0, s.tensor k = some t0 ∧ t0.arr.Same t.arr
  | .intoOwnedKeep k => some fun t => ∃ t0, s.tensor k = some t0 ∧ t0.arr.Same t.arr
  | .intoShared k => some fun t => ∃ t0, s.tensor k = some t0 ∧ t0.arr.Same t.arr
  | .intoSharedKeep k => some fun t => ∃ t0, s.tensor k = some t0 ∧ t0.arr.Same t.arr
  | .toOwned k => some fun t => ∃ t0, s.tensor k = some t0 ∧ t0.arr.Same t.arr
  | .cloneCow k => some fun t => ∃ t0, s.tensor k = some t0 ∧ t0.arr.Same t.arr
  | .mutate _ _ => none
  | .drop _ => none

theorem same_self {t : Tensor α} (hw : t.WF) : t.arr.Same t.arr :=
  ⟨rfl, fun i hi => by obtain ⟨x, -, hx⟩ := hw.get hi; exact ⟨x, hx, hx⟩⟩

/-- `k` turns into another handle on the same buffer. -/
theorem effect_become {s : State α} (hi : Inv s.heap s.hs) {k : Nat} {h : Handle} (e : alive s.hs k = some h) {x : Handle}
    (hb : x.data.buf = h.data.buf) (hw : (⟨s.heap.getD h.data.buf [], x.layout⟩ : Tensor α).WF)
    (hl : x.lenders = h.lenders) (ho : x.data.isOwner = h.data.isOwner) (hm : x.data.isMut → h.data.isMut)
    (ha : h.data = .arc h.data.buf → x.data = .arc h.data.buf ∨ s.sole h.data.buf = true) {P : Tensor α → Prop}
    (hP : P ⟨s.heap.getD h.data.buf [], x.layout⟩) :
    Effect s ⟨s.heap, s.moved k ++ [some x]⟩ (some P) :=
  effect_of' hi (length_moved s k) (fun j g hg => ((alive_moved s k j g).1 hg).1) (hi.become e hb hw hl ho hm ha) (hb ▸ hP)

theorem effect_become_same {s : State α} (hi : Inv s.heap s.hs) {k : Nat} {h : Handle} (e : alive s.hs k = some h) {x : Handle}
    (hb : x.data.buf = h.data.buf) (hx : x.layout = h.layout)
    (hl : x.lenders = h.lenders) (ho : x.data.isOwner = h.data.isOwner) (hm : x.data.isMut → h.data.isMut)
    (ha : h.data = .arc h.data.buf → x.data = .arc h.data.buf ∨ s.sole h.data.buf = true) :
    Effect s ⟨s.heap, s.moved k ++ [some x]⟩ (some fun t => ∃ t0, s.tensor k = some t0 ∧ t0.arr.Same t.arr) := by
  have hw := (hi.wf k h e).2
  exact effect_become hi e hb (hx ▸ hw) hl ho hm ha (hx ▸ ⟨_, tensor_of hi e, same_self hw⟩)

/-- `k` ends and a fresh owner appears. -/
theorem effect_fresh {s : State α} (hi : Inv s.heap s.hs) {hs' : List (Option Handle)} (hi' : Inv s.heap hs')
    (hl : hs'.length = s.hs.length) (hp : ∀ j h, alive hs' j = some h → alive s.hs j = some h) {d : List α} {x : Handle}
    (hb : x.data.buf = s.heap.length) (hw : (⟨d, x.layout⟩ : Tensor α).WF) (ho : x.data.isOwner) (hn : x.lenders = [])
    {P : Tensor α → Prop} (hP : P ⟨d, x.layout⟩) : Effect s ⟨s.heap ++ [d], hs' ++ [some x]⟩ (some P) := by
  refine effect_of hi hl hp (hi'.fresh hb hw ho hn) ?_
  rw [hb]
  simpa [List.getD_eq_getElem?_getD] using hP

theorem moved_old (s : State α) (k j : Nat) (h : Handle) (e : alive (s.moved k) j = some h) : alive s.hs j = some h :=
  ((alive_moved s k j h).1 e).1

theorem ended_old (s : State α) (k : Nat) (all : Bool) (j : Nat) (h : Handle) (e : alive (s.endBorrows k all) j = some h) :
    alive s.hs j = some h := ((alive_end s k all j h).1 e).1

/-- Turning the buffer of `k` into the data of a new owner. -/
theorem effect_own {s : State α} (hi : Inv s.heap s.hs) {k : Nat} {h : Handle} (e : alive s.hs k = some h)
    {heap : List (List α)} {b : Nat} (hd : h.data.intoOwned s.heap (s.sole h.data.buf) = .ok (heap, b)) {x : Handle}
    (hb : x.data.buf = b) (hx : x.layout = h.layout) (hl : x.lenders = []) (ho : x.data.isOwner) :
    Effect s ⟨heap, s.moved k ++ [some x]⟩ (some fun t => ∃ t0, s.tensor k = some t0 ∧ t0.arr.Same t.arr) := by
  have hw := (hi.wf k h e).2
  have hnm : ¬ x.data.isMut := fun hm => by rw [isMut_not_owner hm] at ho; cases ho
  have keep : h.data.isOwner → (h.data = .arc h.data.buf → s.sole h.data.buf = true) → heap = s.heap → b = h.data.buf →
      Effect s ⟨heap, s.moved k ++ [some x]⟩ (some fun t => ∃ t0, s.tensor k = some t0 ∧ t0.arr.Same t.arr) := by
    rintro h1 h2 rfl rfl
    exact effect_become_same hi e hb hx (hl.trans (hi.top k h e h1).symm) (ho.trans h1.symm) (fun hm => absurd hm hnm)
      (fun h => Or.inr (h2 h))
  have copy : ∀ r : Borrow, r.buf = h.data.buf → cloneBuf s.heap r.buf = (heap, b) →
      Effect s ⟨heap, s.moved k ++ [some x]⟩ (some fun t => ∃ t0, s.tensor k = some t0 ∧ t0.arr.Same t.arr) := by
    intro r hr hc
    simp only [cloneBuf, Prod.mk.injEq] at hc
    obtain ⟨rfl, rfl⟩ := hc
    refine effect_fresh hi (hi.moved k) (length_moved s k) (moved_old s k) hb ?_ ho hl ?_
    · rw [hr, hx]; exact hw
    · rw [hr, hx]; exact ⟨_, tensor_of hi e, same_self hw⟩
  cases hdd : h.data with
  | owned b' =>
    rw [hdd] at hd; cases hd
    exact keep (by rw [hdd]; rfl) (by rw [hdd]; simp) rfl (by rw [hdd]; rfl)
  | cowOwned b' =>
    rw [hdd] at hd; cases hd
    exact keep (by rw [hdd]; rfl) (by rw [hdd]; simp) rfl (by rw [hdd]; rfl)
  | arc b' =>
    rw [hdd] at hd
    simp only [Data.intoOwned] at hd
    split at hd
    · cases hd
      exact keep (by rw [hdd]; rfl) (fun _ => by rw [hdd]; assumption) rfl (by rw [hdd]; rfl)
    · cases hd
  | ref r => rw [hdd] at hd; exact copy r (by rw [hdd]; rfl) (Except.ok.inj hd)
  | mutRef r => rw [hdd] at hd; exact copy r (by rw [hdd]; rfl) (Except.ok.inj hd)
  | cowRef r => rw [hdd] at hd; exact copy r (by rw [hdd]; rfl) (Except.ok.inj hd)
  | refRef r => rw [hdd] at hd; exact copy r (by rw [hdd]; rfl) (Except.ok.inj hd)
  | refMut r => rw [hdd] at hd; exact copy r (by rw [hdd]; rfl) (Except.ok.inj hd)

/-- Turning the buffer of `k` into an `Arc`. -/
theorem effect_share {s : State α} (hi : Inv s.heap s.hs) {k : Nat} {h : Handle} (e : alive s.hs k = some h)
    {heap : List (List α)} {b : Nat} (hd : h.data.intoShared s.heap = (heap, b)) :
    Effect s ⟨heap, s.moved k ++ [some ⟨.arc b, h.layout, []⟩]⟩ (some fun t => ∃ t0, s.tensor k = some t0 ∧ t0.arr.Same t.arr) := by
  have hw := (hi.wf k h e).2
  have keep : h.data.isOwner → heap = s.heap → b = h.data.buf →
      Effect s ⟨heap, s.moved k ++ [some ⟨.arc b, h.layout, []⟩]⟩ (some fun t => ∃ t0, s.tensor k = some t0 ∧ t0.arr.Same t.arr) := by
    rintro h1 rfl rfl
    exact effect_become_same hi e rfl rfl (hi.top k h e h1).symm (by rw [h1]; rfl) (fun hm => by simp [Data.isMut] at hm)
      (fun _ => Or.inl rfl)
  have copy : ∀ r : Borrow, r.buf = h.data.buf → cloneBuf s.heap r.buf = (heap, b) →
      Effect s ⟨heap, s.moved k ++ [some ⟨.arc b, h.layout, []⟩]⟩ (some fun t => ∃ t0, s.tensor k = some t0 ∧ t0.arr.Same t.arr) := by
    intro r hr hc
    simp only [cloneBuf, Prod.mk.injEq] at hc
    obtain ⟨rfl, rfl⟩ := hc
    refine effect_fresh hi (hi.moved k) (length_moved s k) (moved_old s k) rfl ?_ rfl rfl ?_
    · rw [hr]; exact hw
    · rw [hr]; exact ⟨_, tensor_of hi e, same_self hw⟩
  cases hdd : h.data with
  | owned b' => rw [hdd] at hd; cases hd; exact keep (by rw [hdd]; rfl) rfl (by rw [hdd]; rfl)
  | cowOwned b' => rw [hdd] at hd; cases hd; exact keep (by rw [hdd]; rfl) rfl (by rw [hdd]; rfl)
  | arc b' => rw [hdd] at hd; cases hd; exact keep (by rw [hdd]; rfl) rfl (by rw [hdd]; rfl)
  | ref r => rw [hdd] at hd; exact copy r (by rw [hdd]; rfl) hd
  | mutRef r => rw [hdd] at hd; exact copy r (by rw [hdd]; rfl) hd
  | cowRef r => rw [hdd] at hd; exact copy r (by rw [hdd]; rfl) hd
  | refRef r => rw [hdd] at hd; exact copy r (by rw [hdd]; rfl) hd
  | refMut r => rw [hdd] at hd; exact copy r (by rw [hdd]; rfl) hd

/-- A copy-on-write handle. -/
theorem effect_cow {s : State α} (hi : Inv s.heap s.hs) {k : Nat} {h : Handle} (e : alive s.hs k = some h)
    {heap : List (List α)} {d : Data} (hd : h.data.intoCow s.heap (s.sole h.data.buf) = .ok (heap, d)) :
    Effect s ⟨heap, s.moved k ++ [some ⟨d, h.layout, if d.isOwner then [] else h.lenders⟩]⟩
      (some fun t => ∃ t0, s.tensor k = some t0 ∧ t0.arr.Same t.arr) := by
  have own : h.data.isOwner → heap = s.heap → d = .cowOwned h.data.buf →
      (h.data = .arc h.data.buf → s.sole h.data.buf = true) →
      Effect s ⟨heap, s.moved k ++ [some ⟨d, h.layout, if d.isOwner then [] else h.lenders⟩]⟩
        (some fun t => ∃ t0, s.tensor k = some t0 ∧ t0.arr.Same t.arr) := by
    rintro h1 rfl rfl h2
    exact effect_become_same hi e rfl rfl (by simp [Data.isOwner, hi.top k h e h1]) (by rw [h1]; rfl)
      (fun hm => by simp [Data.isMut] at hm) (fun h => Or.inr (h2 h))
  have bor : ∀ r : Borrow, r.buf = h.data.buf → h.data.isOwner = false → heap = s.heap → d = .cowRef r →
      Effect s ⟨heap, s.moved k ++ [some ⟨d, h.layout, if d.isOwner then [] else h.lenders⟩]⟩
        (some fun t => ∃ t0, s.tensor k = some t0 ∧ t0.arr.Same t.arr) := by
    rintro r hr h1 rfl rfl
    exact effect_become_same hi e hr rfl (by simp [Data.isOwner]) (by rw [h1]; rfl)
      (fun hm => by simp [Data.isMut] at hm) (fun h => by rw [h] at h1; simp [Data.isOwner] at h1)
  cases hdd : h.data with
  | owned b' => rw [hdd] at hd; cases hd; exact own (by rw [hdd]; rfl) rfl (by rw [hdd]; rfl) (by rw [hdd]; simp)
  | cowOwned b' => rw [hdd] at hd; cases hd; exact own (by rw [hdd]; rfl) rfl (by rw [hdd]; rfl) (by rw [hdd]; simp)
  | arc b' =>
    rw [hdd] at hd
    simp only [Data.intoCow] at hd
    obtain ⟨⟨hp, b⟩, h1, h2⟩ := ebind_ok hd
    simp only [Data.intoOwned] at h1
    split at h1
    · cases h1; cases h2
      exact own (by rw [hdd]; rfl) rfl (by rw [hdd]; rfl) (fun _ => by rw [hdd]; assumption)
    · cases h1
  | ref r => rw [hdd] at hd; cases hd; exact bor r (by rw [hdd]; rfl) (by rw [hdd]; rfl) rfl rfl
  | mutRef r => rw [hdd] at hd; cases hd; exact bor r (by rw [hdd]; rfl) (by rw [hdd]; rfl) rfl rfl
  | cowRef r => rw [hdd] at hd; cases hd; exact bor r (by rw [hdd]; rfl) (by rw [hdd]; rfl) rfl rfl
  | refRef r => rw [hdd] at hd; cases hd; exact bor r (by rw [hdd]; rfl) (by rw [hdd]; rfl) rfl rfl
  | refMut r => rw [hdd] at hd; cases hd; exact bor r (by rw [hdd]; rfl) (by rw [hdd]; rfl) rfl rfl

/-- A mutable view. -/
theorem effect_viewMut {s : State α} (hi : Inv s.heap s.hs) {k : Nat} {h : Handle} (e : alive s.hs k = some h) {l : Layout}
    (hw : (⟨s.heap.getD h.data.buf [], l⟩ : Tensor α).WF) {heap : List (List α)} {d : Data}
    (hr : h.data.rawMut s.heap (s.sole h.data.buf) = .ok (heap, d)) {r : Borrow} (hb : r.buf = d.buf) :
    Effect s ⟨heap, (s.endBorrows k true).set k (some { h with data := d }) ++ [some ⟨.mutRef r, l, k :: h.lenders⟩]⟩
      (some fun t => ∃ t0, s.tensor k = some t0 ∧ t = ⟨t0.data, l⟩) := by
  obtain ⟨hs, rfl, i1, i2, i3, i4, i5, i6, i7, -⟩ := rawMut_spec hi e hr
  have hn := i1.viewMut i3 (l := l) (by simp only; rw [i4]; exact hw) hb (fun j g hg hbb => by
    by_cases hj : j = k
    · exact Or.inl hj
    · exact Or.inr ((i5 j g hj hg).2.2 hbb)) i6
  refine ⟨hn, ?_, ?_⟩
  · intro j t hj ht
    obtain ⟨g, h1, rfl, -⟩ := tensor_some ht
    simp only at h1
    rw [alive_add, if_neg (by omega)] at h1
    by_cases hjk : j = k
    · subst hjk
      rw [i3] at h1
      cases h1
      rw [tensor_of hi e]
      simp only [State.seen]
      rw [i4]
    · obtain ⟨h2, h3, -⟩ := i5 j g hjk h1
      rw [tensor_of hi h2]
      simp only [State.seen]
      rw [h3]
  · intro Q hQ
    cases hQ
    refine ⟨_, tensor_last i2.symm hn, ?_, _, tensor_of hi e, ?_⟩
    · exact (hn.wf s.hs.length _ (by rw [alive_add, if_pos i2.symm])).2
    · show (⟨heap.getD r.buf [], l⟩ : Tensor α) = ⟨s.heap.getD h.data.buf [], l⟩
      rw [hb, i4]

/-- Every operation but the in-place ones. -/
theorem step_effect {dflt : Order} {s s' : State α} (hi : Inv s.heap s.hs) {op : Op α} (hs : s.step dflt op = .ok s')
    (hop : ∀ k f, op ≠ .mutate k f) : Effect s s' (wanted s op) := by
  cases op with
  | create data l =>
    simp only [State.step] at hs
    split at hs
    · cases hs
    · rename_i ho
      obtain ⟨t, h1, h2⟩ := ebind_ok hs
      cases h2
      have h1 := lift_ok h1
      have ht : t = ⟨data, l⟩ := by
        unfold Tensor.newF at h1
        obtain ⟨_, -, h1⟩ := bind_ok.1 h1
        obtain ⟨⟨_, mx⟩, -, h1⟩ := bind_ok.1 h1
        simp only at h1
        split at h1
        · cases h1; rfl
        · cases h1
      subst ht
      exact effect_fresh hi hi rfl (fun _ _ h => h) rfl ⟨by show 0 ≤ l.offset; omega, h1⟩ rfl rfl rfl
  | again k =>
    simp only [State.step] at hs
    obtain ⟨h, h1, h2⟩ := ebind_ok hs
    have e := use_ok h1
    split at h2
    · rename_i b hd
      cases h2
      have hw := (hi.wf k h e).2
      refine effect_of' hi (length_end ..) (ended_old s k _) (hi.again e hd) ⟨_, tensor_of hi e, ?_⟩
      have : s.seen h = ⟨s.heap.getD b [], h.layout⟩ := by unfold State.seen; rw [hd]; rfl
      rw [this]
      exact same_self (this ▸ hw)
    · cases h2
  | view k l manual =>
    simp only [State.step] at hs
    obtain ⟨h, h1, h2⟩ := ebind_ok hs
    obtain ⟨u, h3, h4⟩ := ebind_ok h2
    cases h4
    have e := use_ok h1
    have hw := checked_ok h3
    have hr : (if manual = true then Borrow.manual h.data.buf else Borrow.trueRef h.data.buf).buf = h.data.buf := by
      split <;> rfl
    refine effect_of' hi (length_end ..) (ended_old s k _) (hi.view e hw hr) ⟨_, tensor_of hi e, ?_⟩
    show (⟨s.heap.getD (if manual = true then Borrow.manual h.data.buf else Borrow.trueRef h.data.buf).buf [], l⟩ : Tensor α) =
      ⟨s.heap.getD h.data.buf [], l⟩
    rw [hr]
  | viewMut k l manual =>
    simp only [State.step] at hs
    obtain ⟨h, h1, h2⟩ := ebind_ok hs
    obtain ⟨u, h3, h4⟩ := ebind_ok h2
    obtain ⟨⟨heap, d⟩, h5, h6⟩ := ebind_ok h4
    cases h6
    exact effect_viewMut hi (use_ok h1) (checked_ok h3) h5 (by split <;> rfl)
  | relayout k l =>
    simp only [State.step] at hs
    obtain ⟨h, h1, h2⟩ := ebind_ok hs
    obtain ⟨u, h3, h4⟩ := ebind_ok h2
    cases h4
    have e := use_ok h1
    exact effect_become hi e (x := { h with layout := l }) rfl (checked_ok h3) rfl rfl (fun h => h) (fun h => Or.inl h)
      ⟨_, tensor_of hi e, rfl⟩
  | intoReference k =>
    simp only [State.step] at hs
    obtain ⟨h, h1, h2⟩ := ebind_ok hs
    have e := use_ok h1
    split at h2
    · rename_i r hd
      cases h2
      exact effect_become_same hi e (x := { h with data := .refRef r }) (by rw [hd]; rfl) rfl rfl (by rw [hd]; rfl)
        (fun hm => by simp [Data.isMut] at hm) (fun h => by rw [hd] at h; cases h)
    · rename_i r hd
      cases h2
      exact effect_become_same hi e (x := { h with data := .refMut r }) (by rw [hd]; rfl) rfl rfl (by rw [hd]; rfl)
        (fun hm => by rw [hd]; rfl) (fun h => by rw [hd] at h; cases h)
    · cases h2
  | fromReference k w =>
    simp only [State.step] at hs
    obtain ⟨h, h1, h2⟩ := ebind_ok hs
    have e := use_ok h1
    split at h2
    · rename_i r hd
      cases h2
      exact effect_become_same hi e (x := { h with data := .ref r }) (by rw [hd]; rfl) rfl rfl (by rw [hd]; rfl)
        (fun hm => by simp [Data.isMut] at hm) (fun h => by rw [hd] at h; cases h)
    · rename_i r hd
      cases h2
      exact effect_become_same hi e (x := { h with data := .mutRef r }) (by rw [hd]; rfl) rfl rfl (by rw [hd]; rfl)
        (fun hm => by rw [hd]; rfl) (fun h => by rw [hd] at h; cases h)
    · cases h2
    · cases h2
    · cases h2
  | intoCow k =>
    simp only [State.step] at hs
    obtain ⟨h, h1, h2⟩ := ebind_ok hs
    obtain ⟨⟨heap, d⟩, h3, h4⟩ := ebind_ok h2
    cases h4
    exact effect_cow hi (use_ok h1) h3
  | intoOwned k =>
    simp only [State.step] at hs
    obtain ⟨h, h1, h2⟩ := ebind_ok hs
    obtain ⟨⟨heap, b, l⟩, h3, h4⟩ := ebind_ok h2
    cases h4
    have e := use_ok h1
    obtain ⟨k1, k2, k3⟩ := owning_ok hi e (d := h.data) rfl h3
    rcases k3 with ⟨x, rfl, rfl⟩ | ⟨rfl, rfl, k4⟩
    · simp only [List.getD_eq_getElem?_getD, List.getElem?_concat_length, Option.getD_some] at k1 k2
      exact effect_fresh hi (hi.moved k) (length_moved s k) (moved_old s k) rfl k2 rfl rfl ⟨_, tensor_of hi e, k1⟩
    · exact effect_own hi e k4 rfl rfl rfl rfl
  | intoOwnedKeep k =>
    simp only [State.step] at hs
    obtain ⟨h, h1, h2⟩ := ebind_ok hs
    obtain ⟨⟨heap, b⟩, h3, h4⟩ := ebind_ok h2
    cases h4
    exact effect_own hi (use_ok h1) h3 rfl rfl rfl rfl
  | intoShared k =>
    simp only [State.step] at hs
    obtain ⟨h, h1, h2⟩ := ebind_ok hs
    have e := use_ok h1
    obtain ⟨f, h3, h4⟩ := ebind_ok h2
    split at h4
    · cases h4
      exact effect_share hi e rfl
    · obtain ⟨t, h5, h6⟩ := ebind_ok h4
      cases h6
      have hw : (s.seen h).WF := (hi.wf k h e).2
      obtain ⟨c, c1, c2, c3, -⟩ := C35_asarray dflt (s.seen h) hw .K (by simp)
      have h5 := lift_ok h5
      rw [c1] at h5
      cases h5
      exact effect_fresh hi (hi.moved k) (length_moved s k) (moved_old s k) rfl c2 rfl rfl ⟨_, tensor_of hi e, c3⟩
  | intoSharedKeep k =>
    simp only [State.step] at hs
    obtain ⟨h, h1, h2⟩ := ebind_ok hs
    cases h2
    exact effect_share hi (use_ok h1) rfl
  | toOwned k =>
    simp only [State.step] at hs
    obtain ⟨h, h1, h2⟩ := ebind_ok hs
    obtain ⟨⟨heap, b, l⟩, h3, h4⟩ := ebind_ok h2
    cases h4
    have e := use_ok h1
    obtain ⟨k1, k2, k3⟩ := owning_ok hi e (d := .ref (.trueRef h.data.buf)) rfl h3
    rcases k3 with ⟨x, rfl, rfl⟩ | ⟨rfl, rfl, k4⟩
    · simp only [List.getD_eq_getElem?_getD, List.getElem?_concat_length, Option.getD_some] at k1 k2
      exact effect_fresh hi (hi.ended k false) (length_end ..) (ended_old s k _) rfl k2 rfl rfl ⟨_, tensor_of hi e, k1⟩
    · simp [Data.intoOwned, cloneBuf] at k4
  | cloneCow k =>
    simp only [State.step] at hs
    obtain ⟨h, h1, h2⟩ := ebind_ok hs
    obtain ⟨⟨heap, b, l⟩, h3, h4⟩ := ebind_ok h2
    cases h4
    have e := use_ok h1
    obtain ⟨k1, k2, k3⟩ := owning_ok hi e (d := .ref (.trueRef h.data.buf)) rfl h3
    rcases k3 with ⟨x, rfl, rfl⟩ | ⟨rfl, rfl, k4⟩
    · simp only [List.getD_eq_getElem?_getD, List.getElem?_concat_length, Option.getD_some] at k1 k2
      exact effect_fresh hi (hi.ended k false) (length_end ..) (ended_old s k _) rfl k2 rfl rfl ⟨_, tensor_of hi e, k1⟩
    · simp [Data.intoOwned, cloneBuf] at k4
  | mutate k f => exact absurd rfl (hop k f)
  | drop k =>
    simp only [State.step] at hs
    obtain ⟨h, h1, h2⟩ := ebind_ok hs
    cases h2
    refine ⟨hi.moved k, ?_, fun P hP => by cases hP⟩
    intro j t hj ht
    obtain ⟨g, h3, rfl, -⟩ := tensor_some ht
    rw [tensor_of hi (moved_old s k j g h3)]
    rfl

/-- An in-place operation through `k`. -/
theorem mutate_effect {dflt : Order} {s s' : State α} (hi : Inv s.heap s.hs) {k : Nat} {f : Tensor α → Res (List α)}
    (hs : s.step dflt (.mutate k f) = .ok s') :
    Inv s'.heap s'.hs ∧ ∃ h t d, alive s.hs k = some h ∧ s.tensor k = some t ∧ f t = .ok d ∧ d.length = t.data.length ∧
      s'.tensor k = some ⟨d, t.layout⟩ ∧
      (∀ j u, j ≠ k → s'.tensor j = some u → j ∉ h.lenders → s.tensor j = some u) ∧
      ∀ j ∈ h.lenders, ∀ u, s.tensor j = some u → s'.tensor j = some ⟨d, u.layout⟩ := by
  simp only [State.step] at hs
  obtain ⟨h, h1, h2⟩ := ebind_ok hs
  have e := use_ok h1
  obtain ⟨⟨heap, dd⟩, h3, h4⟩ := ebind_ok h2
  obtain ⟨d, h5, h6⟩ := ebind_ok h4
  have h5 := lift_ok h5
  simp only at h5 h6
  split at h6
  · cases h6
  · rename_i hlen
    have hlen : d.length = (heap.getD dd.buf []).length := by simpa using hlen
    cases h6
    obtain ⟨hs', e', i1, i2, i3, i4, i5, i6, i7, i8⟩ := rawMut_spec hi e h3
    rw [← e']
    have hb := (i1.wf k _ i3).1
    have hw := i1.write (b := dd.buf) (d := d) hlen
    refine ⟨hw, h, s.seen h, d, e, tensor_of hi e, ?_, ?_, ?_, ?_, ?_⟩
    · rw [i4] at h5; exact h5
    · rw [hlen, i4]; rfl
    · rw [tensor_of (s := ⟨heap.set dd.buf d, hs'⟩) hw i3]
      simp only [State.seen, List.getD_eq_getElem?_getD]
      rw [List.getElem?_set_self hb]
      rfl
    · intro j u hj hu hnot
      obtain ⟨g, g1, rfl, -⟩ := tensor_some hu
      obtain ⟨g2, g3, g4⟩ := i5 j g hj g1
      rw [tensor_of hi g2]
      simp only [State.seen, List.getD_eq_getElem?_getD]
      rw [List.getElem?_set_ne (fun hc => hnot (g4 hc.symm)), ← List.getD_eq_getElem?_getD, ← List.getD_eq_getElem?_getD, g3]
    · intro j hj u hu
      obtain ⟨g, g1, rfl, -⟩ := tensor_some hu
      have g2 : alive hs' j = some g := (i8 j hj).trans g1
      rw [tensor_of (s := ⟨heap.set dd.buf d, hs'⟩) hw g2]
      have := i7 j hj g g2
      simp only [State.seen, List.getD_eq_getElem?_getD]
      rw [this, List.getElem?_set_self hb]
      rfl

theorem inv_run {dflt : Order} : ∀ (ops : List (Op α)) {s s' : State α}, Inv s.heap s.hs → State.run dflt ops s = .ok s' →
    Inv s'.heap s'.hs
  | [], s, s', hi, h => by cases h; exact hi
  | op :: ops, s, s', hi, h => by
    unfold State.run at h
    obtain ⟨s1, h1, h2⟩ := ebind_ok h
    refine inv_run ops ?_ h2
    by_cases hop : ∃ k f, op = .mutate k f
    · obtain ⟨k, f, rfl⟩ := hop
      exact (mutate_effect hi h1).1
    · exact (step_effect hi h1 (fun k f hc => hop ⟨k, f, hc⟩)).inv

theorem Reachable.inv {dflt : Order} {s : State α} (h : Reachable dflt s) : Inv s.heap s.hs := by
  obtain ⟨ops, h⟩ := h
  exact inv_run ops inv_start h

theorem full_ok {t : Tensor α} (hw : t.WF) : ∃ b, lift (full t) = .ok b := by
  obtain ⟨mn, mx, hb, -⟩ := WF_bounds hw
  exact ⟨_, by unfold full; rw [hb]; rfl⟩

theorem full_size {t : Tensor α} (h : lift (full t) = .ok true) : t.data.length = t.layout.size := by
  have h := lift_ok h
  unfold full at h
  obtain ⟨⟨mn, mx⟩, -, h2⟩ := bind_ok.1 h
  have h3 : decide (mn = 0 ∧ mx = t.data.length ∧ mx = t.layout.size) = true := Except.ok.inj h2
  have h3 := of_decide_eq_true h3
  omega

theorem cloneBuf_data (heap : List (List α)) (b : Nat) : (cloneBuf heap b).1.getD (cloneBuf heap b).2 [] = heap.getD b [] := by
  simp [cloneBuf, List.getD_eq_getElem?_getD]

theorem intoOwned_data {heap heap' : List (List α)} {sole : Bool} {d : Data} {b : Nat}
    (h : d.intoOwned heap sole = .ok (heap', b)) : heap'.getD b [] = heap.getD d.buf [] := by
  have copy : ∀ r : Borrow, (Except.ok (cloneBuf heap r.buf) : Except Stop _) = .ok (heap', b) →
      heap'.getD b [] = heap.getD r.buf [] := by
    intro r e
    have e := Except.ok.inj e
    have := cloneBuf_data heap r.buf
    rw [e] at this
    exact this
  cases d with
  | owned b' => cases h; rfl
  | cowOwned b' => cases h; rfl
  | arc b' =>
    simp only [Data.intoOwned] at h
    split at h
    · cases h; rfl
    · cases h
  | ref r => exact copy r h
  | mutRef r => exact copy r h
  | cowRef r => exact copy r h
  | refRef r => exact copy r h
  | refMut r => exact copy r h

theorem intoShared_data (heap : List (List α)) (d : Data) :
    (d.intoShared heap).1.getD (d.intoShared heap).2 [] = heap.getD d.buf [] := by
  cases d <;> first | rfl | exact cloneBuf_data _ _

theorem owning_size {dflt : Order} {s : State α} {h : Handle} (hw : (s.seen h).WF) {heap : List (List α)} {b : Nat} {l : Layout}
    (ho : s.owning dflt h = .ok (heap, b, l)) : (heap.getD b []).length = h.layout.size := by
  unfold State.owning at ho
  obtain ⟨f, h1, h2⟩ := ebind_ok ho
  split at h2
  · rename_i hf
    subst hf
    obtain ⟨⟨hp, b'⟩, h3, h4⟩ := ebind_ok h2
    cases h4
    rw [intoOwned_data h3]
    exact full_size h1
  · obtain ⟨t, h3, h4⟩ := ebind_ok h2
    cases h4
    obtain ⟨c, c1, -, -, c2, -⟩ := C35_asarray dflt (s.seen h) hw .K (by simp)
    have h3 := lift_ok h3
    rw [c1] at h3
    cases h3
    have c2 : t.data.length = h.layout.size := c2
    simpa [List.getD_eq_getElem?_getD] using c2

end Own

open Own

variable {α : Type}

/-- C51, isolation: after any history, an in-place operation through one handle leaves what every other handle shows
as it was, except for those the handle is itself borrowed from. -/
theorem C51_isolation (dflt : Order) (s s' : State α) (hr : Reachable dflt s) (k : Nat) (f : Tensor α → Res (List α))
    (hs : s.step dflt (.mutate k f) = .ok s') (j : Nat) (hj : j ≠ k) (hl : ∀ h, s.live k = some h → j ∉ h.lenders)
    (t : Tensor α) (ht : s'.tensor j = some t) : s.tensor j = some t := by
  obtain ⟨-, h, _, _, h1, -, -, -, -, h2, -⟩ := mutate_effect hr.inv hs
  exact h2 j t hj ht (hl h h1)

/-- C51, owners: an in-place operation through an owning handle (owned or shared) changes nothing that any other handle
shows, whatever they share. -/
theorem C51_owner_isolation (dflt : Order) (s s' : State α) (hr : Reachable dflt s) (k : Nat) (h : Handle)
    (hk : s.live k = some h) (ho : (∃ b, h.data = .owned b) ∨ ∃ b, h.data = .arc b) (f : Tensor α → Res (List α))
    (hs : s.step dflt (.mutate k f) = .ok s') (j : Nat) (hj : j ≠ k) (t : Tensor α) (ht : s'.tensor j = some t) :
    s.tensor j = some t := by
  refine C51_isolation dflt s s' hr k f hs j hj (fun h' hh => ?_) t ht
  rw [hk] at hh
  cases hh
  rw [hr.inv.top k h hk (by rcases ho with ⟨b, e⟩ | ⟨b, e⟩ <;> rw [e] <;> rfl)]
  simp

/-- C51, effect: the operation works on what the handle shows, its result is what the handle shows afterwards, and it
is what those show from which the handle is borrowed. -/
theorem C51_effect (dflt : Order) (s s' : State α) (hr : Reachable dflt s) (k : Nat) (f : Tensor α → Res (List α))
    (hs : s.step dflt (.mutate k f) = .ok s') :
    ∃ h t d, s.live k = some h ∧ s.tensor k = some t ∧ t.WF ∧ f t = .ok d ∧ s'.tensor k = some ⟨d, t.layout⟩ ∧
      ∀ j ∈ h.lenders, ∀ u, s.tensor j = some u → s'.tensor j = some ⟨d, u.layout⟩ := by
  obtain ⟨-, h, t, d, h1, h2, h3, -, h4, -, h5⟩ := mutate_effect hr.inv hs
  refine ⟨h, t, d, h1, h2, ?_, h3, h4, h5⟩
  obtain ⟨g, g1, rfl, -⟩ := tensor_some h2
  exact (hr.inv.wf k g g1).2

/-- C51, every other operation leaves what the existing handles show as it was. -/
theorem C51_others (dflt : Order) (s s' : State α) (hr : Reachable dflt s) (op : Op α) (hop : ∀ k f, op ≠ .mutate k f)
    (hs : s.step dflt op = .ok s') (j : Nat) (hj : j < s.hs.length) (t : Tensor α) (ht : s'.tensor j = some t) :
    s.tensor j = some t :=
  (step_effect hr.inv hs hop).old j t hj ht

/-- C51, conversions keep the value: the tensor made by `into_cow`, `into_owned`, `into_shared`, `to_owned`, `clone`
and the conversions from and to references shows the same array as the one it was made from. -/
theorem C51_convert (dflt : Order) (s s' : State α) (hr : Reachable dflt s) (k : Nat) (op : Op α)
    (hop : op = .again k ∨ op = .intoReference k ∨ (∃ w, op = .fromReference k w) ∨ op = .intoCow k ∨ op = .intoOwned k ∨
      op = .intoOwnedKeep k ∨ op = .intoShared k ∨ op = .intoSharedKeep k ∨ op = .toOwned k ∨ op = .cloneCow k)
    (hs : s.step dflt op = .ok s') :
    ∃ t t', s.tensor k = some t ∧ s'.tensor s.hs.length = some t' ∧ t'.WF ∧ t.arr.Same t'.arr := by
  have key : wanted s op = some (fun t => ∃ t0, s.tensor k = some t0 ∧ t0.arr.Same t.arr) ∧ ∀ k f, op ≠ .mutate k f := by
    rcases hop with rfl | rfl | ⟨w, rfl⟩ | rfl | rfl | rfl | rfl | rfl | rfl | rfl <;>
      exact ⟨rfl, fun _ _ h => by cases h⟩
  obtain ⟨t', h1, h2, t, h3, h4⟩ := (step_effect hr.inv hs key.2).new _ key.1
  exact ⟨t, t', h3, h1, h2, h4⟩

/-- C51, views: a view shows the storage of the tensor it is taken from, through the layout of the view. -/
theorem C51_views (dflt : Order) (s s' : State α) (hr : Reachable dflt s) (k : Nat) (l : Layout) (op : Op α)
    (hop : (∃ m, op = .view k l m) ∨ (∃ m, op = .viewMut k l m) ∨ op = .relayout k l) (hs : s.step dflt op = .ok s') :
    ∃ t, s.tensor k = some t ∧ s'.tensor s.hs.length = some ⟨t.data, l⟩ := by
  have key : wanted s op = some (fun t => ∃ t0, s.tensor k = some t0 ∧ t = ⟨t0.data, l⟩) ∧ ∀ k f, op ≠ .mutate k f := by
    rcases hop with ⟨m, rfl⟩ | ⟨m, rfl⟩ | rfl <;> exact ⟨rfl, fun _ _ h => by cases h⟩
  obtain ⟨t', h1, -, t, h3, rfl⟩ := (step_effect hr.inv hs key.2).new _ key.1
  exact ⟨t, h3, h1⟩

/-- C51, small copies: what `into_owned`, `into_shared`, `to_owned` and `clone` give has exactly as many cells of storage
as it has elements, however large the storage of the tensor was that it was made from. -/
theorem C51_compact (dflt : Order) (s s' : State α) (hr : Reachable dflt s) (k : Nat) (op : Op α)
    (hop : op = .intoOwned k ∨ op = .intoShared k ∨ op = .toOwned k ∨ op = .cloneCow k) (hs : s.step dflt op = .ok s') :
    ∃ t', s'.tensor s.hs.length = some t' ∧ t'.data.length = t'.arr.shape.prod := by
  obtain ⟨t, t', h1, h2, -, h3, -⟩ := C51_convert dflt s s' hr k op
    (by rcases hop with rfl | rfl | rfl | rfl <;> simp) hs
  refine ⟨t', h2, ?_⟩
  rw [h3]
  obtain ⟨h, e, rfl, -⟩ := tensor_some h1
  have hw : (s.seen h).WF := (hr.inv.wf k h e).2
  have hu : s.use k = .ok h := by
    unfold State.use
    rw [show s.live k = some h from e]
  have last : ∀ (heap : List (List α)) (hs' : List (Option Handle)) (x : Handle), hs'.length = s.hs.length →
      s' = ⟨heap, hs' ++ [some x]⟩ → t'.data = heap.getD x.data.buf [] := by
    rintro heap hs' x hl rfl
    obtain ⟨g, g1, rfl, -⟩ := tensor_some h2
    simp only at g1
    rw [alive_add, if_pos hl.symm] at g1
    cases g1
    rfl
  have own : ∀ (d : Data), d.buf = h.data.buf → ∀ heap b l, s.owning dflt { h with data := d } = .ok (heap, b, l) →
      (heap.getD b []).length = h.layout.size := fun d hd heap b l ho =>
    owning_size (h := { h with data := d }) (by unfold State.seen; rw [hd]; exact hw) ho
  rcases hop with rfl | rfl | rfl | rfl
  · simp only [State.step] at hs
    obtain ⟨h', hh, hs⟩ := ebind_ok hs
    cases hu.symm.trans hh
    obtain ⟨⟨heap, b, l⟩, h5, h6⟩ := ebind_ok hs
    cases h6
    rw [last _ _ _ (length_moved s k) rfl]
    exact own h.data rfl _ _ _ h5
  · simp only [State.step] at hs
    obtain ⟨h', hh, hs⟩ := ebind_ok hs
    cases hu.symm.trans hh
    obtain ⟨f, h5, h6⟩ := ebind_ok hs
    split at h6
    · rename_i hf
      subst hf
      cases h6
      rw [last _ _ _ (length_moved s k) rfl]
      exact (congrArg List.length (intoShared_data s.heap h.data)).trans (full_size h5)
    · obtain ⟨c, h7, h8⟩ := ebind_ok h6
      cases h8
      rw [last _ _ _ (length_moved s k) rfl]
      obtain ⟨c', c1, -, -, c2, -⟩ := C35_asarray dflt (s.seen h) hw .K (by simp)
      have h7 := lift_ok h7
      rw [c1] at h7
      cases h7
      simpa [Data.buf, List.getD_eq_getElem?_getD] using c2
  · simp only [State.step] at hs
    obtain ⟨h', hh, hs⟩ := ebind_ok hs
    cases hu.symm.trans hh
    obtain ⟨⟨heap, b, l⟩, h5, h6⟩ := ebind_ok hs
    cases h6
    rw [last _ _ _ (length_end ..) rfl]
    exact own (.ref (.trueRef h.data.buf)) rfl _ _ _ h5
  · simp only [State.step] at hs
    obtain ⟨h', hh, hs⟩ := ebind_ok hs
    cases hu.symm.trans hh
    obtain ⟨⟨heap, b, l⟩, h5, h6⟩ := ebind_ok hs
    cases h6
    rw [last _ _ _ (length_end ..) rfl]
    exact own (.ref (.trueRef h.data.buf)) rfl _ _ _ h5

/-- A view of two of the three cells of a storage; its owned version has two cells. -/
example : ∃ s s' : State Nat, Reachable .C s ∧ (s.tensor 1).map (fun t => t.data) = some [1, 2, 3] ∧ s.step .C (.intoOwned 1) = .ok s' ∧
    (s'.tensor 2).map (fun t => t.data) = some [2, 3] :=
  ⟨_, _, ⟨[.create [1, 2, 3] ⟨[⟨3, 1⟩], 0⟩, .view 0 ⟨[⟨2, 1⟩], 1⟩ false], rfl⟩, rfl, rfl, rfl⟩

/-- C51, conversions succeed: `to_owned`, `clone`, `into_shared` always, `into_owned` unless the tensor is one of
several on the same `Arc`. -/
theorem C51_total (dflt : Order) (s : State α) (hr : Reachable dflt s) (k : Nat) (h : Handle) (hk : s.live k = some h) :
    (∃ s', s.step dflt (.toOwned k) = .ok s') ∧ (∃ s', s.step dflt (.cloneCow k) = .ok s') ∧
    (∃ s', s.step dflt (.intoShared k) = .ok s') ∧
    ((∃ s', s.step dflt (.intoOwned k) = .ok s') ∨
      (s.step dflt (.intoOwned k) = .error .panic ∧
        ∃ j g b, j ≠ k ∧ s.live j = some g ∧ h.data = .arc b ∧ g.data = .arc b)) := by
  have hi := hr.inv
  have hw : (s.seen h).WF := (hi.wf k h hk).2
  have hu : s.use k = .ok h := by unfold State.use; rw [hk]
  have own : ∀ d : Data, d.buf = h.data.buf → (∃ x, d.intoOwned s.heap (s.sole d.buf) = .ok x) →
      ∃ x, s.owning dflt { h with data := d } = .ok x := by
    intro d hd ⟨x, hx⟩
    have hseen : s.seen { h with data := d } = s.seen h := by unfold State.seen; simp only [hd]
    obtain ⟨b, hb⟩ := full_ok hw
    unfold State.owning
    rw [hseen, hb]
    cases b
    · obtain ⟨c, c1, -⟩ := C35_asarray dflt (s.seen h) hw .K (by simp)
      rw [c1]
      exact ⟨_, rfl⟩
    · simp only [hx]
      exact ⟨_, rfl⟩
  have cp : ∃ x, s.owning dflt { h with data := .ref (.trueRef h.data.buf) } = .ok x := own _ rfl ⟨_, rfl⟩
  refine ⟨?_, ?_, ?_, ?_⟩
  · obtain ⟨⟨a, b, c⟩, hx⟩ := cp
    simp only [State.step, hu]
    exact ⟨_, by show (s.owning dflt _ >>= _) = _; rw [hx]; rfl⟩
  · obtain ⟨⟨a, b, c⟩, hx⟩ := cp
    simp only [State.step, hu]
    exact ⟨_, by show (s.owning dflt _ >>= _) = _; rw [hx]; rfl⟩
  · simp only [State.step, hu]
    obtain ⟨b, hb⟩ := full_ok hw
    show ∃ s', (lift (full (s.seen h)) >>= _) = .ok s'
    rw [hb]
    cases b
    · obtain ⟨c, c1, -⟩ := C35_asarray dflt (s.seen h) hw .K (by simp)
      rw [c1]
      exact ⟨_, rfl⟩
    · exact ⟨_, rfl⟩
  · by_cases hx : ∃ x, h.data.intoOwned s.heap (s.sole h.data.buf) = .ok x
    · obtain ⟨⟨a, b, c⟩, hx⟩ := own h.data rfl hx
      left
      simp only [State.step, hu]
      exact ⟨_, by show (s.owning dflt h >>= _) = _; rw [hx]; rfl⟩
    · cases hd : h.data with
      | arc b =>
        by_cases hsole : s.sole b = true
        · exact absurd ⟨_, by rw [hd]; simp only [Data.intoOwned]; exact if_pos hsole⟩ hx
        · obtain ⟨j, g, h1, h2, h3⟩ := sole_other (by simpa using hsole) hk hd
          obtain ⟨fl, hb⟩ := full_ok hw
          cases fl
          · left
            obtain ⟨c, c1, -⟩ := C35_asarray dflt (s.seen h) hw .K (by simp)
            simp only [State.step, hu]
            show ∃ s', (s.owning dflt h >>= _) = .ok s'
            unfold State.owning
            rw [hb, c1]
            exact ⟨_, rfl⟩
          · right
            refine ⟨?_, j, g, b, h1, h2, rfl, h3⟩
            simp only [State.step, hu]
            show (s.owning dflt h >>= _) = .error .panic
            unfold State.owning
            rw [hb, hd]
            simp only [Data.intoOwned, Data.buf]
            show ((if s.sole b = true then _ else _) >>= _) >>= _ = _
            rw [if_neg hsole]
            rfl
      | _ => exact absurd ⟨_, by rw [hd]; rfl⟩ hx

/-- The small program of the examples: a tensor is made shared, a second handle is put on the same `Arc`. -/
def sharedProgram : List (Op Nat) :=
  [.create [1, 2, 3] ⟨[⟨3, 1⟩], 0⟩, .intoShared 0, .again 1]

/-- `into_owned` of a tensor that shares its `Arc` panics, although its documentation says that data is "either moved
or cloned". -/
theorem C51_false_into_owned :
    ∃ s : State Nat, Reachable .C s ∧ s.tensor 1 = some ⟨[1, 2, 3], ⟨[⟨3, 1⟩], 0⟩⟩ ∧
      s.step .C (.intoOwned 1) = .error .panic ∧ s.step .C (.intoCow 1) = .error .panic :=
  ⟨_, ⟨sharedProgram, rfl⟩, rfl, rfl, rfl⟩

/-- The shared iterators (`iter`, `axes_iter`, ...) are outside of C51's histories, and for good reason: what they give
out is borrowed from nothing. The program may write to the tensor while it holds the iterator, and sees the write in
it; it may even drop the tensor, and the iterator then points to memory that nobody owns. -/
theorem C51_false_iter :
    ∃ s s1 : State Nat, Reachable .C s ∧ s.looseView 0 ⟨[⟨3, 1⟩], 0⟩ = .ok s1 ∧
      (s1.tensor 1).map Tensor.data = some [1, 2, 3] ∧
      (∃ s2, s1.step .C (.mutate 0 fun t => (t.fillF .C 7).map Tensor.data) = .ok s2 ∧
        (s2.tensor 1).map Tensor.data = some [7, 7, 7]) ∧
      ∃ s3 h, s1.step .C (.drop 0) = .ok s3 ∧ s3.live 1 = some h ∧
        ∀ j g, s3.live j = some g → g.data.isOwner = true → g.data.buf ≠ h.data.buf := by
  refine ⟨_, _, ⟨[.create [1, 2, 3] ⟨[⟨3, 1⟩], 0⟩], rfl⟩, rfl, rfl, ⟨_, rfl, rfl⟩, _, _, rfl, rfl, ?_⟩
  intro j g hj ho
  match j, hj with
  | 0, hj => exact absurd (show (none : Option Handle) = some g from hj) (by simp)
  | 1, hj =>
    cases hj
    exact absurd ho (by decide)
  | j + 2, hj => exact absurd (show (none : Option Handle) = some g from hj) (by simp)

/-- A history with writes through a shared tensor, a mutable view and a clone. -/
def longProgram : List (Op Nat) :=
  sharedProgram ++ [.view 1 ⟨[⟨2, 1⟩], 1⟩ false, .toOwned 3, .viewMut 2 ⟨[⟨3, -1⟩], 2⟩ false,
    .mutate 5 fun t => (t.fillF .C 7).map Tensor.data, .mutate 4 fun t => (t.fillF .C 8).map Tensor.data]

/-- The history is possible; the writes through handle 5 (a view of handle 2) and handle 4 (a copy) show there and
nowhere else. -/
example : ∃ s, State.run .C longProgram start = .ok s ∧ (s.tensor 1).map Tensor.data = some [1, 2, 3] ∧
    (s.tensor 2).map Tensor.data = some [7, 7, 7] ∧ (s.tensor 3).map Tensor.data = some [1, 2, 3] ∧
    (s.tensor 4).map Tensor.data = some [8, 8] ∧ (s.tensor 5).map Tensor.data = some [7, 7, 7] :=
  ⟨_, rfl, rfl, rfl, rfl, rfl, rfl⟩

end Rstsr
