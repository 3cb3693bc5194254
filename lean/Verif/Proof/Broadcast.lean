import Verif.Spec.Broadcast
import Verif.Model.Broadcast
import Verif.Proof.Diagonal
/-! # Lemmas about broadcasting

Both orders are reduced to shapes aligned at the head of the list (`bcLoop`). -/
namespace Rstsr
open Spec

theorem bcDim_eq (a b : Nat) : bcDim a b =
    if a = 1 then (if b = 1 then .ok (1, .preserve, .preserve) else .ok (b, .upcast, .preserve))
    else if b = 1 then .ok (a, .preserve, .upcast)
    else if a = b then .ok (a, .preserve, .preserve) else .error .invalidLayout := by
  unfold bcDim
  by_cases ha : a = 1 <;> by_cases hb : b = 1
  · simp [ha, hb]
  · have : (b == 1) = false := by simpa using hb
    simp [ha, hb, this]
  · have : (a == 1) = false := by simpa using ha
    simp [ha, hb, this]
  · have h1 : (a == 1) = false := by simpa using ha
    have h2 : (b == 1) = false := by simpa using hb
    simp [ha, hb, h1, h2]

theorem bcDim_ok {a b d : Nat} {t1 t2 : BType} (h : bcDim a b = .ok (d, t1, t2)) :
    ((a = d ∨ a = 1) ∧ (b = d ∨ b = 1) ∧ (d = a ∨ d = b)) ∧
    (t1 = .preserve ∧ a = d ∨ t1 = .upcast ∧ a = 1) ∧ (t2 = .preserve ∧ b = d ∨ t2 = .upcast ∧ b = 1) := by
  rw [bcDim_eq] at h
  split_ifs at h <;> cases h <;> simp_all

theorem bcDim_accept {a b : Nat} :
    (∃ r, bcDim a b = .ok r) ↔ a = b ∨ a = 1 ∨ b = 1 := by
  rw [bcDim_eq]
  split_ifs <;> simp_all

theorem bcDim_error {a b : Nat} {e : Err} (h : bcDim a b = .error e) : e = .invalidLayout := by
  rw [bcDim_eq] at h
  split_ifs at h
  cases h
  rfl

theorem bcDim_swap {a b d : Nat} {t1 t2 : BType} (h : bcDim a b = .ok (d, t1, t2)) :
    bcDim b a = .ok (d, t2, t1) := by
  rw [bcDim_eq] at h ⊢
  split_ifs at h <;> cases h <;> simp_all

theorem bcLoop_nil_cons (y : Nat) (b : List Nat) :
    bcLoop [] (y :: b) = (do
      let (d, _, t2) ← bcDim 1 y
      return (d, .expand, t2) :: (← bcLoop [] b)) := by
  simp only [bcLoop, List.mapM_cons]
  cases bcDim 1 y <;> rfl

@[simp] theorem bcLoop_nil_nil : bcLoop [] [] = .ok [] := rfl

/-- One unfolding of the loop for all cases, with missing axes of length 1. -/
theorem bcLoop_step {a b : List Nat} (h : ¬ (a = [] ∧ b = [])) {r : List (Nat × BType × BType)} :
    bcLoop a b = .ok r ↔ ∃ d t1 t2 rest,
      bcDim (a.headD 1) (b.headD 1) = .ok (d, t1, t2) ∧ bcLoop a.tail b.tail = .ok rest ∧
      r = (d, (if a = [] then .expand else t1), (if b = [] then .expand else t2)) :: rest := by
  cases a with
  | nil =>
    cases b with
    | nil => simp at h
    | cons y b =>
      rw [bcLoop_nil_cons]
      simp only [List.headD_nil, List.headD_cons, List.tail_nil, List.tail_cons, bind_ok]
      constructor
      · rintro ⟨⟨d, t1, t2⟩, h1, rest, h2, h3⟩
        cases h3
        exact ⟨d, t1, t2, rest, h1, h2, by simp⟩
      · rintro ⟨d, t1, t2, rest, h1, h2, rfl⟩
        exact ⟨(d, t1, t2), h1, rest, h2, by simp⟩
  | cons x a =>
    cases b with
    | nil =>
      rw [bcLoop]
      simp only [List.headD_nil, List.headD_cons, List.tail_nil, List.tail_cons, bind_ok]
      constructor
      · rintro ⟨⟨d, t1, t2⟩, h1, rest, h2, h3⟩
        cases h3
        exact ⟨d, t1, t2, rest, h1, h2, by simp⟩
      · rintro ⟨d, t1, t2, rest, h1, h2, rfl⟩
        exact ⟨(d, t1, t2), h1, rest, h2, by simp⟩
    | cons y b =>
      rw [bcLoop]
      simp only [List.headD_cons, List.tail_cons, bind_ok]
      constructor
      · rintro ⟨⟨d, t1, t2⟩, h1, rest, h2, h3⟩
        cases h3
        exact ⟨d, t1, t2, rest, h1, h2, by simp⟩
      · rintro ⟨d, t1, t2, rest, h1, h2, rfl⟩
        exact ⟨(d, t1, t2), h1, rest, h2, by simp⟩

theorem getD_zero (a : List Nat) : a.getD 0 1 = a.headD 1 := by cases a <;> simp
theorem getD_succ (a : List Nat) (k : Nat) : a.getD (k + 1) 1 = a.tail.getD k 1 := by cases a <;> simp

/-- Induction on two lists walked in parallel until both are exhausted. -/
theorem pairInd {P : List Nat → List Nat → Prop} (h0 : P [] [])
    (h1 : ∀ a b, ¬ (a = [] ∧ b = []) → P a.tail b.tail → P a b) (a b : List Nat) : P a b := by
  induction a generalizing b with
  | nil =>
    induction b with
    | nil => exact h0
    | cons y b ih => exact h1 _ _ (by simp) ih
  | cons x a ih => exact h1 _ _ (by simp) (ih _)

/-- Both lists stretch to `s`, place by place. -/
def StretchRel (a b s : List Nat) : Prop :=
  s.length = max a.length b.length ∧ ∀ k, k < s.length →
    (a.getD k 1 = s.getD k 1 ∨ a.getD k 1 = 1) ∧ (b.getD k 1 = s.getD k 1 ∨ b.getD k 1 = 1) ∧
    (s.getD k 1 = a.getD k 1 ∨ s.getD k 1 = b.getD k 1)

theorem stretchRel_nil {s : List Nat} : StretchRel [] [] s ↔ s = [] := by
  constructor
  · rintro ⟨h, _⟩; simpa using h
  · rintro rfl; exact ⟨rfl, by simp⟩

theorem stretchRel_step {a b : List Nat} (h : ¬ (a = [] ∧ b = [])) {s : List Nat} :
    StretchRel a b s ↔ ∃ d t, s = d :: t ∧
      ((a.headD 1 = d ∨ a.headD 1 = 1) ∧ (b.headD 1 = d ∨ b.headD 1 = 1) ∧ (d = a.headD 1 ∨ d = b.headD 1)) ∧
      StretchRel a.tail b.tail t := by
  have hm : 0 < max a.length b.length := by
    cases a <;> cases b <;> simp_all
  have ht : max a.tail.length b.tail.length = max a.length b.length - 1 := by
    simp only [List.length_tail]; omega
  constructor
  · rintro ⟨h1, h2⟩
    cases s with
    | nil => simp at h1; omega
    | cons d t =>
      refine ⟨d, t, rfl, ?_, ?_, ?_⟩
      · simpa only [getD_zero, List.headD_cons] using h2 0 (by simp)
      · simp at h1; omega
      · intro k hk
        have := h2 (k + 1) (by simpa using hk)
        simpa only [getD_succ, List.tail_cons] using this
  · rintro ⟨d, t, rfl, h1, h2, h3⟩
    refine ⟨by simp; omega, ?_⟩
    intro k hk
    cases k with
    | zero => simpa only [getD_zero, List.headD_cons] using h1
    | succ k => simpa only [getD_succ, List.tail_cons] using h3 k (by simpa using hk)

theorem bcLoop_shape {a b s : List Nat} :
    (∃ r, bcLoop a b = .ok r ∧ r.map (·.1) = s) ↔ StretchRel a b s := by
  induction a, b using pairInd generalizing s with
  | h0 =>
    rw [stretchRel_nil]
    simp [eq_comm]
  | h1 a b h ih =>
    rw [stretchRel_step h]
    constructor
    · rintro ⟨r, hr, rfl⟩
      obtain ⟨d, t1, t2, rest, h1, h2, rfl⟩ := (bcLoop_step h).1 hr
      exact ⟨d, rest.map (·.1), by simp, (bcDim_ok h1).1, ih.1 ⟨rest, h2, rfl⟩⟩
    · rintro ⟨d, t, rfl, h1, h2⟩
      obtain ⟨rest, hr, rfl⟩ := ih.2 h2
      have : ∃ r, bcDim (a.headD 1) (b.headD 1) = .ok r := bcDim_accept.2 (by omega)
      obtain ⟨⟨d', t1, t2⟩, hd⟩ := this
      have hd' : d' = d := by have := (bcDim_ok hd).1; omega
      subst hd'
      exact ⟨_, (bcLoop_step h).2 ⟨d', t1, t2, rest, hd, hr, rfl⟩, by simp⟩

theorem bcLoop_accept {a b : List Nat} :
    (∃ r, bcLoop a b = .ok r) ↔ ∀ k, a.getD k 1 = b.getD k 1 ∨ a.getD k 1 = 1 ∨ b.getD k 1 = 1 := by
  induction a, b using pairInd with
  | h0 => simp
  | h1 a b h ih =>
    constructor
    · rintro ⟨r, hr⟩ k
      obtain ⟨d, t1, t2, rest, h1, h2, rfl⟩ := (bcLoop_step h).1 hr
      cases k with
      | zero => simpa only [getD_zero] using bcDim_accept.1 ⟨_, h1⟩
      | succ k => simpa only [getD_succ] using ih.1 ⟨rest, h2⟩ k
    · intro hk
      obtain ⟨⟨d, t1, t2⟩, hd⟩ := bcDim_accept.2 (by simpa only [getD_zero] using hk 0)
      obtain ⟨rest, hr⟩ := ih.2 fun k => by simpa only [getD_succ] using hk (k + 1)
      exact ⟨_, (bcLoop_step h).2 ⟨d, t1, t2, rest, hd, hr, rfl⟩⟩

theorem bcLoop_error {a b : List Nat} {e : Err} (h : bcLoop a b = .error e) : e = .invalidLayout := by
  induction a generalizing b e with
  | nil =>
    induction b generalizing e with
    | nil => simp at h
    | cons y b ih =>
      rw [bcLoop_nil_cons] at h
      rcases bind_error.1 h with h | ⟨_, _, h⟩
      · exact bcDim_error h
      · rcases bind_error.1 h with h | ⟨_, _, h⟩
        · exact ih h
        · cases h
  | cons x a ih =>
    cases b with
    | nil =>
      unfold bcLoop at h
      rcases bind_error.1 h with h | ⟨_, _, h⟩
      · exact bcDim_error h
      · rcases bind_error.1 h with h | ⟨_, _, h⟩
        · exact ih h
        · cases h
    | cons y b =>
      unfold bcLoop at h
      rcases bind_error.1 h with h | ⟨_, _, h⟩
      · exact bcDim_error h
      · rcases bind_error.1 h with h | ⟨_, _, h⟩
        · exact ih h
        · cases h

theorem bcLoop_swap {a b : List Nat} {r : List (Nat × BType × BType)} (h : bcLoop a b = .ok r) :
    bcLoop b a = .ok (r.map fun x => (x.1, x.2.2, x.2.1)) := by
  induction a, b using pairInd generalizing r with
  | h0 => rw [bcLoop_nil_nil] at h ⊢; cases h; rfl
  | h1 a b hne ih =>
    obtain ⟨d, t1, t2, rest, h1, h2, rfl⟩ := (bcLoop_step hne).1 h
    exact (bcLoop_step (fun e => hne ⟨e.2, e.1⟩)).2 ⟨d, t2, t1, _, bcDim_swap h1, ih h2, by simp⟩

/-! ## The algebra of common shapes -/

theorem StretchRel.unique {a b s t : List Nat} (h1 : StretchRel a b s) (h2 : StretchRel a b t) : s = t := by
  apply List.ext_getElem (by rw [h1.1, h2.1])
  intro k hk hk'
  have e1 := h1.2 k hk
  have e2 := h2.2 k hk'
  have g1 : s.getD k 1 = s[k] := by simp [List.getD_eq_getElem?_getD, hk]
  have g2 : t.getD k 1 = t[k] := by simp [List.getD_eq_getElem?_getD, hk']
  rw [g1] at e1
  rw [g2] at e2
  omega

theorem StretchRel.comm {a b s : List Nat} (h : StretchRel a b s) : StretchRel b a s :=
  ⟨by rw [h.1, max_comm], fun k hk => ⟨(h.2 k hk).2.1, (h.2 k hk).1, (h.2 k hk).2.2.symm⟩⟩

theorem getD_ge {a : List Nat} {k : Nat} (h : a.length ≤ k) : a.getD k 1 = 1 := by
  simp [List.getD_eq_getElem?_getD, List.getElem?_eq_none h]

theorem StretchRel.all {a b s : List Nat} (h : StretchRel a b s) (k : Nat) :
    (a.getD k 1 = s.getD k 1 ∨ a.getD k 1 = 1) ∧ (b.getD k 1 = s.getD k 1 ∨ b.getD k 1 = 1) ∧
    (s.getD k 1 = a.getD k 1 ∨ s.getD k 1 = b.getD k 1) := by
  by_cases hk : k < s.length
  · exact h.2 k hk
  · have := h.1
    rw [getD_ge (a := a) (by omega), getD_ge (a := b) (by omega), getD_ge (a := s) (by omega)]
    simp

theorem StretchRel.self (a : List Nat) : StretchRel a a a :=
  ⟨by simp, fun _ _ => by simp⟩

theorem StretchRel.unit (a : List Nat) : StretchRel [] a a :=
  ⟨by simp, fun _ _ => by simp⟩

theorem stretchRel_exists {a b : List Nat}
    (h : ∀ k, a.getD k 1 = b.getD k 1 ∨ a.getD k 1 = 1 ∨ b.getD k 1 = 1) : ∃ s, StretchRel a b s := by
  obtain ⟨r, hr⟩ := bcLoop_accept.2 h
  exact ⟨_, bcLoop_shape.1 ⟨r, hr, rfl⟩⟩

theorem StretchRel.assoc {a b c ab abc : List Nat} (h1 : StretchRel a b ab) (h2 : StretchRel ab c abc) :
    ∃ bc, StretchRel b c bc ∧ StretchRel a bc abc := by
  have hx : ∀ k, b.getD k 1 = c.getD k 1 ∨ b.getD k 1 = 1 ∨ c.getD k 1 = 1 := by
    intro k
    have e1 := h1.all k
    have e2 := h2.all k
    omega
  obtain ⟨bc, hbc⟩ := stretchRel_exists hx
  refine ⟨bc, hbc, ?_, fun k _ => ?_⟩
  · have := h1.1; have := h2.1; have := hbc.1; omega
  · have e1 := h1.all k
    have e2 := h2.all k
    have e3 := hbc.all k
    omega

/-! ## Both orders -/

/-- The list as seen from the aligned end. -/
def alignL {α : Type} (o : Order) (s : List α) : List α := match o with
  | .C => s.reverse
  | .F => s

@[simp] theorem alignL_alignL {α : Type} (o : Order) (s : List α) : alignL o (alignL o s) = s := by
  cases o <;> simp [alignL]
@[simp] theorem alignL_length {α : Type} (o : Order) (s : List α) : (alignL o s).length = s.length := by
  cases o <;> simp [alignL]
theorem alignL_map {α β : Type} (o : Order) (f : α → β) (s : List α) :
    alignL o (s.map f) = (alignL o s).map f := by
  cases o <;> simp [alignL]
theorem axisAt_eq (o : Order) (s : List Nat) (k : Nat) : axisAt o s k = (alignL o s).getD k 1 := by
  cases o <;> rfl
theorem alignL_inj {α : Type} {o : Order} {s t : List α} (h : alignL o s = alignL o t) : s = t := by
  rw [← alignL_alignL o s, h, alignL_alignL]

theorem broadcastOf_iff {o : Order} {a b s : List Nat} :
    BroadcastOf o a b s ↔ StretchRel (alignL o a) (alignL o b) (alignL o s) := by
  simp [BroadcastOf, StretchRel, axisAt_eq]

theorem compatible_iff {o : Order} {a b : List Nat} : Compatible o a b ↔
    ∀ k, (alignL o a).getD k 1 = (alignL o b).getD k 1 ∨ (alignL o a).getD k 1 = 1 ∨
      (alignL o b).getD k 1 = 1 := by
  simp only [Compatible, axisAt_eq]

theorem broadcastShape_eq (a b : List Nat) (o : Order) :
    broadcastShape a b o = (do
      let r ← bcLoop (alignL o a) (alignL o b)
      return ((alignL o r).map (·.1), (alignL o r).map (·.2.1), (alignL o r).map (·.2.2))) := by
  cases o <;> simp [broadcastShape, alignL]

theorem broadcastShape_ok {a b : List Nat} {o : Order} {s : List Nat} {t1 t2 : List BType} :
    broadcastShape a b o = .ok (s, t1, t2) ↔ ∃ r, bcLoop (alignL o a) (alignL o b) = .ok r ∧
      alignL o s = r.map (·.1) ∧ alignL o t1 = r.map (·.2.1) ∧ alignL o t2 = r.map (·.2.2) := by
  rw [broadcastShape_eq, bind_ok]
  constructor
  · rintro ⟨r, hr, h⟩
    cases h
    exact ⟨r, hr, by simp [alignL_map], by simp [alignL_map], by simp [alignL_map]⟩
  · rintro ⟨r, hr, h1, h2, h3⟩
    refine ⟨r, hr, ?_⟩
    rw [← alignL_map, ← alignL_map, ← alignL_map, ← h1, ← h2, ← h3]
    simp

theorem broadcastShape_shape {a b s : List Nat} {o : Order} :
    (·.1) <$> broadcastShape a b o = .ok s ↔ BroadcastOf o a b s := by
  rw [broadcastOf_iff, ← bcLoop_shape, map_eq_ok]
  constructor
  · rintro ⟨⟨s', t1, t2⟩, h, rfl⟩
    obtain ⟨r, hr, h1, _⟩ := broadcastShape_ok.1 h
    exact ⟨r, hr, h1.symm⟩
  · rintro ⟨r, hr, h⟩
    exact ⟨_, broadcastShape_ok.2 ⟨r, hr, h.symm, alignL_alignL _ _, alignL_alignL _ _⟩, rfl⟩

theorem broadcastShape_accept {a b : List Nat} {o : Order} :
    (∃ r, broadcastShape a b o = .ok r) ↔ Compatible o a b := by
  rw [compatible_iff, ← bcLoop_accept, broadcastShape_eq]
  constructor
  · rintro ⟨r, h⟩
    obtain ⟨x, hx, _⟩ := bind_ok.1 h
    exact ⟨x, hx⟩
  · rintro ⟨r, h⟩
    rw [h]
    exact ⟨_, rfl⟩

theorem broadcastShape_error {a b : List Nat} {o : Order} {e : Err}
    (h : broadcastShape a b o = .error e) : e = .invalidLayout := by
  rw [broadcastShape_eq] at h
  rcases bind_error.1 h with h | ⟨_, _, h⟩
  · exact bcLoop_error h
  · cases h

/-! ## Layouts -/

/-- Head-aligned form of the stride update. -/
def bAxes : List (Nat × BType) → List Axis → List Axis
  | [], _ => []
  | (d, _) :: r, [] => ⟨d, 0⟩ :: bAxes r []
  | (d, t) :: r, a :: as => ⟨d, if t = .expand ∨ t = .upcast then 0 else a.str⟩ :: bAxes r as

theorem bAxes_eq (r : List (Nat × BType)) (as : List Axis) (h : as.length ≤ r.length) :
    mkAxes (r.map (·.1)) (List.zipWith
      (fun (t : BType) (s : Int) => if t = .expand ∨ t = .upcast then 0 else s) (r.map (·.2))
      (as.map (·.str) ++ List.replicate (r.length - as.length) 0)) = bAxes r as := by
  induction r generalizing as with
  | nil => simp [bAxes, mkAxes]
  | cons x r ih =>
    obtain ⟨d, t⟩ := x
    cases as with
    | nil =>
      have := ih [] (by simp)
      simp [mkAxes] at this
      simp [bAxes, mkAxes, List.replicate_succ, this]
    | cons a as =>
      have := ih as (by simpa using h)
      simp [mkAxes] at this
      simp [bAxes, mkAxes, this]

theorem bAxes_dims (r : List (Nat × BType)) (as : List Axis) : dims (bAxes r as) = r.map (·.1) := by
  induction r generalizing as with
  | nil => rfl
  | cons x r ih => cases as <;> simp [bAxes] <;> exact ih _

theorem bAxes_length (r : List (Nat × BType)) (as : List Axis) : (bAxes r as).length = r.length := by
  simpa using congrArg List.length (bAxes_dims r as)

theorem mkAxes_rev {s : List Nat} {t : List Int} (h : s.length = t.length) :
    (mkAxes s t).reverse = mkAxes s.reverse t.reverse := by
  unfold mkAxes
  rw [List.reverse_zipWith h]

theorem updateByShape_eq {l : Layout} {s : List Nat} {t : List BType} {o : Order}
    {r : List (Nat × BType)} (hs : alignL o s = r.map (·.1)) (ht : alignL o t = r.map (·.2))
    (hl : l.ndim ≤ r.length) :
    l.updateByShape s t o = .ok ⟨alignL o (bAxes r (alignL o l.axes)), l.offset⟩ := by
  have hb := bAxes_eq r (alignL o l.axes) (by simpa [Layout.ndim] using hl)
  cases o with
  | F =>
    simp only [alignL] at hs ht hb ⊢
    subst hs; subst ht
    have hn : ¬ (r.map (·.1)).length < l.ndim := by simpa using hl
    simp only [Layout.updateByShape, if_true, Layout.updateByShapeC, Layout.ndim, Layout.reverseAxes,
      Layout.stride, List.length_reverse, List.length_map] at hn ⊢
    rw [if_neg hn]
    simp only [pure_eq_ok, ok_bind, List.map_reverse]
    rw [← hb, mkAxes_rev (by simp; omega), List.reverse_zipWith (by simp; omega)]
    simp
  | C =>
    simp only [alignL] at hs ht hb ⊢
    have hs' : s = (r.map (·.1)).reverse := by rw [← hs, List.reverse_reverse]
    have ht' : t = (r.map (·.2)).reverse := by rw [← ht, List.reverse_reverse]
    subst hs'; subst ht'
    have hn : ¬ (r.map (·.1)).length < l.ndim := by simpa using hl
    simp only [Layout.updateByShape, Layout.updateByShapeC, Layout.ndim, Layout.stride,
      List.length_reverse, List.length_map] at hn ⊢
    rw [if_neg (by simp), if_neg hn]
    rw [← hb, mkAxes_rev (by simp; omega), List.reverse_zipWith (by simp; omega)]
    simp

/-- Head-aligned form of the operand's index. -/
def stretchF (ds is : List Nat) : List Nat := List.zipWith (fun d i => if d = 1 then 0 else i) ds is

theorem stretchIndex_eq {o : Order} {a idx : List Nat} (h : a.length ≤ idx.length) :
    alignL o (stretchIndex o a idx) = stretchF (alignL o a) (alignL o idx) := by
  cases o with
  | F =>
    simp only [stretchIndex, alignL, stretchF]
    rw [List.zipWith_eq_zipWith_take_min]
    conv_rhs => rw [List.zipWith_eq_zipWith_take_min]
    simp [List.take_take]
  | C =>
    simp only [stretchIndex, alignL, stretchF]
    rw [List.reverse_zipWith (by simp; omega), List.reverse_drop]
    have : idx.length - (idx.length - a.length) = a.length := by omega
    rw [this, List.zipWith_eq_zipWith_take_min]
    conv_rhs => rw [List.zipWith_eq_zipWith_take_min]
    simp [List.take_take]

theorem bAxes_dot {as : List Axis} {b : List Nat} {r : List (Nat × BType × BType)}
    (h : bcLoop (dims as) b = .ok r) {idx : List Nat} (hi : InRange idx (r.map (·.1))) :
    dot idx (bAxes (r.map fun x => (x.1, x.2.1)) as) = dot (stretchF (dims as) idx) as ∧
      InRange (stretchF (dims as) idx) (dims as) := by
  induction r generalizing as b idx with
  | nil =>
    rw [List.map_nil, inRange_nil_right] at hi
    subst hi
    have : as = [] := by
      by_contra hne
      obtain ⟨_, _, _, _, _, _, h3⟩ := (bcLoop_step (by simpa using fun e => absurd e hne)).1 h
      cases h3
    subst this
    simp [bAxes, stretchF]
  | cons x r ih =>
    have hne : ¬ (dims as = [] ∧ b = []) := by
      rintro ⟨h1, h2⟩
      rw [h1, h2] at h
      simp at h
    obtain ⟨d, t1, t2, rest, h1, h2, h3⟩ := (bcLoop_step hne).1 h
    cases h3
    cases idx with
    | nil => simp at hi
    | cons i is =>
      simp only [List.map_cons, inRange_cons] at hi
      cases as with
      | nil =>
        have := ih (as := []) (b := b.tail) (by simpa using h2) hi.2
        simp only [List.map_nil, dot_nil_right] at this
        simp [bAxes, this.1, stretchF]
      | cons a as =>
        have := ih (as := as) (b := b.tail) (by simpa using h2) hi.2
        have hd := bcDim_ok h1
        simp only [List.map_cons, List.headD_cons] at hd
        simp only [List.map_cons, bAxes, dot_cons, stretchF, List.zipWith_cons_cons, inRange_cons,
          reduceCtorEq, if_false]
        rw [this.1]
        refine ⟨?_, ?_, this.2⟩
        · congr 1
          by_cases ha : a.dim = 1
          · simp only [if_pos ha]
            rcases hd.2.1 with ⟨rfl, e⟩ | ⟨rfl, e⟩
            · have hi0 : i = 0 := by have := hi.1; omega
              simp [hi0]
            · simp
          · simp only [if_neg ha]
            rcases hd.2.1 with ⟨rfl, e⟩ | ⟨rfl, e⟩
            · simp
            · exact absurd e ha
        · have := hi.1
          have := hd.1.1
          split <;> omega

theorem bAxes_ess {as : List Axis} {b : List Nat} {r : List (Nat × BType × BType)}
    (h : bcLoop (dims as) b = .ok r) :
    (bAxes (r.map fun x => (x.1, x.2.1)) as).filter Axis.ess = as.filter Axis.ess := by
  induction r generalizing as b with
  | nil =>
    have : as = [] := by
      by_contra hne
      obtain ⟨_, _, _, _, _, _, h3⟩ := (bcLoop_step (by simpa using fun e => absurd e hne)).1 h
      cases h3
    subst this
    simp [bAxes]
  | cons x r ih =>
    have hne : ¬ (dims as = [] ∧ b = []) := by
      rintro ⟨h1, h2⟩
      rw [h1, h2] at h
      simp at h
    obtain ⟨d, t1, t2, rest, h1, h2, h3⟩ := (bcLoop_step hne).1 h
    cases h3
    cases as with
    | nil =>
      have := ih (as := []) (b := b.tail) (by simpa using h2)
      simp only [List.filter_nil] at this
      simp only [List.map_cons, bAxes]
      rw [List.filter_cons_of_neg (by simp [Axis.ess]), this]
      rfl
    | cons a as =>
      have := ih (as := as) (b := b.tail) (by simpa using h2)
      have hd := (bcDim_ok h1).2.1
      simp only [List.map_cons, List.headD_cons] at hd
      simp only [List.map_cons, bAxes, reduceCtorEq, if_false]
      rcases hd with ⟨rfl, e⟩ | ⟨rfl, e⟩
      · have ha : (⟨d, a.str⟩ : Axis) = a := by rw [← e]
        simp [ha, List.filter_cons, this]
      · rw [List.filter_cons_of_neg (by simp [Axis.ess]), this,
          List.filter_cons_of_neg (by simp [Axis.ess, e])]

theorem noOverlap_congr {A B : List Axis} (h : A.filter Axis.ess = B.filter Axis.ess) (hB : NoOverlap B) :
    NoOverlap A := by
  obtain ⟨L, h1, h2⟩ := hB
  exact ⟨L, h ▸ h1, h2⟩

/-- What broadcasting does to the first operand. -/
theorem updateByShape_first {l : Layout} {b s : List Nat} {o : Order} {t1 t2 : List BType}
    (h : broadcastShape l.shape b o = .ok (s, t1, t2)) :
    ∃ m, l.updateByShape s t1 o = .ok m ∧ m.offset = l.offset ∧ m.shape = s ∧
      (∀ idx, InRange idx s → InRange (stretchIndex o l.shape idx) l.shape ∧
        m.addr idx = l.addr (stretchIndex o l.shape idx)) ∧
      (m.axes.filter Axis.ess).Perm (l.axes.filter Axis.ess) := by
  obtain ⟨r, hr, h1, h2, h3⟩ := broadcastShape_ok.1 h
  have hal : alignL o l.shape = dims (alignL o l.axes) := alignL_map o _ _
  have hrel := bcLoop_shape.1 ⟨r, hr, rfl⟩
  have hlen : l.ndim ≤ r.length := by
    have := hrel.1
    simp only [List.length_map, alignL_length, Layout.shape] at this
    simp only [Layout.ndim]; omega
  rw [hal] at hr
  set r1 := r.map fun x => (x.1, x.2.1) with hr1
  have hs1 : r1.map (·.1) = r.map (·.1) := by simp [hr1]
  refine ⟨_, updateByShape_eq (r := r1) (by rw [h1, hs1]) (by rw [h2]; simp [hr1]) (by simpa [hr1] using hlen),
    rfl, ?_, ?_, ?_⟩
  · apply alignL_inj (o := o)
    rw [h1, Layout.shape, alignL_map, alignL_alignL, ← hs1]
    exact bAxes_dims _ _
  · intro idx hi
    have hi' : InRange (alignL o idx) (r.map (·.1)) := by
      rw [← h1]
      cases o
      · exact hi.reverse
      · exact hi
    have hle : l.shape.length ≤ idx.length := by
      have e := hi'.length_eq
      simp only [alignL_length, List.length_map] at e
      simp only [Layout.ndim] at hlen
      simp [Layout.shape]; omega
    have hd := bAxes_dot hr hi'
    rw [← hal, ← stretchIndex_eq hle] at hd
    constructor
    · have := hd.2
      cases o
      · simpa [alignL] using this.reverse
      · exact this
    · rw [addr_mk, addr_eq]
      congr 1
      have hl1 : idx.length = (bAxes r1 (alignL o l.axes)).length := by
        rw [bAxes_length]; have := hi'.length_eq; simpa [hr1] using this
      have hl2 : (stretchIndex o l.shape idx).length = l.axes.length := by
        have := hd.2.length_eq; simpa [Layout.shape] using this
      have e := hd.1
      cases o with
      | F => exact e
      | C =>
        simp only [alignL] at e hl1 ⊢
        rw [dot_reverse hl2] at e
        rw [← e, ← dot_reverse (by simpa using hl1), List.reverse_reverse]
  · have he := bAxes_ess hr
    cases o with
    | F =>
      show (List.filter Axis.ess (bAxes r1 l.axes)).Perm _
      exact List.Perm.of_eq he
    | C =>
      show (List.filter Axis.ess (bAxes r1 l.axes.reverse).reverse).Perm _
      rw [List.filter_reverse]
      refine (List.reverse_perm _).trans ?_
      have he' : List.filter Axis.ess (bAxes r1 l.axes.reverse) = _ := he
      rw [he']
      simp only [alignL, List.filter_reverse]
      exact List.reverse_perm _

theorem broadcastShape_swap {a b s : List Nat} {o : Order} {t1 t2 : List BType}
    (h : broadcastShape a b o = .ok (s, t1, t2)) : broadcastShape b a o = .ok (s, t2, t1) := by
  obtain ⟨r, hr, h1, h2, h3⟩ := broadcastShape_ok.1 h
  exact broadcastShape_ok.2 ⟨_, bcLoop_swap hr, by rw [h1, List.map_map]; rfl,
    by rw [h3, List.map_map]; rfl, by rw [h2, List.map_map]; rfl⟩

end Rstsr
