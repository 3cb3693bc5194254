import Verif.Spec.Concurrent
import Mathlib.Data.List.Basic
import Mathlib.Data.List.Nodup
import Mathlib.Data.List.Count
/-! # Lemmas about the interleaving semantics -/
namespace Rstsr
open Spec

section
variable {γ : Type}

/-- The updates still to be done, from left to right. -/
def updates : Proc γ → List (Nat × (γ → γ))
  | .nil => []
  | .upd i f => [(i, f)]
  | .mid i w => [(i, fun _ => w)]
  | .seq p q => updates p ++ updates q
  | .par p q => updates p ++ updates q

theorem step_updates {s t : Proc γ × List γ} (h : Step s t) :
    (t.2 = s.2 ∧ updates t.1 = updates s.1) ∨
    (∃ A B i f v, t.2 = s.2 ∧ s.2[i]? = some v ∧ updates s.1 = A ++ (i, f) :: B ∧
      updates t.1 = A ++ (i, fun _ => f v) :: B) ∨
    (∃ A B i w, t.2 = s.2.set i w ∧ i < s.2.length ∧ updates s.1 = A ++ (i, fun _ => w) :: B ∧
      updates t.1 = A ++ B) := by
  induction h with
  | read hv => exact .inr (.inl ⟨[], [], _, _, _, rfl, hv, rfl, rfl⟩)
  | write hi => exact .inr (.inr ⟨[], [], _, _, rfl, hi, rfl, rfl⟩)
  | @seq p q p' c c' _ ih =>
    rcases ih with ⟨h1, h2⟩ | ⟨A, B, i, f, v, h1, h2, h3, h4⟩ | ⟨A, B, i, w, h1, h2, h3, h4⟩
    · exact .inl ⟨h1, by simp only [updates] at *; rw [h2]⟩
    · exact .inr (.inl ⟨A, B ++ updates q, i, f, v, h1, h2, by simp only [updates] at *; rw [h3]; simp,
        by simp only [updates] at *; rw [h4]; simp⟩)
    · exact .inr (.inr ⟨A, B ++ updates q, i, w, h1, h2, by simp only [updates] at *; rw [h3]; simp,
        by simp only [updates] at *; rw [h4]; simp⟩)
  | next => exact .inl ⟨rfl, by simp [updates]⟩
  | @left p q p' c c' _ ih =>
    rcases ih with ⟨h1, h2⟩ | ⟨A, B, i, f, v, h1, h2, h3, h4⟩ | ⟨A, B, i, w, h1, h2, h3, h4⟩
    · exact .inl ⟨h1, by simp only [updates] at *; rw [h2]⟩
    · exact .inr (.inl ⟨A, B ++ updates q, i, f, v, h1, h2, by simp only [updates] at *; rw [h3]; simp,
        by simp only [updates] at *; rw [h4]; simp⟩)
    · exact .inr (.inr ⟨A, B ++ updates q, i, w, h1, h2, by simp only [updates] at *; rw [h3]; simp,
        by simp only [updates] at *; rw [h4]; simp⟩)
  | @right p q q' c c' _ ih =>
    rcases ih with ⟨h1, h2⟩ | ⟨A, B, i, f, v, h1, h2, h3, h4⟩ | ⟨A, B, i, w, h1, h2, h3, h4⟩
    · exact .inl ⟨h1, by simp only [updates] at *; rw [h2]⟩
    · exact .inr (.inl ⟨updates p ++ A, B, i, f, v, h1, h2, by simp only [updates] at *; rw [h3]; simp,
        by simp only [updates] at *; rw [h4]; simp⟩)
    · exact .inr (.inr ⟨updates p ++ A, B, i, w, h1, h2, by simp only [updates] at *; rw [h3]; simp,
        by simp only [updates] at *; rw [h4]; simp⟩)
  | join => exact .inl ⟨rfl, by simp [updates]⟩

/-- The storage `c` with the updates `U` left is on the way to `T`. Cells in `one` are updated at most once;
updates of the other cells do not depend on what they read. -/
structure Way (T : List γ) (one : Nat → Prop) (U : List (Nat × (γ → γ))) (c : List γ) : Prop where
  len : c.length = T.length
  once : ∀ i, one i → (U.map Prod.fst).count i ≤ 1
  good : ∀ u ∈ U, u.1 < T.length ∧ ((one u.1 ∧ (c[u.1]?).map u.2 = T[u.1]?) ∨ ∀ v, T[u.1]? = some (u.2 v))
  rest : ∀ k, k ∉ U.map Prod.fst → c[k]? = T[k]?

theorem Way.step {T : List γ} {one : Nat → Prop} {s t : Proc γ × List γ} (h : Step s t)
    (hw : Way T one (updates s.1) s.2) : Way T one (updates t.1) t.2 := by
  obtain ⟨w1, w2, w3, w4⟩ := hw
  rcases step_updates h with ⟨h1, h2⟩ | ⟨A, B, i, f, v, h1, h2, h3, h4⟩ | ⟨A, B, i, w, h1, h2, h3, h4⟩
  · rw [h1, h2]; exact ⟨w1, w2, w3, w4⟩
  · rw [h3] at w2 w3 w4
    rw [h1, h4]
    have hcells : (A ++ (i, fun _ => f v) :: B).map Prod.fst = (A ++ (i, f) :: B).map Prod.fst := by simp
    refine ⟨w1, by rw [hcells]; exact w2, ?_, by rw [hcells]; exact w4⟩
    intro u hu
    rcases List.mem_append.1 hu with hu | hu
    · exact w3 u (by simp [hu])
    · rcases List.mem_cons.1 hu with rfl | hu
      · obtain ⟨g1, g2⟩ := w3 (i, f) (by simp)
        refine ⟨g1, ?_⟩
        rcases g2 with ⟨g2, g3⟩ | g2
        · right
          intro v'
          simp only [h2, Option.map_some] at g3
          exact g3.symm
        · right; intro _; exact g2 v
      · exact w3 u (by simp [hu])
  · rw [h3] at w2 w3 w4
    rw [h1, h4]
    have hT : T[i]? = some w := by
      obtain ⟨g1, g2⟩ := w3 (i, fun _ => w) (by simp)
      rcases g2 with ⟨g2, g3⟩ | g2
      · simp only [List.getElem?_eq_getElem h2, Option.map_some] at g3
        exact g3.symm
      · exact g2 w
    refine ⟨by simp [w1], ?_, ?_, ?_⟩
    · intro j hj
      refine Nat.le_trans ?_ (w2 j hj)
      simp only [List.map_append, List.map_cons, List.count_append]
      exact Nat.add_le_add_left (List.count_le_count_cons) _
    · intro u hu
      obtain ⟨g1, g2⟩ := w3 u (by
        rcases List.mem_append.1 hu with hu | hu
        · simp [hu]
        · simp [hu])
      refine ⟨g1, ?_⟩
      rcases g2 with ⟨g2, g3⟩ | g2
      · left
        refine ⟨g2, ?_⟩
        have hne : i ≠ u.1 := by
          intro e
          have hc := w2 u.1 g2
          have hm : u.1 ∈ (A ++ B).map Prod.fst := List.mem_map_of_mem hu
          have : 0 < ((A ++ B).map Prod.fst).count u.1 := List.count_pos_iff.2 hm
          simp only [List.map_append, List.map_cons, List.count_append, e, List.count_cons_self] at hc this
          omega
        rw [List.getElem?_set_ne hne]; exact g3
      · exact .inr g2
    · intro k hk
      by_cases hki : i = k
      · subst hki
        rw [List.getElem?_set_self h2, hT]
      · rw [List.getElem?_set_ne hki]
        apply w4
        simp only [List.map_append, List.map_cons, List.mem_append, List.mem_cons, not_or] at hk ⊢
        exact ⟨hk.1, fun e => hki e.symm, hk.2⟩

theorem Way.steps {T : List γ} {one : Nat → Prop} {s t : Proc γ × List γ} (h : Steps s t)
    (hw : Way T one (updates s.1) s.2) : Way T one (updates t.1) t.2 := by
  induction h with
  | refl => exact hw
  | tail _ h2 ih => exact ih.step h2

theorem can_step {n : Nat} (p : Proc γ) (c : List γ) (hc : c.length = n) (h : ∀ u ∈ updates p, u.1 < n) :
    p = .nil ∨ ∃ s, Step (p, c) s := by
  induction p with
  | nil => exact .inl rfl
  | upd i f =>
    right
    have hi : i < c.length := by have := h (i, f) (by simp [updates]); simpa [hc] using this
    exact ⟨_, .read (List.getElem?_eq_getElem hi)⟩
  | mid i w =>
    right
    have hi : i < c.length := by have := h (i, fun _ => w) (by simp [updates]); simpa [hc] using this
    exact ⟨_, .write hi⟩
  | seq p q ihp _ =>
    right
    rcases ihp (fun u hu => h u (by simp [updates, hu])) with rfl | ⟨⟨p', c'⟩, hs⟩
    · exact ⟨_, .next⟩
    · exact ⟨_, .seq hs⟩
  | par p q ihp ihq =>
    right
    rcases ihp (fun u hu => h u (by simp [updates, hu])) with rfl | ⟨⟨p', c'⟩, hs⟩
    · rcases ihq (fun u hu => h u (by simp [updates, hu])) with rfl | ⟨⟨q', c'⟩, hs⟩
      · exact ⟨_, .join⟩
      · exact ⟨_, .right hs⟩
    · exact ⟨_, .left hs⟩

/-- Number of steps left. -/
def todo : Proc γ → Nat
  | .nil => 0
  | .upd _ _ => 2
  | .mid _ _ => 1
  | .seq p q => todo p + todo q + 1
  | .par p q => todo p + todo q + 1

theorem todo_step {s t : Proc γ × List γ} (h : Step s t) : todo s.1 = todo t.1 + 1 := by
  induction h <;> simp_all [todo] <;> omega

theorem computes_of_way {T : List γ} {one : Nat → Prop} {p : Proc γ} {c : List γ} (h : Way T one (updates p) c) :
    Computes p c T := by
  refine ⟨?_, ?_, ⟨todo p, ?_⟩⟩
  · intro d hd
    have := Way.steps hd h
    apply List.ext_getElem?
    intro k
    exact this.rest k (by simp [updates])
  · intro q c' hs
    have := Way.steps hs h
    exact can_step q c' this.len fun u hu => (this.good u hu).1
  · intro run n h0 hstep
    have : ∀ k ≤ n, todo (run k).1 + k = todo p := by
      intro k
      induction k with
      | zero => intro _; rw [h0]; rfl
      | succ k ih =>
        intro hk
        have := todo_step (hstep k (by omega))
        have := ih (by omega)
        omega
    have := this n (Nat.le_refl n)
    omega

/-- An execution that never stops early reaches the end. -/
theorem computes_reaches {p : Proc γ} {c d : List γ} (h : Computes p c d) : Steps (p, c) (.nil, d) := by
  have key : ∀ n q c', todo q = n → Steps (p, c) (q, c') → ∃ d', Steps (p, c) (.nil, d') := by
    intro n
    induction n with
    | zero =>
      intro q c' hn hs
      rcases h.progress q c' hs with rfl | ⟨s, hst⟩
      · exact ⟨_, hs⟩
      · have := todo_step hst
        simp only at this
        omega
    | succ n ih =>
      intro q c' hn hs
      rcases h.progress q c' hs with rfl | ⟨s, hst⟩
      · exact ⟨_, hs⟩
      · have := todo_step hst
        simp only at this
        exact ih s.1 s.2 (by omega) (hs.tail hst)
  obtain ⟨d', hd⟩ := key _ p c rfl (.refl _)
  rw [← h.result d' hd]
  exact hd

theorem touching_sub (p : Proc γ) : p.touching.Sublist ((updates p).map Prod.fst) := by
  induction p with
  | nil => exact .slnil
  | upd => exact List.Sublist.refl _
  | mid => exact List.Sublist.refl _
  | seq p q ihp _ =>
    simp only [Proc.touching, updates, List.map_append]
    exact ihp.trans (List.sublist_append_left _ _)
  | par p q ihp ihq =>
    simp only [Proc.touching, updates, List.map_append]
    exact ihp.append ihq

theorem step_cells {s t : Proc γ × List γ} (h : Step s t) :
    ((updates t.1).map Prod.fst).Sublist ((updates s.1).map Prod.fst) := by
  rcases step_updates h with ⟨h1, h2⟩ | ⟨A, B, i, f, v, h1, h2, h3, h4⟩ | ⟨A, B, i, w, h1, h2, h3, h4⟩
  · rw [h2]
  · rw [h3, h4]; simp
  · rw [h3, h4]
    simp only [List.map_append, List.map_cons]
    exact (List.Sublist.refl _).append (List.sublist_cons_self _ _)

theorem raceFree_of_nodup {p : Proc γ} {c : List γ} (h : ((updates p).map Prod.fst).Nodup) : RaceFree p c := by
  have : ∀ s t : Proc γ × List γ, Steps s t → ((updates s.1).map Prod.fst).Nodup → ((updates t.1).map Prod.fst).Nodup := by
    intro s t hs
    induction hs with
    | refl => exact id
    | tail _ h2 ih => intro hn; exact (ih hn).sublist (step_cells h2)
  intro q c' hs
  exact (this _ _ hs h).sublist (touching_sub q)

end
end Rstsr
