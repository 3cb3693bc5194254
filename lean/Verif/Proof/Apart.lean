import Verif.Proof.Parallel
import Verif.Proof.MatKernel
/-!
# Threads that work on disjoint cells

Every thread may update its own cells several times, as long as concurrent threads have none in common.
-/
namespace Rstsr
open Spec

section
variable {γ ι : Type}

/-- The cells a process still updates. -/
abbrev cells (p : Proc γ) : List Nat := (updates p).map Prod.fst

/-- Concurrent parts have no cell in common. -/
def Apart : Proc γ → Prop
  | .nil => True
  | .upd _ _ => True
  | .mid _ _ => True
  | .seq p q => Apart p ∧ Apart q
  | .par p q => Apart p ∧ Apart q ∧ List.Disjoint (cells p) (cells q)

theorem Apart.step {s t : Proc γ × List γ} (h : Step s t) (ha : Apart s.1) : Apart t.1 := by
  induction h with
  | read => trivial
  | write => trivial
  | seq _ ih => exact ⟨ih ha.1, ha.2⟩
  | next => exact ha.2
  | left h ih => exact ⟨ih ha.1, ha.2.1, fun _ h1 h2 => ha.2.2 ((step_cells h).subset h1) h2⟩
  | right h ih => exact ⟨ha.1, ih ha.2.1, fun _ h1 h2 => ha.2.2 h1 ((step_cells h).subset h2)⟩
  | join => trivial

theorem Apart.steps {s t : Proc γ × List γ} (h : Steps s t) (ha : Apart s.1) : Apart t.1 := by
  induction h with
  | refl => exact ha
  | tail _ h ih => exact ih.step h

theorem Apart.touching {p : Proc γ} (h : Apart p) : p.touching.Nodup := by
  induction p with
  | nil => exact List.nodup_nil
  | upd => exact List.nodup_singleton _
  | mid => exact List.nodup_singleton _
  | seq p q ihp _ => exact ihp h.1
  | par p q ihp ihq =>
    refine List.nodup_append'.2 ⟨ihp h.1, ihq h.2.1, ?_⟩
    intro k h1 h2
    exact h.2.2 ((touching_sub p).subset h1) ((touching_sub q).subset h2)

theorem raceFree_of_apart {p : Proc γ} {c : List γ} (h : Apart p) : RaceFree p c :=
  fun _ _ hs => (Apart.steps hs h).touching

/-- What the rest of the work makes of the storage does not change with a step. -/
theorem step_effect {s t : Proc γ × List γ} (h : Step s t) (ha : Apart s.1) :
    t.2.length = s.2.length ∧
      ∀ k, t.2[k]?.map (effect k (updates t.1)) = s.2[k]?.map (effect k (updates s.1)) := by
  have gen : ∀ {s t : Proc γ × List γ}, Step s t → Apart s.1 →
      t.2.length = s.2.length ∧ (∀ k ∉ cells s.1, t.2[k]? = s.2[k]?) ∧
      ∀ k, t.2[k]?.map (effect k (updates t.1)) = s.2[k]?.map (effect k (updates s.1)) := by
    intro s t h ha
    induction h with
    | @read i f v c hv =>
      refine ⟨rfl, fun _ _ => rfl, fun k => ?_⟩
      by_cases hk : i = k
      · subst hk
        simp only [hv, Option.map_some, updates, effect, if_true]
      · simp [updates, effect, hk]
    | @write i w c hi =>
      refine ⟨by simp, fun k hk => ?_, fun k => ?_⟩
      · have : i ≠ k := fun e => hk (by simp [cells, updates, e])
        simp only [List.getElem?_set_ne this]
      · by_cases hk : i = k
        · subst hk
          simp [updates, effect, hi]
        · simp [updates, effect, hk]
    | @seq p q p' c c' h ih =>
      obtain ⟨h1, h2, h3⟩ := ih ha.1
      refine ⟨h1, fun k hk => h2 k fun hm => hk (by simp only [cells, updates, List.map_append]; exact List.mem_append_left _ hm), fun k => ?_⟩
      have := congrArg (Option.map (effect k (updates q))) (h3 k)
      simp only [Option.map_map] at this
      simp only [updates]
      convert this using 2 <;> (funext v; exact effect_append k _ _ v)
    | next => exact ⟨rfl, fun _ _ => rfl, fun k => by simp [updates]⟩
    | @left p q p' c c' h ih =>
      obtain ⟨h1, h2, h3⟩ := ih ha.1
      refine ⟨h1, fun k hk => h2 k fun hm => hk (by simp only [cells, updates, List.map_append]; exact List.mem_append_left _ hm), fun k => ?_⟩
      have := congrArg (Option.map (effect k (updates q))) (h3 k)
      simp only [Option.map_map] at this
      simp only [updates]
      convert this using 2 <;> (funext v; exact effect_append k _ _ v)
    | @right p q q' c c' h ih =>
      obtain ⟨h1, h2, h3⟩ := ih ha.2.1
      refine ⟨h1, fun k hk => h2 k fun hm => hk (by simp only [cells, updates, List.map_append]; exact List.mem_append_right _ hm), fun k => ?_⟩
      simp only [updates]
      by_cases hk : k ∈ cells q
      · have hp : ∀ u ∈ updates p, u.1 ≠ k := fun u hu e => ha.2.2 (List.mem_map_of_mem hu) (e ▸ hk)
        have e : ∀ (V : List (Nat × (γ → γ))), effect k (updates p ++ V) = effect k V := by
          intro V; funext v
          rw [effect_append, effect_none (U := updates p) hp]
        rw [e, e]; exact h3 k
      · have hq : ∀ u ∈ updates q, u.1 ≠ k := fun u hu e => hk (e ▸ List.mem_map_of_mem hu)
        have hq' : ∀ u ∈ updates q', u.1 ≠ k := fun u hu e =>
          hk ((step_cells h).subset (e ▸ List.mem_map_of_mem hu))
        have e : ∀ (V : List (Nat × (γ → γ))), (∀ u ∈ V, u.1 ≠ k) → effect k (updates p ++ V) = effect k (updates p) := by
          intro V hV; funext v
          rw [effect_append, effect_none (U := V) hV]
        rw [e _ hq, e _ hq', h2 k hk]
    | join => exact ⟨rfl, fun _ _ => rfl, fun k => by simp [updates]⟩
  obtain ⟨h1, -, h3⟩ := gen h ha
  exact ⟨h1, h3⟩

theorem steps_effect {s t : Proc γ × List γ} (h : Steps s t) (ha : Apart s.1) :
    t.2.length = s.2.length ∧
      ∀ k, t.2[k]?.map (effect k (updates t.1)) = s.2[k]?.map (effect k (updates s.1)) := by
  induction h with
  | refl => exact ⟨rfl, fun _ => rfl⟩
  | tail hs h ih =>
    obtain ⟨h1, h2⟩ := step_effect h (Apart.steps hs ha)
    exact ⟨h1.trans ih.1, fun k => (h2 k).trans (ih.2 k)⟩

/-- Threads working on disjoint cells compute what one thread does. -/
theorem computes_of_apart {p : Proc γ} {c T : List γ} (h : Apart p) (hc : ∀ k ∈ cells p, k < c.length)
    (hl : T.length = c.length) (hT : ∀ k, T[k]? = c[k]?.map (effect k (updates p))) : Computes p c T := by
  refine ⟨?_, ?_, ⟨todo p, ?_⟩⟩
  · intro d hd
    obtain ⟨h1, h2⟩ := steps_effect hd h
    apply List.ext_getElem?
    intro k
    rw [hT k, ← h2 k]
    simp [updates, effect]
  · intro q c' hs
    obtain ⟨h1, -⟩ := steps_effect hs h
    refine can_step q c' h1 fun u hu => ?_
    have : ∀ s t : Proc γ × List γ, Steps s t → cells t.1 ⊆ cells s.1 := by
      intro s t hs
      induction hs with
      | refl => exact fun _ h => h
      | tail _ h ih => exact fun _ h' => ih ((step_cells h).subset h')
    exact hc _ (this _ _ hs (List.mem_map_of_mem hu))
  · intro run n h0 hstep
    have : ∀ k ≤ n, todo (run k).1 + k = todo p := by
      intro k
      induction k with
      | zero => intro _; rw [h0]; rfl
      | succ k ih =>
        intro hk
        have := todo_step (hstep k (by omega))
        have := ih (by omega)
        omega
    have := this n (Nat.le_refl n)
    omega

/-! ## How loops are built -/

/-- A process built from one part for every item, in sequence or in parallel. -/
inductive Built (R : ι → Proc γ → Prop) : List ι → Proc γ → Prop
  | nil : Built R [] .nil
  | cons {x p xs q} : R x p → Built R xs q → Built R (x :: xs) (.seq p q)
  | par {xs p ys q} : Built R xs p → Built R ys q → Built R (xs ++ ys) (.par p q)

theorem Built.updates {R : ι → Proc γ → Prop} {u : ι → List (Nat × (γ → γ))} (h : ∀ x p, R x p → updates p = u x)
    {xs : List ι} {p : Proc γ} (hb : Built R xs p) : Rstsr.updates p = xs.flatMap u := by
  induction hb with
  | nil => rfl
  | cons h1 _ ih => rw [Rstsr.updates, h _ _ h1, ih, List.flatMap_cons]
  | par _ _ ih1 ih2 => rw [Rstsr.updates, ih1, ih2, List.flatMap_append]

theorem Built.apart {R : ι → Proc γ → Prop} {u : ι → List (Nat × (γ → γ))}
    (h : ∀ x p, R x p → Rstsr.updates p = u x ∧ Apart p) {xs : List ι} {p : Proc γ} (hb : Built R xs p)
    (hd : xs.Pairwise fun x y => List.Disjoint ((u x).map Prod.fst) ((u y).map Prod.fst)) : Apart p := by
  induction hb with
  | nil => trivial
  | cons h1 _ ih => exact ⟨(h _ _ h1).2, ih (List.pairwise_cons.1 hd).2⟩
  | par b1 b2 ih1 ih2 =>
    obtain ⟨d1, d2, d3⟩ := List.pairwise_append.1 hd
    refine ⟨ih1 d1, ih2 d2, ?_⟩
    rw [cells, cells, b1.updates fun x p hp => (h x p hp).1, b2.updates fun x p hp => (h x p hp).1]
    intro k h1 h2
    simp only [List.mem_map, List.mem_flatMap] at h1 h2
    obtain ⟨w, ⟨x, hx, hw⟩, rfl⟩ := h1
    obtain ⟨w', ⟨y, hy, hw'⟩, e⟩ := h2
    exact d3 x hx y hy (List.mem_map_of_mem hw) (e ▸ List.mem_map_of_mem hw')

theorem Built.map {κ : Type} {R : ι → Proc γ → Prop} {S : κ → Proc γ → Prop} {f : κ → ι} (h : ∀ x p, S x p → R (f x) p)
    {xs : List κ} {p : Proc γ} (hb : Built S xs p) : Built R (xs.map f) p := by
  induction hb with
  | nil => exact .nil
  | cons h1 _ ih => exact .cons (h _ _ h1) ih
  | par _ _ ih1 ih2 => rw [List.map_append]; exact .par ih1 ih2

variable {R : ι → Proc γ → Prop}

theorem procLoop_built {g : ι → Res (Proc γ)} {xs : List ι} (h : ∀ x ∈ xs, ∃ p, g x = .ok p ∧ R x p) :
    ∃ p, procLoop g xs = .ok p ∧ Built R xs p := by
  induction xs with
  | nil => exact ⟨.nil, rfl, .nil⟩
  | cons x xs ih =>
    obtain ⟨p, h1, h2⟩ := h x (by simp)
    obtain ⟨q, h3, h4⟩ := ih fun y hy => h y (by simp [hy])
    refine ⟨.seq p q, ?_, .cons h2 h4⟩
    rw [procLoop, h1]; simp only [ok_bind, h3]; rfl

theorem parRange_built {R : Nat → Proc γ → Prop} {g : Nat → Res (Proc γ)} (plan : Plan) {xs : List Nat}
    (h : ∀ x ∈ xs, ∃ p, g x = .ok p ∧ R x p) : ∃ p, parRange g plan xs = .ok p ∧ Built R xs p := by
  induction plan generalizing xs with
  | run => exact procLoop_built h
  | split k a b iha ihb =>
    obtain ⟨p, h1, h2⟩ := iha (xs := xs.take k) fun x hx => h x (List.mem_of_mem_take hx)
    obtain ⟨q, h3, h4⟩ := ihb (xs := xs.drop k) fun x hx => h x (List.mem_of_mem_drop hx)
    refine ⟨.par p q, ?_, ?_⟩
    · rw [parRange, h1]; simp only [ok_bind, h3]; rfl
    · have := Built.par h2 h4
      rwa [List.take_append_drop] at this

theorem loop_numbered_built {g : Plan → ι → Res (Proc γ)} (inner : Nat → Plan) {xs : List ι}
    (h : ∀ pl, ∀ x ∈ xs, ∃ p, g pl x = .ok p ∧ R x p) :
    ∃ p, procLoop (fun p => g (inner p.1) p.2) (numbered 0 xs) = .ok p ∧ Built R xs p := by
  obtain ⟨p, h1, h2⟩ := procLoop_built (g := fun p : Nat × ι => g (inner p.1) p.2) (R := fun p => R p.2)
    (xs := numbered 0 xs) (fun x hx => h _ _ (by
      have := List.mem_map_of_mem (f := Prod.snd) hx
      rwa [numbered_map] at this))
  refine ⟨p, h1, ?_⟩
  have := h2.map (R := R) (f := Prod.snd) (fun _ _ h => h)
  rwa [numbered_map] at this

theorem parIter1_built {R : Nat → Proc γ → Prop} {g : Plan → Nat → Res (Proc γ)} {m : Nat} (s : Sched)
    {a : Iter} (ha : a.Inv) (na : Iter.NonNeg a.layout) (sa : a.layout.size ≠ 0) (hf : s.Fits a.len m)
    (h : ∀ pl, ∀ x ∈ a.items, ∃ p, g pl x = .ok p ∧ R x p) :
    ∃ p, parIter1 g s a = .ok p ∧ Built R a.items p := by
  induction s generalizing a with
  | run inner =>
    rw [parIter1, Iter.toList_spec ha na]
    exact loop_numbered_built inner h
  | split k p q ihp ihq =>
    obtain ⟨l, r, h1, h2, h3, h4, h5, h6, h7, h8, h9, h10⟩ := Iter.splitAt_spec ha sa hf.1
    have hi := items_split h4 h5 h10
    obtain ⟨p1, e1, e2⟩ := ihp h2 (h4 ▸ na) (h4 ▸ sa) (by rw [h8]; exact hf.2.1) fun pl x hx => h pl x (by simp [hi, hx])
    obtain ⟨p2, e3, e4⟩ := ihq h3 (h5 ▸ na) (h5 ▸ sa) (by rw [h9]; exact hf.2.2) fun pl x hx => h pl x (by simp [hi, hx])
    refine ⟨.par p1 p2, ?_, ?_⟩
    · rw [parIter1, h1]; simp only [ok_bind, e1, e3]; rfl
    · rw [hi]; exact .par e2 e4

theorem parIter2_built {R : Nat × Nat → Proc γ → Prop} {g : Plan → Nat × Nat → Res (Proc γ)} {m : Nat} (s : Sched)
    {a b : Iter} (ha : a.Inv) (na : Iter.NonNeg a.layout) (sa : a.layout.size ≠ 0)
    (hb : b.Inv) (nb : Iter.NonNeg b.layout) (sb : b.layout.size ≠ 0) (hl : a.len = b.len) (hf : s.Fits a.len m)
    (h : ∀ pl, ∀ x ∈ a.items.zip b.items, ∃ p, g pl x = .ok p ∧ R x p) :
    ∃ p, parIter2 g s a b = .ok p ∧ Built R (a.items.zip b.items) p := by
  induction s generalizing a b with
  | run inner =>
    rw [parIter2, Iter.toList_spec ha na]
    simp only [ok_bind]
    rw [Iter.toList_spec hb nb]
    exact loop_numbered_built inner h
  | split k p q ihp ihq =>
    obtain ⟨l, r, h1, h2, h3, h4, h5, h6, h7, h8, h9, h10⟩ := Iter.splitAt_spec ha sa hf.1
    obtain ⟨l', r', g1, g2, g3, g4, g5, g6, g7, g8, g9, g10⟩ := Iter.splitAt_spec hb sb (hl ▸ hf.1)
    have hz : a.items.zip b.items = l.items.zip l'.items ++ r.items.zip r'.items := by
      rw [items_split h4 h5 h10, items_split g4 g5 g10, List.zip_append]
      rw [h2.length_items, g2.length_items, h8, g8]
    obtain ⟨p1, e1, e2⟩ := ihp h2 (h4 ▸ na) (h4 ▸ sa) g2 (g4 ▸ nb) (g4 ▸ sb) (by rw [h8, g8])
      (by rw [h8]; exact hf.2.1) fun pl x hx => h pl x (by rw [hz]; exact List.mem_append_left _ hx)
    obtain ⟨p2, e3, e4⟩ := ihq h3 (h5 ▸ na) (h5 ▸ sa) g3 (g5 ▸ nb) (g5 ▸ sb) (by rw [h9, g9, hl])
      (by rw [h9]; exact hf.2.2) fun pl x hx => h pl x (by rw [hz]; exact List.mem_append_right _ hx)
    refine ⟨.par p1 p2, ?_, ?_⟩
    · rw [parIter2, h1]; simp only [ok_bind, g1, e1, e3]; rfl
    · rw [hz]; exact .par e2 e4

theorem parIter3_built {R : Nat × Nat × Nat → Proc γ → Prop} {g : Plan → Nat × Nat × Nat → Res (Proc γ)} {m : Nat}
    (s : Sched) {a b c : Iter} (ha : a.Inv) (na : Iter.NonNeg a.layout) (sa : a.layout.size ≠ 0)
    (hb : b.Inv) (nb : Iter.NonNeg b.layout) (sb : b.layout.size ≠ 0)
    (hc : c.Inv) (nc : Iter.NonNeg c.layout) (sc : c.layout.size ≠ 0)
    (hl : a.len = b.len) (hl' : a.len = c.len) (hf : s.Fits a.len m)
    (h : ∀ pl, ∀ x ∈ a.items.zip (b.items.zip c.items), ∃ p, g pl x = .ok p ∧ R x p) :
    ∃ p, parIter3 g s a b c = .ok p ∧ Built R (a.items.zip (b.items.zip c.items)) p := by
  induction s generalizing a b c with
  | run inner =>
    rw [parIter3, Iter.toList_spec ha na]
    simp only [ok_bind]
    rw [Iter.toList_spec hb nb]
    simp only [ok_bind]
    rw [Iter.toList_spec hc nc]
    exact loop_numbered_built inner h
  | split k p q ihp ihq =>
    obtain ⟨l, r, h1, h2, h3, h4, h5, h6, h7, h8, h9, h10⟩ := Iter.splitAt_spec ha sa hf.1
    obtain ⟨l', r', g1, g2, g3, g4, g5, g6, g7, g8, g9, g10⟩ := Iter.splitAt_spec hb sb (hl ▸ hf.1)
    obtain ⟨l'', r'', k1, k2, k3, k4, k5, k6, k7, k8, k9, k10⟩ := Iter.splitAt_spec hc sc (hl' ▸ hf.1)
    have hz : a.items.zip (b.items.zip c.items) =
        l.items.zip (l'.items.zip l''.items) ++ r.items.zip (r'.items.zip r''.items) := by
      rw [items_split h4 h5 h10, items_split g4 g5 g10, items_split k4 k5 k10, List.zip_append, List.zip_append]
      · rw [h2.length_items, List.length_zip, g2.length_items, k2.length_items, h8, g8, k8, Nat.min_self]
      · rw [g2.length_items, k2.length_items, g8, k8]
    obtain ⟨p1, e1, e2⟩ := ihp h2 (h4 ▸ na) (h4 ▸ sa) g2 (g4 ▸ nb) (g4 ▸ sb) k2 (k4 ▸ nc) (k4 ▸ sc)
      (by rw [h8, g8]) (by rw [h8, k8])
      (by rw [h8]; exact hf.2.1) fun pl x hx => h pl x (by rw [hz]; exact List.mem_append_left _ hx)
    obtain ⟨p2, e3, e4⟩ := ihq h3 (h5 ▸ na) (h5 ▸ sa) g3 (g5 ▸ nb) (g5 ▸ sb) k3 (k5 ▸ nc) (k5 ▸ sc)
      (by rw [h9, g9, hl]) (by rw [h9, k9, hl'])
      (by rw [h9]; exact hf.2.2) fun pl x hx => h pl x (by rw [hz]; exact List.mem_append_right _ hx)
    refine ⟨.par p1 p2, ?_, ?_⟩
    · rw [parIter3, h1]; simp only [ok_bind, g1, k1, e1, e3]; rfl
    · rw [hz]; exact .par e2 e4

end
end Rstsr
