import Verif.Proof.ReduceRel
/-!
# Processes without races are deterministic, and related processes run in step

A process in which no two threads ever access the same cell has only one result. A process that differs from
another one only in the values it writes, cell by cell related, has the same executions.
-/
namespace Rstsr
open Spec

section
variable {γ δ : Type}

/-- What one step does to the storage: nothing, after looking at a cell the process touches, or a write to
such a cell. -/
theorem step_local_effect {s t : Proc γ × List γ} (h : Step s t) :
    (t.2 = s.2 ∧ ∀ d : List γ, (∀ i ∈ s.1.touching, d[i]? = s.2[i]?) → Step (s.1, d) (t.1, d)) ∨
    (∃ i w, i ∈ s.1.touching ∧ i < s.2.length ∧ t.2 = s.2.set i w ∧ ∀ d : List γ, i < d.length → Step (s.1, d) (t.1, d.set i w)) := by
  induction h with
  | @read i f v c hv => exact .inl ⟨rfl, fun d hd => .read (by rw [hd i (by simp [Proc.touching])]; exact hv)⟩
  | @write i w c hi => exact .inr ⟨i, w, by simp [Proc.touching], hi, rfl, fun d hd => .write hd⟩
  | seq _ ih =>
    rcases ih with ⟨h1, h2⟩ | ⟨i, w, h1, h2, h3, h4⟩
    · exact .inl ⟨h1, fun d hd => .seq (h2 d hd)⟩
    · exact .inr ⟨i, w, h1, h2, h3, fun d hd => .seq (h4 d hd)⟩
  | next => exact .inl ⟨rfl, fun d _ => .next⟩
  | left _ ih =>
    rcases ih with ⟨h1, h2⟩ | ⟨i, w, h1, h2, h3, h4⟩
    · exact .inl ⟨h1, fun d hd => .left (h2 d fun i hi => hd i (List.mem_append.2 (.inl hi)))⟩
    · exact .inr ⟨i, w, List.mem_append.2 (.inl h1), h2, h3, fun d hd => .left (h4 d hd)⟩
  | right _ ih =>
    rcases ih with ⟨h1, h2⟩ | ⟨i, w, h1, h2, h3, h4⟩
    · exact .inl ⟨h1, fun d hd => .right (h2 d fun i hi => hd i (List.mem_append.2 (.inr hi)))⟩
    · exact .inr ⟨i, w, List.mem_append.2 (.inr h1), h2, h3, fun d hd => .right (h4 d hd)⟩
  | join => exact .inl ⟨rfl, fun d _ => .join⟩

/-- Steps of two processes that touch different cells can be taken in either order. -/
theorem step_commute {p p' q q' : Proc γ} {c c1 c2 : List γ} (hp : Step (p, c) (p', c1)) (hq : Step (q, c) (q', c2))
    (hd : ∀ i ∈ p.touching, i ∉ q.touching) : ∃ d, Step (q, c1) (q', d) ∧ Step (p, c2) (p', d) := by
  rcases step_local_effect hp with ⟨a1, a2⟩ | ⟨i, w, a1, a2, a3, a4⟩
  · rcases step_local_effect hq with ⟨b1, b2⟩ | ⟨j, v, b1, b2, b3, b4⟩
    · simp only at a1 b1
      subst a1 b1
      exact ⟨_, hq, hp⟩
    · simp only at a1 b3
      subst a1 b3
      refine ⟨_, hq, a2 _ fun i hi => ?_⟩
      have : j ≠ i := fun e => hd i hi (e ▸ b1)
      exact List.getElem?_set_ne this
  · rcases step_local_effect hq with ⟨b1, b2⟩ | ⟨j, v, b1, b2, b3, b4⟩
    · simp only at a3 b1
      subst a3 b1
      refine ⟨_, b2 _ fun k hk => ?_, hp⟩
      have : i ≠ k := fun e => hd i a1 (e ▸ hk)
      exact List.getElem?_set_ne this
    · simp only at a2 a3 a4 b2 b3 b4
      subst a3 b3
      have hij : i ≠ j := fun e => hd i a1 (e ▸ b1)
      refine ⟨(c.set i w).set j v, b4 _ (by simpa using b2), ?_⟩
      rw [List.set_comm _ _ hij]
      exact a4 _ (by simpa using a2)

theorem nil_stuck {c : List γ} {s : Proc γ × List γ} (h : Step (.nil, c) s) : False := by cases h

/-- Two different steps from a situation without a race can be joined again. -/
theorem step_diamond {s t u : Proc γ × List γ} (ht : Step s t) (hu : Step s u) (hn : s.1.touching.Nodup) :
    t = u ∨ ∃ v, Step t v ∧ Step u v := by
  induction ht generalizing u with
  | read hv =>
    cases hu with
    | read hv' => rw [hv] at hv'; cases hv'; exact .inl rfl
  | write hi => cases hu with | write hi' => exact .inl rfl
  | seq h ih =>
    cases hu with
    | seq h' =>
      rcases ih h' hn with e | ⟨⟨r, d⟩, h1, h2⟩
      · cases e; exact .inl rfl
      · exact .inr ⟨(.seq r _, d), .seq h1, .seq h2⟩
    | next => exact (nil_stuck h).elim
  | next =>
    cases hu with
    | seq h' => exact (nil_stuck h').elim
    | next => exact .inl rfl
  | left h ih =>
    cases hu with
    | left h' =>
      rcases ih h' (List.Nodup.of_append_left hn) with e | ⟨⟨r, d⟩, h1, h2⟩
      · cases e; exact .inl rfl
      · exact .inr ⟨(.par r _, d), .left h1, .left h2⟩
    | right h' =>
      obtain ⟨d, h1, h2⟩ := step_commute h h' fun i hi hi' => (List.disjoint_of_nodup_append hn) hi hi'
      exact .inr ⟨(.par _ _, d), .right h1, .left h2⟩
    | join => exact (nil_stuck h).elim
  | right h ih =>
    cases hu with
    | left h' =>
      obtain ⟨d, h1, h2⟩ := step_commute h' h fun i hi hi' => (List.disjoint_of_nodup_append hn) hi hi'
      exact .inr ⟨(.par _ _, d), .left h2, .right h1⟩
    | right h' =>
      rcases ih h' (List.Nodup.of_append_right hn) with e | ⟨⟨r, d⟩, h1, h2⟩
      · cases e; exact .inl rfl
      · exact .inr ⟨(.par _ r, d), .right h1, .right h2⟩
    | join => exact (nil_stuck h).elim
  | join =>
    cases hu with
    | left h' => exact (nil_stuck h').elim
    | right h' => exact (nil_stuck h').elim
    | join => exact .inl rfl

theorem steps_head {s t : Proc γ × List γ} (h : Steps s t) : s = t ∨ ∃ u, Step s u ∧ Steps u t := by
  induction h with
  | refl => exact .inl rfl
  | tail h1 h2 ih =>
    rcases ih with rfl | ⟨u, a, b⟩
    · exact .inr ⟨_, h2, .refl _⟩
    · exact .inr ⟨u, a, b.tail h2⟩

theorem steps_cons {s t u : Proc γ × List γ} (h : Step s t) (h' : Steps t u) : Steps s u := by
  induction h' with
  | refl => exact (Steps.refl s).tail h
  | tail _ h2 ih => exact ih.tail h2

/-- A process that never races and never gets stuck has exactly one result. -/
theorem race_free_computes {p : Proc γ} {c : List γ} (hr : RaceFree p c)
    (hp : ∀ q c', Steps (p, c) (q, c') → q = .nil ∨ ∃ s, Step (q, c') s) : ∃ d, Computes p c d := by
  have key : ∀ n, ∀ s : Proc γ × List γ, todo s.1 = n → Steps (p, c) s → ∃ d, Steps s (.nil, d) ∧ ∀ d', Steps s (.nil, d') → d' = d := by
    intro n
    induction n with
    | zero =>
      rintro ⟨q, c'⟩ hn hs
      rcases hp q c' hs with rfl | ⟨t, ht⟩
      · refine ⟨c', .refl _, fun d' h => ?_⟩
        rcases steps_head h with e | ⟨u, hu, -⟩
        · cases e; rfl
        · exact (nil_stuck hu).elim
      · have := todo_step ht
        simp only at this hn
        omega
    | succ n ih =>
      rintro ⟨q, c'⟩ hn hs
      rcases hp q c' hs with rfl | ⟨t, ht⟩
      · cases hn
      · have h1 := todo_step ht
        simp only at h1 hn
        obtain ⟨d, g1, g2⟩ := ih t (by omega) (hs.tail ht)
        refine ⟨d, steps_cons ht g1, fun d' h => ?_⟩
        rcases steps_head h with e | ⟨u, hu, hu'⟩
        · cases e; cases hn
        · have h2 := todo_step hu
          simp only at h2
          rcases step_diamond ht hu (hr q c' hs) with rfl | ⟨v, v1, v2⟩
          · exact g2 d' hu'
          · obtain ⟨e, k1, k2⟩ := ih u (by omega) (hs.tail hu)
            rw [k2 d' hu']
            have h3 := todo_step v1
            -- both ways go on to the end of `v`
            obtain ⟨q2, c2⟩ := v
            have hv : ∃ x, Steps (q2, c2) (.nil, x) := by
              have hvs : Steps (p, c) (q2, c2) := (hs.tail ht).tail v1
              have go : ∀ m, ∀ s : Proc γ × List γ, todo s.1 = m → Steps (p, c) s → ∃ x, Steps s (.nil, x) := by
                intro m
                induction m with
                | zero =>
                  rintro ⟨q, c'⟩ hm hs
                  rcases hp q c' hs with rfl | ⟨t, ht⟩
                  · exact ⟨_, .refl _⟩
                  · have := todo_step ht
                    simp only at this hm
                    omega
                | succ m ihm =>
                  rintro ⟨q, c'⟩ hm hs
                  rcases hp q c' hs with rfl | ⟨t, ht⟩
                  · exact ⟨_, .refl _⟩
                  · have := todo_step ht
                    simp only at this hm
                    obtain ⟨x, hx⟩ := ihm t (by omega) (hs.tail ht)
                    exact ⟨x, steps_cons ht hx⟩
              exact go _ _ rfl hvs
            obtain ⟨x, hx⟩ := hv
            rw [← k2 x (steps_cons v2 hx), g2 x (steps_cons v1 hx)]
  obtain ⟨d, h1, h2⟩ := key _ (p, c) rfl (.refl _)
  refine ⟨d, h2, hp, todo p, fun run n h0 hstep => ?_⟩
  have : ∀ k ≤ n, todo (run k).1 + k = todo p := by
    intro k
    induction k with
    | zero => intro _; rw [h0]; rfl
    | succ k ih =>
      intro hk
      have := todo_step (hstep k (by omega))
      have := ih (by omega)
      omega
  have := this n (Nat.le_refl n)
  omega

/-- Processes that differ only in the values they write, which are related. -/
inductive ProcRel (S : γ → δ → Prop) : Proc γ → Proc δ → Prop
  | nil : ProcRel S .nil .nil
  | upd (i) {f g} : (∀ v w, S v w → S (f v) (g w)) → ProcRel S (.upd i f) (.upd i g)
  | mid (i) {v w} : S v w → ProcRel S (.mid i v) (.mid i w)
  | seq {p q p' q'} : ProcRel S p p' → ProcRel S q q' → ProcRel S (.seq p q) (.seq p' q')
  | par {p q p' q'} : ProcRel S p p' → ProcRel S q q' → ProcRel S (.par p q) (.par p' q')

theorem ProcRel.flip {S : γ → δ → Prop} {p : Proc γ} {q : Proc δ} (h : ProcRel S p q) : ProcRel (fun w v => S v w) q p := by
  induction h with
  | nil => exact .nil
  | upd i h => exact .upd i fun _ _ => h _ _
  | mid i h => exact .mid i h
  | seq _ _ h1 h2 => exact .seq h1 h2
  | par _ _ h1 h2 => exact .par h1 h2

theorem ProcRel.touching {S : γ → δ → Prop} {p : Proc γ} {q : Proc δ} (h : ProcRel S p q) : p.touching = q.touching := by
  induction h with
  | nil => rfl
  | upd i h => rfl
  | mid i h => rfl
  | seq _ _ h1 h2 => simp only [Proc.touching, h1]
  | par _ _ h1 h2 => simp only [Proc.touching, h1, h2]

theorem forall2_get {S : γ → δ → Prop} {c : List γ} {d : List δ} (h : List.Forall₂ S c d) {i : Nat} {v : γ} (hv : c[i]? = some v) :
    ∃ w, d[i]? = some w ∧ S v w := by
  induction h generalizing i with
  | nil => simp at hv
  | cons h _ ih =>
    cases i with
    | zero => cases hv; exact ⟨_, rfl, h⟩
    | succ i => simpa using ih (by simpa using hv)

theorem forall2_set {S : γ → δ → Prop} {c : List γ} {d : List δ} (h : List.Forall₂ S c d) (i : Nat) {v : γ} {w : δ} (hv : S v w) :
    List.Forall₂ S (c.set i v) (d.set i w) := by
  induction h generalizing i with
  | nil => exact .nil
  | cons h hs ih =>
    cases i with
    | zero => exact .cons hv hs
    | succ i => exact .cons h (ih i)

theorem step_rel {S : γ → δ → Prop} {s t : Proc γ × List γ} (h : Step s t) {q : Proc δ} {d : List δ} (hp : ProcRel S s.1 q)
    (hc : List.Forall₂ S s.2 d) : ∃ q' d', Step (q, d) (q', d') ∧ ProcRel S t.1 q' ∧ List.Forall₂ S t.2 d' := by
  induction h generalizing q d with
  | read hv =>
    cases hp with
    | upd i hf =>
      obtain ⟨w, h1, h2⟩ := forall2_get hc hv
      exact ⟨_, _, .read h1, .mid _ (hf _ _ h2), hc⟩
  | write hi =>
    cases hp with
    | mid i hv => exact ⟨_, _, .write (by rw [← hc.length_eq]; exact hi), .nil, forall2_set hc _ hv⟩
  | seq _ ih =>
    cases hp with
    | seq h1 h2 =>
      obtain ⟨q', d', a, b, e⟩ := ih h1 hc
      exact ⟨_, _, .seq a, .seq b h2, e⟩
  | next =>
    cases hp with
    | seq h1 h2 => cases h1; exact ⟨_, _, .next, h2, hc⟩
  | left _ ih =>
    cases hp with
    | par h1 h2 =>
      obtain ⟨q', d', a, b, e⟩ := ih h1 hc
      exact ⟨_, _, .left a, .par b h2, e⟩
  | right _ ih =>
    cases hp with
    | par h1 h2 =>
      obtain ⟨q', d', a, b, e⟩ := ih h2 hc
      exact ⟨_, _, .right a, .par h1 b, e⟩
  | join =>
    cases hp with
    | par h1 h2 => cases h1; cases h2; exact ⟨_, _, .join, .nil, hc⟩

theorem steps_rel {S : γ → δ → Prop} {s t : Proc γ × List γ} (h : Steps s t) {q : Proc δ} {d : List δ} (hp : ProcRel S s.1 q)
    (hc : List.Forall₂ S s.2 d) : ∃ q' d', Steps (q, d) (q', d') ∧ ProcRel S t.1 q' ∧ List.Forall₂ S t.2 d' := by
  induction h with
  | refl => exact ⟨_, _, .refl _, hp, hc⟩
  | tail _ h2 ih =>
    obtain ⟨q', d', a, b, e⟩ := ih
    obtain ⟨q2, d2, a2, b2, e2⟩ := step_rel h2 b e
    exact ⟨q2, d2, a.tail a2, b2, e2⟩

/-- A process related to one that computes a result without races computes a related result without races. -/
theorem computes_rel {S : γ → δ → Prop} {p : Proc γ} {q : Proc δ} {c : List γ} {d e : List δ} (hp : ProcRel S p q)
    (hc : List.Forall₂ S c d) (h : Computes q d e) (hr : RaceFree q d) : ∃ e', Computes p c e' ∧ RaceFree p c ∧ List.Forall₂ S e' e := by
  have race : RaceFree p c := by
    intro p' c' hs
    obtain ⟨q', d', h1, h2, h3⟩ := steps_rel hs hp hc
    have := hr q' d' h1
    rwa [← h2.touching] at this
  obtain ⟨e', he⟩ := race_free_computes race (by
    intro p' c' hs
    obtain ⟨q', d', h1, h2, h3⟩ := steps_rel hs hp hc
    rcases h.progress q' d' h1 with rfl | ⟨⟨q2, d2⟩, ht⟩
    · left; generalize hnil : (Proc.nil : Proc δ) = z at h2; simp only at h2; cases h2 <;> first | rfl | cases hnil
    · obtain ⟨p2, c2, k, -⟩ := step_rel ht h2.flip (h3.flip)
      exact .inr ⟨_, k⟩)
  refine ⟨e', he, race, ?_⟩
  obtain ⟨q', d', h1, h2, h3⟩ := steps_rel (computes_reaches he) hp hc
  simp only at h2 h3
  cases h2
  rw [h.result d' h1] at h3
  exact h3

end
end Rstsr

namespace Rstsr
open Spec

section
variable {γ δ ι : Type} {S : γ → δ → Prop}

theorem procLoop_rel {f : ι → Res (Proc γ)} {g : ι → Res (Proc δ)} (xs : List ι) (h : ∀ x, ResRel (ProcRel S) (f x) (g x)) :
    ResRel (ProcRel S) (procLoop f xs) (procLoop g xs) := by
  induction xs with
  | nil => exact .ok .nil
  | cons x xs ih => exact (h x).bind fun _ _ h1 => ih.bind fun _ _ h2 => .ok (.seq h1 h2)

theorem parRange_rel {f : Nat → Res (Proc γ)} {g : Nat → Res (Proc δ)} (p : Plan) (xs : List Nat) (h : ∀ x, ResRel (ProcRel S) (f x) (g x)) :
    ResRel (ProcRel S) (parRange f p xs) (parRange g p xs) := by
  induction p generalizing xs with
  | run => exact procLoop_rel xs h
  | split k p q ip iq => exact (ip _).bind fun _ _ h1 => (iq _).bind fun _ _ h2 => .ok (.par h1 h2)

theorem parIter2_rel {f : Plan → Nat × Nat → Res (Proc γ)} {g : Plan → Nat × Nat → Res (Proc δ)}
    (h : ∀ p x, ResRel (ProcRel S) (f p x) (g p x)) (p : Sched) (a b : Iter) :
    ResRel (ProcRel S) (parIter2 f p a b) (parIter2 g p a b) := by
  induction p generalizing a b with
  | run inner => exact ResRel.after _ fun xs _ => ResRel.after _ fun ys _ => procLoop_rel _ fun x => h _ _
  | split k p q ip iq =>
    exact ResRel.after _ fun x _ => ResRel.after _ fun y _ => (ip _ _).bind fun _ _ h1 => (iq _ _).bind fun _ _ h2 => .ok (.par h1 h2)

theorem dispatchPar2diff_rel {f : Plan → Nat × Nat → Res (Proc γ)} {g : Plan → Nat × Nat → Res (Proc δ)}
    (h : ∀ p x, ResRel (ProcRel S) (f p x) (g p x)) (la lb : Layout) (s : Scheduler) (n : Nat) :
    ResRel (ProcRel S) (dispatchPar2diff la lb f s n) (dispatchPar2diff la lb g s n) :=
  ResRel.after _ fun _ _ => ResRel.after _ fun _ _ => parIter2_rel h _ _ _

end

section
variable {α σ τ ω υ : Type} {S : σ → τ → Prop} {O : ω → υ → Prop} {R : Reducer α σ ω} {Q : Reducer α τ υ} (F : Related S O R Q)
include F

theorem routeSPar_rel (s : Nat → Scheduler) (a : List α) (off : Int) (s0 sc : Nat) (ls lm lo : Layout) :
    ResRel (ProcRel (CellRel O)) (reduceRouteSPar s R a off s0 sc ls lm lo) (reduceRouteSPar s Q a off s0 sc ls lm lo) := by
  unfold reduceRouteSPar
  refine ResRel.after _ fun _ _ => ResRel.after _ fun _ _ => ResRel.after _ fun _ _ => ResRel.after _ fun it _ => ?_
  refine dispatchPar2diff_rel (fun _ p => ?_) _ _ _ _
  refine (parFold1_rel F (fun _ s t z h => ?_) _ it).bind fun s t hs => ?_
  · exact ResRel.after _ fun k _ => stepBlock_rel F a sc k h
  · exact .ok (.upd _ fun _ _ _ => .some (F.fOut (repeatAcc_rel F s0 hs)))

theorem routeMPar_rel (s : Nat → Scheduler) (a : List α) (off : Int) (s0 mc : Nat) (ls lm lo : Layout) :
    ResRel (ProcRel (CellRel O)) (reduceRouteMPar s R a off s0 mc ls lm lo) (reduceRouteMPar s Q a off s0 mc ls lm lo) := by
  unfold reduceRouteMPar
  refine ResRel.after _ fun _ _ => ResRel.after _ fun zs _ => ResRel.after _ fun _ _ => ResRel.after _ fun _ _ => ResRel.after _ fun _ _ => ?_
  split
  · exact .err _
  refine dispatchPar2diff_rel (fun inner p => ?_) _ _ _ _
  refine (rowAcc_rel F a 64 off p.1 mc zs).bind fun v w hv => ?_
  refine parRange_rel _ _ fun t => ?_
  exact (readAt_rel hv t).bind fun s t hs => .ok (.upd _ fun _ _ _ => .some (F.fOut (repeatAcc_rel F s0 hs)))

theorem routeDPar_rel (s : Nat → Scheduler) (a : List α) (off : Int) (s0 : Nat) (ls lm lo : Layout) :
    ResRel (ProcRel (CellRel O)) (reduceRouteDPar s R a off s0 ls lm lo) (reduceRouteDPar s Q a off s0 ls lm lo) := by
  unfold reduceRouteDPar
  refine ResRel.after _ fun _ _ => ResRel.after _ fun _ _ => ResRel.after _ fun _ _ => ResRel.after _ fun it _ => ?_
  refine dispatchPar2diff_rel (fun _ p => ?_) _ _ _ _
  refine (parFold1_rel F (fun _ s t z h => ?_) _ it).bind fun s t hs => ?_
  · exact ResRel.after _ fun k _ => stepAt_rel F a k h
  · exact .ok (.upd _ fun _ _ _ => .some (F.fOut (repeatAcc_rel F s0 hs)))

/-- Related ways to go on: finished with related results, or threads that run in step. -/
inductive RunRel {ρ ρ' : Type} (O : ω → υ → Prop) (P : ρ → ρ' → Prop) : AxesRun ω ρ → AxesRun υ ρ' → Prop
  | done {r r'} : P r r' → RunRel O P (.done r) (.done r')
  | threads {p p' n fin fin'} : ProcRel (CellRel O) p p' →
      (∀ c d, List.Forall₂ (CellRel O) c d → ResRel P (fin c) (fin' d)) → RunRel O P (.threads p n fin) (.threads p' n fin')

theorem reduceAxesPar_rel (dflt : Order) (s : Nat → Scheduler) (a : List α) (la : Layout) (axes : List Int) :
    ResRel (RunRel O fun p q => List.Forall₂ O p.1 q.1 ∧ p.2 = q.2) (reduceAxesPar dflt s R a la axes) (reduceAxesPar dflt s Q a la axes) := by
  unfold reduceAxesPar
  split
  · exact (reduceAxes_rel F dflt a la axes).bind fun _ _ h => .ok (.done h)
  refine ResRel.after _ fun ⟨ls, lm⟩ _ => ResRel.after _ fun lo _ => ResRel.after _ fun ⟨s0, sc, m0, mc⟩ _ => ?_
  have hr : ResRel (ProcRel (CellRel O))
      (if sc > 1 then reduceRouteSPar s R a la.offset s0 sc ls lm lo
        else if mc > 1 then reduceRouteMPar s R a la.offset s0 mc ls lm lo
        else reduceRouteDPar s R a la.offset s0 ls lm lo)
      (if sc > 1 then reduceRouteSPar s Q a la.offset s0 sc ls lm lo
        else if mc > 1 then reduceRouteMPar s Q a la.offset s0 mc ls lm lo
        else reduceRouteDPar s Q a la.offset s0 ls lm lo) := by
    split
    · exact routeSPar_rel F s a _ s0 sc ls lm lo
    · split
      · exact routeMPar_rel F s a _ s0 mc ls lm lo
      · exact routeDPar_rel F s a _ s0 ls lm lo
  exact hr.bind fun _ _ hp => .ok (.threads hp fun _ _ h => (spread_rel la.offset m0 lm lo h).bind fun _ _ h =>
    (assumeInit_rel h).bind fun _ _ h => .ok ⟨h, rfl⟩)

/-- Tensors with the same layout and related elements. -/
def TensorRel (O : ω → υ → Prop) (t : Tensor ω) (u : Tensor υ) : Prop := List.Forall₂ O t.data u.data ∧ t.layout = u.layout

omit F in
theorem newF_rel {d : List ω} {d' : List υ} (l : Layout) (h : List.Forall₂ O d d') :
    ResRel (TensorRel O) (Tensor.newF d l) (Tensor.newF d' l) := by
  unfold Tensor.newF
  rw [h.length_eq]
  refine ResRel.after _ fun _ _ => ResRel.after _ fun b _ => ?_
  obtain ⟨_, mx⟩ := b
  simp only
  split
  · exact .ok ⟨h, rfl⟩
  · exact .err _

theorem axesKernel_rel (dflt : Order) (par : Option (Nat → Scheduler)) (t : Tensor α) (axes : List Int) :
    ResRel (RunRel O (TensorRel O)) (t.axesKernel dflt par R axes) (t.axesKernel dflt par Q axes) := by
  unfold Tensor.axesKernel
  cases par with
  | none =>
    refine (reduceAxes_rel F dflt _ _ axes).bind fun ⟨d, lo⟩ ⟨d', lo'⟩ h => ?_
    obtain ⟨h1, h2⟩ := h
    simp only at h1 h2
    subst h2
    exact (newF_rel lo h1).bind fun _ _ h => .ok (.done h)
  | some s =>
    refine (reduceAxesPar_rel F dflt s _ _ axes).bind fun r r' h => ?_
    cases h with
    | done h =>
      obtain ⟨h1, h2⟩ := h
      rw [AxesRun.andThen, AxesRun.andThen, h2]
      exact (newF_rel _ h1).bind fun _ _ h => .ok (.done h)
    | threads hp hf =>
      refine .ok (.threads hp fun c d h => ?_)
      exact (hf c d h).bind fun x y hxy => by simp only [hxy.2]; exact newF_rel _ hxy.1

end
end Rstsr
