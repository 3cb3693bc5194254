import Verif.Proof.BlasThreads
/-!
# Theorems on the number of threads of the BLAS libraries (C89)
-/
namespace Rstsr
open Spec (ThreadProg promised)

/-- C89: under every schedule, in a thread whose number no other running thread shares, a finished program has seen exactly the numbers the promise gives: the
body of `with_num_threads(n, body)` runs under `n`, nested or not, and the number after a body that returned is the one before. `ho` holds if the other threads
keep numbers of their own, and if no other thread runs. -/
theorem C89_scoped_partial (lib : BlasLib) (worker : Nat → Bool) (ps : Nat → ThreadProg) (s : ThreadCells) (sched : List Nat) (t : Nat)
    (hc : lib ≠ .openblasSequential) (ho : ∀ u ∈ sched, u ≠ t → lib.cell (worker u) ≠ .shared) :
    let before := ThreadWorld.start ps s
    let after := runThreads lib worker before sched
    let want := promised (ps t) (before.count lib worker t)
    (after.threads t).todo = [] →
      (after.threads t).log = want.log ∧ after.count lib worker t = want.after ∧ (after.threads t).panicked = !want.returned := by
  intro before after want hf
  have hc' : lib.cell (worker t) ≠ .nowhere := by
    cases lib <;> simp_all [BlasLib.cell] <;> split <;> simp
  have h := runThreads_solo lib worker t hc' sched ho before
  have hs := soloRun_start (ps t) (before.count lib worker t) (sched.count t)
    (Or.inl (by
      have := congrArg (fun p => p.1.todo) h
      simp only at this
      exact this ▸ hf))
  have hw : before.threads t = .start (ps t) := rfl
  rw [hw, hs] at h
  have h1 : after.threads t = _ := congrArg Prod.fst h
  have h2 : after.count lib worker t = _ := congrArg Prod.snd h
  rw [h1, h2]
  exact ⟨rfl, rfl, rfl⟩

/-- C89: and it finishes once it has had as many turns as it makes calls. -/
theorem C89_finishes (lib : BlasLib) (worker : Nat → Bool) (ps : Nat → ThreadProg) (s : ThreadCells) (sched : List Nat) (t : Nat)
    (hc : lib ≠ .openblasSequential) (ho : ∀ u ∈ sched, u ≠ t → lib.cell (worker u) ≠ .shared) (hn : (threadOps (ps t)).length ≤ sched.count t) :
    ((runThreads lib worker (.start ps s) sched).threads t).todo = [] := by
  have hc' : lib.cell (worker t) ≠ .nowhere := by
    cases lib <;> simp_all [BlasLib.cell] <;> split <;> simp
  have h := runThreads_solo lib worker t hc' sched ho (.start ps s)
  have hw : (ThreadWorld.start ps s).threads t = .start (ps t) := rfl
  rw [hw, soloRun_start _ _ _ (Or.inr hn)] at h
  have h1 := congrArg Prod.fst h
  simp only at h1
  rw [h1]

/-- C89: OpenBLAS with OpenMP, MKL, and the versions of BLIS and AOCL with a number for each thread: whatever the threads of a program do at the same time,
each of them finds its number unchanged after calls that return. -/
theorem C89_restored (lib : BlasLib) (hl : lib ∈ [.openblasOpenMP, .mkl, .blis true, .aocl true]) (worker : Nat → Bool) (ps : Nat → ThreadProg) (s : ThreadCells)
    (sched : List Nat) (t : Nat) (hs : (ps t).OnlyScopes) (hr : (ps t).Returns) :
    let before := ThreadWorld.start ps s
    let after := runThreads lib worker before sched
    (after.threads t).todo = [] → after.count lib worker t = before.count lib worker t ∧ (after.threads t).panicked = false := by
  intro before after hf
  have h1 : lib ≠ .openblasSequential := by rintro rfl; simp at hl
  have h2 : ∀ b, lib.cell b ≠ .shared := by
    simp only [List.mem_cons, List.not_mem_nil, or_false] at hl
    rcases hl with rfl | rfl | rfl | rfl <;> simp [BlasLib.cell]
  have h := C89_scoped_partial lib worker ps s sched t h1 (fun u _ _ => h2 _) hf
  have h3 := scoped_after_eq (ps t) hs hr (before.count lib worker t)
  exact ⟨h.2.1.trans h3.1, by rw [h.2.2, h3.2]; rfl⟩

/-- C89: KML inside of worker threads: the same, as long as the threads outside wait for them. -/
theorem C89_workers (worker : Nat → Bool) (ps : Nat → ThreadProg) (s : ThreadCells) (sched : List Nat) (hw : ∀ u ∈ sched, worker u = true) (t : Nat)
    (hs : (ps t).OnlyScopes) (hr : (ps t).Returns) :
    let before := ThreadWorld.start ps s
    let after := runThreads .kml worker before sched
    (after.threads t).todo = [] → after.count .kml worker t = before.count .kml worker t ∧ (after.threads t).panicked = false := by
  intro before after hf
  have h := C89_scoped_partial .kml worker ps s sched t (by decide) (fun u hu _ => by simp [BlasLib.cell, hw u hu]) hf
  have h3 := scoped_after_eq (ps t) hs hr (before.count .kml worker t)
  exact ⟨h.2.1.trans h3.1, by rw [h.2.2, h3.2]; rfl⟩

/-- C89: every library, when one thread uses it: all numbers are restored. -/
theorem C89_alone (lib : BlasLib) (worker : Nat → Bool) (ps : Nat → ThreadProg) (s : ThreadCells) (t k : Nat) (hs : (ps t).OnlyScopes) (hr : (ps t).Returns)
    (hl : lib ≠ .openblasSequential) :
    let before := ThreadWorld.start ps s
    let after := runThreads lib worker before (List.replicate k t)
    (threadOps (ps t)).length ≤ k → after.count lib worker t = before.count lib worker t ∧ (after.threads t).panicked = false
      ∧ (after.threads t).log = (promised (ps t) (before.count lib worker t)).log := by
  intro before after hk
  have ho : ∀ u ∈ List.replicate k t, u ≠ t → lib.cell (worker u) ≠ .shared := fun u hu hut => absurd (List.eq_of_mem_replicate hu) hut
  have hf := C89_finishes lib worker ps s _ t hl ho (by rw [List.count_replicate_self]; exact hk)
  have h := C89_scoped_partial lib worker ps s _ t hl ho hf
  have h3 := scoped_after_eq (ps t) hs hr (before.count lib worker t)
  exact ⟨h.2.1.trans h3.1, by rw [h.2.2, h3.2]; rfl, h.1⟩

/-- C89: OpenBLAS without threads always reports one thread. -/
theorem C89_sequential (worker : Nat → Bool) (ps : Nat → ThreadProg) (s : ThreadCells) (sched : List Nat) (t : Nat) :
    let after := runThreads .openblasSequential worker (.start ps s) sched
    (∀ n ∈ (after.threads t).log, n = 1) ∧ after.count .openblasSequential worker t = 1 := by
  refine ⟨?_, rfl⟩
  suffices h : ∀ w : ThreadWorld, (∀ u, ∀ n ∈ (w.threads u).log, n = 1) →
      ∀ u, ∀ n ∈ ((runThreads .openblasSequential worker w sched).threads u).log, n = 1 by
    exact h _ (fun u n hn => by simp [ThreadWorld.start, ThreadState.start] at hn) t
  induction sched with
  | nil => exact fun w h => h
  | cons v rest ih =>
    intro w h
    refine ih (w.turn .openblasSequential worker v) (fun u n hn => ?_)
    simp only [ThreadWorld.turn] at hn
    split at hn
    · unfold ThreadState.step at hn
      split at hn
      · exact h v n hn
      · simp only [List.mem_append, List.mem_singleton] at hn
        rcases hn with hn | hn
        · exact h v n hn
        · exact hn
      · exact h v n hn
      · exact h v n hn
      · split at hn <;> exact h v n hn
      · exact h v n hn
    · exact h u n hn

/-- C89: every library and every schedule, races and panics included: only numbers occur that were there at the beginning or that some thread has asked for. -/
theorem C89_numbers (lib : BlasLib) (worker : Nat → Bool) (ps : Nat → ThreadProg) (s : ThreadCells) (sched : List Nat) (t n : Nat) :
    let after := runThreads lib worker (.start ps s) sched
    (n ∈ (after.threads t).log ∨ n = after.count lib worker t) →
      n = s.shared ∨ (∃ u, s.own u = some n) ∨ (∃ u, n ∈ (ps u).asks) ∨ lib = .openblasSequential ∧ n = 1 := by
  intro after hn
  let P : Nat → Prop := fun n => n = s.shared ∨ (∃ u, s.own u = some n) ∨ (∃ u, n ∈ (ps u).asks) ∨ lib = .openblasSequential ∧ n = 1
  have h1 : ∀ t, lib.cell (worker t) = .nowhere → P 1 := by
    intro t h
    have : lib = .openblasSequential := by
      cases lib <;> simp [BlasLib.cell] at h ⊢ <;> split at h <;> simp at h
    exact Or.inr (Or.inr (Or.inr ⟨this, rfl⟩))
  have h0 : Nums P (.start ps s) := by
    refine ⟨Or.inl rfl, fun t n h => Or.inr (Or.inl ⟨t, h⟩), fun t n h => Or.inr (Or.inr (Or.inl ⟨t, (set_mem_ops _ _).1 h⟩)), ?_, ?_⟩
    · intro t n h
      simp [ThreadWorld.start, ThreadState.start] at h
    · intro t n h
      simp [ThreadWorld.start, ThreadState.start] at h
  have h := nums_run lib worker h1 sched _ h0
  rcases hn with hn | rfl
  · exact h.log t n hn
  · exact nums_get h.shared h.own _ _ (h1 t)

/-- C89 fails when the body panics: the number stays what the body was to run under. -/
theorem C89_false_panic (lib : BlasLib) (hl : lib ≠ .openblasSequential) (worker : Nat → Bool) (s : ThreadCells) (n t : Nat) :
    let after := runThreads lib worker (.start (fun _ => .within n .fail) s) [t, t, t, t]
    (after.threads t).panicked = true ∧ (after.threads t).todo = [] ∧ after.count lib worker t = n := by
  have hf := C89_finishes lib worker (fun _ => .within n .fail) s [t, t, t, t] t hl (by simp) (by simp [threadOps])
  have h := C89_scoped_partial lib worker (fun _ => .within n .fail) s [t, t, t, t] t hl (by simp) hf
  exact ⟨h.2.2, hf, h.2.1⟩

/-- C89 fails with a shared number: the tasks of a batched product (`matmul.rs:179-181`: `with_num_threads(1, gemm)` in worker threads) on OpenBLAS built with
its own threads. Both tasks have returned, one of them has run under `g` threads instead of one, and the number stays at one for the whole program. -/
theorem C89_false_race (worker : Nat → Bool) (own : Nat → Option Nat) (g : Nat) :
    let after := runThreads .openblasThread worker (.start (fun _ => .within 1 .look) ⟨g, own⟩) [0, 0, 1, 1, 0, 0, 1, 1]
    after.threads 0 = ⟨[], [], [1], false⟩ ∧ after.threads 1 = ⟨[], [], [g], false⟩ ∧ ∀ t, after.count .openblasThread worker t = 1 := by
  refine ⟨?_, ?_, fun t => ?_⟩ <;>
    simp [runThreads, ThreadWorld.turn, ThreadWorld.start, ThreadWorld.count, ThreadState.start, threadOps, ThreadState.step, BlasLib.cell, ThreadCells.get, ThreadCells.put]

/-! ## The hypotheses are met -/

/-- Two levels, with a setting inside. -/
def nestedProg : ThreadProg := .seq .look (.seq (.within 4 (.seq .look (.seq (.within 1 .look) (.seq (.set 3) .look)))) .look)

example : promised nestedProg 16 = ⟨[16, 4, 1, 3, 16], 16, true⟩ := by decide
example := C89_scoped_partial .mkl (fun _ => true) (fun t => if t = 0 then nestedProg else .within 2 .fail) ⟨16, fun _ => none⟩
  [0, 1, 0, 0, 1, 0, 0, 1, 0, 1, 0, 0, 0, 0, 0, 0] 0 (by decide) (by simp [BlasLib.cell])
  (by simp [runThreads, ThreadWorld.turn, ThreadWorld.start, ThreadState.start, threadOps, ThreadState.step, BlasLib.cell, nestedProg])
example := C89_restored .openblasOpenMP (by simp) (fun _ => true) (fun _ => .within 1 .look) ⟨16, fun _ => none⟩ [0, 0, 1, 1, 0, 0, 1, 1] 1
  (by simp [ThreadProg.OnlyScopes]) (by simp [ThreadProg.Returns])
  (by simp [runThreads, ThreadWorld.turn, ThreadWorld.start, ThreadState.start, threadOps, ThreadState.step, BlasLib.cell])
example := C89_workers (fun _ => true) (fun _ => .within 1 .look) ⟨16, fun _ => some 1⟩ [0, 0, 1, 1, 0, 0, 1, 1] (by simp) 1
  (by simp [ThreadProg.OnlyScopes]) (by simp [ThreadProg.Returns])
  (by simp [runThreads, ThreadWorld.turn, ThreadWorld.start, ThreadState.start, threadOps, ThreadState.step, BlasLib.cell])
example := C89_alone .openblasThread (fun _ => false) (fun _ => .within 4 (.seq .look (.within 1 .look))) ⟨16, fun _ => none⟩ 7 8
  (by simp [ThreadProg.OnlyScopes]) (by simp [ThreadProg.Returns]) (by decide) (by decide)
example := C89_finishes .openblasThread (fun _ => false) (fun _ => nestedProg) ⟨16, fun _ => none⟩ (List.replicate 12 0) 0 (by decide) (by simp) (by decide)
example := (C89_numbers .openblasThread (fun _ => true) (fun _ => .within 1 .look) ⟨16, fun _ => none⟩ [0, 0, 1, 1, 0, 0, 1, 1] 1 16
  (Or.inl (by rw [(C89_false_race (fun _ => true) (fun _ => none) 16).2.1]; simp)))
example := C89_false_panic .mkl (by decide) (fun _ => false) ⟨16, fun _ => none⟩ 1 0
example := C89_false_race (fun _ => true) (fun _ => none) 16

end Rstsr
