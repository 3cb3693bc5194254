import Verif.Model.BlasThreads
/-!
# Lemmas on the number of threads of the BLAS libraries
-/
namespace Rstsr
open Spec (ThreadProg promised)

/-- One turn of a thread whose number nobody else changes. -/
def soloStep (xv : ThreadState × Nat) : ThreadState × Nat := match xv.1.todo with
  | [] => xv
  | .look :: rest => (⟨rest, xv.1.saved, xv.1.log ++ [xv.2], xv.1.panicked⟩, xv.2)
  | .set n :: rest => (⟨rest, xv.1.saved, xv.1.log, xv.1.panicked⟩, n)
  | .save :: rest => (⟨rest, xv.2 :: xv.1.saved, xv.1.log, xv.1.panicked⟩, xv.2)
  | .restore :: rest => match xv.1.saved with
    | [] => (⟨rest, [], xv.1.log, xv.1.panicked⟩, xv.2)
    | n :: saved => (⟨rest, saved, xv.1.log, xv.1.panicked⟩, n)
  | .fail :: _ => (⟨[], [], xv.1.log, true⟩, xv.2)

def soloRun : Nat → ThreadState × Nat → ThreadState × Nat
  | 0, xv => xv
  | k + 1, xv => soloRun k (soloStep xv)

theorem soloRun_add (a b : Nat) (xv : ThreadState × Nat) : soloRun (a + b) xv = soloRun b (soloRun a xv) := by
  induction a generalizing xv with
  | zero => simp [soloRun]
  | succ a ih => rw [Nat.succ_add, soloRun, ih, soloRun]

theorem soloRun_done (k : Nat) (xv : ThreadState × Nat) (h : xv.1.todo = []) : soloRun k xv = xv := by
  induction k with
  | zero => rfl
  | succ k ih =>
    have : soloStep xv = xv := by simp [soloStep, h]
    rw [soloRun, this, ih]

theorem soloRun_prog (p : ThreadProg) (rest : List ThreadOp) (saved log : List Nat) (v : Nat) : ∃ k, k ≤ (threadOps p).length ∧
    soloRun k (⟨threadOps p ++ rest, saved, log, false⟩, v) =
      if (promised p v).returned then (⟨rest, saved, log ++ (promised p v).log, false⟩, (promised p v).after)
      else (⟨[], [], log ++ (promised p v).log, true⟩, (promised p v).after) := by
  induction p generalizing rest saved log v with
  | skip => exact ⟨0, Nat.zero_le _, by simp [promised, threadOps, soloRun]⟩
  | look => exact ⟨1, by simp [threadOps], by simp [promised, threadOps, soloRun, soloStep]⟩
  | set n => exact ⟨1, by simp [threadOps], by simp [promised, threadOps, soloRun, soloStep]⟩
  | fail => exact ⟨1, by simp [threadOps], by simp [promised, threadOps, soloRun, soloStep]⟩
  | seq a b iha ihb =>
    obtain ⟨ka, hka, ha⟩ := iha (threadOps b ++ rest) saved log v
    by_cases hr : (promised a v).returned = true
    · obtain ⟨kb, hkb, hb⟩ := ihb rest saved (log ++ (promised a v).log) (promised a v).after
      refine ⟨ka + kb, by simp only [threadOps, List.length_append]; omega, ?_⟩
      simp only [threadOps, List.append_assoc, promised, hr, if_true]
      rw [soloRun_add, ha, hr, if_pos rfl, hb]
      simp only [List.append_assoc]
    · refine ⟨ka, by simp only [threadOps, List.length_append]; omega, ?_⟩
      simp only [threadOps, List.append_assoc, promised, hr]
      rw [ha]
      simp [hr]
  | within n body ih =>
    obtain ⟨k, hk, h⟩ := ih (.restore :: rest) (v :: saved) log n
    have h2 : soloRun 2 (⟨threadOps (.within n body) ++ rest, saved, log, false⟩, v)
        = (⟨threadOps body ++ (.restore :: rest), v :: saved, log, false⟩, n) := by
      simp [threadOps, soloRun, soloStep]
    by_cases hr : (promised body n).returned = true
    · refine ⟨2 + (k + 1), by simp only [threadOps, List.length_append, List.length_cons, List.length_nil]; omega, ?_⟩
      rw [soloRun_add, h2, soloRun_add, h]
      simp [promised, hr, soloRun, soloStep]
    · refine ⟨2 + k, by simp only [threadOps, List.length_append, List.length_cons, List.length_nil]; omega, ?_⟩
      rw [soloRun_add, h2, h]
      simp [promised, hr]

theorem soloRun_start (p : ThreadProg) (v m : Nat) (h : (soloRun m (.start p, v)).1.todo = [] ∨ (threadOps p).length ≤ m) :
    soloRun m (.start p, v) = (⟨[], [], (promised p v).log, !(promised p v).returned⟩, (promised p v).after) := by
  obtain ⟨k, hk, hrun⟩ := soloRun_prog p [] [] [] v
  rw [List.append_nil] at hrun
  have he : soloRun k (.start p, v) = (⟨[], [], (promised p v).log, !(promised p v).returned⟩, (promised p v).after) := by
    rw [ThreadState.start, hrun]
    cases hr : (promised p v).returned <;> simp
  by_cases hkm : k ≤ m
  · rw [show m = k + (m - k) by omega, soloRun_add, he, soloRun_done _ _ rfl]
  · have hm : (soloRun m (.start p, v)).1.todo = [] := by
      rcases h with h | h
      · exact h
      · omega
    rw [← he, show k = m + (k - m) by omega, soloRun_add, soloRun_done _ _ hm]

theorem get_put_self (s : ThreadCells) (c : Cell) (t n : Nat) (hc : c ≠ .nowhere) : (s.put c t n).get c t = n := by
  cases c <;> simp_all [ThreadCells.put, ThreadCells.get]

theorem get_put_other (s : ThreadCells) (c d : Cell) (t u n : Nat) (hut : u ≠ t) (hd : d ≠ .shared) : (s.put d u n).get c t = s.get c t := by
  cases c <;> cases d <;> simp_all [ThreadCells.put, ThreadCells.get]
  rw [if_neg (fun h => hut h.symm)]

theorem get_step_other (x : ThreadState) (s : ThreadCells) (c d : Cell) (t u : Nat) (hut : u ≠ t) (hd : d ≠ .shared) :
    (x.step d u s).2.get c t = s.get c t := by
  unfold ThreadState.step
  split
  · rfl
  · rfl
  · exact get_put_other s c d t u _ hut hd
  · rfl
  · split
    · rfl
    · exact get_put_other s c d t u _ hut hd
  · rfl

theorem step_self (x : ThreadState) (s : ThreadCells) (c : Cell) (t : Nat) (hc : c ≠ .nowhere) :
    ((x.step c t s).1, (x.step c t s).2.get c t) = soloStep (x, s.get c t) := by
  rcases x with ⟨todo, saved, log, pan⟩
  rcases todo with _ | ⟨o, rest⟩
  · rfl
  · cases o with
    | look => rfl
    | set n => simp [ThreadState.step, soloStep, get_put_self s c t n hc]
    | save => rfl
    | restore =>
      cases saved with
      | nil => rfl
      | cons n saved => simp [ThreadState.step, soloStep, get_put_self s c t n hc]
    | fail => rfl

/-- What others do does not matter. -/
theorem runThreads_solo (lib : BlasLib) (worker : Nat → Bool) (t : Nat) (hc : lib.cell (worker t) ≠ .nowhere) (sched : List Nat)
    (ho : ∀ u ∈ sched, u ≠ t → lib.cell (worker u) ≠ .shared) (w : ThreadWorld) :
    ((runThreads lib worker w sched).threads t, (runThreads lib worker w sched).count lib worker t)
      = soloRun (sched.count t) (w.threads t, w.count lib worker t) := by
  induction sched generalizing w with
  | nil => rfl
  | cons u rest ih =>
    have ih' := ih (fun v hv hvt => ho v (List.mem_cons_of_mem _ hv) hvt) (w.turn lib worker u)
    rw [runThreads, List.foldl_cons]
    rw [runThreads] at ih'
    rw [ih']
    by_cases hut : u = t
    · subst hut
      rw [List.count_cons_self, soloRun]
      congr 1
      rw [ThreadWorld.count, ThreadWorld.count, ← step_self _ _ _ _ hc]
      simp [ThreadWorld.turn]
    · rw [List.count_cons_of_ne hut]
      congr 1
      have := get_step_other (w.threads u) w.cells (lib.cell (worker t)) (lib.cell (worker u)) t u hut (ho u (by simp) hut)
      simp only [ThreadWorld.turn, ThreadWorld.count, this]
      rw [if_neg (fun h => hut h.symm)]

theorem scoped_after_eq (p : ThreadProg) (hs : p.OnlyScopes) (hr : p.Returns) (v : Nat) : (promised p v).after = v ∧ (promised p v).returned = true := by
  induction p generalizing v with
  | skip => exact ⟨rfl, rfl⟩
  | look => exact ⟨rfl, rfl⟩
  | set n => exact hs.elim
  | fail => exact hr.elim
  | seq a b iha ihb =>
    have ha := iha hs.1 hr.1 v
    have hb := ihb hs.2 hr.2 v
    simp [promised, ha, hb]
  | within n body ih => simp [promised, ih hs hr n]

/-! ## The numbers that occur -/

/-- All numbers around satisfy `P`. -/
structure Nums (P : Nat → Prop) (w : ThreadWorld) : Prop where
  shared : P w.cells.shared
  own : ∀ t n, w.cells.own t = some n → P n
  todo : ∀ t n, ThreadOp.set n ∈ (w.threads t).todo → P n
  saved : ∀ t, ∀ n ∈ (w.threads t).saved, P n
  log : ∀ t, ∀ n ∈ (w.threads t).log, P n

theorem nums_get {P : Nat → Prop} {s : ThreadCells} (h1 : P s.shared) (h2 : ∀ t n, s.own t = some n → P n) (c : Cell) (t : Nat)
    (hn : c = .nowhere → P 1) : P (s.get c t) := by
  cases c with
  | nowhere => exact hn rfl
  | shared => exact h1
  | own =>
    cases h : s.own t with
    | none => simpa [ThreadCells.get, h] using h1
    | some n => simpa [ThreadCells.get, h] using h2 t n h

theorem nums_put {P : Nat → Prop} {s : ThreadCells} (h1 : P s.shared) (h2 : ∀ t n, s.own t = some n → P n) (c : Cell) (t n : Nat) (hn : P n) :
    P (s.put c t n).shared ∧ ∀ u m, (s.put c t n).own u = some m → P m := by
  cases c with
  | nowhere => exact ⟨h1, h2⟩
  | shared => exact ⟨hn, h2⟩
  | own =>
    refine ⟨h1, fun u m h => ?_⟩
    simp only [ThreadCells.put] at h
    split at h
    · cases h; exact hn
    · exact h2 u m h

theorem nums_turn {P : Nat → Prop} (lib : BlasLib) (worker : Nat → Bool) (t : Nat) (hn : lib.cell (worker t) = .nowhere → P 1) (w : ThreadWorld)
    (h : Nums P w) : Nums P (w.turn lib worker t) := by
  have key : P ((w.threads t).step (lib.cell (worker t)) t w.cells).2.shared
      ∧ (∀ u n, ((w.threads t).step (lib.cell (worker t)) t w.cells).2.own u = some n → P n)
      ∧ (∀ n, ThreadOp.set n ∈ ((w.threads t).step (lib.cell (worker t)) t w.cells).1.todo → P n)
      ∧ (∀ n ∈ ((w.threads t).step (lib.cell (worker t)) t w.cells).1.saved, P n)
      ∧ (∀ n ∈ ((w.threads t).step (lib.cell (worker t)) t w.cells).1.log, P n) := by
    have ht := h.todo t
    have hs := h.saved t
    have hl := h.log t
    have hg := nums_get h.shared h.own (lib.cell (worker t)) t hn
    generalize hx : w.threads t = x at ht hs hl ⊢
    rcases x with ⟨todo, saved, log, pan⟩
    rcases todo with _ | ⟨o, rest⟩
    · exact ⟨h.shared, h.own, ht, hs, hl⟩
    · have htr : ∀ n, ThreadOp.set n ∈ rest → P n := fun n hm => ht n (List.mem_cons_of_mem _ hm)
      cases o with
      | look =>
        refine ⟨h.shared, h.own, htr, hs, fun n hm => ?_⟩
        simp only [ThreadState.step, List.mem_append, List.mem_singleton] at hm
        rcases hm with hm | rfl
        · exact hl n hm
        · exact hg
      | set n =>
        have := nums_put h.shared h.own (lib.cell (worker t)) t n (ht n (by simp))
        exact ⟨this.1, this.2, htr, hs, hl⟩
      | save =>
        refine ⟨h.shared, h.own, htr, fun n hm => ?_, hl⟩
        simp only [ThreadState.step, List.mem_cons] at hm
        rcases hm with rfl | hm
        · exact hg
        · exact hs n hm
      | restore =>
        cases saved with
        | nil => exact ⟨h.shared, h.own, htr, hs, hl⟩
        | cons n saved =>
          have := nums_put h.shared h.own (lib.cell (worker t)) t n (hs n (by simp))
          exact ⟨this.1, this.2, htr, fun m hm => hs m (List.mem_cons_of_mem _ hm), hl⟩
      | fail => exact ⟨h.shared, h.own, by simp [ThreadState.step], by simp [ThreadState.step], hl⟩
  refine ⟨key.1, key.2.1, fun u n hm => ?_, fun u n hm => ?_, fun u n hm => ?_⟩
  all_goals
    simp only [ThreadWorld.turn] at hm
    split at hm
  · exact key.2.2.1 n hm
  · exact h.todo u n hm
  · exact key.2.2.2.1 n hm
  · exact h.saved u n hm
  · exact key.2.2.2.2 n hm
  · exact h.log u n hm

theorem nums_run {P : Nat → Prop} (lib : BlasLib) (worker : Nat → Bool) (hn : ∀ t, lib.cell (worker t) = .nowhere → P 1) (sched : List Nat) (w : ThreadWorld)
    (h : Nums P w) : Nums P (runThreads lib worker w sched) := by
  induction sched generalizing w with
  | nil => exact h
  | cons t rest ih => exact ih _ (nums_turn lib worker t (hn t) w h)

theorem set_mem_ops (p : ThreadProg) (n : Nat) : ThreadOp.set n ∈ threadOps p ↔ n ∈ p.asks := by
  induction p with
  | skip => simp [threadOps, ThreadProg.asks]
  | look => simp [threadOps, ThreadProg.asks]
  | set m => simp [threadOps, ThreadProg.asks]
  | fail => simp [threadOps, ThreadProg.asks]
  | seq a b iha ihb => simp [threadOps, ThreadProg.asks, iha, ihb]
  | within m b ih => simp [threadOps, ThreadProg.asks, ih]

end Rstsr
