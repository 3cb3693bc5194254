/-!
# Specification vocabulary: threads that update cells of a shared array

A process is a series-parallel program of cell updates. An update is two separate steps, reading the cell
and writing the new value back, so that another thread can act in between. Nothing here refers to the model.
-/
namespace Spec

inductive Proc (γ : Type) where
  /-- nothing left to do -/
  | nil
  /-- about to read the cell -/
  | upd (cell : Nat) (f : γ → γ)
  /-- has read the cell, about to write the new value to it -/
  | mid (cell : Nat) (w : γ)
  | seq (p q : Proc γ)
  | par (p q : Proc γ)

/-- One step of one thread. -/
inductive Step {γ : Type} : Proc γ × List γ → Proc γ × List γ → Prop
  | read {i f v c} : c[i]? = some v → Step (.upd i f, c) (.mid i (f v), c)
  | write {i w c} : i < c.length → Step (.mid i w, c) (.nil, c.set i w)
  | seq {p q p' c c'} : Step (p, c) (p', c') → Step (.seq p q, c) (.seq p' q, c')
  | next {q c} : Step (.seq .nil q, c) (q, c)
  | left {p q p' c c'} : Step (p, c) (p', c') → Step (.par p q, c) (.par p' q, c')
  | right {p q q' c c'} : Step (q, c) (q', c') → Step (.par p q, c) (.par p q', c')
  | join {c} : Step (.par .nil .nil, c) (.nil, c)

/-- Any number of steps, in any interleaving. -/
inductive Steps {γ : Type} : Proc γ × List γ → Proc γ × List γ → Prop
  | refl (s) : Steps s s
  | tail {s t u} : Steps s t → Step t u → Steps s u

/-- The cells that the steps possible now read or write, one entry per thread. -/
def Proc.touching {γ : Type} : Proc γ → List Nat
  | .nil => []
  | .upd i _ => [i]
  | .mid i _ => [i]
  | .seq p _ => p.touching
  | .par p q => p.touching ++ q.touching

/-- Every execution of the process from the storage `c` ends, never gets stuck, and can only end with the
storage `d`. -/
structure Computes {γ : Type} (p : Proc γ) (c d : List γ) : Prop where
  /-- whatever the interleaving, a finished execution leaves `d` -/
  result : ∀ d', Steps (p, c) (.nil, d') → d' = d
  /-- an execution can always go on until it is finished: no thread accesses memory out of bounds -/
  progress : ∀ q c', Steps (p, c) (q, c') → q = .nil ∨ ∃ s, Step (q, c') s
  /-- there is no infinite execution -/
  terminates : ∃ bound : Nat, ∀ (run : Nat → Proc γ × List γ) (n : Nat), run 0 = (p, c) →
    (∀ k < n, Step (run k) (run (k + 1))) → n ≤ bound

/-- In no reachable situation do two threads access the same cell. -/
def RaceFree {γ : Type} (p : Proc γ) (c : List γ) : Prop :=
  ∀ q c', Steps (p, c) (q, c') → q.touching.Nodup

/-- A way to run threads and to wait for them. All that is known about it: a process whose executions all end
with the same storage, never get stuck and never race, ends with that storage. What it does with any other
process is left open, so a program that relies on it must start no other process. -/
def RunsThreads {γ ε : Type} (exec : Proc γ → List γ → Except ε (List γ)) : Prop :=
  ∀ p c d, Computes p c d → RaceFree p c → exec p c = .ok d

end Spec
