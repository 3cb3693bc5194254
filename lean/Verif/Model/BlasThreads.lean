import Verif.Spec.Threads
/-!
# Model of the number of threads of the BLAS libraries

`crates-device/rstsr-{openblas,mkl,blis,aocl,kml}/src/threading.rs`. Threads of the program take turns; a turn is one call of the library. The numbers the
libraries keep are cells: one for all threads, or one for each thread.
-/
namespace Rstsr
open Spec (ThreadProg)

/-- The libraries. For OpenBLAS the way it was built (`rstsr-openblas/src/threading.rs:17-22` `OpenBLASParallel`); BLIS and AOCL keep the number in one
place or in each thread, depending on their version. -/
inductive BlasLib where
  | openblasSequential
  | openblasThread
  | openblasOpenMP
  | mkl
  | blis (perThread : Bool)
  | aocl (perThread : Bool)
  | kml
  deriving DecidableEq, Repr

/-- Where a library keeps the number. -/
inductive Cell where
  | nowhere | shared | own
  deriving DecidableEq, Repr

/-- The cell that `set_num_threads` and `get_num_threads` use. OpenBLAS (`rstsr-openblas/src/threading.rs:57-77`): none if built without threads, that of
`openblas_set_num_threads` if built with its own threads, and that of `omp_set_num_threads`, which belongs to the calling thread, if built with OpenMP.
MKL (`rstsr-mkl/src/threading.rs:10-18`): `MKL_Set_Num_Threads_Local`. BLIS, AOCL (`rstsr-blis/src/threading.rs:10-18`, `rstsr-aocl/src/threading.rs:10-18`).
KML (`rstsr-kml/src/threading.rs:10-35`): that of the thread inside of worker threads, that of the process outside. -/
def BlasLib.cell (lib : BlasLib) (worker : Bool) : Cell := match lib with
  | .openblasSequential => .nowhere
  | .openblasThread => .shared
  | .openblasOpenMP => .own
  | .mkl => .own
  | .blis p => if p then .own else .shared
  | .aocl p => if p then .own else .shared
  | .kml => if worker then .own else .shared

/-- The cells: the shared one, and those of the threads that have set theirs. -/
structure ThreadCells where
  shared : Nat
  own : Nat → Option Nat

/-- `get_num_threads` in thread `t`: `MKL_Get_Max_Threads`, `omp_get_max_threads` and the like give the number for all threads as long as the thread has
set none. -/
def ThreadCells.get (s : ThreadCells) (c : Cell) (t : Nat) : Nat := match c with
  | .nowhere => 1
  | .shared => s.shared
  | .own => (s.own t).getD s.shared

/-- `set_num_threads` in thread `t`. -/
def ThreadCells.put (s : ThreadCells) (c : Cell) (t n : Nat) : ThreadCells := match c with
  | .nowhere => s
  | .shared => ⟨n, s.own⟩
  | .own => ⟨s.shared, fun u => if u = t then some n else s.own u⟩

/-- What a thread does in one turn. -/
inductive ThreadOp where
  | look
  | set (n : Nat)
  | save
  | restore
  | fail
  deriving DecidableEq, Repr

/-- The calls of a program in their order; `with_num_threads` (`rstsr-openblas/src/threading.rs:114-123`, word for word the same in the other crates;
`with_blas_num_threads` calls it): `let n = get_num_threads(); set_num_threads(nthreads); let r = f(); set_num_threads(n)`. -/
def threadOps : ThreadProg → List ThreadOp
  | .skip => []
  | .look => [.look]
  | .set n => [.set n]
  | .seq a b => threadOps a ++ threadOps b
  | .within n body => .save :: .set n :: threadOps body ++ [.restore]
  | .fail => [.fail]

/-- A thread: the calls to come, the local variables `n` of the calls of `with_num_threads` under way (the last one first), what it has seen. -/
structure ThreadState where
  todo : List ThreadOp
  saved : List Nat
  log : List Nat
  panicked : Bool
  deriving DecidableEq, Repr

def ThreadState.start (p : ThreadProg) : ThreadState := ⟨threadOps p, [], [], false⟩

/-- One turn. A panic unwinds the stack: nothing of what is to come is done, in particular the number is not set back. -/
def ThreadState.step (c : Cell) (t : Nat) (x : ThreadState) (s : ThreadCells) : ThreadState × ThreadCells := match x.todo with
  | [] => (x, s)
  | .look :: rest => (⟨rest, x.saved, x.log ++ [s.get c t], x.panicked⟩, s)
  | .set n :: rest => (⟨rest, x.saved, x.log, x.panicked⟩, s.put c t n)
  | .save :: rest => (⟨rest, s.get c t :: x.saved, x.log, x.panicked⟩, s)
  | .restore :: rest => match x.saved with
    | [] => (⟨rest, [], x.log, x.panicked⟩, s)
    | n :: saved => (⟨rest, saved, x.log, x.panicked⟩, s.put c t n)
  | .fail :: _ => (⟨[], [], x.log, true⟩, s)

/-- The threads and the cells. -/
structure ThreadWorld where
  threads : Nat → ThreadState
  cells : ThreadCells

/-- The beginning: every thread has its program. -/
def ThreadWorld.start (ps : Nat → ThreadProg) (s : ThreadCells) : ThreadWorld := ⟨fun t => .start (ps t), s⟩

/-- Thread `t` has a turn. The mutex of OpenBLAS (`rstsr-openblas/src/threading.rs:100-112`) is held for one call only, that is for one turn. -/
def ThreadWorld.turn (lib : BlasLib) (worker : Nat → Bool) (w : ThreadWorld) (t : Nat) : ThreadWorld :=
  let r := (w.threads t).step (lib.cell (worker t)) t w.cells
  ⟨fun u => if u = t then r.1 else w.threads u, r.2⟩

/-- The schedule says whose turn it is. -/
def runThreads (lib : BlasLib) (worker : Nat → Bool) (w : ThreadWorld) (sched : List Nat) : ThreadWorld :=
  sched.foldl (fun w t => w.turn lib worker t) w

/-- The number of threads that thread `t` would be told. -/
def ThreadWorld.count (lib : BlasLib) (worker : Nat → Bool) (w : ThreadWorld) (t : Nat) : Nat :=
  w.cells.get (lib.cell (worker t)) t

end Rstsr
