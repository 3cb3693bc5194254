import Verif.Model.Program
import Verif.Model.GatherPar
/-!
# Model of programs on the parallel device

The same statements as in `Model/Program.lean`, run by the device with a thread pool: every kernel is the one of
`rstsr-native-impl/src/cpu_rayon`, reached through `rstsr-core/src/feature_rayon/auto_impl/*.rs`. A function of the
tensor layer starts the threads of its kernel and waits for them before it goes on.
-/
namespace Rstsr
open Spec

/-- A parallel device at one moment. `pool` says whether `get_current_pool` (`feature_rayon/device.rs:123-128`)
gives a pool, `sched` are the schedules of its loops, `mat` those of the matrix products, `exec` runs threads on a
storage of any element type and waits for them. One schedule per loop size: calls of one statement on loops of the same
sizes are divided alike. -/
structure ParDev where
  pool : Bool
  sched : Nat → Scheduler
  mat : MatPar
  exec : (γ : Type) → Proc γ → List γ → Res (List γ)

namespace ParDev
variable {α : Type} (d : ParDev)

/-- A kernel on a storage, until its threads have finished. -/
def finish {γ : Type} (c : List γ) (w : Res (Work γ)) : Res (List γ) := do
  (← w).finish (d.exec γ) c

/-- `tensor/assignment.rs:116-122` `fill_f`, with `feature_rayon/auto_impl/assignment.rs:44-48`. -/
def fillF (dflt : Order) (a : Tensor α) (v : α) : Res (Tensor α) := do
  if a.layout.isBroadcasted then .error .invalidLayout
  else
    let data ← d.finish a.data (fillPar dflt d.pool (d.sched 0) a.data a.layout v)
    return ⟨data, a.layout⟩

/-- `tensor/map_elementwise.rs:283-298` `mapi_f`. -/
def mapInplace (dflt : Order) (a : Tensor α) (f : α → α) : Res (Tensor α) := do
  let (la, _) ← a.layout.greedy false
  let data ← d.finish a.data (opMutaPar dflt d.pool (d.sched 0) a.data la f)
  return ⟨data, a.layout⟩

/-- `tensor/operators/op_binary_assign.rs:167-171` (`a op= number`). -/
def assignNum (dflt : Order) (a : Tensor α) (b : α) (f : α → α → α) : Res (Tensor α) := do
  let data ← d.finish a.data (opMutaPar dflt d.pool (d.sched 0) a.data a.layout fun v => f v b)
  return ⟨data, a.layout⟩

/-- `tensor/assignment.rs:35-52` `assign_f`, with `auto_impl/assignment.rs:29-38`. -/
def assignF (dflt : Order) (fixed : Bool) (a b : Tensor α) : Res (Tensor α) := do
  if a.layout.isBroadcasted then .error .invalidLayout
  else
    let (la, lb) ← a.layout.broadcastToFirst b.layout dflt
    if fixed && la.ndim ≠ a.layout.ndim then .error .invalidLayout
    else
      let data ← assignRun dflt d.pool (d.sched 0) (d.exec α) a.data la b.data lb id
      return ⟨data, a.layout⟩

/-- `op_binary_assign.rs:118-131` (`a op= &b`). -/
def assignOp (dflt : Order) (a b : Tensor α) (f : α → α → α) : Res (Tensor α) := do
  let (la, lb) ← a.layout.broadcastToFirst b.layout dflt
  if !(la.beqLayout a.layout) then .error .invalidLayout
  else
    let data ← d.finish a.data (opMutaRefbPar dflt d.pool (d.sched 0) a.data la b.data lb f)
    return ⟨data, a.layout⟩

/-- `map_elementwise.rs` `map_f` (the variant for `Fn + Send + Sync`). -/
def map (dflt : Order) (a : Tensor α) (f : α → α) : Res (Tensor α) := do
  let lc ← a.layout.forArrayCopy dflt .K
  Tensor.build lc fun c =>
    d.finish c (opMutaRefbPar dflt d.pool (d.sched 0) c lc a.data a.layout fun _ x => some (f x))

/-- `op_binary_arithmetic.rs:188-212` (`&a op &b`). -/
def binary (dflt : Order) (a b : Tensor α) (f : α → α → α) : Res (Tensor α) := do
  let (la, lb) ← a.layout.broadcast b.layout dflt
  let lc ← Layout.forBinaryOp la lb dflt
  Tensor.build lc fun c =>
    d.finish c (opMutcRefaRefbPar dflt d.pool (d.sched 0) c lc a.data la b.data lb fun _ x y => some (f x y))

/-- `manipulation/reshape.rs:104-154` `change_shape_with_args_f` without a copy flag, with
`auto_impl/assignment.rs:16-26`. -/
def changeShape (a : Tensor α) (shape : List Int) (order : Order) : Res (Tensor α) := do
  let shape ← substituteNegatives shape a.layout.size
  match ← a.layout.reshapeable shape order with
  | some l => .ok ⟨a.data, l⟩
  | none =>
    let l := match order with
      | .C => Layout.newCContig shape 0
      | .F => Layout.newFContig shape 0
    let c ← d.finish (uninit l.size)
      (assignArbitraryPar order d.pool (d.sched 0) (uninit l.size) l a.data a.layout order some)
    let c ← assumeInit c
    .ok ⟨c, l⟩

/-- `ownership_conversion.rs:96-103` `into_owned` and `asarray.rs:328-340`. -/
def intoOwned (dflt : Order) (a : Tensor α) : Res (Tensor α) := do
  let (mn, mx) ← a.layout.boundsIndex
  if mn = 0 ∧ mx = a.data.length ∧ mx = a.layout.size then .ok a
  else
    let lc ← a.layout.forArrayCopy dflt .K
    let c ← assignRun dflt d.pool (d.sched 0) (d.exec (Option α)) (uninit lc.size) lc a.data a.layout some
    let c ← assumeInit c
    Tensor.newF c lc

/-- `sum_axes` (`auto_impl/reduction.rs`) until its threads have finished. -/
def sumAxes (dflt : Order) (zero : α) (add : α → α → α) (a : Tensor α) (axes : List Int) : Res (Tensor α) := do
  match ← a.sumAxes dflt (some d.sched) zero add (some axes) with
  | .done r => .ok r
  | .threads p n fin => fin (← d.exec (Option α) p (uninit n))

/-- `%` (`tensor/linalg/matmul.rs`, `device_faer/matmul.rs:86-210`) until its threads have finished. -/
def matmul (R : CommSemiring α) (fresh : Nat → α) (dflt : Order) (a b : Tensor α) : Res (Tensor α) := do
  let (c, w) ← a.matmul ⟨R.mul, R.mul, R.add, R.zero⟩ (fun y x => R.mul x y) dflt (some d.mat) fresh b R.one
  let r ← w.finish (d.exec α) c.data
  return ⟨r, c.layout⟩

end ParDev

variable {α : Type}

/-- One statement on the parallel device; compare `runStmt`. -/
def runStmtPar (d : ParDev) (o : Order) (fixed : Bool) (s : Stmt α) (ts : List (Tensor α)) : Res (List (Tensor α)) :=
  match s with
  | .fill k v x => do
    let t ← tensorAt ts k
    let a ← t.viewed o v
    let c ← d.fillF o a x
    .ok (writeBack ts k t c)
  | .mapInplace f k v => do
    let t ← tensorAt ts k
    let a ← t.viewed o v
    let c ← d.mapInplace o a f
    .ok (writeBack ts k t c)
  | .opNumber f k v x => do
    let t ← tensorAt ts k
    let a ← t.viewed o v
    let c ← d.assignNum o a x f
    .ok (writeBack ts k t c)
  | .assign k v u w => do
    let t ← tensorAt ts k
    let a ← t.viewed o v
    let t2 ← tensorAt ts u
    let b ← t2.viewed o w
    let c ← d.assignF o fixed a b
    .ok (writeBack ts k t c)
  | .opAssign f k v u w => do
    let t ← tensorAt ts k
    let a ← t.viewed o v
    let t2 ← tensorAt ts u
    let b ← t2.viewed o w
    let c ← d.assignOp o a b f
    .ok (writeBack ts k t c)
  | .map f k v => do
    let t ← tensorAt ts k
    let a ← t.viewed o v
    let c ← d.map o a f
    .ok (ts ++ [c])
  | .binary f k v u w => do
    let t ← tensorAt ts k
    let a ← t.viewed o v
    let t2 ← tensorAt ts u
    let b ← t2.viewed o w
    let c ← d.binary o a b f
    .ok (ts ++ [c])
  | .intoShape k shape => do
    let t ← tensorAt ts k
    let c ← d.changeShape t (shape.map Int.ofNat) o
    .ok (ts.set k c)
  | .toShape k v shape => do
    let t ← tensorAt ts k
    let a ← t.viewed o v
    let b ← d.changeShape a (shape.map Int.ofNat) o
    let c ← d.intoOwned o b
    .ok (ts ++ [c])
  | .select k v axis indices => do
    let t ← tensorAt ts k
    let a ← t.viewed o v
    let c ← a.indexSelectPar o o d.pool (d.sched 0) (d.exec (Option α)) axis indices
    .ok (ts ++ [c])
  | .concat parts axis => do
    let as ← parts.mapM fun p => do
      let t ← tensorAt ts p.1
      t.viewed o p.2
    let c ← Tensor.concatPar o o d.pool (d.sched 0) (d.exec (Option α)) as axis
    .ok (ts ++ [c])
  | .sum zero add k v => do
    let t ← tensorAt ts k
    let a ← t.viewed o v
    let x ← a.sumAll o (some (d.sched 0)) zero add
    .ok (ts ++ [⟨[x], ⟨[], 0⟩⟩])
  | .sumAxes zero add k v axes => do
    let t ← tensorAt ts k
    let a ← t.viewed o v
    let c ← d.sumAxes o zero add a axes
    .ok (ts ++ [c])
  | .matmul R fresh k v u w => do
    let t ← tensorAt ts k
    let a ← t.viewed o v
    let t2 ← tensorAt ts u
    let b ← t2.viewed o w
    let c ← d.matmul R fresh o a b
    .ok (ts ++ [c])

/-- A program on the parallel device. `dev n` is the device while statement `n` runs: every statement may be divided
and interleaved in its own way, and run inside or outside of a pool. -/
def runProgramPar (o : Order) (fixed : Bool) : (Nat → ParDev) → List (Stmt α) → List (Tensor α) → Res (List (Tensor α))
  | _, [], ts => .ok ts
  | dev, s :: p, ts => do runProgramPar o fixed (fun n => dev (n + 1)) p (← runStmtPar (dev 0) o fixed s ts)

end Rstsr
