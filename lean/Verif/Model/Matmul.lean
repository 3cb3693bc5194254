import Verif.Model.Broadcast
import Verif.Model.Indexer
import Verif.Model.Parallel
import Verif.Model.Arg
/-!
# Model of matrix products

`rstsr-common/src/layout/matmul.rs` (which axes are multiplied), the naive kernels
`rstsr-native-impl/src/cpu_serial/matmul_naive.rs` and `cpu_rayon/matmul_naive.rs`, the drivers
`rstsr-core/src/device_cpu_serial/linalg/matmul.rs` and `device_faer/matmul.rs`, and the tensor functions
`rstsr-core/src/tensor/linalg/matmul.rs`. Conversions between static and dynamic ranks (`to_dim`, `into_dim`)
keep the layout and are dropped. `device_faer/matmul.rs` hands `f32`, `f64` and complex matrices to the `faer`
library (48-75), which is not modelled; other element types take the naive kernel (77-82).
-/
namespace Rstsr
open Spec (Order Proc)

/-- `matmul.rs:36-44` `MatMulType`. -/
inductive MatMulType where
  | innerDot | gemm22 | gevm | gemv | gemm2X | gemmX2 | gemmXX
  deriving DecidableEq, Repr

/-- `matmul.rs:46-61` `LayoutMatMulConfig`. -/
structure MatMulCfg where
  type : MatMulType
  lc : Layout
  laRest : Option Layout
  lbRest : Option Layout
  lcRest : Option Layout
  laM : Layout
  lbM : Layout
  lcM : Layout
  deriving DecidableEq, Repr

namespace Layout

/-- `shape()[k]` of a layout that has this axis. -/
def dimAt (l : Layout) (k : Nat) : Nat := l.shape.getD k 0

/-- `matmul.rs:121-272` `layout_matmul_dyn_row_major`. -/
def matmulRowMajor (la lb : Layout) : Res MatMulCfg :=
  match la.ndim, lb.ndim with
  | 0, _ => .error .invalidValue
  | _, 0 => .error .invalidValue
  | 1, 1 =>
    if la.shape ≠ lb.shape then .error .invalidLayout
    else .ok ⟨.innerDot, ⟨[], 0⟩, none, none, none, la, lb, ⟨[], 0⟩⟩
  | 2, 2 =>
    if la.dimAt 1 ≠ lb.dimAt 0 then .error .invalidLayout
    else
      let lc := newCContig [la.dimAt 0, lb.dimAt 1] 0
      .ok ⟨.gemm22, lc, none, none, none, la, lb, lc⟩
  | 1, _ + 2 => do
    let (lbR, lbM) ← lb.dimSplitAt (-2)
    if la.dimAt 0 ≠ lbM.dimAt 0 then .error .invalidLayout
    else
      let lc := newCContig (lbR.shape ++ [lbM.dimAt 1]) 0
      let (lcR, lcM) ← lc.dimSplitAt (-1)
      return ⟨.gevm, lc, none, some lbR, some lcR, la, lbM, lcM⟩
  | _ + 2, 1 => do
    let (laR, laM) ← la.dimSplitAt (-2)
    if lb.dimAt 0 ≠ laM.dimAt 1 then .error .invalidLayout
    else
      let lc := newCContig (laR.shape ++ [laM.dimAt 0]) 0
      let (lcR, lcM) ← lc.dimSplitAt (-1)
      return ⟨.gemv, lc, some laR, none, some lcR, laM, lb, lcM⟩
  | 2, _ + 3 => do
    let (lbR, lbM) ← lb.dimSplitAt (-2)
    if la.dimAt 1 ≠ lbM.dimAt 0 then .error .invalidLayout
    else
      let lc := newCContig (lbR.shape ++ [la.dimAt 0, lbM.dimAt 1]) 0
      let (lcR, lcM) ← lc.dimSplitAt (-2)
      return ⟨.gemm2X, lc, none, some lbR, some lcR, la, lbM, lcM⟩
  | _ + 3, 2 => do
    let (laR, laM) ← la.dimSplitAt (-2)
    if laM.dimAt 1 ≠ lb.dimAt 0 then .error .invalidLayout
    else
      let lc := newCContig (laR.shape ++ [laM.dimAt 0, lb.dimAt 1]) 0
      let (lcR, lcM) ← lc.dimSplitAt (-2)
      return ⟨.gemmX2, lc, some laR, none, some lcR, laM, lb, lcM⟩
  | _ + 3, _ + 3 => do
    let (laR, laM) ← la.dimSplitAt (-2)
    let (lbR, lbM) ← lb.dimSplitAt (-2)
    if laM.dimAt 1 ≠ lbM.dimAt 0 then .error .invalidLayout
    else
      let (laB, lbB) ← laR.broadcast lbR .C
      let lc := newCContig (laB.shape ++ [laM.dimAt 0, lbM.dimAt 1]) 0
      let (lcR, lcM) ← lc.dimSplitAt (-2)
      return ⟨.gemmXX, lc, some laB, some lbB, some lcR, la, lbM, lcM⟩

/-- `matmul.rs:423-455` `layout_matmul_dyn_col_major`. -/
def matmulColMajor (la lb : Layout) : Res MatMulCfg :=
  if la.ndim = 0 ∨ lb.ndim = 0 then .error .invalidValue
  else do
    let cfg ← matmulRowMajor lb.reverseAxes la.reverseAxes
    return ⟨cfg.type, cfg.lc.reverseAxes, cfg.lbRest.map reverseAxes, cfg.laRest.map reverseAxes,
      cfg.lcRest.map reverseAxes, cfg.lbM.reverseAxes, cfg.laM.reverseAxes, cfg.lcM.reverseAxes⟩

/-- `matmul.rs:457-465` `layout_matmul` for dynamic ranks; `467-554` `impl_fixed!`, the same for all static
ranks but the two below. -/
def matmulCfg (la lb : Layout) : Order → Res MatMulCfg
  | .C => matmulRowMajor la lb
  | .F => matmulColMajor la lb

/-- `matmul.rs:76-93` `layout_matmul` for two static vectors. -/
def matmulFixed11 (la lb : Layout) (_ : Order) : Res MatMulCfg :=
  if la.shape ≠ lb.shape then .error .invalidLayout
  else .ok ⟨.innerDot, ⟨[], 0⟩, none, none, none, la, lb, ⟨[], 0⟩⟩

/-- `matmul.rs:96-119` `layout_matmul` for two static matrices. -/
def matmulFixed22 (la lb : Layout) (o : Order) : Res MatMulCfg :=
  if la.dimAt 1 ≠ lb.dimAt 0 then .error .invalidLayout
  else
    let sc := [la.dimAt 0, lb.dimAt 1]
    let lc := match o with
      | .C => newCContigFixed sc 0
      | .F => newFContigFixed sc 0
    .ok ⟨.gemm22, lc, none, none, none, la, lb, lc⟩

/-- `matmul.rs:287-421` `layout_matmul_dyn_row_major_with_lc`. -/
def matmulWithLc (la lb lc : Layout) : Res MatMulCfg :=
  match la.ndim, lb.ndim with
  | 0, _ => .error .invalidValue
  | _, 0 => .error .invalidValue
  | 1, 1 =>
    if la.shape ≠ lb.shape then .error .invalidLayout
    else if lc.ndim ≠ 0 then .error .invalidLayout
    else .ok ⟨.innerDot, lc, none, none, none, la, lb, lc⟩
  | 2, 2 =>
    if lc.ndim ≠ 2 then .error .invalidLayout
    else if la.dimAt 1 ≠ lb.dimAt 0 then .error .invalidLayout
    else .ok ⟨.gemm22, lc, none, none, none, la, lb, lc⟩
  | 1, _ + 2 =>
    if lb.ndim ≠ lc.ndim + 1 then .error .invalidLayout
    else do
      let (laR, laM) ← la.dimSplitAt (-1)
      let (lbR, lbM) ← lb.dimSplitAt (-2)
      let (lcR, lcM) ← lc.dimSplitAt (-1)
      let (_, laB) ← lcR.broadcastToFirst laR .C
      return ⟨.gevm, lc, some laB, some lbR, some lcR, ← laM.dimInsert 0, lbM, ← lcM.dimInsert 0⟩
  | _ + 2, 1 =>
    if la.ndim ≠ lc.ndim + 1 then .error .invalidLayout
    else do
      let (laR, laM) ← la.dimSplitAt (-2)
      let (lbR, lbM) ← lb.dimSplitAt (-1)
      let (lcR, lcM) ← lc.dimSplitAt (-1)
      let (_, lbB) ← lcR.broadcastToFirst lbR .C
      return ⟨.gemv, lc, some laR, some lbB, some lcR, laM, ← lbM.dimInsert 1, ← lcM.dimInsert 1⟩
  | 2, _ + 3 =>
    if lb.ndim ≠ lc.ndim then .error .invalidLayout
    else do
      let (laR, laM) ← la.dimSplitAt (-2)
      let (lbR, lbM) ← lb.dimSplitAt (-2)
      let (lcR, lcM) ← lc.dimSplitAt (-2)
      let (_, laB) ← lcR.broadcastToFirst laR .C
      return ⟨.gemm2X, lc, some laB, some lbR, some lcR, laM, lbM, lcM⟩
  | _ + 3, 2 =>
    if la.ndim ≠ lc.ndim then .error .invalidLayout
    else do
      let (laR, laM) ← la.dimSplitAt (-2)
      let (lbR, lbM) ← lb.dimSplitAt (-2)
      let (lcR, lcM) ← lc.dimSplitAt (-2)
      let (_, lbB) ← lcR.broadcastToFirst lbR .C
      return ⟨.gemmX2, lc, some laR, some lbB, some lcR, laM, lbM, lcM⟩
  | _ + 3, _ + 3 =>
    if la.ndim ≠ lc.ndim then .error .invalidLayout
    else if lb.ndim ≠ lc.ndim then .error .invalidLayout
    else do
      let (laR, laM) ← la.dimSplitAt (-2)
      let (lbR, lbM) ← lb.dimSplitAt (-2)
      let (lcR, lcM) ← lc.dimSplitAt (-2)
      let (_, laB) ← lcR.broadcastToFirst laR .C
      let (_, lbB) ← lcR.broadcastToFirst lbR .C
      return ⟨.gemmXX, lc, some laB, some lbB, some lcR, laM, lbM, lcM⟩

/-- `set_offset` (`rstsr-common/src/layout/layoutbase.rs:77-80`) with an item of a layout iterator. -/
def setOffset (l : Layout) (offset : Nat) : Layout := ⟨l.axes, offset⟩

end Layout

section
variable {α β γ : Type}

/-- `a[i as usize]` for the `isize` that `index_uncheck` gives: a negative one wraps to a huge position. -/
def readInt (a : List α) (i : Int) : Res α := if i < 0 then .error .panic else readAt a i.toNat

/-- `c[i as usize] = f(c[i as usize])`. -/
def modifyInt (c : List γ) (i : Int) (f : γ → γ) : Res (List γ) := if i < 0 then .error .panic else modifyAt c i.toNat f

/-- The products of `Mul<TB, Output = TC> for TA`, of two `TC`, and the sum of two `TC`; `zero` is `TC::zero()`. -/
structure MatOps (α β γ : Type) where
  mul : α → β → γ
  times : γ → γ → γ
  plus : γ → γ → γ
  zero : γ

/-- `cpu_serial/matmul_naive.rs:79-122` `gemm_naive_cpu_serial`. -/
def gemmNaive (O : MatOps α β γ) (c : List γ) (lc : Layout) (a : List α) (la : Layout) (b : List β) (lb : Layout)
    (alpha beta : γ) : Res (List γ) :=
  if lc.dimAt 0 ≠ la.dimAt 0 then .error .invalidLayout
  else if la.dimAt 1 ≠ lb.dimAt 0 then .error .invalidLayout
  else if lc.dimAt 1 ≠ lb.dimAt 1 then .error .invalidLayout
  else
    let (m, n, k) := (lc.dimAt 0, lc.dimAt 1, la.dimAt 1)
    runAll (fun i c => do
      let c ← runAll (fun j c => do modifyInt c (← lc.indexUncheck [i, j]) fun v => O.times beta v) (List.range n) c
      runAll (fun p c => do
        let ia ← la.indexUncheck [i, p]
        runAll (fun j c => do
          let ic ← lc.indexUncheck [i, j]
          let ib ← lb.indexUncheck [p, j]
          let x ← readInt a ia
          let y ← readInt b ib
          modifyInt c ic fun v => O.plus (O.times alpha (O.mul x y)) v) (List.range n) c) (List.range k) c)
      (List.range m) c

/-- The loop `sum = sum + alpha * (a[i] * b[i])` of `cpu_serial/matmul_naive.rs:231-237`. -/
def dotLoop (O : MatOps α β γ) (a : List α) (la : Layout) (b : List β) (lb : Layout) (alpha : γ) :
    List Nat → γ → Res γ
  | [], sum => .ok sum
  | i :: is, sum => do
    let ia ← la.indexUncheck [i]
    let ib ← lb.indexUncheck [i]
    let x ← readInt a ia
    let y ← readInt b ib
    dotLoop O a la b lb alpha is (O.plus sum (O.times alpha (O.mul x y)))

/-- `cpu_serial/matmul_naive.rs:204-242` `inner_dot_naive_cpu_serial`: reads the cell at the offset of `c`, and
writes the cell 0. -/
def innerDotNaive (O : MatOps α β γ) (c : List γ) (lc : Layout) (a : List α) (la : Layout) (b : List β) (lb : Layout)
    (alpha beta : γ) : Res (List γ) :=
  if la.dimAt 0 ≠ lb.dimAt 0 then .error .invalidLayout
  else do
    let v ← readInt c (← lc.indexUncheck [])
    let sum ← dotLoop O a la b lb alpha (List.range (la.dimAt 0)) (O.times beta v)
    modifyAt c 0 fun _ => sum

/-- `cpu_serial/matmul_naive.rs:9-77` `matmul_naive_cpu_serial`. -/
def matmulNaive (O : MatOps α β γ) (c : List γ) (lc : Layout) (a : List α) (la : Layout) (b : List β) (lb : Layout)
    (alpha beta : γ) : Res (List γ) :=
  match la.ndim, lb.ndim, lc.ndim with
  | 1, 1, 0 => innerDotNaive O c lc a la b lb alpha beta
  | 2, 2, 2 => gemmNaive O c lc a la b lb alpha beta
  | _, _, _ => do
    let cfg ← la.matmulWithLc lb lc
    match cfg.laRest, cfg.lbRest, cfg.lcRest with
    | some laR, some lbR, some lcR =>
      let xs ← colItems laR
      let ys ← colItems lbR
      let zs ← colItems lcR
      runAll (fun p c => gemmNaive O c (cfg.lcM.setOffset p.2.2) a (cfg.laM.setOffset p.1) b (cfg.lbM.setOffset p.2.1)
        alpha beta) (xs.zip (ys.zip zs)) c
    | _, _, _ => .error .panic

/-! ## The parallel device -/

/-- How a thread pool divides the loops of a product: the number of threads, a scheduler for the batches
(`sched 0`) and for the matrix written at position `k` of `c` (`sched (k + 1)`), and a planner for dot products. -/
structure MatPar where
  threads : Nat
  sched : Nat → Scheduler
  plan : Planner

/-- Two nested `(0..n).into_par_iter()` loops. -/
def parRange2 (g : Plan → Nat → Res (Proc γ)) : Sched → List Nat → Res (Proc γ)
  | .run inner, xs => procLoop (fun p => g (inner p.1) p.2) (numbered 0 xs)
  | .split k p q, xs => do return .par (← parRange2 g p (xs.take k)) (← parRange2 g q (xs.drop k))

/-- The fold of `cpu_rayon/matmul_naive.rs:45-49` and `:79-85`: `acc + a[·] * b[·]`. -/
def dotFold (O : MatOps α β γ) (a : List α) (b : List β) (ia ib : Nat → Res Int) (acc : γ) (p : Nat) : Res γ := do
  let x ← readInt a (← ia p)
  let y ← readInt b (← ib p)
  return O.plus acc (O.mul x y)

/-- `cpu_rayon/matmul_naive.rs:12-56` `gemm_ix2_naive_cpu_rayon`. The sums over `k` only read `a` and `b`, which no
thread writes, so they are taken when the process is built. -/
def gemmNaivePar (O : MatOps α β γ) (s : Scheduler) (lc : Layout) (a : List α) (la : Layout) (b : List β) (lb : Layout)
    (alpha beta : γ) : Res (Proc γ) :=
  if lc.dimAt 0 ≠ la.dimAt 0 then .error .invalidLayout
  else if la.dimAt 1 ≠ lb.dimAt 0 then .error .invalidLayout
  else if lc.dimAt 1 ≠ lb.dimAt 1 then .error .invalidLayout
  else
    let (m, n, k) := (lc.dimAt 0, lc.dimAt 1, la.dimAt 1)
    parRange2 (fun inner j => parRange (fun i => do
      let ic ← lc.indexUncheck [i, j]
      let sum ← foldRes (dotFold O a b (fun p => la.indexUncheck [i, p]) fun p => lb.indexUncheck [p, j]) O.zero
        (List.range k)
      if ic < 0 then .error .panic
      else return .upd ic.toNat fun v => O.plus (O.times v beta) (O.times sum alpha)) inner (List.range m))
      (s n m) (List.range n)

/-- `into_par_iter().fold(zero, …).reduce_with(+)`: every part gives one partial sum. -/
def parDot (O : MatOps α β γ) (op : γ → Nat → Res γ) : Plan → List Nat → Res γ
  | .run, xs => foldRes op O.zero xs
  | .split k p q, xs => do return O.plus (← parDot O op p (xs.take k)) (← parDot O op q (xs.drop k))

/-- `cpu_rayon/matmul_naive.rs:58-97` `inner_dot_naive_cpu_rayon` on the cell at the offset of `c`
(`device_faer/matmul.rs:113-120`). -/
def innerDotNaivePar (O : MatOps α β γ) (plan : Planner) (c : List γ) (lc : Layout) (a : List α) (la : Layout)
    (b : List β) (lb : Layout) (alpha beta : γ) : Res (List γ) := do
  if lc.offset < 0 ∨ c.length ≤ lc.offset.toNat then .error .panic
  else if la.dimAt 0 ≠ lb.dimAt 0 then .error .invalidLayout
  else
    let sum ← parDot O (dotFold O a b (fun p => la.indexUncheck [p]) fun p => lb.indexUncheck [p])
      (plan (la.dimAt 0)) (List.range (la.dimAt 0))
    modifyAt c lc.offset.toNat fun v => O.plus (O.times sum alpha) (O.times v beta)

/-- `device_faer/matmul.rs:85-200` `matmul_row_major_faer` with the naive kernel for matrices. -/
def matmulPar (O : MatOps α β γ) (par : MatPar) (c : List γ) (lc : Layout) (a : List α) (la : Layout) (b : List β)
    (lb : Layout) (alpha beta : γ) : Res (Work γ) :=
  match la.ndim, lb.ndim, lc.ndim with
  | 1, 1, 0 => Work.done <$> innerDotNaivePar O par.plan c lc a la b lb alpha beta
  | 2, 2, 2 => Work.threads <$> gemmNaivePar O (par.sched 1) lc a la b lb alpha beta
  | _, _, _ => do
    let cfg ← la.matmulWithLc lb lc
    match cfg.laRest, cfg.lbRest, cfg.lcRest with
    | some laR, some lbR, some lcR =>
      let g := fun (p : Nat × Nat × Nat) => gemmNaivePar O (par.sched (p.2.2 + 1)) (cfg.lcM.setOffset p.2.2) a
        (cfg.laM.setOffset p.1) b (cfg.lbM.setOffset p.2.1) alpha beta
      let ia ← Iter.new .F laR
      let ib ← Iter.new .F lbR
      let ic ← Iter.new .F lcR
      if laR.size > 4 * par.threads then
        Work.threads <$> parIter3 (fun _ p => g p) (par.sched 0 (min ia.len (min ib.len ic.len)) 0) ia ib ic
      else
        let xs ← ia.toList
        let ys ← ib.toList
        let zs ← ic.toList
        Work.threads <$> procLoop g (xs.zip (ys.zip zs))
    | _, _, _ => .error .panic

/-! ## The tensor functions -/

/-- `Mul<TA, Output = TC> for TB`, the product with the factors exchanged. -/
def MatOps.swap (O : MatOps α β γ) (mul' : β → α → γ) : MatOps β α γ := ⟨mul', O.times, O.plus, O.zero⟩

/-- The row-major driver of a device: `par = none` is the serial one. -/
def matmulDevice (O : MatOps α β γ) (par : Option MatPar) (c : List γ) (lc : Layout) (a : List α) (la : Layout)
    (b : List β) (lb : Layout) (alpha beta : γ) : Res (Work γ) :=
  match par with
  | none => Work.done <$> matmulNaive O c lc a la b lb alpha beta
  | some par => matmulPar O par c lc a la b lb alpha beta

/-- `device_cpu_serial/linalg/matmul.rs:22-43` and `device_faer/matmul.rs:217-240` `matmul`. -/
def matmulOrder (O : MatOps α β γ) (mul' : β → α → γ) (dev : Order) (par : Option MatPar) (c : List γ) (lc : Layout)
    (a : List α) (la : Layout) (b : List β) (lb : Layout) (alpha beta : γ) : Res (Work γ) :=
  match dev with
  | .C => matmulDevice O par c lc a la b lb alpha beta
  | .F => matmulDevice (O.swap mul') par c lc.reverseAxes b lb.reverseAxes a la.reverseAxes alpha beta

/-- `rstsr-core/src/tensor/linalg/matmul.rs:44-70` `op_mutc_refa_refb_matmul` (`matmul_from`,
`matmul_with_output`); devices are not compared. The result is what happens to the storage of `c`. -/
def Tensor.matmulFrom (O : MatOps α β γ) (mul' : β → α → γ) (dev : Order) (par : Option MatPar) (c : Tensor γ)
    (a : Tensor α) (b : Tensor β) (alpha beta : γ) : Res (Work γ) :=
  matmulOrder O mul' dev par c.data c.layout a.data a.layout b.data b.layout alpha beta

/-- `tensor/linalg/matmul.rs:72-97` `op_refa_refb_matmul` (`matmul`, `%`) for dynamic ranks: a new tensor whose
storage is not initialised (`empty`) but holds arbitrary values, `fresh k` at cell `k`; the product with
`beta = 0` overwrites them. The result is the new tensor before the product, and the work on it. -/
def Tensor.matmul (O : MatOps α β γ) (mul' : β → α → γ) (dev : Order) (par : Option MatPar) (fresh : Nat → γ)
    (a : Tensor α) (b : Tensor β) (alpha : γ) : Res (Tensor γ × Work γ) := do
  let cfg ← a.layout.matmulCfg b.layout dev
  let (_, n) ← cfg.lc.boundsIndex
  let c : Tensor γ := ⟨(List.range n.toNat).map fresh, cfg.lc⟩
  return (c, ← c.matmulFrom O mul' dev par a b alpha O.zero)

end
end Rstsr
