import Verif.Model.ReduceAxes
import Verif.Model.Matmul
import Verif.Model.Tensordot
/-!
# Model of `vecdot`

The kernels `rstsr-native-impl/src/cpu_serial/vecdot.rs` and `cpu_rayon/vecdot.rs`, and the tensor functions
`rstsr-core/src/tensor/linalg/vecdot.rs`. Cells of `c` are `MaybeUninit`: `none` is uninitialised. Reading an
uninitialised cell leaves it uninitialised. The items of an inner `layout_col_major_dim_dispatch_2` are the same in
every turn of the outer loop, so they are listed once, before it.
-/
namespace Rstsr
open Spec (Order Proc)

/-- `Zero::zero()`, `+` of `TC`, and `x.ext_conj() * y`. -/
structure DotOps (α β γ : Type) where
  zero : γ
  plus : γ → γ → γ
  mul : α → β → γ

section
variable {α β γ : Type}

/-- The closures given to `unrolled_binary_reduce` (`cpu_serial/vecdot.rs:93-95`). -/
def DotOps.reducer (O : DotOps α β γ) : Reducer (α × β) γ γ :=
  ⟨O.zero, fun acc p => O.plus acc (O.mul p.1 p.2), O.plus, id⟩

/-- `cpu_serial/vecdot.rs:60-66`: the common beginning of three lists. -/
def commonPrefix3 : List Nat → List Nat → List Nat → List Nat
  | a :: as, b :: bs, c :: cs => if a = b ∧ b = c then a :: commonPrefix3 as bs cs else []
  | _, _, _ => []

/-- The items of `layout_col_major_dim_dispatch_2` in a closure; its error is unwrapped. -/
def pairItems (la lb : Layout) : Res (List (Nat × Nat)) := do
  if la.ndim ≠ lb.ndim then .error .panic
  else
    let xs ← colItems la
    let ys ← colItems lb
    return xs.zip ys

/-- The layouts of a product: `las`, `lbs` of the summed axes; `lam`, `lbm` of the remaining ones, broadcast to
the shape of `lc`. -/
structure DotCfg where
  las : Layout
  lbs : Layout
  lc : Layout
  lam : Layout
  lbm : Layout
  deriving DecidableEq, Repr

/-- `cpu_serial/vecdot.rs:27-41`, `cpu_rayon/vecdot.rs:35-49`. -/
def dotPrepare (order : Order) (lc la lb : Layout) (axesA axesB : List Int) : Res DotCfg := do
  let (las, lam) ← la.dimSplitAxes axesA
  let (lbs, lbm) ← lb.dimSplitAxes axesB
  if las.shape ≠ lbs.shape then .error .invalidLayout
  else
    let (lcB, lam) ← lc.broadcastToFirst lam order
    let (lcB, lbm) ← lcB.broadcastToFirst lbm order
    if !lcB.beqLayout lc then .error .invalidLayout
    else return ⟨las, lbs, lc, lam, lbm⟩

/-- `cpu_serial/vecdot.rs:45-54` `asc`. -/
def DotCfg.contigS (g : DotCfg) : List Nat :=
  Layout.commonPrefix g.las.axesComposition.2.2 g.lbs.axesComposition.2.2

/-- `cpu_serial/vecdot.rs:57-67` `amc`. -/
def DotCfg.contigM (g : DotCfg) : List Nat :=
  commonPrefix3 g.lam.axesComposition.2.2 g.lbm.axesComposition.2.2 g.lc.axesComposition.2.2

/-- `l.dim_split_axes(axes)?.1` for axes given as `usize`. -/
def splitRest (l : Layout) (axes : List Nat) : Res Layout := do
  let (_, m) ← l.dimSplitAxes (axes.map Int.ofNat)
  return m

/-- `cpu_serial/vecdot.rs:87-99`: one element of the result from blocks of length `n`. `i` and `j` are the positions
of the remaining axes, `zs` those of the summed ones. -/
def dotBlocks (O : DotOps α β γ) (a : List α) (b : List β) (offA offB : Int) (n : Nat) (zs : List (Nat × Nat))
    (i j : Nat) : Res γ :=
  foldRes (fun acc (z : Nat × Nat) => do
    let ia ← atOffset offA i z.1
    let ib ← atOffset offB j z.2
    let xs ← sliceAt a ia n
    let ys ← sliceAt b ib n
    return O.plus acc (unrolledBinaryReduce O.reducer xs ys)) O.zero zs

/-- `cpu_serial/vecdot.rs:152-157`: one element, element by element. -/
def dotPairs (O : DotOps α β γ) (a : List α) (b : List β) (offA offB : Int) (zs : List (Nat × Nat)) (i j : Nat) :
    Res γ :=
  foldRes (fun acc (z : Nat × Nat) => do
    let ia ← atOffset offA i z.1
    let ib ← atOffset offB j z.2
    let x ← readAt a ia
    let y ← readAt b ib
    return O.plus acc (O.mul x y)) O.zero zs

/-- `cpu_serial/vecdot.rs:141-148`: one element, along a single axis. -/
def dotStrided (O : DotOps α β γ) (a : List α) (b : List β) (n : Nat) (stepA stepB : Int) (i j : Nat) : Res γ :=
  foldRes (fun acc (k : Nat) => do
    let x ← readInt a ((i : Int) + (k : Int) * stepA)
    let y ← readInt b ((j : Int) + (k : Int) * stepB)
    return O.plus acc (O.mul x y)) O.zero (List.range n)

/-- `cpu_serial/vecdot.rs:140-158`: one element without contiguous axes. -/
def dotGeneral (O : DotOps α β γ) (a : List α) (b : List β) (offA offB : Int) (las lbs : Layout) (zs : List (Nat × Nat))
    (i j : Nat) : Res γ :=
  if las.ndim = 1 then dotStrided O a b (las.dimAt 0) (las.stride.getD 0 0) (lbs.stride.getD 0 0) i j
  else dotPairs O a b offA offB zs i j

/-- `cpu_serial/vecdot.rs:72-100`: the elements from the blocks of the summed axes. -/
def dotRouteS (dflt : Order) (O : DotOps α β γ) (a : List α) (b : List β) (offA offB : Int) (g : DotCfg)
    (c : List (Option γ)) : Res (List (Option γ)) := do
  let n ← axesProduct g.las g.contigS
  let lasd ← splitRest g.las g.contigS
  let lbsd ← splitRest g.lbs g.contigS
  match ← Layout.toColMajorMany dflt [lasd, lbsd] .K, ← Layout.toColMajorMany dflt [g.lc, g.lam, g.lbm] .K with
  | [lasd, lbsd], [lc, lam, lbm] =>
    let zs ← pairItems lasd lbsd
    dispatch3 lc lam lbm (fun p c => do
      let v ← dotBlocks O a b offA offB n zs p.2.1 p.2.2
      modifyAt c p.1 fun _ => some v) c
  | _, _ => .error .panic

/-- `cpu_serial/vecdot.rs:119-134`: `m` cells of the result from cell `ic` on. -/
def dotChunk (O : DotOps α β γ) (a : List α) (b : List β) (offA offB : Int) (zs : List (Nat × Nat)) (ic ia ib m : Nat)
    (c : List (Option γ)) : Res (List (Option γ)) :=
  runAll (fun (z : Nat × Nat) c => do
    let ja ← atOffset offA ia z.1
    let jb ← atOffset offB ib z.2
    let xs ← sliceAt a ja m
    let ys ← sliceAt b jb m
    runAll (fun (q : (α × β) × Nat) c => modifyAt c (ic + q.2) fun v => v.map fun v => O.plus v (O.mul q.1.1 q.1.2))
      (xs.zip ys).zipIdx c) zs c

/-- `cpu_serial/vecdot.rs:101-136`: rows of the result along contiguous remaining axes, in chunks of 64. -/
def dotRouteM (dflt : Order) (O : DotOps α β γ) (a : List α) (b : List β) (offA offB : Int) (g : DotCfg)
    (c : List (Option γ)) : Res (List (Option γ)) := do
  let n ← axesProduct g.lam g.contigM
  let lamd ← splitRest g.lam g.contigM
  let lbmd ← splitRest g.lbm g.contigM
  let lcd ← splitRest g.lc g.contigM
  match ← Layout.toColMajorMany dflt [g.las, g.lbs] .K, ← Layout.toColMajorMany dflt [lcd, lamd, lbmd] .K with
  | [las, lbs], [lcd, lamd, lbmd] =>
    let zs ← pairItems las lbs
    dispatch3 lcd lamd lbmd (fun p c =>
      if c.length < p.1 + n then .error .panic
      else do
        let c ← runAll (fun t c => modifyAt c (p.1 + t) fun _ => some O.zero) (List.range n) c
        runAll (fun k c => dotChunk O a b offA offB zs (p.1 + k * 64) (p.2.1 + k * 64) (p.2.2 + k * 64)
          (min 64 (n - k * 64)) c) (List.range ((n + 63) / 64)) c) c
  | _, _ => .error .panic

/-- `cpu_serial/vecdot.rs:137-161`: no contiguous axes. -/
def dotRouteD (O : DotOps α β γ) (a : List α) (b : List β) (offA offB : Int) (g : DotCfg) (c : List (Option γ)) :
    Res (List (Option γ)) := do
  let zs ← pairItems g.las g.lbs
  dispatch3 g.lc g.lam g.lbm (fun p c => do
    let v ← dotGeneral O a b offA offB g.las g.lbs zs p.2.1 p.2.2
    modifyAt c p.1 fun _ => some v) c

/-- `cpu_serial/vecdot.rs:6-163` `vecdot_naive_cpu_serial`. -/
def vecdotKernel (dflt order : Order) (O : DotOps α β γ) (c : List (Option γ)) (lc : Layout) (a : List α) (la : Layout)
    (b : List β) (lb : Layout) (axesA axesB : List Int) : Res (List (Option γ)) := do
  let g ← dotPrepare order lc la lb axesA axesB
  if !g.contigS.isEmpty then dotRouteS dflt O a b la.offset lb.offset g c
  else if !g.contigM.isEmpty then dotRouteM dflt O a b la.offset lb.offset g c
  else dotRouteD O a b la.offset lb.offset g c

/-! ## The parallel kernel -/

/-- `cpu_rayon/vecdot.rs:7` `PARALLEL_SWITCH`. -/
def dotParSwitch : Nat := 512

/-- `cpu_rayon/vecdot.rs:80-114`. -/
def dotRouteSPar (dflt : Order) (s : Scheduler) (O : DotOps α β γ) (a : List α) (b : List β) (offA offB : Int) (g : DotCfg) :
    Res (Proc (Option γ)) := do
  let n ← axesProduct g.las g.contigS
  let lasd ← splitRest g.las g.contigS
  let lbsd ← splitRest g.lbs g.contigS
  match ← Layout.toColMajorMany dflt [lasd, lbsd] .K, ← Layout.toColMajorMany dflt [g.lc, g.lam, g.lbm] .K with
  | [lasd, lbsd], [lc, lam, lbm] =>
    let zs ← pairItems lasd lbsd
    dispatchPar3 lc lam lbm (fun _ p => do
      let v ← dotBlocks O a b offA offB n zs p.2.1 p.2.2
      return .upd p.1 fun _ => some v) s 0
  | _, _ => .error .panic

/-- `cpu_rayon/vecdot.rs:137-152`: one of the chunks of a row, by one thread. -/
def dotChunkPar (O : DotOps α β γ) (a : List α) (b : List β) (offA offB : Int) (zs : List (Nat × Nat))
    (ic ia ib m : Nat) : Res (Proc (Option γ)) :=
  procLoop (fun (z : Nat × Nat) => do
    let ja ← atOffset offA ia z.1
    let jb ← atOffset offB ib z.2
    let xs ← sliceAt a ja m
    let ys ← sliceAt b jb m
    procLoop (fun (q : (α × β) × Nat) => .ok (.upd (ic + q.2) fun v => v.map fun v => O.plus v (O.mul q.1.1 q.1.2)))
      (xs.zip ys).zipIdx) zs

/-- `cpu_rayon/vecdot.rs:115-155`: a thread clears its row, then the chunks of the row are shared out. -/
def dotRouteMPar (dflt : Order) (s : Scheduler) (O : DotOps α β γ) (a : List α) (b : List β) (offA offB : Int) (g : DotCfg) :
    Res (Proc (Option γ)) := do
  let n ← axesProduct g.lam g.contigM
  let lamd ← splitRest g.lam g.contigM
  let lbmd ← splitRest g.lbm g.contigM
  let lcd ← splitRest g.lc g.contigM
  match ← Layout.toColMajorMany dflt [g.las, g.lbs] .K, ← Layout.toColMajorMany dflt [lcd, lamd, lbmd] .K with
  | [las, lbs], [lcd, lamd, lbmd] =>
    let zs ← pairItems las lbs
    dispatchPar3 lcd lamd lbmd (fun inner p => do
      let z ← procLoop (fun t => .ok (.upd (p.1 + t) fun _ => some O.zero)) (List.range n)
      let q ← parRange (fun k => dotChunkPar O a b offA offB zs (p.1 + k * 64) (p.2.1 + k * 64) (p.2.2 + k * 64)
        (min 64 (n - k * 64))) inner (List.range ((n + 63) / 64))
      return .seq z q) s ((n + 63) / 64)
  | _, _ => .error .panic

/-- `cpu_rayon/vecdot.rs:156-188`. -/
def dotRouteDPar (s : Scheduler) (O : DotOps α β γ) (a : List α) (b : List β) (offA offB : Int) (g : DotCfg) :
    Res (Proc (Option γ)) := do
  let zs ← pairItems g.las g.lbs
  dispatchPar3 g.lc g.lam g.lbm (fun _ p => do
    let v ← dotGeneral O a b offA offB g.las g.lbs zs p.2.1 p.2.2
    return .upd p.1 fun _ => some v) s 0

/-- `cpu_rayon/vecdot.rs:9-191` `vecdot_naive_cpu_rayon`. -/
def vecdotKernelPar (dflt order : Order) (pool : Bool) (s : Scheduler) (O : DotOps α β γ) (c : List (Option γ)) (lc : Layout)
    (a : List α) (la : Layout) (b : List β) (lb : Layout) (axesA axesB : List Int) : Res (Work (Option γ)) :=
  if max la.size lb.size < dotParSwitch ∨ pool = false then
    Work.done <$> vecdotKernel dflt order O c lc a la b lb axesA axesB
  else do
    let g ← dotPrepare order lc la lb axesA axesB
    Work.threads <$> (if !g.contigS.isEmpty then dotRouteSPar dflt s O a b la.offset lb.offset g
      else if !g.contigM.isEmpty then dotRouteMPar dflt s O a b la.offset lb.offset g
      else dotRouteDPar s O a b la.offset lb.offset g)

/-- The kernel of a device: `none` is the serial one (`device_cpu_serial/linalg/vecdot.rs:16-31`), otherwise whether a
thread pool is given and how it divides the work (`feature_rayon/auto_impl/vecdot.rs:14-29`). -/
def vecdotDevice (dflt order : Order) (par : Option (Bool × Scheduler)) (O : DotOps α β γ) (c : List (Option γ)) (lc : Layout)
    (a : List α) (la : Layout) (b : List β) (lb : Layout) (axesA axesB : List Int) : Res (Work (Option γ)) :=
  match par with
  | none => Work.done <$> vecdotKernel dflt order O c lc a la b lb axesA axesB
  | some (pool, s) => vecdotKernelPar dflt order pool s O c lc a la b lb axesA axesB

/-! ## The tensor functions -/

/-- `tensor/linalg/vecdot.rs:181-217` (and 268-304): the axes to sum over. -/
def vecdotAxes (na nb : Nat) (axes : AxesPair) : Res (List Int × List Int) :=
  let one (axis : Int) : Res (List Int × List Int) :=
    if axis < 0 then
      if -(min na nb : Nat) ≤ axis then .ok ([axis + na], [axis + nb]) else .error .invalidValue
    else if axis < (min na nb : Nat) then .ok ([axis], [axis]) else .error .invalidValue
  match axes with
  | .none => one (-1)
  | .val axis => one axis
  | .pair a b => do
    let a ← normalizeAxes a na false false
    let b ← normalizeAxes b nb false false
    if a.length ≠ b.length then .error .invalidValue
    else .ok (a.map Int.ofNat, b.map Int.ofNat)

/-- `tensor/linalg/vecdot.rs:160-243` `vecdot_f`. Devices are not compared; the default iteration order is `K`. -/
def Tensor.vecdot (dflt dev : Order) (par : Option (Bool × Scheduler)) (O : DotOps α β γ) (a : Tensor α) (b : Tensor β)
    (axes : AxesPair) : Res (AxesRun γ (Tensor γ)) := do
  let (axesA, axesB) ← vecdotAxes a.layout.ndim b.layout.ndim axes
  let (las, lam) ← a.layout.dimSplitAxes axesA
  let (lbs, lbm) ← b.layout.dimSplitAxes axesB
  if las.shape ≠ lbs.shape then .error .invalidLayout
  else
    let (lam, lbm) ← lam.broadcast lbm dev
    let lc ← Layout.forBinaryOp lam lbm dev
    let (_, n) ← lc.boundsIndex
    let w ← vecdotDevice dflt dev par O (uninit n.toNat) lc a.data a.layout b.data b.layout axesA axesB
    match w with
    | .done c => return .done (← Tensor.newF (← assumeInit c) lc)
    | .threads p => return .threads p n.toNat fun c => do Tensor.newF (← assumeInit c) lc

/-- `tensor/linalg/vecdot.rs:249-330` `vecdot_from_f`: the work on the storage of `c`, whose cells are taken as
`MaybeUninit` (324-326). -/
def Tensor.vecdotFrom (dflt dev : Order) (par : Option (Bool × Scheduler)) (O : DotOps α β γ) (c : Tensor γ) (a : Tensor α)
    (b : Tensor β) (axes : AxesPair) : Res (Work (Option γ)) := do
  let (axesA, axesB) ← vecdotAxes a.layout.ndim b.layout.ndim axes
  let (las, lam) ← a.layout.dimSplitAxes axesA
  let (lbs, lbm) ← b.layout.dimSplitAxes axesB
  if las.shape ≠ lbs.shape then .error .invalidLayout
  else
    let s ← broadcastShapes [lam.shape, lbm.shape] dev
    if s ≠ c.layout.shape then .error .invalidLayout
    else vecdotDevice dflt dev par O (c.data.map some) c.layout a.data a.layout b.data b.layout axesA axesB

end
end Rstsr
