import Verif.Model.Reduce
/-!
# Model of the reductions along axes (`cpu_serial/reduction.rs`, `cpu_rayon/reduction.rs` in
`rstsr-native-impl/src`)

Positions are `usize`: `i + j - offset` below zero is the panic error.
-/
namespace Rstsr
open Spec (Order Proc)

section
variable {α σ ω : Type}

/-- `axes.iter().map(|&i| l.shape()[i]).product()`; indexing past the end is the panic error. -/
def axesProduct (l : Layout) (axes : List Nat) : Res Nat := do
  let ds ← axes.mapM fun (i : Nat) => readAt l.shape i
  return ds.prod

/-- `l.dim_split_axes(axes)?.0` for axes given as `usize`. -/
def splitSel (l : Layout) (axes : List Nat) : Res Layout := do
  let (m, _) ← l.dimSplitAxes (axes.map Int.ofNat)
  return m

/-- `i + j - offset` ("double-counted offset"). -/
def atOffset (offset : Int) (i j : Nat) : Res Nat :=
  let k := (i : Int) + j - offset
  if k < 0 then .error .panic else .ok k.toNat

/-- `cpu_serial/reduction.rs:251-254`: `for _ in 1..size_s0 { acc = f_sum(acc, acc_before.clone()) }`. -/
def repeatAcc (R : Reducer α σ ω) (n : Nat) (before : σ) : σ :=
  (List.range (n - 1)).foldl (fun acc _ => R.fSum acc before) before

/-- `cpu_serial/reduction.rs:285-295`: the accumulators of one chunk of a row of the output. -/
def chunkAcc (R : Reducer α σ ω) (a : List α) (offset : Int) (i start n : Nat) (zs : List Nat) : Res (List σ) :=
  foldRes (fun v z => do
    let k ← atOffset offset i z
    let xs ← sliceAt a (k + start) n
    return List.zipWith R.f v xs) (List.replicate n R.init) zs

/-- `cpu_serial/reduction.rs:280-296`: the accumulators of a row of `n` outputs, in chunks of `chunk`. -/
def rowAcc (R : Reducer α σ ω) (a : List α) (chunk : Nat) (offset : Int) (i n : Nat) (zs : List Nat) : Res (List σ) := do
  let parts ← (List.range ((n + chunk - 1) / chunk)).mapM fun (k : Nat) =>
    chunkAcc R a offset i (k * chunk) (min chunk (n - k * chunk)) zs
  return parts.flatten

/-- The sizes that choose the route: `size_s0`, `size_sc`, `size_m0`, `size_mc`
(`cpu_serial/reduction.rs:226-229`). `size_s0` is computed with the remaining axes' lengths. -/
def reduceSizes (ls lm : Layout) : Res (Nat × Nat × Nat × Nat) := do
  let s0 ← axesProduct lm ls.axesComposition.2.1
  let sc ← axesProduct ls ls.axesComposition.2.2
  let m0 ← axesProduct lm lm.axesComposition.2.1
  let mc ← axesProduct lm lm.axesComposition.2.2
  return (s0, sc, m0, mc)

/-- `cpu_serial/reduction.rs:231-256`: the contiguous axes are reduced. -/
def reduceRouteS (R : Reducer α σ ω) (a : List α) (offset : Int) (s0 sc : Nat) (ls lm lo : Layout)
    (c : List (Option ω)) : Res (List (Option ω)) := do
  let amcd := lm.axesComposition.2.2 ++ lm.axesDiscontig
  let xs ← colItems (← splitSel lm amcd)
  let ys ← colItems (← splitSel lo amcd)
  let zs ← colItems (← splitSel ls ls.axesDiscontig)
  runAll (fun (p : Nat × Nat) c => do
    let acc ← foldRes (fun acc z => do stepBlock R a sc acc (← atOffset offset p.1 z)) R.init zs
    modifyAt c p.2 fun _ => some (R.fOut (repeatAcc R s0 acc))) (xs.zip ys) c

/-- `cpu_serial/reduction.rs:257-304`: the contiguous axes remain. -/
def reduceRouteM (R : Reducer α σ ω) (a : List α) (offset : Int) (s0 mc : Nat) (ls lm lo : Layout)
    (c : List (Option ω)) : Res (List (Option ω)) := do
  let zs ← colItems (← splitSel ls (ls.axesComposition.2.2 ++ ls.axesDiscontig))
  let xs ← colItems (← splitSel lm lm.axesDiscontig)
  let ys ← colItems (← splitSel lo lm.axesDiscontig)
  let loc ← splitSel lo lm.axesComposition.2.2
  if !loc.fContig then .error .runtimeError
  else
    runAll (fun (p : Nat × Nat) c => do
      let vacc ← rowAcc R a 48 offset p.1 mc zs
      runAll (fun (q : σ × Nat) c => modifyAt c (p.2 + q.2) fun _ => some (R.fOut (repeatAcc R s0 q.1)))
        vacc.zipIdx c) (xs.zip ys) c

/-- `cpu_serial/reduction.rs:305-328`: no contiguous axes. -/
def reduceRouteD (R : Reducer α σ ω) (a : List α) (offset : Int) (s0 : Nat) (ls lm lo : Layout)
    (c : List (Option ω)) : Res (List (Option ω)) := do
  let xs ← colItems (← splitSel lm lm.axesDiscontig)
  let ys ← colItems (← splitSel lo lm.axesDiscontig)
  let zs ← colItems (← splitSel ls ls.axesDiscontig)
  runAll (fun (p : Nat × Nat) c => do
    let acc ← foldRes (fun acc z => do stepAt R a acc (← atOffset offset p.1 z)) R.init zs
    modifyAt c p.2 fun _ => some (R.fOut (repeatAcc R s0 acc))) (xs.zip ys) c

/-- `cpu_serial/reduction.rs:331-349`: results are copied along the broadcast remaining axes. Reading an
unwritten cell copies the unwritten content. -/
def reduceSpread (offset : Int) (m0 : Nat) (lm lo : Layout) (c : List (Option ω)) : Res (List (Option ω)) := do
  if m0 > 1 then
    let xs ← colItems (← splitSel lo lm.axesComposition.2.1)
    let ys ← colItems (← splitSel lo (lm.axesComposition.2.2 ++ lm.axesDiscontig))
    runAll (fun (i : Nat) c => runAll (fun (j : Nat) c => do
      let k ← atOffset offset i j
      let v ← readAt c j
      modifyAt c k fun _ => v) ys c) xs c
  else .ok c

/-- `cpu_serial/reduction.rs:181-368` `reduce_axes_cpu_serial`. The rearrangement at the end is for
default iteration orders other than `K` and never runs. -/
def reduceAxes (dflt : Order) (R : Reducer α σ ω) (a : List α) (la : Layout) (axes : List Int) :
    Res (List ω × Layout) := do
  let (ls, lm) ← la.dimSplitAxes axes
  let lo ← lm.forArrayCopy dflt .K
  let (s0, sc, m0, mc) ← reduceSizes ls lm
  let out ← (if sc > 1 then reduceRouteS R a la.offset s0 sc ls lm lo (uninit lo.size)
    else if mc > 1 then reduceRouteM R a la.offset s0 mc ls lm lo (uninit lo.size)
    else reduceRouteD R a la.offset s0 ls lm lo (uninit lo.size))
  let out ← reduceSpread la.offset m0 lm lo out
  return (← assumeInit out, lo)


/-! ## Parallel version

The outer loop over the output runs in threads that write cells of the output through a raw pointer; the
accumulators are local to a thread. `s 0` is the schedule of the outer loop and `s (k + 1)` that of the loop
nested in it for the output cell `k`. -/

/-- `cpu_rayon/reduction.rs:168-198`: the contiguous axes are reduced. -/
def reduceRouteSPar (s : Nat → Scheduler) (R : Reducer α σ ω) (a : List α) (offset : Int) (s0 sc : Nat)
    (ls lm lo : Layout) : Res (Proc (Option ω)) := do
  let amcd := lm.axesComposition.2.2 ++ lm.axesDiscontig
  let lmcd ← splitSel lm amcd
  let locd ← splitSel lo amcd
  let it ← Iter.new .F (← splitSel ls ls.axesDiscontig)
  dispatchPar2diff lmcd locd (fun _ p => do
    let acc ← parFold1 R.init R.fSum (fun _ acc z => do stepBlock R a sc acc (← atOffset offset p.1 z))
      (s (p.2 + 1) it.len 0) it
    return .upd p.2 fun _ => some (R.fOut (repeatAcc R s0 acc))) (s 0) 0

/-- `cpu_rayon/reduction.rs:199-248`: the contiguous axes remain. The chunks of `par_chunks_mut(64)` are
disjoint parts of the thread's own accumulators, so they are taken in order. -/
def reduceRouteMPar (s : Nat → Scheduler) (R : Reducer α σ ω) (a : List α) (offset : Int) (s0 mc : Nat)
    (ls lm lo : Layout) : Res (Proc (Option ω)) := do
  let zs ← colItems (← splitSel ls (ls.axesComposition.2.2 ++ ls.axesDiscontig))
  let lmd ← splitSel lm lm.axesDiscontig
  let lod ← splitSel lo lm.axesDiscontig
  let loc ← splitSel lo lm.axesComposition.2.2
  if !loc.fContig then .error .runtimeError
  else
    dispatchPar2diff lmd lod (fun inner p => do
      let vacc ← rowAcc R a 64 offset p.1 mc zs
      parRange (fun t => do
        let acc ← readAt vacc t
        return .upd (p.2 + t) fun _ => some (R.fOut (repeatAcc R s0 acc))) inner (List.range mc)) (s 0) mc

/-- `cpu_rayon/reduction.rs:249-279`: no contiguous axes. -/
def reduceRouteDPar (s : Nat → Scheduler) (R : Reducer α σ ω) (a : List α) (offset : Int) (s0 : Nat)
    (ls lm lo : Layout) : Res (Proc (Option ω)) := do
  let lmd ← splitSel lm lm.axesDiscontig
  let lod ← splitSel lo lm.axesDiscontig
  let it ← Iter.new .F (← splitSel ls ls.axesDiscontig)
  dispatchPar2diff lmd lod (fun _ p => do
    let acc ← parFold1 R.init R.fSum (fun _ acc z => do stepAt R a acc (← atOffset offset p.1 z))
      (s (p.2 + 1) it.len 0) it
    return .upd p.2 fun _ => some (R.fOut (repeatAcc R s0 acc))) (s 0) 0

/-- What an axis reduction does: finish at once, or start threads on `n` unwritten cells and go on with what
they leave. -/
inductive AxesRun (ω ρ : Type) where
  | done (r : ρ)
  | threads (p : Proc (Option ω)) (n : Nat) (finish : List (Option ω) → Res ρ)

/-- Continue after the reduction (`?` and further statements of the caller). -/
def AxesRun.andThen {ρ τ : Type} (g : ρ → Res τ) : AxesRun ω ρ → Res (AxesRun ω τ)
  | .done r => do return .done (← g r)
  | .threads p n fin => .ok (.threads p n fun c => do g (← fin c))

/-- `cpu_rayon/reduction.rs:109-330` `reduce_axes_cpu_rayon`. The copy along broadcast axes is serial, after
the threads. -/
def reduceAxesPar (dflt : Order) (s : Nat → Scheduler) (R : Reducer α σ ω) (a : List α) (la : Layout)
    (axes : List Int) : Res (AxesRun ω (List ω × Layout)) := do
  if la.size < reduceParSwitch then
    let r ← reduceAxes dflt R a la axes
    return .done r
  else
    let (ls, lm) ← la.dimSplitAxes axes
    let lo ← lm.forArrayCopy dflt .K
    let (s0, sc, m0, mc) ← reduceSizes ls lm
    let p ← (if sc > 1 then reduceRouteSPar s R a la.offset s0 sc ls lm lo
      else if mc > 1 then reduceRouteMPar s R a la.offset s0 mc ls lm lo
      else reduceRouteDPar s R a la.offset s0 ls lm lo)
    return .threads p lo.size fun c => do
      let out ← reduceSpread la.offset m0 lm lo c
      return (← assumeInit out, lo)

/-! ## The reductions along axes of the tensor API

`rstsr-core/src/tensor/reduction.rs:14-39`: no axes given (`AxesIndex::None`) is the full reduction put in a
tensor without axes. `par` is `none` on the serial device (`device_cpu_serial/reduction.rs`) and the schedulers
on the rayon device (`feature_rayon/auto_impl/reduction.rs`, whose closures are the same). -/

/-- The kernel a device runs, and `Tensor::new_f` on its result. -/
def Tensor.axesKernel (dflt : Order) (par : Option (Nat → Scheduler)) (R : Reducer α σ ω) (t : Tensor α)
    (axes : List Int) : Res (AxesRun ω (Tensor ω)) :=
  match par with
  | none => do
    let (d, lo) ← reduceAxes dflt R t.data t.layout axes
    return .done (← Tensor.newF d lo)
  | some s => do
    let run ← reduceAxesPar dflt s R t.data t.layout axes
    run.andThen fun r => Tensor.newF r.1 r.2

/-- `tensor/reduction.rs:23-38`: the choice between the two. -/
def Tensor.axesApi (all : Res ω) (some_ : List Int → Res (AxesRun ω (Tensor ω))) :
    Option (List Int) → Res (AxesRun ω (Tensor ω))
  | none => do return .done (← Tensor.newF [← all] ⟨[], 0⟩)
  | some axes => some_ axes

/-- The device's first scheduler, for full reductions. -/
def onePar (par : Option (Nat → Scheduler)) : Option Scheduler := par.map fun s => s 0

end

section
variable {α : Type} (dflt : Order) (par : Option (Nat → Scheduler))

/-- `device_cpu_serial/reduction.rs:23-37` `sum_axes`. -/
def Tensor.sumAxes (zero : α) (add : α → α → α) (t : Tensor α) (axes : Option (List Int)) : Res (AxesRun α (Tensor α)) :=
  Tensor.axesApi (t.sumAll dflt (onePar par) zero add) (t.axesKernel dflt par (sumR zero add)) axes

/-- `device_cpu_serial/reduction.rs:134-147` `prod_axes`. -/
def Tensor.prodAxes (one : α) (mul : α → α → α) (t : Tensor α) (axes : Option (List Int)) : Res (AxesRun α (Tensor α)) :=
  Tensor.axesApi (t.prodAll dflt (onePar par) one mul) (t.axesKernel dflt par ⟨one, mul, mul, id⟩) axes

/-- `device_cpu_serial/reduction.rs:58-76` `min_axes`. -/
def Tensor.minAxes (top : α) (min : α → α → α) (t : Tensor α) (axes : Option (List Int)) : Res (AxesRun α (Tensor α)) :=
  Tensor.axesApi (t.minAll dflt (onePar par) top min)
    (fun axes => if t.layout.size = 0 then .error .invalidValue else t.axesKernel dflt par ⟨top, min, min, id⟩ axes) axes

/-- `device_cpu_serial/reduction.rs:98-115` `max_axes`. -/
def Tensor.maxAxes (bot : α) (max : α → α → α) (t : Tensor α) (axes : Option (List Int)) : Res (AxesRun α (Tensor α)) :=
  Tensor.axesApi (t.maxAll dflt (onePar par) bot max)
    (fun axes => if t.layout.size = 0 then .error .invalidValue else t.axesKernel dflt par ⟨bot, max, max, id⟩ axes) axes

/-- `device_cpu_serial/reduction.rs:168-183` `mean_axes`. -/
def Tensor.meanAxes (zero : α) (add div : α → α → α) (ofNat : Nat → α) (t : Tensor α) (axes : Option (List Int)) :
    Res (AxesRun α (Tensor α)) :=
  Tensor.axesApi (t.meanAll dflt (onePar par) zero add div ofNat)
    (fun axes => do
      let (l, _) ← t.layout.dimSplitAxes axes
      t.axesKernel dflt par ⟨zero, add, add, fun acc => div acc (ofNat l.size)⟩ axes) axes

/-- `device_cpu_serial/reduction.rs:211-234` `var_axes` for a real type (`conj` and `re` are the identity). -/
def Tensor.varAxes (zero : α) (add sub mul div : α → α → α) (ofNat : Nat → α) (t : Tensor α) (axes : Option (List Int)) :
    Res (AxesRun α (Tensor α)) :=
  Tensor.axesApi (t.varAll dflt (onePar par) zero add sub mul div ofNat)
    (fun axes => do
      let (l, _) ← t.layout.dimSplitAxes axes
      t.axesKernel dflt par ⟨(zero, zero), fun acc x => (add acc.1 x, add acc.2 (mul x x)),
        fun p q => (add p.1 q.1, add p.2 q.2), fun acc =>
          let mean := div acc.1 (ofNat l.size)
          sub (div acc.2 (ofNat l.size)) (mul mean mean)⟩ axes) axes

/-- `device_cpu_serial/reduction.rs:262-287` `std_axes` for a real type. -/
def Tensor.stdAxes (zero : α) (add sub mul div : α → α → α) (ofNat : Nat → α) (sqrt : α → α) (t : Tensor α)
    (axes : Option (List Int)) : Res (AxesRun α (Tensor α)) :=
  Tensor.axesApi (t.stdAll dflt (onePar par) zero add sub mul div ofNat sqrt)
    (fun axes => do
      let (l, _) ← t.layout.dimSplitAxes axes
      t.axesKernel dflt par ⟨(zero, zero), fun acc x => (add acc.1 x, add acc.2 (mul x x)),
        fun p q => (add p.1 q.1, add p.2 q.2), fun acc =>
          let mean := div acc.1 (ofNat l.size)
          sqrt (sub (div acc.2 (ofNat l.size)) (mul mean mean))⟩ axes) axes

/-- `device_cpu_serial/reduction.rs:306-320` `l2_norm_axes` for a real type. -/
def Tensor.l2NormAxes (zero : α) (add mul : α → α → α) (sqrt : α → α) (t : Tensor α) (axes : Option (List Int)) :
    Res (AxesRun α (Tensor α)) :=
  Tensor.axesApi (t.l2NormAll dflt (onePar par) zero add mul sqrt)
    (t.axesKernel dflt par ⟨zero, fun acc x => add acc (mul x x), add, sqrt⟩) axes

/-- `device_cpu_serial/reduction.rs:440-454` `all_axes`. -/
def Tensor.allAxes (t : Tensor Bool) (axes : Option (List Int)) : Res (AxesRun Bool (Tensor Bool)) :=
  Tensor.axesApi (t.allAll dflt (onePar par)) (t.axesKernel dflt par ⟨true, and, and, id⟩) axes

/-- `device_cpu_serial/reduction.rs:471-485` `any_axes`. -/
def Tensor.anyAxes (t : Tensor Bool) (axes : Option (List Int)) : Res (AxesRun Bool (Tensor Bool)) :=
  Tensor.axesApi (t.anyAll dflt (onePar par)) (t.axesKernel dflt par ⟨false, or, or, id⟩) axes

/-- `device_cpu_serial/reduction.rs:503-517` `count_nonzero_axes`. -/
def Tensor.countNonzeroAxes (isZero : α → Bool) (t : Tensor α) (axes : Option (List Int)) : Res (AxesRun Nat (Tensor Nat)) :=
  Tensor.axesApi (t.countNonzeroAll dflt (onePar par) isZero)
    (t.axesKernel dflt par ⟨0, fun acc x => if isZero x then acc else acc + 1, (· + ·), id⟩) axes

/-- `device_cpu_serial/reduction.rs:633-650` `sum_axes` of booleans. -/
def Tensor.sumBoolAxes (t : Tensor Bool) (axes : Option (List Int)) : Res (AxesRun Nat (Tensor Nat)) :=
  Tensor.axesApi (t.sumBoolAll dflt (onePar par))
    (t.axesKernel dflt par ⟨0, countTrue, (· + ·), id⟩) axes

end
end Rstsr
