import Verif.Model.Transpose
import Verif.Model.Tri
import Verif.Model.ReduceAxes
import Verif.Spec.Distance
/-!
# Model of `cdist` (`rstsr-sci-traits/src/distance`)

`native_impl.rs`, `metric.rs`, `impl_cpu_serial.rs` and `auto_impl_rayon.rs`. Number types are `Spec.Reals` and
`Spec.Elems`: any operations, no laws. The literal `2.` is `1 + 1`. The new vector of distances starts
uninitialised (`none`).
-/
namespace Rstsr
open Spec (Order Proc Reals Elems NumMetric BoolMetric RowMetric)

section
variable {α ω : Type}

/-- `metric.rs:4-93` the traits `MetricDistAPI` and `MetricDistWeightedAPI`: what `initialize` keeps of a row, the state
of the loop in `distance`, one step of it, and the end; the same with weights. -/
structure Metric (α ω : Type) where
  /-- kept for each row by `initialize` -/
  Kept : Type
  /-- the local variables of `distance` -/
  State : Type
  /-- whether `initialize` does anything -/
  reads : Bool
  row : List α → Kept
  start : State
  step : Kept → Kept → State → α → α → State
  finish : Kept → Kept → Nat → State → ω
  rowW : List ω → List α → Kept
  stepW : Kept → Kept → State → α → α → ω → State
  finishW : Kept → Kept → ω → State → ω

/-- `metric.rs:269-324, 327-383`: a metric that keeps nothing. -/
def Metric.simple {σ : Type} (start : σ) (step : σ → α → α → σ) (finish : Nat → σ → ω) (stepW : σ → α → α → ω → σ)
    (finishW : ω → σ → ω) : Metric α ω :=
  ⟨Unit, σ, false, fun _ => (), start, fun _ _ => step, fun _ _ => finish, fun _ _ => (), fun _ _ => stepW, fun _ _ => finishW⟩

/-- The rows for numbers of the tables `metric.rs:269-285` and `327-343`, with `inner_canberra` (168-184),
`inner_chebyshev` (200-210) and `inner_bray_curtis` (186-198). -/
def numMetric (R : Reals ω) (E : Elems α ω) : NumMetric ω → Metric α ω
  | .euclidean => .simple R.zero (fun d u v => R.plus d (E.square (E.sub u v))) (fun _ d => R.sqrt d)
      (fun d u v w => R.plus d (R.times w (E.square (E.sub u v)))) (fun _ d => R.sqrt d)
  | .minkowski p => .simple R.zero (fun d u v => R.plus d (R.pow (E.abs (E.sub u v)) p)) (fun _ d => R.pow d (R.over R.one p))
      (fun d u v w => R.plus d (R.times w (R.pow (E.abs (E.sub u v)) p))) (fun _ d => R.pow d (R.over R.one p))
  | .cityBlock => .simple R.zero (fun d u v => R.plus d (E.abs (E.sub u v))) (fun _ d => d)
      (fun d u v w => R.plus d (R.times w (E.abs (E.sub u v)))) (fun _ d => d)
  | .sqEuclidean => .simple R.zero (fun d u v => R.plus d (E.square (E.sub u v))) (fun _ d => d)
      (fun d u v w => R.plus d (R.times w (E.square (E.sub u v)))) (fun _ d => d)
  | .canberra => .simple R.zero
      (fun d u v =>
        let num := E.abs (E.sub u v)
        let denom := R.plus (E.abs u) (E.abs v)
        if !R.isZero denom then R.plus d (R.over num denom) else d) (fun _ d => d)
      (fun d u v w =>
        let num := E.abs (E.sub u v)
        let denom := R.plus (E.abs u) (E.abs v)
        if !R.isZero denom then R.plus d (R.over (R.times w num) denom) else d) (fun _ d => d)
  | .chebyshev => .simple R.zero (fun d u v => R.max d (E.abs (E.sub u v))) (fun _ d => d)
      (fun d u v w => if !R.isZero w then R.max d (E.abs (E.sub u v)) else d) (fun _ d => d)
  | .brayCurtis => .simple (R.zero, R.zero)
      (fun s u v => (R.plus s.1 (E.abs (E.sub u v)), R.plus s.2 (E.abs (E.add u v)))) (fun _ s => R.over s.1 s.2)
      (fun s u v w => (R.plus s.1 (R.times w (E.abs (E.sub u v))), R.plus s.2 (R.times w (E.abs (E.add u v)))))
      (fun _ s => R.over s.1 s.2)
  | .hamming => .simple R.zero (fun d u v => if E.ne u v then R.plus d R.one else d) (fun k d => R.over d (R.ofNat k))
      (fun d u v w => if E.ne u v then R.plus d w else d) (fun n d => R.over d n)

/-- `metric.rs:212-232` `inner_yule`, the counters `[ntt, nff, nft, ntf]` in this order. -/
def innerYule (R : Reals ω) (n : ω × ω × ω × ω) (u v : Bool) (w : ω) : ω × ω × ω × ω :=
  match u, v with
  | true, true => (R.plus n.1 w, n.2.1, n.2.2.1, n.2.2.2)
  | false, false => (n.1, R.plus n.2.1 w, n.2.2.1, n.2.2.2)
  | true, false => (n.1, n.2.1, R.plus n.2.2.1 w, n.2.2.2)
  | false, true => (n.1, n.2.1, n.2.2.1, R.plus n.2.2.2 w)

/-- `metric.rs:234-242` `inner_yule_finalize`. -/
def innerYuleFinalize (R : Reals ω) (n : ω × ω × ω × ω) : ω :=
  let halfR := R.times n.2.2.2 n.2.2.1
  if R.isZero halfR then R.zero else R.over (R.times R.two halfR) (R.plus (R.times n.1 n.2.1) halfR)

/-- `metric.rs:244-264` `inner_dice`, the counters `[ntt, ndiff]`. -/
def innerDice (R : Reals ω) (n : ω × ω) (u v : Bool) (w : ω) : ω × ω :=
  match u, v with
  | true, true => (R.plus n.1 w, n.2)
  | false, false => n
  | true, false => (n.1, R.plus n.2 w)
  | false, true => (n.1, R.plus n.2 w)

/-- `metric.rs:148-166` `inner_jaccard`. -/
def innerJaccard (R : Reals ω) (s : ω × ω) (u v : Bool) (w : ω) : ω × ω :=
  (if u ^^ v then R.plus s.1 w else s.1, if u || v then R.plus s.2 w else s.2)

/-- The rows for truth values of the tables `metric.rs:269-285` and `327-343`; without weights every column counts one
and the total is the number of columns. -/
def boolMetric (R : Reals ω) (M : BoolMetric) : Metric Bool ω :=
  let mk := fun {σ : Type} (start : σ) (step : σ → Bool → Bool → ω → σ) (finish : ω → σ → ω) =>
    Metric.simple start (fun s u v => step s u v R.one) (fun k s => finish (R.ofNat k) s) step finish
  match M with
  | .jaccard => mk (R.zero, R.zero) (innerJaccard R) fun _ s => R.over s.1 s.2
  | .yule => mk (R.zero, R.zero, R.zero, R.zero) (innerYule R) fun _ n => innerYuleFinalize R n
  | .dice => mk (R.zero, R.zero) (innerDice R) fun _ n => R.over n.2 (R.plus (R.times R.two n.1) n.2)
  | .rogersTanimoto => mk (R.zero, R.zero) (innerDice R) fun k n => R.over (R.times R.two n.2) (R.plus k n.2)
  | .russellRao => mk R.zero (fun t u v w => if u && v then R.plus t w else t) fun k t => R.over (R.minus k t) k
  | .sokalSneath => mk (R.zero, R.zero) (innerDice R) fun _ n => R.over (R.times R.two n.2) (R.plus (R.times R.two n.2) n.1)

/-- `metric.rs:390-579` `MetricCosine` and `585-804` `MetricCorrelation`. Kept are the norm, and the mean for the
correlation. -/
def rowMetric (R : Reals ω) : RowMetric → Metric ω ω
  | .cosine =>
    { Kept := ω, State := ω, reads := true
      row := fun x => R.sqrt (x.foldl (fun acc a => R.plus acc (R.times a a)) R.zero)
      start := R.zero
      step := fun _ _ d u v => R.plus d (R.times u v)
      finish := fun nu nv _ d => R.minus R.one (R.over d (R.times nu nv))
      rowW := fun w x => R.sqrt ((x.zip w).foldl (fun acc p => R.plus acc (R.times (R.times p.2 p.1) p.1)) R.zero)
      stepW := fun _ _ d u v w => R.plus d (R.times (R.times w u) v)
      finishW := fun nu nv _ d => R.minus R.one (R.over d (R.times nu nv)) }
  | .correlation =>
    { Kept := ω × ω, State := ω, reads := true
      row := fun x =>
        let mean := R.over (x.foldl R.plus R.zero) (R.ofNat x.length)
        (R.sqrt (x.foldl (fun acc a => R.plus acc (R.times (R.minus a mean) (R.minus a mean))) R.zero), mean)
      start := R.zero
      step := fun ku kv d u v => R.plus d (R.times (R.minus u ku.2) (R.minus v kv.2))
      finish := fun ku kv _ d => R.minus R.one (R.over d (R.times ku.1 kv.1))
      rowW := fun w x =>
        let mean := R.over (x.foldl R.plus R.zero) (R.ofNat x.length)
        (R.sqrt ((x.zip w).foldl (fun acc p => R.plus acc (R.times (R.times p.2 (R.minus p.1 mean)) (R.minus p.1 mean))) R.zero), mean)
      stepW := fun ku kv d u v w => R.plus d (R.times (R.times w (R.minus u ku.2)) (R.minus v kv.2))
      finishW := fun ku kv _ d => R.minus R.one (R.over d (R.times ku.1 kv.1)) }

/-- `metric.rs:810-923` `MetricJensenShannon`. Its early return does not use the state, and is tested at the end here. There
is no weighted form: the fields for it are never used. -/
def jsMetric (R : Reals ω) : Metric ω ω :=
  { Kept := ω, State := ω, reads := true
    row := fun x => x.foldl R.plus R.zero
    start := R.zero
    step := fun su sv d u v =>
      if R.lt u R.zero || R.lt v R.zero then R.infinity
      else
        let p := R.over u su
        let q := R.over v sv
        let m := R.over (R.plus p q) R.two
        let d := if R.lt R.zero p then R.plus d (R.times p (R.ln (R.over p m))) else d
        if R.lt R.zero q then R.plus d (R.times q (R.ln (R.over q m))) else d
    finish := fun su sv _ d =>
      if R.le su R.zero && R.le sv R.zero then R.infinity else R.sqrt (R.over d R.two)
    rowW := fun _ x => x.foldl R.plus R.zero
    stepW := fun _ _ d _ _ _ => d
    finishW := fun _ _ _ d => d }

/-- `native_impl.rs:6` `CACHE_SIZE` and `35-37`: the length of a batch for elements of `size` bytes. The division by zero
panics. -/
def batchSize (size k : Nat) : Res Nat :=
  if size * k = 0 then .error .panic else .ok (max 8 (min 64 (256 * 1024 / (size * k) / 2)))

/-- `(0..n).step_by(batch)`. -/
def batchStarts (b n : Nat) : List Nat := (List.range ((n + b - 1) / b)).map (b * ·)

/-- `start..(start + batch).min(n)`. -/
def batchOf (b n start : Nat) : List Nat := List.range' start (min (start + b) n - start)

/-- `&u[off..off + size]`. -/
def sliceOf (x : List α) (off : Int) (k : Nat) : Res (List α) :=
  if off < 0 ∨ (x.length : Int) < off + k then .error .panic else .ok ((x.drop off.toNat).take k)

/-- The pairs of elements that `distance` visits (`metric.rs:304-320`): slices of both vectors, or element by element. -/
def pairsOf (strided : Bool) (xa xb : List α) (oa ob sa sb : Int) (k : Nat) : Res (List (α × α)) :=
  if strided then (List.range k).mapM fun (i : Nat) => do
    let u ← readInt xa (oa + i * sa)
    let v ← readInt xb (ob + i * sb)
    return (u, v)
  else do
    let u ← sliceOf xa oa k
    let v ← sliceOf xb ob k
    return u.zip v

/-- The same with weights (`metric.rs:362-380`): `izip!` stops at the shortest, the loop panics on a missing weight. -/
def triplesOf (strided : Bool) (xa xb : List α) (w : List ω) (oa ob sa sb : Int) (k : Nat) : Res (List ((α × α) × ω)) :=
  if strided then (List.range k).mapM fun (i : Nat) => do
    let u ← readInt xa (oa + i * sa)
    let v ← readInt xb (ob + i * sb)
    let w ← readAt w i
    return ((u, v), w)
  else do
    let u ← sliceOf xa oa k
    let v ← sliceOf xb ob k
    return (u.zip v).zip w

/-- The loop `(0..k)` over `xa[la.index_uncheck(&[i, j])]` in `initialize`. -/
def readRow (x : List α) (l : Layout) (i : Nat) : Res (List α) :=
  (List.range (l.dimAt 1)).mapM fun j => do readInt x (← l.indexUncheck [i, j])

/-- `initialize` for one of the two matrices (`metric.rs:448-482` and others): what is kept, row by row. -/
def keptRows {κ : Type} (reads : Bool) (row : List α → κ) (x : List α) (l : Layout) : Res (List κ) :=
  (List.range (l.dimAt 0)).mapM fun i => do
    if reads then return row (← readRow x l i) else return row []

/-- One call of `kernel.distance` in `cdist` (`native_impl.rs:49-57`). -/
def distanceAt (M : Metric α ω) (ka kb : List M.Kept) (xa xb : List α) (la lb : Layout) (i j : Nat) : Res ω := do
  let ku ← readAt ka i
  let kv ← readAt kb j
  let strided := decide (la.stride.getD 1 0 ≠ 1) || decide (lb.stride.getD 1 0 ≠ 1)
  let P ← pairsOf strided xa xb (la.offset + i * la.stride.getD 0 0) (lb.offset + j * lb.stride.getD 0 0)
    (la.stride.getD 1 0) (lb.stride.getD 1 0) (la.dimAt 1)
  return M.finish ku kv (la.dimAt 1) (P.foldl (fun s p => M.step ku kv s p.1 p.2) M.start)

/-- One call of `kernel.weighted_distance` (`native_impl.rs:121-137`); `weights_sum` is line 111. -/
def distanceAtW (R : Reals ω) (M : Metric α ω) (w : List ω) (ka kb : List M.Kept) (xa xb : List α) (la lb : Layout) (i j : Nat) :
    Res ω := do
  let ku ← readAt ka i
  let kv ← readAt kb j
  let strided := decide (la.stride.getD 1 0 ≠ 1) || decide (lb.stride.getD 1 0 ≠ 1)
  let P ← triplesOf strided xa xb w (la.offset + i * la.stride.getD 0 0) (lb.offset + j * lb.stride.getD 0 0)
    (la.stride.getD 1 0) (lb.stride.getD 1 0) (la.dimAt 1)
  return M.finishW ku kv (w.foldl R.plus R.zero) (P.foldl (fun s p => M.stepW ku kv s p.1.1 p.1.2 p.2) M.start)

/-- `native_impl.rs:58-61` (and 138-141, 217-220, 310-313): where the distance of rows `i` and `j` goes. -/
def distPos (dev : Order) (m n i j : Nat) : Nat :=
  match dev with
  | .C => i * n + j
  | .F => i + j * m

/-- The end of `cdist_f` (`impl_cpu_serial.rs:68-70`, `asarray.rs:457-473`). -/
def distTensor (dev : Order) (m n : Nat) (d : List (Option ω)) : Res (Tensor ω) := do
  let d ← assumeInit d
  Tensor.newF d (match dev with
    | .C => Layout.newCContigFixed [m, n] 0
    | .F => Layout.newFContigFixed [m, n] 0)

/-- The loops of `native_impl.rs:41-73` (and 113-153) over `dist`, and of `199-235` (and 284-328) on threads. `par` is `none` without a pool. -/
def distLoops (dev : Order) (par : Option BlockPlan) (b m n : Nat) (dist : Nat → Nat → Res ω) : Res (AxesRun ω (Tensor ω)) :=
  match par with
  | none => do
    let d ← runAll (fun ib d => runAll (fun jb d => runAll (fun i d => runAll (fun j d => do
      let x ← dist i j
      modifyAt d (distPos dev m n i j) fun _ => some x) (batchOf b n jb) d) (batchOf b m ib) d) (batchStarts b n) d)
      (batchStarts b m) (uninit (m * n : Nat))
    AxesRun.done <$> distTensor dev m n d
  | some s => do
    let p ← parRange (fun ib => parRange (fun jb => procLoop (fun i => procLoop (fun j => do
      let x ← dist i j
      return .upd (distPos dev m n i j) fun _ => some x) (batchOf b n jb)) (batchOf b m ib)) (s.inner ib) (batchStarts b n))
      s.outer (batchStarts b m)
    return .threads p (m * n) (distTensor dev m n)

namespace Tensor

/-- `impl_cpu_serial.rs:58-72`, `auto_impl_rayon.rs:65-81` `cdist_f((xa, xb, metric))` with `cdist_serial` (`native_impl.rs:8-76`) and
`cdist_rayon` (`158-238`). `size` is the size of an element in bytes. -/
def cdist (dev : Order) (par : Option BlockPlan) (size : Nat) (M : Metric α ω) (a b : Tensor α) : Res (AxesRun ω (Tensor ω)) := do
  if a.layout.ndim ≠ 2 then .error .invalidLayout
  else if b.layout.ndim ≠ 2 then .error .invalidLayout
  else if a.layout.dimAt 1 ≠ b.layout.dimAt 1 then .error .invalidLayout
  else
    let ka ← keptRows M.reads M.row a.data a.layout
    let kb ← keptRows M.reads M.row b.data b.layout
    let bs ← batchSize size (a.layout.dimAt 1)
    distLoops dev par bs (a.layout.dimAt 0) (b.layout.dimAt 0) (distanceAt M ka kb a.data b.data a.layout b.layout)

/-- `impl_cpu_serial.rs:29-46`, `auto_impl_rayon.rs:31-50` `cdist_f((xa, xb, metric, weights))` with `cdist_weighted_serial`
(`native_impl.rs:78-156`) and `cdist_weighted_rayon` (`240-331`). Only the metrics with an `initialize` check the number of
weights (`metric.rs:548-553, 761-766`). -/
def cdistW (dflt dev : Order) (par : Option BlockPlan) (size : Nat) (R : Reals ω) (M : Metric α ω) (a b : Tensor α) (w : Tensor ω) :
    Res (AxesRun ω (Tensor ω)) := do
  if a.layout.ndim ≠ 2 then .error .invalidLayout
  else if b.layout.ndim ≠ 2 then .error .invalidLayout
  else if w.layout.ndim ≠ 1 then .error .invalidLayout
  else
    let w ← w.intoContig dflt .C
    if a.layout.dimAt 1 ≠ b.layout.dimAt 1 then .error .invalidLayout
    else if M.reads ∧ a.layout.dimAt 1 ≠ w.data.length then .error .invalidLayout
    else
      let ka ← keptRows M.reads (M.rowW w.data) a.data a.layout
      let kb ← keptRows M.reads (M.rowW w.data) b.data b.layout
      let bs ← batchSize size (a.layout.dimAt 1)
      distLoops dev par bs (a.layout.dimAt 0) (b.layout.dimAt 0) (distanceAtW R M w.data ka kb a.data b.data a.layout b.layout)

/-- `impl_cpu_serial.rs:75-87` `cdist_f((xa, xb))`: the Euclidean metric. -/
def cdistDefault (dev : Order) (par : Option BlockPlan) (size : Nat) (R : Reals ω) (E : Elems α ω) (a b : Tensor α) :
    Res (AxesRun ω (Tensor ω)) := cdist dev par size (numMetric R E .euclidean) a b

end Tensor
end
end Rstsr
