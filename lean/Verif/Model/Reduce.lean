import Verif.Model.Parallel
import Verif.Model.Elementwise
/-!
# Model of the full reductions (`cpu_serial/reduction.rs`, `cpu_rayon/reduction.rs` in
`rstsr-native-impl/src`)

A failing element access inside a fold is the panic error.
-/
namespace Rstsr
open Spec (Order)

/-- The four closures of a reduction (`cpu_serial/reduction.rs:17-21`). -/
structure Reducer (α σ ω : Type) where
  init : σ
  f : σ → α → σ
  fSum : σ → σ → σ
  fOut : σ → ω

/-- The eight accumulators of `unrolled_reduce`. -/
structure Acc8 (σ : Type) where
  p0 : σ
  p1 : σ
  p2 : σ
  p3 : σ
  p4 : σ
  p5 : σ
  p6 : σ
  p7 : σ

/-- `Iterator::fold` with a step that can fail. -/
def foldRes {ι σ : Type} (op : σ → ι → Res σ) : σ → List ι → Res σ
  | acc, [] => .ok acc
  | acc, x :: xs => do foldRes op (← op acc x) xs

/-- `&a[i..i + n]`. -/
def sliceAt {α : Type} (a : List α) (i n : Nat) : Res (List α) :=
  if a.length < i + n then .error .panic else .ok ((a.drop i).take n)

section
variable {α β σ ω : Type}

/-- `cpu_serial/reduction.rs:57-68`: the loop over groups of eight; returns the accumulators and the rest. -/
def unroll8 (f : σ → α → σ) : Acc8 σ → List α → Acc8 σ × List α
  | p, x0 :: x1 :: x2 :: x3 :: x4 :: x5 :: x6 :: x7 :: xs =>
    unroll8 f ⟨f p.p0 x0, f p.p1 x1, f p.p2 x2, f p.p3 x3, f p.p4 x4, f p.p5 x5, f p.p6 x6, f p.p7 x7⟩ xs
  | p, xs => (p, xs)

/-- `cpu_serial/reduction.rs:69-72`: the accumulators put together. -/
def join8 (init : σ) (fSum : σ → σ → σ) (p : Acc8 σ) : σ :=
  fSum (fSum (fSum (fSum init (fSum p.p0 p.p4)) (fSum p.p1 p.p5)) (fSum p.p2 p.p6)) (fSum p.p3 p.p7)

/-- `cpu_serial/reduction.rs:44-83` `unrolled_reduce`. -/
def unrolledReduce (R : Reducer α σ ω) (xs : List α) : σ :=
  let (p, rest) := unroll8 R.f ⟨R.init, R.init, R.init, R.init, R.init, R.init, R.init, R.init⟩ xs
  (rest.take 7).foldl R.f (join8 R.init R.fSum p)

/-- `cpu_serial/reduction.rs:114-126`: the loop over groups of eight pairs. -/
def unroll8Binary (f : σ → α × β → σ) : Acc8 σ → List α → List β → Acc8 σ × List α × List β
  | p, x0 :: x1 :: x2 :: x3 :: x4 :: x5 :: x6 :: x7 :: xs, y0 :: y1 :: y2 :: y3 :: y4 :: y5 :: y6 :: y7 :: ys =>
    unroll8Binary f ⟨f p.p0 (x0, y0), f p.p1 (x1, y1), f p.p2 (x2, y2), f p.p3 (x3, y3), f p.p4 (x4, y4),
      f p.p5 (x5, y5), f p.p6 (x6, y6), f p.p7 (x7, y7)⟩ xs ys
  | p, xs, ys => (p, xs, ys)

/-- `cpu_serial/reduction.rs:93-142` `unrolled_binary_reduce`. -/
def unrolledBinaryReduce (R : Reducer (α × β) σ ω) (xs : List α) (ys : List β) : σ :=
  let (p, xs, ys) := unroll8Binary R.f ⟨R.init, R.init, R.init, R.init, R.init, R.init, R.init, R.init⟩ xs ys
  ((xs.zip ys).take 7).foldl R.f (join8 R.init R.fSum p)

/-- `cpu_serial/reduction.rs:37`, `cpu_rayon/reduction.rs:7` `CONTIG_SWITCH`. -/
def reduceContigSwitch : Nat := 32

/-- One step `f(acc, a[i].clone())`. -/
def stepAt (R : Reducer α σ ω) (a : List α) (acc : σ) (i : Nat) : Res σ := do
  return R.f acc (← readAt a i)

/-- One step `f_sum(acc, unrolled_reduce(&a[i..i + n], …))`. -/
def stepBlock (R : Reducer α σ ω) (a : List α) (n : Nat) (acc : σ) (i : Nat) : Res σ := do
  return R.fSum acc (unrolledReduce R (← sliceAt a i n))

/-- One step `f(acc, (a[i].clone(), b[j].clone()))`. -/
def stepAt2 (R : Reducer (α × β) σ ω) (a : List α) (b : List β) (acc : σ) (p : Nat × Nat) : Res σ := do
  let x ← readAt a p.1
  let y ← readAt b p.2
  return R.f acc (x, y)

/-- One step over two blocks. -/
def stepBlock2 (R : Reducer (α × β) σ ω) (a : List α) (b : List β) (n : Nat) (acc : σ) (p : Nat × Nat) : Res σ := do
  let xs ← sliceAt a p.1 n
  let ys ← sliceAt b p.2 n
  return R.fSum acc (unrolledBinaryReduce R xs ys)

/-- `cpu_serial/reduction.rs:146-179` `reduce_all_cpu_serial`. -/
def reduceAll (dflt : Order) (R : Reducer α σ ω) (a : List α) (la : Layout) : Res ω := do
  let l ← la.toColMajor dflt .K
  let (contig, n) := Layout.withContig [l]
  if n ≥ reduceContigSwitch then
    match contig with
    | [m] => R.fOut <$> foldRes (stepBlock R a n) R.init (← colItems m)
    | _ => .error .panic
  else R.fOut <$> foldRes (stepAt R a) R.init (← colItems l)

/-- `cpu_serial/reduction.rs:373-417` `reduce_all_binary_cpu_serial`. `layout_col_major_dim_dispatch_2`
checks that the ranks agree. -/
def reduceAllBinary (dflt : Order) (R : Reducer (α × β) σ ω) (a : List α) (la : Layout) (b : List β) (lb : Layout) :
    Res ω := do
  let full ← Layout.toColMajorMany dflt [la, lb] .K
  let (contig, n) := Layout.withContig full
  if n ≥ reduceContigSwitch then
    match contig with
    | [la, lb] =>
      if la.ndim ≠ lb.ndim then .error .runtimeError
      else
        let xs ← colItems la
        let ys ← colItems lb
        R.fOut <$> foldRes (stepBlock2 R a b n) R.init (xs.zip ys)
    | _ => .error .panic
  else
    match full with
    | [la, lb] =>
      let xs ← colItems la
      let ys ← colItems lb
      R.fOut <$> foldRes (stepAt2 R a b) R.init (xs.zip ys)
    | _ => .error .panic

/-! ## Parallel reduction

`rayon`'s `fold(init, op).reduce(init, f_sum)`: every part of the divided iterator is folded from `init`, its
result is combined with `init` once more, and the results of the two halves of a split are combined left to
right. Which way the iterator is divided is the schedule. -/

/-- `par_iter().fold(init, op).reduce(init, f_sum)` over a list of items. -/
def parFold {ι : Type} (init : σ) (fSum : σ → σ → σ) (op : σ → ι → Res σ) : Plan → List ι → Res σ
  | .run, xs => do return fSum init (← foldRes op init xs)
  | .split k p q, xs => do
    return fSum (← parFold init fSum op p (xs.take k)) (← parFold init fSum op q (xs.drop k))

/-- The same over a layout iterator (`rstsr-common/src/par_iter.rs:21-69`); the step of an item may contain a
parallel loop with its own plan. -/
def parFold1 (init : σ) (fSum : σ → σ → σ) (op : Plan → σ → Nat → Res σ) : Sched → Iter → Res σ
  | .run inner, it => do
    let acc ← foldRes (fun acc p => op (inner p.1) acc p.2) init (numbered 0 (← it.toList))
    return fSum init acc
  | .split k p q, it => do
    let (l, r) ← it.splitAt k
    return fSum (← parFold1 init fSum op p l) (← parFold1 init fSum op q r)

/-- The same over two iterators divided at the same places. -/
def parFold2 (init : σ) (fSum : σ → σ → σ) (op : Plan → σ → Nat × Nat → Res σ) : Sched → Iter → Iter → Res σ
  | .run inner, a, b => do
    let xs ← a.toList
    let ys ← b.toList
    let acc ← foldRes (fun acc p => op (inner p.1) acc p.2) init (numbered 0 (xs.zip ys))
    return fSum init acc
  | .split k p q, a, b => do
    let (la, ra) ← a.splitAt k
    let (lb, rb) ← b.splitAt k
    return fSum (← parFold2 init fSum op p la lb) (← parFold2 init fSum op q ra rb)

/-- `cpu_rayon/reduction.rs:12` `PARALLEL_SWITCH` and `:14` `PARALLEL_CHUNK_MAX`. -/
def reduceParSwitch : Nat := 1024
def reduceChunk : Nat := 1024

/-- `(0..n).into_par_iter().step_by(chunk)`: the starts of the chunks. -/
def chunkStarts (n : Nat) : List Nat := (List.range ((n + reduceChunk - 1) / reduceChunk)).map (· * reduceChunk)

/-- `cpu_rayon/reduction.rs:72-86`: one contiguous block, reduced in parallel chunks. -/
def parBlockStep (R : Reducer α σ ω) (a : List α) (n : Nat) (plan : Plan) (acc : σ) (i : Nat) : Res σ := do
  let res ← parFold R.init R.fSum (fun acc idx => stepBlock R a (min reduceChunk (n - idx)) acc (i + idx)) plan
    (chunkStarts n)
  return R.fSum acc res

/-- `cpu_rayon/reduction.rs:391-411`: the same for two operands. -/
def parBlockStep2 (R : Reducer (α × β) σ ω) (a : List α) (b : List β) (n : Nat) (plan : Plan) (acc : σ)
    (p : Nat × Nat) : Res σ := do
  let res ← parFold R.init R.fSum (fun acc idx => stepBlock2 R a b (min reduceChunk (n - idx)) acc (p.1 + idx, p.2 + idx))
    plan (chunkStarts n)
  return R.fSum acc res

/-- `cpu_rayon/reduction.rs:20-105` `reduce_all_cpu_rayon`. Without a thread pool the same tasks run in the
global pool. -/
def reduceAllPar (dflt : Order) (s : Scheduler) (R : Reducer α σ ω) (a : List α) (la : Layout) : Res ω := do
  if la.size < reduceParSwitch then reduceAll dflt R a la
  else
    let l ← la.toColMajor dflt .K
    let (contig, n) := Layout.withContig [l]
    if n ≥ reduceContigSwitch then
      match contig with
      | [m] =>
        let it ← Iter.new .F m
        if n < reduceParSwitch then
          R.fOut <$> parFold1 R.init R.fSum (fun _ => stepBlock R a n) (s it.len (chunkStarts n).length) it
        else R.fOut <$> parFold1 R.init R.fSum (parBlockStep R a n) (s it.len (chunkStarts n).length) it
      | _ => .error .panic
    else
      let it ← Iter.new .F l
      R.fOut <$> parFold1 R.init R.fSum (fun _ => stepAt R a) (s it.len 0) it

/-- `cpu_rayon/reduction.rs:334-437` `reduce_all_binary_cpu_rayon`. -/
def reduceAllBinaryPar (dflt : Order) (s : Scheduler) (R : Reducer (α × β) σ ω) (a : List α) (la : Layout)
    (b : List β) (lb : Layout) : Res ω := do
  if la.size < reduceParSwitch then reduceAllBinary dflt R a la b lb
  else
    let full ← Layout.toColMajorMany dflt [la, lb] .K
    let (contig, n) := Layout.withContig full
    if n ≥ reduceContigSwitch then
      match contig with
      | [la, lb] =>
        let ia ← Iter.new .F la
        let ib ← Iter.new .F lb
        if n < reduceParSwitch then
          R.fOut <$> parFold2 R.init R.fSum (fun _ => stepBlock2 R a b n)
            (s (min ia.len ib.len) (chunkStarts n).length) ia ib
        else
          R.fOut <$> parFold2 R.init R.fSum (parBlockStep2 R a b n)
            (s (min ia.len ib.len) (chunkStarts n).length) ia ib
      | _ => .error .panic
    else
      match full with
      | [la, lb] =>
        let ia ← Iter.new .F la
        let ib ← Iter.new .F lb
        R.fOut <$> parFold2 R.init R.fSum (fun _ => stepAt2 R a b) (s (min ia.len ib.len) 0) ia ib
      | _ => .error .panic

end

/-! ## The reductions of the tensor API

`rstsr-core/src/tensor/reduction.rs:1-110` passes storage and layout to the device. `par` is `none` on the
serial device and a scheduler on the rayon device (`rstsr-core/src/feature_rayon/auto_impl/reduction.rs`, whose
closures are the same). -/

section
variable {α β σ ω : Type}

/-- Which kernel a device runs. -/
def Tensor.reduce (dflt : Order) (par : Option Scheduler) (R : Reducer α σ ω) (t : Tensor α) : Res ω :=
  match par with
  | none => reduceAll dflt R t.data t.layout
  | some s => reduceAllPar dflt s R t.data t.layout

/-- `device_cpu_serial/reduction.rs:14-21` `sum_all`. -/
def sumR (zero : α) (add : α → α → α) : Reducer α α α := ⟨zero, add, add, id⟩

def Tensor.sumAll (dflt : Order) (par : Option Scheduler) (zero : α) (add : α → α → α) (t : Tensor α) : Res α :=
  t.reduce dflt par (sumR zero add)

/-- `device_cpu_serial/reduction.rs:122-131` `prod_all`. -/
def Tensor.prodAll (dflt : Order) (par : Option Scheduler) (one : α) (mul : α → α → α) (t : Tensor α) : Res α :=
  t.reduce dflt par ⟨one, mul, mul, id⟩

/-- `device_cpu_serial/reduction.rs:45-56` `min_all`; `top` is `ext_max_value`. -/
def Tensor.minAll (dflt : Order) (par : Option Scheduler) (top : α) (min : α → α → α) (t : Tensor α) : Res α :=
  if t.layout.size = 0 then .error .invalidValue else t.reduce dflt par ⟨top, min, min, id⟩

/-- `device_cpu_serial/reduction.rs:84-96` `max_all`; `bot` is `ext_min_value`. -/
def Tensor.maxAll (dflt : Order) (par : Option Scheduler) (bot : α) (max : α → α → α) (t : Tensor α) : Res α :=
  if t.layout.size = 0 then .error .invalidValue else t.reduce dflt par ⟨bot, max, max, id⟩

/-- `device_cpu_serial/reduction.rs:157-166` `mean_all`. -/
def Tensor.meanAll (dflt : Order) (par : Option Scheduler) (zero : α) (add div : α → α → α) (ofNat : Nat → α)
    (t : Tensor α) : Res α :=
  t.reduce dflt par ⟨zero, add, add, fun acc => div acc (ofNat t.layout.size)⟩

/-- `device_cpu_serial/reduction.rs:193-209` `var_all` for a real type (`conj` and `re` are the identity). -/
def Tensor.varAll (dflt : Order) (par : Option Scheduler) (zero : α) (add sub mul div : α → α → α) (ofNat : Nat → α)
    (t : Tensor α) : Res α :=
  t.reduce dflt par ⟨(zero, zero), fun acc x => (add acc.1 x, add acc.2 (mul x x)),
    fun p q => (add p.1 q.1, add p.2 q.2), fun acc =>
      let mean := div acc.1 (ofNat t.layout.size)
      sub (div acc.2 (ofNat t.layout.size)) (mul mean mean)⟩

/-- `device_cpu_serial/reduction.rs:243-260` `std_all` for a real type. -/
def Tensor.stdAll (dflt : Order) (par : Option Scheduler) (zero : α) (add sub mul div : α → α → α) (ofNat : Nat → α)
    (sqrt : α → α) (t : Tensor α) : Res α :=
  t.reduce dflt par ⟨(zero, zero), fun acc x => (add acc.1 x, add acc.2 (mul x x)),
    fun p q => (add p.1 q.1, add p.2 q.2), fun acc =>
      let mean := div acc.1 (ofNat t.layout.size)
      sqrt (sub (div acc.2 (ofNat t.layout.size)) (mul mean mean))⟩

/-- `device_cpu_serial/reduction.rs:296-304` `l2_norm_all` for a real type. -/
def Tensor.l2NormAll (dflt : Order) (par : Option Scheduler) (zero : α) (add mul : α → α → α) (sqrt : α → α)
    (t : Tensor α) : Res α :=
  t.reduce dflt par ⟨zero, fun acc x => add acc (mul x x), add, sqrt⟩

/-- `device_cpu_serial/reduction.rs:431-438` `all_all`. -/
def Tensor.allAll (dflt : Order) (par : Option Scheduler) (t : Tensor Bool) : Res Bool :=
  t.reduce dflt par ⟨true, and, and, id⟩

/-- `device_cpu_serial/reduction.rs:462-469` `any_all`. -/
def Tensor.anyAll (dflt : Order) (par : Option Scheduler) (t : Tensor Bool) : Res Bool :=
  t.reduce dflt par ⟨false, or, or, id⟩

/-- `device_cpu_serial/reduction.rs:494-501` `count_nonzero_all`. -/
def Tensor.countNonzeroAll (dflt : Order) (par : Option Scheduler) (isZero : α → Bool) (t : Tensor α) : Res Nat :=
  t.reduce dflt par ⟨0, fun acc x => if isZero x then acc else acc + 1, (· + ·), id⟩

/-- The step of `sum` of booleans (`device_cpu_serial/reduction.rs:623-626`). -/
def countTrue (acc : Nat) (x : Bool) : Nat := match x with | true => acc + 1 | false => acc

/-- `device_cpu_serial/reduction.rs:620-631` `sum_all` of booleans. -/
def Tensor.sumBoolAll (dflt : Order) (par : Option Scheduler) (t : Tensor Bool) : Res Nat :=
  t.reduce dflt par ⟨0, countTrue, (· + ·), id⟩

/-- `rstsr-core/src/tensor/reduction.rs:302-328` `allclose_all_f` and
`device_cpu_serial/reduction.rs:660-683`; `close` is `isclose` with its arguments,
`dev` the order of the device. -/
def allcloseAll (dflt dev : Order) (par : Option Scheduler) (close : α → β → Bool) (a : Tensor α) (b : Tensor β) :
    Res Bool := do
  let (la, lb) ← a.layout.broadcast b.layout dev
  if la.size = 0 ∨ lb.size = 0 then .error .invalidValue
  else
    let R : Reducer (α × β) Bool Bool := ⟨true, fun acc p => acc && close p.1 p.2, and, id⟩
    match par with
    | none => reduceAllBinary dflt R a.data la b.data lb
    | some s => reduceAllBinaryPar dflt s R a.data la b.data lb

end
end Rstsr
