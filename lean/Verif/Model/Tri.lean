import Verif.Model.Copy
import Verif.Model.Matmul
import Verif.Model.ReduceAxes
import Verif.Spec.Tri
/-!
# Model of the triangle functions

`rstsr-native-impl/src/cpu_serial/op_tri.rs`, `cpu_rayon/op_tri.rs`,
`rstsr-core/src/tensor/creation.rs` (`tril`, `triu`) and `rstsr-core/src/tensor/operators/op_tri.rs`
(`pack_tri`, `unpack_tri`). `to_dim`, `into_dim` between static and dynamic ranks keep the layout and are
dropped; here they always have the matching rank.
-/
namespace Rstsr
open Spec (Order Proc UpLo Symm)

section
variable {α : Type}

/-- `raw[layout.index_uncheck(&[i, j]) as usize] = T::zero()` (`op_tri.rs:547`, `580`). -/
def zeroCell (zero : α) (l : Layout) (i j : Nat) (raw : List α) : Res (List α) := do
  modifyInt raw (← l.indexUncheck [i, j]) (fun _ => zero)

/-- `op_tri.rs:538-552` `tril_ix2_cpu_serial`. -/
def trilIx2 (zero : α) (raw : List α) (l : Layout) (k : Int) : Res (List α) :=
  runAll (fun (i : Nat) raw =>
    let start := (max ((i : Int) + k + 1) 0).toNat
    runAll (fun j raw => zeroCell zero l i j raw) (List.range' start (l.dimAt 1 - start)) raw) (List.range (l.dimAt 0)) raw

/-- `op_tri.rs:572-586` `triu_ix2_cpu_serial`; the end of the inner loop is not limited by the number of columns. -/
def triuIx2 (zero : α) (raw : List α) (l : Layout) (k : Int) : Res (List α) :=
  runAll (fun (i : Nat) raw =>
    runAll (fun j raw => zeroCell zero l i j raw) (List.range (max ((i : Int) + k) 0).toNat) raw) (List.range (l.dimAt 0)) raw

/-- `op_tri.rs:524-536` `tril_cpu_serial`. Both CPU devices call it
(`device_cpu_serial/creation.rs:120-125`, `feature_rayon/auto_impl/creation.rs:106-111`). -/
def trilCpu (zero : α) (raw : List α) (l : Layout) (k : Int) : Res (List α) := do
  let (rest, m) ← l.dimSplitAt (-2)
  runAll (fun offset raw => trilIx2 zero raw (m.setOffset offset) k) (← colItems rest) raw

/-- `op_tri.rs:558-570` `triu_cpu_serial`, called by both CPU devices. -/
def triuCpu (zero : α) (raw : List α) (l : Layout) (k : Int) : Res (List α) := do
  let (rest, m) ← l.dimSplitAt (-2)
  runAll (fun offset raw => triuIx2 zero raw (m.setOffset offset) k) (← colItems rest) raw

namespace Tensor

/-- `creation.rs:1505-1520, 1541-1554` `tril_f` of an owned or mutably borrowed tensor and `k`; without `k` it is 0. -/
def tril (zero : α) (a : Tensor α) (k : Int) : Res (Tensor α) := do
  .ok ⟨← trilCpu zero a.data a.layout k, a.layout⟩

/-- `creation.rs:1694-1709, 1730-1743` `triu_f` of an owned or mutably borrowed tensor. -/
def triu (zero : α) (a : Tensor α) (k : Int) : Res (Tensor α) := do
  .ok ⟨← triuCpu zero a.data a.layout k, a.layout⟩

/-- `manipulation/to_contig.rs:105-118` `into_contig_f`; its `into_owned` panics on errors. -/
def intoContig (dflt : Order) (a : Tensor α) (order : Order) : Res (Tensor α) := do
  let c ← changeContig dflt a order
  match intoOwned dflt c with
  | .ok c => .ok c
  | .error _ => .error .panic

/-- `creation.rs:1458-1480` `tril_f` of a view (1573-1611: of a reference). -/
def trilView (dflt dev : Order) (zero : α) (a : Tensor α) (k : Int) : Res (Tensor α) := do
  tril zero (← intoContig dflt a dev) k

/-- `creation.rs:1647-1669` `triu_f` of a view (1762-1800: of a reference). -/
def triuView (dflt dev : Order) (zero : α) (a : Tensor α) (k : Int) : Res (Tensor α) := do
  triu zero (← intoContig dflt a dev) k

end Tensor

/-! ## Packed triangles

The sources are shared references that nobody writes, so a kernel is modelled by the list of its writes
`a[position].write(value)` in their order, and a failing lookup is the panic error. -/

/-- `for i in 0..n { for j in 0..=i { … } }`. -/
def loopL (n : Nat) : List (Nat × Nat) := (List.range n).flatMap fun i => (List.range (i + 1)).map fun j => (i, j)

/-- `for i in 0..n { for j in i..n { … } }`. -/
def loopU (n : Nat) : List (Nat × Nat) := (List.range n).flatMap fun i => (List.range' i (n - i)).map fun j => (i, j)

/-- The pairs of a triangle in the order of the kernels. -/
def triPairs : UpLo → Nat → List (Nat × Nat)
  | .U, n => loopU n
  | .L, n => loopL n

/-- `op_tri.rs:8-23` `inner_pack_tril_c_contig`, from the row `i` of `rows` on: `pa` and `pb` are where the rests
of the two slices begin. `split_at` panics beyond the end. -/
def packTrilC (lenA : Nat) (b : List α) (n : Nat) : List Nat → Nat → Nat → Res (List (Nat × α))
  | [], _, _ => .ok []
  | i :: rows, pa, pb =>
    if lenA < pa + (i + 1) ∨ b.length < pb + n then .error .panic
    else do
      let w ← (List.range (min (i + 1) n)).mapM fun (j : Nat) => do pure (pa + j, ← readAt b (pb + j))
      let ws ← packTrilC lenA b n rows (pa + (i + 1)) (pb + n)
      return w ++ ws

/-- `op_tri.rs:26-39` `inner_pack_tril_general`, `58-71` `inner_pack_triu_general`: `idx_a` counts the pairs. -/
def packGeneral (pairs : List (Nat × Nat)) (la : Layout) (b : List α) (lb : Layout) : Res (List (Nat × α)) :=
  pairs.zipIdx.mapM fun (p : (Nat × Nat) × Nat) => do
    let locB ← toUsize (← lb.indexUncheck [p.1.1, p.1.2])
    let locA ← toUsize (← la.indexUncheck [p.2])
    pure (locA, ← readAt b locB)

/-- `op_tri.rs:42-55` `inner_pack_triu_c_contig`. -/
def packTriuC (n : Nat) (offA : Nat) (b : List α) (offB : Nat) : Res (List (Nat × α)) :=
  (loopU n).zipIdx.mapM fun (p : (Nat × Nat) × Nat) => do
    pure (offA + p.2, ← readAt b (offB + (p.1.1 * n + p.1.2)))

/-- The kernel for one matrix (`op_tri.rs:107-143`): `cc` says that both inner layouts are row-contiguous.
`&a[offset..]` panics beyond the end. -/
def packOne (uplo : UpLo) (cc : Bool) (lenA : Nat) (la : Layout) (b : List α) (lb : Layout) (n offA offB : Nat) :
    Res (List (Nat × α)) :=
  match uplo, cc with
  | .U, true => if lenA < offA ∨ b.length < offB then .error .panic else packTriuC n offA b offB
  | .U, false => packGeneral (loopU n) (la.setOffset offA) b (lb.setOffset offB)
  | .L, true => if lenA < offA ∨ b.length < offB then .error .panic else packTrilC lenA b n (List.range n) offA offB
  | .L, false => packGeneral (loopL n) (la.setOffset offA) b (lb.setOffset offB)

/-- The writes of one thread, in order, into memory that was not initialized. -/
def writeProc : List (Nat × α) → Proc (Option α)
  | [] => .nil
  | w :: ws => .seq (.upd w.1 fun _ => some w.2) (writeProc ws)

/-- The writes of a serial kernel; a position out of bounds panics. -/
def writeAll (ws : List (Nat × α)) (a : List (Option α)) : Res (List (Option α)) :=
  runAll (fun (w : Nat × α) a => modifyAt a w.1 fun _ => some w.2) ws a

/-- One kernel after the other for all matrices, in the order of the two iterators. -/
def triSerial (one : Nat → Nat → Res (List (Nat × α))) (ra rb : Layout) (a : List (Option α)) : Res (List (Option α)) := do
  runAll (fun (p : Nat × Nat) a => do writeAll (← one p.1 p.2) a) ((← colItems ra).zip (← colItems rb)) a

/-- The matrices distributed over threads. -/
def triPar (one : Nat → Nat → Res (List (Nat × α))) (ra rb : Layout) (s : Scheduler) : Res (Proc (Option α)) := do
  let ia ← Iter.new .F ra
  let ib ← Iter.new .F rb
  parIter2 (fun _ p => writeProc <$> one p.1 p.2) (s (min ia.len ib.len) 0) ia ib

/-- `cpu_serial/op_tri.rs:73-147` `pack_tri_cpu_serial` up to the loops, and the same in
`cpu_rayon/op_tri.rs:7-47`: the two batch layouts and the kernel for one matrix. -/
def packPlan (dflt : Order) (lenA : Nat) (la : Layout) (b : List α) (lb : Layout) (uplo : UpLo) :
    Res ((Nat → Nat → Res (List (Nat × α))) × Layout × Layout) := do
  let (laR, laI) ← la.dimSplitAt (-1)
  let (lbR, lbI) ← lb.dimSplitAt (-2)
  match ← Layout.toColMajorMany dflt [laR, lbR] .K with
  | [ra, rb] =>
    let n := lbI.dimAt 0
    let cc := laI.cContig && lbI.cContig
    return (packOne uplo cc lenA laI b lbI n, ra, rb)
  | _ => .error .panic

/-- The operations of a `ComplexFloat` that are used. -/
structure TriOps (α : Type) where
  zero : α
  neg : α → α
  conj : α → α

/-- The writes for the pair `(i, j)` of a triangle and its packed element (`op_tri.rs:153-442`): in the four
kernels `inner_unpack_tri{l,u}_{c_contig,general}` the antisymmetric cases write zero on the diagonal without
reading it. `pos` gives positions in the matrix, `get` the packed elements. -/
def unpackPair (O : TriOps α) (symm : Symm) (pos : Nat → Nat → Res Nat) (get : Nat → Res α) (i j k : Nat) :
    Res (List (Nat × α)) :=
  match symm with
  | .Sy => do
    let v ← get k
    return [(← pos i j, v), (← pos j i, v)]
  | .He => do
    let v ← get k
    return [(← pos i j, v), (← pos j i, O.conj v)]
  | .Ay =>
    if i = j then do return [(← pos i i, O.zero)]
    else do
      let v ← get k
      return [(← pos i j, v), (← pos j i, O.neg v)]
  | .Ah =>
    if i = j then do return [(← pos i i, O.zero)]
    else do
      let v ← get k
      return [(← pos i j, v), (← pos j i, O.neg (O.conj v))]
  | .N => do
    let v ← get k
    return [(← pos i j, v)]

/-- The four unpacking kernels; `idx_b` counts the pairs. -/
def unpackOne (O : TriOps α) (uplo : UpLo) (symm : Symm) (cc : Bool) (lenA : Nat) (la : Layout) (b : List α) (lb : Layout)
    (n offA offB : Nat) : Res (List (Nat × α)) :=
  if cc then
    if lenA < offA ∨ b.length < offB then .error .panic
    else List.flatten <$> (triPairs uplo n).zipIdx.mapM fun (p : (Nat × Nat) × Nat) =>
      unpackPair O symm (fun i j => .ok (offA + (i * n + j))) (fun k => readAt b (offB + k)) p.1.1 p.1.2 p.2
  else
    let la := la.setOffset offA
    let lb := lb.setOffset offB
    List.flatten <$> (triPairs uplo n).zipIdx.mapM fun (p : (Nat × Nat) × Nat) =>
      unpackPair O symm (fun i j => do toUsize (← la.indexUncheck [i, j]))
        (fun k => do readAt b (← toUsize (← lb.indexUncheck [k]))) p.1.1 p.1.2 p.2

/-- `cpu_serial/op_tri.rs:444-518` `unpack_tri_cpu_serial`, `cpu_rayon/op_tri.rs:107-150`, up to the loops. -/
def unpackPlan (dflt : Order) (O : TriOps α) (lenA : Nat) (la : Layout) (b : List α) (lb : Layout) (uplo : UpLo) (symm : Symm) :
    Res ((Nat → Nat → Res (List (Nat × α))) × Layout × Layout) := do
  let (laR, laI) ← la.dimSplitAt (-2)
  let (lbR, lbI) ← lb.dimSplitAt (-1)
  match ← Layout.toColMajorMany dflt [laR, lbR] .K with
  | [ra, rb] =>
    let n := laI.dimAt 0
    let cc := laI.cContig && lbI.cContig
    return (unpackOne O uplo symm cc lenA laI b lbI n, ra, rb)
  | _ => .error .panic

/-- `rstsr-common/src/flags.rs` `FlagUpLo::flip`. -/
def flipUplo : UpLo → UpLo
  | .U => .L
  | .L => .U

/-- `op_tri.rs:56-64`, `146-154`: the layout of the output. -/
def triOut (dev : Order) (lb : Layout) (shape : List Nat) : Layout :=
  match lb.cPrefer, lb.fPrefer with
  | true, false => Layout.newCContig shape 0
  | false, true => Layout.newFContig shape 0
  | _, _ => match dev with
    | .C => Layout.newCContig shape 0
    | .F => Layout.newFContig shape 0

/-- Allocate, compute, `assume_init`, `Tensor::new_f` (`op_tri.rs:66-71`, `156-161`). `par = none` is the serial
device (`device_cpu_serial/operators/op_tri.rs`), `some s` the parallel one (`feature_rayon/auto_impl/op_tri.rs`). -/
def triFinish (par : Option Scheduler) (la : Layout)
    (plan : Nat → Res ((Nat → Nat → Res (List (Nat × α))) × Layout × Layout)) : Res (AxesRun α (Tensor α)) := do
  let (_, n) ← la.boundsIndex
  let (one, ra, rb) ← plan n.toNat
  let fin := fun (c : List (Option α)) => do
    let c ← assumeInit c
    Tensor.newF c la
  match par with
  | none =>
    let c ← triSerial one ra rb (uninit n)
    return .done (← fin c)
  | some s => return .threads (← triPar one ra rb s) n.toNat fin

/-- Integer square root: `sqrt().floor()` in `op_tri.rs:116, 133`. The code computes it in `f64`; see `DESIGN.md`. -/
def isqrt : Nat → Nat
  | 0 => 0
  | m + 1 => if (isqrt m + 1) * (isqrt m + 1) ≤ m + 1 then isqrt m + 1 else isqrt m

namespace Tensor

/-- `tensor/operators/op_tri.rs:13-71` `pack_tri_f`. -/
def packTri (dflt dev : Order) (par : Option Scheduler) (t : Tensor α) (uplo : UpLo) : Res (AxesRun α (Tensor α)) := do
  let lb := t.layout
  match dev with
  | .C =>
    let (rest, inner) ← lb.dimSplitAt (-2)
    if inner.dimAt 0 ≠ inner.dimAt 1 then .error .invalidLayout
    else
      let n := inner.dimAt 0
      let la := triOut dev lb (rest.shape ++ [n * (n + 1) / 2])
      triFinish par la fun lenA => packPlan dflt lenA la t.data lb uplo
  | .F =>
    let (inner, rest) ← lb.dimSplitAt 2
    if inner.dimAt 0 ≠ inner.dimAt 1 then .error .invalidLayout
    else
      let n := inner.dimAt 0
      let la := triOut dev lb ([n * (n + 1) / 2] ++ rest.shape)
      triFinish par la fun lenA => packPlan dflt lenA la.reverseAxes t.data lb.reverseAxes (flipUplo uplo)

/-- `tensor/operators/op_tri.rs:105-162` `unpack_tri_f`. -/
def unpackTri (dflt dev : Order) (par : Option Scheduler) (O : TriOps α) (t : Tensor α) (uplo : UpLo) (symm : Symm) :
    Res (AxesRun α (Tensor α)) := do
  let lb := t.layout
  match dev with
  | .C =>
    let (rest, inner) ← lb.dimSplitAt (-1)
    let m := inner.dimAt 0
    let n := isqrt (2 * m)
    if n * (n + 1) / 2 ≠ m then .error .invalidLayout
    else
      let la := triOut dev lb (rest.shape ++ [n, n])
      triFinish par la fun lenA => unpackPlan dflt O lenA la t.data lb uplo symm
  | .F =>
    let (inner, rest) ← lb.dimSplitAt 1
    let m := inner.dimAt 0
    let n := isqrt (2 * m)
    if n * (n + 1) / 2 ≠ m then .error .invalidLayout
    else
      let la := triOut dev lb ([n, n] ++ rest.shape)
      triFinish par la fun lenA => unpackPlan dflt O lenA la.reverseAxes t.data lb.reverseAxes (flipUplo uplo) symm

end Tensor
end
end Rstsr
