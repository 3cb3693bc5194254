import Verif.Model.Kernel
import Verif.Spec.Concurrent
/-!
# Model of the parallel element-wise kernels (`rstsr-native-impl/src/cpu_rayon`)

`rayon` itself is not modelled in detail: a schedule says how its `bridge` splits a producer, and the parts
run concurrently under the interleaving semantics of `Spec/Concurrent.lean`. `pool` says whether a thread
pool is given. The source slices are shared references and no thread writes to them, so their elements are
looked up when the process is built; a failing lookup (`&a[i]` out of bounds) is the panic error. Cells of
the destination are accessed through a raw pointer, without a check.
-/
namespace Rstsr
open Spec (Order Proc)

/-- A schedule for two nested parallel loops: how the outer iterator is divided, and how the inner range of
the `t`-th item of a part is. -/
inductive Sched where
  | run (inner : Nat → Plan)
  | split (k : Nat) (left right : Sched)

def Sched.Fits : Sched → Nat → Nat → Prop
  | .run inner, _, n => ∀ t, (inner t).Fits n
  | .split k a b, m, n => k ≤ m ∧ a.Fits k n ∧ b.Fits (m - k) n

/-- A scheduler: the schedule it uses for an outer loop of `m` items with inner ranges of `n`. -/
abbrev Scheduler := Nat → Nat → Sched

/-- All its splits are within the ranges (`rayon` splits a producer in the middle). -/
def Scheduler.Fits (s : Scheduler) : Prop := ∀ m n, (s m n).Fits m n

section
variable {α β γ ι : Type}

/-- A sequential loop: `for_each` over a part. -/
def procLoop (g : ι → Res (Proc γ)) : List ι → Res (Proc γ)
  | [] => .ok .nil
  | x :: xs => do return .seq (← g x) (← procLoop g xs)

/-- `(0..n).into_par_iter().for_each(g)` and its parts. -/
def parRange (g : Nat → Res (Proc γ)) : Plan → List Nat → Res (Proc γ)
  | .run, xs => procLoop g xs
  | .split k p q, xs => do return .par (← parRange g p (xs.take k)) (← parRange g q (xs.drop k))

/-- The items of a part together with their number, for the inner schedules. -/
def numbered : Nat → List ι → List (Nat × ι)
  | _, [] => []
  | t, x :: xs => (t, x) :: numbered (t + 1) xs

/-- `rstsr-common/src/par_iter.rs:21-26` `split_at`, `66-69`, and `rayon`'s `for_each`: one layout iterator. -/
def parIter1 (g : Plan → Nat → Res (Proc γ)) : Sched → Iter → Res (Proc γ)
  | .run inner, it => do
    procLoop (fun p => g (inner p.1) p.2) (numbered 0 (← it.toList))
  | .split k p q, it => do
    let (l, r) ← it.splitAt k
    return .par (← parIter1 g p l) (← parIter1 g q r)

/-- `(iter_a, iter_b).into_par_iter().for_each(g)`: both iterators are split at the same place. -/
def parIter2 (g : Plan → Nat × Nat → Res (Proc γ)) : Sched → Iter → Iter → Res (Proc γ)
  | .run inner, a, b => do
    let xs ← a.toList
    let ys ← b.toList
    procLoop (fun p => g (inner p.1) p.2) (numbered 0 (xs.zip ys))
  | .split k p q, a, b => do
    let (la, ra) ← a.splitAt k
    let (lb, rb) ← b.splitAt k
    return .par (← parIter2 g p la lb) (← parIter2 g q ra rb)

/-- `(iter_a, iter_b, iter_c).into_par_iter().for_each(g)`. -/
def parIter3 (g : Plan → Nat × Nat × Nat → Res (Proc γ)) : Sched → Iter → Iter → Iter → Res (Proc γ)
  | .run inner, a, b, c => do
    let xs ← a.toList
    let ys ← b.toList
    let zs ← c.toList
    procLoop (fun p => g (inner p.1) p.2) (numbered 0 (xs.zip (ys.zip zs)))
  | .split k p q, a, b, c => do
    let (la, ra) ← a.splitAt k
    let (lb, rb) ← b.splitAt k
    let (lc, rc) ← c.splitAt k
    return .par (← parIter3 g p la lb lc) (← parIter3 g q ra rb rc)

/-- `par_iter.rs:87-120` `layout_col_major_dim_dispatch_par_1` (the ranks only choose types). -/
def dispatchPar1 (la : Layout) (g : Plan → Nat → Res (Proc γ)) (s : Scheduler) (n : Nat) : Res (Proc γ) := do
  let ia ← Iter.new .F la
  parIter1 g (s ia.len n) ia

/-- `par_iter.rs:122-162` `layout_col_major_dim_dispatch_par_2`. -/
def dispatchPar2 (la lb : Layout) (g : Plan → Nat × Nat → Res (Proc γ)) (s : Scheduler) (n : Nat) :
    Res (Proc γ) := do
  if la.ndim ≠ lb.ndim then .error .runtimeError
  else
    let ia ← Iter.new .F la
    let ib ← Iter.new .F lb
    parIter2 g (s (min ia.len ib.len) n) ia ib

/-- `par_iter.rs:164-208` `layout_col_major_dim_dispatch_par_3`. -/
def dispatchPar3 (la lb lc : Layout) (g : Plan → Nat × Nat × Nat → Res (Proc γ)) (s : Scheduler) (n : Nat) :
    Res (Proc γ) := do
  if la.ndim ≠ lb.ndim then .error .runtimeError
  else if la.ndim ≠ lc.ndim then .error .runtimeError
  else
    let ia ← Iter.new .F la
    let ib ← Iter.new .F lb
    let ic ← Iter.new .F lc
    parIter3 g (s (min ia.len (min ib.len ic.len)) n) ia ib ic

/-- `par_iter.rs:210-283` `layout_col_major_dim_dispatch_par_2diff`. -/
def dispatchPar2diff (la lb : Layout) (g : Plan → Nat × Nat → Res (Proc γ)) (s : Scheduler) (n : Nat) :
    Res (Proc γ) := do
  let ia ← Iter.new .F la
  let ib ← Iter.new .F lb
  parIter2 g (s (min ia.len ib.len) n) ia ib

/-- What a parallel kernel does: finish the storage serially, or start threads. -/
inductive Work (γ : Type) where
  | done (c : List γ)
  | threads (p : Proc γ)

/-- `cpu_rayon/op_with_func.rs:8` `PARALLEL_SWITCH`. -/
def opParSwitch : Nat := 4096
/-- `cpu_rayon/assignment.rs:9` `PARALLEL_SWITCH`. -/
def assignParSwitch : Nat := 16384

/-- One element: `f(&mut *c_ptr.add(i), &a[j])`. -/
def upd2 (a : List α) (f : γ → α → γ) (i j : Nat) : Res (Proc γ) := do
  let x ← readAt a j
  return .upd i fun v => f v x

/-- One element: `f(&mut *c_ptr.add(i), &a[j], &b[k])`. -/
def upd3 (a : List α) (b : List β) (f : γ → α → β → γ) (i j k : Nat) : Res (Proc γ) := do
  let x ← readAt a j
  let y ← readAt b k
  return .upd i fun v => f v x y

/-- The loop over a contiguous block: `(0..n).for_each` below the switch, `(0..n).into_par_iter().for_each`
from there on (`op_with_func.rs:48-68`). -/
def parBlock (n : Nat) (g : Nat → Res (Proc γ)) (inner : Plan) : Res (Proc γ) :=
  if n < opParSwitch then procLoop g (List.range n) else parRange g inner (List.range n)

/-- `cpu_rayon/op_with_func.rs:13-80` `op_mutc_refa_refb_func_cpu_rayon`. -/
def opMutcRefaRefbPar (dflt : Order) (pool : Bool) (s : Scheduler) (c : List γ) (lc : Layout) (a : List α) (la : Layout)
    (b : List β) (lb : Layout) (f : γ → α → β → γ) : Res (Work γ) :=
  if lc.size < opParSwitch ∨ pool = false then Work.done <$> opMutcRefaRefb dflt c lc a la b lb f
  else do
    let full ← Layout.toColMajorMany dflt [lc, la, lb] .K
    let (outer, n) := Layout.withContig full
    if n ≥ contigSwitch then
      match outer with
      | [lc, la, lb] => Work.threads <$> dispatchPar3 lc la lb (fun inner p =>
          parBlock n (fun t => upd3 a b f (p.1 + t) (p.2.1 + t) (p.2.2 + t)) inner) s n
      | _ => .error .panic
    else
      match full with
      | [lc, la, lb] => Work.threads <$> dispatchPar3 lc la lb (fun _ p => upd3 a b f p.1 p.2.1 p.2.2) s 1
      | _ => .error .panic

/-- `cpu_rayon/op_with_func.rs:214-276` `op_muta_refb_func_cpu_rayon`; the functions with a scalar operand,
`op_mutc_refa_numb_func_cpu_rayon` (82-146) and `op_mutc_numa_refb_func_cpu_rayon` (148-212), have the same
body with the scalar captured in `f`. -/
def opMutaRefbPar (dflt : Order) (pool : Bool) (s : Scheduler) (a : List γ) (la : Layout) (b : List α) (lb : Layout)
    (f : γ → α → γ) : Res (Work γ) :=
  if la.size < opParSwitch ∨ pool = false then Work.done <$> opMutaRefb dflt a la b lb f
  else do
    let full ← Layout.toColMajorMany dflt [la, lb] .K
    let (outer, n) := Layout.withContig full
    if n ≥ contigSwitch then
      match outer with
      | [la, lb] => Work.threads <$> dispatchPar2 la lb (fun inner p =>
          parBlock n (fun t => upd2 b f (p.1 + t) (p.2 + t)) inner) s n
      | _ => .error .panic
    else
      match full with
      | [la, lb] => Work.threads <$> dispatchPar2 la lb (fun _ p => upd2 b f p.1 p.2) s 1
      | _ => .error .panic

/-- `cpu_rayon/op_with_func.rs:337-390` `op_muta_func_cpu_rayon`; `op_muta_numb_func_cpu_rayon` (278-335)
has the same body with the scalar captured in `f`. -/
def opMutaPar (dflt : Order) (pool : Bool) (s : Scheduler) (a : List γ) (la : Layout) (f : γ → γ) : Res (Work γ) :=
  if la.size < opParSwitch ∨ pool = false then Work.done <$> opMuta dflt a la f
  else do
    let l ← la.toColMajor dflt .G
    let (contig, n) := Layout.withContig [l]
    if n ≥ contigSwitch then
      match contig with
      | [m] => Work.threads <$> dispatchPar1 m (fun inner i =>
          parBlock n (fun t => .ok (.upd (i + t) f)) inner) s n
      | _ => .error .panic
    else Work.threads <$> dispatchPar1 l (fun _ i => .ok (.upd i f)) s 1

/-- `cpu_rayon/assignment.rs:41-93` `assign_arbitary_cpu_rayon` and its variants; the contiguous case is
not parallel. -/
def assignArbitraryPar (dflt : Order) (pool : Bool) (s : Scheduler) (c : List γ) (lc : Layout) (a : List α) (la : Layout)
    (order : Order) (cast : α → γ) : Res (Work γ) :=
  if lc.size < assignParSwitch ∨ pool = false then Work.done <$> assignArbitrary dflt c lc a la order cast
  else
    let contig := match order with
      | .C => lc.cContig && la.cContig
      | .F => lc.fContig && la.fContig
    if contig then
      if lc.offset < 0 ∨ la.offset < 0 then .error .panic
      else Work.done <$> zipBlock a (fun _ x => cast x) lc.offset.toNat la.offset.toNat lc.size c
    else do
      let o := match order with
        | .C => IterOrder.C
        | .F => IterOrder.F
      let lc ← lc.toColMajor dflt o
      let la ← la.toColMajor dflt o
      Work.threads <$> dispatchPar2diff lc la (fun _ p => upd2 a (fun _ x => cast x) p.1 p.2) s 1

/-- `cpu_rayon/assignment.rs:122-171` `assign_cpu_rayon` and its variants; the inner loop is sequential. -/
def assignPar (dflt : Order) (pool : Bool) (s : Scheduler) (c : List γ) (lc : Layout) (a : List α) (la : Layout)
    (cast : α → γ) : Res (Work γ) :=
  if lc.size < assignParSwitch ∨ pool = false then Work.done <$> assign dflt c lc a la cast
  else do
    let full ← Layout.toColMajorMany dflt [lc, la] .K
    let (contig, n) := Layout.withContig full
    if n < contigSwitch then
      match full with
      | [lc, la] => Work.threads <$> dispatchPar2 lc la (fun _ p => upd2 a (fun _ x => cast x) p.1 p.2) s 1
      | _ => .error .panic
    else
      match contig with
      | [lc, la] => Work.threads <$> dispatchPar2 lc la (fun _ p =>
          procLoop (fun t => upd2 a (fun _ x => cast x) (p.1 + t) (p.2 + t)) (List.range n)) s n
      | _ => .error .panic

/-- `cpu_rayon/assignment.rs:173-225` `fill_cpu_rayon`, `fill_promote_cpu_rayon`. -/
def fillPar (dflt : Order) (pool : Bool) (s : Scheduler) (c : List γ) (lc : Layout) (v : γ) : Res (Work γ) :=
  if lc.size < assignParSwitch ∨ pool = false then Work.done <$> fill dflt c lc v
  else do
    let l ← lc.toColMajor dflt .G
    let (contig, n) := Layout.withContig [l]
    if n < contigSwitch then Work.threads <$> dispatchPar1 l (fun _ i => .ok (.upd i fun _ => v)) s 1
    else
      match contig with
      | [m] => Work.threads <$> dispatchPar1 m (fun _ i =>
          procLoop (fun t => .ok (.upd (i + t) fun _ => v)) (List.range n)) s n
      | _ => .error .panic

end
end Rstsr
