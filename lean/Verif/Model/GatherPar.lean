import Verif.Model.Gather
import Verif.Model.Parallel
/-!
# Model of gathering functions on the parallel device

Files: `rstsr-native-impl/src/cpu_rayon/adv_indexing.rs`, `rstsr-core/src/feature_rayon/auto_impl/adv_indexing.rs`,
`rstsr-core/src/tensor/adv_indexing.rs`, `rstsr-core/src/tensor/creation_from_tensor.rs`. `pool` says whether
`get_current_pool` (`feature_rayon/device.rs:123-128`) gives a pool, `exec` runs the threads of a process on a
storage and waits for them (`pool.install`).
-/
namespace Rstsr
open Spec (Order Proc)

section
variable {α γ : Type}

/-- A kernel that has started threads returns when they have finished. -/
def Work.finish (exec : Proc γ → List γ → Res (List γ)) (c : List γ) : Work γ → Res (List γ)
  | .done c' => .ok c'
  | .threads p => exec p c

/-- `cpu_rayon/assignment.rs:122-171` `assign_cpu_rayon`, until it returns. -/
def assignRun (dflt : Order) (pool : Bool) (s : Scheduler) (exec : Proc γ → List γ → Res (List γ)) (c : List γ)
    (lc : Layout) (a : List α) (la : Layout) (w : α → γ) : Res (List γ) := do
  (← assignPar dflt pool s c lc a la w).finish exec c

/-- `adv_indexing.rs:46-70` (native, `cpu_rayon`): the loop over the indices for one position of the other
axes; one thread runs it from the start to the end. The two branches differ only in leaving out a factor 1. -/
def selectRowPar (a : List α) (str : Int) (ids : List Nat) (w : α → γ) (p : Nat × Nat) : Res (Proc γ) :=
  procLoop (fun k =>
    let j := (p.2 : Int) + str * (ids.getD k 0 : Nat)
    if j < 0 then .error .panic else upd2 a (fun _ x => w x) (p.1 + k) j.toNat) (List.range ids.length)

/-- `rstsr-native-impl/src/cpu_rayon/adv_indexing.rs:3-77` `index_select_cpu_rayon`; `w` is `write`. -/
def indexSelectKernelPar (dflt : Order) (pool : Bool) (s : Scheduler) (exec : Proc γ → List γ → Res (List γ))
    (c : List γ) (lc : Layout) (a : List α) (la : Layout) (axis : Nat) (ids : List Nat) (w : α → γ) : Res (List γ) :=
  if pool = false then indexSelectKernel dflt c lc a la axis ids w
  else if lc.ndim ≠ la.ndim then .error .invalidLayout
  else if lc.ndim ≤ axis then .error .axisError
  else if (lc.axes.getD axis default).dim ≠ ids.length then .error .invalidLayout
  else if (la.axes.getD axis default).dim ≤ ids.foldl max 0 then .error .indexError
  else if (lc.axes.getD axis default).str = 1 then do
    let lcRest ← lc.dimChop axis
    let laRest ← la.dimChop axis
    match ← Layout.toColMajorMany dflt [lcRest, laRest] .K with
    | [mc, ma] => do
      let p ← dispatchPar2 mc ma (fun _ p => selectRowPar a (la.axes.getD axis default).str ids w p) s ids.length
      exec p c
    | _ => .error .panic
  else
    runAll (fun (k : Nat) c => do
      let lcSel ← lc.dimSelect axis k
      let laSel ← la.dimSelect axis (ids.getD k 0 : Nat)
      assignRun dflt pool s exec c lcSel a laSel w) (List.range ids.length) c

end

namespace Tensor
variable {α : Type}

/-- `rstsr-core/src/tensor/adv_indexing.rs:10-48` `index_select_f` (and `take_f`) with the parallel device. -/
def indexSelectPar (dflt dev : Order) (pool : Bool) (s : Scheduler)
    (exec : Proc (Option α) → List (Option α) → Res (List (Option α))) (t : Tensor α) (axis : Int)
    (indices : List Int) : Res (Tensor α) := do
  let ax ← checkAxis axis t.layout.ndim
  let ids ← indices.mapM (checkIndex (t.layout.axes.getD ax default).dim)
  let lc := Layout.newContig dev (t.layout.shape.set ax ids.length)
  let c ← indexSelectKernelPar dflt pool s exec (uninit lc.size) lc t.data t.layout ax ids some
  let c ← assumeInit c
  newF c lc

/-- `rstsr-core/src/tensor/adv_indexing.rs:142-165` `bool_select_f` with the parallel device. -/
def boolSelectPar (dflt dev : Order) (pool : Bool) (s : Scheduler)
    (exec : Proc (Option α) → List (Option α) → Res (List (Option α))) (t : Tensor α) (axis : Int)
    (mask : List Bool) : Res (Tensor α) :=
  indexSelectPar dflt dev pool s exec t axis ((mask.zipIdx.filter (·.1)).map fun p => (p.2 : Int))

/-- `creation_from_tensor.rs:374-382`, the assignment loop of `concat_f` with the parallel device. -/
def concatLoopPar (dflt : Order) (pool : Bool) (s : Scheduler)
    (exec : Proc (Option α) → List (Option α) → Res (List (Option α))) (lc : Layout) (axis : Nat) :
    List (Tensor α) → Nat → List (Option α) → Res (List (Option α))
  | [], _, c => .ok c
  | t :: ts, off, c => do
    let d := (t.layout.axes.getD axis default).dim
    let m ← lc.dimNarrow axis ⟨some off, some (off + d : Nat), none⟩
    let c ← assignRun dflt pool s exec c m t.data t.layout some
    concatLoopPar dflt pool s exec lc axis ts (off + d) c

/-- `creation_from_tensor.rs:330-386` `concat_f` with the parallel device. -/
def concatPar (dflt dev : Order) (pool : Bool) (s : Scheduler)
    (exec : Proc (Option α) → List (Option α) → Res (List (Option α))) (ts : List (Tensor α)) (axis : Int) :
    Res (Tensor α) :=
  match ts with
  | [] => .error .invalidValue
  | t0 :: _ => do
    if t0.layout.ndim = 0 then .error .invalidLayout
    else if ts.any (fun t => t.layout.ndim ≠ t0.layout.ndim) then .error .invalidLayout
    else
      let ax ← checkAxis axis t0.layout.ndim
      if ts.any (fun t => t.layout.shape.eraseIdx ax ≠ t0.layout.shape.eraseIdx ax) then .error .invalidLayout
      else
        let n := (ts.map fun t => (t.layout.axes.getD ax default).dim).sum
        let lc := Layout.newContig dev ((t0.layout.shape.eraseIdx ax).insertIdx ax n)
        let c ← concatLoopPar dflt pool s exec lc ax ts 0 (uninit lc.size)
        let c ← assumeInit c
        .ok ⟨c, lc⟩

end Tensor
end Rstsr
