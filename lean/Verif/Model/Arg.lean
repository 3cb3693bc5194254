import Verif.Model.Reduce
/-!
# Model of the arg-reductions (`reduce_*_arg_*` in `rstsr-native-impl/src/cpu_serial/reduction.rs` and
`cpu_rayon/reduction.rs`; `argmin`, `argmax` and their unraveled versions)
-/
namespace Rstsr
open Spec (Order)

section
variable {α : Type}

/-- `cur_idx < acc_idx` on `[usize; N]` or `Vec<usize>`: lexicographic. -/
def lexLt : List Nat → List Nat → Bool
  | _, [] => false
  | [], _ :: _ => true
  | i :: is, j :: js => i < j || (i == j && lexLt is js)

/-- The two closures of an arg-reduction: is the value accepted over the best one so far, is it equal to it. -/
structure ArgCmp (α : Type) where
  comp : Option α → α → Option Bool
  eq : Option α → α → Option Bool

/-- `cpu_serial/reduction.rs:438-470` and `cpu_rayon/reduction.rs:460-489` `fold_func`, on a value already read. -/
def ArgCmp.pickVal (F : ArgCmp α) (acc : Option (List Nat × α)) (idx : List Nat) (v : α) : Option (List Nat × α) :=
  match F.comp (acc.map Prod.snd) v with
  | some true => some (idx, v)
  | some false =>
    match F.eq (acc.map Prod.snd) v with
    | some true =>
      match acc with
      | some (accIdx, w) => if lexLt idx accIdx then some (idx, v) else some (accIdx, w)
      | none => some (idx, v)
    | _ => acc
  | none => acc

/-- `fold_func` including `a[cur_offset]`. -/
def ArgCmp.fold (F : ArgCmp α) (a : List α) (acc : Option (List Nat × α)) (p : List Nat × Nat) :
    Res (Option (List Nat × α)) := do
  let v ← readAt a p.2
  return F.pickVal acc p.1 v

/-- `cpu_serial/reduction.rs:425-478` `reduce_all_unraveled_arg_cpu_serial`. -/
def reduceAllUnraveledArg (F : ArgCmp α) (a : List α) (la : Layout) : Res (List Nat) := do
  if la.size = 0 then .error .invalidLayout
  else
    let it ← Iter.new .C la
    let xs ← collectIndexed (it.len + 1) it
    match ← foldRes (F.fold a) none xs with
    | none => .error .invalidValue
    | some (idx, _) => return idx

/-- `cpu_rayon/reduction.rs:490-497` `sum_func`: the value of the second partial result is read again. -/
def ArgCmp.sum (F : ArgCmp α) (a : List α) (la : Layout) :
    Option (List Nat × α) → Option (List Nat × α) → Res (Option (List Nat × α))
  | some (i, v), some (j, _) => F.fold a (some (i, v)) (j, (la.addr j).toNat)
  | some (i, v), none => .ok (some (i, v))
  | none, some (j, w) => .ok (some (j, w))
  | none, none => .ok none

/-- `iter_a.into_par_iter().fold(|| None, fold_func).reduce(|| None, sum_func)`: a part is folded from the
start and combined with the identity, parts are combined in order. -/
def ArgCmp.par (F : ArgCmp α) (a : List α) (la : Layout) : Plan → Iter → Res (Option (List Nat × α))
  | .run, it => do
    let xs ← collectIndexed (it.len + 1) it
    F.sum a la none (← foldRes (F.fold a) none xs)
  | .split k p q, it => do
    let (l, r) ← it.splitAt k
    F.sum a la (← F.par a la p l) (← F.par a la q r)

/-- A plan for every length of an iterator. -/
abbrev Planner := Nat → Plan
def Planner.Fits (s : Planner) : Prop := ∀ n, (s n).Fits n

/-- `cpu_rayon/reduction.rs:440-510` `reduce_all_unraveled_arg_cpu_rayon`. -/
def reduceAllUnraveledArgPar (s : Planner) (F : ArgCmp α) (a : List α) (la : Layout) : Res (List Nat) := do
  if la.size = 0 then .error .invalidLayout
  else if la.size < reduceParSwitch then reduceAllUnraveledArg F a la
  else
    let it ← Iter.new .C la
    match ← F.par a la (s it.len) it with
    | none => .error .invalidValue
    | some (idx, _) => return idx

/-- The serial device, or the parallel one with a planner. -/
def unraveledArgAll (par : Option Planner) (F : ArgCmp α) (a : List α) (la : Layout) : Res (List Nat) :=
  match par with
  | none => reduceAllUnraveledArg F a la
  | some s => reduceAllUnraveledArgPar s F a la

/-- `pseudo_shape.c()` / `.f()` and `index_uncheck` (`cpu_serial/reduction.rs:549-554`). -/
def ravelIndex (o : Order) (shape idx : List Nat) : Nat :=
  ((match o with | .C => Layout.newCContig shape 0 | .F => Layout.newFContig shape 0).addr idx).toNat

/-- `cpu_serial/reduction.rs:535-555` `reduce_all_arg_cpu_serial`, `cpu_rayon/reduction.rs:577-598`. -/
def argAll (par : Option Planner) (o : Order) (F : ArgCmp α) (a : List α) (la : Layout) : Res Nat := do
  let idx ← unraveledArgAll par F a la
  return ravelIndex o la.shape idx

/-- All items of `IterLayoutRowMajor::new(l)`. -/
def rowItems (l : Layout) : Res (List Nat) := do (← Iter.new .C l).toList

/-- `cpu_serial/reduction.rs:480-533` `reduce_axes_unraveled_arg_cpu_serial`. -/
def reduceAxesUnraveledArg (dflt : Order) (F : ArgCmp α) (a : List α) (la : Layout) (axes : List Int) :
    Res (List (List Nat) × Layout × Layout) := do
  if la.size = 0 then .error .invalidLayout
  else
    let (lax, lrest) ← la.dimSplitAxes axes
    let lout ← lrest.forArrayCopy dflt .K
    match ← Layout.toColMajorMany dflt [lout, lrest] .K with
    | [mo, mr] =>
      let xs ← rowItems mo
      let ys ← rowItems mr
      let out ← runAll (fun (p : Nat × Nat) (c : List (Option (List Nat))) => do
        let idx ← reduceAllUnraveledArg F a ⟨lax.axes, p.2⟩
        modifyAt c p.1 fun _ => some idx) (xs.zip ys) (uninit (lout.size : Int))
      return (← assumeInit out, lax, lout)
    | _ => .error .panic

/-- `cpu_rayon/reduction.rs:512-575` `reduce_axes_unraveled_arg_cpu_rayon`. The output cells are distinct
and each is written by one item, so the items are taken in order here; the inner reduction is parallel with
its own planner. -/
def reduceAxesUnraveledArgPar (dflt : Order) (s : Planner) (F : ArgCmp α) (a : List α) (la : Layout) (axes : List Int) :
    Res (List (List Nat) × Layout × Layout) := do
  if la.size < reduceParSwitch then reduceAxesUnraveledArg dflt F a la axes
  else
    let (lax, lrest) ← la.dimSplitAxes axes
    let lax ← lax.toColMajor dflt .K
    let lout ← lrest.forArrayCopy dflt .K
    match ← Layout.toColMajorMany dflt [lout, lrest] .K with
    | [mo, mr] =>
      let xs ← rowItems mo
      let ys ← rowItems mr
      let out ← runAll (fun (p : Nat × Nat) (c : List (Option (List Nat))) => do
        let idx ← reduceAllUnraveledArgPar s F a ⟨lax.axes, p.2⟩
        modifyAt c p.1 fun _ => some idx) (xs.zip ys) (uninit (lout.size : Int))
      return (← assumeInit out, lax, lout)
    | _ => .error .panic

def unraveledArgAxes (dflt : Order) (par : Option Planner) (F : ArgCmp α) (a : List α) (la : Layout) (axes : List Int) :
    Res (List (List Nat) × Layout × Layout) :=
  match par with
  | none => reduceAxesUnraveledArg dflt F a la axes
  | some s => reduceAxesUnraveledArgPar dflt s F a la axes

/-- `cpu_serial/reduction.rs:557-590` `reduce_axes_arg_cpu_serial`, `cpu_rayon/reduction.rs:600-633`. -/
def argAxes (dflt : Order) (par : Option Planner) (o : Order) (F : ArgCmp α) (a : List α) (la : Layout)
    (axes : List Int) : Res (List Nat × Layout) := do
  let (idx, lax, lout) ← unraveledArgAxes dflt par F a la axes
  return (idx.map (ravelIndex o lax.shape), lout)

/-! ## The operations -/

/-- The closures of `argmin` (`device_cpu_serial/reduction.rs:336-349`). -/
def minCmp (lt eq : α → α → Bool) : ArgCmp α where
  comp x y := match x with
    | some x => some (lt y x)
    | none => some true
  eq x y := match x with
    | some x => some (eq y x)
    | none => some false

/-- The closures of `argmax` (`device_cpu_serial/reduction.rs:387-400`); `lt x y` is `y > x`. -/
def maxCmp (lt eq : α → α → Bool) : ArgCmp α where
  comp x y := match x with
    | some x => some (lt x y)
    | none => some true
  eq x y := match x with
    | some x => some (eq y x)
    | none => some false

/-- `unraveled_argmin_all` (`device_cpu_serial/reduction.rs:548-565`, `tensor/reduction.rs:6-13`). -/
def Tensor.unraveledArgminAll (par : Option Planner) (lt eq : α → α → Bool) (t : Tensor α) : Res (List Nat) :=
  unraveledArgAll par (minCmp lt eq) t.data t.layout

/-- `unraveled_argmax_all` (`device_cpu_serial/reduction.rs:597-614`). -/
def Tensor.unraveledArgmaxAll (par : Option Planner) (lt eq : α → α → Bool) (t : Tensor α) : Res (List Nat) :=
  unraveledArgAll par (maxCmp lt eq) t.data t.layout

/-- `argmin_all` (`device_cpu_serial/reduction.rs:354-371`). -/
def Tensor.argminAll (par : Option Planner) (lt eq : α → α → Bool) (t : Tensor α) : Res Nat :=
  argAll par .C (minCmp lt eq) t.data t.layout

/-- `argmax_all` (`device_cpu_serial/reduction.rs:405-422`). -/
def Tensor.argmaxAll (par : Option Planner) (lt eq : α → α → Bool) (t : Tensor α) : Res Nat :=
  argAll par .C (maxCmp lt eq) t.data t.layout

/-- `unraveled_argmin_axes` with `Tensor::new_f` on the result (`tensor/reduction.rs:15-40`). -/
def Tensor.unraveledArgminAxes (dflt : Order) (par : Option Planner) (lt eq : α → α → Bool) (t : Tensor α)
    (axes : List Int) : Res (Tensor (List Nat)) := do
  let (out, _, lout) ← unraveledArgAxes dflt par (minCmp lt eq) t.data t.layout axes
  Tensor.newF out lout

/-- `unraveled_argmax_axes`. -/
def Tensor.unraveledArgmaxAxes (dflt : Order) (par : Option Planner) (lt eq : α → α → Bool) (t : Tensor α)
    (axes : List Int) : Res (Tensor (List Nat)) := do
  let (out, _, lout) ← unraveledArgAxes dflt par (maxCmp lt eq) t.data t.layout axes
  Tensor.newF out lout

/-- `argmin_axes`. -/
def Tensor.argminAxes (dflt : Order) (par : Option Planner) (lt eq : α → α → Bool) (t : Tensor α)
    (axes : List Int) : Res (Tensor Nat) := do
  let (out, lout) ← argAxes dflt par .C (minCmp lt eq) t.data t.layout axes
  Tensor.newF out lout

/-- `argmax_axes`. -/
def Tensor.argmaxAxes (dflt : Order) (par : Option Planner) (lt eq : α → α → Bool) (t : Tensor α)
    (axes : List Int) : Res (Tensor Nat) := do
  let (out, lout) ← argAxes dflt par .C (maxCmp lt eq) t.data t.layout axes
  Tensor.newF out lout

end
end Rstsr
