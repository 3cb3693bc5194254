import Verif.Model.Copy
/-!
# Model of gathering functions: `index_select`, `take`, `bool_select`, `concat`, `stack`, `unstack`,
`hstack`, `vstack`, `diag`, `meshgrid`

Files: `rstsr-core/src/tensor/adv_indexing.rs`, `rstsr-core/src/tensor/creation_from_tensor.rs`,
`rstsr-native-impl/src/cpu_serial/adv_indexing.rs`. `dflt` is `FlagOrder::default()`, `dev` the default
order of the device. All tensors are on one device.
-/
namespace Rstsr
open Spec (Order)

/-- `rstsr-common/src/layout/layoutbase.rs:604-609` `new_contig` (dynamic rank, offset 0). -/
def Layout.newContig (o : Order) (shape : List Nat) : Layout :=
  match o with
  | .C => Layout.newCContig shape 0
  | .F => Layout.newFContig shape 0

section
variable {α β γ : Type}

/-- `adv_indexing.rs:50-72` (native): the inner loop over the indices for one position of the other axes:
`c[idx_c + k] = a[idx_a + stride * indices[k]]` (the two branches differ only in leaving out a factor 1).
The `as usize` of a negative position is an out-of-range read, hence the panic error. -/
def selectRow (a : List α) (str : Int) (ids : List Nat) (w : α → γ) (p : Nat × Nat) (c : List γ) : Res (List γ) :=
  runAll (fun k c =>
    let j := (p.2 : Int) + str * (ids.getD k 0 : Nat)
    if j < 0 then .error .panic else step2 a (fun _ x => w x) (p.1 + k) j.toNat c) (List.range ids.length) c

/-- `rstsr-native-impl/src/cpu_serial/adv_indexing.rs:3-82` `index_select_cpu_serial`; `w` is `write`. -/
def indexSelectKernel (dflt : Order) (c : List γ) (lc : Layout) (a : List α) (la : Layout) (axis : Nat)
    (ids : List Nat) (w : α → γ) : Res (List γ) :=
  if lc.ndim ≠ la.ndim then .error .invalidLayout
  else if lc.ndim ≤ axis then .error .axisError
  else if (lc.axes.getD axis default).dim ≠ ids.length then .error .invalidLayout
  else if (la.axes.getD axis default).dim ≤ ids.foldl max 0 then .error .indexError
  else if (lc.axes.getD axis default).str = 1 then do
    let lcRest ← lc.dimChop axis
    let laRest ← la.dimChop axis
    match ← Layout.toColMajorMany dflt [lcRest, laRest] .K with
    | [mc, ma] => dispatch2 mc ma (selectRow a (la.axes.getD axis default).str ids w) c
    | _ => .error .panic
  else
    runAll (fun (k : Nat) c => do
      let lcSel ← lc.dimSelect axis k
      let laSel ← la.dimSelect axis (ids.getD k 0 : Nat)
      assign dflt c lcSel a laSel w) (List.range ids.length) c

end

namespace Tensor
variable {α : Type}

/-- `rstsr-core/src/tensor/adv_indexing.rs:27-38`: one index made non-negative and checked. -/
def checkIndex (n : Nat) (i : Int) : Res Nat :=
  let j := if i < 0 then (n : Int) + i else i
  if 0 ≤ j ∧ j < n then .ok j.toNat else .error .indexError

/-- `rstsr-core/src/tensor/adv_indexing.rs:10-48` `index_select_f`; `take_f` (69-78) is the same function
with its arguments in another order. -/
def indexSelect (dflt dev : Order) (t : Tensor α) (axis : Int) (indices : List Int) : Res (Tensor α) := do
  let ax ← checkAxis axis t.layout.ndim
  let ids ← indices.mapM (checkIndex (t.layout.axes.getD ax default).dim)
  let lc := Layout.newContig dev (t.layout.shape.set ax ids.length)
  let c ← indexSelectKernel dflt (uninit lc.size) lc t.data t.layout ax ids some
  let c ← assumeInit c
  newF c lc

/-- `rstsr-core/src/tensor/adv_indexing.rs:142-165` `bool_select_f`: the positions of the true entries. -/
def boolSelect (dflt dev : Order) (t : Tensor α) (axis : Int) (mask : List Bool) : Res (Tensor α) :=
  indexSelect dflt dev t axis ((mask.zipIdx.filter (·.1)).map fun p => (p.2 : Int))

/-- `creation_from_tensor.rs:374-382`, the assignment loop of `concat_f`: `off` is where the next tensor
starts. -/
def concatLoop (dflt : Order) (lc : Layout) (axis : Nat) :
    List (Tensor α) → Nat → List (Option α) → Res (List (Option α))
  | [], _, c => .ok c
  | t :: ts, off, c => do
    let d := (t.layout.axes.getD axis default).dim
    let m ← lc.dimNarrow axis ⟨some off, some (off + d : Nat), none⟩
    let c ← assign dflt c m t.data t.layout some
    concatLoop dflt lc axis ts (off + d) c

/-- `creation_from_tensor.rs:330-386` `concat_f`. `empty_f` leaves the storage uninitialised; reading a
cell that no assignment has set would be undefined behaviour, here the panic error of `assumeInit`. -/
def concat (dflt dev : Order) (ts : List (Tensor α)) (axis : Int) : Res (Tensor α) :=
  match ts with
  | [] => .error .invalidValue
  | t0 :: _ => do
    if t0.layout.ndim = 0 then .error .invalidLayout
    else if ts.any (fun t => t.layout.ndim ≠ t0.layout.ndim) then .error .invalidLayout
    else
      let ax ← checkAxis axis t0.layout.ndim
      if ts.any (fun t => t.layout.shape.eraseIdx ax ≠ t0.layout.shape.eraseIdx ax) then .error .invalidLayout
      else
        let n := (ts.map fun t => (t.layout.axes.getD ax default).dim).sum
        let lc := Layout.newContig dev ((t0.layout.shape.eraseIdx ax).insertIdx ax n)
        let c ← concatLoop dflt lc ax ts 0 (uninit lc.size)
        let c ← assumeInit c
        .ok ⟨c, lc⟩

/-- `creation_from_tensor.rs:648-681` `stack_f`. -/
def stack (dflt dev : Order) (ts : List (Tensor α)) (axis : Int) : Res (Tensor α) :=
  match ts with
  | [] => .error .invalidValue
  | t0 :: _ => do
    if ts.any (fun t => t.layout.shape ≠ t0.layout.shape) then .error .invalidLayout
    else
      let ax ← checkAxisInsert axis t0.layout.ndim
      let us ← ts.mapM fun t => do
        let l ← t.layout.expandDims (some [(ax : Int)])
        return (⟨t.data, l⟩ : Tensor α)
      concat dflt dev us ax

/-- `creation_from_tensor.rs:791-812` `unstack_f`: views of the same storage. -/
def unstack (t : Tensor α) (axis : Int) : Res (List (Tensor α)) := do
  if t.layout.ndim = 0 then .error .invalidLayout
  else
    let ax ← checkAxis axis t.layout.ndim
    (List.range (t.layout.axes.getD ax default).dim).mapM fun (i : Nat) => do
      let l ← t.layout.dimSelect ax i
      return (⟨t.data, l⟩ : Tensor α)

/-- `creation_from_tensor.rs:871-880` `into_atleast_1d_f`. -/
def atleast1d (t : Tensor α) : Res (Tensor α) :=
  match t.layout.ndim with
  | 0 => do return ⟨t.data, ← t.layout.expandDims (some [0])⟩
  | _ => .ok t

/-- `creation_from_tensor.rs:891-902` `into_atleast_2d_f`. -/
def atleast2d (t : Tensor α) : Res (Tensor α) :=
  match t.layout.ndim with
  | 0 => do return ⟨t.data, ← t.layout.expandDims (some [0, 1])⟩
  | 1 => do return ⟨t.data, ← t.layout.expandDims (some [0])⟩
  | _ => .ok t

/-- `creation_from_tensor.rs:913-926` `into_atleast_3d_f`. -/
def atleast3d (t : Tensor α) : Res (Tensor α) :=
  match t.layout.ndim with
  | 0 => do return ⟨t.data, ← t.layout.expandDims (some [0, 1, 2])⟩
  | 1 => do return ⟨t.data, ← t.layout.expandDims (some [0, 2])⟩
  | 2 => do return ⟨t.data, ← t.layout.expandDims (some [2])⟩
  | _ => .ok t

/-- `creation_from_tensor.rs:510-526` `hstack_f`. -/
def hstack (dflt dev : Order) (ts : List (Tensor α)) : Res (Tensor α) := do
  let us ← ts.mapM atleast1d
  match us with
  | [] => .error .invalidValue
  | u :: _ => concat dflt dev us (if u.layout.ndim = 1 then 0 else 1)

/-- `creation_from_tensor.rs:585-598` `vstack_f`. -/
def vstack (dflt dev : Order) (ts : List (Tensor α)) : Res (Tensor α) := do
  let us ← ts.mapM atleast2d
  match us with
  | [] => .error .invalidValue
  | _ => concat dflt dev us 0

/-- `creation_from_tensor.rs:57-80` `diag_f`; `zero` is `T::default()`. The strides of the square matrix of
length 0 are not those of the static rank (they are never used). -/
def diag (dflt dev : Order) (t : Tensor α) (k : Int) (zero : α) : Res (Tensor α) := do
  if t.layout.ndim = 1 then
    let n := t.layout.size + k.natAbs
    let lc := Layout.newContig dev [n, n]
    let m ← lc.diagonal (some k) (some 0) (some 1)
    let c ← assign dflt (List.replicate lc.size zero) m t.data t.layout id
    .ok ⟨c, lc⟩
  else if t.layout.ndim = 2 then
    let m ← t.layout.diagonal (some k) (some 0) (some 1)
    let lc := Layout.newContig dev [m.size]
    let c ← assign dflt (uninit lc.size) lc t.data m some
    let c ← assumeInit c
    .ok ⟨c, lc⟩
  else .error .invalidLayout

/-- `creation_from_tensor.rs:174-193`: the shape with `-1` at the position of input `i`. -/
def meshShape (n i : Nat) (xy : Bool) : List Int :=
  (List.replicate n 1).set (if xy ∧ i = 0 then 1 else if xy ∧ i = 1 then 0 else i) (-1)

/-- `creation_from_tensor.rs:145-208` `meshgrid_f`; `indexing` is the text argument. -/
def meshgrid (dflt dev : Order) (ts : List (Tensor α)) (indexing : String) (copy : Bool) :
    Res (List (Tensor α)) := do
  if indexing ≠ "ij" ∧ indexing ≠ "xy" then .error .invalidValue
  else
    match ts with
    | [] => .ok []
    | [t] =>
      if t.layout.ndim ≠ 1 then .error .invalidLayout
      else do return [← t.intoOwned dflt]
    | _ =>
      if ts.any (fun t => t.layout.ndim ≠ 1) then .error .invalidLayout
      else
        let us ← ts.zipIdx.mapM fun p => do
          let r ← p.1.changeShape (meshShape ts.length p.2 (indexing = "xy")) dev none
          r.intoOwned dflt
        let ls ← broadcastArrays (us.map (·.layout)) dev
        let vs := List.zipWith (fun u l => (⟨u.data, l⟩ : Tensor α)) us ls
        if copy then vs.mapM fun v => v.changeContig dflt dev
        else .ok vs

end Tensor
end Rstsr
