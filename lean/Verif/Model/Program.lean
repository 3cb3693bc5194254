import Verif.Model.Chain
import Verif.Model.Copy
import Verif.Model.Elementwise
import Verif.Model.Gather
import Verif.Model.Reduce
import Verif.Model.ReduceAxes
import Verif.Model.Matmul
import Verif.Spec.Program
/-!
# Model of programs: chains of view calls followed by reads and writes

The list of tensors stands for the owned tensors a program holds. A view borrows the storage of its tensor
and carries its own layout, a write through it changes the storage and leaves the tensor's layout alone.
-/
namespace Rstsr
open Spec

/-- The operation behind a view call; the device's order argument goes to `broadcast_to`
(`rstsr-core/src/tensor/manipulation/broadcast.rs`). -/
def callOp (o : Order) : ViewCall → ViewOp
  | .transpose axes => .transpose axes
  | .reverseAxes => .reverseAxes
  | .swapaxes a b => .swapaxes a b
  | .slice ix => .slice ix
  | .flip axes => .flip (some axes)
  | .expandDims axes => .expandDims (some axes)
  | .squeeze axes => .squeeze (some axes)
  | .broadcastTo s => .broadcastTo s o
  | .diagonal k a b => .diagonal (some k) (some a) (some b)

variable {α : Type}

/-- A view of a tensor: the same storage with the layout the calls produce
(`rstsr-core/src/tensor/manipulation/*.rs`, `tensor/indexing.rs:144-214`). -/
def Tensor.viewed (o : Order) (t : Tensor α) (v : List ViewCall) : Res (Tensor α) := do
  let m ← runViews t.layout (v.map (callOp o))
  .ok ⟨t.data, m⟩

/-- The number of a tensor in the program's list; a missing one is the panic error (it does not compile). -/
def tensorAt (ts : List (Tensor α)) (k : Nat) : Res (Tensor α) :=
  match ts[k]? with
  | some t => .ok t
  | none => .error .panic

/-- A write through a view of tensor `k`: the storage it leaves behind goes back to the tensor. -/
def writeBack (ts : List (Tensor α)) (k : Nat) (t c : Tensor α) : List (Tensor α) := ts.set k ⟨c.data, t.layout⟩

/-- One statement: `fill` and `assign` (`tensor/assignment.rs`), `mapi` (`tensor/map_elementwise.rs`),
`op=` (`tensor/operators/op_binary_assign.rs`), `map` and `op` (`map_elementwise.rs`,
`op_binary_arithmetic.rs`), `into_shape` and `to_shape` (`manipulation/reshape.rs`), `index_select`
(`adv_indexing.rs`), `concat` (`creation_from_tensor.rs`), and `sum` (`tensor/reduction.rs`), whose number is kept as a tensor
without axes, `sum_axes` and `%` (`tensor/linalg/matmul.rs`). Threads do not occur: the device is the serial one. `fixed` says that the ranks are fixed by the types. -/
def runStmt (o : Order) (fixed : Bool) (s : Stmt α) (ts : List (Tensor α)) : Res (List (Tensor α)) :=
  match s with
  | .fill k v x => do
    let t ← tensorAt ts k
    let a ← t.viewed o v
    let c ← Tensor.fillF o a x
    .ok (writeBack ts k t c)
  | .mapInplace f k v => do
    let t ← tensorAt ts k
    let a ← t.viewed o v
    let c ← Tensor.mapInplace o a f
    .ok (writeBack ts k t c)
  | .opNumber f k v x => do
    let t ← tensorAt ts k
    let a ← t.viewed o v
    let c ← Tensor.assignNum o a x f
    .ok (writeBack ts k t c)
  | .assign k v u w => do
    let t ← tensorAt ts k
    let a ← t.viewed o v
    let t2 ← tensorAt ts u
    let b ← t2.viewed o w
    let c ← Tensor.assignF o fixed a b id
    .ok (writeBack ts k t c)
  | .opAssign f k v u w => do
    let t ← tensorAt ts k
    let a ← t.viewed o v
    let t2 ← tensorAt ts u
    let b ← t2.viewed o w
    let c ← Tensor.assignOp o a b f
    .ok (writeBack ts k t c)
  | .map f k v => do
    let t ← tensorAt ts k
    let a ← t.viewed o v
    let c ← Tensor.map o a f
    .ok (ts ++ [c])
  | .binary f k v u w => do
    let t ← tensorAt ts k
    let a ← t.viewed o v
    let t2 ← tensorAt ts u
    let b ← t2.viewed o w
    let c ← Tensor.binary o a b f
    .ok (ts ++ [c])
  | .intoShape k shape => do
    let t ← tensorAt ts k
    let c ← t.changeShape (shape.map Int.ofNat) o none
    .ok (ts.set k c)
  | .toShape k v shape => do
    let t ← tensorAt ts k
    let a ← t.viewed o v
    let b ← a.changeShape (shape.map Int.ofNat) o none
    let c ← Tensor.intoOwned o b
    .ok (ts ++ [c])
  | .select k v axis indices => do
    let t ← tensorAt ts k
    let a ← t.viewed o v
    let c ← a.indexSelect o o axis indices
    .ok (ts ++ [c])
  | .concat parts axis => do
    let as ← parts.mapM fun p => do
      let t ← tensorAt ts p.1
      t.viewed o p.2
    let c ← Tensor.concat o o as axis
    .ok (ts ++ [c])
  | .sum zero add k v => do
    let t ← tensorAt ts k
    let a ← t.viewed o v
    let x ← a.sumAll o none zero add
    .ok (ts ++ [⟨[x], ⟨[], 0⟩⟩])
  | .sumAxes zero add k v axes => do
    let t ← tensorAt ts k
    let a ← t.viewed o v
    match ← a.sumAxes o none zero add (some axes) with
    | .done c => .ok (ts ++ [c])
    | .threads .. => .error .panic
  | .matmul R fresh k v u w => do
    let t ← tensorAt ts k
    let a ← t.viewed o v
    let t2 ← tensorAt ts u
    let b ← t2.viewed o w
    match ← a.matmul ⟨R.mul, R.mul, R.add, R.zero⟩ (fun y x => R.mul x y) o none fresh b R.one with
    | (c, .done d) => .ok (ts ++ [⟨d, c.layout⟩])
    | (_, .threads _) => .error .panic

/-- A program: its statements in turn, stopping at the first error. -/
def runProgram (o : Order) (fixed : Bool) : List (Stmt α) → List (Tensor α) → Res (List (Tensor α))
  | [], ts => .ok ts
  | s :: p, ts => do runProgram o fixed p (← runStmt o fixed s ts)

end Rstsr
