import Verif.Model.Broadcast
import Verif.Model.Indexer
import Verif.Model.Matmul
import Verif.Model.PackArray
/-!
# Model of the ranks that types promise

`rstsr-common/src/layout/dim.rs` (which rank the result of an operation has, as a type),
`rstsr-common/src/layout/layoutbase.rs:620-680` (`into_dim`) and the operations whose result is converted to that rank.
A rank is `none` for `IxD`, any number of axes, and `some n` for `Ix<n>`. A table without an entry is a program that is not compiled.
-/
namespace Rstsr
open Spec (Order)

/-- `dim.rs:1-105` `Ix<N>` (`const_ndim` is `Some(N)`) and `IxD` (`None`). -/
abbrev Rank := Option Nat

/-- The layouts a type of rank `r` has: an array of `N` lengths, or a vector. -/
def Rank.Has : Rank → Layout → Prop
  | none, _ => True
  | some n, l => l.ndim = n

/-- The entry of a table for `n`. -/
def lookup1 (t : List (Nat × Nat)) (n : Nat) : Option Nat := (t.find? fun p => p.1 == n).map (·.2)

/-- The entry of a table for `n` and `m`. -/
def lookup2 (t : List (Nat × Nat × Nat)) (n m : Nat) : Option Nat := (t.find? fun p => p.1 == n && p.2.1 == m).map (·.2.2)

/-- `dim.rs:135-138` `impl_dim_smaller_one!`. -/
def smallerTable : List (Nat × Nat) := [(1, 0), (2, 1), (3, 2), (4, 3), (5, 4), (6, 5), (7, 6), (8, 7), (9, 8)]

/-- `dim.rs:140-150` `impl_dim_larger_one!`. -/
def largerTable : List (Nat × Nat) := [(0, 1), (1, 2), (2, 3), (3, 4), (4, 5), (5, 6), (6, 7), (7, 8), (8, 9)]

/-- `dim.rs:199-318` `impl_dim_max!`: `(N1, N2, N)` is `impl DimMaxAPI<Ix<N1>> for Ix<N2>`. -/
def maxTable : List (Nat × Nat × Nat) := [
  (0, 0, 0), (0, 1, 1), (0, 2, 2), (0, 3, 3), (0, 4, 4), (0, 5, 5), (0, 6, 6), (0, 7, 7), (0, 8, 8), (0, 9, 9),
  (1, 0, 1), (1, 1, 1), (1, 2, 2), (1, 3, 3), (1, 4, 4), (1, 5, 5), (1, 6, 6), (1, 7, 7), (1, 8, 8), (1, 9, 9),
  (2, 0, 2), (2, 1, 2), (2, 2, 2), (2, 3, 3), (2, 4, 4), (2, 5, 5), (2, 6, 6), (2, 7, 7), (2, 8, 8), (2, 9, 9),
  (3, 0, 3), (3, 1, 3), (3, 2, 3), (3, 3, 3), (3, 4, 4), (3, 5, 5), (3, 6, 6), (3, 7, 7), (3, 8, 8), (3, 9, 9),
  (4, 0, 4), (4, 1, 4), (4, 2, 4), (4, 3, 4), (4, 4, 4), (4, 5, 5), (4, 6, 6), (4, 7, 7), (4, 8, 8), (4, 9, 9),
  (5, 0, 5), (5, 1, 5), (5, 2, 5), (5, 3, 5), (5, 4, 5), (5, 5, 5), (5, 6, 6), (5, 7, 7), (5, 8, 8), (5, 9, 9),
  (6, 0, 6), (6, 1, 6), (6, 2, 6), (6, 3, 6), (6, 4, 6), (6, 5, 6), (6, 6, 6), (6, 7, 7), (6, 8, 8), (6, 9, 9),
  (7, 0, 7), (7, 1, 7), (7, 2, 7), (7, 3, 7), (7, 4, 7), (7, 5, 7), (7, 6, 7), (7, 7, 7), (7, 8, 8), (7, 9, 9),
  (8, 0, 8), (8, 1, 8), (8, 2, 8), (8, 3, 8), (8, 4, 8), (8, 5, 8), (8, 6, 8), (8, 7, 8), (8, 8, 8), (8, 9, 9),
  (9, 0, 9), (9, 1, 9), (9, 2, 9), (9, 3, 9), (9, 4, 9), (9, 5, 9), (9, 6, 9), (9, 7, 9), (9, 8, 9), (9, 9, 9)]

/-- `matmul.rs:76-96`, `492-532` `LayoutMatMulAPI` for two fixed ranks: `(DA, DB, DC)`. -/
def matTable : List (Nat × Nat × Nat) := [
  (1, 1, 0), (2, 2, 2),
  (2, 1, 1), (3, 1, 2), (4, 1, 3), (5, 1, 4), (6, 1, 5), (7, 1, 6), (8, 1, 7), (9, 1, 8),
  (1, 2, 1), (1, 3, 2), (1, 4, 3), (1, 5, 4), (1, 6, 5), (1, 7, 6), (1, 8, 7), (1, 9, 8),
  (3, 2, 3), (4, 2, 4), (5, 2, 5), (6, 2, 6), (7, 2, 7), (8, 2, 8), (9, 2, 9), (2, 3, 3),
  (2, 4, 4), (2, 5, 5), (2, 6, 6), (2, 7, 7), (2, 8, 8), (2, 9, 9), (3, 3, 3), (4, 4, 4),
  (5, 5, 5), (6, 6, 6), (7, 7, 7), (8, 8, 8), (9, 9, 9)]

/-- `matmul.rs:534-554`, the fixed ranks that may be multiplied with a dynamic one. -/
def matMixed : List Nat := [1, 2, 3, 4, 5, 6, 7, 8, 9]

namespace Rank

/-- `dim.rs:111-114`, `123-125`, `131-141` `DimSmallerOneAPI::SmallerOne`. -/
def smaller : Rank → Option Rank
  | none => some none
  | some n => (lookup1 smallerTable n).map some

/-- `dim.rs:117-121`, `127-129`, `143-153` `DimLargerOneAPI::LargerOne`. -/
def larger : Rank → Option Rank
  | none => some none
  | some n => (lookup1 largerTable n).map some

/-- `dim.rs:155-318` `DimMaxAPI::Max` of the left rank `r` with the right rank `q` (`impl DimMaxAPI<Ix<N1>> for Ix<N2>`: the left rank is `N2`). -/
def max : Rank → Rank → Option Rank
  | some n, some m => (lookup2 maxTable m n).map some
  | some n, none => if n < 10 then some none else none
  | none, some m => if m < 10 then some none else none
  | none, none => some none

/-- `matmul.rs:62-554` `LayoutMatMulAPI::DC`. -/
def mat : Rank → Rank → Option Rank
  | some n, some m => (lookup2 matTable n m).map some
  | some n, none => if n ∈ matMixed then some none else none
  | none, some m => if m ∈ matMixed then some none else none
  | none, none => some none

end Rank

namespace Layout

/-- `layoutbase.rs:626-655` `into_dim`: to a fixed rank the number of axes must be that rank. -/
def intoRank (l : Layout) : Rank → Res Layout
  | none => .ok l
  | some n => if l.ndim = n then .ok l else .error .invalidLayout

/-- An operation whose result is converted with `into_dim` to the rank in the type of the result; `none` when the type has no such rank. -/
def typed (q : Option Rank) (res : Res Layout) : Option (Res Layout) := q.map fun r => do (← res).intoRank r

/-- `indexer.rs:226-254` `dim_select` with the conversion in its last line. -/
def dimSelectTyped (r : Rank) (l : Layout) (axis index : Int) : Option (Res Layout) := typed r.smaller (l.dimSelect axis index)

/-- `indexer.rs:256-274` `dim_eliminate` with the conversion in its last line. -/
def dimEliminateTyped (r : Rank) (l : Layout) (axis : Int) : Option (Res Layout) := typed r.smaller (l.dimEliminate axis)

/-- `indexer.rs:276-290` `dim_chop` with the conversion in its last line. -/
def dimChopTyped (r : Rank) (l : Layout) (axis : Int) : Option (Res Layout) := typed r.smaller (l.dimChop axis)

/-- `indexer.rs:308-336` `dim_insert` with the conversion in its last line. -/
def dimInsertTyped (r : Rank) (l : Layout) (axis : Int) : Option (Res Layout) := typed r.larger (l.dimInsert axis)

/-- `layoutbase.rs:319-379` `diagonal` with the conversion in its last line. -/
def diagonalTyped (r : Rank) (l : Layout) (offset axis1 axis2 : Option Int) : Option (Res Layout) :=
  typed r.smaller (l.diagonal offset axis1 axis2)

/-- `broadcast.rs:166-182` `broadcast_layout`: the common shape (`89-91`) and the strides (`243-244`) are converted to the rank in the type of the result. -/
def broadcastTyped (r1 r2 : Rank) (l1 l2 : Layout) (o : Order) : Option (Res (Layout × Layout)) := (r1.max r2).map fun r => do
  let (m1, m2) ← l1.broadcast l2 o
  return (← m1.intoRank r, ← m2.intoRank r)

/-- `matmul.rs:76-119` for two static vectors or matrices, `467-554` `impl_fixed!`: only the layout of the result is converted. -/
def matmulTyped (ra rb : Rank) (la lb : Layout) (o : Order) : Option (Res MatMulCfg) := (Rank.mat ra rb).map fun r =>
  if ra = some 1 ∧ rb = some 1 then la.matmulFixed11 lb o
  else if ra = some 2 ∧ rb = some 2 then la.matmulFixed22 lb o
  else do
    let cfg ← la.matmulCfg lb o
    return { cfg with lc := ← cfg.lc.intoRank r }

end Layout

/-- `rstsr-core/src/tensor/pack_array.rs:126-159` `into_pack_array_f`: the rank is that of the result of `dim_chop`, and the strides are converted to it,
which panics for another number. -/
def Tensor.packArrayTyped {α : Type} (r : Rank) (n : Nat) (t : Tensor α) (axis : Int) : Option (Res (Tensor (List α))) := r.smaller.map fun q => do
  let c ← t.intoPackArray n axis
  match c.layout.intoRank q with
  | .ok l => .ok ⟨c.data, l⟩
  | .error _ => .error .panic

/-- `pack_array.rs:188-214` `into_unpack_array_f`: `into_dim().rstsr_unwrap()`. -/
def Tensor.unpackArrayTyped {α : Type} (r : Rank) (n : Nat) (t : Tensor (List α)) (axis : Int) : Option (Res (Tensor α)) := r.larger.map fun q => do
  let c ← t.intoUnpackArray n axis
  match c.layout.intoRank q with
  | .ok l => .ok ⟨c.data, l⟩
  | .error _ => .error .panic

end Rstsr
