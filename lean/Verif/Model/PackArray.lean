import Verif.Model.Indexer
import Verif.Model.Tensor
import Verif.Spec.PackArray
/-!
# Model: `into_pack_array`, `into_unpack_array`
-/
namespace Rstsr

/-- `rstsr-common/src/pack_array.rs:33-46`, `:69-79`, `:99-109` `pack_array_f`: the same memory read as arrays of length `n`. A
zero `n` divides by zero. -/
def packVec {α : Type} (n : Nat) (v : List α) : Res (List (List α)) :=
  if n = 0 then .error .panic
  else if v.length % n ≠ 0 then .error .invalidValue
  else .ok ((List.range (v.length / n)).map fun i => (v.drop (i * n)).take n)

/-- `pack_array.rs:48-56`, `:81-88`, `:111-118` `unpack_array`: the same memory read as single elements. -/
def unpackVec {α : Type} (v : List (List α)) : List α := v.flatten

/-- `rstsr-core/src/tensor/pack_array.rs:119-155` `into_pack_array_f`. Division of the strides truncates; the offset is not
negative. -/
def Tensor.intoPackArray {α : Type} (n : Nat) (t : Tensor α) (axis : Int) : Res (Tensor (List α)) := do
  let a ← checkAxis axis t.layout.ndim
  let x := t.layout.axes.getD a default
  if x.str ≠ 1 then .error .invalidLayout
  else if x.dim ≠ n then .error .invalidLayout
  else if n = 0 then .error .panic
  else if t.layout.offset % n ≠ 0 then .error .invalidLayout
  else
    let data ← packVec n t.data
    let l ← t.layout.dimChop a
    .ok ⟨data, ⟨l.axes.map fun y => ⟨y.dim, Int.tdiv y.str n⟩, l.offset / n⟩⟩

/-- `tensor/pack_array.rs:186-217` `into_unpack_array_f`. -/
def Tensor.intoUnpackArray {α : Type} (n : Nat) (t : Tensor (List α)) (axis : Int) : Res (Tensor α) := do
  let a ← checkAxisInsert axis t.layout.ndim
  .ok ⟨unpackVec t.data, ⟨(t.layout.axes.map fun y => ⟨y.dim, y.str * n⟩).insertIdx a ⟨n, 1⟩, t.layout.offset * n⟩⟩

/-- A vector in memory: the number of bytes that the allocator gave out, the length and the capacity in elements, and the size of
an element in bytes. -/
structure RawVec where
  allocated : Nat
  len : Nat
  cap : Nat
  size : Nat

/-- What dropping the vector gives back to the allocator. -/
def RawVec.freed (v : RawVec) : Nat := v.cap * v.size

/-- `pack_array.rs:41-43`: `Vec::from_raw_parts(ptr, len / N, len / N)` (`len` is a multiple of `N`). -/
def RawVec.pack (n : Nat) (v : RawVec) : RawVec := ⟨v.allocated, v.len / n, v.len / n, n * v.size⟩

/-- `pack_array.rs:51-55`: `Vec::from_raw_parts(ptr, len * N, len * N)`. -/
def RawVec.unpack (n : Nat) (v : RawVec) : RawVec := ⟨v.allocated, v.len * n, v.len * n, v.size / n⟩

end Rstsr
