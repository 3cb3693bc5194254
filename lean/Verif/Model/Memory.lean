import Verif.Spec.Heap
import Verif.Model.Basic
/-!
# Model: memory of new tensors

`rstsr-common/src/alloc_vec.rs`, with the feature `aligned_alloc` (on by default in `rstsr-core`) on Linux or macOS,
and without overflow checks (the release profile). `w` is the number of bits of `usize`. The element type is given
by its size and alignment.
-/
namespace Rstsr
open Spec

/-- `Vec<T>`: pointer, length and capacity. -/
structure VecMem where
  ptr : Nat
  len : Nat
  cap : Nat
  deriving DecidableEq, Repr

/-- Rust's `alloc::alloc::alloc`: asks the allocator, the block becomes live. -/
def allocate (al : Allocator) (h : Heap) (lay : MemLayout) : Option Nat × Heap :=
  match al h lay with
  | some p => (some p, ⟨p, lay⟩ :: h)
  | none => (none, h)

/-- Rust's `Layout::from_size_align`, for an alignment that is a power of two: the size rounded up to the alignment
must not be greater than `isize::MAX`. -/
def fromSizeAlign (w size align : Nat) : Res MemLayout :=
  if size ≤ 2 ^ (w - 1) - align then .ok ⟨size, align⟩ else .error .miscellaneous

/-- `alloc_vec.rs:62-69` `aligned_alloc`. -/
def alignedAlloc (w : Nat) (al : Allocator) (h : Heap) (numbytes alignment : Nat) : Res (Option Nat × Heap) := do
  if numbytes = 0 then return (none, h)
  let lay ← fromSizeAlign w numbytes alignment
  return allocate al h lay

/-- `Vec::new`: no memory, the pointer is the alignment. -/
def emptyVec (align : Nat) : VecMem := ⟨align, 0, 0⟩

/-- `alloc_vec.rs:48-53` `unaligned_uninitialized_vec`: `try_reserve_exact` reports a size above `isize::MAX` and
missing memory as errors, and takes no memory for elements without size. -/
def unalignedUninitVec (w : Nat) (al : Allocator) (elem : MemLayout) (h : Heap) (size : Nat) : Res (VecMem × Heap) :=
  if elem.size = 0 ∨ size = 0 then .ok (⟨elem.align, size, 0⟩, h)
  else
    match fromSizeAlign w (size * elem.size) elem.align with
    | .error e => .error e
    | .ok lay =>
      match allocate al h lay with
      | (some p, h) => .ok (⟨p, size, size⟩, h)
      | (none, _) => .error .miscellaneous

/-- `alloc_vec.rs:84-100` `aligned_uninitialized_vec`. `size * sizeof` is computed in `usize`. -/
def alignedUninitVec (w : Nat) (al : Allocator) (elem : MemLayout) (N : Nat) (h : Heap) (size alignment : Nat) :
    Res (VecMem × Heap) := do
  if size = 0 then return (emptyVec elem.align, h)
  else if size < N then unalignedUninitVec w al elem h size
  else
    let (pointer, h) ← alignedAlloc w al h (size * elem.size % 2 ^ w) alignment
    match pointer with
    | some p => return (⟨p, size, size⟩, h)
    | none => .error .runtimeError

/-- `alloc_vec.rs:25-36` `uninitialized_vec`. -/
def uninitVec (w : Nat) (al : Allocator) (elem : MemLayout) (h : Heap) (size : Nat) : Res (VecMem × Heap) :=
  alignedUninitVec w al elem 128 h size 64

/-- Dropping a `Vec<T>`: its memory is given back with the size of its capacity and the alignment of `T`. -/
def dropVec (elem : MemLayout) (h : Heap) (v : VecMem) : Option Heap :=
  if v.cap * elem.size = 0 then some h else h.release v.ptr ⟨v.cap * elem.size, elem.align⟩

end Rstsr
