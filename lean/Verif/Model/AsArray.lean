import Verif.Spec.Nested
import Verif.Model.Gather
import Verif.Model.Linalg
import Verif.Model.Copy
import Verif.Model.Reshape
/-!
# Model of tensors made of given values, and of views of another shape or rank

`rstsr-core/src/tensor/asarray.rs`, `rstsr-core/src/tensor/creation.rs` (`tensor_from_nested!`),
`rstsr-core/src/tensor/manipulation/{into_compatible_shape,into_dim}.rs`, `rstsr-core/src/tensor/linalg/matrix_transpose.rs`.
-/
namespace Rstsr
open Spec (Order NestedArr)

section
variable {α : Type}

/-- `asarray.rs:448-456` `asarray((vec, layout, &device))`; the same for slices (`539-556`) and mutable slices (`686-703`), whose memory becomes the storage.
`into_dim` to a dynamic rank keeps everything; `outof_cpu_vec` (`device_cpu_serial/creation.rs:22-24`) keeps the vector. -/
def asarrayLayout (v : List α) (l : Layout) : Res (Tensor α) := Tensor.newF v l

/-- `[..].c()`, `[..].f()` (`layoutbase.rs:577-592`) for shapes of fixed and of dynamic rank. -/
def contigLayout (fixed : Bool) (o : Order) (s : List Nat) (offset : Int) : Layout := match o with
  | .C => if fixed then .newCContigFixed s offset else .newCContig s offset
  | .F => if fixed then .newFContigFixed s offset else .newFContig s offset

/-- `asarray.rs:459-474` `asarray((vec, shape, &device))`, slices `558-575`, mutable slices `705-722`: the layout follows the default order of the device. -/
def asarrayShape (fixed : Bool) (dflt : Order) (v : List α) (s : List Nat) : Res (Tensor α) := asarrayLayout v (contigLayout fixed dflt s 0)

/-- `asarray.rs:428-440` `asarray((vec, &device))` and slices `577-600`: `vec![len].c()`; mutable slices `724-745` use `[len].c()`. -/
def asarrayVec (v : List α) : Res (Tensor α) := asarrayLayout v (.newCContig [v.length] 0)

/-- `asarray.rs:835-844` `asarray((number, &device))`. -/
def asarrayScalar (x : α) : Res (Tensor α) := do
  let l ← Layout.new [] [] 0
  return ⟨[x], l⟩

/-- The memory of a nested array: arrays are stored one after the other (the layout of Rust arrays). -/
def nestedCells : (s : List Nat) → NestedArr α s → List α
  | [], x => [x]
  | n :: s, arr => (List.finRange n).flatMap fun i => nestedCells s (arr i)

/-- `creation.rs:1818-1825` `from_nested_array`, behind `tensor_from_nested!` (`creation.rs:1894-1944`, ranks one to six): `shape.size()` values are read from
the beginning of the array, whatever the default order of the device is; `asarray` and `into_dim` panic where there is an error. The final `into_dim` back to the
rank of the shape succeeds. -/
def fromNested (s : List Nat) (arr : NestedArr α s) : Res (Tensor α) :=
  orPanic (asarrayLayout ((nestedCells s arr).take (contigLayout true .C s 0).size) (contigLayout true .C s 0))

/-- `into_compatible_shape.rs:8-26` `into_compatible_shape_f` (`to_compatible_shape_f` of a view of the tensor, `47-58`); `order` is already resolved. -/
def Tensor.intoCompatibleShape (a : Tensor α) (shape : List Int) (order : Order) : Res (Tensor α) := do
  let shape ← substituteNegatives shape a.layout.size
  match ← a.layout.reshapeable shape order with
  | some l => .ok ⟨a.data, l⟩
  | none => .error .invalidLayout

/-- `into_compatible_shape.rs:247-274` `into_shape_assume_contig_f`. -/
def Tensor.intoShapeAssumeContig (fixed : Bool) (dflt : Order) (a : Tensor α) (s : List Nat) : Res (Tensor α) :=
  if a.layout.size ≠ s.prod then .error .invalidLayout
  else match dflt with
    | .C => if a.layout.cContig then .ok ⟨a.data, contigLayout fixed .C s a.layout.offset⟩ else .error .invalidLayout
    | .F => if a.layout.fContig then .ok ⟨a.data, contigLayout fixed .F s a.layout.offset⟩ else .error .invalidLayout

/-- `into_dim.rs:3-11` `into_dim_f` with `layoutbase.rs:626-655`: to a dynamic rank (`none`), or to a fixed rank, which must be the rank of the tensor. -/
def Tensor.intoDim (a : Tensor α) (rank : Option Nat) : Res (Tensor α) := match rank with
  | none => .ok a
  | some n => if a.layout.ndim = n then .ok a else .error .invalidLayout

/-- `matrix_transpose.rs:5-10` `into_matrix_transpose_f`. -/
def Tensor.matrixTranspose (a : Tensor α) : Res (Tensor α) := do
  let l ← a.layout.swapaxes (-1) (-2)
  return ⟨a.data, l⟩

end
end Rstsr
