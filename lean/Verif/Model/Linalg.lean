import Mathlib.LinearAlgebra.Matrix.Defs
import Verif.Model.Transpose
import Verif.Model.Blas
import Verif.Model.Tri
/-!
# Model of the linear algebra functions of the BLAS devices

`rstsr-linalg-traits/src/{ref_impl_blas,blas_impl/*}.rs`, `rstsr-blas-traits/src/{util,lapack_solve}/*.rs` and
`rstsr-blas-traits/driver_impl/lapack/**`. The LAPACK library is not modelled: it is a parameter, a function from matrices to matrices
or to an error number for each routine. How the matrices are taken out of the storage and put back is modelled.
-/
namespace Rstsr
open Spec (Order)

section
variable {α : Type}

/-- The routines of LAPACK: column-major matrices in, matrices or the error number `info` out. -/
structure Lapack (α : Type) where
  gesv : (n m : Nat) → Matrix (Fin n) (Fin n) α → Matrix (Fin n) (Fin m) α →
    Except Int (Matrix (Fin n) (Fin n) α × (Fin n → Int) × Matrix (Fin n) (Fin m) α)

/-! ## Arguments that may be overwritten -/

/-- `rstsr-core/src/tensor/reference.rs` `TensorReference`: a view, or a mutable view. The data of a view are the
storage it looks into. -/
structure TRef (α : Type) where
  t : Tensor α
  mutable : Bool

/-- `rstsr-core/src/tensor/tensor_mutable.rs:15-23` `TensorMutable`; `inPlace` is the variant `Mut`. -/
inductive Mutable (α : Type) where
  | owned (t : Tensor α)
  | inPlace (t : Tensor α)
  | toBeCloned (t buf : Tensor α)

namespace Mutable

/-- `tensor_mutable.rs:25-59` `view`, `view_mut`. -/
def view : Mutable α → Tensor α
  | owned t => t
  | inPlace t => t
  | toBeCloned _ buf => buf

/-- The same tensor after its storage was written through `view_mut`. -/
def setData (d : List α) : Mutable α → Mutable α
  | owned t => owned ⟨d, t.layout⟩
  | inPlace t => inPlace ⟨d, t.layout⟩
  | toBeCloned t buf => toBeCloned t ⟨d, buf.layout⟩

/-- `tensor_mutable.rs:83-91` `clone_to_mut`; `assign` panics on errors. The layouts have rank two or one by their type. -/
def cloneToMut (dflt : Order) : Mutable α → Res (Mutable α)
  | toBeCloned t buf =>
    match Tensor.assignF dflt true t buf id with
    | .ok t' => .ok (inPlace t')
    | .error _ => .error .panic
  | x => .ok x

/-- `tensor_mutable.rs:61-75` `into_owned`. -/
def intoOwned (dflt : Order) : Mutable α → Res (Tensor α)
  | owned t => .ok t
  | inPlace t => Tensor.intoOwned dflt t
  | toBeCloned _ buf => .ok buf

end Mutable

/-- `rstsr-blas-traits/src/util/util_tensor.rs:15-19`: the order of the storage if it has one. -/
def freeOrder (dflt : Order) (l : Layout) : Order := match l.fPrefer, l.cPrefer with
  | true, false => .F
  | false, true => .C
  | _, _ => dflt

/-- `util_tensor.rs:9-32` `overwritable_convert`. -/
def overwritableConvert (dflt : Order) (a : TRef α) : Res (Mutable α) := do
  let order := freeOrder dflt a.t.layout
  if !a.mutable then
    return .owned (← Tensor.intoContig dflt a.t order)
  else if a.t.layout.fPrefer || a.t.layout.cPrefer then
    return .inPlace a.t
  else
    return .toBeCloned a.t (← Tensor.intoContig dflt a.t order)

/-- `util_tensor.rs:34-55` `overwritable_convert_with_order`. -/
def overwritableConvertWithOrder (dflt : Order) (a : TRef α) (order : Order) : Res (Mutable α) := do
  if !a.mutable then
    return .owned (← Tensor.intoContig dflt a.t order)
  else if (order = .F ∧ a.t.layout.fPrefer) ∨ (order = .C ∧ a.t.layout.cPrefer) then
    return .inPlace a.t
  else
    return .toBeCloned a.t (← Tensor.intoContig dflt a.t order)

/-- `if x.f_prefer() && !x.c_prefer() { ColMajor } else { RowMajor }` (`gesv.rs:42`). -/
def storageOrder (l : Layout) : Order := if l.fPrefer && !l.cPrefer then .F else .C

/-- `rstsr-core/src/tensor/tensor2_impl.rs:15-50` `ld_row`, `ld_col`, `ld`. -/
def Layout.ld (l : Layout) (order : Order) : Option Int :=
  match order with
  | .F => if !l.fPrefer then none else if l.dimAt 1 = 1 then some (l.dimAt 0) else some (l.stride.getD 1 0)
  | .C => if !l.cPrefer then none else if l.dimAt 0 = 1 then some (l.dimAt 1) else some (l.stride.getD 0 0)

/-- `.ld(order).unwrap()` (`gesv.rs:47`). -/
def ldUnwrap (l : Layout) (order : Order) : Res Int :=
  match l.ld order with
  | some x => .ok x
  | none => .error .panic

/-! ## Matrices in storage -/

/-- What LAPACK reads: element `(i, j)` at `off + i + j * ld`. Reading outside of the storage is the panic error. -/
def loadMat (data : List α) (off ld : Int) (m n : Nat) : Res (Matrix (Fin m) (Fin n) α) :=
  if h : ∀ (i : Fin m) (j : Fin n), 0 ≤ blasPos false off ld i j ∧ (blasPos false off ld i j).toNat < data.length then
    .ok fun i j => data[(blasPos false off ld i j).toNat]'(h i j).2
  else .error .panic

/-- What LAPACK writes: the cells of the matrix, no others. -/
def storeMat (data : List α) (off ld : Int) {m n : Nat} (M : Matrix (Fin m) (Fin n) α) : List α :=
  data.mapIdx fun k x =>
    if h : 0 ≤ (k : Int) - off ∧ (((k : Int) - off) % ld).toNat < m ∧ (((k : Int) - off) / ld).toNat < n
    then M ⟨_, h.2.1⟩ ⟨_, h.2.2⟩ else x

/-- `.unwrap()`. -/
def orPanic {β : Type} : Res β → Res β
  | .ok x => .ok x
  | .error _ => .error .panic

/-- `driver_impl/lapack/solve/gesv.rs:35-53` (the same in every driver): a row-major matrix is
copied into a new column-major buffer; the pointer of the matrix is position `off` of the storage. That the slice
`from_raw_parts_mut(a, m * lda)` may reach beyond the end of the storage is not modelled here, see `driverSliceEnd`. -/
def rowIn (a : List α) (off lda : Int) (m n : Nat) : Res (List α) := do
  let c ← orPanic (orderR2C (uninit ((m * n : Nat) : Int)) ⟨[⟨m, 1⟩, ⟨n, max m 1⟩], 0⟩ (a.map some) ⟨[⟨m, lda⟩, ⟨n, 1⟩], off⟩)
  assumeInit c

/-- `gesv.rs:69-70` (the same in every driver): the buffer is copied back. -/
def rowOut (a : List α) (off lda : Int) (m n : Nat) (at' : List α) : Res (List α) :=
  orPanic (orderC2R a ⟨[⟨m, lda⟩, ⟨n, 1⟩], off⟩ at' ⟨[⟨m, 1⟩, ⟨n, max m 1⟩], 0⟩)

/-- The end of the slice that the drivers form for a row-major matrix (`gesv.rs:46-47`). -/
def driverSliceEnd (off lda : Int) (m : Nat) : Int := off + m * lda

/-- Where LAPACK finds the matrix: in the storage itself, or in the buffer. -/
def matIn (order : Order) (a : List α) (off lda : Int) (m n : Nat) : Res (List α × Int × Int) :=
  match order with
  | .F => .ok (a, off, lda)
  | .C => do return (← rowIn a off lda m n, 0, max m 1)

/-- What the storage holds after the driver, `w` being what LAPACK left. -/
def matOut (order : Order) (a : List α) (off lda : Int) (m n : Nat) (w : List α) : Res (List α) :=
  match order with
  | .F => .ok w
  | .C => rowOut a off lda m n w

/-- A leading dimension that LAPACK refuses is reported as error number `info`. -/
def checkLd (ld : Int) (m : Nat) (info : Int) : Res Unit :=
  if ld < max 1 m then .error (.errorCode info) else .ok ()

/-- The error number of LAPACK; the callers turn it into an error (`rstsr_errcode!`). What LAPACK leaves in a mutable
argument in this case is not modelled. -/
def liftInfo {β : Type} : Except Int β → Res β
  | .ok x => .ok x
  | .error info => .error (.errorCode info)

/-! ## `solve_general` -/

/-- The common course of the drivers for a square matrix and right-hand sides (`gesv.rs:29-72`, `sysv.rs:58-116`): row-major
matrices go through buffers; nothing is copied back when LAPACK reports an error. -/
def withTwo {β : Type} (order : Order) (n nrhs : Nat) (a : List α) (oa lda : Int) (b : List α) (ob ldb : Int) (badA badB : Int)
    (f : Matrix (Fin n) (Fin n) α → Matrix (Fin n) (Fin nrhs) α → Except Int (Matrix (Fin n) (Fin n) α × β × Matrix (Fin n) (Fin nrhs) α)) :
    Res (List α × β × List α) := do
  let (wa, pa, la) ← matIn order a oa lda n n
  let (wb, pb, lb) ← matIn order b ob ldb n nrhs
  checkLd la n badA
  checkLd lb n badB
  let A ← loadMat wa pa la n n
  let B ← loadMat wb pb lb n nrhs
  let (F, p, X) ← liftInfo (f A B)
  let a ← matOut order a oa lda n n (storeMat wa pa la F)
  let b ← matOut order b ob ldb n nrhs (storeMat wb pb lb X)
  return (a, p, b)

/-- `driver_impl/lapack/solve/gesv.rs:15-73` `driver_gesv` (`82-140` for complex numbers). -/
def driverGesv (lib : Lapack α) (order : Order) (n nrhs : Nat) (a : List α) (oa lda : Int) (b : List α) (ob ldb : Int) :
    Res (List α × List Int × List α) := do
  let (a, p, b) ← withTwo order n nrhs a oa lda b ob ldb (-4) (-7) (lib.gesv n nrhs)
  return (a, List.ofFn p, b)

/-- `rstsr-blas-traits/src/lapack_solve/gesv.rs:35-65` `GESV::run`: the factors, the pivots (from zero) and the solution. -/
def gesvRun (lib : Lapack α) (dflt : Order) (a b : TRef α) : Res (Mutable α × List Int × Mutable α) := do
  let b ← overwritableConvert dflt b
  let order := storageOrder b.view.layout
  let a ← overwritableConvertWithOrder dflt a order
  let n := b.view.layout.dimAt 0
  let nrhs := b.view.layout.dimAt 1
  if a.view.layout.shape ≠ [n, n] then .error .invalidLayout
  else
    let lda ← ldUnwrap a.view.layout order
    let ldb ← ldUnwrap b.view.layout order
    let (da, p, db) ← driverGesv lib order n nrhs a.view.data a.view.layout.offset lda b.view.data b.view.layout.offset ldb
    return (← (a.setData da).cloneToMut dflt, p.map (· - 1), ← (b.setData db).cloneToMut dflt)

/-- What a function leaves in an argument: the storage of a mutable one is the storage of the tensor worked on. -/
def TRef.after (a : TRef α) (x : Mutable α) : Tensor α := if a.mutable then ⟨x.view.data, a.t.layout⟩ else a.t

/-- `rstsr-linalg-traits/src/ref_impl_blas.rs:154-169` `ref_impl_solve_general_f`, for tensors of one device. The first
result is what the function leaves in `a`. -/
def refSolveGeneral (lib : Lapack α) (dflt : Order) (a b : TRef α) : Res (Tensor α × Mutable α) := do
  let (a', _, x) ← gesvRun lib dflt a b
  return (a.after a', ← x.cloneToMut dflt)

/-- `b.i((.., None))` for a vector, `b.view()` for a matrix (`blas_impl/solve_general.rs:25-29`). -/
def asColumns (b : TRef α) : Res (TRef α) :=
  if b.t.layout.ndim = 1 then do return ⟨⟨b.t.data, ← orPanic (b.t.layout.dimSlice [Layout.fullSlice, .insert])⟩, b.mutable⟩
  else .ok b

/-- `blas_impl/solve_general.rs:31-35`: an owned result in the shape of `b`. -/
def fromColumns (dflt : Order) (vec : Bool) (x : Mutable α) : Res (Tensor α) := do
  let x ← orPanic (x.intoOwned dflt)
  if vec then orPanic do Tensor.intoOwned dflt (← Tensor.changeShape x [-1] dflt none) else .ok x

/-- The four cases of shared and mutable (or owned) arguments, common to `blas_impl/solve_general.rs:6-134`,
`solve_symmetric.rs:6-138` and `solve_triangular.rs:6-138`: what is left in `a`, and the result. A mutable `b` is the result. -/
def solveWith (ref : TRef α → TRef α → Res (Tensor α × Mutable α)) (dflt : Order) (a b : TRef α) : Res (Tensor α × Tensor α) := do
  if a.t.layout.ndim ≠ 2 then .error .invalidLayout
  else if b.t.layout.ndim < 1 ∨ 2 < b.t.layout.ndim then .error .invalidLayout
  else
    let (a', x) ← ref a (← asColumns b)
    if b.mutable then
      let x ← x.cloneToMut dflt
      return (a', b.after x)
    else
      return (a', ← fromColumns dflt (b.t.layout.ndim = 1) x)

/-- `blas_impl/solve_general.rs:6-134` `solve_general_f`. -/
def solveGeneral (lib : Lapack α) (dflt : Order) (a b : TRef α) : Res (Tensor α × Tensor α) :=
  solveWith (refSolveGeneral lib dflt) dflt a b

end
end Rstsr
