import Verif.Model.LinalgLU
import Verif.Model.Tri
/-!
# Model of `cholesky` and `solve_symmetric`

As in `Model/Linalg`, LAPACK is a parameter. `blas_impl/{cholesky,solve_symmetric}.rs`, `ref_impl_blas.rs:9-30, 175-199`,
`rstsr-blas-traits/src/lapack_solve/{potrf,sysv}.rs`, `driver_impl/lapack/solve/{potrf,sysv}.rs`.
-/
namespace Rstsr
open Spec (Order UpLo)

section
variable {α : Type}

/-- The routines used here. `sysv true` is `?hesv` for complex numbers; for real numbers it is `?sysv` in both cases. -/
structure LapackSym (α : Type) where
  potrf : UpLo → (n : Nat) → Matrix (Fin n) (Fin n) α → Except Int (Matrix (Fin n) (Fin n) α)
  sysv : Bool → UpLo → (n m : Nat) → Matrix (Fin n) (Fin n) α → Matrix (Fin n) (Fin m) α →
    Except Int (Matrix (Fin n) (Fin n) α × List Int × Matrix (Fin n) (Fin m) α)

/-- `uplo.unwrap_or_else(..)` (`ref_impl_blas.rs:19-22, 188-191`, `potrf.rs:31-34`, `sysv.rs:48-51`): the triangle that the device
takes by default. -/
def uploOr (dflt : Order) (uplo : Option UpLo) : UpLo := uplo.getD (match dflt with | .C => .L | .F => .U)

/-! ## `cholesky` -/

/-- `driver_impl/lapack/solve/potrf.rs:15-46` `driver_potrf` (`55-86` for complex numbers). -/
def driverPotrf (lib : LapackSym α) (order : Order) (uplo : UpLo) (n : Nat) (a : List α) (off lda : Int) : Res (List α) := do
  let (d, _) ← withMat order a off lda n n (-4) fun A => (lib.potrf uplo n A).map (·, ())
  return d

/-- `rstsr-blas-traits/src/lapack_solve/potrf.rs:27-53` `POTRF::run`. -/
def potrfRun (lib : LapackSym α) (dflt : Order) (a : TRef α) (uplo : Option UpLo) : Res (Mutable α) := do
  let uplo := uploOr dflt uplo
  let a ← overwritableConvert dflt a
  let order := storageOrder a.view.layout
  if a.view.layout.dimAt 0 ≠ a.view.layout.dimAt 1 then .error .invalidLayout
  else
    let n := a.view.layout.dimAt 0
    let lda ← ldUnwrap a.view.layout order
    let d ← driverPotrf lib order uplo n a.view.data a.view.layout.offset lda
    return a.setData d

/-- `triu(view)` or `tril(view)` (`ref_impl_blas.rs:25-28`), which panic on errors. -/
def keepTriangle (zero : α) (uplo : UpLo) (t : Tensor α) : Res (Tensor α) :=
  orPanic (match uplo with
    | .U => Tensor.triu zero t 0
    | .L => Tensor.tril zero t 0)

/-- `ref_impl_blas.rs:9-30` `ref_impl_cholesky_f`. -/
def refCholesky (lib : LapackSym α) (zero : α) (dflt : Order) (a : TRef α) (uplo : Option UpLo) : Res (Mutable α) := do
  let uplo := uploOr dflt uplo
  let x ← potrfRun lib dflt a (some uplo)
  let t ← keepTriangle zero uplo x.view
  (x.setData t.data).cloneToMut dflt

/-- `blas_impl/cholesky.rs:6-51` `cholesky_f`. -/
def cholesky (lib : LapackSym α) (zero : α) (dflt : Order) (a : TRef α) (uplo : Option UpLo) : Res (Tensor α) := do
  if a.t.layout.ndim ≠ 2 then .error .invalidLayout
  else resultOf dflt a (← refCholesky lib zero dflt a uplo)

/-! ## `solve_symmetric` -/

/-- `driver_impl/lapack/solve/sysv.rs:16-117` `driver_sysv` (`128-229` for complex numbers). The query for the work size passes
`n` as leading dimension of both matrices. That the complex drivers let LAPACK write the answer, a complex number, into a
local real number is not modelled. -/
def driverSysv (lib : LapackSym α) (hermi : Bool) (order : Order) (uplo : UpLo) (n nrhs : Nat) (a : List α) (oa lda : Int) (b : List α)
    (ob ldb : Int) : Res (List α × List Int × List α) := do
  checkLd n n (-5)
  checkLd n n (-8)
  withTwo order n nrhs a oa lda b ob ldb (-5) (-8) (lib.sysv hermi uplo n nrhs)

/-- `rstsr-blas-traits/src/lapack_solve/sysv.rs:38-71` `SYSV::run`, for tensors of one device: the factors, the pivots and the solution. -/
def sysvRun (lib : LapackSym α) (hermi : Bool) (dflt : Order) (a b : TRef α) (uplo : Option UpLo) : Res (Mutable α × List Int × Mutable α) := do
  let b ← overwritableConvert dflt b
  let order := storageOrder b.view.layout
  let a ← overwritableConvertWithOrder dflt a order
  let uplo := uploOr dflt uplo
  let n := b.view.layout.dimAt 0
  let nrhs := b.view.layout.dimAt 1
  if a.view.layout.shape ≠ [n, n] then .error .invalidLayout
  else
    let lda ← ldUnwrap a.view.layout order
    let ldb ← ldUnwrap b.view.layout order
    let (da, p, db) ← driverSysv lib hermi order uplo n nrhs a.view.data a.view.layout.offset lda b.view.data b.view.layout.offset ldb
    return (← (a.setData da).cloneToMut dflt, p, ← (b.setData db).cloneToMut dflt)

/-- `ref_impl_blas.rs:175-199` `ref_impl_solve_symmetric_f`, for tensors of one device: `SYSV` gets a view of `a`, so that nothing is
written to `a`. -/
def refSolveSymmetric (lib : LapackSym α) (dflt : Order) (hermi : Bool) (uplo : Option UpLo) (a b : TRef α) : Res (Tensor α × Mutable α) := do
  let uplo := uploOr dflt uplo
  let v : TRef α := ⟨a.t, false⟩
  let (_, _, x) ← sysvRun lib hermi dflt v b (some uplo)
  return (a.t, ← x.cloneToMut dflt)

/-- `blas_impl/solve_symmetric.rs:6-138` `solve_symmetric_f`. -/
def solveSymmetric (lib : LapackSym α) (dflt : Order) (hermi : Bool) (uplo : Option UpLo) (a b : TRef α) : Res (Tensor α × Tensor α) :=
  solveWith (refSolveSymmetric lib dflt hermi uplo) dflt a b

end
end Rstsr
