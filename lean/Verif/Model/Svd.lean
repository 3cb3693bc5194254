import Verif.Model.Eig
import Verif.Spec.Svd
import Verif.Model.Gather
/-!
# Model of `svd` and `svdvals`

As in `Model/Linalg`, LAPACK is a parameter. `rstsr-linalg-traits/src/blas_impl/{svd,svdvals}.rs`, `ref_impl_blas.rs:257-291`,
`rstsr-blas-traits/src/lapack_svd/*.rs`, `driver_impl/lapack/svd/*.rs`. All tensors are on one device.
-/
namespace Rstsr
open Spec (Order leftCount rightCount)

section
variable {α ρ : Type}

/-- The routines used here, `ρ` being the type of real numbers: `?gesvd` (first argument `false`) and `?gesdd` (`true`), once with the vectors
(`'A'` if the second argument is `true`, else `'S'`), once without (`'N'`). The first result is what is left in the place of the matrix. -/
structure LapackSvd (α ρ : Type) where
  svd : Bool → (full : Bool) → (m n : Nat) → Matrix (Fin m) (Fin n) α → Except Int (Matrix (Fin m) (Fin n) α ×
    Matrix (Fin m) (Fin (leftCount full m n)) α × (Fin (min m n) → ρ) × Matrix (Fin (rightCount full m n)) (Fin n) α)
  vals : Bool → (m n : Nat) → Matrix (Fin m) (Fin n) α → Except Int (Matrix (Fin m) (Fin n) α × (Fin (min m n) → ρ))

/-- `driver_impl/lapack/svd/gesvd.rs:156`, `162`, `169`: as `rowOut`, but with `orderchange_out_r2c` in the place of `orderchange_out_c2r`. -/
def rowOutR2C {γ : Type} (a : List γ) (off lda : Int) (m n : Nat) (at' : List γ) : Res (List γ) :=
  orPanic (orderR2C a ⟨[⟨m, lda⟩, ⟨n, 1⟩], off⟩ at' ⟨[⟨m, 1⟩, ⟨n, max m 1⟩], 0⟩)

/-- How a driver copies its buffers back: `gesdd.rs:161-175` (`dc = true`) or `gesvd.rs:156-170`. -/
def svdBack {γ : Type} (dc : Bool) (order : Order) (a : List γ) (off lda : Int) (m n : Nat) (w : List γ) : Res (List γ) :=
  match order with
  | .F => .ok w
  | .C => if dc then rowOut a off lda m n w else rowOutR2C a off lda m n w

/-- A matrix that LAPACK writes into memory that holds nothing yet: the new tensor, or a new buffer of the driver which is copied into the tensor
(`gesdd.rs:121-128`, `163-168`). -/
def svdOut (dc : Bool) (order : Order) (u : List (Option α)) (ldu : Int) {r c : Nat} (U : Matrix (Fin r) (Fin c) α) : Res (List (Option α)) :=
  match order with
  | .F => .ok (storeMat u 0 ldu (U.map some))
  | .C => svdBack dc .C u 0 ldu r c (storeMat (uninit ((r * c : Nat) : Int)) 0 (max r 1) (U.map some))

/-- The leading dimension of the memory LAPACK writes: that of the tensor, or that of the buffer (`gesdd.rs:108-109`). -/
def outLd (order : Order) (ld : Int) (r : Nat) : Int :=
  match order with
  | .F => ld
  | .C => max r 1

/-- The query for the work size. `gesdd.rs:39-61` gives the larger dimension in the place of all leading dimensions, which is never too small for
matrices with elements; `gesvd.rs:34-56` gives the leading dimensions of the caller, which are checked. `q` is the number of rows of the third matrix. -/
def svdQuery (dc : Bool) (m n : Nat) (lda ldu ldvt : Int) (rowsU q : Nat) : Res Unit :=
  if dc then checkLd (max m n : Nat) m (-5)
  else do
    checkLd lda m (-6)
    checkLd ldu rowsU (-9)
    checkLd ldvt q (-11)

/-- `gesdd.rs:16-178` `driver_gesdd`, `gesvd.rs:16-180` `driver_gesvd` (`183-` for complex numbers) with `jobz` `'S'` or `'A'`. The array `superb` of
`gesvd` is not modelled. -/
def driverSvd (lib : LapackSvd α ρ) (dc : Bool) (order : Order) (full : Bool) (m n : Nat) (a : List α) (off lda : Int) (u : List (Option α)) (ldu : Int)
    (vt : List (Option α)) (ldvt : Int) : Res ((Fin (min m n) → ρ) × List (Option α) × List (Option α)) := do
  svdQuery dc m n lda ldu ldvt m (rightCount full m n)
  let (w, o, l) ← matIn order a off lda m n
  checkLd l m (if dc then -5 else -6)
  checkLd (outLd order ldu m) m (if dc then -8 else -9)
  checkLd (outLd order ldvt (rightCount full m n)) (rightCount full m n) (if dc then -10 else -11)
  let A ← loadMat w o l m n
  let (L, U, s, Vt) ← liftInfo (lib.svd dc full m n A)
  let _ ← svdBack dc order a off lda m n (storeMat w o l L)
  let u ← svdOut dc order u ldu U
  let vt ← svdOut dc order vt ldvt Vt
  return (s, u, vt)

/-- The same with `jobz` `'N'`: the matrices `u` and `vt` are not used. -/
def driverSvals (lib : LapackSvd α ρ) (dc : Bool) (order : Order) (m n : Nat) (a : List α) (off lda ldu ldvt : Int) : Res (Fin (min m n) → ρ) := do
  svdQuery dc m n lda ldu ldvt 1 1
  let (w, o, l) ← matIn order a off lda m n
  checkLd l m (if dc then -5 else -6)
  let A ← loadMat w o l m n
  let (L, s) ← liftInfo (lib.vals dc m n A)
  let _ ← svdBack dc order a off lda m n (storeMat w o l L)
  return s

/-- `lapack_svd/gesdd.rs:49-53` (`dc = true`), `gesvd.rs:52-56`: the order to work in. The two are opposite. -/
def svdOrder (dc : Bool) (dflt : Order) (l : Layout) : Order :=
  match l.cPrefer, l.fPrefer with
  | true, false => if dc then .C else .F
  | false, true => if dc then .F else .C
  | _, _ => dflt

/-- `minmn - 1` (`gesvd.rs:80`): an overflow if there is no element. -/
def svdSuper (dc : Bool) (m n : Nat) : Res Unit := if !dc && min m n = 0 then .error .panic else .ok ()

/-- `lapack_svd/gesdd.rs:43-106` `GESDD::internal_run`, `gesvd.rs:45-112` `GESVD::internal_run` with `compute_uv`. The matrix comes as a view
(`ref_impl_blas.rs:279`), so what is done to it in place is not seen. -/
def svdRun (lib : LapackSvd α ρ) (dc : Bool) (dflt : Order) (a : Tensor α) (full : Bool) : Res (Tensor α × Tensor ρ × Tensor α) := do
  let order := svdOrder dc dflt a.layout
  let a ← overwritableConvertWithOrder dflt ⟨a, false⟩ order
  let m := a.view.layout.dimAt 0
  let n := a.view.layout.dimAt 1
  let lda ← ldUnwrap a.view.layout order
  svdSuper dc m n
  let lu := Layout.newContig order [m, leftCount full m n]
  let lvt := Layout.newContig order [rightCount full m n, n]
  let ldu ← ldUnwrap lu order
  let ldvt ← ldUnwrap lvt order
  let (s, u, vt) ← driverSvd lib dc order full m n a.view.data a.view.layout.offset lda (uninit lu.size) ldu (uninit lvt.size) ldvt
  return (⟨← assumeInit u, lu⟩, valuesOf s, ⟨← assumeInit vt, lvt⟩)

/-- The same without `compute_uv`: the matrices `u` and `vt` are of size one. -/
def svalsRun (lib : LapackSvd α ρ) (dc : Bool) (dflt : Order) (a : Tensor α) : Res (Tensor ρ) := do
  let order := svdOrder dc dflt a.layout
  let a ← overwritableConvertWithOrder dflt ⟨a, false⟩ order
  let m := a.view.layout.dimAt 0
  let n := a.view.layout.dimAt 1
  let lda ← ldUnwrap a.view.layout order
  svdSuper dc m n
  let ldu ← ldUnwrap (Layout.newContig order [1, 1]) order
  let ldvt ← ldUnwrap (Layout.newContig order [1, 1]) order
  let s ← driverSvals lib dc order m n a.view.data a.view.layout.offset lda ldu ldvt
  return valuesOf s

/-- `rstsr-linalg-traits/src/traits_def.rs:179-216` `SVDArgs_` with the defaults of the builder. The matrix is only viewed. -/
structure SvdArgs (α : Type) where
  a : Tensor α
  fullMatrices : Option Bool := some true
  driver : Option String := none

/-- `ref_impl_blas.rs:259-291` `ref_impl_svd_simple_f`. -/
def refSvd (lib : LapackSvd α ρ) (dflt : Order) (x : SvdArgs α) : Res (Option (Tensor α) × Tensor ρ × Option (Tensor α)) := do
  let driver := x.driver.getD "gesdd"
  let run (dc : Bool) : Res (Option (Tensor α) × Tensor ρ × Option (Tensor α)) :=
    match x.fullMatrices with
    | some full => do
      let (u, s, vt) ← svdRun lib dc dflt x.a full
      return (some u, s, some vt)
    | none => do return (none, ← svalsRun lib dc dflt x.a, none)
  if driver = "gesvd" then run false
  else if driver = "gesdd" then run true
  else .error .invalidValue

/-- `u.unwrap()` (`blas_impl/svd.rs:25`). -/
def unwrapMat : Option (Tensor α) → Res (Tensor α)
  | some v => .ok v
  | none => .error .panic

/-- `blas_impl/svd.rs:8-48` `svd_f` of a matrix; `60-71` with `full_matrices = true` if it is left out. -/
def svd (lib : LapackSvd α ρ) (dflt : Order) (a : Tensor α) (full : Bool := true) : Res (Tensor α × Tensor ρ × Tensor α) := do
  if a.layout.ndim ≠ 2 then .error .invalidLayout
  else
    let (u, s, vt) ← refSvd lib dflt { a := a, fullMatrices := some full }
    return (← unwrapMat u, s, ← unwrapMat vt)

/-- `blas_impl/svdvals.rs:8-44` `svdvals_f` of a matrix. -/
def svdvals (lib : LapackSvd α ρ) (dflt : Order) (a : Tensor α) : Res (Tensor ρ) := do
  if a.layout.ndim ≠ 2 then .error .invalidLayout
  else
    let (_, s, _) ← refSvd lib dflt { a := a, fullMatrices := none }
    return s

/-- `blas_impl/svd.rs:77-107` `svd_f` of the arguments as a structure. -/
def svdArgs (lib : LapackSvd α ρ) (dflt : Order) (x : SvdArgs α) : Res (Tensor α × Tensor ρ × Tensor α) := do
  if x.fullMatrices.isNone then .error .invalidValue
  else
    let (u, s, vt) ← refSvd lib dflt x
    return (← unwrapMat u, s, ← unwrapMat vt)

/-- `blas_impl/svdvals.rs:50-78` `svdvals_f` of the arguments as a structure. -/
def svdvalsArgs (lib : LapackSvd α ρ) (dflt : Order) (x : SvdArgs α) : Res (Tensor ρ) := do
  if x.fullMatrices.isSome then .error .invalidValue
  else
    let (_, s, _) ← refSvd lib dflt x
    return s

end
end Rstsr
