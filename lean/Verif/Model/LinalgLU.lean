import Verif.Model.Linalg
import Verif.Model.Reduce
/-!
# Model of the functions built on the factorization of a general matrix: `inv`, `slogdet`, `det`

As in `Model/Linalg`, LAPACK is a parameter. `blas_impl/{inv,slogdet,det}.rs`, `ref_impl_blas.rs:87-104, 224-255`,
`rstsr-blas-traits/src/lapack_solve/{getrf,getri}.rs`, `driver_impl/lapack/solve/{getrf,getri}.rs`.
-/
namespace Rstsr
open Spec (Order)

section
variable {α β ρ : Type}

/-- The routines used here. `getrf` writes `min m n` pivots, counted from one. -/
structure LapackLU (α : Type) where
  getrf : (m n : Nat) → Matrix (Fin m) (Fin n) α → Except Int (Matrix (Fin m) (Fin n) α × List Int)
  getri : (n : Nat) → Matrix (Fin n) (Fin n) α → List Int → Except Int (Matrix (Fin n) (Fin n) α)

/-- The common course of the drivers for one matrix (`getrf.rs:23-52`, `getri.rs:36-61`, `potrf.rs:15-46`): row-major matrices go
through a buffer; nothing is copied back when LAPACK reports an error. -/
def withMat (order : Order) (a : List α) (off lda : Int) (m n : Nat) (bad : Int)
    (f : Matrix (Fin m) (Fin n) α → Except Int (Matrix (Fin m) (Fin n) α × β)) : Res (List α × β) := do
  let (w, p, l) ← matIn order a off lda m n
  checkLd l m bad
  let A ← loadMat w p l m n
  let (F, x) ← liftInfo (f A)
  return (← matOut order a off lda m n (storeMat w p l F), x)

/-- `driver_impl/lapack/solve/getrf.rs:15-53` `driver_getrf` (`62-100` for complex numbers). -/
def driverGetrf (lib : LapackLU α) (order : Order) (m n : Nat) (a : List α) (off lda : Int) : Res (List α × List Int) :=
  withMat order a off lda m n (-4) (lib.getrf m n)

/-- `rstsr-blas-traits/src/lapack_solve/getrf.rs:31-55` `GETRF::run`: the factors and the pivots from zero. The buffer for the
pivots has the length `n`, also when LAPACK writes only `m` of them. -/
def getrfRun (lib : LapackLU α) (dflt : Order) (a : TRef α) : Res (Mutable α × List Int) := do
  let a ← overwritableConvert dflt a
  let order := storageOrder a.view.layout
  let m := a.view.layout.dimAt 0
  let n := a.view.layout.dimAt 1
  let lda ← ldUnwrap a.view.layout order
  let (d, p) ← driverGetrf lib order m n a.view.data a.view.layout.offset lda
  let ipiv ← assumeInit (p.map some ++ List.replicate (n - p.length) none)
  return (← (a.setData d).cloneToMut dflt, ipiv.map (· - 1))

/-- `driver_impl/lapack/solve/getri.rs:16-61` `driver_getri` (`70-123` for complex numbers): the query for the work size checks the leading dimension of the
caller. -/
def driverGetri (lib : LapackLU α) (order : Order) (n : Nat) (a : List α) (off lda : Int) (ipiv : List Int) : Res (List α) := do
  checkLd lda n (-3)
  let (d, _) ← withMat order a off lda n n (-3) fun A => (lib.getri n A ipiv).map (·, ())
  return d

/-- `rstsr-blas-traits/src/lapack_solve/getri.rs:25-51` `GETRI::run`. The pivots are a contiguous vector. -/
def getriRun (lib : LapackLU α) (dflt : Order) (a : TRef α) (ipiv : List Int) : Res (Mutable α) := do
  let a ← overwritableConvert dflt a
  let order := storageOrder a.view.layout
  let ipiv := ipiv.map (· + 1)
  if a.view.layout.dimAt 0 ≠ a.view.layout.dimAt 1 then .error .invalidLayout
  else
    let n := a.view.layout.dimAt 0
    let lda ← ldUnwrap a.view.layout order
    let d ← driverGetri lib order n a.view.data a.view.layout.offset lda ipiv
    (a.setData d).cloneToMut dflt

/-- `ref_impl_blas.rs:89-102` `ref_impl_inv_f`: `GETRI` works on `a.view_mut()`. -/
def refInv (lib : LapackLU α) (dflt : Order) (a : TRef α) : Res (Mutable α) := do
  let (a, ipiv) ← getrfRun lib dflt a
  let v : TRef α := ⟨a.view, true⟩
  let y ← getriRun lib dflt v ipiv
  (a.setData (v.after y).data).cloneToMut dflt

/-- The result of a function that works on its argument: owned for a shared argument, in place for a mutable one
(`blas_impl/inv.rs:18-23, 39-45`, `blas_impl/cholesky.rs:20-26, 42-49`). -/
def resultOf (dflt : Order) (a : TRef α) (x : Mutable α) : Res (Tensor α) := do
  if a.mutable then
    let x ← x.cloneToMut dflt
    return a.after x
  else orPanic (x.intoOwned dflt)

/-- `blas_impl/inv.rs:6-46` `inv_f`. -/
def inv (lib : LapackLU α) (dflt : Order) (a : TRef α) : Res (Tensor α) := do
  if a.t.layout.ndim ≠ 2 then .error .invalidLayout
  else resultOf dflt a (← refInv lib dflt a)

/-- The operations on elements used by `slogdet` and `det`; `scale` is the product of a number and a real number. -/
structure DetOps (α ρ : Type) where
  one : α
  mul : α → α → α
  neg : α → α
  sign : α → α
  abs : α → ρ
  log : ρ → ρ
  zero : ρ
  add : ρ → ρ → ρ
  exp : ρ → ρ
  scale : α → ρ → α

/-- `ref_impl_blas.rs:235-242`: the pivots that are not in place. -/
def signChanges (piv : List Int) : Nat := (List.range piv.length).countP fun i => piv.getD i 0 ≠ (i : Int)

/-- `ref_impl_blas.rs:243-249`: sign and logarithm of the product of the diagonal, with the sign of the pivots. The
operations on tensors panic on errors. -/
def signLog (O : DetOps α ρ) (dflt : Order) (par : Option Scheduler) (f : Tensor α) (piv : List Int) : Res (α × ρ) := orPanic do
  let diag : Tensor α := ⟨f.data, ← f.layout.diagonal none none none⟩
  let abs ← diag.map dflt O.abs
  let sgn ← diag.map dflt O.sign
  let s ← sgn.prodAll dflt par O.one O.mul
  let s := if signChanges piv % 2 = 0 then s else O.neg s
  let logs ← abs.unaryConsume dflt O.log
  let l ← logs.sumAll dflt par O.zero O.add
  return (s, l)

/-- `ref_impl_blas.rs:226-253` `ref_impl_slogdet_f`; the first result is what is left in the argument. -/
def refSlogdet (lib : LapackLU α) (O : DetOps α ρ) (dflt : Order) (par : Option Scheduler) (a : TRef α) : Res (Mutable α × α × ρ) := do
  let (x, piv) ← getrfRun lib dflt a
  return (x, ← signLog O dflt par x.view piv)

/-- `blas_impl/slogdet.rs:6-45` `slogdet_f`: what is left in the argument, sign and logarithm. -/
def slogdet (lib : LapackLU α) (O : DetOps α ρ) (dflt : Order) (par : Option Scheduler) (a : TRef α) : Res (Tensor α × α × ρ) := do
  if a.t.layout.ndim ≠ 2 then .error .invalidLayout
  else
    let (x, s, l) ← refSlogdet lib O dflt par a
    return (a.after x, s, l)

/-- `blas_impl/det.rs:7-46` `det_f`: what is left in the argument, and the determinant. -/
def det (lib : LapackLU α) (O : DetOps α ρ) (dflt : Order) (par : Option Scheduler) (a : TRef α) : Res (Tensor α × α) := do
  if a.t.layout.ndim ≠ 2 then .error .invalidLayout
  else
    let (x, s, l) ← refSlogdet lib O dflt par a
    return (a.after x, O.scale s (O.exp l))

end
end Rstsr
