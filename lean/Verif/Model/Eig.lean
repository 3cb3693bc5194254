import Verif.Model.LinalgSym
/-!
# Model of `eigh` and `eigvalsh`

As in `Model/Linalg`, LAPACK is a parameter. `rstsr-linalg-traits/src/blas_impl/{eigh,eigvalsh}.rs`, `ref_impl_blas.rs:36-83`,
`rstsr-blas-traits/src/lapack_eigh/*.rs`, `driver_impl/lapack/eigh/*.rs`. All tensors are on one device.
-/
namespace Rstsr
open Spec (Order UpLo)

section
variable {α ρ : Type}

/-- The routines used here, `ρ` being the type of real numbers: `ev false` is `?syev` or `?heev`, `ev true` is `?syevd` or `?heevd`, and the same for
`gv`. The next argument tells whether eigenvectors are asked for (`jobz = 'V'`). -/
structure LapackEig (α ρ : Type) where
  ev : Bool → Bool → UpLo → (n : Nat) → Matrix (Fin n) (Fin n) α → Except Int (Matrix (Fin n) (Fin n) α × (Fin n → ρ))
  gv : Bool → Int → Bool → UpLo → (n : Nat) → Matrix (Fin n) (Fin n) α → Matrix (Fin n) (Fin n) α →
    Except Int (Matrix (Fin n) (Fin n) α × (Fin n → ρ) × Matrix (Fin n) (Fin n) α)

/-- `empty_f(([n].c(), &device))` after LAPACK has written the `n` eigenvalues (`lapack_eigh/syev.rs:53-58`). -/
def valuesOf {n : Nat} (w : Fin n → ρ) : Tensor ρ := ⟨List.ofFn w, ⟨[⟨n, 1⟩], 0⟩⟩

/-- `driver_impl/lapack/eigh/syev.rs:16-92` `driver_syev` (`98-192` for complex numbers), `syevd.rs` `driver_syevd`: the query for the work size checks
the leading dimension of the caller. That the complex drivers let LAPACK write the answer, a complex number, into a local real number is not
modelled. -/
def driverEv (lib : LapackEig α ρ) (dc : Bool) (order : Order) (vectors : Bool) (uplo : UpLo) (n : Nat) (a : List α) (off lda : Int) :
    Res (List α × (Fin n → ρ)) := do
  checkLd lda n (-5)
  withMat order a off lda n n (-5) (lib.ev dc vectors uplo n)

/-- `rstsr-blas-traits/src/lapack_eigh/syev.rs:40-72` `SYEV::run`, `syevd.rs:40-72` `SYEVD::run`. -/
def evRun (lib : LapackEig α ρ) (dc : Bool) (dflt : Order) (a : TRef α) (vectors : Bool) (uplo : Option UpLo) : Res (Tensor ρ × Mutable α) := do
  let uplo := uploOr dflt uplo
  let a ← overwritableConvert dflt a
  let order := storageOrder a.view.layout
  if a.view.layout.dimAt 0 ≠ a.view.layout.dimAt 1 then .error .invalidLayout
  else
    let n := a.view.layout.dimAt 0
    let lda ← ldUnwrap a.view.layout order
    let (d, w) ← driverEv lib dc order vectors uplo n a.view.data a.view.layout.offset lda
    return (valuesOf w, ← (a.setData d).cloneToMut dflt)

/-- `driver_impl/lapack/eigh/sygv.rs` `driver_sygv`, `sygvd.rs` `driver_sygvd`. -/
def driverGv (lib : LapackEig α ρ) (dc : Bool) (order : Order) (itype : Int) (vectors : Bool) (uplo : UpLo) (n : Nat) (a : List α) (oa lda : Int)
    (b : List α) (ob ldb : Int) : Res (List α × (Fin n → ρ) × List α) := do
  checkLd lda n (-6)
  checkLd ldb n (-8)
  withTwo order n n a oa lda b ob ldb (-6) (-8) (lib.gv dc itype vectors uplo n)

/-- `rstsr_assert_eq!(info, 0, InvalidLayout)` (`lapack_eigh/sygv.rs:73`): the error number is lost. -/
def assertInfo {β : Type} : Res β → Res β
  | .error (.errorCode _) => .error .invalidLayout
  | x => x

/-- `rstsr-blas-traits/src/lapack_eigh/sygv.rs:47-81` `SYGV::run`, `sygvd.rs:47-81` `SYGVD::run`. The second matrix, of which LAPACK leaves a factor, is
not copied back if it was copied. -/
def gvRun (lib : LapackEig α ρ) (dc : Bool) (dflt : Order) (a b : TRef α) (itype : Int) (vectors : Bool) (uplo : Option UpLo) :
    Res (Tensor ρ × Mutable α) := do
  let uplo := uploOr dflt uplo
  let order := storageOrder a.t.layout
  let a ← overwritableConvertWithOrder dflt a order
  let b ← overwritableConvertWithOrder dflt b order
  let n := a.view.layout.dimAt 0
  if a.view.layout.shape ≠ [n, n] then .error .invalidLayout
  else if b.view.layout.shape ≠ [n, n] then .error .invalidLayout
  else
    let lda ← ldUnwrap a.view.layout order
    let ldb ← ldUnwrap b.view.layout order
    let (da, w, _) ← assertInfo (driverGv lib dc order itype vectors uplo n a.view.data a.view.layout.offset lda b.view.data b.view.layout.offset ldb)
    return (valuesOf w, ← (a.setData da).cloneToMut dflt)

/-- `rstsr-linalg-traits/src/traits_def.rs:98-124` `EighArgs_` with the defaults of the builder. -/
structure EighArgs (α ρ : Type) where
  a : TRef α
  b : Option (TRef α) := none
  uplo : Option UpLo := none
  eigvalsOnly : Bool := false
  eigType : Int := 1
  subsetByIndex : Option (Nat × Nat) := none
  subsetByValue : Option (ρ × ρ) := none
  driver : Option String := none

/-- `ref_impl_blas.rs:36-83` `ref_impl_eigh_simple_f`: the fields `subset_by_index` and `subset_by_value` are not used. -/
def refEigh (lib : LapackEig α ρ) (dflt : Order) (x : EighArgs α ρ) : Res (Tensor ρ × Option (Mutable α)) := do
  let vectors := !x.eigvalsOnly
  match x.b with
  | some b =>
    let driver := x.driver.getD "gvd"
    let (w, v) ← if driver = "gv" then gvRun lib false dflt x.a b x.eigType vectors x.uplo
      else if driver = "gvd" then gvRun lib true dflt x.a b x.eigType vectors x.uplo
      else .error .invalidValue
    if x.eigvalsOnly then return (w, none) else return (w, some (← v.cloneToMut dflt))
  | none =>
    let driver := x.driver.getD "evd"
    let (w, v) ← if driver = "ev" then evRun lib false dflt x.a vectors x.uplo
      else if driver = "evd" then evRun lib true dflt x.a vectors x.uplo
      else .error .invalidValue
    if x.eigvalsOnly then return (w, none) else return (w, some (← v.cloneToMut dflt))

/-- `vecs.unwrap()` (`blas_impl/eigh.rs:28`). -/
def unwrapVecs : Option (Mutable α) → Res (Mutable α)
  | some v => .ok v
  | none => .error .panic

/-- `blas_impl/eigh.rs:6-104` `eigh_f` of a matrix, with or without a triangle: eigenvalues, eigenvectors. A mutable matrix is the
result. -/
def eigh (lib : LapackEig α ρ) (dflt : Order) (a : TRef α) (uplo : Option UpLo) : Res (Tensor ρ × Tensor α) := do
  if a.t.layout.ndim ≠ 2 then .error .invalidLayout
  else
    let (w, v) ← refEigh lib dflt { a := a, uplo := some (uploOr dflt uplo) }
    return (w, ← resultOf dflt a (← unwrapVecs v))

/-- `blas_impl/eigvalsh.rs:6-102` `eigvalsh_f` of a matrix. What is left in a mutable matrix is not modelled. -/
def eigvalsh (lib : LapackEig α ρ) (dflt : Order) (a : TRef α) (uplo : Option UpLo) : Res (Tensor ρ) := do
  if a.t.layout.ndim ≠ 2 then .error .invalidLayout
  else
    let (w, _) ← refEigh lib dflt { a := a, uplo := some (uploOr dflt uplo), eigvalsOnly := true }
    return w

/-- `blas_impl/eigh.rs:106-184` `eigh_f` of two matrices, which are only viewed. -/
def eighGeneral (lib : LapackEig α ρ) (dflt : Order) (a b : Tensor α) (uplo : Option UpLo) (eigType : Int) : Res (Tensor ρ × Tensor α) := do
  if a.layout.ndim ≠ 2 then .error .invalidLayout
  else if b.layout.ndim ≠ 2 then .error .invalidLayout
  else if ¬ (1 ≤ eigType ∧ eigType ≤ 3) then .error .invalidLayout
  else
    let (w, v) ← refEigh lib dflt { a := ⟨a, false⟩, b := some ⟨b, false⟩, uplo := some (uploOr dflt uplo), eigType := eigType }
    return (w, ← resultOf dflt ⟨a, false⟩ (← unwrapVecs v))

/-- `blas_impl/eigvalsh.rs:104-182` `eigvalsh_f` of two matrices. -/
def eigvalshGeneral (lib : LapackEig α ρ) (dflt : Order) (a b : Tensor α) (uplo : Option UpLo) (eigType : Int) : Res (Tensor ρ) := do
  if a.layout.ndim ≠ 2 then .error .invalidLayout
  else if b.layout.ndim ≠ 2 then .error .invalidLayout
  else if ¬ (1 ≤ eigType ∧ eigType ≤ 3) then .error .invalidLayout
  else
    let (w, _) ← refEigh lib dflt
      { a := ⟨a, false⟩, b := some ⟨b, false⟩, uplo := some (uploOr dflt uplo), eigType := eigType, eigvalsOnly := true }
    return w

/-- `blas_impl/eigh.rs:186-216` `eigh_f` of the arguments as a structure. -/
def eighArgs (lib : LapackEig α ρ) (dflt : Order) (x : EighArgs α ρ) : Res (Tensor ρ × Mutable α) := do
  if x.eigvalsOnly then .error .invalidValue
  else
    let (w, v) ← refEigh lib dflt x
    return (w, ← unwrapVecs v)

/-- `blas_impl/eigvalsh.rs:184-214` `eigvalsh_f` of the arguments as a structure. -/
def eigvalshArgs (lib : LapackEig α ρ) (dflt : Order) (x : EighArgs α ρ) : Res (Tensor ρ) := do
  if !x.eigvalsOnly then .error .invalidValue
  else
    let (w, _) ← refEigh lib dflt x
    return w

end
end Rstsr
