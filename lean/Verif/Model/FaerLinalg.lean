import Mathlib.LinearAlgebra.Matrix.ConjTranspose
import Verif.Model.Svd
import Verif.Model.Pinv
import Verif.Model.Faer
/-!
# Model of the linear algebra functions of the device of `faer`

`rstsr-linalg-traits/src/faer_impl/*.rs` and `rstsr-core/src/device_faer/conversion.rs`. The library `faer` is not modelled: it is a
parameter, a function from matrices to matrices or to an error for each routine. How the matrices are taken out of the storage
and put back, the checks, the devices of the results and the global setting of `faer` are modelled. All arguments of a function are on one device.
-/
namespace Rstsr
open Spec (Order UpLo leftCount rightCount)

section
variable {α ρ β : Type}

/-- The routines of `faer`, and the parts of numbers: `T::real_part_impl`, `T::from_real_impl`. -/
structure FaerLib (α ρ : Type) where
  re : α → ρ
  ofRe : ρ → α
  llt : UpLo → (n : Nat) → Matrix (Fin n) (Fin n) α → Except Unit (Matrix (Fin n) (Fin n) α)
  det : (n : Nat) → Matrix (Fin n) (Fin n) α → α
  svd : (full : Bool) → (m n : Nat) → Matrix (Fin m) (Fin n) α → Except Unit
    (Matrix (Fin m) (Fin (leftCount full m n)) α × (Fin (min m n) → α) × Matrix (Fin n) (Fin (rightCount full m n)) α)
  svdInverse : (n : Nat) → Matrix (Fin n) (Fin n) α → (Fin (min n n) → α) → Matrix (Fin n) (Fin n) α → Matrix (Fin n) (Fin n) α
  svdSolve : (n k : Nat) → Matrix (Fin n) (Fin n) α → (Fin (min n n) → α) → Matrix (Fin n) (Fin n) α → Matrix (Fin n) (Fin k) α →
    Matrix (Fin n) (Fin k) α
  triSolve : UpLo → (n k : Nat) → Matrix (Fin n) (Fin n) α → Matrix (Fin n) (Fin k) α → Matrix (Fin n) (Fin k) α
  eigen : UpLo → (n : Nat) → Matrix (Fin n) (Fin n) α → Except Unit (Matrix (Fin n) (Fin n) α × (Fin n → α))
  eigvals : UpLo → (n : Nat) → Matrix (Fin n) (Fin n) α → Except Unit (Fin n → ρ)
  svals : (m n : Nat) → Matrix (Fin m) (Fin n) α → Except Unit (Fin (min m n) → ρ)

/-! ## Devices -/

/-- `rstsr-core/src/device_faer/device.rs`, `feature_rayon/device.rs:40-45`: what `DeviceFaer::same_device` (`device.rs:47-51`) compares.
`threads` is the result of `get_num_threads`, except that the number of threads of a default device is written 0 here, also if the device was made with
this number. -/
structure FaerDev where
  order : Order
  threads : Nat
  deriving DecidableEq, Repr

/-- `DeviceFaer::default()` (`feature_rayon/device.rs:48-51`, `77-81`); `sys` is `FlagOrder::default()`, a choice made when the crate is compiled. -/
def FaerDev.dflt (sys : Order) : FaerDev := ⟨sys, 0⟩

/-- `device_faer/device.rs:47-51` `same_device`. -/
def FaerDev.same (d e : FaerDev) : Bool := d.threads == e.threads && d.order == e.order

/-- A tensor and its device. -/
structure OnDev (α : Type) where
  t : Tensor α
  dev : FaerDev

/-- `rstsr_error!(FaerError, …)`. -/
def liftFaer : Except Unit β → Res β
  | .ok x => .ok x
  | .error _ => .error .faerError

/-! ## Matrices in storage -/

/-- `device_faer/conversion.rs:10-23` `into_faer` and what `faer` reads: element `(i, j)` at the position of the layout, with any strides. Reading
outside of the storage is the panic error. -/
def loadFaer (t : Tensor α) (m n : Nat) : Res (Matrix (Fin m) (Fin n) α) :=
  if h : ∀ (i : Fin m) (j : Fin n), 0 ≤ t.layout.addr [(i : Nat), (j : Nat)] ∧ (t.layout.addr [(i : Nat), (j : Nat)]).toNat < t.data.length then
    .ok fun i j => t.data[(t.layout.addr [(i : Nat), (j : Nat)]).toNat]'(h i j).2
  else .error .panic

/-- `conversion.rs:25-38` `into_faer` of a mutable view and what `faer` writes: every element once. -/
def storeFaer (data : List α) (l : Layout) {m n : Nat} (M : Matrix (Fin m) (Fin n) α) : Res (List α) :=
  runAll (fun (ij : Fin m × Fin n) c => modifyAt c (l.addr [(ij.1 : Nat), (ij.2 : Nat)]).toNat fun _ => M ij.1 ij.2)
    ((List.finRange m).flatMap fun i => (List.finRange n).map fun j => (i, j)) data

/-- `faer` asserts that the matrix is square (`llt`, `determinant`, `inverse`, `self_adjoint_eigen`, `solve_in_place`). -/
def faerAssert (b : Bool) : Res Unit := if b then .ok () else .error .panic

/-- `conversion.rs:40-58` `MatRef::into_rstsr`, `60-79` `Mat::into_rstsr`, `99-117` `MatMut::into_rstsr`: the storage begins at the pointer, which is the
position `ptr` of the memory `cells`, and has the length the strides ask for. Cells that do not exist are the panic error. -/
def matIntoRstsr (cells : List α) (ptr : Nat) (m n : Nat) (rs cs : Int) : Res (Tensor α) := do
  let l ← orPanic (Layout.newAxes [⟨m, rs⟩, ⟨n, cs⟩] 0)
  let (_, ub) ← orPanic l.boundsIndex
  if cells.length < ptr + ub.toNat then .error .panic
  else return ⟨(cells.drop ptr).take ub.toNat, l⟩

/-- The memory of the matrices that `faer` makes: the distance of the columns, which may be more than the number of rows, and what the cells between them hold. -/
structure FaerMem (α : Type) where
  ld : Nat → Nat → Nat
  junk : α

/-- The memory of a matrix that `faer` has made. -/
def FaerMem.cells (mem : FaerMem α) {m n : Nat} (M : Matrix (Fin m) (Fin n) α) : List α :=
  (List.range (mem.ld m n * n)).map fun k =>
    if h : k % mem.ld m n < m ∧ k / mem.ld m n < n then M ⟨_, h.1⟩ ⟨_, h.2⟩ else mem.junk

/-- `result.into_rstsr()` of a matrix that `faer` has made. -/
def fromFaer (mem : FaerMem α) {m n : Nat} (M : Matrix (Fin m) (Fin n) α) : Res (Tensor α) :=
  matIntoRstsr (mem.cells M) 0 m n 1 (mem.ld m n)

/-- `.into_rstsr().into_contig(device.default_order())` (`cholesky.rs:41`): the result is on the device that `into_rstsr` makes. -/
def contigOut (mem : FaerMem α) (sys order : Order) {m n : Nat} (M : Matrix (Fin m) (Fin n) α) : Res (OnDev α) := do
  return ⟨← orPanic (Tensor.intoContig sys (← fromFaer mem M) order), FaerDev.dflt sys⟩

/-- `s.column_vector().into_rstsr().mapv(|v| T::real_part_impl(&v))` (`eigh.rs:43-44`, `conversion.rs:81-97`); `faer` stores the diagonal in one piece. -/
def realsOut (lib : FaerLib α ρ) (sys : Order) {n : Nat} (s : Fin n → α) : Res (OnDev ρ) := do
  return ⟨← orPanic (Tensor.map sys (valuesOf s) lib.re), FaerDev.dflt sys⟩

/-! ## The functions -/

/-- `faer_impl/cholesky.rs:7-49` `faer_impl_cholesky_f`, `57-107` `cholesky_f`. -/
def faerCholesky [Star α] (lib : FaerLib α ρ) (mem : FaerMem α) (sys : Order) (dev : FaerDev) (a : Tensor α) (uplo : Option UpLo) : Res (OnDev α) := do
  if a.layout.ndim ≠ 2 then .error .invalidLayout
  else
    let u := uploOr dev.order uplo
    let n := a.layout.dimAt 0
    faerAssert (a.layout.dimAt 1 = n)
    let A ← loadFaer a n n
    let L ← liftFaer (lib.llt u n A)
    contigOut mem sys dev.order (match u with | .L => L | .U => L.conjTranspose)

/-- `faer_impl/det.rs:7-51` `det_f`. -/
def faerDet (lib : FaerLib α ρ) (a : Tensor α) : Res α := do
  if a.layout.ndim ≠ 2 then .error .invalidLayout
  else
    let n := a.layout.dimAt 0
    faerAssert (a.layout.dimAt 1 = n)
    return lib.det n (← loadFaer a n n)

/-- `inv.rs:23-24`: `svd` of any matrix, `inverse` of a square one. -/
def svdInv (lib : FaerLib α ρ) (n m : Nat) (A : Matrix (Fin n) (Fin m) α) : Res (Matrix (Fin n) (Fin n) α) :=
  if h : m = n then do
    let (U, s, V) ← liftFaer (lib.svd true n n (h ▸ A))
    return lib.svdInverse n U s V
  else do
    let _ ← liftFaer (lib.svd true n m A)
    .error .panic

/-- `faer_impl/inv.rs:8-56` `inv_f`. -/
def faerInv (lib : FaerLib α ρ) (mem : FaerMem α) (sys : Order) (dev : FaerDev) (a : Tensor α) : Res (OnDev α) := do
  if a.layout.ndim ≠ 2 then .error .invalidLayout
  else
    let A ← loadFaer a (a.layout.dimAt 0) (a.layout.dimAt 1)
    let X ← svdInv lib _ _ A
    contigOut mem sys dev.order X

/-- What is left in the tensor worked on after `faer` has written to it: `b.view_mut().into_faer()`, `b.clone_to_mut()`. -/
def solveFinish (dflt : Order) (b : Mutable α) {n k : Nat} (X : Matrix (Fin n) (Fin k) α) : Res (Mutable α) := do
  let d ← storeFaer b.view.data b.view.layout X
  (b.setData d).cloneToMut dflt

/-- `solve_general.rs:26-33`: `svd` of any matrix, `solve_in_place` for a square one and as many rows on the right. -/
def svdSolveIn (lib : FaerLib α ρ) (dflt : Order) (n m : Nat) (A : Matrix (Fin n) (Fin m) α) (b : TRef α) : Res (Mutable α) :=
  if h : m = n then do
    let (U, s, V) ← liftFaer (lib.svd true n n (h ▸ A))
    let b ← overwritableConvert dflt b
    let k := b.view.layout.dimAt 1
    faerAssert (b.view.layout.dimAt 0 = n)
    let B ← loadFaer b.view n k
    solveFinish dflt b (lib.svdSolve n k U s V B)
  else do
    let _ ← liftFaer (lib.svd true n m A)
    let _ ← overwritableConvert dflt b
    .error .panic

/-- `faer_impl/solve_general.rs:8-41` `faer_impl_solve_general_f`. The first argument is only viewed. -/
def faerRefSolve (lib : FaerLib α ρ) (dflt : Order) (a b : TRef α) : Res (Tensor α × Mutable α) := do
  let A ← loadFaer a.t (a.t.layout.dimAt 0) (a.t.layout.dimAt 1)
  return (a.t, ← svdSolveIn lib dflt _ _ A b)

/-- `faer_impl/solve_general.rs:43-167` `solve_general_f`. -/
def faerSolve (lib : FaerLib α ρ) (dflt : Order) (a b : TRef α) : Res (Tensor α × Tensor α) :=
  solveWith (faerRefSolve lib dflt) dflt a b

/-- `faer_impl/solve_triangular.rs:8-35` `faer_impl_solve_triangular_f`. -/
def faerRefTriangular (lib : FaerLib α ρ) (dflt : Order) (uplo : Option UpLo) (a b : TRef α) : Res (Tensor α × Mutable α) := do
  let u := uploOr dflt uplo
  let b ← overwritableConvert dflt b
  let n := a.t.layout.dimAt 0
  let k := b.view.layout.dimAt 1
  faerAssert (a.t.layout.dimAt 1 = n ∧ b.view.layout.dimAt 0 = n)
  let A ← loadFaer a.t n n
  let B ← loadFaer b.view n k
  return (a.t, ← solveFinish dflt b (lib.triSolve u n k A B))

/-- `faer_impl/solve_triangular.rs:39-183` `solve_triangular_f`. -/
def faerTriangularSolve (lib : FaerLib α ρ) (dflt : Order) (uplo : Option UpLo) (a b : TRef α) : Res (Tensor α × Tensor α) :=
  solveWith (faerRefTriangular lib dflt uplo) dflt a b

/-- `faer_impl/eigh.rs:8-51` `faer_impl_standard_eigh_f`, `185-248` `eigh_f` of one matrix. -/
def faerEigh (lib : FaerLib α ρ) (mem : FaerMem α) (sys : Order) (dev : FaerDev) (a : Tensor α) (uplo : Option UpLo) : Res (OnDev ρ × OnDev α) := do
  if a.layout.ndim ≠ 2 then .error .invalidLayout
  else
    let n := a.layout.dimAt 0
    faerAssert (a.layout.dimAt 1 = n)
    let A ← loadFaer a n n
    let (V, s) ← liftFaer (lib.eigen (uploOr dev.order uplo) n A)
    let w ← realsOut lib sys s
    let v ← contigOut mem sys dev.order V
    return (w, ⟨← orPanic (Tensor.intoOwned sys v.t), v.dev⟩)

/-- `faer_impl/eigvalsh.rs:7-108` `eigvalsh_f`: `asarray((result, &device))` is on the device of the argument. -/
def faerEigvalsh (lib : FaerLib α ρ) (dev : FaerDev) (a : Tensor α) (uplo : Option UpLo) : Res (OnDev ρ) := do
  if a.layout.ndim ≠ 2 then .error .invalidLayout
  else
    let n := a.layout.dimAt 0
    faerAssert (a.layout.dimAt 1 = n)
    let A ← loadFaer a n n
    let w ← liftFaer (lib.eigvals (uploOr dev.order uplo) n A)
    return ⟨valuesOf w, dev⟩

/-- One assignment of the loops at `eigh.rs:93-112`: an element is the image of another one. -/
def setFrom (f : α → α) (l : Layout) (src dst : Nat × Nat) (d : List α) : Res (List α) := do
  let x ← readAt d (l.addr [src.1, src.2]).toNat
  modifyAt d (l.addr [dst.1, dst.2]).toNat fun _ => f x

/-- `eigh.rs:89-113`: the other triangle of the copy of `a` is filled in, the diagonal made real. The steps are those of the loops, in their order: the
flag says whether an element below or above the diagonal is copied, else the element on it is made real. -/
def symSteps (u : UpLo) (n : Nat) : List (Bool × Nat × Nat) :=
  (List.range n).flatMap fun i =>
    (match u with
    | .L => (List.range i).map fun j => (true, i, j)
    | .U => (List.range' (i + 1) (n - (i + 1))).map fun j => (true, i, j)) ++ [(false, i, i)]

/-- The loops at `eigh.rs:93-112`. -/
def symmetrise [Star α] (lib : FaerLib α ρ) (u : UpLo) (n : Nat) (a : Tensor α) : Res (Tensor α) := do
  let d ← runAll (fun (x : Bool × Nat × Nat) c =>
    if x.1 then setFrom star a.layout x.2 (x.2.2, x.2.1) c else setFrom (fun v => lib.ofRe (lib.re v)) a.layout x.2 x.2 c) (symSteps u n) a.data
  return ⟨d, a.layout⟩

/-- `eigh.rs:119-169`: the problem reduced to one matrix, its eigenvalues, and the vectors carried back. `L` is the factor of the second matrix. -/
def genSolve [Star α] [Zero α] [One α] (lib : FaerLib α ρ) (u : UpLo) (itype : Int) {n : Nat} (L A : Matrix (Fin n) (Fin n) α) :
    Res ((Fin n → α) × Matrix (Fin n) (Fin n) α) := do
  if itype = 1 then
    let A := lib.triSolve .L n n L A
    let A := (lib.triSolve .L n n (L.map star) A.transpose).transpose
    let (V, s) ← liftFaer (lib.eigen u n A)
    return (s, lib.triSolve .U n n L.conjTranspose V)
  else
    let Li := lib.triSolve .L n n L 1
    let A := lib.triSolve .U n n Li.conjTranspose A
    let A := (lib.triSolve .U n n Li.transpose A.transpose).transpose
    let (V, s) ← liftFaer (lib.eigen u n A)
    return (s, if itype = 2 then lib.triSolve .U n n L.conjTranspose V else lib.triSolve .L n n Li V)

/-- `faer_impl/eigh.rs:53-180` `faer_impl_generalized_eigh_f`, `252-` `eigh_f` of two matrices. Whether `b` fits to `a` is only asserted by `faer`. -/
def faerEighGeneral [Star α] [Zero α] [One α] (lib : FaerLib α ρ) (mem : FaerMem α) (sys : Order) (dev : FaerDev) (a b : Tensor α) (uplo : Option UpLo)
    (itype : Int) : Res (OnDev ρ × OnDev α) := do
  if a.layout.ndim ≠ 2 then .error .invalidLayout
  else if b.layout.ndim ≠ 2 then .error .invalidLayout
  else if itype < 1 ∨ 3 < itype then .error .invalidLayout
  else if a.layout.dimAt 0 ≠ a.layout.dimAt 1 then .error .invalidLayout
  else
    let u := uploOr dev.order uplo
    let a ← orPanic (Tensor.intoOwned dev.order a)
    let n := a.layout.dimAt 0
    let a ← symmetrise lib u n a
    let k := b.layout.dimAt 0
    faerAssert (b.layout.dimAt 1 = k)
    let B ← loadFaer b k k
    let L ← liftFaer (lib.llt u k B)
    if h : k = n then
      let A ← loadFaer a n n
      let (s, C) ← genSolve lib u itype (h ▸ L) A
      let w ← realsOut lib sys s
      let v ← contigOut mem sys dev.order C
      return (w, ⟨← orPanic (Tensor.intoOwned sys v.t), v.dev⟩)
    else .error .panic

/-- `faer_impl/svd.rs:7-95` `svd_f`. -/
def faerSvd (lib : FaerLib α ρ) (mem : FaerMem α) (sys : Order) (dev : FaerDev) (a : Tensor α) (full : Bool := true) : Res (OnDev α × OnDev ρ × OnDev α) := do
  if a.layout.ndim ≠ 2 then .error .invalidLayout
  else
    let m := a.layout.dimAt 0
    let n := a.layout.dimAt 1
    let A ← loadFaer a m n
    let (U, s, V) ← liftFaer (lib.svd full m n A)
    let u ← orPanic (Tensor.intoOwned sys (← fromFaer mem U))
    let v ← fromFaer mem V
    let u ← orPanic (Tensor.intoContig sys u dev.order)
    let s ← realsOut lib sys s
    let s ← orPanic (Tensor.intoContig sys s.t dev.order)
    let vt ← orPanic (Tensor.intoContig sys ⟨v.data, v.layout.reverseAxes⟩ dev.order)
    return (⟨u, .dflt sys⟩, ⟨s, .dflt sys⟩, ⟨vt, .dflt sys⟩)

/-- `faer_impl/svdvals.rs:7-52` `svdvals_f`. -/
def faerSvdvals (lib : FaerLib α ρ) (dev : FaerDev) (a : Tensor α) : Res (OnDev ρ) := do
  if a.layout.ndim ≠ 2 then .error .invalidLayout
  else
    let A ← loadFaer a (a.layout.dimAt 0) (a.layout.dimAt 1)
    let s ← liftFaer (lib.svals _ _ A)
    return ⟨valuesOf s, dev⟩

/-- `pinv.rs:49` `s.raw().iter().max_by(…).unwrap()`: the last of the largest numbers; a panic if there is none. -/
def maxOfRaw [LinearOrder ρ] : List ρ → Res ρ
  | [] => .error .panic
  | x :: xs => .ok (xs.foldl max x)

/-- `faer_impl/pinv.rs:8-63` `faer_impl_pinv_f`, `65-117` `pinv_f` (both tolerances, or none). The tensor comes with the work that fills it: `%` is the product
on the device of `faer` (`Model/Faer`); `fresh` is what its storage holds before. -/
def faerPinv [LinearOrder ρ] [Zero ρ] [Add ρ] [Mul ρ] [NatCast ρ] [Star α] [DecidableEq α] (O : MatOps α α α) (one : α) (lib : FaerLib α ρ) (mem : FaerMem α)
    (sys : Order) (par : MatPar) (fresh : Nat → α) (eps : ρ) (scale : α → ρ → α) (a : Tensor α) (tol : Option (ρ × ρ)) : Res (Tensor α × Work α × Nat) := do
  if a.layout.ndim ≠ 2 then .error .invalidLayout
  else
    let m := a.layout.dimAt 0
    let n := a.layout.dimAt 1
    let atol := (tol.map (·.1)).getD 0
    let rtol := pinvRtol eps a.layout (tol.map (·.2))
    let A ← loadFaer a m n
    let (U, s, V) ← liftFaer (lib.svd false m n A)
    let u ← orPanic (Tensor.intoOwned sys (← fromFaer mem U))
    let v ← fromFaer mem V
    let s ← realsOut lib sys s
    let maxs ← maxOfRaw s.t.data
    let val := atol + rtol * maxs
    let rank := (s.t.data.takeWhile fun x => decide (val < x)).length
    let u ← u.sliced [Layout.fullSlice, upTo rank]
    let u ← orPanic (Tensor.assignOp sys u (← s.t.sliced [.insert, upTo rank]) scale)
    let v ← v.sliced [Layout.fullSlice, upTo rank]
    let uc ← orPanic (Tensor.map sys u star)
    let (c, w) ← orPanic (Tensor.matmulFaer O one sys par false fresh v uc.flipped one)
    return (c, w, rank)

end
end Rstsr
