import Verif.Model.Linalg
import Verif.Model.LinalgSym
import Verif.Model.Elementwise
import Verif.Spec.Blas3
/-!
# Model of the BLAS level 3 builders `TRSM`, `GEMM`, `SYHEMM` and of `solve_triangular`

`rstsr-blas-traits/src/blas3/{trsm,gemm,syhemm}.rs`, `rstsr-blas-traits/src/util/*.rs`,
`rstsr-blas-traits/driver_impl/cblas/blas3/*.rs`, `rstsr-linalg-traits/src/{ref_impl_blas,blas_impl/solve_triangular}.rs`. The
drivers pass their arguments on to cblas. BLAS itself is a parameter, a function on matrices for each routine. All tensors are on
one device. The flag `FlagTrans::CN` (conjugation without transposition) is not modelled.
-/
namespace Rstsr
open Spec (Order UpLo Side Trans Diag)

section
variable {α : Type}

/-- The routines of BLAS: column-major matrices in, the matrix that is written out. -/
structure Blas3 (α : Type) where
  trsm : (s : Side) → UpLo → Trans → Diag → (m n : Nat) → α → Matrix (Fin (s.dim m n)) (Fin (s.dim m n)) α →
    Matrix (Fin m) (Fin n) α → Matrix (Fin m) (Fin n) α
  gemm : (ta tb : Trans) → (m n k : Nat) → α → Matrix (Fin (ta.rows m k)) (Fin (ta.cols m k)) α →
    Matrix (Fin (tb.rows k n)) (Fin (tb.cols k n)) α → α → Matrix (Fin m) (Fin n) α → Matrix (Fin m) (Fin n) α
  symm : (hermi : Bool) → (s : Side) → UpLo → (m n : Nat) → α → Matrix (Fin (s.dim m n)) (Fin (s.dim m n)) α →
    Matrix (Fin m) (Fin n) α → α → Matrix (Fin m) (Fin n) α → Matrix (Fin m) (Fin n) α

/-! ## Flags and orders -/

/-- `rstsr-common/src/flags.rs:556-563` `FlagUpLo::flip`. -/
def flipUpLo : UpLo → UpLo
  | .U => .L
  | .L => .U

/-- `flags.rs:547-554` `FlagSide::flip`. -/
def flipSide : Side → Side
  | .L => .R
  | .R => .L

/-- `rstsr-blas-traits/src/util/util_layout.rs:3-24` `get_output_order`. -/
def outputOrder (byAll : List (Bool × Bool)) (dflt : Order) : List (Option (Bool × Bool)) → Order
  | some (true, false) :: _ => .C
  | some (false, true) :: _ => .F
  | _ :: rest => outputOrder byAll dflt rest
  | [] => if byAll.any (·.1) then .C else if byAll.any (·.2) then .F else dflt

/-- `blas3/trsm.rs:62-65`, `gemm.rs:56-59`, `syhemm.rs:61-64`: the order asked for as (`c_prefer`, `f_prefer`). -/
def orderFlags : Order → Bool × Bool
  | .F => (true, false)
  | .C => (false, true)

/-- `(b.c_prefer(), b.f_prefer())` (`trsm.rs:61`). -/
def prefFlags (l : Layout) : Bool × Bool := (l.cPrefer, l.fPrefer)

/-- `rstsr-core/src/tensor/manipulation/transpose.rs` `into_reverse_axes`, `t`. -/
def Tensor.flipped (t : Tensor α) : Tensor α := ⟨t.data, t.layout.reverseAxes⟩

/-- `TensorReference::into_reverse_axes`. -/
def TRef.flipped (a : TRef α) : TRef α := ⟨a.t.flipped, a.mutable⟩

/-- `rstsr-core/src/tensor/tensor_mutable.rs:93-101` `into_reverse_axes`. -/
def Mutable.flipped : Mutable α → Mutable α
  | owned t => owned t.flipped
  | inPlace t => inPlace t.flipped
  | toBeCloned t buf => toBeCloned t.flipped buf.flipped

/-- `order == C && x.c_prefer() || order == F && x.f_prefer()` (`util_tensor.rs:76`, `to_contig.rs:238`). -/
def prefersB (order : Order) (l : Layout) : Bool := match order with
  | .C => l.cPrefer
  | .F => l.fPrefer

/-- `rstsr-core/src/tensor/manipulation/to_contig.rs:229-243` `change_prefer_f`. -/
def Tensor.changePrefer (dflt : Order) (a : Tensor α) (order : Order) : Res (Tensor α) :=
  if prefersB order a.layout then .ok a else Tensor.changeContig dflt a order

/-- `rstsr-blas-traits/src/util/util_tensor.rs:61-92` `flip_trans` with `hermi = false`, the value that all callers pass. -/
def flipTrans [Star α] (dflt order : Order) (t : Trans) (a : Tensor α) : Res (Trans × Tensor α) :=
  if prefersB order a.layout then .ok (t, a)
  else match t with
    | .N => do return (.T, ← orPanic (a.flipped.changePrefer dflt order))
    | .T => do return (.N, ← orPanic (a.flipped.changePrefer dflt order))
    | .C => do return (.N, ← orPanic (do Tensor.map dflt (← a.flipped.changePrefer dflt order) star))

/-- A leading dimension that BLAS refuses: it calls its error handler, which ends the program or prints a message; taken as a panic. -/
def blasLd (ld : Int) (m : Nat) : Res Unit := if ld < max 1 m then .error .panic else .ok ()

/-! ## `TRSM` -/

/-- `rstsr-blas-traits/src/blas3/trsm.rs:100-132` `TRSM::internal_run`: the pointers are those of the storage, without the
offsets of the layouts, and the leading dimension of `b` is its number of rows. -/
def trsmInternal (lib : Blas3 α) (dflt : Order) (alpha : α) (s : Side) (u : UpLo) (t : Trans) (d : Diag) (a : Tensor α) (b : TRef α) :
    Res (Mutable α) := do
  if !a.layout.fPrefer then .error .runtimeError
  else
    let m := b.t.layout.dimAt 0
    let n := b.t.layout.dimAt 1
    let lda ← ldUnwrap a.layout .F
    if a.layout.shape ≠ [s.dim m n, s.dim m n] then .error .invalidLayout
    else
      let b ← overwritableConvertWithOrder dflt b .F
      blasLd lda (s.dim m n)
      blasLd m m
      let A ← loadMat a.data 0 lda (s.dim m n) (s.dim m n)
      let B ← loadMat b.view.data 0 m m n
      (b.setData (storeMat b.view.data 0 m (lib.trsm s u t d m n alpha A B))).cloneToMut dflt

/-- `trsm.rs:51-98` `TRSM::run`. -/
def trsmRun [Star α] (lib : Blas3 α) (dflt : Order) (alpha : α) (s : Side) (uplo : Option UpLo) (t : Trans) (d : Diag) (order : Option Order)
    (a : Tensor α) (b : TRef α) : Res (Mutable α) := do
  let u := uploOr dflt uplo
  match outputOrder [] dflt [order.map orderFlags, some (prefFlags b.t.layout)] with
  | .F =>
    let (t', a') ← flipTrans dflt .F t a
    let u := if t' ≠ t then flipUpLo u else u
    trsmInternal lib dflt alpha s u t' d a' b
  | .C =>
    let (t', a') ← flipTrans dflt .C t a
    let u := if t' ≠ t then flipUpLo u else u
    let x ← trsmInternal lib dflt alpha (flipSide s) (flipUpLo u) t' d a'.flipped b.flipped
    return x.flipped

/-- `rstsr-linalg-traits/src/ref_impl_blas.rs:205-220` `ref_impl_solve_triangular_f`; `a` is only viewed. -/
def refSolveTriangular [Star α] [One α] (lib : Blas3 α) (dflt : Order) (uplo : Option UpLo) (a b : TRef α) : Res (Tensor α × Mutable α) := do
  let x ← trsmRun lib dflt 1 .L uplo .N .nonUnit none a.t b
  return (a.t, ← x.cloneToMut dflt)

/-- `rstsr-linalg-traits/src/blas_impl/solve_triangular.rs:6-138` `solve_triangular_f`. -/
def solveTriangular [Star α] [One α] (lib : Blas3 α) (dflt : Order) (uplo : Option UpLo) (a b : TRef α) : Res (Tensor α × Tensor α) :=
  solveWith (refSolveTriangular lib dflt uplo) dflt a b

/-! ## `GEMM`, `SYMM`, `HEMM` -/

/-- `blas3/gemm.rs:121-133`, `syhemm.rs:122-133`: where the product goes. A given `c` is written in place if its storage is
column-major, otherwise through a copy. -/
def productOut [Zero α] (dflt : Order) (m n : Nat) : Option (Tensor α) → Res (Mutable α)
  | some c =>
    if c.layout.shape ≠ [m, n] then .error .invalidLayout
    else if c.layout.fPrefer then .ok (.inPlace c)
    else do return .toBeCloned c (← Tensor.intoContig dflt c .F)
  | none => do
    let l := Layout.newFContig [m, n] 0
    let (_, k) ← l.boundsIndex
    return .owned ⟨List.replicate k.toNat 0, l⟩

/-- `gemm.rs:100-110`: rows that are meant. -/
def opRows : Trans → Layout → Nat
  | .N, l => l.dimAt 0
  | _, l => l.dimAt 1

/-- The columns. -/
def opCols : Trans → Layout → Nat
  | .N, l => l.dimAt 1
  | _, l => l.dimAt 0

/-- `rstsr-blas-traits/src/blas3/gemm.rs:88-146` `GEMM::internal_run`: pointers without offsets, leading dimension of `c` its number of rows. -/
def gemmInternal [Zero α] (lib : Blas3 α) (dflt : Order) (alpha beta : α) (ta tb : Trans) (a b : Tensor α) (c : Option (Tensor α)) :
    Res (Mutable α) := do
  if !a.layout.fPrefer then .error .runtimeError
  else if !b.layout.fPrefer then .error .runtimeError
  else
    let m := opRows ta a.layout
    let k := opCols ta a.layout
    let n := opCols tb b.layout
    let lda ← ldUnwrap a.layout .F
    let ldb ← ldUnwrap b.layout .F
    if opRows tb b.layout ≠ k then .error .invalidLayout
    else
      let c ← productOut dflt m n c
      blasLd lda (ta.rows m k)
      blasLd ldb (tb.rows k n)
      blasLd m m
      let A ← loadMat a.data 0 lda (ta.rows m k) (ta.cols m k)
      let B ← loadMat b.data 0 ldb (tb.rows k n) (tb.cols k n)
      let C ← loadMat c.view.data 0 m m n
      (c.setData (storeMat c.view.data 0 m (lib.gemm ta tb m n k alpha A B beta C))).cloneToMut dflt

/-- `gemm.rs:51-86` `GEMM::run`. -/
def gemmRun [Star α] [Zero α] (lib : Blas3 α) (dflt : Order) (alpha beta : α) (ta tb : Trans) (order : Option Order) (a b : Tensor α)
    (c : Option (Tensor α)) : Res (Mutable α) := do
  match outputOrder [] dflt [order.map orderFlags, c.map fun c => prefFlags c.layout] with
  | .F =>
    let (ta', a') ← flipTrans dflt .F ta a
    let (tb', b') ← flipTrans dflt .F tb b
    gemmInternal lib dflt alpha beta ta' tb' a' b' c
  | .C =>
    let (ta', a') ← flipTrans dflt .C ta a
    let (tb', b') ← flipTrans dflt .C tb b
    let x ← gemmInternal lib dflt alpha beta tb' ta' b'.flipped a'.flipped (c.map Tensor.flipped)
    return x.flipped

/-- `rstsr-blas-traits/src/blas3/syhemm.rs:94-145` `SYHEMM::internal_run`: the number of columns is taken from `a`. -/
def symmInternal [Zero α] (lib : Blas3 α) (hermi : Bool) (dflt : Order) (alpha beta : α) (s : Side) (u : UpLo) (a b : Tensor α)
    (c : Option (Tensor α)) : Res (Mutable α) := do
  if !a.layout.fPrefer then .error .runtimeError
  else if !b.layout.fPrefer then .error .runtimeError
  else
    let m := b.layout.dimAt 0
    let n := a.layout.dimAt 1
    let lda ← ldUnwrap a.layout .F
    let ldb ← ldUnwrap b.layout .F
    if a.layout.shape ≠ [s.dim m n, s.dim m n] then .error .invalidLayout
    else
      let c ← productOut dflt m n c
      blasLd lda (s.dim m n)
      blasLd ldb m
      blasLd m m
      let A ← loadMat a.data 0 lda (s.dim m n) (s.dim m n)
      let B ← loadMat b.data 0 ldb m n
      let C ← loadMat c.view.data 0 m m n
      (c.setData (storeMat c.view.data 0 m (lib.symm hermi s u m n alpha A B beta C))).cloneToMut dflt

/-- `syhemm.rs:54-92` `SYHEMM::run`; `hermi` is the constant `HERMI`. -/
def symmRun [Zero α] (lib : Blas3 α) (hermi : Bool) (dflt : Order) (alpha beta : α) (s : Side) (u : UpLo) (order : Option Order) (a b : Tensor α)
    (c : Option (Tensor α)) : Res (Mutable α) := do
  match outputOrder [] dflt [order.map orderFlags, c.map fun c => prefFlags c.layout] with
  | .F =>
    let u := if !hermi && !a.layout.fPrefer then flipUpLo u else u
    let a' ← Tensor.changeContig dflt a .F
    let b' ← Tensor.changeContig dflt b .F
    symmInternal lib hermi dflt alpha beta s u a' b' c
  | .C =>
    let u := if !hermi && !a.layout.cPrefer then flipUpLo u else u
    let a' ← Tensor.changeContig dflt a .C
    let b' ← Tensor.changeContig dflt b .C
    let x ← symmInternal lib hermi dflt alpha beta (flipSide s) (flipUpLo u) a'.flipped b'.flipped (c.map Tensor.flipped)
    return x.flipped

end
end Rstsr
