import Verif.Model.Matmul
import Verif.Model.Copy
/-!
# Model of matrix products on the BLAS devices

`crates-device/rstsr-openblas/src/matmul_impl.rs` and `matmul.rs`; the files of `rstsr-mkl`, `rstsr-aocl`, `rstsr-blis`
and `rstsr-kml` have the same text up to comments and tests. The BLAS library itself is not modelled but specified: `blasGemm` and `blasSyrk`
say what the reference implementation of `?gemm` and `?syrk` does to each cell of `C`. A leading dimension that BLAS
refuses is the panic error, and so is reading outside a slice. `blas_int` is unbounded.

Each kernel is a list of cell updates. Copies into private buffers (`assign_cpu_rayon`) are taken serially, which
gives the same buffer (property C37).
-/
namespace Rstsr
open Spec (Order Proc)

section
variable {α β γ : Type}

/-- `alpha * sum + beta * v`, where BLAS does not read `C` if `beta` is zero. -/
def blasCell [DecidableEq γ] (O : MatOps γ γ γ) (alpha sum beta v : γ) : γ :=
  if beta = O.zero then O.times alpha sum else O.plus (O.times alpha sum) (O.times beta v)

/-- Position of element `(i, j)` of `op(A)` in column-major storage. -/
def blasPos (trans : Bool) (off ld : Int) (i j : Nat) : Int :=
  if trans then off + j + i * ld else off + i + j * ld

/-- The sum of products for one element of `op(A) op(B)`. -/
def blasSum (O : MatOps γ γ γ) (ta tb : Bool) (k : Nat) (a : List γ) (oa lda : Int) (b : List γ) (ob ldb : Int) (i j : Nat) : Res γ :=
  foldRes (dotFold O a b (fun p => .ok (blasPos ta oa lda i p)) fun p => .ok (blasPos tb ob ldb p j)) O.zero (List.range k)

/-- One element of `C`. -/
def blasUpd (oc ldc : Int) (i j : Nat) (f : γ → γ) : Res (Nat × (γ → γ)) :=
  let ic := blasPos false oc ldc i j
  if ic < 0 then .error .panic else .ok (ic.toNat, f)

/-- `cblas_?gemm(ColMajor, transa, transb, m, n, k, alpha, a, lda, b, ldb, beta, c, ldc)`
(`matmul_impl.rs:134-280` only convert types). -/
def blasGemm [DecidableEq γ] (O : MatOps γ γ γ) (ta tb : Bool) (m n k : Nat) (alpha : γ) (a : List γ) (oa lda : Int)
    (b : List γ) (ob ldb : Int) (beta : γ) (oc ldc : Int) : Res (List (Nat × (γ → γ))) :=
  if lda < max 1 (if ta then k else m) ∨ ldb < max 1 (if tb then n else k) ∨ ldc < max 1 m then .error .panic
  else List.flatten <$> (List.range n).mapM fun j => (List.range m).mapM fun i => do
    let sum ← blasSum O ta tb k a oa lda b ob ldb i j
    blasUpd oc ldc i j (blasCell O alpha sum beta)

/-- `cblas_?syrk(ColMajor, Upper, trans, n, k, alpha, a, lda, beta, c, ldc)`: only `i ≤ j` is written
(`matmul_impl.rs:388-510` only convert types). -/
def blasSyrk [DecidableEq γ] (O : MatOps γ γ γ) (ta : Bool) (n k : Nat) (alpha : γ) (a : List γ) (oa lda : Int)
    (beta : γ) (oc ldc : Int) : Res (List (Nat × (γ → γ))) :=
  if lda < max 1 (if ta then k else n) ∨ ldc < max 1 n then .error .panic
  else List.flatten <$> (List.range n).mapM fun j => (List.range (j + 1)).mapM fun i => do
    let sum ← blasSum O ta (!ta) k a oa lda a oa lda i j
    blasUpd oc ldc i j (blasCell O alpha sum beta)

/-- `matmul_impl.rs:92-113` (and `344-354`): use a factor as it is, transposed, or copied into a
new column-major buffer. -/
def blasOperand (dflt : Order) (a : List γ) (la : Layout) : Res (Bool × List γ × Layout) :=
  if la.fPrefer then .ok (false, a, la)
  else if la.cPrefer then .ok (true, a, la.reverseAxes)
  else do
    let l := Layout.newFContigFixed la.shape 0
    let d ← assign dflt (uninit (la.size : Int)) l a la some
    return (false, ← assumeInit d, l)

/-- `matmul_impl.rs:117-119` leading dimension. -/
def leadDim (l : Layout) : Int := if l.dimAt 1 ≠ 1 then l.stride.getD 1 0 else l.dimAt 0

/-- `fill_cpu_rayon(c, lc, 0, pool)`: every cell once, in any order. -/
def blasFill (O : MatOps γ γ γ) (lc : Layout) : Res (List (Nat × (γ → γ))) := do
  return (← colItems lc).map fun i => (i, fun _ => O.zero)

/-- `matmul_impl.rs:65-131`, the part of `gemm_blas_no_conj_*` for an `f_prefer` result. -/
def gemmBlasF [DecidableEq γ] (O : MatOps γ γ γ) (dflt : Order) (lc : Layout) (a : List γ) (la : Layout) (b : List γ) (lb : Layout)
    (alpha beta : γ) : Res (List (Nat × (γ → γ))) :=
  if lc.dimAt 0 ≠ la.dimAt 0 then .error .invalidLayout
  else if la.dimAt 1 ≠ lb.dimAt 0 then .error .invalidLayout
  else if lc.dimAt 1 ≠ lb.dimAt 1 then .error .invalidLayout
  else
    let (m, n, k) := (lc.dimAt 0, lc.dimAt 1, la.dimAt 1)
    if k = 0 then blasFill O lc
    else if n = 0 ∨ m = 0 then .ok []
    else do
      let (ta, a, la) ← blasOperand dflt a la
      let (tb, b, lb) ← blasOperand dflt b lb
      blasGemm O ta tb m n k alpha a la.offset (leadDim la) b lb.offset (leadDim lb) beta lc.offset (leadDim lc)

/-- `matmul_impl.rs:51-61`, `311-317`: compute into a new column-major buffer and copy the elements back. The buffer
is filled with zeros, or with `C` when `beta` is not zero; `kernel` is called with `beta` zero and does not
read it, so that copy is dropped here. -/
def viaBuffer (O : MatOps γ γ γ) (lc : Layout) (kernel : Layout → Res (List (Nat × (γ → γ)))) : Res (List (Nat × (γ → γ))) := do
  let l := Layout.newFContigFixed lc.shape 0
  let d ← runAll (fun u c => modifyAt c u.1 u.2) (← kernel l) (List.replicate l.size O.zero)
  let xs ← colItems lc
  let ys ← colItems l
  (xs.zip ys).mapM fun p => do
    let v ← readAt d p.2
    return (p.1, fun _ => v)

/-- `matmul_impl.rs:21-133` `gemm_blas_no_conj_*`. A `c_prefer` result is transposed and the function called again,
which then takes the first branch; so does the call with a new buffer. -/
def gemmBlas [DecidableEq γ] (O : MatOps γ γ γ) (dflt : Order) (lc : Layout) (a : List γ) (la : Layout) (b : List γ) (lb : Layout)
    (alpha beta : γ) : Res (List (Nat × (γ → γ))) :=
  if lc.fPrefer then gemmBlasF O dflt lc a la b lb alpha beta
  else if lc.cPrefer then gemmBlasF O dflt lc.reverseAxes b lb.reverseAxes a la.reverseAxes alpha beta
  else viaBuffer O lc fun l => gemmBlasF O dflt l a la b lb alpha O.zero

/-- `matmul_impl.rs:321-385`, the part of `syrk_blas_no_conj_*` for an `f_prefer` result. The second loop
(`370-384`) reads cells `(j, i)` that the call of `syrk` has written and that no thread writes any more; what is read
is the value written there. -/
def syrkBlasF [DecidableEq γ] (O : MatOps γ γ γ) (dflt : Order) (lc : Layout) (a : List γ) (la : Layout) (alpha : γ) :
    Res (List (Nat × (γ → γ))) :=
  if lc.dimAt 0 ≠ la.dimAt 0 then .error .invalidLayout
  else if lc.dimAt 1 ≠ lc.dimAt 0 then .error .invalidLayout
  else
    let (n, k) := (lc.dimAt 0, la.dimAt 1)
    if k = 0 then blasFill O lc
    else if n = 0 then .ok []
    else do
      let (ta, a, la) ← blasOperand dflt a la
      let upper ← blasSyrk O ta n k alpha a la.offset (leadDim la) O.zero lc.offset (leadDim lc)
      let ldc := lc.stride.getD 1 0
      let lower ← List.flatten <$> (List.range n).mapM fun j => ((List.range n).filter fun i => j < i).mapM fun i => do
        let sum ← blasSum O ta (!ta) k a la.offset (leadDim la) a la.offset (leadDim la) j i
        blasUpd lc.offset ldc i j fun _ => O.times alpha sum
      return upper ++ lower

/-- `matmul_impl.rs:286-386` `syrk_blas_no_conj_*`. -/
def syrkBlas [DecidableEq γ] (O : MatOps γ γ γ) (dflt : Order) (lc : Layout) (a : List γ) (la : Layout) (alpha : γ) :
    Res (List (Nat × (γ → γ))) :=
  if lc.fPrefer then syrkBlasF O dflt lc a la alpha
  else if lc.cPrefer then syrkBlasF O dflt lc.reverseAxes a la alpha
  else viaBuffer O lc fun l => syrkBlasF O dflt l a la alpha

/-- `matmul.rs:16-77` `gemm_blas_ix2_no_conj_dispatch` for a type that BLAS knows. `same` says that both factors start at
the same address (they are views of one storage). -/
def gemmDispatch [DecidableEq γ] (O : MatOps γ γ γ) (dflt : Order) (same : Bool) (lc : Layout) (a : List γ) (la : Layout)
    (b : List γ) (lb : Layout) (alpha beta : γ) : Res (Proc γ) := do
  let ableSyrk := decide (beta = O.zero) && same && decide (la.offset = lb.offset) &&
    decide (la.shape = lb.reverseAxes.shape) && decide (la.stride = lb.reverseAxes.stride)
  let U ← if ableSyrk then syrkBlas O dflt lc a la alpha else gemmBlas O dflt lc a la b lb alpha beta
  procLoop (fun u => .ok (.upd u.1 u.2)) U

/-- `matmul.rs:80-207` `matmul_row_major_blas`; `gemm` is the kernel for two matrices, its first argument a number
for the schedule it uses. Without a pool the number of threads is 1. -/
def matmulRowBlas (O : MatOps α β γ) (par : MatPar) (gemm : Nat → Layout → Layout → Layout → Res (Proc γ)) (c : List γ) (lc : Layout)
    (a : List α) (la : Layout) (b : List β) (lb : Layout) (alpha beta : γ) : Res (Work γ) :=
  if lc.size = 0 then .ok (.done c)
  else match la.ndim, lb.ndim, lc.ndim with
  | 1, 1, 0 => Work.done <$> innerDotNaivePar O par.plan c lc a la b lb alpha beta
  | 2, 2, 2 => Work.threads <$> gemm 1 lc la lb
  | _, _, _ => do
    let cfg ← la.matmulWithLc lb lc
    match cfg.laRest, cfg.lbRest, cfg.lcRest with
    | some laR, some lbR, some lcR =>
      let g := fun (p : Nat × Nat × Nat) => gemm (p.2.2 + 1) (cfg.lcM.setOffset p.2.2) (cfg.laM.setOffset p.1) (cfg.lbM.setOffset p.2.1)
      let ia ← Iter.new .F laR
      let ib ← Iter.new .F lbR
      let ic ← Iter.new .F lcR
      if laR.size ≥ 4 * par.threads then
        Work.threads <$> parIter3 (fun _ p => g p) (par.sched 0 (min ia.len (min ib.len ic.len)) 0) ia ib ic
      else
        let xs ← ia.toList
        let ys ← ib.toList
        let zs ← ic.toList
        Work.threads <$> procLoop g (xs.zip (ys.zip zs))
    | _, _, _ => .error .panic

/-- `matmul.rs:210-247` `matmul` of the device, for `f32`, `f64` and complex numbers, called by
`op_mutc_refa_refb_matmul` (`rstsr-core/src/tensor/linalg/matmul.rs:44-70`). -/
def Tensor.matmulFromBlas [DecidableEq γ] (O : MatOps γ γ γ) (dev : Order) (par : MatPar) (same : Bool) (c a b : Tensor γ)
    (alpha beta : γ) : Res (Work γ) :=
  match dev with
  | .C => matmulRowBlas O par (fun _ lc la lb => gemmDispatch O dev same lc a.data la b.data lb alpha beta) c.data c.layout
      a.data a.layout b.data b.layout alpha beta
  | .F => matmulRowBlas O par (fun _ lc lb la => gemmDispatch O dev same lc b.data lb a.data la alpha beta) c.data
      c.layout.reverseAxes b.data b.layout.reverseAxes a.data a.layout.reverseAxes alpha beta

/-- The same for all other element types (`matmul.rs:71-76`): the naive kernel. -/
def Tensor.matmulFromOther (O : MatOps α β γ) (mul' : β → α → γ) (dev : Order) (par : MatPar) (c : Tensor γ) (a : Tensor α)
    (b : Tensor β) (alpha beta : γ) : Res (Work γ) :=
  match dev with
  | .C => matmulRowBlas O par (fun s lc la lb => gemmNaivePar O (par.sched s) lc a.data la b.data lb alpha beta) c.data c.layout
      a.data a.layout b.data b.layout alpha beta
  | .F => matmulRowBlas (O.swap mul') par (fun s lc lb la => gemmNaivePar (O.swap mul') (par.sched s) lc b.data lb a.data la alpha beta)
      c.data c.layout.reverseAxes b.data b.layout.reverseAxes a.data a.layout.reverseAxes alpha beta

/-- `matmul` (and `%`) on these devices, for the number types of BLAS, see `Tensor.matmul`. -/
def Tensor.matmulBlas [DecidableEq γ] (O : MatOps γ γ γ) (dev : Order) (par : MatPar) (same : Bool) (fresh : Nat → γ)
    (a b : Tensor γ) (alpha : γ) : Res (Tensor γ × Work γ) := do
  let cfg ← a.layout.matmulCfg b.layout dev
  let (_, n) ← cfg.lc.boundsIndex
  let c : Tensor γ := ⟨(List.range n.toNat).map fresh, cfg.lc⟩
  return (c, ← Tensor.matmulFromBlas O dev par same c a b alpha O.zero)

end
end Rstsr
