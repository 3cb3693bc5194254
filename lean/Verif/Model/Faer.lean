import Verif.Model.Blas
/-!
# Model of matrix products on the device of `faer`

`rstsr-core/src/device_faer/matmul.rs` and `matmul_impl.rs`. The library `faer` itself is not modelled but specified:
`faerMatmul` and `faerTriangular` say what `faer::linalg::matmul::matmul` and `faer::linalg::matmul::triangular::matmul`
do to each cell of the destination. Reading outside a slice is the panic error.

Each kernel is a list of cell updates.
-/
namespace Rstsr
open Spec (Order Proc)

section
variable {α β γ : Type}

/-- `faer::Accum`. -/
inductive Accum where
  | replace
  | add

/-- One element of the destination of a product with factor `alpha`. -/
def faerCell (O : MatOps γ γ γ) (acc : Accum) (alpha sum v : γ) : γ :=
  match acc with
  | .replace => O.times alpha sum
  | .add => O.plus v (O.times alpha sum)

/-- The sum of products for one element; factors are given by pointer, shape and strides
(`MatRef::from_raw_parts`, `matmul_impl.rs:43-69`). -/
def faerSum (O : MatOps γ γ γ) (k : Nat) (a : List γ) (la : Layout) (b : List γ) (lb : Layout) (i j : Nat) : Res γ :=
  foldRes (dotFold O a b (fun p => .ok (la.addr [i, p])) fun p => .ok (lb.addr [p, j])) O.zero (List.range k)

/-- One element of the destination, given by pointer, shape and strides (`MatMut::from_raw_parts_mut`). -/
def faerUpd (lc : Layout) (i j : Nat) (f : γ → γ) : Res (Nat × (γ → γ)) :=
  if lc.addr [i, j] < 0 then .error .panic else .ok ((lc.addr [i, j]).toNat, f)

/-- `faer::linalg::matmul::matmul(c, acc, a, b, alpha, par)`. -/
def faerMatmul (O : MatOps γ γ γ) (acc : Accum) (lc : Layout) (a : List γ) (la : Layout) (b : List γ) (lb : Layout) (alpha : γ) :
    Res (List (Nat × (γ → γ))) :=
  List.flatten <$> (List.range (lc.dimAt 1)).mapM fun j => (List.range (lc.dimAt 0)).mapM fun i => do
    let sum ← faerSum O (la.dimAt 1) a la b lb i j
    faerUpd lc i j (faerCell O acc alpha sum)

/-- `faer::linalg::matmul::triangular::matmul` with a destination of structure `TriangularLower` and rectangular
factors: only `j ≤ i` is written. -/
def faerTriangular (O : MatOps γ γ γ) (acc : Accum) (lc : Layout) (a : List γ) (la : Layout) (b : List γ) (lb : Layout) (alpha : γ) :
    Res (List (Nat × (γ → γ))) :=
  List.flatten <$> (List.range (lc.dimAt 1)).mapM fun j => ((List.range (lc.dimAt 0)).filter fun i => j ≤ i).mapM fun i => do
    let sum ← faerSum O (la.dimAt 1) a la b lb i j
    faerUpd lc i j (faerCell O acc alpha sum)

/-- `matmul_impl.rs:19-102` `gemm_faer`. The pass that multiplies `C` by `beta` (`:81-91`) ends before the call of
`faer` begins, and both visit each cell once: here they are one update of the cell. Whether the pass fails is seen by
running it on the storage `c` as it is when the product begins. -/
def gemmFaer [DecidableEq γ] (O : MatOps γ γ γ) (one : γ) (dflt : Order) (c : List γ) (lc : Layout) (a : List γ) (la : Layout)
    (b : List γ) (lb : Layout) (alpha beta : γ) : Res (List (Nat × (γ → γ))) :=
  if lc.dimAt 0 ≠ la.dimAt 0 then .error .invalidLayout
  else if la.dimAt 1 ≠ lb.dimAt 0 then .error .invalidLayout
  else if lc.dimAt 1 ≠ lb.dimAt 1 then .error .invalidLayout
  else if beta = O.zero then faerMatmul O .replace lc a la b lb alpha
  else if beta = one then faerMatmul O .add lc a la b lb alpha
  else do
    let scale := fun v => O.times v beta
    let _ ← opMuta dflt c lc scale
    return (← faerMatmul O .add lc a la b lb alpha).map fun u => (u.1, fun v => u.2 (scale v))

/-- `matmul_impl.rs:108-200` `syrk_faer` for the lower triangle and `beta` zero, the only way it is called. -/
def syrkFaer (O : MatOps γ γ γ) (lc : Layout) (a : List γ) (la : Layout) (alpha : γ) : Res (List (Nat × (γ → γ))) :=
  if lc.dimAt 0 ≠ lc.dimAt 1 then .error .invalidLayout
  else if lc.dimAt 0 ≠ la.dimAt 0 then .error .invalidLayout
  else faerTriangular O .replace lc a la a la.reverseAxes alpha

/-- `matmul_impl.rs:202-250` `gemm_with_syrk_faer` for `beta` zero (it is called for no other `beta`, `matmul.rs:38`).
The copies (`:225-247`) read the cells `(i, j)`, `j < i`, that the product has written and that are not written any
more, and each writes the value read there. -/
def gemmWithSyrkFaer (O : MatOps γ γ γ) (lc : Layout) (a : List γ) (la : Layout) (alpha : γ) : Res (List (Nat × (γ → γ))) := do
  let lower ← syrkFaer O lc a la alpha
  let n := lc.dimAt 0
  let upper ← List.flatten <$> (List.range n).mapM fun i => (List.range i).mapM fun j => do
    let sum ← faerSum O (la.dimAt 1) a la a la.reverseAxes i j
    faerUpd lc j i fun _ => O.times alpha sum
  return lower ++ upper

/-- `matmul.rs:19-80` `gemm_faer_ix2_dispatch` for a type that `faer` knows. `same` says that both factors start at
the same address (they are views of one storage). -/
def faerDispatch [DecidableEq γ] (O : MatOps γ γ γ) (one : γ) (dflt : Order) (same : Bool) (c : List γ) (lc : Layout) (a : List γ)
    (la : Layout) (b : List γ) (lb : Layout) (alpha beta : γ) : Res (Proc γ) := do
  let ableSyrk := decide (beta = O.zero) && same && decide (la.offset = lb.offset) &&
    decide (la.shape = lb.reverseAxes.shape) && decide (la.stride = lb.reverseAxes.stride)
  let U ← if ableSyrk then gemmWithSyrkFaer O lc a la alpha else gemmFaer O one dflt c lc a la b lb alpha beta
  procLoop (fun u => .ok (.upd u.1 u.2)) U

/-- `matmul.rs:83-201` `matmul_row_major_faer`; `gemm` is the kernel for two matrices, its first argument a number
for the schedule it uses. Without a pool the number of threads is 1. -/
def matmulRowFaer (O : MatOps α β γ) (par : MatPar) (gemm : Nat → Layout → Layout → Layout → Res (Proc γ)) (c : List γ) (lc : Layout)
    (a : List α) (la : Layout) (b : List β) (lb : Layout) (alpha beta : γ) : Res (Work γ) :=
  match la.ndim, lb.ndim, lc.ndim with
  | 1, 1, 0 => Work.done <$> innerDotNaivePar O par.plan c lc a la b lb alpha beta
  | 2, 2, 2 => Work.threads <$> gemm 1 lc la lb
  | _, _, _ => do
    let cfg ← la.matmulWithLc lb lc
    match cfg.laRest, cfg.lbRest, cfg.lcRest with
    | some laR, some lbR, some lcR =>
      let g := fun (p : Nat × Nat × Nat) => gemm (p.2.2 + 1) (cfg.lcM.setOffset p.2.2) (cfg.laM.setOffset p.1) (cfg.lbM.setOffset p.2.1)
      let ia ← Iter.new .F laR
      let ib ← Iter.new .F lbR
      let ic ← Iter.new .F lcR
      if laR.size > 4 * par.threads then
        Work.threads <$> parIter3 (fun _ p => g p) (par.sched 0 (min ia.len (min ib.len ic.len)) 0) ia ib ic
      else
        let xs ← ia.toList
        let ys ← ib.toList
        let zs ← ic.toList
        Work.threads <$> procLoop g (xs.zip (ys.zip zs))
    | _, _, _ => .error .panic

/-- `matmul.rs:204-239` `matmul` of the device, for `f32`, `f64` and complex numbers, called by
`op_mutc_refa_refb_matmul` (`rstsr-core/src/tensor/linalg/matmul.rs:44-70`). -/
def Tensor.matmulFromFaer [DecidableEq γ] (O : MatOps γ γ γ) (one : γ) (dev : Order) (par : MatPar) (same : Bool) (c a b : Tensor γ)
    (alpha beta : γ) : Res (Work γ) :=
  match dev with
  | .C => matmulRowFaer O par (fun _ lc la lb => faerDispatch O one dev same c.data lc a.data la b.data lb alpha beta) c.data c.layout
      a.data a.layout b.data b.layout alpha beta
  | .F => matmulRowFaer O par (fun _ lc lb la => faerDispatch O one dev same c.data lc b.data lb a.data la alpha beta) c.data
      c.layout.reverseAxes b.data b.layout.reverseAxes a.data a.layout.reverseAxes alpha beta

/-- The same for all other element types (`matmul.rs:74-79`): the naive kernel. -/
def Tensor.matmulFromFaerOther (O : MatOps α β γ) (mul' : β → α → γ) (dev : Order) (par : MatPar) (c : Tensor γ) (a : Tensor α)
    (b : Tensor β) (alpha beta : γ) : Res (Work γ) :=
  match dev with
  | .C => matmulRowFaer O par (fun s lc la lb => gemmNaivePar O (par.sched s) lc a.data la b.data lb alpha beta) c.data c.layout
      a.data a.layout b.data b.layout alpha beta
  | .F => matmulRowFaer (O.swap mul') par (fun s lc lb la => gemmNaivePar (O.swap mul') (par.sched s) lc b.data lb a.data la alpha beta)
      c.data c.layout.reverseAxes b.data b.layout.reverseAxes a.data a.layout.reverseAxes alpha beta

/-- `matmul` (and `%`) on this device, for the number types of `faer`, see `Tensor.matmul`. -/
def Tensor.matmulFaer [DecidableEq γ] (O : MatOps γ γ γ) (one : γ) (dev : Order) (par : MatPar) (same : Bool) (fresh : Nat → γ)
    (a b : Tensor γ) (alpha : γ) : Res (Tensor γ × Work γ) := do
  let cfg ← a.layout.matmulCfg b.layout dev
  let (_, n) ← cfg.lc.boundsIndex
  let c : Tensor γ := ⟨(List.range n.toNat).map fresh, cfg.lc⟩
  return (c, ← Tensor.matmulFromFaer O one dev par same c a b alpha O.zero)

end
end Rstsr
