import Verif.Model.Matmul
/-!
# Model of the blocked change between row-major and column-major matrices

`rstsr-native-impl/src/cpu_serial/transpose.rs` and `cpu_rayon/transpose.rs`. The layouts have rank two by their
type (`Layout<Ix2>`); other ranks are the panic error here.
-/
namespace Rstsr
open Spec (Order Proc)

section
variable {γ : Type}

/-- `transpose.rs:5` `BLOCK_SIZE`. -/
def blockSize : Nat := 64

/-- `(0..n).step_by(BLOCK_SIZE)` (`transpose.rs:31, 34`). -/
def blockStarts (n : Nat) : List Nat := (List.range ((n + blockSize - 1) / blockSize)).map (blockSize * ·)

/-- `start..(start + BLOCK_SIZE).min(n)` (`transpose.rs:32-38`). -/
def blockOf (n start : Nat) : List Nat := List.range' start (min (start + blockSize) n - start)

/-- The loops, once the checks have passed: `transpose.rs:31-45`. -/
def orderLoop (c a : List γ) (nrow ncol : Nat) (offA offC lda ldc : Int) : Res (List γ) :=
  runAll (fun (js : Nat) c => runAll (fun (is : Nat) c =>
    runAll (fun (j : Nat) c => runAll (fun (i : Nat) c => do
      let x ← readInt a (offA + i * lda + j)
      modifyInt c (offC + j * ldc + i) fun _ => x) (blockOf nrow is) c) (blockOf ncol js) c) (blockStarts nrow) c) (blockStarts ncol) c

/-- `transpose.rs:11-48` `orderchange_out_r2c_ix2_cpu_serial`. -/
def orderR2C (c : List γ) (lc : Layout) (a : List γ) (la : Layout) : Res (List γ) :=
  match lc.axes, la.axes with
  | [c0, c1], [a0, a1] =>
    if c0.dim ≠ a0.dim then .error .invalidLayout
    else if c1.dim ≠ a1.dim then .error .invalidLayout
    else if c0.str ≠ 1 then .error .invalidLayout
    else if a1.str ≠ 1 then .error .invalidLayout
    else orderLoop c a a0.dim a1.dim la.offset lc.offset a0.str c1.str
  | _, _ => .error .panic

/-- `transpose.rs:54-61` `orderchange_out_c2r_ix2_cpu_serial`. -/
def orderC2R (c : List γ) (lc : Layout) (a : List γ) (la : Layout) : Res (List γ) :=
  orderR2C c lc.reverseAxes a la.reverseAxes

/-- How the two nested parallel loops are divided among threads: the outer one, and the inner one of each block column. -/
structure BlockPlan where
  outer : Plan
  inner : Nat → Plan

/-- `cpu_rayon/transpose.rs:46-64`: the loops on threads. Writes go through a raw pointer, without a check. -/
def orderLoopPar (s : BlockPlan) (a : List γ) (nrow ncol : Nat) (offA offC lda ldc : Int) : Res (Proc γ) :=
  parRange (fun js => parRange (fun is =>
    procLoop (fun (j : Nat) => procLoop (fun (i : Nat) => do
      let x ← readInt a (offA + i * lda + j)
      let k ← toUsize (offC + j * ldc + i)
      return .upd k fun _ => x) (blockOf nrow is)) (blockOf ncol js)) (s.inner js) (blockStarts nrow)) s.outer (blockStarts ncol)

/-- `cpu_rayon/transpose.rs:15-67` `orderchange_out_r2c_ix2_cpu_rayon_no_pool`. -/
def orderR2CNoPool (s : BlockPlan) (c : List γ) (lc : Layout) (a : List γ) (la : Layout) : Res (Work γ) :=
  if lc.size < 16 * blockSize * blockSize then Work.done <$> orderR2C c lc a la
  else
    match lc.axes, la.axes with
    | [c0, c1], [a0, a1] =>
      if c0.dim ≠ a0.dim then .error .invalidLayout
      else if c1.dim ≠ a1.dim then .error .invalidLayout
      else if c0.str ≠ 1 then .error .invalidLayout
      else if a1.str ≠ 1 then .error .invalidLayout
      else Work.threads <$> orderLoopPar s a a0.dim a1.dim la.offset lc.offset a0.str c1.str
    | _, _ => .error .panic

/-- `cpu_rayon/transpose.rs:73-90` `orderchange_out_r2c_ix2_cpu_rayon`. -/
def orderR2CPar (pool : Bool) (s : BlockPlan) (c : List γ) (lc : Layout) (a : List γ) (la : Layout) : Res (Work γ) :=
  if lc.size < 16 * blockSize * blockSize ∨ pool = false then Work.done <$> orderR2C c lc a la
  else orderR2CNoPool s c lc a la

/-- `cpu_rayon/transpose.rs:96-109` `orderchange_out_c2r_ix2_cpu_rayon`. -/
def orderC2RPar (pool : Bool) (s : BlockPlan) (c : List γ) (lc : Layout) (a : List γ) (la : Layout) : Res (Work γ) :=
  orderR2CPar pool s c lc.reverseAxes a la.reverseAxes

end
end Rstsr
