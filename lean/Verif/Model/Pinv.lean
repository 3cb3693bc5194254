import Verif.Model.Svd
import Verif.Model.Blas3
import Verif.Model.Indexer
import Verif.Model.Reduce
import Mathlib.Order.Defs.LinearOrder
/-!
# Model of `linalg::pinv` (`rstsr-linalg-traits/src/ref_impl_blas.rs`, `blas_impl/pinv.rs`)

The numbers are exact; `eps` is `T::Real::epsilon()`, `lo` is `ext_min_value()` and `scale` divides an element by a real number. `par` is the schedule of the
reduction `max_all` (`none` is a serial loop); the other parallel loops give what the serial ones give (C31).
-/
namespace Rstsr
open Spec (Order)

section
variable {α ρ : Type}

/-- `rstsr-linalg-traits/src/traits_def.rs` `PinvResult`. -/
structure PinvResult (α : Type) where
  pinv : Tensor α
  rank : Nat

/-- The index `..r`. -/
def upTo (r : Nat) : Indexer := .slice ⟨none, some r, none⟩

/-- `tensor.i(…)`, `into_slice`: panics on errors. -/
def Tensor.sliced (t : Tensor α) (ix : List Indexer) : Res (Tensor α) := do
  return ⟨t.data, ← orPanic (t.layout.dimSlice ix)⟩

/-- `ref_impl_blas.rs:121-127`: the tolerance relative to the largest singular value if none is given. -/
def pinvRtol [Mul ρ] [NatCast ρ] (eps : ρ) (l : Layout) (rtol : Option ρ) : ρ :=
  rtol.getD (((max (l.dimAt 0) (l.dimAt 1) : Nat) : ρ) * eps)

/-- `ref_impl_blas.rs:106-148` `ref_impl_pinv_f`. -/
def refPinv [LinearOrder ρ] [Zero ρ] [Add ρ] [Mul ρ] [NatCast ρ] [Zero α] [One α] [Star α] (lib : LapackSvd α ρ) (blas : Blas3 α) (dflt : Order)
    (par : Option Scheduler) (lo eps : ρ) (scale : α → ρ → α) (a : Tensor α) (atol rtol : Option ρ) : Res (PinvResult α) := do
  let atol := atol.getD 0
  let rtol := pinvRtol eps a.layout rtol
  let (u, s, vt) ← svdRun lib true dflt a false
  let maxs ← orPanic (s.maxAll dflt par lo max)
  let val := atol + rtol * maxs
  let rank := (s.data.takeWhile fun x => decide (val < x)).length
  let u ← u.sliced [Layout.fullSlice, upTo rank]
  let u ← orPanic (Tensor.assignOp dflt u (← s.sliced [.insert, upTo rank]) scale)
  let vt ← vt.sliced [upTo rank, Layout.fullSlice]
  let x ← gemmRun blas dflt 1 0 .N .N (some dflt) vt.flipped u.flipped none
  let x ← orPanic (x.intoOwned dflt)
  let x ← orPanic (Tensor.unaryConsume dflt x star)
  return ⟨x, rank⟩

/-- `blas_impl/pinv.rs:7-25` `pinv_f` with both tolerances, `27-47` with none. -/
def pinv [LinearOrder ρ] [Zero ρ] [Add ρ] [Mul ρ] [NatCast ρ] [Zero α] [One α] [Star α] (lib : LapackSvd α ρ) (blas : Blas3 α) (dflt : Order)
    (par : Option Scheduler) (lo eps : ρ) (scale : α → ρ → α) (a : Tensor α) (tol : Option (ρ × ρ)) : Res (PinvResult α) :=
  if a.layout.ndim ≠ 2 then .error .invalidLayout
  else refPinv lib blas dflt par lo eps scale a (tol.map (·.1)) (tol.map (·.2))

end
end Rstsr
