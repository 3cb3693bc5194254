import Verif.Spec.Complex
import Verif.Model.ReduceAxes
/-!
# Model: reductions and functions of complex elements

`Complex` of the crate `num-complex` is a pair of parts with the schoolbook operations; the operations on the parts
are parameters. `par` and `dflt` are as in `Model/Reduce`.
-/
namespace Rstsr
open Spec

section
variable {α : Type}

/-- The operations on the parts. -/
structure PartOps (α : Type) where
  zero : α
  add : α → α → α
  sub : α → α → α
  mul : α → α → α
  div : α → α → α
  neg : α → α
  sqrt : α → α
  hypot : α → α → α
  ofNat : Nat → α
  isZero : α → Bool

variable (o : PartOps α)

/-- `T::zero()`. -/
def Cx.zeroOf : Cx α := ⟨o.zero, o.zero⟩

/-- `+` of `num-complex`. -/
def Cx.add (z w : Cx α) : Cx α := ⟨o.add z.re w.re, o.add z.im w.im⟩

/-- `*` of `num-complex`. -/
def Cx.mul (z w : Cx α) : Cx α :=
  ⟨o.sub (o.mul z.re w.re) (o.mul z.im w.im), o.add (o.mul z.re w.im) (o.mul z.im w.re)⟩

/-- `/` of `num-complex`: by the conjugate over the squared norm. -/
def Cx.div (z w : Cx α) : Cx α :=
  let n := o.add (o.mul w.re w.re) (o.mul w.im w.im)
  ⟨o.div (o.add (o.mul z.re w.re) (o.mul z.im w.im)) n, o.div (o.sub (o.mul z.im w.re) (o.mul z.re w.im)) n⟩

/-- `conj`. -/
def Cx.conj (z : Cx α) : Cx α := ⟨z.re, o.neg z.im⟩

/-- `T::from_usize(n)`. -/
def Cx.ofNat (n : Nat) : Cx α := ⟨o.ofNat n, o.zero⟩

/-- `(x * x.conj()).re()`. -/
def Cx.selfDot (z : Cx α) : α := (Cx.mul o z (Cx.conj o z)).re

/-! ## Reductions -/

variable (dflt : Order)

/-- `device_cpu_serial/reduction.rs:157-166` `mean_all` of complex elements. -/
def Tensor.meanCx (par : Option Scheduler) (t : Tensor (Cx α)) : Res (Cx α) :=
  t.meanAll dflt par (Cx.zeroOf o) (Cx.add o) (Cx.div o) (Cx.ofNat o)

/-- `device_cpu_serial/reduction.rs:196-206`: start, step, combination and end of `var_all`, over `size` elements. -/
def varCxR (size : Nat) (last : α → α) : Reducer (Cx α) (Cx α × α) α :=
  ⟨(Cx.zeroOf o, o.zero), fun acc x => (Cx.add o acc.1 x, o.add acc.2 (Cx.selfDot o x)),
    fun p q => (Cx.add o p.1 q.1, o.add p.2 q.2), fun acc =>
      let mean := Cx.div o acc.1 (Cx.ofNat o size)
      last (o.sub (o.div acc.2 (o.ofNat size)) (Cx.selfDot o mean))⟩

/-- `device_cpu_serial/reduction.rs:193-209` `var_all` of complex elements. -/
def Tensor.varCx (par : Option Scheduler) (t : Tensor (Cx α)) : Res α := t.reduce dflt par (varCxR o t.layout.size id)

/-- `device_cpu_serial/reduction.rs:243-260` `std_all` of complex elements. -/
def Tensor.stdCx (par : Option Scheduler) (t : Tensor (Cx α)) : Res α := t.reduce dflt par (varCxR o t.layout.size o.sqrt)

/-- `device_cpu_serial/reduction.rs:297-300`. -/
def l2CxR : Reducer (Cx α) α α := ⟨o.zero, fun acc x => o.add acc (Cx.selfDot o x), o.add, o.sqrt⟩

/-- `device_cpu_serial/reduction.rs:296-304` `l2_norm_all` of complex elements. -/
def Tensor.l2NormCx (par : Option Scheduler) (t : Tensor (Cx α)) : Res α := t.reduce dflt par (l2CxR o)

variable (par : Option (Nat → Scheduler))

/-- `device_cpu_serial/reduction.rs:168-183` `mean_axes` of complex elements. -/
def Tensor.meanCxAxes (t : Tensor (Cx α)) (axes : Option (List Int)) : Res (AxesRun (Cx α) (Tensor (Cx α))) :=
  t.meanAxes dflt par (Cx.zeroOf o) (Cx.add o) (Cx.div o) (Cx.ofNat o) axes

/-- `device_cpu_serial/reduction.rs:211-234` `var_axes` of complex elements. -/
def Tensor.varCxAxes (t : Tensor (Cx α)) (axes : Option (List Int)) : Res (AxesRun α (Tensor α)) :=
  Tensor.axesApi (t.varCx o dflt (onePar par))
    (fun axes => do
      let (l, _) ← t.layout.dimSplitAxes axes
      t.axesKernel dflt par (varCxR o l.size id) axes) axes

/-- `device_cpu_serial/reduction.rs:262-287` `std_axes` of complex elements. -/
def Tensor.stdCxAxes (t : Tensor (Cx α)) (axes : Option (List Int)) : Res (AxesRun α (Tensor α)) :=
  Tensor.axesApi (t.stdCx o dflt (onePar par))
    (fun axes => do
      let (l, _) ← t.layout.dimSplitAxes axes
      t.axesKernel dflt par (varCxR o l.size o.sqrt) axes) axes

/-- `device_cpu_serial/reduction.rs:306-320` `l2_norm_axes` of complex elements. -/
def Tensor.l2NormCxAxes (t : Tensor (Cx α)) (axes : Option (List Int)) : Res (AxesRun α (Tensor α)) :=
  Tensor.axesApi (t.l2NormCx o dflt (onePar par)) (t.axesKernel dflt par (l2CxR o)) axes

/-! ## Functions of one element -/

/-- `rstsr-dtype-traits/src/ext_num.rs:260-262` `ext_abs` of a complex number: `norm`, the hypotenuse of the parts. -/
def Cx.extAbs (z : Cx α) : α := o.hypot z.re z.im

/-- `rstsr-dtype-traits/src/ext_num.rs:264-266` `ext_abs_diff`. -/
def Cx.extAbsDiff (z w : Cx α) : α := Cx.extAbs o ⟨o.sub z.re w.re, o.sub z.im w.im⟩

/-- `rstsr-dtype-traits/src/ext_num.rs:271-280` `ext_sign`. -/
def Cx.extSign (z : Cx α) : Cx α :=
  let abs := Cx.extAbs o z
  if o.isZero abs then Cx.zeroOf o else ⟨o.div z.re abs, o.div z.im abs⟩

/-- `rstsr-dtype-traits/src/ext_num.rs:285-287` `ext_real`. -/
def Cx.extReal (z : Cx α) : α := z.re

/-- `rstsr-dtype-traits/src/ext_num.rs:289-291` `ext_imag`. -/
def Cx.extImag (z : Cx α) : α := z.im

/-- `rstsr-dtype-traits/src/ext_num.rs:293-295` `ext_conj`. -/
def Cx.extConj (z : Cx α) : Cx α := Cx.conj o z

end
end Rstsr
