import Verif.Model.Elementwise
/-!
# Model of the element-wise maps with a function that has a state

Files: `rstsr-core/src/tensor/map_elementwise.rs`, `rstsr-native-impl/src/cpu_serial/op_with_func.rs`. The serial
device takes `FnMut` closures. Such a closure is a function of its state and its arguments that gives the
next state and the value; `σ` is the type of the state. The kernels are those of `Model/Kernel.lean` with the
state carried along.
-/
namespace Rstsr
open Spec (Order)

section
variable {σ α β γ : Type}

/-- `f(&mut c[i], &a[j])`. -/
def callStep2 (a : List α) (f : σ → γ → α → σ × γ) (i j : Nat) (st : σ × List γ) : Res (σ × List γ) := do
  let x ← readAt a j
  let v ← readAt st.2 i
  let r := f st.1 v x
  return (r.1, st.2.set i r.2)

/-- `f(&mut c[i], &a[j], &b[k])`. -/
def callStep3 (a : List α) (b : List β) (f : σ → γ → α → β → σ × γ) (i j k : Nat) (st : σ × List γ) :
    Res (σ × List γ) := do
  let x ← readAt a j
  let y ← readAt b k
  let v ← readAt st.2 i
  let r := f st.1 v x y
  return (r.1, st.2.set i r.2)

/-- `f(&mut c[i])`. -/
def callStep1 (f : σ → γ → σ × γ) (i : Nat) (st : σ × List γ) : Res (σ × List γ) := do
  let v ← readAt st.2 i
  let r := f st.1 v
  return (r.1, st.2.set i r.2)

/-- `cpu_serial/op_with_func.rs:10-45` `op_mutc_refa_refb_func_cpu_serial` with the state of `f`. -/
def callMutcRefaRefb (dflt : Order) (st : σ × List γ) (lc : Layout) (a : List α) (la : Layout) (b : List β)
    (lb : Layout) (f : σ → γ → α → β → σ × γ) : Res (σ × List γ) := do
  let full ← Layout.toColMajorMany dflt [lc, la, lb] .K
  let (contig, n) := Layout.withContig full
  if n ≥ contigSwitch then
    match contig with
    | [lc, la, lb] =>
      dispatch3 lc la lb (fun p st =>
        runAll (fun t st => callStep3 a b f (p.1 + t) (p.2.1 + t) (p.2.2 + t) st) (List.range n) st) st
    | _ => .error .panic
  else
    match full with
    | [lc, la, lb] => dispatch3 lc la lb (fun p st => callStep3 a b f p.1 p.2.1 p.2.2 st) st
    | _ => .error .panic

/-- `cpu_serial/op_with_func.rs:115-146` `op_muta_refb_func_cpu_serial` with the state of `f`. -/
def callMutaRefb (dflt : Order) (st : σ × List γ) (la : Layout) (b : List α) (lb : Layout)
    (f : σ → γ → α → σ × γ) : Res (σ × List γ) := do
  let full ← Layout.toColMajorMany dflt [la, lb] .K
  let (contig, n) := Layout.withContig full
  if n ≥ contigSwitch then
    match contig with
    | [la, lb] =>
      dispatch2 la lb (fun p st => runAll (fun t st => callStep2 b f (p.1 + t) (p.2 + t) st) (List.range n) st) st
    | _ => .error .panic
  else
    match full with
    | [la, lb] => dispatch2 la lb (fun p st => callStep2 b f p.1 p.2 st) st
    | _ => .error .panic

/-- `cpu_serial/op_with_func.rs:175-199` `op_muta_func_cpu_serial` with the state of `f`. -/
def callMuta (dflt : Order) (st : σ × List γ) (la : Layout) (f : σ → γ → σ × γ) : Res (σ × List γ) := do
  let l ← la.toColMajor dflt .G
  let (contig, n) := Layout.withContig [l]
  if n ≥ contigSwitch then
    match contig with
    | [m] => dispatch1 m (fun i st => runAll (fun t st => callStep1 f (i + t) st) (List.range n) st) st
    | _ => .error .panic
  else dispatch1 l (fun i st => callStep1 f i st) st

namespace Tensor

/-- `map_elementwise.rs:16-32` `map_fnmut_f`, and `mapv_fnmut_f` (45-54), which clones the argument. Also the
state that the function is left with. -/
def mapFnmut (dflt : Order) (a : Tensor α) (f : σ → α → σ × γ) (s : σ) : Res (σ × Tensor γ) := do
  let lc ← a.layout.forArrayCopy dflt .K
  let (_, n) ← lc.boundsIndex
  let (s, c) ← callMutaRefb dflt (s, uninit n) lc a.data a.layout fun s _ x => ((f s x).1, some (f s x).2)
  let c ← assumeInit c
  return (s, ← newF c lc)

/-- `map_elementwise.rs:126-163` `mapb_fnmut_f`, and `mapvb_fnmut_f` (181-197). -/
def mapbFnmut (dflt : Order) (a : Tensor α) (b : Tensor β) (f : σ → α → β → σ × γ) (s : σ) :
    Res (σ × Tensor γ) := do
  let (la, lb) ← a.layout.broadcast b.layout dflt
  let lc ← Layout.forBinaryOp la lb dflt
  let (_, n) ← lc.boundsIndex
  let (s, c) ← callMutcRefaRefb dflt (s, uninit n) lc a.data la b.data lb
    fun s _ x y => ((f s x y).1, some (f s x y).2)
  let c ← assumeInit c
  return (s, ← newF c lc)

/-- `map_elementwise.rs:67-83` `mapi_fnmut_f`, and `mapvi_fnmut_f` (96-104): in place. -/
def mapiFnmut (dflt : Order) (a : Tensor α) (f : σ → α → σ × α) (s : σ) : Res (σ × Tensor α) := do
  let (la, _) ← a.layout.greedy false
  let (s, data) ← callMuta dflt (s, a.data) la f
  return (s, ⟨data, a.layout⟩)

end Tensor
end
end Rstsr
