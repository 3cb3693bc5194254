import Verif.Model.Tensordot
import Verif.Model.FaerLinalg
/-!
# Model of einsum and tensordot by TBLIS

`crates-plugin/rstsr-tblis/src/{einsum_impl,tensordot_impl}.rs`. The library TBLIS (with the crates `tblis` and `opt-einsum-path`) is a parameter. The
subscript string is given by its parts: the labels of each operand and those of the result. `optimize` and `memory_limit` only choose the order of the
library's work and are left out.
-/
namespace Rstsr
open Spec (Order)

section
variable {α : Type}

/-- `tblis::TblisTensor`: a pointer (the position `ptr` of the memory `mem`), lengths and strides. -/
structure TblisTensor (α : Type) where
  mem : List α
  ptr : Int
  shape : List Nat
  stride : List Int

/-- What `tblis_einsum_f` returns: a new vector with its lengths and strides, or, for a given output, nothing (here: the memory of the output afterwards). -/
inductive TblisResult (α : Type) where
  | fresh (v : List α) (shape : List Nat) (stride : List Int)
  | wrote (mem : List α)

/-- `tblis_einsum_f`, run with the number of threads `threads` of the library. -/
structure TblisLib (α : Type) where
  einsum : (threads : Nat) → (subs : List (List Char)) → (out : List Char) → List (TblisTensor α) → (rowMajor : Bool) → Option (TblisTensor α) →
    Except Unit (TblisResult α)

/-- `einsum_impl.rs:107-113` `to_tblis_tensor`. -/
def Tensor.toTblis (t : Tensor α) : TblisTensor α :=
  ⟨t.data, t.layout.offset, t.layout.shape, t.layout.stride⟩

/-- `einsum_impl.rs:127-138` `from_tblis_tensor`. -/
def fromTblis (v : List α) (shape : List Nat) (stride : List Int) : Res (Tensor α) := do
  let l ← Layout.new shape stride 0
  Tensor.newF v l

/-- What a call leaves behind: its result, and the number of threads of the library. -/
structure EinsumRun (β : Type) where
  result : Res β
  threads : Nat

/-- `einsum_impl.rs:177`: the number of threads of the device's pool (`feature_rayon/device.rs:123-128`), or 1 in a worker thread. `cores` is the number
of threads of a default pool. -/
def FaerDev.einsumThreads (cores : Nat) (worker : Bool) (d : FaerDev) : Nat :=
  if worker then 1 else if d.threads = 0 then cores else d.threads

/-- `einsum_impl.rs:143-199` `einsum_with_option_output_f`. With an output, the result holds the output's tensor afterwards on the right. `threads` is the
library's number of threads before the call. -/
def einsumOption (lib : TblisLib α) (cores : Nat) (worker : Bool) (threads : Nat) (subs : List (List Char)) (out : List Char) (operands : List (OnDev α))
    (output : Option (OnDev α)) : EinsumRun (OnDev α ⊕ Tensor α) :=
  match operands with
  | [] => ⟨.error .invalidValue, threads⟩
  | o :: rest =>
    let device := o.dev
    if !rest.all fun t => t.dev.same device then ⟨.error .invalidValue, threads⟩
    else if !output.all fun t => t.dev.same device then ⟨.error .invalidValue, threads⟩
    else
      let args := (o :: rest).map fun t => t.t.toTblis
      let rowMajor := device.order == .C
      let toSet := device.einsumThreads cores worker
      match lib.einsum toSet subs out args rowMajor (output.map fun t => t.t.toTblis) with
      | .error _ => ⟨.error .invalidValue, toSet⟩
      | .ok (.fresh v shape stride) => ⟨(fromTblis v shape stride).map fun t => .inl ⟨t, device⟩, threads⟩
      | .ok (.wrote mem) => ⟨match output with
        | some t => .ok (.inr ⟨mem, t.t.layout⟩)
        | none => .error .panic, threads⟩

/-- `einsum_impl.rs:204-215` `einsum_f`: the `unwrap` panics if no tensor is returned. -/
def einsumF (lib : TblisLib α) (cores : Nat) (worker : Bool) (threads : Nat) (subs : List (List Char)) (out : List Char) (operands : List (OnDev α)) :
    EinsumRun (OnDev α) :=
  let r := einsumOption lib cores worker threads subs out operands none
  ⟨r.result.bind fun
    | .inl t => .ok t
    | .inr _ => .error .panic, r.threads⟩

/-- `einsum_impl.rs:220-232` `einsum_with_output_f`, `271-281` `einsum_from_f` (on a view of the whole tensor). The output's tensor afterwards. -/
def einsumWithOutput (lib : TblisLib α) (cores : Nat) (worker : Bool) (threads : Nat) (subs : List (List Char)) (out : List Char) (operands : List (OnDev α))
    (output : OnDev α) : EinsumRun (Tensor α) :=
  let r := einsumOption lib cores worker threads subs out operands (some output)
  ⟨r.result.map fun
    | .inl _ => output.t
    | .inr t => t, r.threads⟩

/-- `tensordot_impl.rs:32-46` `tensordot_with_option_output_f`, `62-72` `tensordot_f`. -/
def tensordotF (lib : TblisLib α) (cores : Nat) (worker : Bool) (threads : Nat) (a b : OnDev α) (axes : AxesPair) : EinsumRun (OnDev α) :=
  match tensordotSubscripts a.t.layout.ndim b.t.layout.ndim axes with
  | .error e => ⟨.error e, threads⟩
  | .ok (sa, sb, sc) => einsumF lib cores worker threads [sa, sb] sc [a, b]

/-- `tensordot_impl.rs:18-30` `tensordot_with_output`, `48-60` `tensordot_with_output_f`. -/
def tensordotWithOutput (lib : TblisLib α) (cores : Nat) (worker : Bool) (threads : Nat) (a b : OnDev α) (axes : AxesPair) (output : OnDev α) :
    EinsumRun (Tensor α) :=
  match tensordotSubscripts a.t.layout.ndim b.t.layout.ndim axes with
  | .error e => ⟨.error e, threads⟩
  | .ok (sa, sb, sc) => einsumWithOutput lib cores worker threads [sa, sb] sc [a, b] output

end
end Rstsr
