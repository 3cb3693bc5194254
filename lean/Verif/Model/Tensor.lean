import Verif.Model.Layout
import Verif.Spec.Tensor
/-!
# Model of tensors: storage plus layout
-/
namespace Rstsr

/-- `rstsr-core/src/tensorbase.rs:20-80` `TensorBase { storage, layout }`. The storage is the list of
its cells (`Vec<T>` of the CPU devices); device and ownership wrappers are dropped (ownership is
modelled in `Model/Own.lean`). -/
structure Tensor (α : Type) where
  data : List α
  layout : Layout

namespace Tensor

/-- `rstsr-core/src/tensorbase.rs:120-129` `TensorBase::new_f`. -/
def newF {α : Type} (data : List α) (l : Layout) : Res (Tensor α) := do
  l.checkStrides true
  let (_, mx) ← l.boundsIndex
  if mx ≤ data.length then .ok ⟨data, l⟩ else .error .valueOutOfRange

/-- `rstsr-core/src/tensor/indexing.rs:377-393` `Index::index`: position by `Layout::index`, then a
bounds-checked read of the vector. A failed lookup panics in Rust (`unwrap`); its error kind is kept
here. -/
def indexF {α : Type} (t : Tensor α) (index : List Int) : Res α := do
  let i ← t.layout.indexF index
  match t.data[i]? with
  | some v => .ok v
  | none => .error .panic

/-- `rstsr-core/src/tensor/indexing.rs:438-447` `index_uncheck`: position by `Layout::index_uncheck`
cast to `usize`, then a bounds-checked read of the vector (panic outside). -/
def indexUncheck {α : Type} (t : Tensor α) (index : List Nat) : Res α := do
  let i ← t.layout.indexUncheck index
  if i < 0 then .error .panic
  else
    match t.data[i.toNat]? with
    | some v => .ok v
    | none => .error .panic

/-- The array a tensor stands for (not code: how a user reads a tensor). -/
def arr {α : Type} (t : Tensor α) : Spec.Arr α :=
  ⟨t.layout.shape, Spec.element t.data t.layout.stride t.layout.offset⟩

/-- The tensors the API hands out (not code): the checked constructor `new_f` accepts the layout for the
storage, and the offset is not negative. -/
def WF {α : Type} (t : Tensor α) : Prop := 0 ≤ t.layout.offset ∧ newF t.data t.layout = .ok t

end Tensor
end Rstsr
