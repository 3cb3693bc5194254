import Verif.Spec.Einsum
import Verif.Model.Einsum
/-!
# Specification vocabulary: what `tblis_einsum_f` does

Arithmetic is exact. Only the types of the arguments and results come from the model.
-/
namespace Spec
open Rstsr

/-- The array an argument of the library describes. -/
def tblisArr {α : Type} (x : TblisTensor α) : Arr α := ⟨x.shape, element x.mem x.stride x.ptr⟩

/-- An argument the library can read: one stride for each axis, and every index has an element. -/
def Readable {α : Type} (x : TblisTensor α) : Prop := x.stride.length = x.shape.length ∧ (tblisArr x).Full

/-- An argument the library can write to: also, no two indices share an element. -/
def Writable {α : Type} (x : TblisTensor α) : Prop :=
  Readable x ∧ ∀ i j, InRange i x.shape → InRange j x.shape → position x.stride x.ptr i = position x.stride x.ptr j → i = j

/-- What `tblis_einsum_f` does for subscripts that fit, with any number of threads. Without an output it returns the sums in a new vector, stored row by row
or column by column as asked (the strides of an array without elements are arbitrary). With an output of the right shape it writes them there and changes
nothing else. -/
structure TblisDoc {α : Type} [Semiring α] (lib : TblisLib α) : Prop where
  fresh : ∀ threads subs out args rowMajor size, EinsumLegal subs out (args.map TblisTensor.shape) size → (∀ x ∈ args, Readable x) →
    ∃ v stride, lib.einsum threads subs out args rowMajor none = .ok (.fresh v (out.map size) stride) ∧
      v.length = (out.map size).prod ∧ stride.length = out.length ∧
      ((out.map size).prod ≠ 0 → stride = if rowMajor then rowStrides (out.map size) else colStrides 1 (out.map size)) ∧
      ∀ ic, InRange ic (out.map size) → element v stride 0 ic = some (einsumAt subs out (args.map tblisArr) ic)
  wrote : ∀ threads subs out args rowMajor size output, EinsumLegal subs out (args.map TblisTensor.shape) size → (∀ x ∈ args, Readable x) →
    Writable output → output.shape = out.map size →
    ∃ mem, lib.einsum threads subs out args rowMajor (some output) = .ok (.wrote mem) ∧
      ChangedOnly (Addressed output.stride output.ptr output.shape) output.mem mem ∧
      ∀ ic, InRange ic (out.map size) → element mem output.stride output.ptr ic = some (einsumAt subs out (args.map tblisArr) ic)

end Spec
