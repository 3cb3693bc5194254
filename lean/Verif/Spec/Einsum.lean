import Mathlib.Algebra.BigOperators.Group.List.Basic
import Mathlib.Algebra.Ring.Defs
import Mathlib.Data.List.ProdSigma
import Verif.Spec.Tensor
import Verif.Spec.Tensordot
/-!
# Specification: sums of products over labelled axes
-/
namespace Spec

/-- All choices of one index for each of the shapes. -/
def choices : List (List Nat) → List (List (List Nat))
  | [] => [[]]
  | s :: ss => (allC s).flatMap fun i => (choices ss).map (i :: ·)

/-- The elements at the chosen indices, one for each operand, multiplied. -/
def termValue {α : Type} [Semiring α] (ops : List (Arr α)) (idxs : List (List Nat)) : α :=
  (List.zipWith (fun A i => (A.elem i).getD 0) ops idxs).prod

/-- The chosen indices belong to index `ic` of the result: some value of every label gives all of them. -/
def EinsumTerms {L : Type} (subs : List (List L)) (out : List L) (idxs : List (List Nat)) (ic : List Nat) : Prop :=
  ∃ σ : L → Nat, idxs = subs.map (·.map σ) ∧ ic = out.map σ

open Classical in
/-- Element `ic` of an einsum: the sum of the products that belong to it. -/
noncomputable def einsumAt {α L : Type} [Semiring α] (subs : List (List L)) (out : List L) (ops : List (Arr α)) (ic : List Nat) : α :=
  (((choices (ops.map (·.shape))).filter fun idxs => EinsumTerms subs out idxs ic).map (termValue ops)).sum

open Classical in
/-- Element `ic` of a tensordot over the axis pairs `(A[t], B[t])`: the sum of the products of elements that agree on every pair. -/
noncomputable def tensordotAt {α : Type} [Semiring α] (A B : List Nat) (X Y : Arr α) (ic : List Nat) : α :=
  (((allC X.shape ×ˢ allC Y.shape).filter fun p => TensordotTerm A B p.1 p.2 ic).map fun p => (X.elem p.1).getD 0 * (Y.elem p.2).getD 0).sum

/-- The subscripts fit: one list of labels for each operand, every label with one length wherever it occurs; the labels of the result are
distinct labels of operands; there are not more than 52 labels. -/
structure EinsumLegal {L : Type} (subs : List (List L)) (out : List L) (shapes : List (List Nat)) (size : L → Nat) : Prop where
  some : subs ≠ []
  fit : shapes = subs.map (·.map size)
  distinct : out.Nodup
  known : ∀ c ∈ out, ∃ s ∈ subs, c ∈ s
  few : ∃ ls : List L, ls.length ≤ 52 ∧ ∀ s ∈ subs, ∀ c ∈ s, c ∈ ls

/-- The strides of an array stored row by row: an axis steps over all the elements of the axes after it. -/
def rowStrides : List Nat → List Int
  | [] => []
  | _ :: ds => (ds.prod : Int) :: rowStrides ds

/-- The strides of an array stored column by column: an axis steps over all the elements of the axes before it, `m` for the first. -/
def colStrides (m : Int) : List Nat → List Int
  | [] => []
  | d :: ds => m :: colStrides (m * d) ds

end Spec
