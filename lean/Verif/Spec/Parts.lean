import Verif.Spec.Reduce
/-! # Specification vocabulary: the parts of an array at the indices of some axes -/
namespace Spec

/-- The part of an array at the index `i` of the axes `S`: its axes are the other ones, in order. -/
def Arr.part {α : Type} (A : Arr α) (S i : List Nat) : Arr α :=
  ⟨takeAxes (otherAxes A.shape.length S) A.shape, fun j => A.elem (mergeIndex A.shape.length S i j)⟩

/-- The views `vs` are the parts at the listed indices, one for one. -/
def Arr.Parts {α : Type} (A : Arr α) (S : List Nat) (indices : List (List Nat)) (vs : List (Arr α)) : Prop :=
  vs.length = indices.length ∧
    ∀ (k : Nat) (i : List Nat) (V : Arr α), indices[k]? = some i → vs[k]? = some V → (A.part S i).Same V

end Spec
