import Verif.Model.Indexer
import Verif.Spec.Axes
import Verif.Spec.Slice
/-!
# Specification vocabulary: slicing by a list of entries

Only the input types `SliceI` and `Indexer` come from the model.
-/
namespace Spec
open Rstsr

/-- The negative-step slices on which rstsr follows Python: the stop is not the literal `-1` (which rstsr
reads as "run through the first element") and the start is not below `-len` (which rstsr moves to the
first element, Python before it). -/
def NegStepOk (len : Nat) (s : SliceI) : Prop :=
  s.stop ≠ some (-1) ∧ ∀ v, s.start = some v → -(len : Int) ≤ v

/-- The slice is one on which rstsr follows Python. -/
def PyOk (len : Nat) (s : SliceI) : Prop := s.step.getD 1 < 0 → NegStepOk len s

/-- Number of axes the entries use up: slices and integers use one each. -/
def usedAxes : List Indexer → Nat
  | [] => 0
  | .slice _ :: rest => usedAxes rest + 1
  | .select _ :: rest => usedAxes rest + 1
  | _ :: rest => usedAxes rest

/-- The list with its ellipsis replaced by `k` full slices (put at the end if there is no ellipsis). -/
def expand (ix : List Indexer) (k : Nat) : List Indexer :=
  if .ellipsis ∈ ix then
    ix.flatMap fun e => if e = .ellipsis then List.replicate k (.slice ⟨none, none, none⟩) else [e]
  else ix ++ List.replicate k (.slice ⟨none, none, none⟩)

/-- Every entry is legal for its axis: non-zero steps and integers in range. -/
def Legal : List Indexer → List Nat → Prop
  | [], [] => True
  | .slice s :: e, _ :: ds => s.step ≠ some 0 ∧ Legal e ds
  | .select i :: e, d :: ds => AxisOk d i ∧ Legal e ds
  | .insert :: e, ds => Legal e ds
  | _, _ => False

/-- Every slice is one on which rstsr follows Python. -/
def AllPyOk : List Indexer → List Nat → Prop
  | .slice s :: e, d :: ds => PyOk d s ∧ AllPyOk e ds
  | .select _ :: e, _ :: ds => AllPyOk e ds
  | .insert :: e, ds => AllPyOk e ds
  | _, _ => True

/-- The shape of the result: a slice keeps its axis with as many positions as it selects, an integer
drops its axis, a new axis has length 1. -/
def OutShape : List Indexer → List Nat → List Nat → Prop
  | [], [], [] => True
  | .slice s :: e, d :: ds, n :: ns => PyCount d s.start s.stop (s.step.getD 1) n ∧ OutShape e ds ns
  | .select _ :: e, _ :: ds, ns => OutShape e ds ns
  | .insert :: e, ds, n :: ns => n = 1 ∧ OutShape e ds ns
  | _, _, _ => False

/-- The old index an index of the result stands for. -/
def srcIndex : List Indexer → List Nat → List Nat → List Nat
  | .slice s :: e, d :: ds, k :: ks => (pyPos d s.start (s.step.getD 1) k).toNat :: srcIndex e ds ks
  | .select i :: e, d :: ds, ks => normAxis d i :: srcIndex e ds ks
  | .insert :: e, ds, _ :: ks => srcIndex e ds ks
  | _, _, _ => []

end Spec
