/-!
# Specification vocabulary: multi-indices

Nothing here refers to the model. A multi-index of a tensor with shape `[d₀, …]` is a list of
natural numbers, one per axis, each smaller than the length of its axis.
-/
namespace Spec

/-- `idx` has one coordinate per axis and every coordinate is below the axis length. -/
def InRange : List Nat → List Nat → Prop
  | [], [] => True
  | i :: is, d :: ds => i < d ∧ InRange is ds
  | _, _ => False

instance decInRange : (idx shape : List Nat) → Decidable (InRange idx shape)
  | [], [] => isTrue trivial
  | [], _ :: _ => isFalse id
  | _ :: _, [] => isFalse id
  | i :: is, d :: ds =>
    have := decInRange is ds
    inferInstanceAs (Decidable (i < d ∧ InRange is ds))

/-- Position of `idx` when the last axis runs fastest. -/
def rankC : List Nat → List Nat → Nat
  | _ :: ds, i :: is => i * ds.prod + rankC ds is
  | _, _ => 0

/-- Position of `idx` when the first axis runs fastest. -/
def rankF : List Nat → List Nat → Nat
  | d :: ds, i :: is => i + d * rankF ds is
  | _, _ => 0

/-- All multi-indices of a shape, last axis fastest (lexicographic order). -/
def allC : List Nat → List (List Nat)
  | [] => [[]]
  | d :: ds => (List.range d).flatMap fun i => (allC ds).map (i :: ·)

/-- All multi-indices of a shape, first axis fastest. -/
def allF : List Nat → List (List Nat)
  | [] => [[]]
  | d :: ds => (allF ds).flatMap fun is => (List.range d).map (· :: is)

/-- Storage position of a multi-index: the offset plus the sum of coordinate times stride. -/
def position (stride : List Int) (offset : Int) (idx : List Nat) : Int :=
  offset + (List.zipWith (fun (i : Nat) (s : Int) => (i : Int) * s) idx stride).sum

/-- `idx` is `index` with every negative entry replaced by the entry plus the axis length. -/
def Wraps : List Int → List Nat → List Nat → Prop
  | [], [], [] => True
  | i :: is, d :: ds, n :: ns => ((n : Int) = if i < 0 then i + d else i) ∧ Wraps is ds ns
  | _, _, _ => False

end Spec
