import Verif.Model.Layout
/-!
# Model: the einsum subscripts of a tensordot
-/
namespace Rstsr

/-- `rstsr-common/src/axes_pair_index.rs:4-8` `AxesPairIndex`. -/
inductive AxesPair where
  | none
  | val (n : Int)
  | pair (a b : Option (List Int))

/-- `rstsr-common/src/tensordot_to_einsum.rs:23-47`: the axes to sum over. -/
def tensordotAxes (na nb : Nat) (axes : AxesPair) : Res (List Nat × List Nat) :=
  let byCount (n : Int) : Res (List Nat × List Nat) :=
    if n < 0 then .error .invalidValue
    else if na < n.toNat ∨ nb < n.toNat then .error .invalidLayout
    else .ok (List.range' (na - n.toNat) n.toNat, List.range n.toNat)
  match axes with
  | .none => byCount 2
  | .val n => byCount n
  | .pair a b => do
    let a ← normalizeAxes a na false false
    let b ← normalizeAxes b nb false false
    .ok (a, b)

/-- `tensordot_to_einsum.rs:60`: the letters, in the order in which they are given out. -/
def einsumLetters : List Char := "abcdefghijklmnopqrstuvwxyzABCDEFGHIJKLMNOPQRSTUVWXYZ".toList

/-- `tensordot_to_einsum.rs:67-71`, the loop over the axis pairs. `letters` are those not given out yet. (The axes are
in range, so the assignments cannot panic.) -/
def labelPairs : List Char → List (Nat × Nat) → List (Option Char) → List (Option Char) →
    Res (List Char × List (Option Char) × List (Option Char))
  | letters, [], la, lb => .ok (letters, la, lb)
  | [], _ :: _, _, _ => .error .invalidValue
  | c :: letters, (i, j) :: rest, la, lb => labelPairs letters rest (la.set i (some c)) (lb.set j (some c))

/-- `tensordot_to_einsum.rs:74-79` and 82-87: a letter for every axis that has none, in order. Returns the remaining
letters and the labels (after the `unwrap` of 90, 93). -/
def labelRest : List Char → List (Option Char) → Res (List Char × List Char)
  | letters, [] => .ok (letters, [])
  | letters, some c :: rest => do
    let (letters, cs) ← labelRest letters rest
    .ok (letters, c :: cs)
  | [], none :: _ => .error .invalidValue
  | c :: letters, none :: rest => do
    let (letters, cs) ← labelRest letters rest
    .ok (letters, c :: cs)

/-- `tensordot_to_einsum.rs:97-107`: the labels of the axes that are not summed over. -/
def freeLabels (axes : List Nat) (labels : List Char) : List Char :=
  (labels.zipIdx.filter fun p => !axes.contains p.2).map (·.1)

/-- `tensordot_to_einsum.rs:18-112` `tensordot_to_einsum_str`. The three parts of the subscript string are returned
separately instead of being joined by `", "` and `" -> "`. -/
def tensordotSubscripts (na nb : Nat) (axes : AxesPair) : Res (List Char × List Char × List Char) := do
  let (xa, xb) ← tensordotAxes na nb axes
  let (letters, la, lb) ← labelPairs einsumLetters (xa.zip xb) (List.replicate na none) (List.replicate nb none)
  let (letters, la) ← labelRest letters la
  let (_, lb) ← labelRest letters lb
  .ok (la, lb, freeLabels xa la ++ freeLabels xb lb)

end Rstsr
