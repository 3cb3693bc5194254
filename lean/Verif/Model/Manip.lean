import Verif.Model.Indexer
/-!
# Model of the view-making functions in `rstsr-core/src/tensor/manipulation`

All of them leave the storage untouched and build a new layout; only the layout part is modelled.
An `AxesIndex` argument is `none` for `AxesIndex::None` and the list of values otherwise.
-/
namespace Rstsr.Layout

/-- `manipulation/moveaxis.rs:39-41`, the insertion loop `order.insert(dest, src)`; inserting past the end
is the panic error. -/
def insertPairs : List (Nat × Nat) → List Nat → Res (List Nat)
  | [], order => .ok order
  | (d, s) :: rest, order =>
    if d ≤ order.length then insertPairs rest (order.insertIdx d s) else .error .panic

/-- `manipulation/moveaxis.rs:7-47` `into_moveaxis_f`. -/
def moveaxis (l : Layout) (source dest : Option (List Int)) : Res Layout := do
  let s ← normalizeAxes source l.ndim false false
  let d ← normalizeAxes dest l.ndim false false
  if s.length ≠ d.length then .error .invalidValue
  else
    let order := (List.range l.ndim).filter fun i => !s.contains i
    let pairs := (d.zip s).insertionSort fun p q => p.1 ≤ q.1
    let order ← insertPairs pairs order
    l.transpose (order.map Int.ofNat)

/-- Applies a layout operation for every axis in the list, in order. -/
def foldAxes (f : Layout → Int → Res Layout) (l : Layout) : List Int → Res Layout
  | [] => .ok l
  | a :: rest => do foldAxes f (← f l a) rest

/-- `manipulation/flip.rs:6-23` `into_flip_f`. -/
def flip (l : Layout) (axes : Option (List Int)) : Res Layout := do
  let axes ← match axes with
    | none => .ok (List.range l.ndim)
    | some _ => normalizeAxes axes l.ndim false true
  foldAxes (fun l a => l.dimNarrow a ⟨none, none, some (-1)⟩) l (axes.map Int.ofNat)

/-- `manipulation/expand_dims.rs:7-25` `into_expand_dims_f`. -/
def expandDims (l : Layout) (axes : Option (List Int)) : Res Layout := do
  let axes ← normalizeAxes axes (l.ndim + (axes.getD []).length) false true
  foldAxes dimInsert l (axes.map Int.ofNat)

/-- `manipulation/squeeze.rs:36-38`: comparison of neighbours. -/
def adjacentDupInt : List Int → Bool
  | a :: b :: rest => a == b || adjacentDupInt (b :: rest)
  | _ => false

/-- `manipulation/squeeze.rs:6-47` `into_squeeze_f`. Only the first (largest) axis is tested for
being negative. -/
def squeeze (l : Layout) (axes : Option (List Int)) : Res Layout :=
  match axes with
  | none =>
    foldAxes dimEliminate l
      (((List.range l.ndim).filter fun i => (l.axes.getD i default).dim = 1).reverse.map Int.ofNat)
  | some axes =>
    let axes : List Int :=
      (axes.map fun (v : Int) => if v ≥ 0 then v else v + l.ndim).insertionSort fun a b => b ≤ a
    if axes.head?.any (· < 0) then .error .invalidValue
    else if adjacentDupInt axes then .error .invalidValue
    else foldAxes dimEliminate l axes

end Rstsr.Layout
