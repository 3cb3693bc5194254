/-!
# Specification vocabulary: Python slices

`start:stop:step` on an axis of length `len`, as defined by the Python language reference
(`slice.indices`): missing entries take their defaults, negative entries have `len` added once, and
entries out of range are moved to the nearest end.
-/
namespace Spec

/-- One bound of a slice: `lo` and `hi` are the ends of the range it is clamped to. -/
def pyClamp (len lo hi : Int) (v : Int) : Int :=
  if v < 0 then max (v + len) lo else min v hi

/-- First position of the slice. -/
def pyStart (len : Nat) (start : Option Int) (step : Int) : Int :=
  if step > 0 then
    match start with
    | none => 0
    | some v => pyClamp len 0 len v
  else
    match start with
    | none => (len : Int) - 1
    | some v => pyClamp len (-1) ((len : Int) - 1) v

/-- The position at which the slice ends, itself excluded. -/
def pyStop (len : Nat) (stop : Option Int) (step : Int) : Int :=
  if step > 0 then
    match stop with
    | none => len
    | some v => pyClamp len 0 len v
  else
    match stop with
    | none => -1
    | some v => pyClamp len (-1) ((len : Int) - 1) v

/-- The slice has a `k`-th position: walking `k` steps from the start has not reached the stop. -/
def PyHas (len : Nat) (start stop : Option Int) (step : Int) (k : Nat) : Prop :=
  if step > 0 then pyStart len start step + k * step < pyStop len stop step
  else pyStart len start step + k * step > pyStop len stop step

/-- `n` is the number of positions of the slice: position `k` exists exactly for `k < n`. -/
def PyCount (len : Nat) (start stop : Option Int) (step : Int) (n : Nat) : Prop :=
  ∀ k : Nat, k < n ↔ PyHas len start stop step k

/-- The `k`-th position of the slice. -/
def pyPos (len : Nat) (start : Option Int) (step : Int) (k : Nat) : Int :=
  pyStart len start step + k * step

end Spec
