import Verif.Spec.IntTypes
import Verif.Model.Indexer
import Verif.Model.Tensordot
/-!
# Model: conversions of arguments for indices and axes

`rstsr-common/src/axis_index.rs`, `rstsr-common/src/axes_pair_index.rs`, and the conversions in
`rstsr-common/src/layout/{indexer,slice}.rs`. A number is given with the type it has in the program; `w` is the
number of bits of `usize` and `isize`.
-/
namespace Rstsr
open Spec

/-- Outcomes other than a value: the error `TryFromIntError`, or a panic. -/
inductive ArgErr where
  | tryFromInt
  | panic
  deriving DecidableEq, Repr

instance {α : Type} [DecidableEq α] : DecidableEq (Except ArgErr α)
  | .ok a, .ok b => if h : a = b then isTrue (h ▸ rfl) else isFalse (fun e => h (by cases e; rfl))
  | .error a, .error b =>
    if h : a = b then isTrue (h ▸ rfl) else isFalse (fun e => h (by cases e; rfl))
  | .ok _, .error _ => isFalse nofun
  | .error _, .ok _ => isFalse nofun

/-- Rust's `v as isize`: the number modulo `2 ^ w`. -/
def asIsize (w : Nat) (v : Int) : Int := Int.bmod v (2 ^ w)

/-- Rust's `try_into` to the type `t`; between equal types it is the identity. -/
def tryInto (w : Nat) (t : IntTy) (v : Int) : Except ArgErr Int :=
  if t.Has w v then .ok v else .error .tryFromInt

/-- `axis_index.rs:5-9` `AxesIndex`. -/
inductive AxesIndex (α : Type) where
  | none
  | val (v : α)
  | vec (vs : List α)
  deriving DecidableEq, Repr

/-- `axis_index.rs:23-36` (same type) and `:103-120` (another type): one number. -/
def axesOfInt (w : Nat) (t : IntTy) (v : Int) : Except ArgErr (AxesIndex Int) := do
  return .val (← tryInto w t v)

/-- `axis_index.rs:38-78` (same type) and `:122-170` (another type): vectors, slices, arrays of numbers. -/
def axesOfList (w : Nat) (t : IntTy) (vs : List Int) : Except ArgErr (AxesIndex Int) := do
  return .vec (← vs.mapM (tryInto w t))

/-- `axis_index.rs:81-85`: the empty tuple. -/
def axesOfUnit : AxesIndex Int := .vec []

/-- `axis_index.rs:88-97`: an optional number. -/
def axesOfOption : Option Int → AxesIndex Int
  | some v => .val v
  | Option.none => .none

/-- `value.i.try_into().ok().unwrap()`. -/
def unwrapInto (w : Nat) (t : IntTy) (v : Int) : Except ArgErr Int :=
  match tryInto w t v with
  | .ok v => .ok v
  | .error _ => .error .panic

/-- `axis_index.rs:180-369`: tuples of two to ten numbers, each with its own type. -/
def axesOfTuple (w : Nat) (t : IntTy) (vs : List Int) : Except ArgErr (AxesIndex Int) := do
  return .vec (← vs.mapM (unwrapInto w t))

/-- The argument as most functions take it: `None` or the list of the axes (`normalize_axes_index`,
`axis_index.rs:373-412`, treats one number as a list of one). -/
def AxesIndex.list? : AxesIndex Int → Option (List Int)
  | .none => Option.none
  | .val v => some [v]
  | .vec vs => some vs

/-- `axes_pair_index.rs:24-30`: a number (`i32`, `isize`, `usize`) as the argument of `vecdot`, `tensordot`. -/
def pairOfInt (w : Nat) (v : Int) : AxesPair := .val (asIsize w v)

/-- `axes_pair_index.rs:10-22`: two arguments for axes. -/
def pairOfPair (a b : AxesIndex Int) : AxesPair := .pair a.list? b.list?

/-- `slice.rs:38-54`: bounds and step of any type. -/
def sliceArg (w : Nat) (start stop step : Option Int) : SliceI :=
  ⟨start.map (asIsize w), stop.map (asIsize w), step.map (asIsize w)⟩

/-- `slice.rs:56-64`: `start..stop`. -/
def sliceOfRange (w : Nat) (start stop : Int) : SliceI := sliceArg w (some start) (some stop) none

/-- `slice.rs:66-74`: `start..`. -/
def sliceOfRangeFrom (w : Nat) (start : Int) : SliceI := sliceArg w (some start) none none

/-- `slice.rs:76-84`: `..stop`. -/
def sliceOfRangeTo (w : Nat) (stop : Int) : SliceI := sliceArg w none (some stop) none

/-- `slice.rs:86-90`: `..`. -/
def sliceOfRangeFull : SliceI := ⟨none, none, none⟩

/-- What can be written as one entry of an index. -/
inductive IndexArg where
  | int (v : Int)
  | range (start stop : Int)
  | rangeFrom (start : Int)
  | rangeTo (stop : Int)
  | full
  | slice (start stop step : Option Int)
  | newAxis
  | ellipsis
  deriving DecidableEq, Repr

/-- `indexer.rs:23-53`: one entry of an index. Left out: `Some(_)` for the type `Option<usize>`, a panic. -/
def IndexArg.indexer (w : Nat) : IndexArg → Indexer
  | .int v => .select (asIsize w v)
  | .range a b => .slice (sliceOfRange w a b)
  | .rangeFrom a => .slice (sliceOfRangeFrom w a)
  | .rangeTo b => .slice (sliceOfRangeTo w b)
  | .full => .slice sliceOfRangeFull
  | .slice a b c => .slice (sliceArg w a b c)
  | .newAxis => .insert
  | .ellipsis => .ellipsis

/-- `indexer.rs:59-107` and `dim_slice`: `t.i(args)` on the layout of `t`. One entry, a list and a tuple of entries
become a list of indexers in the same way. -/
def Layout.indexBy (w : Nat) (l : Layout) (args : List IndexArg) : Res Layout := l.dimSlice (args.map (·.indexer w))

end Rstsr
