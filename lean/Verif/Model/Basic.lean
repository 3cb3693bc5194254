import Verif.Spec.Index
/-!
# Model: errors, axes and layouts
-/
namespace Rstsr

/-- Error kinds of `rstsr-common/src/error.rs` that the modelled code can return, plus `panic` for a
Rust panic (out-of-bounds slice access, division by zero, `unwrap` on an error). -/
inductive Err where
  | invalidLayout
  | invalidValue
  | indexError
  | axisError
  | valueOutOfRange
  | miscellaneous
  | runtimeError
  | errorCode (info : Int)
  | faerError
  | deviceMismatch
  | panic
  deriving DecidableEq, Repr

abbrev Res := Except Err

/-- Equality of results can be decided (used for concrete examples only). -/
instance {α : Type} [DecidableEq α] : DecidableEq (Res α)
  | .ok a, .ok b => if h : a = b then isTrue (h ▸ rfl) else isFalse (fun e => h (by cases e; rfl))
  | .error a, .error b =>
    if h : a = b then isTrue (h ▸ rfl) else isFalse (fun e => h (by cases e; rfl))
  | .ok _, .error _ => isFalse nofun
  | .error _, .ok _ => isFalse nofun

/-- One axis of a layout: its length and its stride. -/
structure Axis where
  dim : Nat
  str : Int
  deriving DecidableEq, Repr, Inhabited

/-- `rstsr-common/src/layout/layoutbase.rs:14-25`, `struct Layout { shape, stride, offset }`.
Simplification: `shape` and `stride` are kept as one list of pairs. For `Ix<N>` both have length `N`
by type; for `IxD` every checked constructor compares the lengths (`check_strides`, line 288).
`offset : usize` is an `Int`; a negative value stands for a wrapped `usize`. -/
structure Layout where
  axes : List Axis
  offset : Int
  deriving DecidableEq, Repr, Inhabited

namespace Layout

/-- `layoutbase.rs:30-40` `shape()`. -/
def shape (l : Layout) : List Nat := l.axes.map (·.dim)

/-- `layoutbase.rs:42-46` `stride()`. -/
def stride (l : Layout) : List Int := l.axes.map (·.str)

/-- `layoutbase.rs:54-58` `ndim()`. -/
def ndim (l : Layout) : Nat := l.axes.length

/-- `layoutbase.rs:67-69` `size()`. -/
def size (l : Layout) : Nat := l.shape.prod

/-- Position of a multi-index: the defining formula of a strided layout, as used by
`index_uncheck` (`layoutbase.rs:519-544`); the special cases for ndim 0 to 4 there are the unrolled
sum (see `indexUncheck` in `Model/Layout.lean`). -/
def addr (l : Layout) (idx : List Nat) : Int := Spec.position l.stride l.offset idx

end Layout
end Rstsr
