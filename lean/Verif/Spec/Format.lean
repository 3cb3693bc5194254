import Mathlib.Data.List.Basic
/-!
# What the text of an array is
-/
namespace Spec

/-- What is shown of an axis: all its positions, or the first and the last few with an ellipsis (`none`) between them. -/
def shownOf (all : Bool) (few dim : Nat) : List (Option Nat) :=
  if all then (List.range dim).map some
  else (List.range few).map some ++ none :: (List.range' (dim - few) few).map some

def ellipsis : List Char := ['.', '.', '.']

/-- A row: the elements with a space before each. -/
def renderRow (most few n : Nat) (text : Nat → List Char) : List Char :=
  ['['] ++ ((shownOf (decide (n ≤ max most (2 * few + 1))) few n).flatMap fun i => ' ' :: (i.map text).getD ellipsis) ++ [']']

/-- Between the parts of an array: a new line between rows, an empty line too between larger parts. -/
def between (rank : Nat) : List Char := if rank = 1 then ['\n'] else ['\n', '\n']

/-- The text of an array inside of `d` brackets: in brackets, the texts of its parts, those after the first one on new lines that begin below
the first one. -/
def render (most few : Nat) : Nat → List Nat → (List Nat → List Char) → List Char
  | _, [], text => text []
  | _, [n], text => renderRow most few n fun i => text [i]
  | d, n :: m :: rest, text =>
    ['['] ++ (between (rest.length + 1) ++ List.replicate (d + 1) ' ').intercalate
      ((shownOf (decide (n < most ∨ n < 2 * few)) few n).map fun i => (i.map fun i => render most few (d + 1) (m :: rest) fun r => text (i :: r)).getD ellipsis) ++ [']']

/-- The text of an array whose element at an index has the text `text`. -/
def arrayText (most few : Nat) (shape : List Nat) (text : List Nat → List Char) : List Char :=
  if 0 ∈ shape then ['[', ']'] else render most few 0 shape text

end Spec
