import Verif.Model.Layout
/-!
# Model of the text of layouts (`rstsr-common/src/format_layout.rs`)

Text is a list of characters; writing to the formatter does not fail.
-/
namespace Rstsr

/-- `{}` of a `usize`: decimal digits. -/
def natText (n : Nat) : List Char := Nat.toDigits 10 n

/-- `{}` of an `isize`. -/
def intText (i : Int) : List Char := if i < 0 then '-' :: natText i.natAbs else natText i.natAbs

/-- The elements of a slice, separated as `{:?}` separates them. -/
def commaText : List (List Char) → List Char
  | [] => []
  | [x] => x
  | x :: y :: rest => x ++ ',' :: ' ' :: commaText (y :: rest)

/-- `{:?}` of a slice. -/
def sliceText (xs : List (List Char)) : List Char := ['['] ++ commaText xs ++ [']']

namespace Layout

/-- `format_layout.rs:15-33`: the word on contiguity. -/
def contigText (l : Layout) : List Char :=
  if l.size = 0 then ['E', 'm', 'p', 't', 'y']
  else
    let t := (if l.cContig then ['C'] else []) ++ (if l.cPrefer then ['c'] else []) ++ (if l.fContig then ['F'] else []) ++
      (if l.fPrefer then ['f'] else [])
    if t.isEmpty then ['C', 'u', 's', 't', 'o', 'm'] else t

/-- `format_layout.rs:7-46` `fmt`; `dyn` says that the type of the layout does not fix the rank (`const_ndim` is none, `:37`). -/
def debugText (dyn : Bool) (l : Layout) : List Char :=
  natText l.ndim ++ ['-', 'D', 'i', 'm'] ++ (if dyn then [' ', '(', 'd', 'y', 'n', ')'] else []) ++
    [',', ' ', 'c', 'o', 'n', 't', 'i', 'g', 'u', 'o', 'u', 's', ':', ' '] ++ l.contigText ++
    ['\n', 's', 'h', 'a', 'p', 'e', ':', ' '] ++ sliceText (l.shape.map natText) ++
    [',', ' ', 's', 't', 'r', 'i', 'd', 'e', ':', ' '] ++ sliceText (l.stride.map intText) ++
    [',', ' ', 'o', 'f', 'f', 's', 'e', 't', ':', ' '] ++ intText l.offset

end Layout

end Rstsr
