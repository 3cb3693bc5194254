import Verif.Model.Kernel
import Verif.Model.Tensor
/-!
# Model of printing (`rstsr-core/src/format/format_tensor.rs`)

Text is a list of characters. Writing to the formatter does not fail; `fmtElem` is what formatting one element writes. `MIN_PRINT` and `MAX_PRINT` are arguments.
-/
namespace Rstsr

section
variable {α : Type}

/-- The part of `FnPrintVecWithLayout` that stays (`:8-21`). -/
structure PrintCfg (α : Type) where
  vec : List α
  layout : Layout
  maxPrint : Nat
  minPrint : Nat
  fmtElem : α → List Char

/-- The part of `FnPrintVecWithLayout` that changes (`:8-21`), and what has been written. The offset goes through `usize` and back between two calls,
which changes nothing. `idx` is `idx_prev`, the last one first. -/
structure PrintSt where
  offset : Int
  idx : List Nat
  out : List Char

/-- How a call ends: it returns, or calls itself. -/
inductive Printed where
  | done (out : List Char)
  | again (st : PrintSt)

def PrintCfg.dim (c : PrintCfg α) (k : Nat) : Nat := (c.layout.axes.getD k default).dim
def PrintCfg.str (c : PrintCfg α) (k : Nat) : Int := (c.layout.axes.getD k default).str

/-- `vec[offset as usize]`: a negative number is no position. -/
def PrintCfg.elem (c : PrintCfg α) (off : Int) : Res (List Char) :=
  if off < 0 then .error .panic else do return c.fmtElem (← readAt c.vec off.toNat)

/-- `:60-78`, `:161-182`: the index `p` of axis `k` has been popped and its part of the offset taken away; it is increased by one, or a text is written and
the last few are next. -/
def PrintCfg.advance (c : PrintCfg α) (k p : Nat) (idx : List Nat) (off : Int) (out skip : List Char) : PrintSt :=
  if c.dim k < c.maxPrint ∨ c.dim k ≤ p + c.minPrint ∨ p + 1 < c.minPrint then
    ⟨off + ((p + 1 : Nat) : Int) * c.str k, (p + 1) :: idx, out⟩
  else
    ⟨off + ((c.dim k - c.minPrint : Nat) : Int) * c.str k, (c.dim k - c.minPrint) :: idx, out ++ skip⟩

/-- `for i in …`: a space and an element, `:117-121`, `:124-134`. -/
def PrintCfg.elems (c : PrintCfg α) (off stride : Int) (is : List Nat) : Res (List Char) :=
  List.flatten <$> is.mapM fun (i : Nat) => do return ' ' :: (← c.elem (off + (i : Int) * stride))

/-- `:98-112`: the prefix of a line, one bracket and one for each zero at the end of the indices. -/
def PrintCfg.prefix (c : PrintCfg α) (idx : List Nat) : List Char :=
  if idx = [] then ['[']
  else
    let nbra := 1 + (idx.takeWhile (· == 0)).length
    List.replicate (c.layout.ndim - nbra) ' ' ++ List.replicate nbra '['

/-- `:140-159`: the end of a line, one bracket and one for each index at its end. -/
def PrintCfg.suffix (c : PrintCfg α) (idx : List Nat) : List Char :=
  if idx = [] then [']']
  else
    let nket := 1 + ((idx.zip ((c.layout.axes.take idx.length).map (·.dim)).reverse).takeWhile fun x => x.1 == x.2 - 1).length
    List.replicate nket ']' ++ if nket ≠ c.layout.ndim then (if nket > 1 then ['\n', '\n'] else ['\n']) else []

/-- `:114-136`: the values of a line. -/
def PrintCfg.line (c : PrintCfg α) (off : Int) (nlast : Nat) (stride : Int) : Res (List Char) :=
  if nlast ≤ max c.maxPrint (2 * c.minPrint + 1) then c.elems off stride (List.range nlast)
  else do
    let x ← c.elems off stride (List.range c.minPrint)
    let y ← c.elems off stride (List.range' (nlast - c.minPrint) c.minPrint)
    return x ++ [' ', '.', '.', '.'] ++ y

/-- One call of `print_vec_with_layout_dfs_inner` (`:25-186`). -/
def PrintCfg.step (c : PrintCfg α) (s : PrintSt) : Res Printed := do
  let ndim := c.layout.ndim
  let len := s.idx.length
  if ndim = 0 then return .done (s.out ++ (← c.elem c.layout.offset))
  else if s.idx ≠ [] ∧ s.idx.head? = some (c.dim (len - 1)) then
    match s.idx with
    | [] => .error .panic
    | p1 :: tl =>
      if p1 = 0 then return .done (s.out ++ ['[', ']'])
      else match tl with
        | [] => return .done s.out
        | p2 :: tl =>
          let off := s.offset - (p1 : Int) * c.str (len - 1) - (p2 : Int) * c.str (len - 2)
          return .again (c.advance (len - 2) p2 tl off s.out (List.replicate (len - 1) ' ' ++ ['.', '.', '.', '\n', '\n']))
  else if len + 1 ≠ ndim then return .again { s with idx := 0 :: s.idx }
  else
    let nlast := c.dim (ndim - 1)
    if nlast = 0 then return .done (s.out ++ ['[', ']'])
    else
      let row ← c.line s.offset nlast (c.str (ndim - 1))
      let out := s.out ++ c.prefix s.idx ++ row ++ c.suffix s.idx
      match s.idx with
      | [] => return .done out
      | p1 :: tl =>
        let off := s.offset - (p1 : Int) * c.str (len - 1)
        return .again (c.advance (len - 1) p1 tl off out (List.replicate len ' ' ++ ['.', '.', '.', '\n']))

/-- The calls one after the other; `none` if there are more of them than the first argument. -/
def PrintCfg.run (c : PrintCfg α) : Nat → PrintSt → Option (Res (List Char))
  | 0, _ => none
  | n + 1, s => match c.step s with
    | .error e => some (.error e)
    | .ok (.done out) => some (.ok out)
    | .ok (.again s) => c.run n s

/-- `:188-205` `print_vec_with_layout_generic`, called by `Display`, `LowerExp`, `UpperExp` (`:211-236`) and `Debug` (`:279-289`). -/
def Tensor.print (t : Tensor α) (maxPrint minPrint : Nat) (fmtElem : α → List Char) (calls : Nat) : Option (Res (List Char)) :=
  (⟨t.data, t.layout, maxPrint, minPrint, fmtElem⟩ : PrintCfg α).run calls ⟨t.layout.offset, [], []⟩

end
end Rstsr
