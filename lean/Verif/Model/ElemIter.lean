import Verif.Model.Fnmut
import Verif.Model.Parallel
/-!
# Model of `rstsr-core/src/tensor/iterator_elem.rs`: iterating over the elements of a tensor

The four iterators (shared or mutable, with or without the index) have the same fields. An item of a mutable iterator
is a reference to a cell, modelled by the number of the cell. `rstsr-core/src/feature_rayon/par_iter.rs:8-20` makes
the parallel iterators: a scheduler divides them (`Plan`) and runs the parts at the same time.
-/
namespace Rstsr
open Spec (Order Proc)

variable {σ α : Type}

/-- `iterator_elem.rs:6-12, 93-99, 179-185, 281-287`: the iterator over positions, and the storage. -/
structure ElemIter (α : Type) where
  iter : Iter
  data : List α

/-- `iterator_elem.rs:61-69, 155-160` `iter_with_order_f`, `iter_mut_with_order_f`. -/
def Tensor.elemIter (dflt : Order) (t : Tensor α) (order : IterOrder) : Res (ElemIter α) := do
  return ⟨← Iter.ofOrder dflt t.layout order, t.data⟩

/-- `iterator_elem.rs:75-82, 166-173` `iter_f`, `iter_mut_f`: the order of the device. -/
def Tensor.elemIterDefault (dflt : Order) (t : Tensor α) : Res (ElemIter α) :=
  t.elemIter dflt (match dflt with
    | .C => .C
    | .F => .F)

/-- `iterator_elem.rs:247-263, 355-369` `indexed_iter_with_order_f`, `indexed_iter_mut_with_order_f`. -/
def Tensor.indexedElemIter (dflt : Order) (t : Tensor α) (order : IterOrder) : Res (ElemIter α) :=
  match order with
  | .C => t.elemIter dflt .C
  | .F => t.elemIter dflt .F
  | _ => .error .invalidValue

/-- `iterator_elem.rs:269-276, 375-382` `indexed_iter_f`, `indexed_iter_mut_f`. -/
def Tensor.indexedElemIterDefault (dflt : Order) (t : Tensor α) : Res (ElemIter α) :=
  t.indexedElemIter dflt (match dflt with
    | .C => .C
    | .F => .F)

namespace ElemIter

/-- `iterator_elem.rs:20-22` `next`: `&self.view[offset]` panics outside the storage. -/
def next (it : ElemIter α) : Res (Option α × ElemIter α) := do
  match ← it.iter.next with
  | (none, i) => return (none, { it with iter := i })
  | (some off, i) => return (some (← readAt it.data off), { it with iter := i })

/-- `iterator_elem.rs:29-31` `next_back`. -/
def nextBack (it : ElemIter α) : Res (Option α × ElemIter α) := do
  match ← it.iter.nextBack with
  | (none, i) => return (none, { it with iter := i })
  | (some off, i) => return (some (← readAt it.data off), { it with iter := i })

/-- `&mut self.view[offset]`: the cell, a panic outside the storage. -/
def cell (it : ElemIter α) (off : Nat) : Res Nat := if off < it.data.length then .ok off else .error .panic

/-- `iterator_elem.rs:107-109` `next` of the mutable iterator. -/
def nextCell (it : ElemIter α) : Res (Option Nat × ElemIter α) := do
  match ← it.iter.next with
  | (none, i) => return (none, { it with iter := i })
  | (some off, i) => return (some (← it.cell off), { it with iter := i })

/-- `iterator_elem.rs:116-118` `next_back` of the mutable iterator. -/
def nextBackCell (it : ElemIter α) : Res (Option Nat × ElemIter α) := do
  match ← it.iter.nextBack with
  | (none, i) => return (none, { it with iter := i })
  | (some off, i) => return (some (← it.cell off), { it with iter := i })

/-- `iterator_elem.rs:193-199` `next` of the indexed iterator. -/
def nextIndexed (it : ElemIter α) : Res (Option (List Nat × α) × ElemIter α) := do
  match ← it.iter.nextIndexed with
  | (none, i) => return (none, { it with iter := i })
  | (some (idx, off), i) => return (some (idx, ← readAt it.data off), { it with iter := i })

/-- `iterator_elem.rs:206-212` `next_back` of the indexed iterator: the index is the front one. -/
def nextBackIndexed (it : ElemIter α) : Res (Option (List Nat × α) × ElemIter α) := do
  match ← it.iter.nextBackIndexed with
  | (none, i) => return (none, { it with iter := i })
  | (some (idx, off), i) => return (some (idx, ← readAt it.data off), { it with iter := i })

/-- `iterator_elem.rs:295-301` `next` of the mutable indexed iterator. -/
def nextIndexedCell (it : ElemIter α) : Res (Option (List Nat × Nat) × ElemIter α) := do
  match ← it.iter.nextIndexed with
  | (none, i) => return (none, { it with iter := i })
  | (some (idx, off), i) => return (some (idx, ← it.cell off), { it with iter := i })

/-- `iterator_elem.rs:38-40, 125-127, 224-226, 326-328` `len`. -/
def len (it : ElemIter α) : Nat := it.iter.len

/-- `iterator_elem.rs:47-52, 134-146, 233-238, 335-345` `split_at`: both parts see the whole storage. -/
def splitAt (it : ElemIter α) (k : Nat) : Res (ElemIter α × ElemIter α) := do
  let (a, b) ← it.iter.splitAt k
  return ({ it with iter := a }, { it with iter := b })

/-- Calling `next` until it returns `None`. -/
def collect : Nat → ElemIter α → Res (List α)
  | 0, _ => .ok []
  | fuel + 1, it => do
    match ← it.next with
    | (none, _) => return []
    | (some v, it) => return v :: (← collect fuel it)

/-- All items of `iter()`. -/
def toList (it : ElemIter α) : Res (List α) := collect (it.len + 1) it

/-- Calling `next` of the mutable iterator until it returns `None`. -/
def collectCells : Nat → ElemIter α → Res (List Nat)
  | 0, _ => .ok []
  | fuel + 1, it => do
    match ← it.nextCell with
    | (none, _) => return []
    | (some v, it) => return v :: (← collectCells fuel it)

/-- All items of `iter_mut()`. -/
def cells (it : ElemIter α) : Res (List Nat) := collectCells (it.len + 1) it

/-- Calling `next` of the indexed iterator until it returns `None`. -/
def collectIndexed : Nat → ElemIter α → Res (List (List Nat × α))
  | 0, _ => .ok []
  | fuel + 1, it => do
    match ← it.nextIndexed with
    | (none, _) => return []
    | (some v, it) => return v :: (← collectIndexed fuel it)

/-- All items of `indexed_iter()`. -/
def toListIndexed (it : ElemIter α) : Res (List (List Nat × α)) := collectIndexed (it.len + 1) it

/-- Calling `next` of the mutable indexed iterator until it returns `None`. -/
def collectIndexedCells : Nat → ElemIter α → Res (List (List Nat × Nat))
  | 0, _ => .ok []
  | fuel + 1, it => do
    match ← it.nextIndexedCell with
    | (none, _) => return []
    | (some v, it) => return v :: (← collectIndexedCells fuel it)

/-- All items of `indexed_iter_mut()`. -/
def indexedCells (it : ElemIter α) : Res (List (List Nat × Nat)) := collectIndexedCells (it.len + 1) it

/-- `iter_mut().for_each(|x| *x = f(*x))` with a function that has a state: the item is used before the next call. -/
def forEachMut (f : σ → α → σ × α) : Nat → σ → ElemIter α → Res (σ × List α)
  | 0, s, it => .ok (s, it.data)
  | fuel + 1, s, it => do
    match ← it.nextCell with
    | (none, it) => return (s, it.data)
    | (some k, it) => do
      let st ← callStep1 f k (s, it.data)
      forEachMut f fuel st.1 { it with data := st.2 }

/-- `indexed_iter_mut().for_each(|(idx, x)| *x = f(idx, *x))`. -/
def forEachIndexedMut (f : σ → List Nat → α → σ × α) : Nat → σ → ElemIter α → Res (σ × List α)
  | 0, s, it => .ok (s, it.data)
  | fuel + 1, s, it => do
    match ← it.nextIndexedCell with
    | (none, it) => return (s, it.data)
    | (some p, it) => do
      let st ← callStep1 (fun s x => f s p.1 x) p.2 (s, it.data)
      forEachIndexedMut f fuel st.1 { it with data := st.2 }

/-- `iter().into_par_iter().collect()`: the items of the parts one after the other. -/
def parCollect : Plan → ElemIter α → Res (List α)
  | .run, it => it.toList
  | .split k p q, it => do
    let (a, b) ← it.splitAt k
    return (← parCollect p a) ++ (← parCollect q b)

/-- `iter_mut().into_par_iter().for_each(|x| *x = f(*x))`. -/
def parForEach (f : α → α) : Plan → ElemIter α → Res (Proc α)
  | .run, it => do procLoop (fun k => .ok (.upd k f)) (← it.cells)
  | .split k p q, it => do
    let (a, b) ← it.splitAt k
    return .par (← parForEach f p a) (← parForEach f q b)

/-- `indexed_iter_mut().into_par_iter().for_each(|(idx, x)| *x = f(idx, *x))`. -/
def parForEachIndexed (f : List Nat → α → α) : Plan → ElemIter α → Res (Proc α)
  | .run, it => do procLoop (fun p => .ok (.upd p.2 (f p.1))) (← it.indexedCells)
  | .split k p q, it => do
    let (a, b) ← it.splitAt k
    return .par (← parForEachIndexed f p a) (← parForEachIndexed f q b)

end ElemIter
end Rstsr
