import Verif.Model.Copy
/-!
# Model of ownership: who holds which storage (`rstsr-core/src/storage/data.rs`,
`rstsr-core/src/tensor/ownership_conversion.rs`)

Storage buffers live in a heap and are named by their number; moving a `Vec` or an `Arc` keeps the buffer, cloning it
makes a new one. A program holds *handles*: tensors of the six ownership types. `Arc::strong_count` is the number of
live `Arc` handles to a buffer (there are no weak references in the crate).

Rust's borrow rules are part of the program's world, not of this crate. They are modelled by ending borrows: a use of
a handle by `&mut` or by value ends every handle borrowed from it, a use by `&` ends the mutable ones. A program that
still uses an ended handle does not compile. (This admits every program the compiler admits, and some more.) Unsafe
functions (`force_mut`) and threads are left out.
-/
namespace Rstsr
open Spec (Order)
namespace Own

/-- How a program stops. -/
inductive Stop where
  /-- The compiler refuses it. -/
  | compile
  /-- It panics. -/
  | panic
  /-- A checked call returns an error. -/
  | error (e : Err)
deriving DecidableEq, Repr

/-- `data.rs:16-25` `DataRef`, `DataMut`: a reference, or a `Vec` made from the raw parts of a borrowed buffer (which
is never dropped). -/
inductive Borrow where
  | trueRef (b : Nat)
  | manual (b : Nat)
deriving DecidableEq, Repr

/-- The buffer reached. -/
def Borrow.buf : Borrow → Nat
  | .trueRef b => b
  | .manual b => b

/-- `data.rs:10-42`: `DataOwned`, `DataRef`, `DataMut`, `DataCow`, `DataArc`, `DataReference`. -/
inductive Data where
  | owned (b : Nat)
  | ref (r : Borrow)
  | mutRef (r : Borrow)
  | cowOwned (b : Nat)
  | cowRef (r : Borrow)
  | arc (b : Nat)
  | refRef (r : Borrow)
  | refMut (r : Borrow)
deriving DecidableEq, Repr

/-- `data.rs:208-375` `raw`: the buffer a handle reads. -/
def Data.buf : Data → Nat
  | .owned b => b
  | .ref r => r.buf
  | .mutRef r => r.buf
  | .cowOwned b => b
  | .cowRef r => r.buf
  | .arc b => b
  | .refRef r => r.buf
  | .refMut r => r.buf

/-- Does the handle own its buffer? -/
def Data.isOwner : Data → Bool
  | .owned _ => true
  | .cowOwned _ => true
  | .arc _ => true
  | _ => false

/-- Is the handle a mutable borrow? -/
def Data.isMut : Data → Bool
  | .mutRef _ => true
  | .refMut _ => true
  | _ => false

/-- A tensor in the program: its data, its layout, and the handles it is borrowed from. -/
structure Handle where
  data : Data
  layout : Layout
  lenders : List Nat
deriving Repr

/-- The buffers, and the handles made so far (`none`: gone). -/
structure State (α : Type) where
  heap : List (List α)
  hs : List (Option Handle)
deriving Repr

variable {α : Type}

/-- Is it a live `Arc` handle to buffer `b`? -/
def holdsArc (b : Nat) : Option Handle → Bool
  | some h => decide (h.data = .arc b)
  | none => false

namespace State

/-- The handle, if it can still be used. -/
def live (s : State α) (k : Nat) : Option Handle := s.hs[k]?.join

/-- The tensor a handle shows. -/
def tensor (s : State α) (k : Nat) : Option (Tensor α) :=
  (s.live k).bind fun h => (s.heap[h.data.buf]?).map fun d => ⟨d, h.layout⟩

/-- Is there exactly one `Arc` handle to buffer `b`? -/
def sole (s : State α) (b : Nat) : Bool :=
  s.hs.countP (holdsArc b) == 1

/-- Borrow rules: the handles that end when `k` is used by `&mut` or by value (`all`), or by `&`. -/
def endBorrows (s : State α) (k : Nat) (all : Bool) : List (Option Handle) :=
  s.hs.map fun o => o.bind fun h => if k ∈ h.lenders ∧ (all ∨ h.data.isMut) then none else some h

/-- Borrow rules: `k` is moved. -/
def moved (s : State α) (k : Nat) : List (Option Handle) := (s.endBorrows k true).set k none

/-- Use a handle; an ended handle does not compile. -/
def use (s : State α) (k : Nat) : Except Stop Handle :=
  match s.live k with
  | some h => .ok h
  | none => .error .compile

end State

/-- A result of the crate inside a program. -/
def lift {β : Type} : Res β → Except Stop β
  | .ok x => .ok x
  | .error .panic => .error .panic
  | .error e => .error (.error e)

/-- `Vec::clone` into a new buffer. -/
def cloneBuf (heap : List (List α)) (b : Nat) : List (List α) × Nat := (heap ++ [heap.getD b []], heap.length)

/-- `data.rs:221-395` `DataCloneAPI::into_owned`: the buffer of the resulting `DataOwned`. `sole`: is this the only
`Arc`? (`Arc::try_unwrap(..).ok().unwrap()`, 337.) -/
def Data.intoOwned (heap : List (List α)) (sole : Bool) : Data → Except Stop (List (List α) × Nat)
  | .owned b => .ok (heap, b)
  | .cowOwned b => .ok (heap, b)
  | .arc b => if sole then .ok (heap, b) else .error .panic
  | .ref r => .ok (cloneBuf heap r.buf)
  | .mutRef r => .ok (cloneBuf heap r.buf)
  | .cowRef r => .ok (cloneBuf heap r.buf)
  | .refRef r => .ok (cloneBuf heap r.buf)
  | .refMut r => .ok (cloneBuf heap r.buf)

/-- `data.rs:221-395` `DataCloneAPI::into_shared`: the buffer of the resulting `DataArc`. -/
def Data.intoShared (heap : List (List α)) : Data → List (List α) × Nat
  | .owned b => (heap, b)
  | .cowOwned b => (heap, b)
  | .arc b => (heap, b)
  | .ref r => cloneBuf heap r.buf
  | .mutRef r => cloneBuf heap r.buf
  | .cowRef r => cloneBuf heap r.buf
  | .refRef r => cloneBuf heap r.buf
  | .refMut r => cloneBuf heap r.buf

/-- `data.rs:459-517` `DataIntoCowAPI::into_cow`. -/
def Data.intoCow (heap : List (List α)) (sole : Bool) : Data → Except Stop (List (List α) × Data)
  | .owned b => .ok (heap, .cowOwned b)
  | .ref r => .ok (heap, .cowRef r)
  | .mutRef r => .ok (heap, .cowRef r)
  | .cowOwned b => .ok (heap, .cowOwned b)
  | .cowRef r => .ok (heap, .cowRef r)
  | .arc b => do
    let (heap, b) ← Data.intoOwned heap sole (.arc b)
    .ok (heap, .cowOwned b)
  | .refRef r => .ok (heap, .cowRef r)
  | .refMut r => .ok (heap, .cowRef r)

/-- `data.rs:379-411` `DataMutAPI::raw_mut`: the data afterwards, whose buffer is the one to write to. Only `DataOwned`,
`DataMut` and `DataArc` have it; `Arc::make_mut` (406) clones a shared buffer. -/
def Data.rawMut (heap : List (List α)) (sole : Bool) : Data → Except Stop (List (List α) × Data)
  | .owned b => .ok (heap, .owned b)
  | .mutRef r => .ok (heap, .mutRef r)
  | .arc b =>
    if sole then .ok (heap, .arc b)
    else .ok ((cloneBuf heap b).1, .arc (cloneBuf heap b).2)
  | _ => .error .compile

/-- `ownership_conversion.rs:97-98`: does the layout use the whole storage exactly? -/
def full (t : Tensor α) : Res Bool := do
  let (mn, mx) ← t.layout.boundsIndex
  .ok (decide (mn = 0 ∧ mx = t.data.length ∧ mx = t.layout.size))

/-- What a program can do with tensors. -/
inductive Op (α : Type) where
  /-- `Tensor::new_f`: take a vector. -/
  | create (data : List α) (l : Layout)
  /-- Another tensor on the same `Arc` (`DataArc::from(Arc)`, `data.rs:134-139`). -/
  | again (k : Nat)
  /-- `view`, and every view-making operation (slices, transposes, broadcasts); `asarray` of borrowed memory
  (`manual`, `asarray.rs:530-578`). -/
  | view (k : Nat) (l : Layout) (manual : Bool)
  /-- `view_mut`, and mutable views with another layout; `asarray` of mutably borrowed memory (`manual`). -/
  | viewMut (k : Nat) (l : Layout) (manual : Bool)
  /-- The consuming layout operations (`into_transpose`, `into_slice`, ...). -/
  | relayout (k : Nat) (l : Layout)
  /-- `TensorReference::from`. -/
  | intoReference (k : Nat)
  /-- `TensorView::from`, or `TensorMut::from` (`writable`), of a `TensorReference`. -/
  | fromReference (k : Nat) (writable : Bool)
  | intoCow (k : Nat)
  | intoOwned (k : Nat)
  | intoOwnedKeep (k : Nat)
  | intoShared (k : Nat)
  | intoSharedKeep (k : Nat)
  /-- `to_owned`; also `Tensor::clone`. -/
  | toOwned (k : Nat)
  /-- `TensorCow::clone`. -/
  | cloneCow (k : Nat)
  /-- An in-place operation: `f` is what it does to the storage. -/
  | mutate (k : Nat) (f : Tensor α → Res (List α))
  | drop (k : Nat)

namespace State

/-- Build a handle with a checked layout on an existing buffer. (Layout operations of the crate are proved to yield
accepted layouts elsewhere.) -/
def checked (s : State α) (b : Nat) (l : Layout) : Except Stop Unit :=
  if l.offset < 0 then .error .compile
  else do
    let _ ← lift (Tensor.newF (s.heap.getD b []) l)
    .ok ()

/-- The tensor of a handle. -/
def seen (s : State α) (h : Handle) : Tensor α := ⟨s.heap.getD h.data.buf [], h.layout⟩

/-- `ownership_conversion.rs:96-103` `into_owned`; the buffers, the buffer of the result and its layout. -/
def owning (dflt : Order) (s : State α) (h : Handle) : Except Stop (List (List α) × Nat × Layout) := do
  if ← lift (full (s.seen h)) then
    let (heap, b) ← h.data.intoOwned s.heap (s.sole h.data.buf)
    .ok (heap, b, h.layout)
  else
    let t ← lift (Tensor.asarray dflt (s.seen h) .K)
    .ok (s.heap ++ [t.data], s.heap.length, t.layout)

/-- One operation. `dflt` is the default order of the crate. -/
def step (dflt : Order) (s : State α) : Op α → Except Stop (State α)
  -- `tensorbase.rs:120-129`
  | .create data l => do
    if l.offset < 0 then .error .compile
    else
      let _ ← lift (Tensor.newF data l)
      .ok ⟨s.heap ++ [data], s.hs ++ [some ⟨.owned s.heap.length, l, []⟩]⟩
  | .again k => do
    let h ← s.use k
    match h.data with
    | .arc b => .ok ⟨s.heap, s.endBorrows k false ++ [some ⟨.arc b, h.layout, []⟩]⟩
    | _ => .error .compile
  -- `ownership_conversion.rs:13-18`, `data.rs:172-174`
  | .view k l manual => do
    let h ← s.use k
    s.checked h.data.buf l
    let r := if manual then Borrow.manual h.data.buf else Borrow.trueRef h.data.buf
    .ok ⟨s.heap, s.endBorrows k false ++ [some ⟨.ref r, l, k :: h.lenders⟩]⟩
  -- `ownership_conversion.rs:21-30`, `data.rs:188-190`
  | .viewMut k l manual => do
    let h ← s.use k
    s.checked h.data.buf l
    let (heap, d) ← h.data.rawMut s.heap (s.sole h.data.buf)
    let r := if manual then Borrow.manual d.buf else Borrow.trueRef d.buf
    .ok ⟨heap, (s.endBorrows k true).set k (some { h with data := d }) ++ [some ⟨.mutRef r, l, k :: h.lenders⟩]⟩
  | .relayout k l => do
    let h ← s.use k
    s.checked h.data.buf l
    .ok ⟨s.heap, s.moved k ++ [some { h with layout := l }]⟩
  -- `tensorbase.rs:193-219`
  | .intoReference k => do
    let h ← s.use k
    match h.data with
    | .ref r => .ok ⟨s.heap, s.moved k ++ [some { h with data := .refRef r }]⟩
    | .mutRef r => .ok ⟨s.heap, s.moved k ++ [some { h with data := .refMut r }]⟩
    | _ => .error .compile
  -- `tensorbase.rs:221-257`
  | .fromReference k writable => do
    let h ← s.use k
    match h.data, writable with
    | .refRef r, false => .ok ⟨s.heap, s.moved k ++ [some { h with data := .ref r }]⟩
    | .refMut r, true => .ok ⟨s.heap, s.moved k ++ [some { h with data := .mutRef r }]⟩
    | .refMut _, false => .error .panic
    | .refRef _, true => .error .panic
    | _, _ => .error .compile
  -- `ownership_conversion.rs:33-41`
  | .intoCow k => do
    let h ← s.use k
    let (heap, d) ← h.data.intoCow s.heap (s.sole h.data.buf)
    .ok ⟨heap, s.moved k ++ [some ⟨d, h.layout, if d.isOwner then [] else h.lenders⟩]⟩
  | .intoOwned k => do
    let h ← s.use k
    let (heap, b, l) ← s.owning dflt h
    .ok ⟨heap, s.moved k ++ [some ⟨.owned b, l, []⟩]⟩
  -- `ownership_conversion.rs:54-63`
  | .intoOwnedKeep k => do
    let h ← s.use k
    let (heap, b) ← h.data.intoOwned s.heap (s.sole h.data.buf)
    .ok ⟨heap, s.moved k ++ [some ⟨.owned b, h.layout, []⟩]⟩
  -- `ownership_conversion.rs:105-112`. (The second `into_shared` of 110 gets a fresh owned tensor; it is modelled as
  -- `DataArc::from` of its data.)
  | .intoShared k => do
    let h ← s.use k
    if ← lift (full (s.seen h)) then
      let (heap, b) := h.data.intoShared s.heap
      .ok ⟨heap, s.moved k ++ [some ⟨.arc b, h.layout, []⟩]⟩
    else
      let t ← lift (Tensor.asarray dflt (s.seen h) .K)
      .ok ⟨s.heap ++ [t.data], s.moved k ++ [some ⟨.arc s.heap.length, t.layout, []⟩]⟩
  -- `ownership_conversion.rs:76-84`
  | .intoSharedKeep k => do
    let h ← s.use k
    let (heap, b) := h.data.intoShared s.heap
    .ok ⟨heap, s.moved k ++ [some ⟨.arc b, h.layout, []⟩]⟩
  -- `ownership_conversion.rs:114-116, 119-129`: `self.view().into_owned()`
  | .toOwned k => do
    let h ← s.use k
    let (heap, b, l) ← s.owning dflt { h with data := .ref (.trueRef h.data.buf) }
    .ok ⟨heap, s.endBorrows k false ++ [some ⟨.owned b, l, []⟩]⟩
  -- `ownership_conversion.rs:131-146`
  | .cloneCow k => do
    let h ← s.use k
    let (heap, b, l) ← s.owning dflt { h with data := .ref (.trueRef h.data.buf) }
    .ok ⟨heap, s.endBorrows k false ++ [some ⟨.cowOwned b, l, []⟩]⟩
  -- `raw_mut`, then the kernel; kernels never change the number of cells
  | .mutate k f => do
    let h ← s.use k
    let (heap, d) ← h.data.rawMut s.heap (s.sole h.data.buf)
    let data ← lift (f ⟨heap.getD d.buf [], h.layout⟩)
    if data.length ≠ (heap.getD d.buf []).length then .error .compile
    else .ok ⟨heap.set d.buf data, (s.endBorrows k true).set k (some { h with data := d })⟩
  | .drop k => do
    let _ ← s.use k
    .ok ⟨s.heap, s.moved k⟩

/-- `iterator_elem.rs:61-69` `iter_with_order_f`, `iterator_axes.rs:80-139` `axes_iter_with_order_f` and their indexed
versions: `&self` is borrowed for the call only, and the result has a lifetime chosen by the caller (`transmute`), so it
is borrowed from nothing. Not one of the operations of a history. -/
def looseView (s : State α) (k : Nat) (l : Layout) : Except Stop (State α) := do
  let h ← s.use k
  s.checked h.data.buf l
  .ok ⟨s.heap, s.endBorrows k false ++ [some ⟨.ref (.trueRef h.data.buf), l, []⟩]⟩

/-- A history: operations one after the other from an empty program. -/
def run (dflt : Order) : List (Op α) → State α → Except Stop (State α)
  | [], s => .ok s
  | op :: ops, s => do
    let s ← s.step dflt op
    run dflt ops s

end State

/-- The program before its first operation. -/
def start : State α := ⟨[], []⟩

end Own
end Rstsr
