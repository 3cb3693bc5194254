/-!
# Specification vocabulary: the memory allocator

The contract of Rust's global allocator: `alloc` gives memory of the size and alignment asked for that no live block
uses, or nothing; a block must be given back with the size and alignment it was asked for with.
-/
namespace Spec

/-- Size and alignment of a block, in bytes. -/
structure MemLayout where
  size : Nat
  align : Nat
  deriving DecidableEq, Repr

/-- A live block of memory: its address, and how it was asked for. -/
structure Block where
  addr : Nat
  lay : MemLayout
  deriving DecidableEq, Repr

/-- The live blocks. -/
abbrev Heap := List Block

/-- The address that the allocator returns for a request, `none` if there is no memory. -/
abbrev Allocator := Heap → MemLayout → Option Nat

/-- Two blocks have no byte in common. -/
def Block.Apart (a b : Block) : Prop := a.addr + a.lay.size ≤ b.addr ∨ b.addr + b.lay.size ≤ a.addr

/-- What an allocator guarantees. -/
def Allocator.Sound (al : Allocator) : Prop :=
  ∀ h lay p, al h lay = some p → p ≠ 0 ∧ lay.align ∣ p ∧ ∀ b ∈ h, Block.Apart ⟨p, lay⟩ b

/-- Giving back memory: the block is no longer live. `none`: no live block has this address, size and alignment, the
behaviour is undefined. -/
def Heap.release (h : Heap) (p : Nat) (lay : MemLayout) : Option Heap :=
  if ⟨p, lay⟩ ∈ h then some (h.erase ⟨p, lay⟩) else none

/-- `n` elements of `size` bytes fit at `p`: they lie in a live block. -/
def Heap.Holds (h : Heap) (p n size : Nat) : Prop :=
  n * size = 0 ∨ ∃ b ∈ h, b.addr ≤ p ∧ p + n * size ≤ b.addr + b.lay.size

end Spec
