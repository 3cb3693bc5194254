import Mathlib.Tactic.Linarith
import Verif.Model.Memory
/-!
# Theorems on the memory of new tensors (C96)

The allocator and its contract are those of `Spec/Heap.lean`.
-/
namespace Rstsr
open Spec

theorem allocate_some {al : Allocator} {h h' : Heap} {lay : MemLayout} {p : Nat} (e : allocate al h lay = (some p, h')) :
    al h lay = some p ∧ h' = ⟨p, lay⟩ :: h := by
  unfold allocate at e
  split at e
  · rename_i q hq
    cases e
    exact ⟨hq, rfl⟩
  · cases e

theorem fromSizeAlign_ok {w size align : Nat} {lay : MemLayout} (e : fromSizeAlign w size align = .ok lay) :
    lay = ⟨size, align⟩ ∧ size ≤ 2 ^ (w - 1) - align := by
  unfold fromSizeAlign at e
  split at e
  · rename_i h
    cases e
    exact ⟨rfl, h⟩
  · cases e

/-- The three ways to get a vector. -/
theorem uninitVec_cases {w : Nat} {al : Allocator} {elem : MemLayout} {h h' : Heap} {n : Nat} {v : VecMem}
    (e : uninitVec w al elem h n = .ok (v, h')) :
    ((n = 0 ∨ elem.size = 0 ∧ n < 128) ∧ v = ⟨elem.align, n, 0⟩ ∧ h' = h) ∨
    (n ≠ 0 ∧ elem.size ≠ 0 ∧ n < 128 ∧ v.len = n ∧ v.cap = n ∧ al h ⟨n * elem.size, elem.align⟩ = some v.ptr ∧
      h' = ⟨v.ptr, ⟨n * elem.size, elem.align⟩⟩ :: h) ∨
    (128 ≤ n ∧ n * elem.size % 2 ^ w ≠ 0 ∧ v.len = n ∧ v.cap = n ∧ al h ⟨n * elem.size % 2 ^ w, 64⟩ = some v.ptr ∧
      h' = ⟨v.ptr, ⟨n * elem.size % 2 ^ w, 64⟩⟩ :: h) := by
  unfold uninitVec alignedUninitVec at e
  split at e
  · rename_i h0
    cases e
    subst h0
    exact .inl ⟨.inl rfl, rfl, rfl⟩
  · rename_i h0
    split at e
    · rename_i h1
      unfold unalignedUninitVec at e
      split at e
      · rename_i h2
        cases e
        exact .inl ⟨.inr ⟨by omega, h1⟩, rfl, rfl⟩
      · rename_i h2
        cases hl : fromSizeAlign w (n * elem.size) elem.align with
        | error x => rw [hl] at e; cases e
        | ok lay =>
          rw [hl] at e
          obtain ⟨rfl, -⟩ := fromSizeAlign_ok hl
          simp only at e
          split at e
          · rename_i p h'' ha
            cases e
            obtain ⟨hb, hc⟩ := allocate_some ha
            exact .inr (.inl ⟨h0, by omega, h1, rfl, rfl, hb, hc⟩)
          · cases e
    · rename_i h1
      unfold alignedAlloc at e
      split at e
      · cases e
      · rename_i h2
        cases hl : fromSizeAlign w (n * elem.size % 2 ^ w) 64 with
        | error x => rw [hl] at e; cases e
        | ok lay =>
          rw [hl] at e
          obtain ⟨rfl, -⟩ := fromSizeAlign_ok hl
          cases ha : allocate al h ⟨n * elem.size % 2 ^ w, 64⟩ with
          | mk p h'' =>
            have e : (match p with
              | some p => .ok (⟨p, n, n⟩, h'')
              | none => .error .runtimeError : Res (VecMem × Heap)) = .ok (v, h') := by
              rw [← e]
              simp only [bind, Except.bind, pure, Except.pure, ha]
              cases p <;> rfl
            cases p with
            | none => cases e
            | some p =>
              cases e
              obtain ⟨hb, hc⟩ := allocate_some ha
              exact .inr (.inr ⟨by omega, h2, rfl, rfl, hb, hc⟩)

/-- New memory holds all elements, is aligned for them, overlaps no live memory, and nothing else is touched. The
alignment of the element type divides 64 (true of all number types). Missing: sizes from `2 ^ w` bytes on, see
`C96_false_overflow`. -/
theorem C96_memory_partial (w : Nat) (al : Allocator) (ok : al.Sound) (elem : MemLayout) (ha : elem.align ∣ 64)
    (h h' : Heap) (n : Nat) (hn : n * elem.size < 2 ^ w) (v : VecMem) (e : uninitVec w al elem h n = .ok (v, h')) :
    v.len = n ∧ elem.align ∣ v.ptr ∧ h'.Holds v.ptr n elem.size ∧
      (h' = h ∧ n * elem.size = 0 ∨
        ∃ b, h' = b :: h ∧ b.addr = v.ptr ∧ b.lay.size = n * elem.size ∧ ∀ c ∈ h, b.Apart c) := by
  rcases uninitVec_cases e with ⟨h0, rfl, rfl⟩ | ⟨h0, h1, h2, hl, hc, hp, rfl⟩ | ⟨h0, h1, hl, hc, hp, rfl⟩
  · have hz : n * elem.size = 0 := by rcases h0 with rfl | ⟨h0, -⟩ <;> simp [*]
    exact ⟨rfl, Nat.dvd_refl _, .inl hz, .inl ⟨rfl, hz⟩⟩
  · obtain ⟨-, hd, hap⟩ := ok _ _ _ hp
    exact ⟨hl, hd, .inr ⟨_, List.mem_cons_self, Nat.le_refl _, Nat.le_refl _⟩, .inr ⟨_, rfl, rfl, rfl, hap⟩⟩
  · rw [Nat.mod_eq_of_lt hn] at h1 hp ⊢
    obtain ⟨-, hd, hap⟩ := ok _ _ _ hp
    exact ⟨hl, Nat.dvd_trans ha hd, .inr ⟨_, List.mem_cons_self, Nat.le_refl _, Nat.le_refl _⟩, .inr ⟨_, rfl, rfl, rfl, hap⟩⟩

/-- The memory of 128 or more elements begins at a multiple of 64 bytes. -/
theorem C96_aligned (w : Nat) (al : Allocator) (ok : al.Sound) (elem : MemLayout) (h h' : Heap) (n : Nat) (hn : 128 ≤ n)
    (v : VecMem) (e : uninitVec w al elem h n = .ok (v, h')) : 64 ∣ v.ptr := by
  rcases uninitVec_cases e with ⟨h0, rfl, rfl⟩ | ⟨h0, h1, h2, hl, hc, hp, rfl⟩ | ⟨h0, h1, hl, hc, hp, rfl⟩
  · omega
  · omega
  · exact (ok _ _ _ hp).2.1

/-- Memory for `n` elements is there whenever the allocator has it: with a size of at most `isize::MAX` bytes (less
the alignment), and elements that have a size or are fewer than 128. -/
theorem C96_success_partial (w : Nat) (al : Allocator) (elem : MemLayout) (ha : elem.align ≤ 64) (hw : 0 < w) (h : Heap)
    (n : Nat) (hn : n * elem.size ≤ 2 ^ (w - 1) - 64) (hz : elem.size ≠ 0 ∨ n < 128)
    (hal : ∀ a, (al h ⟨n * elem.size, a⟩).isSome) : ∃ v h', uninitVec w al elem h n = .ok (v, h') := by
  unfold uninitVec alignedUninitVec
  split
  · exact ⟨_, _, rfl⟩
  · rename_i h0
    split
    · unfold unalignedUninitVec
      split
      · exact ⟨_, _, rfl⟩
      · have hl : fromSizeAlign w (n * elem.size) elem.align = .ok ⟨n * elem.size, elem.align⟩ := by
          unfold fromSizeAlign
          rw [if_pos (by omega)]
        obtain ⟨p, hp⟩ := Option.isSome_iff_exists.1 (hal elem.align)
        rw [hl]
        simp only [allocate, hp]
        exact ⟨_, _, rfl⟩
    · rename_i h1
      have hlt : n * elem.size < 2 ^ w := by
        have : 2 ^ (w - 1) ≤ 2 ^ w := Nat.pow_le_pow_right (by omega) (by omega)
        have : 0 < 2 ^ w := Nat.two_pow_pos w
        omega
      have hs : elem.size ≠ 0 := by omega
      have hl : fromSizeAlign w (n * elem.size) 64 = .ok ⟨n * elem.size, 64⟩ := by
        unfold fromSizeAlign
        rw [if_pos hn]
      obtain ⟨p, hp⟩ := Option.isSome_iff_exists.1 (hal 64)
      rw [Nat.mod_eq_of_lt hlt]
      unfold alignedAlloc
      rw [if_neg (Nat.mul_ne_zero h0 hs), hl]
      simp only [bind, Except.bind, pure, Except.pure, allocate, hp]
      exact ⟨_, _, rfl⟩

/-- Without memory, elements with a size are an error. -/
theorem C96_no_memory (w : Nat) (al : Allocator) (elem : MemLayout) (hs : elem.size ≠ 0) (h : Heap) (n : Nat) (hn : n ≠ 0)
    (hal : ∀ lay, al h lay = none) : ∃ err, uninitVec w al elem h n = .error err := by
  cases e : uninitVec w al elem h n with
  | error err => exact ⟨err, rfl⟩
  | ok r =>
    obtain ⟨v, h'⟩ := r
    rcases uninitVec_cases e with ⟨h0, -⟩ | ⟨-, -, -, -, -, hp, -⟩ | ⟨-, -, -, -, hp, -⟩
    · omega
    · rw [hal] at hp; cases hp
    · rw [hal] at hp; cases hp

/-- Dropping fewer than 128 elements gives their memory back as it was asked for. Missing: 128 or more elements, see
`C96_false_drop`. -/
theorem C96_drop_partial (w : Nat) (al : Allocator) (elem : MemLayout) (h h' : Heap) (n : Nat) (hn : n < 128)
    (v : VecMem) (e : uninitVec w al elem h n = .ok (v, h')) : dropVec elem h' v = some h := by
  rcases uninitVec_cases e with ⟨h0, rfl, rfl⟩ | ⟨h0, h1, h2, hl, hc, hp, rfl⟩ | ⟨h0, h1, hl, hc, hp, rfl⟩
  · simp [dropVec]
  · unfold dropVec Heap.release
    rw [hc, if_neg (Nat.mul_ne_zero h0 h1), if_pos List.mem_cons_self, List.erase_cons_head]
  · omega

/-- Dropping 128 or more elements of a type whose alignment is not 64 gives back memory with another alignment than
it was asked for: undefined behaviour. -/
theorem C96_false_drop (w : Nat) (al : Allocator) (ok : al.Sound) (elem : MemLayout) (ha : elem.align ≠ 64) (h h' : Heap)
    (hh : ∀ b ∈ h, 0 < b.lay.size)
    (n : Nat) (hn : 128 ≤ n) (hlt : n * elem.size < 2 ^ w) (v : VecMem) (e : uninitVec w al elem h n = .ok (v, h')) :
    dropVec elem h' v = none := by
  rcases uninitVec_cases e with ⟨h0, rfl, rfl⟩ | ⟨h0, h1, h2, hl, hc, hp, rfl⟩ | ⟨h0, h1, hl, hc, hp, rfl⟩
  · omega
  · omega
  · rw [Nat.mod_eq_of_lt hlt] at h1 hp ⊢
    unfold dropVec Heap.release
    rw [hc, if_neg h1, if_neg]
    intro hm
    rcases List.mem_cons.1 hm with hm | hm
    · simp only [Block.mk.injEq, MemLayout.mk.injEq, true_and] at hm
      exact ha hm
    · have h3 := (ok _ _ _ hp).2.2 _ hm
      have h4 := hh _ hm
      unfold Block.Apart at h3
      simp only at h3 h4
      omega

/-- An allocator for the examples: behind all live blocks. -/
def bump : Allocator := fun h lay =>
  some (((h.map fun b => b.addr + b.lay.size).foldr max 0 / lay.align + 1) * lay.align)

theorem le_foldr_max {xs : List Nat} {x : Nat} (h : x ∈ xs) : x ≤ xs.foldr max 0 := by
  induction xs with
  | nil => cases h
  | cons y ys ih =>
    rw [List.foldr_cons]
    rcases List.mem_cons.1 h with rfl | h
    · omega
    · have := ih h
      omega

/-- With power-of-two alignments (here: any positive ones) it meets the contract. -/
theorem bump_sound (h : Heap) (lay : MemLayout) (ha : 0 < lay.align) (p : Nat) (e : bump h lay = some p) :
    p ≠ 0 ∧ lay.align ∣ p ∧ ∀ b ∈ h, Block.Apart ⟨p, lay⟩ b := by
  unfold bump at e
  cases e
  refine ⟨Nat.mul_ne_zero (Nat.succ_ne_zero _) (by omega), Nat.dvd_mul_left _ _, fun b hb => .inr ?_⟩
  have h1 := le_foldr_max (List.mem_map.2 ⟨b, hb, rfl⟩ : b.addr + b.lay.size ∈ h.map fun b => b.addr + b.lay.size)
  have h2 := Nat.lt_div_mul_add (a := (h.map fun b => b.addr + b.lay.size).foldr max 0) ha
  simp only
  rw [Nat.add_mul, Nat.one_mul]
  omega

/-- An allocator with the contract for all requests. -/
def bumpAll : Allocator := fun h lay => if lay.align = 0 then none else bump h lay

theorem bumpAll_sound : bumpAll.Sound := by
  intro h lay p e
  unfold bumpAll at e
  split at e
  · cases e
  · exact bump_sound h lay (by omega) p e

/-- Ten numbers of eight bytes, then two hundred: the second block is aligned, and dropping the first is correct, the
second not. -/
example : uninitVec 64 bumpAll ⟨8, 8⟩ [] 10 = .ok (⟨8, 10, 10⟩, [⟨8, ⟨80, 8⟩⟩]) ∧
    uninitVec 64 bumpAll ⟨8, 8⟩ [⟨8, ⟨80, 8⟩⟩] 200 = .ok (⟨128, 200, 200⟩, [⟨128, ⟨1600, 64⟩⟩, ⟨8, ⟨80, 8⟩⟩]) ∧
    dropVec ⟨8, 8⟩ [⟨8, ⟨80, 8⟩⟩] ⟨8, 10, 10⟩ = some [] ∧
    dropVec ⟨8, 8⟩ [⟨128, ⟨1600, 64⟩⟩, ⟨8, ⟨80, 8⟩⟩] ⟨128, 200, 200⟩ = none := by decide +kernel

/-- A size whose bytes exceed `usize` is computed modulo `2 ^ 64`: a vector of `2 ^ 61 + 1` numbers of eight bytes is
handed out with memory for one. -/
theorem C96_false_overflow :
    ∃ v h', uninitVec 64 bumpAll ⟨8, 8⟩ [] (2 ^ 61 + 1) = .ok (v, h') ∧ v.len = 2 ^ 61 + 1 ∧
      h' = [⟨v.ptr, ⟨8, 64⟩⟩] ∧ ¬ h'.Holds v.ptr 2 8 := by
  refine ⟨⟨64, 2 ^ 61 + 1, 2 ^ 61 + 1⟩, [⟨64, ⟨8, 64⟩⟩], by decide +kernel, rfl, rfl, ?_⟩
  rintro (h | ⟨b, hb, h1, h2⟩)
  · omega
  · rw [List.mem_singleton] at hb
    subst hb
    simp only at h1 h2
    omega

/-- 128 or more elements without size are refused as if memory were missing. -/
theorem C96_false_zero_sized (w : Nat) (al : Allocator) (elem : MemLayout) (hs : elem.size = 0) (h : Heap) (n : Nat)
    (hn : 128 ≤ n) : uninitVec w al elem h n = .error .runtimeError := by
  unfold uninitVec alignedUninitVec
  rw [if_neg (by omega), if_neg (by omega)]
  unfold alignedAlloc
  rw [if_pos (by rw [hs, Nat.mul_zero, Nat.zero_mod])]
  rfl

end Rstsr
