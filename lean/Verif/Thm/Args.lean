import Verif.Model.Args
import Verif.Model.Vecdot
import Verif.Thm.Slice
/-!
# Theorems on arguments for indices and axes (C95)

The integer types and their numbers are those of `Spec/IntTypes.lean`.
-/
namespace Rstsr
open Spec

theorem tryInto_ok {w : Nat} {t : IntTy} {v x : Int} : tryInto w t v = .ok x ↔ t.Has w v ∧ x = v := by
  unfold tryInto
  split
  · rename_i h
    constructor
    · intro e; cases e; exact ⟨h, rfl⟩
    · rintro ⟨-, rfl⟩; rfl
  · rename_i h
    constructor
    · intro e; cases e
    · rintro ⟨h', -⟩; exact absurd h' h

theorem mapM_except {ε α β : Type} {f : α → Except ε β} {g : α → β} {xs : List α} (h : ∀ x ∈ xs, f x = .ok (g x)) :
    xs.mapM f = .ok (xs.map g) := by
  induction xs with
  | nil => rfl
  | cons x xs ih =>
    rw [List.mapM_cons, h x List.mem_cons_self, ih fun y hy => h y (List.mem_cons_of_mem _ hy)]
    rfl

/-- The first number that is refused decides the outcome. -/
theorem mapM_except_error {ε α β : Type} {f : α → Except ε β} {e : ε} {xs : List α}
    (h : ∀ x ∈ xs, f x = .error e ∨ ∃ y, f x = .ok y) (hx : ∃ x ∈ xs, f x = .error e) : xs.mapM f = .error e := by
  induction xs with
  | nil => obtain ⟨x, hx, -⟩ := hx; cases hx
  | cons x xs ih =>
    rw [List.mapM_cons]
    rcases h x List.mem_cons_self with he | ⟨y, hy⟩
    · rw [he]; rfl
    · have : ∃ x ∈ xs, f x = .error e := by
        obtain ⟨z, hz, he⟩ := hx
        rcases List.mem_cons.1 hz with rfl | hz
        · rw [hy] at he; cases he
        · exact ⟨z, hz, he⟩
      rw [hy, ih (fun z hz => h z (List.mem_cons_of_mem _ hz)) this]
      rfl

/-- A number as argument for an axis arrives unchanged if it is a number of the type that the function works with,
and is an error otherwise. -/
theorem C95_axis (w : Nat) (t : IntTy) (v : Int) :
    (t.Has w v → axesOfInt w t v = .ok (.val v)) ∧ (¬ t.Has w v → axesOfInt w t v = .error .tryFromInt) := by
  unfold axesOfInt tryInto
  exact ⟨fun h => by rw [if_pos h]; rfl, fun h => by rw [if_neg h]; rfl⟩

/-- A list of numbers arrives unchanged if all are numbers of the type that the function works with, and is an error
otherwise. -/
theorem C95_axes (w : Nat) (t : IntTy) (vs : List Int) :
    ((∀ v ∈ vs, t.Has w v) → axesOfList w t vs = .ok (.vec vs)) ∧
    ((∃ v ∈ vs, ¬ t.Has w v) → axesOfList w t vs = .error .tryFromInt) := by
  unfold axesOfList
  constructor
  · intro h
    rw [mapM_except (g := id) fun v hv => tryInto_ok.2 ⟨h v hv, rfl⟩]
    simp [pure, Except.pure, bind, Except.bind]
  · rintro ⟨v, hv, h⟩
    rw [mapM_except_error (e := ArgErr.tryFromInt)]
    · rfl
    · intro x _
      unfold tryInto
      split
      · exact .inr ⟨_, rfl⟩
      · exact .inl rfl
    · exact ⟨v, hv, by unfold tryInto; rw [if_neg h]⟩

/-- A tuple of numbers arrives unchanged if all are numbers of the type that the function works with. Missing: other
numbers should be an error, see `C95_false_tuple`. -/
theorem C95_tuple_partial (w : Nat) (t : IntTy) (vs : List Int) (h : ∀ v ∈ vs, t.Has w v) :
    axesOfTuple w t vs = .ok (.vec vs) := by
  unfold axesOfTuple
  rw [mapM_except (g := id) fun v hv => by
    unfold unwrapInto
    rw [tryInto_ok.2 ⟨h v hv, rfl⟩]
    rfl]
  simp [pure, Except.pure, bind, Except.bind]

/-- Any other number in a tuple is a panic, also of the functions that report errors. -/
theorem C95_false_tuple (w : Nat) (t : IntTy) (vs : List Int) (h : ∃ v ∈ vs, ¬ t.Has w v) :
    axesOfTuple w t vs = .error .panic := by
  unfold axesOfTuple
  rw [mapM_except_error (e := ArgErr.panic)]
  · rfl
  · intro x _
    unfold unwrapInto tryInto
    by_cases hx : t.Has w x
    · exact .inr ⟨x, by rw [if_pos hx]⟩
    · exact .inl (by rw [if_neg hx])
  · obtain ⟨v, hv, h⟩ := h
    exact ⟨v, hv, by unfold unwrapInto tryInto; rw [if_neg h]⟩

example : ¬ IntTy.usize.Has 64 (-1) ∧ IntTy.i32.Has 64 (-1) ∧ axesOfList 64 .usize [0, -1] = .error .tryFromInt ∧
    axesOfTuple 64 .usize [0, -1] = .error .panic ∧ axesOfTuple 64 .isize [0, -1] = .ok (.vec [0, -1]) := by decide

theorem asIsize_of {w : Nat} (hw : 0 < w) {v : Int} (h : IntTy.isize.Has w v) : asIsize w v = v := by
  unfold asIsize
  obtain ⟨h1, h2⟩ := h
  obtain ⟨k, rfl⟩ : ∃ k, w = k + 1 := ⟨w - 1, by omega⟩
  simp only [Nat.add_sub_cancel] at h1 h2
  have h3 : ((2 ^ (k + 1) : Nat) : Int) = 2 * 2 ^ k := by push_cast; ring
  refine Int.bmod_eq_of_le_mul_two ?_ ?_ <;> rw [h3] <;> omega

/-- Entries with numbers of `isize`, whatever their type is, arrive unchanged: as the index of one element, the
bounds and the step of a slice. -/
def IndexArg.Fits (w : Nat) : IndexArg → Prop
  | .int v => IntTy.isize.Has w v
  | .range a b => IntTy.isize.Has w a ∧ IntTy.isize.Has w b
  | .rangeFrom a => IntTy.isize.Has w a
  | .rangeTo b => IntTy.isize.Has w b
  | .slice a b c => (∀ v ∈ a, IntTy.isize.Has w v) ∧ (∀ v ∈ b, IntTy.isize.Has w v) ∧ ∀ v ∈ c, IntTy.isize.Has w v
  | _ => True

/-- The meaning of an entry, whatever the types of its numbers. -/
def IndexArg.meaning : IndexArg → Indexer
  | .int v => .select v
  | .range a b => .slice ⟨some a, some b, none⟩
  | .rangeFrom a => .slice ⟨some a, none, none⟩
  | .rangeTo b => .slice ⟨none, some b, none⟩
  | .full => .slice ⟨none, none, none⟩
  | .slice a b c => .slice ⟨a, b, c⟩
  | .newAxis => .insert
  | .ellipsis => .ellipsis

theorem asIsize_option {w : Nat} (hw : 0 < w) {a : Option Int} (h : ∀ v ∈ a, IntTy.isize.Has w v) :
    a.map (asIsize w) = a := by
  cases a with
  | none => rfl
  | some v => simp [asIsize_of hw (h v rfl)]

/-- Indexing by entries whose numbers fit `isize` is indexing by these numbers. Missing: larger numbers, see
`C95_false_select` and `C95_false_range`. -/
theorem C95_index_partial (w : Nat) (hw : 0 < w) (l : Layout) (args : List IndexArg) (h : ∀ a ∈ args, a.Fits w) :
    l.indexBy w args = l.dimSlice (args.map IndexArg.meaning) := by
  unfold Layout.indexBy
  congr 1
  refine List.map_congr_left fun a ha => ?_
  have h := h a ha
  cases a with
  | int v => simp only [IndexArg.indexer, IndexArg.meaning, asIsize_of hw h]
  | range a b =>
    simp only [IndexArg.indexer, IndexArg.meaning, sliceOfRange, sliceArg, Option.map, asIsize_of hw h.1, asIsize_of hw h.2]
  | rangeFrom a => simp only [IndexArg.indexer, IndexArg.meaning, sliceOfRangeFrom, sliceArg, Option.map, asIsize_of hw h]
  | rangeTo b => simp only [IndexArg.indexer, IndexArg.meaning, sliceOfRangeTo, sliceArg, Option.map, asIsize_of hw h]
  | slice a b c =>
    simp only [IndexArg.indexer, IndexArg.meaning, sliceArg, asIsize_option hw h.1, asIsize_option hw h.2.1, asIsize_option hw h.2.2]
  | _ => rfl

/-- An axis argument of `vecdot` and `tensordot` that fits `isize` arrives unchanged. Missing: larger numbers, see
`C95_false_pair`. -/
theorem C95_pair_partial (w : Nat) (hw : 0 < w) (v : Int) (h : IntTy.isize.Has w v) : pairOfInt w v = .val v := by
  unfold pairOfInt
  rw [asIsize_of hw h]

/-- Two arguments for axes are handed on as they are. -/
theorem C95_pair_lists (w : Nat) (A B : List Int) (hA : ∀ v ∈ A, IntTy.isize.Has w v) (hB : ∀ v ∈ B, IntTy.isize.Has w v) :
    (do return pairOfPair (← axesOfList w .isize A) (← axesOfList w .isize B) : Except ArgErr AxesPair) =
      .ok (.pair (some A) (some B)) := by
  rw [(C95_axes w .isize A).1 hA, (C95_axes w .isize B).1 hB]
  rfl

example : (⟨[⟨4, 3⟩, ⟨3, 1⟩], 0⟩ : Layout).indexBy 64 [.int (-1), .range 0 2] = .ok ⟨[⟨2, 1⟩], 9⟩ ∧
    (∀ a ∈ [IndexArg.int (-1), .range 0 2], a.Fits 64) :=
  ⟨by decide, by simp [IndexArg.Fits, IntTy.Has]⟩

/-- An optional number names that axis or, if there is none, asks for all axes; the empty tuple names no axis. -/
theorem C95_option (v : Int) :
    (axesOfOption (some v)).list? = some [v] ∧ (axesOfOption none).list? = none ∧ axesOfUnit.list? = some [] := ⟨rfl, rfl, rfl⟩

/-- The greatest number of `usize` as an index: the vector has no such element, but its last one is taken. -/
theorem C95_false_select :
    IntTy.usize.Has 64 (2 ^ 64 - 1) ∧
    (⟨[⟨5, 1⟩], 0⟩ : Layout).indexBy 64 [.int (2 ^ 64 - 1)] = .ok ⟨[], 4⟩ ∧
    (⟨[⟨5, 1⟩], 0⟩ : Layout).dimSlice [.select (2 ^ 64 - 1)] = .error .indexError := by decide +kernel

/-- `0..usize::MAX` selects all elements but the last one. -/
theorem C95_false_range :
    IntTy.usize.Has 64 0 ∧ IntTy.usize.Has 64 (2 ^ 64 - 1) ∧
    (⟨[⟨5, 1⟩], 0⟩ : Layout).indexBy 64 [.range 0 (2 ^ 64 - 1)] = .ok ⟨[⟨4, 1⟩], 0⟩ ∧
    (⟨[⟨5, 1⟩], 0⟩ : Layout).dimSlice [.slice ⟨some 0, some (2 ^ 64 - 1), none⟩] = .ok ⟨[⟨5, 1⟩], 0⟩ := by
  decide +kernel

/-- On a machine with 32 bits a 64-bit index loses its upper half. -/
theorem C95_false_narrow :
    IntTy.u64.Has 32 (2 ^ 32 + 3) ∧
    (⟨[⟨5, 1⟩], 0⟩ : Layout).indexBy 32 [.int (2 ^ 32 + 3)] = .ok ⟨[], 3⟩ := by decide +kernel

/-- The greatest number of `usize` as the axis of `vecdot` is taken for the last axis; the same number in a list is
an error. -/
theorem C95_false_pair :
    pairOfInt 64 (2 ^ 64 - 1) = .val (-1) ∧ vecdotAxes 2 2 (pairOfInt 64 (2 ^ 64 - 1)) = .ok ([1], [1]) ∧
    axesOfList 64 .isize [2 ^ 64 - 1] = .error .tryFromInt := by
  refine ⟨?_, by decide +kernel, by decide +kernel⟩
  exact congrArg AxesPair.val (by decide +kernel : asIsize 64 (2 ^ 64 - 1) = -1)

end Rstsr
