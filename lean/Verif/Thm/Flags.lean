import Verif.Model.Flags
import Verif.Model.Blas3
import Verif.Spec.Tri
import Mathlib.Data.Complex.Basic
/-!
# C111: the flags of BLAS
-/
namespace Rstsr
open Spec

section
variable {F : Type} [BlasFlag F]

/-- A `char` is read as the flag with that letter, in upper or lower case; anything else panics. -/
def ReadsLetters (ofChar : Char → Res F) : Prop :=
  ∀ c, (∀ f, ofChar c = .ok f ↔ ∃ l, BlasFlag.letter f = some l ∧ (c = l ∨ c = l.toLower)) ∧
    ((¬∃ f l, BlasFlag.letter (F := F) f = some l ∧ (c = l ∨ c = l.toLower)) → ofChar c = .error .panic)

/-- A flag is written as its letter; a flag without one panics. -/
def WritesLetters (toChar : F → Res Char) : Prop :=
  ∀ f, match BlasFlag.letter f with
    | some l => toChar f = .ok l
    | none => toChar f = .error .panic

/-- A `c_char` is read as the flag with that letter in upper case; anything else panics. -/
def ReadsBytes (ofByte : Int → Res F) : Prop :=
  ∀ v : Int, -128 ≤ v → v < 128 → (∀ f, ofByte v = .ok f ↔ ∃ l, BlasFlag.letter f = some l ∧ v = l.toNat) ∧
    ((¬∃ f l, BlasFlag.letter (F := F) f = some l ∧ v = (l.toNat : Int)) → ofByte v = .error .panic)

/-- A flag is written as the code of its letter; a flag without one panics. -/
def WritesBytes (toByte : F → Res Int) : Prop :=
  ∀ f, match BlasFlag.letter f with
    | some l => toByte f = .ok l.toNat
    | none => toByte f = .error .panic

/-- A flag becomes its number; a flag without one panics. -/
def Numbered (number : F → Res Nat) : Prop :=
  ∀ f, match BlasFlag.number f with
    | some n => number f = .ok n
    | none => number f = .error .panic
end

/-- From `char`: for every character. -/
theorem C111_of_char : ReadsLetters transOfChar ∧ ReadsLetters diagOfChar ∧ ReadsLetters sideOfChar ∧ ReadsLetters uploOfChar := by
  refine ⟨fun c => ⟨fun f => ⟨fun h => ?_, ?_⟩, fun h => ?_⟩, fun c => ⟨fun f => ⟨fun h => ?_, ?_⟩, fun h => ?_⟩,
    fun c => ⟨fun f => ⟨fun h => ?_, ?_⟩, fun h => ?_⟩, fun c => ⟨fun f => ⟨fun h => ?_, ?_⟩, fun h => ?_⟩⟩
  · unfold transOfChar at h
    split at h <;> cases h <;> exact ⟨_, rfl, by decide⟩
  · rintro ⟨l, h1, h2⟩
    cases f <;> cases h1 <;> rcases h2 with rfl | rfl <;> rfl
  · unfold transOfChar
    split <;> first | rfl | exact absurd ⟨_, _, rfl, by decide⟩ h | exact absurd ⟨.N, _, rfl, by decide⟩ h | exact absurd ⟨.T, _, rfl, by decide⟩ h | exact absurd ⟨.C, _, rfl, by decide⟩ h
  · unfold diagOfChar at h
    split at h <;> cases h <;> exact ⟨_, rfl, by decide⟩
  · rintro ⟨l, h1, h2⟩
    cases f <;> cases h1 <;> rcases h2 with rfl | rfl <;> rfl
  · unfold diagOfChar
    split <;> first | rfl | exact absurd ⟨.nonUnit, _, rfl, by decide⟩ h | exact absurd ⟨.unit, _, rfl, by decide⟩ h
  · unfold sideOfChar at h
    split at h <;> cases h <;> exact ⟨_, rfl, by decide⟩
  · rintro ⟨l, h1, h2⟩
    cases f <;> cases h1 <;> rcases h2 with rfl | rfl <;> rfl
  · unfold sideOfChar
    split <;> first | rfl | exact absurd ⟨.L, _, rfl, by decide⟩ h | exact absurd ⟨.R, _, rfl, by decide⟩ h
  · unfold uploOfChar at h
    split at h <;> cases h <;> exact ⟨_, rfl, by decide⟩
  · rintro ⟨l, h1, h2⟩
    cases f <;> cases h1 <;> rcases h2 with rfl | rfl <;> rfl
  · unfold uploOfChar
    split <;> first | rfl | exact absurd ⟨.U, _, rfl, by decide⟩ h | exact absurd ⟨.L, _, rfl, by decide⟩ h

/-- To `char`. -/
theorem C111_to_char : WritesLetters transToChar ∧ WritesLetters diagToChar ∧ WritesLetters sideToChar ∧ WritesLetters uploToChar :=
  ⟨fun f => by cases f <;> rfl, fun f => by cases f <;> rfl, fun f => by cases f <;> rfl, fun f => by cases f <;> rfl⟩

/-- To `c_char`. -/
theorem C111_to_byte : WritesBytes transToByte ∧ WritesBytes diagToByte ∧ WritesBytes sideToByte ∧ WritesBytes uploToByte :=
  ⟨fun f => by cases f <;> rfl, fun f => by cases f <;> rfl, fun f => by cases f <;> rfl, fun f => by cases f <;> rfl⟩

theorem byteOf_eq {v : Int} (h1 : -128 ≤ v) (h2 : v < 128) {k : Int} (hk : 0 ≤ k) (hk2 : k < 128) : byteOf v = k ↔ v = k := by
  unfold byteOf
  omega

/-- From `c_char`: for every value. -/
theorem C111_of_byte : ReadsBytes transOfByte ∧ ReadsBytes diagOfByte ∧ ReadsBytes sideOfByte ∧ ReadsBytes uploOfByte := by
  have e : ∀ {v : Int} (h1 : -128 ≤ v) (h2 : v < 128), (byteOf v = 78 ↔ v = 78) ∧ (byteOf v = 84 ↔ v = 84) ∧ (byteOf v = 67 ↔ v = 67) ∧
      (byteOf v = 85 ↔ v = 85) ∧ (byteOf v = 76 ↔ v = 76) ∧ (byteOf v = 82 ↔ v = 82) := fun h1 h2 =>
    ⟨byteOf_eq h1 h2 (by decide) (by decide), byteOf_eq h1 h2 (by decide) (by decide), byteOf_eq h1 h2 (by decide) (by decide),
      byteOf_eq h1 h2 (by decide) (by decide), byteOf_eq h1 h2 (by decide) (by decide), byteOf_eq h1 h2 (by decide) (by decide)⟩
  refine ⟨fun v h1 h2 => ?_, fun v h1 h2 => ?_, fun v h1 h2 => ?_, fun v h1 h2 => ?_⟩
  · obtain ⟨e1, e2, e3, -, -, -⟩ := e h1 h2
    unfold transOfByte
    simp only [e1, e2, e3]
    refine ⟨fun f => ⟨fun h => ?_, ?_⟩, fun h => ?_⟩
    · split_ifs at h <;> cases h <;> exact ⟨_, rfl, by assumption⟩
    · rintro ⟨l, k1, k2⟩
      cases f <;> cases k1 <;> subst k2 <;> rfl
    · rw [if_neg fun k : v = 78 => h ⟨.N, _, rfl, k⟩, if_neg fun k : v = 84 => h ⟨.T, _, rfl, k⟩, if_neg fun k : v = 67 => h ⟨.C, _, rfl, k⟩]
  · obtain ⟨e1, -, -, e2, -, -⟩ := e h1 h2
    unfold diagOfByte
    simp only [e1, e2]
    refine ⟨fun f => ⟨fun h => ?_, ?_⟩, fun h => ?_⟩
    · split_ifs at h <;> cases h <;> exact ⟨_, rfl, by assumption⟩
    · rintro ⟨l, k1, k2⟩
      cases f <;> cases k1 <;> subst k2 <;> rfl
    · rw [if_neg fun k : v = 78 => h ⟨.nonUnit, _, rfl, k⟩, if_neg fun k : v = 85 => h ⟨.unit, _, rfl, k⟩]
  · obtain ⟨-, -, -, -, e1, e2⟩ := e h1 h2
    unfold sideOfByte
    simp only [e1, e2]
    refine ⟨fun f => ⟨fun h => ?_, ?_⟩, fun h => ?_⟩
    · split_ifs at h <;> cases h <;> exact ⟨_, rfl, by assumption⟩
    · rintro ⟨l, k1, k2⟩
      cases f <;> cases k1 <;> subst k2 <;> rfl
    · rw [if_neg fun k : v = 76 => h ⟨.L, _, rfl, k⟩, if_neg fun k : v = 82 => h ⟨.R, _, rfl, k⟩]
  · obtain ⟨-, -, -, e1, e2, -⟩ := e h1 h2
    unfold uploOfByte
    simp only [e1, e2]
    refine ⟨fun f => ⟨fun h => ?_, ?_⟩, fun h => ?_⟩
    · split_ifs at h <;> cases h <;> exact ⟨_, rfl, by assumption⟩
    · rintro ⟨l, k1, k2⟩
      cases f <;> cases k1 <;> subst k2 <;> rfl
    · rw [if_neg fun k : v = 85 => h ⟨.U, _, rfl, k⟩, if_neg fun k : v = 76 => h ⟨.L, _, rfl, k⟩]

/-- To the numbers of CBLAS. -/
theorem C111_numbers : Numbered diagNumber ∧ Numbered sideNumber ∧ Numbered uploNumber ∧ Numbered orderNumber :=
  ⟨fun f => by cases f <;> rfl, fun f => by cases f <;> rfl, fun f => by cases f <;> rfl, fun f => by cases f <;> rfl⟩

/-- To the number of CBLAS, of all flags for transposition but `CN`. -/
theorem C111_trans_number_partial (f : TransFlag) (hf : f ≠ .CN) : ∃ n, BlasFlag.number f = some n ∧ transNumber f = .ok n := by
  cases f <;> first | exact ⟨_, rfl, rfl⟩ | exact absurd rfl hf

/-- The CBLAS enumeration of transposition: there and back. -/
theorem C111_cblas (f : TransFlag) (k : CblasTrans) : transToCblas f = .ok k ↔ transOfCblas k = f := by
  cases f <;> cases k <;> decide

/-- `flip`: what is read from the transpose of the matrix, or its conjugate transpose for Hermitian use, with the
flipped flag is what was read from the matrix with the flag. -/
theorem C111_flip_partial {R : Type} [InvolutiveStar R] (A : Nat → Nat → R) (f g : TransFlag) (hermi : Bool) (h : flipFlag f hermi = .ok g)
    (hf : f = .N ∨ (f = .T ∧ hermi = false) ∨ (f = .C ∧ hermi = true)) :
    g.read (if hermi then TransFlag.C.read A else TransFlag.T.read A) = f.read A := by
  rcases hf with rfl | ⟨rfl, rfl⟩ | ⟨rfl, rfl⟩
  · cases hermi <;> cases h <;> funext i j <;> simp [TransFlag.read]
  · cases h; rfl
  · cases h; rfl

/-- `flip` of the flags for the triangle, the side and the order: two flips are none; the flipped triangle is the transposed one. -/
theorem C111_flips (u : UpLo) (s : Side) (o : Order) :
    flipUpLo (flipUpLo u) = u ∧ (∀ i j, InTri (flipUpLo u) i j ↔ InTri u j i) ∧
    flipSide (flipSide s) = s ∧ flipSide s ≠ s ∧ flipOrder (flipOrder o) = o ∧ flipOrder o ≠ o := by
  refine ⟨by cases u <;> rfl, fun i j => by cases u <;> rfl, by cases s <;> rfl, by cases s <;> decide, by cases o <;> rfl, by cases o <;> decide⟩

/-! ## What a user would expect and does not hold -/

/-- Lower case is a flag as a `char` and a panic as a `c_char`. -/
theorem C111_false_lower : transOfChar 'n' = .ok .N ∧ transOfByte ('n'.toNat : Int) = .error .panic := by decide

/-- The flag for conjugation has a number, which the target of the conversion knows, but every conversion of it panics. -/
theorem C111_false_conj : BlasFlag.number TransFlag.CN = some 114 ∧ transToChar .CN = .error .panic ∧ transToByte .CN = .error .panic ∧ transToCblas .CN = .error .panic ∧
    transNumber .CN = .error .panic ∧ ∀ hermi, flipFlag .CN hermi = .error .invalidValue :=
  ⟨rfl, rfl, rfl, rfl, rfl, fun _ => rfl⟩

/-- `flip` of "transposed" for Hermitian use forgets that no conjugation was asked for, and two flips do not give the flag back. -/
theorem C111_false_flip : flipFlag .T true = .ok .N ∧ flipFlag .N true = .ok .C ∧
    ∃ A : Nat → Nat → ℂ, TransFlag.N.read (TransFlag.C.read A) ≠ TransFlag.T.read A := by
  refine ⟨rfl, rfl, fun _ _ => Complex.I, fun h => ?_⟩
  have := congrArg Complex.im (congrFun (congrFun h 0) 0)
  simp [TransFlag.read] at this
  norm_num at this

/-! ## Concrete cases -/

example : ∃ f l, BlasFlag.letter (F := TransFlag) f = some l ∧ ('c' = l ∨ 'c' = l.toLower) := ⟨.C, 'C', rfl, .inr (by decide)⟩
example : transOfByte 67 = .ok .C ∧ transOfByte (-128) = .error .panic := by decide
example : flipFlag .C true = .ok .N := rfl

end Rstsr
