import Verif.Thm.Pack
import Verif.Spec.Blas3
/-!
# C45: the order in which packed and unpacked triangles are stored
-/
namespace Rstsr
open Spec

section
variable {α : Type}

theorem triOut_seq (dev : Order) (lb : Layout) (s : List Nat) :
    InSequence (if lb.cPrefer && !lb.fPrefer then .C else if lb.fPrefer && !lb.cPrefer then .F else dev)
      (triOut dev lb s).stride (triOut dev lb s).offset (triOut dev lb s).shape := by
  have c : InSequence .C (Layout.newCContig s 0).stride (Layout.newCContig s 0).offset (Layout.newCContig s 0).shape := fun idx hi => by
    rw [shape_newCContig] at hi ⊢
    have := addr_newCContig (o := 0) hi.length_eq
    rw [Int.zero_add] at this
    exact this
  have f : InSequence .F (Layout.newFContig s 0).stride (Layout.newFContig s 0).offset (Layout.newFContig s 0).shape := fun idx hi => by
    rw [shape_newFContig] at hi ⊢
    have := addr_newFContig (o := 0) hi.length_eq
    rw [Int.zero_add] at this
    exact this
  unfold triOut
  cases lb.cPrefer <;> cases lb.fPrefer <;> cases dev <;> first | exact c | exact f

theorem triFinish_layout {par : Option Scheduler} {la : Layout}
    {plan : Nat → Res ((Nat → Nat → Res (List (Nat × α))) × Layout × Layout)} {r : Tensor α} (h : Delivers (triFinish par la plan) r) :
    r.layout = la := by
  unfold triFinish at h
  rcases h with h | ⟨p, n, f, c, h, -, -, h4⟩
  · obtain ⟨⟨_, n⟩, -, h⟩ := bind_ok.1 h
    obtain ⟨⟨_, _, _⟩, -, h⟩ := bind_ok.1 h
    cases par with
    | none =>
      obtain ⟨_, -, h⟩ := bind_ok.1 h
      obtain ⟨_, h', h⟩ := bind_ok.1 h
      obtain ⟨_, -, h'⟩ := bind_ok.1 h'
      cases h
      exact newF_layout h'
    | some s =>
      obtain ⟨_, -, h⟩ := bind_ok.1 h
      cases h
  · obtain ⟨⟨_, n⟩, -, h⟩ := bind_ok.1 h
    obtain ⟨⟨_, _, _⟩, -, h⟩ := bind_ok.1 h
    cases par with
    | none =>
      obtain ⟨_, -, h⟩ := bind_ok.1 h
      obtain ⟨_, -, h⟩ := bind_ok.1 h
      cases h
    | some s =>
      obtain ⟨_, -, h⟩ := bind_ok.1 h
      cases h
      obtain ⟨_, -, h'⟩ := bind_ok.1 h4
      exact newF_layout h'

/-- The order in which the result is stored. -/
def PackedLike (dev : Order) (t r : Tensor α) : Prop :=
  (t.layout.cPrefer = true → t.layout.fPrefer = false → InSequence .C r.layout.stride r.layout.offset r.layout.shape) ∧
  (t.layout.fPrefer = true → t.layout.cPrefer = false → InSequence .F r.layout.stride r.layout.offset r.layout.shape) ∧
  (t.layout.cPrefer = t.layout.fPrefer → InSequence dev r.layout.stride r.layout.offset r.layout.shape)

theorem packedLike {dev : Order} {t r : Tensor α} {s : List Nat} (h : r.layout = triOut dev t.layout s) : PackedLike dev t r := by
  have := triOut_seq dev t.layout s
  rw [← h] at this
  refine ⟨fun h1 h2 => ?_, fun h1 h2 => ?_, fun h1 => ?_⟩
  · simpa [h1, h2] using this
  · simpa [h1, h2] using this
  · cases h2 : t.layout.fPrefer <;> simpa [h1, h2] using this

/-- C45, storage: packed triangles stand in their storage without gaps, in the order that the matrices prefer if they prefer one
and in the order of the device otherwise; on every device and under every schedule. -/
theorem C45_pack_order (dflt dev : Order) (par : Option Scheduler) (t : Tensor α) (uplo : UpLo) (r : Tensor α)
    (h : Delivers (t.packTri dflt dev par uplo) r) : PackedLike dev t r := by
  have key : ∃ la plan, t.packTri dflt dev par uplo = triFinish par la plan ∧ ∃ s, la = triOut dev t.layout s := by
    have e : ∃ x, t.packTri dflt dev par uplo = .ok x := by
      rcases h with h | ⟨_, _, _, _, h, -⟩ <;> exact ⟨_, h⟩
    obtain ⟨x, e⟩ := e
    unfold Tensor.packTri at e ⊢
    cases dev <;>
    · simp only at e ⊢
      obtain ⟨⟨a, b⟩, e1, e2⟩ := bind_ok.1 e
      simp only [e1, ok_bind]
      simp only at e2
      split at e2
      · cases e2
      · rename_i hn
        rw [if_neg hn]
        exact ⟨_, _, rfl, _, rfl⟩
  obtain ⟨la, plan, h1, s, rfl⟩ := key
  rw [h1] at h
  exact packedLike (triFinish_layout h)

/-- The same for unpacked matrices. -/
theorem C45_unpack_order (dflt dev : Order) (par : Option Scheduler) (O : TriOps α) (t : Tensor α) (uplo : UpLo) (symm : Symm)
    (r : Tensor α) (h : Delivers (t.unpackTri dflt dev par O uplo symm) r) : PackedLike dev t r := by
  have key : ∃ la plan, t.unpackTri dflt dev par O uplo symm = triFinish par la plan ∧ ∃ s, la = triOut dev t.layout s := by
    have e : ∃ x, t.unpackTri dflt dev par O uplo symm = .ok x := by
      rcases h with h | ⟨_, _, _, _, h, -⟩ <;> exact ⟨_, h⟩
    obtain ⟨x, e⟩ := e
    unfold Tensor.unpackTri at e ⊢
    cases dev <;>
    · simp only at e ⊢
      obtain ⟨⟨a, b⟩, e1, e2⟩ := bind_ok.1 e
      simp only [e1, ok_bind]
      simp only at e2
      split at e2
      · cases e2
      · rename_i hn
        rw [if_neg hn]
        exact ⟨_, _, rfl, _, rfl⟩
  obtain ⟨la, plan, h1, s, rfl⟩ := key
  rw [h1] at h
  exact packedLike (triFinish_layout h)

-- two 2×2 matrices, their axes first, in row-major storage on a column-major device
example : (⟨[1, 2, 3, 4, 5, 6, 7, 8], ⟨[⟨2, 4⟩, ⟨2, 2⟩, ⟨2, 1⟩], 0⟩⟩ : Tensor Int).layout.cPrefer = true ∧
    (⟨[1, 2, 3, 4, 5, 6, 7, 8], ⟨[⟨2, 4⟩, ⟨2, 2⟩, ⟨2, 1⟩], 0⟩⟩ : Tensor Int).layout.fPrefer = false ∧
    Delivers ((⟨[1, 2, 3, 4, 5, 6, 7, 8], ⟨[⟨2, 4⟩, ⟨2, 2⟩, ⟨2, 1⟩], 0⟩⟩ : Tensor Int).packTri .F .F none .L)
      ⟨[1, 2, 5, 6, 7, 8], ⟨[⟨3, 2⟩, ⟨2, 1⟩], 0⟩⟩ := ⟨by decide, by decide, Or.inl rfl⟩

end
end Rstsr
