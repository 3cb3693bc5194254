import Verif.Proof.Faer
import Verif.Thm.Blas
/-!
# Theorems on matrix products on the device of `faer` (C81)
-/
namespace Rstsr
open Spec

section
variable {α β γ : Type}

/-- `matmul_from` on the device of `faer`, for its number types: `C := beta * C + alpha * A B`, for operands and
results of every layout, every `alpha` and `beta`, empty sums and empty results included, and under every schedule of the
threads, and no other cell of the storage of `C` changes. Missing: batched operands of different ranks
(`C41_false_batch_ranks`), results with shared cells. -/
theorem C81_faer_matmul_from_partial [CommSemiring γ] [DecidableEq γ] (dev : Order) (par : MatPar) (hp : (par.sched 0).Fits)
    (same : Bool) (a b c : Tensor γ) (hab : same = true → a.data = b.data) (ha : a.WF) (hb : b.WF) (hc : c.WF)
    (ba bb bc rows cols : List Nat) (K : Nat) (S : MatShapes dev a.arr.shape b.arr.shape c.arr.shape ba bb bc rows cols K)
    (hr : ba ≠ [] → bb ≠ [] → ba.length = bb.length)
    (hz : 0 ∉ c.arr.shape → (0 : Int) ∉ c.layout.stride) (sa : a.Settled) (sb : b.Settled) (sc : c.Settled) (alpha beta : γ) :
    ∃ w d, Tensor.matmulFromFaer (ringOps (· * ·)) 1 dev par same c a b alpha beta = .ok w ∧ w.Leaves c.data d ∧
      (⟨d, c.layout⟩ : Tensor γ).WF ∧
      IsMatUpdate dev (· * ·) a.arr b.arr ba bb bc rows cols K alpha beta c.arr (⟨d, c.layout⟩ : Tensor γ).arr ∧
      ChangedOnly (Addressed c.layout.stride c.layout.offset c.layout.shape) c.data d := by
  have sa := ha.fit.settled sa
  have sb := hb.fit.settled sb
  have sc := hc.fit.settled sc
  have : Nonempty γ := ⟨0⟩
  refine lift_matmul (· * ·) (· * ·) (fun x y => mul_comm y x) dev a b c ha hb hc ba bb bc rows cols K S hz alpha beta _ ?_ ?_
  · rintro rfl X Y J
    exact rowFaer (· * ·) par hp J ha.fit.valid hb.fit.valid ha.fit.off hb.fit.off sa sb sc hr alpha beta
      (faer_any .C hab _ _ _ _ _)
  · rintro rfl X Y J
    exact rowFaer (· * ·) par hp J (hb.fit.valid.rev hb.fit.off) (ha.fit.valid.rev ha.fit.off) hb.fit.off ha.fit.off sb.rev sa.rev sc.rev
      (fun e1 e2 => by simpa using (hr (by simpa using e2) (by simpa using e1)).symm) alpha beta
      (faer_any .F (fun e => (hab e).symm) _ _ _ _ _)

/-- The same for all other element types, which take the naive kernel. -/
theorem C81_other_matmul_from_partial [CommSemiring γ] [Nonempty α] [Nonempty β] (mul : α → β → γ) (mul' : β → α → γ)
    (hmul : ∀ x y, mul' y x = mul x y) (dev : Order) (par : MatPar) (hp : (par.sched 0).Fits)
    (a : Tensor α) (b : Tensor β) (c : Tensor γ) (ha : a.WF) (hb : b.WF) (hc : c.WF)
    (ba bb bc rows cols : List Nat) (K : Nat) (S : MatShapes dev a.arr.shape b.arr.shape c.arr.shape ba bb bc rows cols K)
    (hr : ba ≠ [] → bb ≠ [] → ba.length = bb.length)
    (hz : 0 ∉ c.arr.shape → (0 : Int) ∉ c.layout.stride) (sa : a.Settled) (sb : b.Settled) (sc : c.Settled) (alpha beta : γ) :
    ∃ w d, Tensor.matmulFromFaerOther (ringOps mul) mul' dev par c a b alpha beta = .ok w ∧ w.Leaves c.data d ∧
      (⟨d, c.layout⟩ : Tensor γ).WF ∧
      IsMatUpdate dev mul a.arr b.arr ba bb bc rows cols K alpha beta c.arr (⟨d, c.layout⟩ : Tensor γ).arr ∧
      ChangedOnly (Addressed c.layout.stride c.layout.offset c.layout.shape) c.data d := by
  have sa := ha.fit.settled sa
  have sb := hb.fit.settled sb
  have sc := hc.fit.settled sc
  refine lift_matmul mul mul' hmul dev a b c ha hb hc ba bb bc rows cols K S hz alpha beta _ ?_ ?_
  · rintro rfl X Y J
    exact rowFaer mul par hp J ha.fit.valid hb.fit.valid ha.fit.off hb.fit.off sa sb sc hr alpha beta (naive_any mul _ _ _ _ _ _ _ _ _)
  · rintro rfl X Y J
    exact rowFaer mul' par hp J (hb.fit.valid.rev hb.fit.off) (ha.fit.valid.rev ha.fit.off) hb.fit.off ha.fit.off sb.rev sa.rev sc.rev
      (fun e1 e2 => by simpa using (hr (by simpa using e2) (by simpa using e1)).symm) alpha beta (naive_any mul' _ _ _ _ _ _ _ _ _)

/-- `matmul` (and `%`) on the device of `faer`: a new tensor with the product, whatever the fresh storage held. Missing:
batched operands of different ranks. -/
theorem C81_faer_matmul_partial [CommSemiring γ] [DecidableEq γ] (dev : Order) (par : MatPar) (hp : (par.sched 0).Fits)
    (same : Bool) (fresh : Nat → γ) (a b : Tensor γ) (hab : same = true → a.data = b.data) (ha : a.WF) (hb : b.WF)
    (s ba bb bc rows cols : List Nat) (K : Nat) (S : MatShapes dev a.arr.shape b.arr.shape s ba bb bc rows cols K)
    (hr : ba ≠ [] → bb ≠ [] → ba.length = bb.length) (sa : a.Settled) (sb : b.Settled) (alpha : γ) :
    ∃ c w d, Tensor.matmulFaer (ringOps (· * ·)) 1 dev par same fresh a b alpha = .ok (c, w) ∧ w.Leaves c.data d ∧
      (⟨d, c.layout⟩ : Tensor γ).WF ∧ c.layout = freshLayout dev s ∧ (⟨d, c.layout⟩ : Tensor γ).arr.shape = s ∧
      ∀ t i j, InRange t bc → InRange i rows → InRange j cols → ∃ e, IsMatEntry dev (· * ·) a.arr b.arr ba bb K t i j e ∧
        (⟨d, c.layout⟩ : Tensor γ).arr.elem (glue dev t (i ++ j)) = some (alpha * e) := by
  obtain ⟨cfg, e1, e2⟩ := (C41_accept_iff a.layout b.layout (freshLayout dev s) dev).2 ⟨s, ba, bb, bc, rows, cols, K, S, rfl⟩
  have T := freshLayout_tight dev s
  obtain ⟨mn, hbd⟩ := T.bounds
  have hc : (⟨(List.range (freshLayout dev s).size).map fresh, freshLayout dev s⟩ : Tensor γ).WF := T.wf (by simp)
  have hs := freshLayout_shape dev s
  obtain ⟨w, d, k1, k2, k3, k4, -⟩ := C81_faer_matmul_from_partial dev par hp same a b _ hab ha hb hc ba bb bc rows cols K
    (by show MatShapes dev _ _ (freshLayout dev s).shape _ _ _ _ _ _; rw [hs]; exact S) hr
    (fun hz => freshLayout_nonzero dev s (by rw [← hs]; exact hz)) sa sb (fun _ => freshLayout_settled dev s) alpha 0
  refine ⟨_, w, d, ?_, k2, k3, rfl, hs, ?_⟩
  · unfold Tensor.matmulFaer
    rw [e1, ok_bind, e2, hbd, ok_bind]
    simp only [Int.toNat_natCast]
    have : (ringOps (γ := γ) (· * ·)).zero = 0 := rfl
    rw [this, k1]
    rfl
  · intro t i j ht hi hj
    obtain ⟨v, e, -, h2, h3⟩ := k4.2 t i j ht hi hj
    exact ⟨e, h2, by rw [h3]; simp⟩

/-! ## The hypotheses are met -/

/-- The old content stays where the BLAS devices drop it (`C61_false_beta`, `C61_false_empty_sum`): with `beta` three, in
a result with gaps, and with an empty sum. -/
example (par : MatPar) (same : Bool) :
    let c : Tensor Int := ⟨List.replicate 7 100, ⟨[⟨2, 4⟩, ⟨2, 2⟩], 0⟩⟩
    ∃ w, Tensor.matmulFromFaer intOps 1 .C par same c (mat [2, 2] [1, 2, 3, 4]) (mat [2, 2] [5, 6, 7, 8]) 1 3 = .ok w ∧
      w.Leaves c.data [319, 100, 322, 100, 343, 100, 350] :=
  ⟨_, rfl, leaves_of_run (by decide) (by decide) rfl⟩

example (par : MatPar) (same : Bool) :
    ∃ w, Tensor.matmulFromFaer intOps 1 .C par same (mat [1, 2] [100, 200]) (mat [1, 0] []) (mat [0, 2] []) 1 1 = .ok w ∧
      w.Leaves [100, 200] [100, 200] :=
  ⟨_, rfl, leaves_of_run (by decide) (by decide) rfl⟩

example (par : MatPar) (hp : (par.sched 0).Fits) := C81_faer_matmul_from_partial .C par hp false
  exA exB exC (fun h => absurd h (by decide)) exA_wf exB_wf exC_wf [2] [] [2] [2] [2] 2
  ⟨rfl, rfl, rfl, by decide, by decide, by decide, by decide, ⟨rfl, by decide⟩⟩ (by decide) (fun _ => by decide)
  (fun h => absurd h (by decide)) (fun h => absurd h (by decide)) (fun h => absurd h (by decide)) 2 3

/-- A product of a matrix with its own transpose. -/
example (par : MatPar) (hp : (par.sched 0).Fits) := C81_faer_matmul_from_partial .C par hp true
  exB ⟨exB.data, exB.layout.reverseAxes⟩ (⟨List.replicate 7 100, ⟨[⟨2, 4⟩, ⟨2, 2⟩], 0⟩⟩ : Tensor Int) (fun _ => rfl) exB_wf ⟨by decide, rfl⟩ ⟨by decide, rfl⟩
  [] [] [] [2] [2] 2 ⟨rfl, rfl, rfl, by decide, by decide, by decide, by decide, ⟨rfl, by decide⟩⟩ (by decide) (fun _ => by decide)
  (fun h => absurd h (by decide)) (fun h => absurd h (by decide)) (fun h => absurd h (by decide)) 2 0

example (par : MatPar) (hp : (par.sched 0).Fits) := C81_other_matmul_from_partial (· * ·) (· * ·) (fun x y : Int => mul_comm y x) .C par hp
  exA exB exC exA_wf exB_wf exC_wf [2] [] [2] [2] [2] 2
  ⟨rfl, rfl, rfl, by decide, by decide, by decide, by decide, ⟨rfl, by decide⟩⟩ (by decide) (fun _ => by decide)
  (fun h => absurd h (by decide)) (fun h => absurd h (by decide)) (fun h => absurd h (by decide)) 2 3

example (par : MatPar) (hp : (par.sched 0).Fits) (fresh : Nat → Int) := C81_faer_matmul_partial .C par hp false fresh exA exB
  (fun h => absurd h (by decide)) exA_wf exB_wf [2, 2, 2] [2] [] [2] [2] [2] 2
  ⟨rfl, rfl, rfl, by decide, by decide, by decide, by decide, ⟨rfl, by decide⟩⟩ (by decide)
  (fun h => absurd h (by decide)) (fun h => absurd h (by decide)) 1

end
end Rstsr
