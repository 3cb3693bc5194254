import Verif.Proof.Blas
/-!
# Theorems on matrix products on the BLAS devices (C61)
-/
namespace Rstsr
open Spec

section
variable {α β γ : Type}

/-- The matrix axes of `C` are such that the device passes its old content on to BLAS: on axes longer than one all
strides are positive and, if there are two such axes, one stride is one. `nb` is the number of batch axes. -/
def Tensor.Seen (c : Tensor γ) (dev : Order) (nb : Nat) : Prop :=
  match dev with
  | .C => Rstsr.Seen (c.layout.axes.drop nb)
  | .F => Rstsr.Seen (c.layout.axes.reverse.drop nb)

theorem Layout.Valid.rev {l : Layout} (h : l.Valid) (ho : 0 ≤ l.offset) : l.reverseAxes.Valid :=
  (Fit.rev (l := l) ⟨h, ho, rfl⟩).valid

/-- `matmul_from` on a BLAS device, for the number types of BLAS: `C := beta * C + alpha * A B`, for operands and
results of every layout, and under every schedule of the threads, and no other cell of the storage of `C` changes.
Missing: batched operands of different ranks (`C41_false_batch_ranks`), `beta` not zero with a result that BLAS cannot
write to in place (`C61_false_beta`) or with an empty sum (`C61_false_empty_sum`), results with shared cells. -/
theorem C61_blas_matmul_from_partial [CommSemiring γ] [DecidableEq γ] (dev : Order) (par : MatPar) (hp : (par.sched 0).Fits)
    (same : Bool) (a b c : Tensor γ) (hab : same = true → a.data = b.data) (ha : a.WF) (hb : b.WF) (hc : c.WF)
    (ba bb bc rows cols : List Nat) (K : Nat) (S : MatShapes dev a.arr.shape b.arr.shape c.arr.shape ba bb bc rows cols K)
    (hr : ba ≠ [] → bb ≠ [] → ba.length = bb.length)
    (hz : 0 ∉ c.arr.shape → (0 : Int) ∉ c.layout.stride) (sa : a.Settled) (sb : b.Settled) (sc : c.Settled) (alpha beta : γ)
    (hbeta : rows = [] ∧ cols = [] ∨ beta = 0 ∨ (K ≠ 0 ∧ c.Seen dev bc.length)) :
    ∃ w d, Tensor.matmulFromBlas (ringOps (· * ·)) dev par same c a b alpha beta = .ok w ∧ w.Leaves c.data d ∧
      (⟨d, c.layout⟩ : Tensor γ).WF ∧
      IsMatUpdate dev (· * ·) a.arr b.arr ba bb bc rows cols K alpha beta c.arr (⟨d, c.layout⟩ : Tensor γ).arr ∧
      ChangedOnly (Addressed c.layout.stride c.layout.offset c.layout.shape) c.data d := by
  have sa := ha.fit.settled sa
  have sb := hb.fit.settled sb
  have sc := hc.fit.settled sc
  have : Nonempty γ := ⟨0⟩
  refine lift_matmul (· * ·) (· * ·) (fun x y => mul_comm y x) dev a b c ha hb hc ba bb bc rows cols K S hz alpha beta _ ?_ ?_
  · rintro rfl X Y J
    simp only [Tensor.matmulFromBlas]
    refine rowBlas (· * ·) par hp J ha.fit.valid hb.fit.valid ha.fit.off hb.fit.off sa sb sc hr alpha beta fun hn => ?_
    exact blas_kernel .C hab _ _ _ _ _ _ (hbeta.resolve_left hn)
  · rintro rfl X Y J
    simp only [Tensor.matmulFromBlas]
    refine rowBlas (· * ·) par hp J (hb.fit.valid.rev hb.fit.off) (ha.fit.valid.rev ha.fit.off) hb.fit.off ha.fit.off sb.rev sa.rev sc.rev
      (fun e1 e2 => by simpa using (hr (by simpa using e2) (by simpa using e1)).symm) alpha beta fun hn => ?_
    refine blas_kernel .F (fun e => (hab e).symm) _ _ _ _ _ _ ?_
    rcases hbeta with h | h | ⟨h1, h2⟩
    · exact absurd h.symm hn
    · exact .inl h
    · exact .inr ⟨h1, by simpa [Tensor.Seen, Layout.reverseAxes] using h2⟩

/-- The same for all other element types, which take the naive kernel: here `beta` may be anything. -/
theorem C61_other_matmul_from_partial [CommSemiring γ] [Nonempty α] [Nonempty β] (mul : α → β → γ) (mul' : β → α → γ)
    (hmul : ∀ x y, mul' y x = mul x y) (dev : Order) (par : MatPar) (hp : (par.sched 0).Fits)
    (a : Tensor α) (b : Tensor β) (c : Tensor γ) (ha : a.WF) (hb : b.WF) (hc : c.WF)
    (ba bb bc rows cols : List Nat) (K : Nat) (S : MatShapes dev a.arr.shape b.arr.shape c.arr.shape ba bb bc rows cols K)
    (hr : ba ≠ [] → bb ≠ [] → ba.length = bb.length)
    (hz : 0 ∉ c.arr.shape → (0 : Int) ∉ c.layout.stride) (sa : a.Settled) (sb : b.Settled) (sc : c.Settled) (alpha beta : γ) :
    ∃ w d, Tensor.matmulFromOther (ringOps mul) mul' dev par c a b alpha beta = .ok w ∧ w.Leaves c.data d ∧
      (⟨d, c.layout⟩ : Tensor γ).WF ∧
      IsMatUpdate dev mul a.arr b.arr ba bb bc rows cols K alpha beta c.arr (⟨d, c.layout⟩ : Tensor γ).arr ∧
      ChangedOnly (Addressed c.layout.stride c.layout.offset c.layout.shape) c.data d := by
  have sa := ha.fit.settled sa
  have sb := hb.fit.settled sb
  have sc := hc.fit.settled sc
  refine lift_matmul mul mul' hmul dev a b c ha hb hc ba bb bc rows cols K S hz alpha beta _ ?_ ?_
  · rintro rfl X Y J
    exact rowBlas mul par hp J ha.fit.valid hb.fit.valid ha.fit.off hb.fit.off sa sb sc hr alpha beta fun _ =>
      naive_kernel mul _ _ _ _ _ _ _ _ _
  · rintro rfl X Y J
    exact rowBlas mul' par hp J (hb.fit.valid.rev hb.fit.off) (ha.fit.valid.rev ha.fit.off) hb.fit.off ha.fit.off sb.rev sa.rev sc.rev
      (fun e1 e2 => by simpa using (hr (by simpa using e2) (by simpa using e1)).symm) alpha beta fun _ =>
      naive_kernel mul' _ _ _ _ _ _ _ _ _

/-- `matmul` (and `%`) on a BLAS device: a new tensor with the product, whatever the fresh storage held. Missing:
batched operands of different ranks. -/
theorem C61_blas_matmul_partial [CommSemiring γ] [DecidableEq γ] (dev : Order) (par : MatPar) (hp : (par.sched 0).Fits)
    (same : Bool) (fresh : Nat → γ) (a b : Tensor γ) (hab : same = true → a.data = b.data) (ha : a.WF) (hb : b.WF)
    (s ba bb bc rows cols : List Nat) (K : Nat) (S : MatShapes dev a.arr.shape b.arr.shape s ba bb bc rows cols K)
    (hr : ba ≠ [] → bb ≠ [] → ba.length = bb.length) (sa : a.Settled) (sb : b.Settled) (alpha : γ) :
    ∃ c w d, Tensor.matmulBlas (ringOps (· * ·)) dev par same fresh a b alpha = .ok (c, w) ∧ w.Leaves c.data d ∧
      (⟨d, c.layout⟩ : Tensor γ).WF ∧ c.layout = freshLayout dev s ∧ (⟨d, c.layout⟩ : Tensor γ).arr.shape = s ∧
      ∀ t i j, InRange t bc → InRange i rows → InRange j cols → ∃ e, IsMatEntry dev (· * ·) a.arr b.arr ba bb K t i j e ∧
        (⟨d, c.layout⟩ : Tensor γ).arr.elem (glue dev t (i ++ j)) = some (alpha * e) := by
  obtain ⟨cfg, e1, e2⟩ := (C41_accept_iff a.layout b.layout (freshLayout dev s) dev).2 ⟨s, ba, bb, bc, rows, cols, K, S, rfl⟩
  have T := freshLayout_tight dev s
  obtain ⟨mn, hbd⟩ := T.bounds
  have hc : (⟨(List.range (freshLayout dev s).size).map fresh, freshLayout dev s⟩ : Tensor γ).WF := T.wf (by simp)
  have hs := freshLayout_shape dev s
  obtain ⟨w, d, k1, k2, k3, k4, -⟩ := C61_blas_matmul_from_partial dev par hp same a b _ hab ha hb hc ba bb bc rows cols K
    (by show MatShapes dev _ _ (freshLayout dev s).shape _ _ _ _ _ _; rw [hs]; exact S) hr
    (fun hz => freshLayout_nonzero dev s (by rw [← hs]; exact hz)) sa sb (fun _ => freshLayout_settled dev s) alpha 0 (.inr (.inl rfl))
  refine ⟨_, w, d, ?_, k2, k3, rfl, hs, ?_⟩
  · unfold Tensor.matmulBlas
    rw [e1, ok_bind, e2, hbd, ok_bind]
    simp only [Int.toNat_natCast]
    have : (ringOps (γ := γ) (· * ·)).zero = 0 := rfl
    rw [this, k1]
    rfl
  · intro t i j ht hi hj
    obtain ⟨v, e, -, h2, h3⟩ := k4.2 t i j ht hi hj
    exact ⟨e, h2, by rw [h3]; simp⟩

/-! ## Where the code falls short -/

theorem leaves_of_run {p : Proc γ} {c d : List γ} (hn : ((updates p).map Prod.fst).Nodup) (hl : ∀ u ∈ updates p, u.1 < c.length)
    (hr : runU (updates p) c = .ok d) : (Work.threads p).Leaves c d :=
  ⟨computes_of_way (one := fun _ => True) (way_nodup hn hl hr), raceFree_of_nodup hn⟩


/-- A result whose strides are both larger than one: the old content of `C` is dropped although `beta` is one
(`matmul_impl.rs:51-61`). On the naive device (`C42_matmul_from_partial`) it is kept. -/
theorem C61_false_beta (par : MatPar) (same : Bool) :
    let c : Tensor Int := ⟨List.replicate 7 100, ⟨[⟨2, 4⟩, ⟨2, 2⟩], 0⟩⟩
    c.WF ∧ MatShapes .C [2, 2] [2, 2] c.arr.shape [] [] [] [2] [2] 2 ∧
    ∃ w d, Tensor.matmulFromBlas intOps .C par same c (mat [2, 2] [1, 2, 3, 4]) (mat [2, 2] [5, 6, 7, 8]) 1 1 = .ok w ∧ w.Leaves c.data d ∧
      d = [19, 100, 22, 100, 43, 100, 50] ∧
      c.matmulFrom intOps (· * ·) .C none (mat [2, 2] [1, 2, 3, 4]) (mat [2, 2] [5, 6, 7, 8]) 1 1 =
        .ok (.done [119, 100, 122, 100, 143, 100, 150]) := by
  refine ⟨⟨by decide, rfl⟩, ⟨rfl, rfl, rfl, by decide, by decide, by decide, by decide, ⟨rfl, by decide⟩⟩, _, _, rfl, ?_, rfl, rfl⟩
  exact leaves_of_run (by decide) (by decide) rfl

/-- Products with an empty sum: `C` becomes zero although `beta` is one (`matmul_impl.rs:78-82`). -/
theorem C61_false_empty_sum (par : MatPar) (same : Bool) :
    let c : Tensor Int := mat [1, 2] [100, 200]
    c.WF ∧ MatShapes .C [1, 0] [0, 2] c.arr.shape [] [] [] [1] [2] 0 ∧
    ∃ w d, Tensor.matmulFromBlas intOps .C par same c (mat [1, 0] []) (mat [0, 2] []) 1 1 = .ok w ∧ w.Leaves c.data d ∧
      d = [0, 0] ∧
      c.matmulFrom intOps (· * ·) .C none (mat [1, 0] []) (mat [0, 2] []) 1 1 = .ok (.done [100, 200]) := by
  refine ⟨⟨by decide, rfl⟩, ⟨rfl, rfl, rfl, by decide, by decide, by decide, by decide, ⟨rfl, by decide⟩⟩, _, _, rfl, ?_, rfl, rfl⟩
  exact leaves_of_run (by decide) (by decide) rfl

/-! ## The hypotheses are met -/

/-- The result of the batch product may have gaps as long as BLAS can write to it. -/
def exD : Tensor Int := ⟨List.replicate 16 9, ⟨[⟨2, 8⟩, ⟨2, 4⟩, ⟨2, 1⟩], 1⟩⟩

example (par : MatPar) (hp : (par.sched 0).Fits) := C61_blas_matmul_from_partial .C par hp false
  exA exB exD (fun h => absurd h (by decide)) exA_wf exB_wf ⟨by decide, rfl⟩ [2] [] [2] [2] [2] 2
  ⟨rfl, rfl, rfl, by decide, by decide, by decide, by decide, ⟨rfl, by decide⟩⟩ (by decide) (fun _ => by decide)
  (fun h => absurd h (by decide)) (fun h => absurd h (by decide)) (fun h => absurd h (by decide)) 2 3
  (.inr (.inr ⟨by decide, ⟨by decide, fun _ => ⟨⟨2, 1⟩, by decide⟩⟩⟩))

/-- A product of a matrix with its own transpose (`syrk`), into a result with gaps. -/
example (par : MatPar) (hp : (par.sched 0).Fits) := C61_blas_matmul_from_partial .C par hp true
  exB ⟨exB.data, exB.layout.reverseAxes⟩ (⟨List.replicate 7 100, ⟨[⟨2, 4⟩, ⟨2, 2⟩], 0⟩⟩ : Tensor Int) (fun _ => rfl) exB_wf ⟨by decide, rfl⟩ ⟨by decide, rfl⟩
  [] [] [] [2] [2] 2 ⟨rfl, rfl, rfl, by decide, by decide, by decide, by decide, ⟨rfl, by decide⟩⟩ (by decide) (fun _ => by decide)
  (fun h => absurd h (by decide)) (fun h => absurd h (by decide)) (fun h => absurd h (by decide)) 2 0 (.inr (.inl rfl))

example (par : MatPar) (hp : (par.sched 0).Fits) := C61_other_matmul_from_partial (· * ·) (· * ·) (fun x y : Int => mul_comm y x) .C par hp
  exA exB exC exA_wf exB_wf exC_wf [2] [] [2] [2] [2] 2
  ⟨rfl, rfl, rfl, by decide, by decide, by decide, by decide, ⟨rfl, by decide⟩⟩ (by decide) (fun _ => by decide)
  (fun h => absurd h (by decide)) (fun h => absurd h (by decide)) (fun h => absurd h (by decide)) 2 3

example (par : MatPar) (hp : (par.sched 0).Fits) (fresh : Nat → Int) := C61_blas_matmul_partial .C par hp false fresh exA exB
  (fun h => absurd h (by decide)) exA_wf exB_wf [2, 2, 2] [2] [] [2] [2] [2] 2
  ⟨rfl, rfl, rfl, by decide, by decide, by decide, by decide, ⟨rfl, by decide⟩⟩ (by decide)
  (fun h => absurd h (by decide)) (fun h => absurd h (by decide)) 1

end
end Rstsr
