import Verif.Model.Svd
import Verif.Proof.Eig
import Verif.Proof.Writes
/-! # Proofs: singular value decomposition -/
namespace Rstsr
open Spec

section
variable {α ρ : Type}

theorem newContig_fresh (o : Order) (s : List Nat) : Layout.newContig o s = freshLayout o s := by cases o <;> rfl

/-- A matrix that LAPACK writes into new memory. -/
theorem svdOut_ok {dc : Bool} {o : Order} (hd : dc = true ∨ o = .F) {r c : Nat} (hr : r ≠ 0) (hc : c ≠ 0) :
    ∃ ld, ldUnwrap (Layout.newContig o [r, c]) o = .ok ld ∧
      (max 1 r : Int) ≤ outLd o ld r ∧
      ∀ U : Matrix (Fin r) (Fin c) α, ∃ w d, svdOut dc o (uninit (Layout.newContig o [r, c]).size) ld U = .ok w ∧ assumeInit w = .ok d ∧
        (⟨d, Layout.newContig o [r, c]⟩ : Tensor α).WF ∧ (⟨d, Layout.newContig o [r, c]⟩ : Tensor α).arr.IsMat U := by
  rw [newContig_fresh]
  have T := freshLayout_tight o [r, c]
  have hs := freshLayout_shape o [r, c]
  have hp := fresh_prefers o hr hc
  have off : (freshLayout o [r, c]).offset = 0 := by cases o <;> rfl
  generalize freshLayout o [r, c] = l at T hs hp off ⊢
  have hf : Fit [r, c] l := hs ▸ T.fit
  obtain ⟨s0, s1, ha⟩ := axes2 hs
  have hul : (uninit (l.size : Int) : List (Option α)).length = l.size := by simp [uninit]
  have hlt : ∀ (i : Fin r) (j : Fin c), l.pos [(i : Nat), (j : Nat)] < l.size := fun i j => T.lt _ (hs ▸ inRange2.2 ⟨i.2, j.2⟩)
  have hnone : ∀ (i : Fin r) (j : Fin c), (uninit (l.size : Int) : List (Option α))[l.pos [(i : Nat), (j : Nat)]]? = some none := fun i j => by
    have := hlt i j
    simp [uninit, this]
  have fin : ∀ (U : Matrix (Fin r) (Fin c) α) w,
      Writes (fun k v => ∃ (i : Fin r) (j : Fin c), l.pos [(i : Nat), (j : Nat)] = k ∧ v = U.map some i j) (uninit (l.size : Int)) w →
      ∃ d, assumeInit w = .ok d ∧ (⟨d, l⟩ : Tensor α).WF ∧ (⟨d, l⟩ : Tensor α).arr.IsMat U := by
    intro U w hw
    obtain ⟨d, d1, -, -, d2, d3⟩ := fresh_finish T (c := w) (hw.len.trans hul) (fun idx v => ∀ (i : Fin r) (j : Fin c), idx = [(i : Nat), (j : Nat)] → v = U i j) (by
      intro idx hi
      rw [hs] at hi
      obtain ⟨i, j, rfl, h1, h2⟩ := of_inRange2 hi
      refine ⟨U ⟨i, h1⟩ ⟨j, h2⟩, fun i' j' e => ?_, hw.set _ _ ⟨⟨i, h1⟩, ⟨j, h2⟩, rfl, rfl⟩⟩
      injection e with e1 e2
      injection e2 with e2
      subst e1; subst e2; rfl)
    refine ⟨d, d1, d2, hs, fun i j => ?_⟩
    obtain ⟨v, v1, v2⟩ := d3 [(i : Nat), (j : Nat)] (hs ▸ inRange2.2 ⟨i.2, j.2⟩)
    rw [v2, v1 i j rfl]
  cases o with
  | F =>
    have hp : l.fPrefer = true := hp
    obtain ⟨h1, h2⟩ := lead_ok hf hr hc hp
    rw [off] at h2
    have e : ldUnwrap l .F = .ok (leadDim l) := by
      simp only [ldUnwrap, Layout.ld, hp]
      rw [leadDim2 ha]
      by_cases e : c = 1 <;> simp [Layout.dimAt, Layout.shape, Layout.stride, ha, e]
    have pe : ∀ (i : Fin r) (j : Fin c), (blasPos false 0 (leadDim l) i j).toNat = l.pos [(i : Nat), (j : Nat)] :=
      fun i j => by rw [h2 i i.2 j j.2]; rfl
    have hat : MatAt (uninit (l.size : Int) : List (Option α)) 0 (leadDim l) (fun (_ : Fin r) (_ : Fin c) => none) := fun i j => by
      refine ⟨?_, ?_⟩
      · rw [h2 i i.2 j j.2]; exact hf.nonneg _ (inRange2.2 ⟨i.2, j.2⟩)
      · rw [pe]; exact hnone i j
    refine ⟨_, e, h1, fun U => ?_⟩
    have hw := storeMat_writes hat h1 (U.map some)
    simp only [pe] at hw
    obtain ⟨d, d1, d2⟩ := fin U _ hw
    exact ⟨_, d, rfl, d1, d2⟩
  | C =>
    obtain rfl : dc = true := by rcases hd with h | h; exact h; cases h
    have hp : l.reverseAxes.fPrefer = true := by rw [← cPrefer_rev]; exact hp
    obtain ⟨h1, h2⟩ := lead_ok (m := c) (n := r) hf.rev hc hr hp
    have h2 : ∀ i < c, ∀ j < r, blasPos false 0 (leadDim l.reverseAxes) i j = l.addr [j, i] := by
      intro i hi j hj
      have := h2 i hi j hj
      rw [rev_addr (by simp [Layout.ndim, ha])] at this
      rw [← off]
      exact this
    have e : ldUnwrap l .C = .ok (leadDim l.reverseAxes) := by
      have : l.cPrefer = true := by rw [cPrefer_rev]; exact hp
      simp only [ldUnwrap, Layout.ld, this]
      rw [leadDim2 (rev2 ha)]
      by_cases e : r = 1 <;> simp [Layout.dimAt, Layout.shape, Layout.stride, ha, e]
    have pe : ∀ (i : Fin c) (j : Fin r), (blasPos false 0 (leadDim l.reverseAxes) i j).toNat = l.pos [(j : Nat), (i : Nat)] :=
      fun i j => by rw [h2 i i.2 j j.2]; rfl
    have hat : MatAt (uninit (l.size : Int) : List (Option α)) 0 (leadDim l.reverseAxes) (Matrix.transpose fun (_ : Fin r) (_ : Fin c) => none) := fun i j => by
      refine ⟨?_, ?_⟩
      · rw [h2 i i.2 j j.2]; exact hf.nonneg _ (inRange2.2 ⟨j.2, i.2⟩)
      · rw [pe]; exact hnone j i
    have hld' : (max 1 r : Int) ≤ ((max r 1 : Nat) : Int) := by omega
    have hbuf : MatAt (uninit ((r * c : Nat) : Int) : List (Option α)) 0 (max r 1 : Nat) (fun (_ : Fin r) (_ : Fin c) => none) := fun i j => by
      have e1 : max r 1 = r := by omega
      have pp : blasPos false 0 ((max r 1 : Nat) : Int) i j = ((i + j * r : Nat) : Int) := by
        rw [e1]; simp only [blasPos, Bool.false_eq_true, if_false, zero_add]; push_cast; ring
      have bnd : (i : Nat) + j * r < r * c := by
        have hi := i.2
        have h1 : ((j : Nat) + 1) * r ≤ c * r := Nat.mul_le_mul_right r j.2
        have h2 : ((j : Nat) + 1) * r = j * r + r := by ring
        have h3 : c * r = r * c := Nat.mul_comm _ _
        omega
      rw [pp]
      refine ⟨Int.natCast_nonneg _, ?_⟩
      rw [Int.toNat_natCast, uninit, Int.toNat_natCast, List.getElem?_replicate, if_pos bnd]
    refine ⟨_, e, by show (max 1 r : Int) ≤ max (r : Int) 1; omega, fun U => ?_⟩
    obtain ⟨w, w1, w2⟩ := rowOut_ok hat (le_refl _) h1 (storeMat_at hbuf hld' (U.map some))
    simp only [pe] at w2
    obtain ⟨d, d1, d2⟩ := fin U w (w2.congr fun k v => by
      constructor <;> rintro ⟨i, j, h1, h2⟩ <;> exact ⟨i, j, h1, h2⟩)
    refine ⟨w, d, ?_, d1, d2⟩
    unfold svdOut svdBack
    rw [show ((max (r : Int) 1)) = ((max r 1 : Nat) : Int) by omega]
    exact w1

theorem leftCount_pos {m n : Nat} (hm : m ≠ 0) (hn : n ≠ 0) (full : Bool) : leftCount full m n ≠ 0 := by unfold leftCount; split <;> omega

theorem rightCount_pos {m n : Nat} (hm : m ≠ 0) (hn : n ≠ 0) (full : Bool) : rightCount full m n ≠ 0 := by unfold rightCount; split <;> omega

theorem svdBack_ok {dc : Bool} {o : Order} (hd : dc = true ∨ o = .F) (a : List α) (off lda : Int) (m n : Nat) (w : List α) :
    svdBack dc o a off lda m n w = matOut o a off lda m n w := by
  cases o with
  | F => rfl
  | C =>
    obtain rfl : dc = true := by rcases hd with h | h; exact h; cases h
    rfl

/-- The order `gesvd` or `gesdd` works in does not matter, except that `gesvd` has to work with columns. -/
theorem svdQuery_ok {dc : Bool} {m n : Nat} (hm : m ≠ 0) {lda ldu ldvt : Int} {p q : Nat} (h : dc = false → (max 1 m : Int) ≤ lda ∧ (max 1 p : Int) ≤ ldu ∧ (max 1 q : Int) ≤ ldvt) :
    svdQuery dc m n lda ldu ldvt p q = .ok () := by
  cases dc with
  | true => exact checkLd_ok (by omega)
  | false =>
    obtain ⟨h1, h2, h3⟩ := h rfl
    simp only [svdQuery, Bool.false_eq_true, if_false, checkLd_ok h1, checkLd_ok h2, checkLd_ok h3, ok_bind]

/-- What `GESVD` or `GESDD` is called with and what is done with its results. -/
theorem svdRun_fresh (lib : LapackSvd α ρ) (dc : Bool) (dflt : Order) {a : Tensor α} (ha : a.WF) (full : Bool) {m n : Nat} (hm : m ≠ 0) (hn : n ≠ 0)
    {A : Matrix (Fin m) (Fin n) α} (hA : a.arr.IsMat A) (hd : dc = true ∨ svdOrder dc dflt a.layout = .F) :
    (∀ info, lib.svd dc full m n A = .error info → svdRun lib dc dflt a full = .error (.errorCode info)) ∧
    ∀ L U s Vt, lib.svd dc full m n A = .ok (L, U, s, Vt) → ∃ u vt, svdRun lib dc dflt a full = .ok (u, valuesOf s, vt) ∧
      u.WF ∧ u.arr.IsMat U ∧ vt.WF ∧ vt.arr.IsMat Vt ∧
      ∃ o, u.layout = freshLayout o [m, leftCount full m n] ∧ vt.layout = freshLayout o [rightCount full m n, n] := by
  generalize ho : svdOrder dc dflt a.layout = o at hd
  obtain ⟨x, x1, x2, x3⟩ := convertOrder_ok dflt (a := ⟨a, false⟩) ⟨ha, fun h => by simp at h⟩ hA o
  obtain ⟨d0, d1⟩ := dimAt2 (l := x.view.layout) x2.mat.1
  obtain ⟨lda, w, off', ld', l1, l2, l3, l4, l5⟩ := mat_io x2.wf x2.mat hm hn x3
  obtain ⟨ldu, u1, u2, u3⟩ := svdOut_ok (α := α) hd hm (leftCount_pos hm hn full)
  obtain ⟨ldvt, v1, v2, v3⟩ := svdOut_ok (α := α) hd (rightCount_pos hm hn full) hn
  have hq : svdQuery dc m n lda ldu ldvt m (rightCount full m n) = .ok () := svdQuery_ok hm fun h => by
    obtain rfl : o = .F := by rcases hd with h' | h'; simp [h] at h'; exact h'
    simp only [matIn, Except.ok.injEq, Prod.mk.injEq] at l2
    obtain ⟨-, -, rfl⟩ := l2
    exact ⟨l3, u2, v2⟩
  have hsup : svdSuper dc m n = .ok () := by
    unfold svdSuper
    rw [if_neg]
    simp only [Bool.and_eq_true, decide_eq_true_eq, not_and]
    omega
  have key : svdRun lib dc dflt a full = (do
      let (L, U, s, Vt) ← liftInfo (lib.svd dc full m n A)
      let _ ← matOut o x.view.data x.view.layout.offset lda m n (storeMat w off' ld' L)
      let u ← svdOut dc o (uninit (Layout.newContig o [m, leftCount full m n]).size) ldu U
      let vt ← svdOut dc o (uninit (Layout.newContig o [rightCount full m n, n]).size) ldvt Vt
      return (⟨← assumeInit u, Layout.newContig o [m, leftCount full m n]⟩, valuesOf s, ⟨← assumeInit vt, Layout.newContig o [rightCount full m n, n]⟩)) := by
    unfold svdRun driverSvd
    simp only [ho, x1, ok_bind, l1]
    generalize x.view.layout.dimAt 0 = k at d0 ⊢
    generalize x.view.layout.dimAt 1 = k' at d1 ⊢
    subst d0; subst d1
    simp only [hsup, ok_bind, u1, v1, hq, l2, checkLd_ok l3, l4, svdBack_ok hd, bind_assoc]
    simp only [checkLd_ok u2, ok_bind, checkLd_ok v2]
    cases lib.svd dc full k k' A <;> rfl
  rw [key]
  refine ⟨fun info h => by rw [h]; rfl, fun L U s Vt h => ?_⟩
  obtain ⟨d, e1, -⟩ := l5 L
  obtain ⟨wu, du, f1, f2, f3, f4⟩ := u3 U
  obtain ⟨wv, dv, g1, g2, g3, g4⟩ := v3 Vt
  refine ⟨_, _, ?_, f3, f4, g3, g4, o, newContig_fresh _ _, newContig_fresh _ _⟩
  simp only [h, liftInfo, ok_bind, e1, f1, f2, g1, g2]
  rfl

theorem svdRun_ok (lib : LapackSvd α ρ) (dc : Bool) (dflt : Order) {a : Tensor α} (ha : a.WF) (full : Bool) {m n : Nat} (hm : m ≠ 0) (hn : n ≠ 0)
    {A : Matrix (Fin m) (Fin n) α} (hA : a.arr.IsMat A) (hd : dc = true ∨ svdOrder dc dflt a.layout = .F) :
    (∀ info, lib.svd dc full m n A = .error info → svdRun lib dc dflt a full = .error (.errorCode info)) ∧
    ∀ L U s Vt, lib.svd dc full m n A = .ok (L, U, s, Vt) → ∃ u vt, svdRun lib dc dflt a full = .ok (u, valuesOf s, vt) ∧
      u.WF ∧ u.arr.IsMat U ∧ vt.WF ∧ vt.arr.IsMat Vt := by
  obtain ⟨h1, h2⟩ := svdRun_fresh lib dc dflt ha full hm hn hA hd
  refine ⟨h1, fun L U s Vt h => ?_⟩
  obtain ⟨u, vt, e, e1, e2, e3, e4, -⟩ := h2 L U s Vt h
  exact ⟨u, vt, e, e1, e2, e3, e4⟩

theorem svalsRun_ok (lib : LapackSvd α ρ) (dc : Bool) (dflt : Order) {a : Tensor α} (ha : a.WF) {m n : Nat} (hm : m ≠ 0) (hn : n ≠ 0)
    {A : Matrix (Fin m) (Fin n) α} (hA : a.arr.IsMat A) (hd : dc = true ∨ svdOrder dc dflt a.layout = .F) :
    (∀ info, lib.vals dc m n A = .error info → svalsRun lib dc dflt a = .error (.errorCode info)) ∧
    ∀ L s, lib.vals dc m n A = .ok (L, s) → svalsRun lib dc dflt a = .ok (valuesOf s) := by
  generalize ho : svdOrder dc dflt a.layout = o at hd
  obtain ⟨x, x1, x2, x3⟩ := convertOrder_ok dflt (a := ⟨a, false⟩) ⟨ha, fun h => by simp at h⟩ hA o
  obtain ⟨d0, d1⟩ := dimAt2 (l := x.view.layout) x2.mat.1
  obtain ⟨lda, w, off', ld', l1, l2, l3, l4, l5⟩ := mat_io x2.wf x2.mat hm hn x3
  obtain ⟨ldu, u1, u2, -⟩ := svdOut_ok (α := α) hd one_ne_zero one_ne_zero
  have hq : svdQuery dc m n lda ldu ldu 1 1 = .ok () := svdQuery_ok hm fun h => by
    obtain rfl : o = .F := by rcases hd with h' | h'; simp [h] at h'; exact h'
    simp only [matIn, Except.ok.injEq, Prod.mk.injEq] at l2
    obtain ⟨-, -, rfl⟩ := l2
    exact ⟨l3, u2, u2⟩
  have hsup : svdSuper dc m n = .ok () := by
    unfold svdSuper
    rw [if_neg]
    simp only [Bool.and_eq_true, decide_eq_true_eq, not_and]
    omega
  have key : svalsRun lib dc dflt a = (do
      let (L, s) ← liftInfo (lib.vals dc m n A)
      let _ ← matOut o x.view.data x.view.layout.offset lda m n (storeMat w off' ld' L)
      return valuesOf s) := by
    unfold svalsRun driverSvals
    simp only [ho, x1, ok_bind, l1]
    generalize x.view.layout.dimAt 0 = k at d0 ⊢
    generalize x.view.layout.dimAt 1 = k' at d1 ⊢
    subst d0; subst d1
    simp only [hsup, ok_bind, u1, hq, l2, checkLd_ok l3, l4, svdBack_ok hd, bind_assoc]
    cases lib.vals dc k k' A <;> rfl
  rw [key]
  refine ⟨fun info h => by rw [h]; rfl, fun L s h => ?_⟩
  obtain ⟨d, e1, -⟩ := l5 L
  simp only [h, liftInfo, ok_bind, e1]
  rfl

end
end Rstsr
