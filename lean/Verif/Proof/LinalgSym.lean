import Mathlib.Analysis.Matrix.LDL
import Verif.Model.LinalgSym
import Verif.Spec.LinalgSym
import Verif.Proof.LinalgLU
import Verif.Thm.LinalgLU
/-! # Proofs: symmetric matrices -/
namespace Rstsr
open Spec

section
variable {α β : Type}

theorem lead_inj {off ld : Int} {m i j i' j' : Nat} (h : (max 1 m : Int) ≤ ld) (hi : i < m) (hi' : i' < m)
    (e : blasPos false off ld i j = blasPos false off ld i' j') : i = i' ∧ j = j' := by
  simp only [blasPos, Bool.false_eq_true, if_false] at e
  have e : (i : Int) + ld * j = i' + ld * j' := by
    have e1 : (j : Int) * ld = ld * j := mul_comm _ _
    have e2 : (j' : Int) * ld = ld * j' := mul_comm _ _
    omega
  have h1 : (i : Int) = i' := by
    have := congrArg (· % ld) e
    simp only [Int.add_mul_emod_self_left] at this
    rwa [Int.emod_eq_of_lt (by omega) (by omega), Int.emod_eq_of_lt (by omega) (by omega)] at this
  have h2 : ld * (j : Int) = ld * j' := by omega
  have := Int.eq_of_mul_eq_mul_left (by omega) h2
  omega

/-- The elements of a matrix that LAPACK can work on are in different cells. -/
theorem prefers_unshared {t : Tensor α} (ht : t.WF) {m n : Nat} (hs : t.arr.shape = [m, n]) (hm : m ≠ 0) (hn : n ≠ 0) {o : Order}
    (hp : Prefers o t.layout) : t.Unshared := by
  have hf : Fit [m, n] t.layout := by have := ht.fit; rwa [show t.layout.shape = [m, n] from hs] at this
  obtain ⟨s0, s1, ha⟩ := axes2 hf.shape
  intro x y hx hy e
  have e : t.layout.addr x = t.layout.addr y := e
  rw [hs] at hx hy
  obtain ⟨i, j, rfl, h1, h2⟩ := of_inRange2 hx
  obtain ⟨i', j', rfl, h1', h2'⟩ := of_inRange2 hy
  cases o with
  | F =>
    obtain ⟨k1, k2⟩ := lead_ok hf hm hn hp
    rw [← k2 i h1 j h2, ← k2 i' h1' j' h2'] at e
    obtain ⟨rfl, rfl⟩ := lead_inj k1 h1 h1' e
    rfl
  | C =>
    have hp : t.layout.reverseAxes.fPrefer = true := by rw [← cPrefer_rev]; exact hp
    obtain ⟨k1, k2⟩ := lead_ok (m := n) (n := m) hf.rev hn hm hp
    have k2 : ∀ i < n, ∀ j < m, blasPos false t.layout.offset (leadDim t.layout.reverseAxes) i j = t.layout.addr [j, i] := by
      intro i hi j hj
      have := k2 i hi j hj
      rw [rev_addr (by simp [Layout.ndim, ha])] at this
      exact this
    rw [← k2 j h2 i h1, ← k2 j' h2' i' h1'] at e
    obtain ⟨rfl, rfl⟩ := lead_inj k1 h2 h2' e
    rfl

/-- The triangle of a matrix, zero elsewhere. -/
def keep [Zero α] (u : UpLo) {n : Nat} (F : Matrix (Fin n) (Fin n) α) : Matrix (Fin n) (Fin n) α :=
  Matrix.of fun i j => if InTriangle u i j then F i j else 0

theorem keep_triangular [Zero α] (u : UpLo) {n : Nat} {G F : Matrix (Fin n) (Fin n) α} (h : SameTriangle u G F) (ht : Triangular u F) : keep u G = F := by
  ext i j
  simp only [keep, Matrix.of_apply]
  by_cases hi : InTriangle u i j
  · rw [if_pos hi, h i j hi]
  · rw [if_neg hi, ht i j hi]

/-- Nothing to do in a matrix without elements. -/
theorem keepTriangle_empty (zero : α) {t : Tensor α} (hs : t.layout.shape = [0, 0]) (h0 : 0 ≤ t.layout.offset) (u : UpLo) :
    keepTriangle zero u t = .ok t := by
  obtain ⟨d, ax, off⟩ := t
  obtain ⟨s0, s1, ha⟩ := axes2 hs
  simp only at ha h0
  subst ha
  have sp : (⟨[⟨0, s0⟩, ⟨0, s1⟩], off⟩ : Layout).dimSplitAt (-2) = .ok (⟨[], off⟩, ⟨[⟨0, s0⟩, ⟨0, s1⟩], off⟩) := rfl
  have ci : ∃ l, colItems (⟨[], off⟩ : Layout) = .ok l :=
    ⟨_, colItems_ok fun idx hi => by
      match idx, hi with
      | [], _ => simpa [Spec.position, Layout.stride] using h0⟩
  obtain ⟨l, hl⟩ := ci
  have nop : ∀ (l : List Nat) (f : Nat → List α → Res (List α)), (∀ x r, f x r = .ok r) → ∀ r, runAll f l r = .ok r := by
    intro l f hf
    induction l with
    | nil => intro r; rfl
    | cons x l ih => intro r; simp [runAll, hf, ih]
  cases u
  · have : triuCpu zero d ⟨[⟨0, s0⟩, ⟨0, s1⟩], off⟩ 0 = .ok d := by
      unfold triuCpu
      rw [sp, ok_bind]
      show (colItems (⟨[], off⟩ : Layout) >>= fun xs => _) = _
      rw [hl, ok_bind]
      exact nop l _ (fun _ _ => rfl) d
    simp only [keepTriangle, Tensor.triu, this, ok_bind, orPanic]
  · have : trilCpu zero d ⟨[⟨0, s0⟩, ⟨0, s1⟩], off⟩ 0 = .ok d := by
      unfold trilCpu
      rw [sp, ok_bind]
      show (colItems (⟨[], off⟩ : Layout) >>= fun xs => _) = _
      rw [hl, ok_bind]
      exact nop l _ (fun _ _ => rfl) d
    simp only [keepTriangle, Tensor.tril, this, ok_bind, orPanic]

theorem keepTriangle_ok [Zero α] {t : Tensor α} (ht : t.WF) {n : Nat} {G : Matrix (Fin n) (Fin n) α} (hG : t.arr.IsMat G)
    {o : Order} (hp : Prefers o t.layout) (u : UpLo) :
    ∃ d, keepTriangle 0 u t = .ok ⟨d, t.layout⟩ ∧ (⟨d, t.layout⟩ : Tensor α).WF ∧ (⟨d, t.layout⟩ : Tensor α).arr.IsMat (keep u G) ∧
      ChangedOnly (Addressed t.layout.stride t.layout.offset t.layout.shape) t.data d := by
  have hs : t.layout.shape = [n, n] := hG.1
  by_cases hn : n = 0
  · subst hn
    exact ⟨t.data, keepTriangle_empty 0 hs ht.1 u, ht, ⟨hs, fun i => i.elim0⟩, rfl, fun _ _ => rfl⟩
  have hS : t.Settled := fun h => absurd h (by rw [hG.1]; simp [Ne.symm hn])
  have hu := prefers_unshared ht hG.1 hn hn hp
  have key : ∀ {P : Nat → Nat → Prop} (c : Tensor α), ZeroedWhere t c 0 P → (∀ i j : Fin n, P i j ↔ ¬ InTriangle u i j) →
      ∃ d, c = ⟨d, t.layout⟩ ∧ (⟨d, t.layout⟩ : Tensor α).WF ∧ (⟨d, t.layout⟩ : Tensor α).arr.IsMat (keep u G) ∧
        ChangedOnly (Addressed t.layout.stride t.layout.offset t.layout.shape) t.data d := by
    intro P c hc hP
    obtain ⟨d, l⟩ := c
    obtain rfl : l = t.layout := hc.layout
    refine ⟨d, rfl, hc.wf, ⟨hs, fun i j => ?_⟩, hc.only.1, fun k hk => hc.only.2 k ?_⟩
    · have hr : InRange ([] ++ [(i : Nat), (j : Nat)]) t.arr.shape := by rw [hG.1]; exact inRange2.2 ⟨i.2, j.2⟩
      simp only [keep, Matrix.of_apply]
      by_cases hi : InTriangle u i j
      · rw [if_pos hi, ← hG.2 i j]
        exact hc.kept [] i j hr (by rw [hP]; simpa using hi)
      · rw [if_neg hi]
        exact hc.zeroed [] i j hr ((hP i j).2 hi)
    · rintro ⟨b, i, j, h1, -, h3⟩
      exact hk ⟨_, h1, h3⟩
  cases u with
  | L =>
    obtain ⟨c, c1, c2⟩ := C44_tril 0 t 0 ht hS hu (by rw [ndim_len hs]; simp)
    obtain ⟨d, rfl, h⟩ := key c c2 (fun i j => by simp [InTriangle])
    exact ⟨d, by simp [keepTriangle, c1, orPanic], h⟩
  | U =>
    obtain ⟨c, c1, c2⟩ := C44_triu_partial 0 t 0 ht hS hu [] n n hG.1 (by omega)
    obtain ⟨d, rfl, h⟩ := key c c2 (fun i j => by simp [InTriangle])
    exact ⟨d, by simp [keepTriangle, c1, orPanic], h⟩

/-- What `POTRF` is called with and what is done with its result. -/
theorem refCholesky_ok [Zero α] (lib : LapackSym α) (dflt : Order) {a : TRef α} (ha : a.Ok) {n : Nat} (uplo : Option UpLo)
    {A : Matrix (Fin n) (Fin n) α} (hA : a.t.arr.IsMat A) :
    (∀ info, lib.potrf (uploOr dflt uplo) n A = .error info → refCholesky lib 0 dflt a uplo = .error (.errorCode info)) ∧
    ∀ G, lib.potrf (uploOr dflt uplo) n A = .ok G → ∃ x, refCholesky lib 0 dflt a uplo = .ok x ∧ Leaves a x (keep (uploOr dflt uplo) G) := by
  obtain ⟨x, x1, x2, x3⟩ := convert_ok dflt ha hA
  obtain ⟨ld, l1, -, l3⟩ := withMat_ok x2.wf x2.mat (storageF x2.mat.1) x3
  obtain ⟨d0, d1⟩ := dimAt2 (l := x.view.layout) x2.mat.1
  generalize hu : uploOr dflt uplo = u
  have hu' : uploOr dflt (some u) = u := rfl
  have key : refCholesky lib 0 dflt a uplo = (do
      let d ← driverPotrf lib (storageOrder x.view.layout) u n x.view.data x.view.layout.offset ld
      let t ← keepTriangle 0 u (x.setData d).view
      ((x.setData d).setData t.data).cloneToMut dflt) := by
    unfold refCholesky potrfRun
    simp only [hu, hu', x1, ok_bind, d0, d1, l1, ne_eq, not_true_eq_false, if_false]
    cases driverPotrf lib (storageOrder x.view.layout) u n x.view.data x.view.layout.offset ld <;> rfl
  rw [key]
  unfold driverPotrf
  obtain ⟨e1, e2⟩ := l3 (-4) (fun A => (lib.potrf u n A).map (·, ()))
  refine ⟨fun info hi => ?_, fun G hG => ?_⟩
  · rw [e1 info (by rw [hi]; rfl)]; rfl
  · obtain ⟨d, f1, f2, f3, f4⟩ := e2 G () (by rw [hG]; rfl)
    obtain ⟨d', g1, g2, g3, g4⟩ := keepTriangle_ok f2 f3 (o := storageOrder x.view.layout) x3 u
    have hv : (x.setData d).view = ⟨d, x.view.layout⟩ := by cases x <;> rfl
    have hv' : (x.setData d).setData d' = x.setData d' := by cases x <;> rfl
    obtain ⟨y, y1, y2, -⟩ := finish_ok dflt ha x2 hA.1 g2 g3 (changedOnly_trans f4 g4)
    refine ⟨y, ?_, y2⟩
    simp only [f1, ok_bind]
    show (do
      let t ← keepTriangle 0 u (x.setData d).view
      ((x.setData d).setData t.data).cloneToMut dflt) = _
    rw [hv, g1, ok_bind, hv', y1]

/-- What `SYSV` is called with and what is done with its results. -/
theorem refSolveSymmetric_ok (lib : LapackSym α) (dflt : Order) (hermi : Bool) (uplo : Option UpLo) {a b : TRef α} (ha : a.t.WF) (hb : b.Ok)
    {n m : Nat} (hn : n ≠ 0) {A : Matrix (Fin n) (Fin n) α} {B : Matrix (Fin n) (Fin m) α} (hA : a.t.arr.IsMat A) (hB : b.t.arr.IsMat B) :
    (∀ info, lib.sysv hermi (uploOr dflt uplo) n m A B = .error info → refSolveSymmetric lib dflt hermi uplo a b = .error (.errorCode info)) ∧
    ∀ F p X, lib.sysv hermi (uploOr dflt uplo) n m A B = .ok (F, p, X) → ∃ x, refSolveSymmetric lib dflt hermi uplo a b = .ok (a.t, x) ∧
      Leaves b x X ∧ x.cloneToMut dflt = .ok x := by
  have hv : (⟨a.t, false⟩ : TRef α).Ok := ⟨ha, fun h => by simp at h⟩
  obtain ⟨x, x1, x2, x3⟩ := convert_ok dflt hb hB
  obtain ⟨y, y1, y2, y3⟩ := convertOrder_ok dflt hv hA (storageOrder x.view.layout)
  obtain ⟨lda, ldb, a1, b1, k1, k2⟩ := withTwo_ok y2.wf x2.wf y2.mat x2.mat (storageF x2.mat.1) y3 x3 (-5) (-8) (lib.sysv hermi (uploOr dflt uplo) n m)
  have hy : y.view.layout.shape = [n, n] := y2.mat.1
  obtain ⟨d0, d1⟩ := dimAt2 (l := x.view.layout) x2.mat.1
  generalize hu : uploOr dflt uplo = u at k1 k2
  have hu' : uploOr dflt (some u) = u := rfl
  have key : refSolveSymmetric lib dflt hermi uplo a b = (do
      let (da, p, db) ← driverSysv lib hermi (storageOrder x.view.layout) u n m y.view.data y.view.layout.offset lda x.view.data x.view.layout.offset ldb
      let (_, _, x) ← (do return (← (y.setData da).cloneToMut dflt, p, ← (x.setData db).cloneToMut dflt))
      return (a.t, ← x.cloneToMut dflt)) := by
    unfold refSolveSymmetric sysvRun
    simp only [hu, hu', x1, ok_bind, y1, d0, d1, hy, ne_eq, not_true_eq_false, if_false, a1, b1]
    cases driverSysv lib hermi (storageOrder x.view.layout) u n m y.view.data y.view.layout.offset lda x.view.data x.view.layout.offset ldb <;> rfl
  rw [key]
  unfold driverSysv
  simp only [checkLd_ok (ld := (n : Int)) (m := n) (info := -5) (by omega), checkLd_ok (ld := (n : Int)) (m := n) (info := -8) (by omega), ok_bind]
  constructor
  · intro info h
    rw [k1 info h]; rfl
  · intro F p X h
    obtain ⟨da, db, e, ⟨u2, u3, u4⟩, v2, v3, v4⟩ := k2 F p X h
    obtain ⟨a', p1, -, -⟩ := finish_ok dflt hv y2 hA.1 u2 u3 u4
    obtain ⟨x', q1, q2, q3⟩ := finish_ok dflt hb x2 hB.1 v2 v3 v4
    refine ⟨x', ?_, q2, q3⟩
    rw [e]
    simp only [ok_bind, p1, q1]
    show (do return (a.t, ← x'.cloneToMut dflt)) = _
    rw [q3]; rfl

end
end Rstsr
