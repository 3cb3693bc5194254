import Verif.Model.Eig
import Verif.Spec.Eig
import Verif.Thm.LinalgSym
/-! # Proofs: eigenvalues -/
namespace Rstsr
open Spec

section
variable {α ρ : Type}

theorem valuesOf_ok {n : Nat} (w : Fin n → ρ) : (valuesOf w).WF ∧ (valuesOf w).arr.IsVec w := by
  have e : freshLayout .C [n] = ⟨[⟨n, 1⟩], 0⟩ := rfl
  have hs : (freshLayout .C [n]).size = n := by rw [e]; simp [Layout.size, Layout.shape]
  have T := freshLayout_tight .C [n]
  have hg : (valuesOf w).WF := by
    have := T.wf (d := List.ofFn w) (by rw [hs]; simp)
    exact this
  refine ⟨hg, rfl, fun i => ?_⟩
  have hi : InRange [(i : Nat)] (valuesOf w).layout.shape := ⟨i.2, trivial⟩
  rw [show (valuesOf w).arr.elem [(i : Nat)] = _ from elem_pos hg.fit hi]
  have : (valuesOf w).layout.pos [(i : Nat)] = i := by simp [valuesOf, Layout.pos, Layout.addr, Layout.stride, position]
  rw [this]
  simp

/-- What `SYEV` or `SYEVD` is called with and what is done with its results. -/
theorem evRun_ok (lib : LapackEig α ρ) (dc : Bool) (dflt : Order) {a : TRef α} (ha : a.Ok) (v : Bool) (uplo : Option UpLo) {n : Nat} (hn : n ≠ 0)
    {A : Matrix (Fin n) (Fin n) α} (hA : a.t.arr.IsMat A) :
    (∀ info, lib.ev dc v (uploOr dflt uplo) n A = .error info → evRun lib dc dflt a v uplo = .error (.errorCode info)) ∧
    ∀ F w, lib.ev dc v (uploOr dflt uplo) n A = .ok (F, w) → ∃ x, evRun lib dc dflt a v uplo = .ok (valuesOf w, x) ∧ Leaves a x F ∧
      x.cloneToMut dflt = .ok x := by
  obtain ⟨x, x1, x2, x3⟩ := convert_ok dflt ha hA
  obtain ⟨ld, l1, l2, l3⟩ := withMat_ok x2.wf x2.mat (fun _ => ⟨hn, hn⟩) x3
  obtain ⟨d0, d1⟩ := dimAt2 (l := x.view.layout) x2.mat.1
  generalize hu : uploOr dflt uplo = u
  rw [min_self] at l2
  have key : evRun lib dc dflt a v uplo = (do
      let (d, w) ← withMat (storageOrder x.view.layout) x.view.data x.view.layout.offset ld n n (-5) (lib.ev dc v u n)
      return (valuesOf w, ← (x.setData d).cloneToMut dflt)) := by
    unfold evRun driverEv
    simp only [hu, x1, ok_bind, d1, l1]
    generalize x.view.layout.dimAt 0 = k at d0 ⊢
    subst d0
    simp only [ne_eq, not_true_eq_false, if_false, checkLd_ok (l2 hn hn), ok_bind]
  rw [key]
  obtain ⟨e1, e2⟩ := l3 (-5) (lib.ev dc v u n)
  refine ⟨fun info hi => ?_, fun F w hw => ?_⟩
  · rw [e1 info hi]; rfl
  · obtain ⟨d, f1, f2, f3, f4⟩ := e2 F w hw
    obtain ⟨y, y1, y2, y3⟩ := finish_ok dflt ha x2 hA.1 f2 f3 f4
    refine ⟨y, ?_, y2, y3⟩
    simp only [f1, ok_bind, y1]
    rfl

/-- What `SYGV` or `SYGVD` is called with and what is done with its results. -/
theorem gvRun_ok (lib : LapackEig α ρ) (dc : Bool) (dflt : Order) {a b : TRef α} (ha : a.Ok) (hb : b.Ok) (t : Int) (v : Bool) (uplo : Option UpLo)
    {n : Nat} (hn : n ≠ 0) {A B : Matrix (Fin n) (Fin n) α} (hA : a.t.arr.IsMat A) (hB : b.t.arr.IsMat B) :
    (∀ info, lib.gv dc t v (uploOr dflt uplo) n A B = .error info → gvRun lib dc dflt a b t v uplo = .error .invalidLayout) ∧
    ∀ F w G, lib.gv dc t v (uploOr dflt uplo) n A B = .ok (F, w, G) → ∃ x, gvRun lib dc dflt a b t v uplo = .ok (valuesOf w, x) ∧ Leaves a x F ∧
      x.cloneToMut dflt = .ok x := by
  obtain ⟨x, x1, x2, x3⟩ := convertOrder_ok dflt ha hA (storageOrder a.t.layout)
  obtain ⟨y, y1, y2, y3⟩ := convertOrder_ok dflt hb hB (storageOrder a.t.layout)
  obtain ⟨lda', l1, l2, -⟩ := withMat_ok x2.wf x2.mat (fun _ => ⟨hn, hn⟩) x3
  obtain ⟨ldb', m1, m2, -⟩ := withMat_ok y2.wf y2.mat (fun _ => ⟨hn, hn⟩) y3
  obtain ⟨lda, ldb, a1, b1, k1, k2⟩ := withTwo_ok x2.wf y2.wf x2.mat y2.mat (fun _ => ⟨hn, hn⟩) x3 y3 (-6) (-8) (lib.gv dc t v (uploOr dflt uplo) n)
  obtain rfl : lda' = lda := by rw [a1] at l1; injection l1 with h; exact h.symm
  obtain rfl : ldb' = ldb := by rw [b1] at m1; injection m1 with h; exact h.symm
  have hx : x.view.layout.shape = [n, n] := x2.mat.1
  have hy : y.view.layout.shape = [n, n] := y2.mat.1
  obtain ⟨d0, -⟩ := dimAt2 hx
  generalize hu : uploOr dflt uplo = u at k1 k2
  rw [min_self] at l2 m2
  have key : gvRun lib dc dflt a b t v uplo = (do
      let (da, w, _) ← assertInfo (withTwo (storageOrder a.t.layout) n n x.view.data x.view.layout.offset lda' y.view.data y.view.layout.offset ldb' (-6) (-8)
        (lib.gv dc t v u n))
      return (valuesOf w, ← (x.setData da).cloneToMut dflt)) := by
    unfold gvRun driverGv
    simp only [hu, x1, y1, ok_bind, hx, hy, a1, b1]
    generalize x.view.layout.dimAt 0 = k at d0 ⊢
    subst d0
    simp only [ne_eq, not_true_eq_false, if_false, checkLd_ok (l2 hn hn), checkLd_ok (m2 hn hn), ok_bind]
  rw [key]
  refine ⟨fun info hi => ?_, fun F w G hw => ?_⟩
  · rw [k1 info hi]; rfl
  · obtain ⟨d, db, f1, ⟨f2, f3, f4⟩, -⟩ := k2 F w G hw
    obtain ⟨z, z1, z2, z3⟩ := finish_ok dflt ha x2 hA.1 f2 f3 f4
    refine ⟨z, ?_, z2, z3⟩
    rw [f1]
    simp only [assertInfo, ok_bind, z1]
    rfl

/-- Which routine a name means. -/
def EvDriver (driver : Option String) (dc : Bool) : Prop := driver = some "ev" ∧ dc = false ∨ (driver = none ∨ driver = some "evd") ∧ dc = true
def GvDriver (driver : Option String) (dc : Bool) : Prop := driver = some "gv" ∧ dc = false ∨ (driver = none ∨ driver = some "gvd") ∧ dc = true

theorem refEigh_ev (lib : LapackEig α ρ) (dflt : Order) {x : EighArgs α ρ} (hx : x.b = none) {dc : Bool} (hd : EvDriver x.driver dc) :
    refEigh lib dflt x = (do
      let (w, v) ← evRun lib dc dflt x.a (!x.eigvalsOnly) x.uplo
      if x.eigvalsOnly then return (w, none) else return (w, some (← v.cloneToMut dflt))) := by
  unfold refEigh
  rcases hd with ⟨h, rfl⟩ | ⟨h | h, rfl⟩ <;> simp only [hx, h, Option.getD] <;> rfl

theorem refEigh_gv (lib : LapackEig α ρ) (dflt : Order) {x : EighArgs α ρ} {b : TRef α} (hx : x.b = some b) {dc : Bool} (hd : GvDriver x.driver dc) :
    refEigh lib dflt x = (do
      let (w, v) ← gvRun lib dc dflt x.a b x.eigType (!x.eigvalsOnly) x.uplo
      if x.eigvalsOnly then return (w, none) else return (w, some (← v.cloneToMut dflt))) := by
  unfold refEigh
  rcases hd with ⟨h, rfl⟩ | ⟨h | h, rfl⟩ <;> simp only [hx, h, Option.getD] <;> rfl

theorem refEigh_ev_ok (lib : LapackEig α ρ) (dflt : Order) {x : EighArgs α ρ} (hx : x.b = none) {dc : Bool} (hd : EvDriver x.driver dc) (ha : x.a.Ok)
    {n : Nat} (hn : n ≠ 0) {A : Matrix (Fin n) (Fin n) α} (hA : x.a.t.arr.IsMat A) :
    (∀ info, lib.ev dc (!x.eigvalsOnly) (uploOr dflt x.uplo) n A = .error info → refEigh lib dflt x = .error (.errorCode info)) ∧
    ∀ F w, lib.ev dc (!x.eigvalsOnly) (uploOr dflt x.uplo) n A = .ok (F, w) → ∃ y,
      refEigh lib dflt x = .ok (valuesOf w, if x.eigvalsOnly then none else some y) ∧ Leaves x.a y F := by
  rw [refEigh_ev lib dflt hx hd]
  obtain ⟨h1, h2⟩ := evRun_ok lib dc dflt ha (!x.eigvalsOnly) x.uplo hn hA
  refine ⟨fun info h => by rw [h1 info h]; rfl, fun F w h => ?_⟩
  obtain ⟨y, y1, y2, y3⟩ := h2 F w h
  refine ⟨y, ?_, y2⟩
  rw [y1]
  cases hv : x.eigvalsOnly
  · simp only [ok_bind, Bool.false_eq_true, if_false, y3]; rfl
  · rfl

theorem refEigh_gv_ok (lib : LapackEig α ρ) (dflt : Order) {x : EighArgs α ρ} {b : TRef α} (hx : x.b = some b) {dc : Bool} (hd : GvDriver x.driver dc)
    (ha : x.a.Ok) (hb : b.Ok) {n : Nat} (hn : n ≠ 0) {A B : Matrix (Fin n) (Fin n) α} (hA : x.a.t.arr.IsMat A) (hB : b.t.arr.IsMat B) :
    (∀ info, lib.gv dc x.eigType (!x.eigvalsOnly) (uploOr dflt x.uplo) n A B = .error info → refEigh lib dflt x = .error .invalidLayout) ∧
    ∀ F w G, lib.gv dc x.eigType (!x.eigvalsOnly) (uploOr dflt x.uplo) n A B = .ok (F, w, G) → ∃ y,
      refEigh lib dflt x = .ok (valuesOf w, if x.eigvalsOnly then none else some y) ∧ Leaves x.a y F := by
  rw [refEigh_gv lib dflt hx hd]
  obtain ⟨h1, h2⟩ := gvRun_ok lib dc dflt ha hb x.eigType (!x.eigvalsOnly) x.uplo hn hA hB
  refine ⟨fun info h => by rw [h1 info h]; rfl, fun F w G h => ?_⟩
  obtain ⟨y, y1, y2, y3⟩ := h2 F w G h
  refine ⟨y, ?_, y2⟩
  rw [y1]
  cases hv : x.eigvalsOnly
  · simp only [ok_bind, Bool.false_eq_true, if_false, y3]; rfl
  · rfl

end
end Rstsr
