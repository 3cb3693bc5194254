import Mathlib.Analysis.Matrix.Spectrum
import Mathlib.Data.Fin.Tuple.Sort
import Verif.Proof.Eig
/-!
# C76, C77: eigenvalues and eigenvectors of symmetric and Hermitian matrices
-/
namespace Rstsr
open Spec Matrix
open scoped ComplexOrder

section
variable {α ρ : Type} {𝕜 : Type} [RCLike 𝕜]

/-! ## One matrix -/

/-- Eigenvalues and eigenvectors of a Hermitian matrix `S`, of which one triangle is given. Missing: matrices without elements. -/
theorem C76_eigh_partial (lib : LapackEig 𝕜 ℝ) (hl : EvDoc lib.ev) (dflt : Order) (uplo : Option UpLo) (u : UpLo)
    (hu : u = match uplo, dflt with | some u, _ => u | none, .C => .L | none, .F => .U) (a : TRef 𝕜) (ha : a.Ok)
    {n : Nat} (hn : n ≠ 0) (A S : Matrix (Fin n) (Fin n) 𝕜) (hA : a.t.arr.IsMat A) (hs : SameTriangle u A S) (hS : S.IsHermitian)
    (hc : ∃ r, lib.ev true true u n A = .ok r) :
    ∃ w x l V, eigh lib dflt a uplo = .ok (w, x) ∧ w.WF ∧ w.arr.IsVec l ∧ IsEigvals S l ∧ x.WF ∧ x.arr.IsMat V ∧ IsEigvecs S l V ∧ ResultIn a x := by
  have hu := hu.trans (uploOr_eq dflt uplo).symm
  subst hu
  obtain ⟨⟨F, l⟩, h⟩ := hc
  obtain ⟨y, y1, y2⟩ := (refEigh_ev_ok lib dflt (x := { a := a, uplo := some (uploOr dflt uplo) }) rfl (.inr ⟨.inl rfl, rfl⟩) ha hn hA).2 F l h
  obtain ⟨z, z1, z2, z3, z4⟩ := resultOf_ok dflt y2
  have na : a.t.layout.ndim = 2 := ndim_len (s := [n, n]) hA.1
  refine ⟨_, z, l, F, ?_, (valuesOf_ok l).1, (valuesOf_ok l).2, hl.values _ _ _ n A S F l hs hS h, z2, z3, hl.vectors _ _ n A S F l hs hS h, z4⟩
  unfold eigh
  rw [if_neg (by simp [na]), y1]
  simp only [ok_bind, Bool.false_eq_true, if_false, unwrapVecs]
  show (do let t ← resultOf dflt a y; return (valuesOf l, t)) = _
  rw [z1]; rfl

/-- Only the eigenvalues. -/
theorem C76_eigvalsh_partial (lib : LapackEig 𝕜 ℝ) (hl : EvDoc lib.ev) (dflt : Order) (uplo : Option UpLo) (u : UpLo)
    (hu : u = match uplo, dflt with | some u, _ => u | none, .C => .L | none, .F => .U) (a : TRef 𝕜) (ha : a.Ok)
    {n : Nat} (hn : n ≠ 0) (A S : Matrix (Fin n) (Fin n) 𝕜) (hA : a.t.arr.IsMat A) (hs : SameTriangle u A S) (hS : S.IsHermitian)
    (hc : ∃ r, lib.ev true false u n A = .ok r) :
    ∃ w l, eigvalsh lib dflt a uplo = .ok w ∧ w.WF ∧ w.arr.IsVec l ∧ IsEigvals S l := by
  have hu := hu.trans (uploOr_eq dflt uplo).symm
  subst hu
  obtain ⟨⟨F, l⟩, h⟩ := hc
  obtain ⟨y, y1, -⟩ := (refEigh_ev_ok lib dflt (x := { a := a, uplo := some (uploOr dflt uplo), eigvalsOnly := true }) rfl (.inr ⟨.inl rfl, rfl⟩) ha hn hA).2
    F l h
  have na : a.t.layout.ndim = 2 := ndim_len (s := [n, n]) hA.1
  refine ⟨_, l, ?_, (valuesOf_ok l).1, (valuesOf_ok l).2, hl.values _ _ _ n A S F l hs hS h⟩
  unfold eigvalsh
  rw [if_neg (by simp [na]), y1]
  rfl

/-- The arguments as a structure, with a choice of the routine. Missing: matrices without elements, and the choice of a part of the
eigenvalues, which has no effect (`C76_false_subset`). -/
theorem C76_args_partial (lib : LapackEig 𝕜 ℝ) (hl : EvDoc lib.ev) (dflt : Order) (x : EighArgs 𝕜 ℝ) (hb : x.b = none) (u : UpLo)
    (hu : u = match x.uplo, dflt with | some u, _ => u | none, .C => .L | none, .F => .U) (ha : x.a.Ok)
    (dc : Bool) (hd : (x.driver = some "ev" ∧ dc = false) ∨ ((x.driver = none ∨ x.driver = some "evd") ∧ dc = true))
    {n : Nat} (hn : n ≠ 0) (A S : Matrix (Fin n) (Fin n) 𝕜) (hA : x.a.t.arr.IsMat A) (hs : SameTriangle u A S) (hS : S.IsHermitian)
    (hc : ∃ r, lib.ev dc (!x.eigvalsOnly) u n A = .ok r) :
    (x.eigvalsOnly = false → eigvalshArgs lib dflt x = .error .invalidValue ∧
      ∃ w v l V, eighArgs lib dflt x = .ok (w, v) ∧ w.WF ∧ w.arr.IsVec l ∧ IsEigvals S l ∧ v.view.WF ∧ v.view.arr.IsMat V ∧ IsEigvecs S l V ∧
        ResultIn x.a v.view) ∧
    (x.eigvalsOnly = true → eighArgs lib dflt x = .error .invalidValue ∧
      ∃ w l, eigvalshArgs lib dflt x = .ok w ∧ w.WF ∧ w.arr.IsVec l ∧ IsEigvals S l) := by
  have hu := hu.trans (uploOr_eq dflt x.uplo).symm
  subst hu
  obtain ⟨⟨F, l⟩, h⟩ := hc
  obtain ⟨y, y1, y2⟩ := (refEigh_ev_ok lib dflt hb hd ha hn hA).2 F l h
  have hv := hl.values _ _ _ n A S F l hs hS h
  refine ⟨fun e => ⟨by simp [eigvalshArgs, e], _, y, l, F, ?_, (valuesOf_ok l).1, (valuesOf_ok l).2, hv, y2.wf, y2.mat, ?_, ?_⟩,
    fun e => ⟨by simp [eighArgs, e], _, l, ?_, (valuesOf_ok l).1, (valuesOf_ok l).2, hv⟩⟩
  · unfold eighArgs
    rw [y1, e]; rfl
  · rw [e] at h
    exact hl.vectors _ _ n A S F l hs hS h
  · constructor <;> intro hm
    · obtain ⟨d, rfl, -⟩ := y2.shared hm; rfl
    · obtain ⟨d, rfl, h⟩ := y2.shared hm; exact h
  · unfold eigvalshArgs
    rw [y1, e]; rfl

/-- If LAPACK reports a number, so do the functions. -/
theorem C76_fail_partial (lib : LapackEig α ρ) (dflt : Order) (uplo : Option UpLo) (u : UpLo)
    (hu : u = match uplo, dflt with | some u, _ => u | none, .C => .L | none, .F => .U) (a : TRef α) (ha : a.Ok)
    {n : Nat} (hn : n ≠ 0) (A : Matrix (Fin n) (Fin n) α) (hA : a.t.arr.IsMat A) (info : Int) :
    (lib.ev true true u n A = .error info → eigh lib dflt a uplo = .error (.errorCode info)) ∧
    (lib.ev true false u n A = .error info → eigvalsh lib dflt a uplo = .error (.errorCode info)) := by
  have hu := hu.trans (uploOr_eq dflt uplo).symm
  subst hu
  have na : a.t.layout.ndim = 2 := ndim_len (s := [n, n]) hA.1
  constructor <;> intro h
  · have := (refEigh_ev_ok lib dflt (x := { a := a, uplo := some (uploOr dflt uplo) }) rfl (.inr ⟨.inl rfl, rfl⟩) ha hn hA).1 info h
    unfold eigh
    rw [if_neg (by simp [na]), this]; rfl
  · have := (refEigh_ev_ok lib dflt (x := { a := a, uplo := some (uploOr dflt uplo), eigvalsOnly := true }) rfl (.inr ⟨.inl rfl, rfl⟩) ha hn hA).1 info h
    unfold eigvalsh
    rw [if_neg (by simp [na]), this]; rfl

/-- Arrays that are no square matrices are an error, whatever LAPACK does. -/
theorem C76_reject_partial (lib : LapackEig α ρ) (dflt : Order) (uplo : Option UpLo) (a : TRef α) (ha : a.Ok)
    (h : a.t.arr.shape.length ≠ 2 ∨ ∃ m n, a.t.arr.shape = [m, n] ∧ m ≠ 0 ∧ n ≠ 0 ∧ m ≠ n) :
    eigh lib dflt a uplo = .error .invalidLayout ∧ eigvalsh lib dflt a uplo = .error .invalidLayout := by
  by_cases h1 : a.t.layout.ndim = 2
  · rcases h with h | ⟨m, n, hs, h0, h0', hne⟩
    · exact absurd ((ndim_len (l := a.t.layout) rfl).symm.trans h1) h
    · obtain ⟨A, hA⟩ := exists_isMat ha.wf hs
      obtain ⟨x, x1, x2, x3⟩ := convert_ok dflt ha hA
      obtain ⟨d0, d1⟩ := dimAt2 (l := x.view.layout) x2.mat.1
      have key : ∀ v uplo, evRun lib true dflt a v uplo = .error .invalidLayout := by
        intro v uplo
        unfold evRun
        simp only [x1, ok_bind]
        rw [if_pos (by rw [d0, d1]; exact hne)]
      constructor
      · unfold eigh
        rw [if_neg (by simp [h1]), refEigh_ev lib dflt rfl (.inr ⟨.inl rfl, rfl⟩), key]; rfl
      · unfold eigvalsh
        rw [if_neg (by simp [h1]), refEigh_ev lib dflt rfl (.inr ⟨.inl rfl, rfl⟩), key]; rfl
  · exact ⟨if_pos h1, if_pos h1⟩

/-- A name that means no routine is an error. -/
theorem C76_driver (lib : LapackEig α ρ) (dflt : Order) (x : EighArgs α ρ) (name : String) (hd : x.driver = some name)
    (hx : x.b = none ∧ name ≠ "ev" ∧ name ≠ "evd" ∨ x.b.isSome ∧ name ≠ "gv" ∧ name ≠ "gvd") :
    eighArgs lib dflt x = .error .invalidValue ∧ eigvalshArgs lib dflt x = .error .invalidValue := by
  have key : refEigh lib dflt x = .error .invalidValue := by
    unfold refEigh
    rcases hx with ⟨hb, h1, h2⟩ | ⟨hb, h1, h2⟩
    · simp only [hb, hd, Option.getD, h1, h2, if_false]; rfl
    · obtain ⟨b, hb⟩ := Option.isSome_iff_exists.1 hb
      simp only [hb, hd, Option.getD, h1, h2, if_false]; rfl
  constructor
  · unfold eighArgs
    rw [key]; split <;> rfl
  · unfold eigvalshArgs
    rw [key]; split <;> rfl

/-! ## Two matrices -/

/-- Eigenvalues and eigenvectors of the problems `A x = λ B x`, `A B x = λ x` and `B A x = λ x`. Missing: matrices without elements. -/
theorem C77_eigh_partial (lib : LapackEig 𝕜 ℝ) (hl : GvDoc lib.gv) (dflt : Order) (uplo : Option UpLo) (u : UpLo)
    (hu : u = match uplo, dflt with | some u, _ => u | none, .C => .L | none, .F => .U) (a b : Tensor 𝕜) (ha : a.WF) (hb : b.WF)
    {n : Nat} (hn : n ≠ 0) (A S B H : Matrix (Fin n) (Fin n) 𝕜) (hA : a.arr.IsMat A) (hB : b.arr.IsMat B) (hs : SameTriangle u A S)
    (hS : S.IsHermitian) (hs' : SameTriangle u B H) (hH : H.PosDef) (t : Int) (ht : t = 1 ∨ t = 2 ∨ t = 3)
    (hc : ∃ r, lib.gv true t true u n A B = .ok r) :
    ∃ w x l V, eighGeneral lib dflt a b uplo t = .ok (w, x) ∧ w.WF ∧ w.arr.IsVec l ∧ IsEigvals (genMat t S H) l ∧ x.WF ∧ x.arr.IsMat V ∧
      IsGenEigvecs t S H l V := by
  have hu := hu.trans (uploOr_eq dflt uplo).symm
  subst hu
  obtain ⟨⟨F, l, G⟩, h⟩ := hc
  have va : (⟨a, false⟩ : TRef 𝕜).Ok := ⟨ha, fun h => by simp at h⟩
  have vb : (⟨b, false⟩ : TRef 𝕜).Ok := ⟨hb, fun h => by simp at h⟩
  obtain ⟨y, y1, y2⟩ := (refEigh_gv_ok lib dflt (x := { a := ⟨a, false⟩, b := some ⟨b, false⟩, uplo := some (uploOr dflt uplo), eigType := t }) rfl
    (.inr ⟨.inl rfl, rfl⟩) va vb hn hA hB).2 F l G h
  obtain ⟨z, z1, z2, z3, -⟩ := resultOf_ok dflt y2
  have na : a.layout.ndim = 2 := ndim_len (s := [n, n]) hA.1
  have nb : b.layout.ndim = 2 := ndim_len (s := [n, n]) hB.1
  refine ⟨_, z, l, F, ?_, (valuesOf_ok l).1, (valuesOf_ok l).2, hl.values _ _ _ _ n A S B H F l G ht hs hS hs' hH h, z2, z3,
    hl.vectors _ _ _ n A S B H F l G ht hs hS hs' hH h⟩
  unfold eighGeneral
  rw [if_neg (by simp [na]), if_neg (by simp [nb]), if_neg (by omega), y1]
  simp only [ok_bind, Bool.false_eq_true, if_false, unwrapVecs]
  show (do let t ← resultOf dflt ⟨a, false⟩ y; return (valuesOf l, t)) = _
  rw [z1]; rfl

/-- Only the eigenvalues. -/
theorem C77_eigvalsh_partial (lib : LapackEig 𝕜 ℝ) (hl : GvDoc lib.gv) (dflt : Order) (uplo : Option UpLo) (u : UpLo)
    (hu : u = match uplo, dflt with | some u, _ => u | none, .C => .L | none, .F => .U) (a b : Tensor 𝕜) (ha : a.WF) (hb : b.WF)
    {n : Nat} (hn : n ≠ 0) (A S B H : Matrix (Fin n) (Fin n) 𝕜) (hA : a.arr.IsMat A) (hB : b.arr.IsMat B) (hs : SameTriangle u A S)
    (hS : S.IsHermitian) (hs' : SameTriangle u B H) (hH : H.PosDef) (t : Int) (ht : t = 1 ∨ t = 2 ∨ t = 3)
    (hc : ∃ r, lib.gv true t false u n A B = .ok r) :
    ∃ w l, eigvalshGeneral lib dflt a b uplo t = .ok w ∧ w.WF ∧ w.arr.IsVec l ∧ IsEigvals (genMat t S H) l := by
  have hu := hu.trans (uploOr_eq dflt uplo).symm
  subst hu
  obtain ⟨⟨F, l, G⟩, h⟩ := hc
  have va : (⟨a, false⟩ : TRef 𝕜).Ok := ⟨ha, fun h => by simp at h⟩
  have vb : (⟨b, false⟩ : TRef 𝕜).Ok := ⟨hb, fun h => by simp at h⟩
  obtain ⟨y, y1, y2⟩ := (refEigh_gv_ok lib dflt
    (x := { a := ⟨a, false⟩, b := some ⟨b, false⟩, uplo := some (uploOr dflt uplo), eigType := t, eigvalsOnly := true }) rfl
    (.inr ⟨.inl rfl, rfl⟩) va vb hn hA hB).2 F l G h
  have na : a.layout.ndim = 2 := ndim_len (s := [n, n]) hA.1
  have nb : b.layout.ndim = 2 := ndim_len (s := [n, n]) hB.1
  refine ⟨_, l, ?_, (valuesOf_ok l).1, (valuesOf_ok l).2, hl.values _ _ _ _ n A S B H F l G ht hs hS hs' hH h⟩
  unfold eigvalshGeneral
  rw [if_neg (by simp [na]), if_neg (by simp [nb]), if_neg (by omega), y1]
  rfl

/-- The arguments as a structure, which may be overwritten, with a choice of the routine. Missing as in `C76_args_partial`. -/
theorem C77_args_partial (lib : LapackEig 𝕜 ℝ) (hl : GvDoc lib.gv) (dflt : Order) (x : EighArgs 𝕜 ℝ) (b : TRef 𝕜) (hb : x.b = some b) (u : UpLo)
    (hu : u = match x.uplo, dflt with | some u, _ => u | none, .C => .L | none, .F => .U) (ha : x.a.Ok) (hb' : b.Ok)
    (dc : Bool) (hd : (x.driver = some "gv" ∧ dc = false) ∨ ((x.driver = none ∨ x.driver = some "gvd") ∧ dc = true))
    {n : Nat} (hn : n ≠ 0) (A S B H : Matrix (Fin n) (Fin n) 𝕜) (hA : x.a.t.arr.IsMat A) (hB : b.t.arr.IsMat B) (hs : SameTriangle u A S)
    (hS : S.IsHermitian) (hs' : SameTriangle u B H) (hH : H.PosDef) (ht : x.eigType = 1 ∨ x.eigType = 2 ∨ x.eigType = 3)
    (hc : ∃ r, lib.gv dc x.eigType (!x.eigvalsOnly) u n A B = .ok r) :
    (x.eigvalsOnly = false → eigvalshArgs lib dflt x = .error .invalidValue ∧
      ∃ w v l V, eighArgs lib dflt x = .ok (w, v) ∧ w.WF ∧ w.arr.IsVec l ∧ IsEigvals (genMat x.eigType S H) l ∧ v.view.WF ∧ v.view.arr.IsMat V ∧
        IsGenEigvecs x.eigType S H l V ∧ ResultIn x.a v.view) ∧
    (x.eigvalsOnly = true → eighArgs lib dflt x = .error .invalidValue ∧
      ∃ w l, eigvalshArgs lib dflt x = .ok w ∧ w.WF ∧ w.arr.IsVec l ∧ IsEigvals (genMat x.eigType S H) l) := by
  have hu := hu.trans (uploOr_eq dflt x.uplo).symm
  subst hu
  obtain ⟨⟨F, l, G⟩, h⟩ := hc
  obtain ⟨y, y1, y2⟩ := (refEigh_gv_ok lib dflt hb hd ha hb' hn hA hB).2 F l G h
  have hv := hl.values _ _ _ _ n A S B H F l G ht hs hS hs' hH h
  refine ⟨fun e => ⟨by simp [eigvalshArgs, e], _, y, l, F, ?_, (valuesOf_ok l).1, (valuesOf_ok l).2, hv, y2.wf, y2.mat, ?_, ?_⟩,
    fun e => ⟨by simp [eighArgs, e], _, l, ?_, (valuesOf_ok l).1, (valuesOf_ok l).2, hv⟩⟩
  · unfold eighArgs
    rw [y1, e]; rfl
  · rw [e] at h
    exact hl.vectors _ _ _ n A S B H F l G ht hs hS hs' hH h
  · constructor <;> intro hm
    · obtain ⟨d, rfl, -⟩ := y2.shared hm; rfl
    · obtain ⟨d, rfl, h⟩ := y2.shared hm; exact h
  · unfold eigvalshArgs
    rw [y1, e]; rfl

/-- A second matrix that is not positive definite is an error. -/
theorem C77_indefinite_partial (lib : LapackEig 𝕜 ℝ) (hl : GvDoc lib.gv) (dflt : Order) (uplo : Option UpLo) (u : UpLo)
    (hu : u = match uplo, dflt with | some u, _ => u | none, .C => .L | none, .F => .U) (a b : Tensor 𝕜) (ha : a.WF) (hb : b.WF)
    {n : Nat} (hn : n ≠ 0) (A S B H : Matrix (Fin n) (Fin n) 𝕜) (hA : a.arr.IsMat A) (hB : b.arr.IsMat B) (hs : SameTriangle u A S)
    (hS : S.IsHermitian) (hs' : SameTriangle u B H) (hH : H.IsHermitian) (hp : ¬ H.PosDef) (t : Int) (ht : t = 1 ∨ t = 2 ∨ t = 3) :
    eighGeneral lib dflt a b uplo t = .error .invalidLayout ∧ eigvalshGeneral lib dflt a b uplo t = .error .invalidLayout := by
  have hu := hu.trans (uploOr_eq dflt uplo).symm
  subst hu
  have va : (⟨a, false⟩ : TRef 𝕜).Ok := ⟨ha, fun h => by simp at h⟩
  have vb : (⟨b, false⟩ : TRef 𝕜).Ok := ⟨hb, fun h => by simp at h⟩
  have na : a.layout.ndim = 2 := ndim_len (s := [n, n]) hA.1
  have nb : b.layout.ndim = 2 := ndim_len (s := [n, n]) hB.1
  constructor
  · obtain ⟨info, -, h⟩ := hl.indefinite true t true _ n A S B H ht hs hS hs' hH hp
    have := (refEigh_gv_ok lib dflt (x := { a := ⟨a, false⟩, b := some ⟨b, false⟩, uplo := some (uploOr dflt uplo), eigType := t }) rfl
      (.inr ⟨.inl rfl, rfl⟩) va vb hn hA hB).1 info h
    unfold eighGeneral
    rw [if_neg (by simp [na]), if_neg (by simp [nb]), if_neg (by omega), this]; rfl
  · obtain ⟨info, -, h⟩ := hl.indefinite true t false _ n A S B H ht hs hS hs' hH hp
    have := (refEigh_gv_ok lib dflt (x := { a := ⟨a, false⟩, b := some ⟨b, false⟩, uplo := some (uploOr dflt uplo), eigType := t, eigvalsOnly := true }) rfl
      (.inr ⟨.inl rfl, rfl⟩) va vb hn hA hB).1 info h
    unfold eigvalshGeneral
    rw [if_neg (by simp [na]), if_neg (by simp [nb]), if_neg (by omega), this]; rfl

/-- Arrays that are not square matrices of the same size, and types other than 1, 2 and 3, are an error. -/
theorem C77_reject_partial (lib : LapackEig α ρ) (dflt : Order) (uplo : Option UpLo) (a b : Tensor α) (ha : a.WF) (hb : b.WF) (t : Int)
    (h : a.arr.shape.length ≠ 2 ∨ b.arr.shape.length ≠ 2 ∨ ¬ (1 ≤ t ∧ t ≤ 3) ∨
      ∃ m n m' n', a.arr.shape = [m, n] ∧ b.arr.shape = [m', n'] ∧ m ≠ 0 ∧ n ≠ 0 ∧ m' ≠ 0 ∧ n' ≠ 0 ∧ ¬ (m = n ∧ m = m' ∧ m = n')) :
    eighGeneral lib dflt a b uplo t = .error .invalidLayout ∧ eigvalshGeneral lib dflt a b uplo t = .error .invalidLayout := by
  have va : (⟨a, false⟩ : TRef α).Ok := ⟨ha, fun h => by simp at h⟩
  have vb : (⟨b, false⟩ : TRef α).Ok := ⟨hb, fun h => by simp at h⟩
  have la : a.layout.ndim = a.arr.shape.length := ndim_len (l := a.layout) rfl
  have lb : b.layout.ndim = b.arr.shape.length := ndim_len (l := b.layout) rfl
  unfold eighGeneral eigvalshGeneral
  by_cases h1 : a.layout.ndim = 2
  swap
  · exact ⟨if_pos h1, if_pos h1⟩
  rw [if_neg (not_not.2 h1), if_neg (not_not.2 h1)]
  by_cases h2 : b.layout.ndim = 2
  swap
  · exact ⟨if_pos h2, if_pos h2⟩
  rw [if_neg (not_not.2 h2), if_neg (not_not.2 h2)]
  by_cases h3 : 1 ≤ t ∧ t ≤ 3
  swap
  · exact ⟨if_pos h3, if_pos h3⟩
  rw [if_neg (not_not.2 h3), if_neg (not_not.2 h3)]
  rcases h with h | h | h | ⟨m, n, m', n', sa, sb, m0, n0, m0', n0', hne⟩
  · omega
  · omega
  · exact absurd h3 h
  obtain ⟨A, hA⟩ := exists_isMat ha sa
  obtain ⟨B, hB⟩ := exists_isMat hb sb
  obtain ⟨x, x1, x2, -⟩ := convertOrder_ok dflt va hA (storageOrder a.layout)
  obtain ⟨y, y1, y2, -⟩ := convertOrder_ok dflt vb hB (storageOrder a.layout)
  have hx : x.view.layout.shape = [m, n] := x2.mat.1
  have hy : y.view.layout.shape = [m', n'] := y2.mat.1
  obtain ⟨d0, -⟩ := dimAt2 hx
  have key : ∀ v uplo, gvRun lib true dflt ⟨a, false⟩ ⟨b, false⟩ t v uplo = .error .invalidLayout := by
    intro v uplo
    unfold gvRun
    simp only [x1, y1, ok_bind]
    by_cases e : m = n
    · rw [if_neg (by rw [hx, d0]; simp [e]), if_pos (by rw [hy, d0]; simp; omega)]
    · rw [if_pos (by rw [hx, d0]; simp; omega)]
  constructor
  · rw [refEigh_gv lib dflt rfl (.inr ⟨.inl rfl, rfl⟩), key]; rfl
  · rw [refEigh_gv lib dflt rfl (.inr ⟨.inl rfl, rfl⟩), key]; rfl

/-! ## Arithmetic that meets the documentation exists -/

theorem exists_ev {n : Nat} {S : Matrix (Fin n) (Fin n) 𝕜} (hS : S.IsHermitian) : ∃ (l : Fin n → ℝ) (V : Matrix (Fin n) (Fin n) 𝕜), IsEigvals S l ∧ IsEigvecs S l V := by
  let σ := Tuple.sort hS.eigenvalues
  let U : Matrix (Fin n) (Fin n) 𝕜 := hS.eigenvectorUnitary
  have hU : Uᴴ * U = 1 := Unitary.coe_star_mul_self hS.eigenvectorUnitary
  have hU' : U * Uᴴ = 1 := mul_eq_one_comm.1 hU
  have hA : S * U = U * diagonal fun i => (hS.eigenvalues i : 𝕜) := by
    have h := hS.spectral_theorem
    rw [Unitary.conjStarAlgAut_apply] at h
    have h : S = U * diagonal (fun i => (hS.eigenvalues i : 𝕜)) * Uᴴ := h
    have h2 := congrArg (· * U) h
    simp only [Matrix.mul_assoc, hU, Matrix.mul_one] at h2
    exact h2
  refine ⟨hS.eigenvalues ∘ σ, U.submatrix id σ, ⟨Tuple.monotone_sort _, ?_⟩, ?_, ?_⟩
  · rw [hS.charpoly_eq]
    exact (Equiv.prod_comp σ fun i => (Polynomial.X - Polynomial.C (hS.eigenvalues i : 𝕜))).symm
  · ext i j
    have := congrFun (congrFun hU (σ i)) (σ j)
    simp only [Matrix.mul_apply, Matrix.conjTranspose_apply, Matrix.submatrix_apply, id] at this ⊢
    rw [this, Matrix.one_apply, Matrix.one_apply]
    simp
  · ext i j
    have := congrFun (congrFun hA i) (σ j)
    rw [Matrix.mul_diagonal] at this ⊢
    simp only [Matrix.mul_apply, Matrix.submatrix_apply, id, Function.comp] at this ⊢
    exact this

theorem charpoly_of_diag {n : Nat} {M V : Matrix (Fin n) (Fin n) 𝕜} {d : Fin n → 𝕜} (hV : IsUnit V) (h : M * V = V * diagonal d) :
    M.charpoly = ∏ i, (Polynomial.X - Polynomial.C (d i)) := by
  obtain ⟨U, rfl⟩ := hV
  have e : M = (U : Matrix (Fin n) (Fin n) 𝕜) * diagonal d * ((U⁻¹ : (Matrix (Fin n) (Fin n) 𝕜)ˣ) : Matrix (Fin n) (Fin n) 𝕜) := by
    rw [← h, Matrix.mul_assoc, Units.mul_inv, Matrix.mul_one]
  rw [e, Matrix.coe_units_inv, Matrix.charpoly_units_conj, Matrix.charpoly_diagonal]

theorem exists_gv {n : Nat} {S H : Matrix (Fin n) (Fin n) 𝕜} (hS : S.IsHermitian) (hH : H.PosDef) (t : Int) (ht : t = 1 ∨ t = 2 ∨ t = 3) :
    ∃ (l : Fin n → ℝ) (V : Matrix (Fin n) (Fin n) 𝕜), IsEigvals (genMat t S H) l ∧ IsGenEigvecs t S H l V := by
  obtain ⟨L, -, hL⟩ := exists_cholesky .L hH
  have hL : L * Lᴴ = H := hL
  have hu : IsUnit H.det := hH.det_pos.ne'.isUnit
  have hd : IsUnit L.det := by
    have : IsUnit (L.det * (Lᴴ).det) := by rw [← Matrix.det_mul, hL]; exact hu
    exact isUnit_of_mul_isUnit_left this
  have hd' : IsUnit (Lᴴ).det := by
    have : IsUnit (L.det * (Lᴴ).det) := by rw [← Matrix.det_mul, hL]; exact hu
    exact isUnit_of_mul_isUnit_right this
  obtain ⟨K, k1, k2⟩ : ∃ K : Matrix (Fin n) (Fin n) 𝕜, K * L = 1 ∧ L * K = 1 := ⟨L⁻¹, Matrix.nonsing_inv_mul L hd, Matrix.mul_nonsing_inv L hd⟩
  have k3 : Lᴴ * Kᴴ = 1 := by rw [← Matrix.conjTranspose_mul, k1, Matrix.conjTranspose_one]
  have k4 : Kᴴ * Lᴴ = 1 := mul_eq_one_comm.1 k3
  have hinv : H⁻¹ = Kᴴ * K := by
    refine Matrix.inv_eq_right_inv ?_
    rw [← hL]
    calc L * Lᴴ * (Kᴴ * K) = L * (Lᴴ * Kᴴ) * K := by simp only [Matrix.mul_assoc]
      _ = 1 := by rw [k3, Matrix.mul_one, k2]
  have unit : ∀ {Y P Q : Matrix (Fin n) (Fin n) 𝕜}, Yᴴ * Y = 1 → P * Q = 1 → IsUnit (P * Y) := by
    intro Y P Q hY hP
    have h1 : IsUnit P := IsUnit.of_mul_eq_one _ hP
    have h2 : IsUnit Y := IsUnit.of_mul_eq_one _ (mul_eq_one_comm.1 hY)
    exact h1.mul h2
  have a1 : ∀ X : Matrix (Fin n) (Fin n) 𝕜, K * (L * X) = X := fun X => by rw [← Matrix.mul_assoc, k1, Matrix.one_mul]
  have a2 : ∀ X : Matrix (Fin n) (Fin n) 𝕜, L * (K * X) = X := fun X => by rw [← Matrix.mul_assoc, k2, Matrix.one_mul]
  have a3 : ∀ X : Matrix (Fin n) (Fin n) 𝕜, Lᴴ * (Kᴴ * X) = X := fun X => by rw [← Matrix.mul_assoc, k3, Matrix.one_mul]
  have a4 : ∀ X : Matrix (Fin n) (Fin n) 𝕜, Kᴴ * (Lᴴ * X) = X := fun X => by rw [← Matrix.mul_assoc, k4, Matrix.one_mul]
  have hd2 : IsUnit H.det := hu
  rcases ht with rfl | rfl | rfl
  · have hC : (K * S * Kᴴ).IsHermitian := Matrix.isHermitian_mul_mul_conjTranspose K hS
    obtain ⟨l, Y, ⟨m, -⟩, y1, y2⟩ := exists_ev hC
    simp only [Matrix.mul_assoc] at y2
    have e : S * (Kᴴ * Y) = L * (Y * diagonal fun i => (l i : 𝕜)) := by rw [← y2, a2]
    refine ⟨l, Kᴴ * Y, ⟨m, charpoly_of_diag (unit y1 k4) ?_⟩, fun _ => ⟨?_, ?_⟩, fun h => absurd h (by decide), fun h => absurd h (by decide)⟩
    · rw [genMat, if_pos rfl, hinv]
      simp only [Matrix.mul_assoc]
      rw [e, a1]
    · rw [← hL]
      simp only [Matrix.mul_assoc]
      rw [e, a3]
    · rw [← hL, Matrix.conjTranspose_mul, Matrix.conjTranspose_conjTranspose]
      simp only [Matrix.mul_assoc]
      rw [a3, a1, y1]
  · have hC : (Lᴴ * S * L).IsHermitian := Matrix.isHermitian_conjTranspose_mul_mul L hS
    obtain ⟨l, Y, ⟨m, -⟩, y1, y2⟩ := exists_ev hC
    simp only [Matrix.mul_assoc] at y2
    have e : S * (L * Y) = Kᴴ * (Y * diagonal fun i => (l i : 𝕜)) := by rw [← y2, a4]
    have f : S * H * (Kᴴ * Y) = Kᴴ * Y * diagonal fun i => (l i : 𝕜) := by
      rw [← hL]
      simp only [Matrix.mul_assoc]
      rw [a3, e]
    refine ⟨l, Kᴴ * Y, ⟨m, charpoly_of_diag (unit y1 k4) ?_⟩, fun h => absurd h (by decide), fun _ => ⟨f, ?_⟩, fun h => absurd h (by decide)⟩
    · rw [genMat, if_neg (by decide), if_pos rfl, f]
    · rw [← hL, Matrix.conjTranspose_mul, Matrix.conjTranspose_conjTranspose]
      simp only [Matrix.mul_assoc]
      rw [a3, a1, y1]
  · have hC : (Lᴴ * S * L).IsHermitian := Matrix.isHermitian_conjTranspose_mul_mul L hS
    obtain ⟨l, Y, ⟨m, -⟩, y1, y2⟩ := exists_ev hC
    simp only [Matrix.mul_assoc] at y2
    have f : H * S * (L * Y) = L * Y * diagonal fun i => (l i : 𝕜) := by
      rw [← hL]
      simp only [Matrix.mul_assoc]
      rw [y2]
    refine ⟨l, L * Y, ⟨m, charpoly_of_diag (unit y1 k2) ?_⟩, fun h => absurd h (by decide), fun h => absurd h (by decide), fun _ => ⟨f, ?_⟩⟩
    · rw [genMat, if_neg (by decide), if_neg (by decide), f]
    · rw [hinv, Matrix.conjTranspose_mul]
      simp only [Matrix.mul_assoc]
      rw [a1, a3, y1]

open Classical in
/-- Arithmetic that meets the documentation exists. -/
noncomputable def eigLib (𝕜 : Type) [RCLike 𝕜] : LapackEig 𝕜 ℝ where
  ev _ _ u _ A := if h : (mirror true u A).IsHermitian then .ok ((exists_ev h).choose_spec.choose, (exists_ev h).choose) else .error 1
  gv _ t _ u _ A B := if h : (t = 1 ∨ t = 2 ∨ t = 3) ∧ (mirror true u A).IsHermitian ∧ (mirror true u B).PosDef then
      .ok ((exists_gv h.2.1 h.2.2 t h.1).choose_spec.choose, (exists_gv h.2.1 h.2.2 t h.1).choose, B) else .error 1

theorem eig_ev (𝕜 : Type) [RCLike 𝕜] : EvDoc (eigLib 𝕜).ev ∧
    ∀ dc v u n A (S : Matrix (Fin n) (Fin n) 𝕜), SameTriangle u A S → S.IsHermitian → ∃ r, (eigLib 𝕜).ev dc v u n A = .ok r := by
  have key : ∀ dc v u n A (S : Matrix (Fin n) (Fin n) 𝕜), SameTriangle u A S → S.IsHermitian →
      ∃ F l, (eigLib 𝕜).ev dc v u n A = .ok (F, l) ∧ IsEigvals S l ∧ IsEigvecs S l F := by
    intro dc v u n A S hs hS
    obtain rfl : mirror true u A = S := mirror_eq hs hS
    exact ⟨_, _, dif_pos hS, (exists_ev hS).choose_spec.choose_spec⟩
  refine ⟨⟨fun dc v u n A S F w hs hS h => ?_, fun dc u n A S F w hs hS h => ?_⟩, fun dc v u n A S hs hS => ?_⟩
  · obtain ⟨F', w', h1, h2, -⟩ := key dc v u n A S hs hS
    obtain ⟨rfl, rfl⟩ : F' = F ∧ w' = w := by rw [h1] at h; simpa using h
    exact h2
  · obtain ⟨F', w', h1, -, h2⟩ := key dc true u n A S hs hS
    obtain ⟨rfl, rfl⟩ : F' = F ∧ w' = w := by rw [h1] at h; simpa using h
    exact h2
  · obtain ⟨F', w', h1, -⟩ := key dc v u n A S hs hS
    exact ⟨_, h1⟩

theorem eig_gv (𝕜 : Type) [RCLike 𝕜] : GvDoc (eigLib 𝕜).gv ∧
    ∀ dc t v u n A (S : Matrix (Fin n) (Fin n) 𝕜) B H, t = 1 ∨ t = 2 ∨ t = 3 → SameTriangle u A S → S.IsHermitian → SameTriangle u B H → H.PosDef →
      ∃ r, (eigLib 𝕜).gv dc t v u n A B = .ok r := by
  have key : ∀ dc t v u n A (S : Matrix (Fin n) (Fin n) 𝕜) B H, t = 1 ∨ t = 2 ∨ t = 3 → SameTriangle u A S → S.IsHermitian → SameTriangle u B H → H.PosDef →
      ∃ F l, (eigLib 𝕜).gv dc t v u n A B = .ok (F, l, B) ∧ IsEigvals (genMat t S H) l ∧ IsGenEigvecs t S H l F := by
    intro dc t v u n A S B H ht hs hS hs' hH
    obtain rfl : mirror true u A = S := mirror_eq hs hS
    obtain rfl : mirror true u B = H := mirror_eq hs' hH.isHermitian
    exact ⟨_, _, dif_pos ⟨ht, hS, hH⟩, (exists_gv hS hH t ht).choose_spec.choose_spec⟩
  refine ⟨⟨fun dc t v u n A S B H F w G ht hs hS hs' hH h => ?_, fun dc t u n A S B H F w G ht hs hS hs' hH h => ?_,
    fun dc t v u n A S B H ht hs hS hs' hH hp => ⟨1, by omega, ?_⟩⟩, fun dc t v u n A S B H ht hs hS hs' hH => ?_⟩
  · obtain ⟨F', w', h1, h2, -⟩ := key dc t v u n A S B H ht hs hS hs' hH
    obtain ⟨rfl, rfl, rfl⟩ : F' = F ∧ w' = w ∧ B = G := by rw [h1] at h; simpa using h
    exact h2
  · obtain ⟨F', w', h1, -, h2⟩ := key dc t true u n A S B H ht hs hS hs' hH
    obtain ⟨rfl, rfl, rfl⟩ : F' = F ∧ w' = w ∧ B = G := by rw [h1] at h; simpa using h
    exact h2
  · obtain rfl : mirror true u B = H := mirror_eq hs' hH
    exact dif_neg fun h => hp h.2.2
  · obtain ⟨F', w', h1, -⟩ := key dc t v u n A S B H ht hs hS hs' hH
    exact ⟨_, h1⟩

/-! ## Cases that meet the hypotheses -/

theorem symS_self : (!![2, -Complex.I; Complex.I, 2] : Matrix (Fin 2) (Fin 2) ℂ).IsHermitian := symH_pos.isHermitian
theorem symB_herm : (!![0, 1; 1, 0] : Matrix (Fin 2) (Fin 2) ℝ).IsHermitian := symB_self true

/-- A positive definite matrix given by its lower triangle, stored by columns, and an indefinite one. -/
noncomputable def eigB : Tensor ℂ := ⟨[9, 2, Complex.I, 5, 2], ⟨[⟨2, 1⟩, ⟨2, 2⟩], 1⟩⟩
noncomputable def eigA : Tensor ℂ := ⟨[0, 1, 1, 0], ⟨[⟨2, 2⟩, ⟨2, 1⟩], 0⟩⟩
theorem eigB_wf : eigB.WF ∧ eigA.WF := ⟨⟨by decide, rfl⟩, ⟨by decide, rfl⟩⟩
theorem eigB_mat : eigB.arr.IsMat !![2, 5; Complex.I, 2] ∧ eigA.arr.IsMat !![0, 1; 1, 0] := by
  refine ⟨⟨rfl, fun i j => ?_⟩, ⟨rfl, fun i j => ?_⟩⟩ <;> fin_cases i <;> fin_cases j <;> rfl
theorem eigB_tri : SameTriangle .L !![2, 5; Complex.I, 2] !![2, -Complex.I; Complex.I, 2] := by
  intro i j h
  fin_cases i <;> fin_cases j <;> first | rfl | exact absurd h (by decide)
theorem eigA_herm : (!![0, 1; 1, 0] : Matrix (Fin 2) (Fin 2) ℂ).IsHermitian := by
  ext i j; fin_cases i <;> fin_cases j <;> simp
theorem eigA_indefinite : ¬ (!![0, 1; 1, 0] : Matrix (Fin 2) (Fin 2) ℂ).PosDef := fun h => by
  have := h.diag_pos (i := 0)
  simp at this

example := C76_eigh_partial (eigLib ℂ) (eig_ev ℂ).1 .C none .L rfl symA symA_ok two_ne_zero _ _ symA_mat symA_tri symS_self
  ((eig_ev ℂ).2 _ _ _ _ _ _ symA_tri symS_self)
example := C76_eigvalsh_partial (eigLib ℂ) (eig_ev ℂ).1 .F (some .L) .L rfl symA symA_ok two_ne_zero _ _ symA_mat symA_tri symS_self
  ((eig_ev ℂ).2 _ _ _ _ _ _ symA_tri symS_self)
example := (C76_args_partial (eigLib ℂ) (eig_ev ℂ).1 .C { a := symA, driver := some "ev" } rfl .L rfl symA_ok false (.inl ⟨rfl, rfl⟩) two_ne_zero _ _
  symA_mat symA_tri symS_self ((eig_ev ℂ).2 _ _ _ _ _ _ symA_tri symS_self)).1 rfl
example := C76_fail_partial (⟨fun _ _ _ _ _ => .error 3, (eigLib ℝ).gv⟩ : LapackEig ℝ ℝ) .F none .U rfl symB symB_ok.1 two_ne_zero _ symB_mat.1 3
example := C76_reject_partial (eigLib ℝ) .C none ⟨⟨[1, 2, 3, 4, 5, 6], ⟨[⟨2, 3⟩, ⟨3, 1⟩], 0⟩⟩, true⟩ ⟨⟨by decide, rfl⟩, fun _ => by decide⟩
  (.inr ⟨2, 3, rfl, by decide⟩)
example := C76_driver (eigLib ℝ) .C { a := symB, driver := some "evr" } "evr" rfl (.inl ⟨rfl, by decide, by decide⟩)

example (t : Int) (ht : t = 1 ∨ t = 2 ∨ t = 3) := C77_eigh_partial (eigLib ℂ) (eig_gv ℂ).1 .C none .L rfl eigA eigB eigB_wf.2 eigB_wf.1 two_ne_zero _ _ _ _
  eigB_mat.2 eigB_mat.1 (fun _ _ _ => rfl) eigA_herm eigB_tri symH_pos t ht
  ((eig_gv ℂ).2 _ _ _ _ _ _ _ _ _ ht (fun _ _ _ => rfl) eigA_herm eigB_tri symH_pos)
example (t : Int) (ht : t = 1 ∨ t = 2 ∨ t = 3) := C77_eigvalsh_partial (eigLib ℂ) (eig_gv ℂ).1 .F (some .L) .L rfl eigA eigB eigB_wf.2 eigB_wf.1 two_ne_zero
  _ _ _ _ eigB_mat.2 eigB_mat.1 (fun _ _ _ => rfl) eigA_herm eigB_tri symH_pos t ht
  ((eig_gv ℂ).2 _ _ _ _ _ _ _ _ _ ht (fun _ _ _ => rfl) eigA_herm eigB_tri symH_pos)
example := (C77_args_partial (eigLib ℂ) (eig_gv ℂ).1 .C { a := symA, b := some ⟨eigB, true⟩, eigType := 2, driver := some "gv" } ⟨eigB, true⟩ rfl .L rfl symA_ok
  ⟨eigB_wf.1, fun _ => by decide⟩ false (.inl ⟨rfl, rfl⟩) two_ne_zero _ _ _ _ symA_mat eigB_mat.1 symA_tri symS_self eigB_tri symH_pos (.inr (.inl rfl))
  ((eig_gv ℂ).2 _ _ _ _ _ _ _ _ _ (.inr (.inl rfl)) symA_tri symS_self eigB_tri symH_pos)).1 rfl
example := C77_indefinite_partial (eigLib ℂ) (eig_gv ℂ).1 .F (some .L) .L rfl eigB eigA eigB_wf.1 eigB_wf.2 two_ne_zero _ _ _ _ eigB_mat.1 eigB_mat.2
  eigB_tri symS_self (fun _ _ _ => rfl) eigA_herm eigA_indefinite 3 (by decide)
example := C77_reject_partial (eigLib ℂ) .F none eigA eigB eigB_wf.2 eigB_wf.1 4 (.inr (.inr (.inl (by decide))))

/-! ## A part of the eigenvalues -/

/-- The fields that ask for a part of the eigenvalues have no effect. -/
theorem subset_ignored (lib : LapackEig α ρ) (dflt : Order) (x : EighArgs α ρ) (i : Option (Nat × Nat)) (v : Option (ρ × ρ)) :
    eighArgs lib dflt { x with subsetByIndex := i, subsetByValue := v } = eighArgs lib dflt x ∧
    eigvalshArgs lib dflt { x with subsetByIndex := i, subsetByValue := v } = eigvalshArgs lib dflt x := ⟨rfl, rfl⟩

/-- Asked for the first one of two eigenvalues, or for those between two bounds, `eigh` gives both. -/
theorem C76_false_subset (bounds : ℝ × ℝ) : ∃ x y : EighArgs ℂ ℝ, x.a = symA ∧ x.subsetByIndex = some (0, 0) ∧ y.a = symA ∧ y.subsetByValue = some bounds ∧
    (∃ w v, eighArgs (eigLib ℂ) .C x = .ok (w, v) ∧ w.arr.shape = [2]) ∧ ∃ w v, eighArgs (eigLib ℂ) .C y = .ok (w, v) ∧ w.arr.shape = [2] := by
  obtain ⟨-, w, v, l, V, h1, -, h2, -⟩ := (C76_args_partial (eigLib ℂ) (eig_ev ℂ).1 .C { a := symA } rfl .L rfl symA_ok true
    (.inr ⟨.inl rfl, rfl⟩) two_ne_zero _ _ symA_mat symA_tri symS_self ((eig_ev ℂ).2 _ _ _ _ _ _ symA_tri symS_self)).1 rfl
  exact ⟨{ a := symA, subsetByIndex := some (0, 0) }, { a := symA, subsetByValue := some bounds }, rfl, rfl, rfl, rfl,
    ⟨w, v, (subset_ignored ..).1.trans h1, h2.1⟩, ⟨w, v, (subset_ignored ..).1.trans h1, h2.1⟩⟩

end
end Rstsr
