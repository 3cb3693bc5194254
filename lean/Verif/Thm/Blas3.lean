import Verif.Proof.Blas3
import Verif.Thm.LinalgSym
import Mathlib.LinearAlgebra.Matrix.Block
import Mathlib.LinearAlgebra.Matrix.NonsingularInverse
/-!
# C73: triangular systems
-/
namespace Rstsr
open Spec

section
variable {α : Type}

/-! ## Triangles -/

theorem inTriangle_flip {n : Nat} (u : UpLo) (i j : Fin n) : InTriangle (flipUpLo u) i j ↔ InTriangle u j i := by cases u <;> exact Iff.rfl

theorem triPart_transpose [Zero α] [One α] (u : UpLo) (d : Diag) {n : Nat} (A : Matrix (Fin n) (Fin n) α) :
    triPart (flipUpLo u) d A.transpose = (triPart u d A).transpose := by
  ext i j
  simp only [triPart, Matrix.of_apply, Matrix.transpose_apply, inTriangle_flip]
  by_cases h : i = j
  · subst h; simp
  · rw [if_neg h, if_neg (Ne.symm h)]

theorem triPart_conj [Ring α] [StarRing α] (u : UpLo) (d : Diag) {n : Nat} (A : Matrix (Fin n) (Fin n) α) :
    triPart (flipUpLo u) d A.conjTranspose = (triPart u d A).conjTranspose := by
  ext i j
  simp only [triPart, Matrix.of_apply, Matrix.conjTranspose_apply, inTriangle_flip]
  by_cases h : i = j
  · subst h; cases d <;> simp
  · rw [if_neg h, if_neg (Ne.symm h)]
    split <;> simp

theorem sq_transpose [Star α] (t : Trans) {n : Nat} (A : Matrix (Fin n) (Fin n) α) : t.sq A.transpose = (t.sq A).transpose := by
  cases t <;> rfl

theorem flip_flip (u : UpLo) : flipUpLo (flipUpLo u) = u := by cases u <;> rfl

/-- Turning the matrix, its flag and its triangle leaves what is meant. -/
theorem Turned.tri [Ring α] [StarRing α] {t t' : Trans} {n : Nat} {A A' : Matrix (Fin n) (Fin n) α} (h : Turned t t' A A') (u : UpLo) (d : Diag) :
    t'.sq (triPart (flipUpLo u) d A') = t.sq (triPart u d A) ∧
      ((∀ i, triPart u d A i i ≠ 0) → ∀ i, triPart (flipUpLo u) d A' i i ≠ 0) := by
  cases t <;> obtain ⟨rfl, rfl⟩ := h
  · rw [triPart_transpose]; exact ⟨rfl, fun h => h⟩
  · rw [triPart_transpose]; exact ⟨rfl, fun h => h⟩
  · rw [triPart_conj]; exact ⟨rfl, fun h i h0 => h i (by simpa using h0)⟩

/-! ## The builder -/

theorem dim_ne {m n : Nat} (hm : m ≠ 0) (hn : n ≠ 0) (s : Side) : s.dim m n ≠ 0 := by cases s <;> assumption

theorem trsmInternal_ok (lib : Blas3 α) (dflt : Order) (alpha : α) (s : Side) (u : UpLo) (t : Trans) (d : Diag) {a : Tensor α} {b : TRef α} (ha : a.WF)
    (hb : b.Ok) {m n : Nat} (hm : m ≠ 0) (hn : n ≠ 0) {A : Matrix (Fin (s.dim m n)) (Fin (s.dim m n)) α} {B : Matrix (Fin m) (Fin n) α}
    (hA : a.arr.IsMat A) (hB : b.t.arr.IsMat B) (hp : a.layout.fPrefer = true) (h0 : a.layout.offset = 0)
    (hs : b.mutable = true → b.t.layout.fPrefer = true → Seq2 .F m n b.t.layout) :
    ∃ x, trsmInternal lib dflt alpha s u t d a b = .ok x ∧ Leaves b x (lib.trsm s u t d m n alpha A B) ∧ x.cloneToMut dflt = .ok x := by
  have hk := dim_ne hm hn s
  obtain ⟨lda, l1, l2, l3⟩ := lead_io ha hA hk hk hp h0
  obtain ⟨y, y1, y2, y3⟩ := convertSeq_ok dflt hb hB hm hn hs
  obtain ⟨i1, i2⟩ := seq_io y2.wf y2.mat hm y3
  obtain ⟨w1, w2, w3⟩ := i2 (lib.trsm s u t d m n alpha A B)
  obtain ⟨x, x1, x2, x3⟩ := finish_ok dflt hb y2 hB.1 w1 w2 w3
  refine ⟨x, ?_, x2, x3⟩
  obtain ⟨d0, d1⟩ := dimAt2 (show b.t.layout.shape = [m, n] from hB.1)
  have hsa : a.layout.shape = [s.dim m n, s.dim m n] := hA.1
  unfold trsmInternal
  generalize b.t.layout.dimAt 0 = m' at d0 ⊢
  generalize b.t.layout.dimAt 1 = n' at d1 ⊢
  subst d0 d1
  simp only [hp, Bool.not_true, Bool.false_eq_true, if_false, l1, ok_bind, hsa, ne_eq, not_true_eq_false, y1, blasLd_ok l2,
    blasLd_ok (show (max 1 m' : Int) ≤ m' by omega), l3, i1]
  exact x1

theorem trsmInternal_reject (lib : Blas3 α) (dflt : Order) (alpha : α) (s : Side) (u : UpLo) (t : Trans) (d : Diag) {a : Tensor α} {b : TRef α} 
    {r c m n : Nat} {A : Matrix (Fin r) (Fin c) α} {B : Matrix (Fin m) (Fin n) α}
    (hA : a.arr.IsMat A) (hB : b.t.arr.IsMat B) (hp : a.layout.fPrefer = true) (h : [r, c] ≠ [s.dim m n, s.dim m n]) :
    trsmInternal lib dflt alpha s u t d a b = .error .invalidLayout := by
  obtain ⟨lda, l1⟩ : ∃ lda, ldUnwrap a.layout .F = .ok lda := by
    simp only [ldUnwrap, Layout.ld, hp]
    by_cases e : a.layout.dimAt 1 = 1 <;> simp [e]
  obtain ⟨d0, d1⟩ := dimAt2 (show b.t.layout.shape = [m, n] from hB.1)
  have hsa : a.layout.shape = [r, c] := hA.1
  unfold trsmInternal
  simp only [hp, Bool.not_true, Bool.false_eq_true, if_false, d0, d1, l1, ok_bind, hsa, ne_eq, h, not_false_eq_true, if_true]

/-- The storage of an argument that is overwritten starts with the first element and has no gaps, or a copy is worked on. -/
def Gapless (l : Layout) : Prop := (∃ o, InSequence o l.stride l.offset l.shape) ∨ ¬ (l.fPrefer || l.cPrefer) = true

theorem Gapless.seq {l : Layout} (h : Gapless l) {m n : Nat} (hm : m ≠ 0) (hn : n ≠ 0) (hs : l.shape = [m, n]) (o : Order) (hp : Prefers o l) : Seq2 o m n l := by
  rcases h with ⟨o', h⟩ | h
  · exact seq_prefers hs hm hn (seq2_of hs h) hp
  · exact absurd (by cases o; exacts [by rw [show l.cPrefer = true from hp]; simp, by rw [show l.fPrefer = true from hp]; simp]) h

/-- Both orders of storage and both sides. -/
theorem trsm_orders [Field α] [StarRing α] (lib : Blas3 α) (hl : TrsmDoc lib.trsm) (dflt : Order) (alpha : α) (o : Order) (s : Side) (u : UpLo) (t : Trans) (d : Diag)
    {a : Tensor α} {b : TRef α} (ha : a.WF) (hb : b.Ok) {m n : Nat} (hm : m ≠ 0) (hn : n ≠ 0) {A : Matrix (Fin (s.dim m n)) (Fin (s.dim m n)) α}
    {B : Matrix (Fin m) (Fin n) α} (hA : a.arr.IsMat A) (hB : b.t.arr.IsMat B) (hp : Prefers o a.layout) (h0 : a.layout.offset = 0)
    (hs : b.mutable = true → Gapless b.t.layout) (hd : ∀ i, triPart u d A i i ≠ 0) :
    ∃ x X, (match o with
        | .F => trsmInternal lib dflt alpha s u t d a b
        | .C => do
          let x ← trsmInternal lib dflt alpha (flipSide s) (flipUpLo u) t d a.flipped b.flipped
          return x.flipped) = .ok x ∧ Leaves b x X ∧ x.cloneToMut dflt = .ok x ∧ SolvesTri t alpha s (triPart u d A) B X := by
  have hsb : b.t.layout.shape = [m, n] := hB.1
  cases o with
  | F =>
    obtain ⟨x, x1, x2, x3⟩ := trsmInternal_ok lib dflt alpha s u t d ha hb hm hn hA hB hp h0 fun hm' h => (hs hm').seq hm hn hsb .F h
    exact ⟨x, _, x1, x2, x3, hl s u t d m n alpha A B hd⟩
  | C =>
    have hq : a.flipped.layout.fPrefer = true := by
      show a.layout.reverseAxes.fPrefer = true
      rw [← cPrefer_rev]; exact hp
    have hseq : b.flipped.mutable = true → b.flipped.t.layout.fPrefer = true → Seq2 .F n m b.flipped.t.layout := fun hm' h => by
      have h : b.t.layout.reverseAxes.fPrefer = true := h
      rw [← cPrefer_rev] at h
      exact flipped_seq hsb ((hs hm').seq hm hn hsb .C h)
    have hunflip : ∀ {x : Mutable α} {X : Matrix (Fin n) (Fin m) α}, Leaves b.flipped x X → x.cloneToMut dflt = .ok x →
        x.flipped.cloneToMut dflt = .ok x.flipped := fun {x X} h h' => by
      by_cases hm' : b.mutable = true
      · obtain ⟨d, rfl, -⟩ := h.shared hm'; rfl
      · have hf : b.mutable = false := by simpa using hm'
        obtain ⟨d, rfl⟩ := h.owned hf; rfl
    cases s with
    | L =>
      obtain ⟨A, rfl⟩ : ∃ A' : Matrix (Fin m) (Fin m) α, A' = A := ⟨A, rfl⟩
      have hd' : ∀ i, triPart (flipUpLo u) d A.transpose i i ≠ 0 := by rw [triPart_transpose]; exact hd
      obtain ⟨x, x1, x2, x3⟩ := trsmInternal_ok lib dflt alpha .R (flipUpLo u) t d (flipped_wf ha) (flipped_ok hb) hn hm (A := A.transpose)
        (flipped_mat ha hA) (flipped_mat hb.wf hB) hq h0 hseq
      refine ⟨x.flipped, _, ?_, x2.unflip, hunflip x2 x3, ?_⟩
      · show (do
          let x ← trsmInternal lib dflt alpha .R (flipUpLo u) t d a.flipped b.flipped
          return x.flipped) = _
        rw [x1]; rfl
      · have this : _ * t.sq (n := m) (triPart (n := m) (flipUpLo u) d A.transpose) = alpha • B.transpose :=
          hl .R (flipUpLo u) t d n m alpha A.transpose B.transpose hd'
        show t.sq (n := m) (triPart u d A) * _ = alpha • B
        rw [triPart_transpose, sq_transpose] at this
        have e := congrArg Matrix.transpose this
        rw [Matrix.transpose_mul, Matrix.transpose_transpose, Matrix.transpose_smul, Matrix.transpose_transpose] at e
        exact e
    | R =>
      obtain ⟨A, rfl⟩ : ∃ A' : Matrix (Fin n) (Fin n) α, A' = A := ⟨A, rfl⟩
      have hd' : ∀ i, triPart (flipUpLo u) d A.transpose i i ≠ 0 := by rw [triPart_transpose]; exact hd
      obtain ⟨x, x1, x2, x3⟩ := trsmInternal_ok lib dflt alpha .L (flipUpLo u) t d (flipped_wf ha) (flipped_ok hb) hn hm (A := A.transpose)
        (flipped_mat ha hA) (flipped_mat hb.wf hB) hq h0 hseq
      refine ⟨x.flipped, _, ?_, x2.unflip, hunflip x2 x3, ?_⟩
      · show (do
          let x ← trsmInternal lib dflt alpha .L (flipUpLo u) t d a.flipped b.flipped
          return x.flipped) = _
        rw [x1]; rfl
      · have this : t.sq (n := n) (triPart (n := n) (flipUpLo u) d A.transpose) * _ = alpha • B.transpose :=
          hl .L (flipUpLo u) t d n m alpha A.transpose B.transpose hd'
        show _ * t.sq (n := n) (triPart u d A) = alpha • B
        rw [triPart_transpose, sq_transpose] at this
        have e := congrArg Matrix.transpose this
        rw [Matrix.transpose_mul, Matrix.transpose_transpose, Matrix.transpose_smul, Matrix.transpose_transpose] at e
        exact e

theorem solvesTri_congr [Field α] [Star α] {t t' : Trans} {alpha : α} {s : Side} {m n : Nat} {T T' : Matrix (Fin (s.dim m n)) (Fin (s.dim m n)) α}
    {B X : Matrix (Fin m) (Fin n) α} (h : t'.sq T' = t.sq T) (hx : SolvesTri t' alpha s T' B X) : SolvesTri t alpha s T B X := by
  cases s with
  | L =>
    have h : t'.sq (n := m) T' = t.sq (n := m) T := h
    have hx : t'.sq (n := m) T' * X = alpha • B := hx
    show t.sq (n := m) T * X = alpha • B
    rw [← h]; exact hx
  | R =>
    have h : t'.sq (n := n) T' = t.sq (n := n) T := h
    have hx : X * t'.sq (n := n) T' = alpha • B := hx
    show X * t.sq (n := n) T = alpha • B
    rw [← h]; exact hx

theorem trsmRun_eq [Star α] (lib : Blas3 α) (dflt : Order) (alpha : α) (s : Side) (uplo : Option UpLo) (t : Trans) (d : Diag) (order : Option Order)
    (a : Tensor α) (b : TRef α) : ∃ o, trsmRun lib dflt alpha s uplo t d order a b = (do
      let (t', a') ← flipTrans dflt o t a
      match o with
        | .F => trsmInternal lib dflt alpha s (if t' ≠ t then flipUpLo (uploOr dflt uplo) else uploOr dflt uplo) t' d a' b
        | .C => do
          let x ← trsmInternal lib dflt alpha (flipSide s) (flipUpLo (if t' ≠ t then flipUpLo (uploOr dflt uplo) else uploOr dflt uplo)) t' d a'.flipped b.flipped
          return x.flipped) := by
  unfold trsmRun
  generalize outputOrder [] dflt [order.map orderFlags, some (prefFlags b.t.layout)] = o
  exact ⟨o, by cases o <;> rfl⟩

theorem trsmRun_ok [Field α] [StarRing α] (lib : Blas3 α) (hl : TrsmDoc lib.trsm) (dflt : Order) (alpha : α) (s : Side) (uplo : Option UpLo)
    (t : Trans) (d : Diag) (order : Option Order) {a : Tensor α} {b : TRef α} (ha : a.WF) (hb : b.Ok) {m n : Nat} (hm : m ≠ 0) (hn : n ≠ 0)
    {A : Matrix (Fin (s.dim m n)) (Fin (s.dim m n)) α} {B : Matrix (Fin m) (Fin n) α} (hA : a.arr.IsMat A) (hB : b.t.arr.IsMat B)
    (h0 : AtStart a.layout) (hs : b.mutable = true → Gapless b.t.layout) (hd : ∀ i, triPart (uploOr dflt uplo) d A i i ≠ 0) :
    ∃ x X, trsmRun lib dflt alpha s uplo t d order a b = .ok x ∧ Leaves b x X ∧ x.cloneToMut dflt = .ok x ∧
      SolvesTri t alpha s (triPart (uploOr dflt uplo) d A) B X := by
  have hk := dim_ne hm hn s
  obtain ⟨o, e⟩ := trsmRun_eq lib dflt alpha s uplo t d order a b
  rw [e]
  rcases flipTrans_ok dflt o t ha hA with ⟨a', f1, f2, f3, f4, f5⟩ | ⟨t', a', A', f1, f2, f3, f4, f5, f6⟩
  · obtain ⟨x, X, x1, x2⟩ := trsm_orders lib hl dflt alpha o s (uploOr dflt uplo) t d f2 hb hm hn f3 hB f4 (f5 h0) hs hd
    refine ⟨x, X, ?_, x2⟩
    simp only [f1, ok_bind, ne_eq, not_true_eq_false, if_false]
    exact x1
  · obtain ⟨g1, g2⟩ := f6.tri (uploOr dflt uplo) d
    obtain ⟨x, X, x1, x2, x3, x4⟩ := trsm_orders lib hl dflt alpha o s (flipUpLo (uploOr dflt uplo)) t' d f2 hb hm hn f3 hB f4 (f5 h0) hs (g2 hd)
    refine ⟨x, X, ?_, x2, x3, solvesTri_congr g1 x4⟩
    simp only [f1, ok_bind, ne_eq, f6.ne, not_false_eq_true, if_true]
    exact x1

theorem trsmRun_reject [Star α] (lib : Blas3 α) (dflt : Order) (alpha : α) (s : Side) (uplo : Option UpLo)
    (t : Trans) (d : Diag) (order : Option Order) {a : Tensor α} {b : TRef α} (ha : a.WF) (hb : b.Ok) {r c m n : Nat}
    {A : Matrix (Fin r) (Fin c) α} {B : Matrix (Fin m) (Fin n) α} (hA : a.arr.IsMat A) (hB : b.t.arr.IsMat B)
    (h : [r, c] ≠ [s.dim m n, s.dim m n]) : trsmRun lib dflt alpha s uplo t d order a b = .error .invalidLayout := by
  have h' : [c, r] ≠ [s.dim m n, s.dim m n] := fun e => h (by simp only [List.cons.injEq, and_true] at e ⊢; omega)
  have key : ∀ (o : Order) (u : UpLo) (t' : Trans) {r c : Nat} {a' : Tensor α} {A' : Matrix (Fin r) (Fin c) α}, a'.WF → a'.arr.IsMat A' →
      Prefers o a'.layout → [r, c] ≠ [s.dim m n, s.dim m n] → [c, r] ≠ [s.dim m n, s.dim m n] → (match o with
        | .F => trsmInternal lib dflt alpha s u t' d a' b
        | .C => do
          let x ← trsmInternal lib dflt alpha (flipSide s) (flipUpLo u) t' d a'.flipped b.flipped
          return x.flipped) = .error .invalidLayout := by
    intro o u t' r c a' A' w1 w2 w3 h h'
    cases o with
    | F => exact trsmInternal_reject lib dflt alpha s u t' d w2 hB w3 h
    | C =>
      have hq : a'.flipped.layout.fPrefer = true := by
        show a'.layout.reverseAxes.fPrefer = true
        rw [← cPrefer_rev]; exact w3
      have e : (flipSide s).dim n m = s.dim m n := by cases s <;> rfl
      show (do
        let x ← trsmInternal lib dflt alpha (flipSide s) (flipUpLo u) t' d a'.flipped b.flipped
        return x.flipped) = _
      rw [trsmInternal_reject lib dflt alpha (flipSide s) (flipUpLo u) t' d (flipped_mat w1 w2) (b := b.flipped)
        (flipped_mat hb.wf hB) hq (by rw [e]; exact h')]
      rfl
  obtain ⟨o, e⟩ := trsmRun_eq lib dflt alpha s uplo t d order a b
  rw [e]
  rcases flipTrans_ok dflt o t ha hA with ⟨a', f1, f2, f3, f4, f5⟩ | ⟨t', a', A', f1, f2, f3, f4, f5, f6⟩
  · rw [f1]
    exact key o _ t f2 f3 f4 h h'
  · rw [f1]
    exact key o _ t' f2 f3 f4 h' h

/-! ## The property -/

theorem atStart_of {l : Layout} {m n : Nat} (hm : m ≠ 0) (hn : n ≠ 0) (hs : l.shape = [m, n]) (h : l.offset = 0 ∨ (m ≠ 1 ∧ n ≠ 1 ∧ (1 : Int) ∉ l.stride)) :
    AtStart l := by
  refine h.imp id fun ⟨h1, h2, h3⟩ => ?_
  obtain ⟨s0, s1, e⟩ := axes2 hs
  have h3 : (1 : Int) ≠ s0 ∧ (1 : Int) ≠ s1 := by simpa [Layout.stride, e] using h3
  rw [Bool.or_eq_true, cPrefer_rev, fPrefer2 e hm hn, fPrefer2 (rev2 e) hn hm]
  rintro (⟨h, -⟩ | ⟨h, -⟩)
  · exact h3.1 (h h1).symm
  · exact h3.2 (h h2).symm

theorem gapless_of {l : Layout} {m n : Nat} (hm : m ≠ 0) (hn : n ≠ 0) (hs : l.shape = [m, n])
    (h : (∃ o, InSequence o l.stride l.offset l.shape) ∨ (m ≠ 1 ∧ n ≠ 1 ∧ (1 : Int) ∉ l.stride)) : Gapless l := by
  refine h.imp id fun h => ?_
  rcases atStart_of (l := ⟨l.axes, 1⟩) hm hn hs (.inr h) with h | h
  · cases h
  · exact h

/-- The builder `TRSM`: `op(T) X = α B` or `X op(T) = α B` with the triangular matrix `T` that is stored in a triangle of `A`, with every
combination of its options. Missing: `A` in a window of a matrix whose storage starts elsewhere; a mutable `B` in such a window or in a
matrix with padded rows (`C73_false_*`); matrices without elements; conjugation without transposition. -/
theorem C73_builder_partial [Field α] [StarRing α] (lib : Blas3 α) (hl : TrsmDoc lib.trsm) (dflt : Order) (alpha : α) (s : Side) (uplo : Option UpLo)
    (u : UpLo) (hu : u = match uplo, dflt with | some u, _ => u | none, .C => .L | none, .F => .U)
    (t : Trans) (d : Diag) (order : Option Order) (a : Tensor α) (b : TRef α) (ha : a.WF) (hb : b.Ok) {m n : Nat} (hm : m ≠ 0) (hn : n ≠ 0)
    (A : Matrix (Fin (s.dim m n)) (Fin (s.dim m n)) α) (B : Matrix (Fin m) (Fin n) α) (hA : a.arr.IsMat A) (hB : b.t.arr.IsMat B)
    (h0 : a.layout.offset = 0 ∨ (s.dim m n ≠ 1 ∧ (1 : Int) ∉ a.layout.stride))
    (hs : b.mutable = true → (∃ o, InSequence o b.t.layout.stride b.t.layout.offset b.t.layout.shape) ∨ (m ≠ 1 ∧ n ≠ 1 ∧ (1 : Int) ∉ b.t.layout.stride))
    (hd : ∀ i, triPart u d A i i ≠ 0) :
    ∃ x X, trsmRun lib dflt alpha s uplo t d order a b = .ok x ∧ x.view.WF ∧ x.view.arr.IsMat X ∧ SolvesTri t alpha s (triPart u d A) B X ∧
      ResultIn b x.view := by
  have hu := hu.trans (uploOr_eq dflt uplo).symm
  subst hu
  have hk := dim_ne hm hn s
  obtain ⟨x, X, x1, x2, x3, x4⟩ := trsmRun_ok lib hl dflt alpha s uplo t d order ha hb hm hn hA hB
    (atStart_of hk hk hA.1 (h0.imp id fun h => ⟨h.1, h.1, h.2⟩)) (fun h => gapless_of hm hn hB.1 (hs h)) hd
  refine ⟨x, X, x1, x2.wf, x2.mat, x4, fun h => ?_, fun h => ?_⟩
  · obtain ⟨d, rfl, -⟩ := x2.shared h; rfl
  · obtain ⟨d, rfl, h⟩ := x2.shared h; exact h

theorem refSolveTriangular_ok [Field α] [StarRing α] (lib : Blas3 α) (hl : TrsmDoc lib.trsm) (dflt : Order) (uplo : Option UpLo)
    {a b : TRef α} (ha : a.t.WF) (hb : b.Ok) {n m : Nat} (hn : n ≠ 0) (hm : m ≠ 0)
    {A : Matrix (Fin n) (Fin n) α} {B : Matrix (Fin n) (Fin m) α} (hA : a.t.arr.IsMat A) (hB : b.t.arr.IsMat B)
    (h0 : AtStart a.t.layout) (hs : b.mutable = true → Gapless b.t.layout) (hd : ∀ i, A i i ≠ 0) :
    ∃ x X, refSolveTriangular lib dflt uplo a b = .ok (a.t, x) ∧ Leaves b x X ∧ x.cloneToMut dflt = .ok x ∧
      triPart (uploOr dflt uplo) .nonUnit A * X = B := by
  obtain ⟨x, X, x1, x2, x3, x4⟩ := trsmRun_ok lib hl dflt 1 .L uplo .N .nonUnit none ha hb hn hm hA hB h0 hs (fun i => by simpa [triPart] using hd i)
  refine ⟨x, X, ?_, x2, x3, ?_⟩
  · unfold refSolveTriangular
    simp only [x1, ok_bind, x3]
    rfl
  · have x4 : triPart (n := n) (uploOr dflt uplo) .nonUnit A * X = (1 : α) • B := x4
    rw [one_smul] at x4
    exact x4

/-- Solving a triangular system with a matrix on the right: only the triangle named is read, the other elements of `A` play no part. The
first argument is left as it is. Missing: windows and padded rows (`C73_false_*`), matrices without elements. -/
theorem C73_matrix_partial [Field α] [StarRing α] (lib : Blas3 α) (hl : TrsmDoc lib.trsm) (dflt : Order) (uplo : Option UpLo)
    (u : UpLo) (hu : u = match uplo, dflt with | some u, _ => u | none, .C => .L | none, .F => .U)
    (a b : TRef α) (ha : a.t.WF) (hb : b.Ok) {n m : Nat} (hn : n ≠ 0) (hm : m ≠ 0)
    (A : Matrix (Fin n) (Fin n) α) (B : Matrix (Fin n) (Fin m) α) (hA : a.t.arr.IsMat A) (hB : b.t.arr.IsMat B)
    (h0 : a.t.layout.offset = 0 ∨ (n ≠ 1 ∧ (1 : Int) ∉ a.t.layout.stride))
    (hs : b.mutable = true → (∃ o, InSequence o b.t.layout.stride b.t.layout.offset b.t.layout.shape) ∨ (n ≠ 1 ∧ m ≠ 1 ∧ (1 : Int) ∉ b.t.layout.stride))
    (hd : ∀ i, A i i ≠ 0) :
    ∃ x X, solveTriangular lib dflt uplo a b = .ok (a.t, x) ∧ x.WF ∧ x.arr.IsMat X ∧ triPart u .nonUnit A * X = B ∧ ResultIn b x := by
  have hu := hu.trans (uploOr_eq dflt uplo).symm
  subst hu
  obtain ⟨x, X, x1, x2, x3, x4⟩ := refSolveTriangular_ok lib hl dflt uplo ha hb hn hm hA hB
    (atStart_of hn hn hA.1 (h0.imp id fun h => ⟨h.1, h.1, h.2⟩)) (fun h => gapless_of hn hm hB.1 (hs h)) hd
  obtain ⟨y, y1, y2, y3, y4⟩ := solveWith_mat dflt hA hB x1 x2 x3
  exact ⟨y, X, y1, y2, y3, x4, y4⟩

/-- The same with a vector on the right. -/
theorem C73_vector_partial [Field α] [StarRing α] (lib : Blas3 α) (hl : TrsmDoc lib.trsm) (dflt : Order) (uplo : Option UpLo)
    (u : UpLo) (hu : u = match uplo, dflt with | some u, _ => u | none, .C => .L | none, .F => .U)
    (a b : TRef α) (ha : a.t.WF) (hb : b.Ok) {n : Nat} (hn : n ≠ 0)
    (A : Matrix (Fin n) (Fin n) α) (v : Fin n → α) (hA : a.t.arr.IsMat A) (hv : b.t.arr.IsVec v)
    (h0 : a.t.layout.offset = 0 ∨ (n ≠ 1 ∧ (1 : Int) ∉ a.t.layout.stride))
    (hs : b.mutable = true → InSequence .C b.t.layout.stride b.t.layout.offset b.t.layout.shape)
    (hd : ∀ i, A i i ≠ 0) :
    ∃ x w, solveTriangular lib dflt uplo a b = .ok (a.t, x) ∧ x.WF ∧ x.arr.IsVec w ∧ (triPart u .nonUnit A).mulVec w = v ∧ ResultIn b x := by
  have hu := hu.trans (uploOr_eq dflt uplo).symm
  subst hu
  obtain ⟨c, c1, c2, c3, c4, c5, c6⟩ := column_ok b hb hv
  have hsc : c.t.layout.shape = [n, 1] := c5.1
  have hsb : b.t.layout.shape = [n] := hv.1
  have hg : c.mutable = true → Gapless c.t.layout := fun h => by
    refine .inl ⟨.C, fun idx hi => ?_⟩
    rw [hsc] at hi ⊢
    obtain ⟨i, j, rfl, h1, h2⟩ := of_inRange2 hi
    have : j = 0 := by omega
    subst this
    have := hs (c3.symm.trans h) [i] (by rw [hsb]; simpa [InRange] using h1)
    rw [hsb] at this
    refine ((c6 i h1).2.trans this).trans ?_
    simp [rank, rankC]
  obtain ⟨x, X, x1, x2, x3, x4⟩ := refSolveTriangular_ok lib hl dflt uplo ha c2 hn one_ne_zero hA c5
    (atStart_of hn hn hA.1 (h0.imp id fun h => ⟨h.1, h.1, h.2⟩)) hg hd
  obtain ⟨y, y1, y2, y3, y4⟩ := solveWith_vec dflt hb hA hv c1 c3 c4 c5.1 c6 x1 x2 x3
  exact ⟨y, _, y1, y2, y3, mulVec_of_mul x4, y4⟩

/-- Shapes that do not fit are an error. -/
theorem C73_reject [Star α] [One α] (lib : Blas3 α) (dflt : Order) (uplo : Option UpLo) (a b : TRef α) (ha : a.t.WF) (hb : b.Ok)
    (h : SolveMisfit a.t.arr.shape b.t.arr.shape) : solveTriangular lib dflt uplo a b = .error .invalidLayout := by
  refine solveWith_reject dflt ha hb ?_ h
  intro b hb r c n m A B hA hB hne
  unfold refSolveTriangular
  rw [trsmRun_reject lib dflt 1 .L uplo .N .nonUnit none ha hb hA hB hne]
  rfl

/-! ## Where the property fails -/

theorem trsmInternal_offset (lib : Blas3 α) (dflt : Order) (alpha : α) (s : Side) (u : UpLo) (t : Trans) (d : Diag) (da : List α) (ax : List Axis) (p q : Int)
    (b : TRef α) : trsmInternal lib dflt alpha s u t d ⟨da, ⟨ax, p⟩⟩ b = trsmInternal lib dflt alpha s u t d ⟨da, ⟨ax, q⟩⟩ b := rfl

/-- The offset of `a` is not taken into account. -/
theorem trsmRun_offset [Star α] (lib : Blas3 α) (dflt : Order) (alpha : α) (s : Side) (uplo : Option UpLo) (t : Trans) (d : Diag) (order : Option Order)
    (da : List α) (ax : List Axis) (p q : Int) (b : TRef α)
    (h : Prefers (outputOrder [] dflt [order.map orderFlags, some (prefFlags b.t.layout)]) ⟨ax, q⟩) :
    trsmRun lib dflt alpha s uplo t d order ⟨da, ⟨ax, p⟩⟩ b = trsmRun lib dflt alpha s uplo t d order ⟨da, ⟨ax, q⟩⟩ b := by
  unfold trsmRun
  revert h
  generalize outputOrder [] dflt [order.map orderFlags, some (prefFlags b.t.layout)] = o
  intro h
  have h1 : ∀ p, flipTrans dflt o t (⟨da, ⟨ax, p⟩⟩ : Tensor α) = .ok (t, ⟨da, ⟨ax, p⟩⟩) := fun p => by
    unfold flipTrans; rw [if_pos (prefersB_iff.2 (show Prefers o ⟨ax, p⟩ from by cases o <;> exact h))]
  cases o
  · simp only [h1, ok_bind]
    rw [show ∀ u, trsmInternal lib dflt alpha (flipSide s) u t d (⟨da, ⟨ax, p⟩⟩ : Tensor α).flipped b.flipped =
      trsmInternal lib dflt alpha (flipSide s) u t d (⟨da, ⟨ax, q⟩⟩ : Tensor α).flipped b.flipped from fun u =>
        trsmInternal_offset lib dflt alpha (flipSide s) u t d da ax.reverse p q b.flipped]
  · simp only [h1, ok_bind]
    rw [trsmInternal_offset lib dflt alpha s _ t d da ax p q b]

/-- The second of two matrices that are stored one after the other. -/
def triA : TRef ℚ := ⟨⟨[1, 0, 0, 1, 2, 0, 0, 2], ⟨[⟨2, 2⟩, ⟨2, 1⟩], 4⟩⟩, false⟩
/-- The first one. -/
def triA0 : TRef ℚ := ⟨⟨[1, 0, 0, 1, 2, 0, 0, 2], ⟨[⟨2, 2⟩, ⟨2, 1⟩], 0⟩⟩, false⟩
def triV : TRef ℚ := ⟨⟨[2, 4], ⟨[⟨2, 1⟩], 0⟩⟩, false⟩

theorem tri_ok : triA.Ok ∧ triA0.Ok ∧ triV.Ok :=
  ⟨⟨⟨by decide, rfl⟩, fun h => by simp [triA] at h⟩, ⟨⟨by decide, rfl⟩, fun h => by simp [triA0] at h⟩,
    ⟨⟨by decide, rfl⟩, fun h => by simp [triV] at h⟩⟩

theorem tri_mat : triA.t.arr.IsMat !![2, 0; 0, 2] ∧ triA0.t.arr.IsMat !![1, 0; 0, 1] ∧ triV.t.arr.IsVec ![2, 4] := by
  refine ⟨⟨rfl, ?_⟩, ⟨rfl, ?_⟩, ⟨rfl, ?_⟩⟩ <;> decide

/-- The pointer to the storage of `a` is passed on without the offset: with the second matrix of a stack the system of the first
one is solved. -/
theorem C73_false_offset (lib : Blas3 ℚ) (hl : TrsmDoc lib.trsm) : triA.Ok ∧ triV.Ok ∧
    triA.t.arr.IsMat (!![2, 0; 0, 2] : Matrix (Fin 2) (Fin 2) ℚ) ∧ triV.t.arr.IsVec (![2, 4] : Fin 2 → ℚ) ∧
    ∃ a x w, solveTriangular lib .C none triA triV = .ok (a, x) ∧ x.arr.IsVec w ∧ w = ![2, 4] ∧
      (triPart .L .nonUnit !![2, 0; 0, 2]).mulVec w ≠ ![2, 4] := by
  refine ⟨tri_ok.1, tri_ok.2.2, tri_mat.1, tri_mat.2.2, ?_⟩
  obtain ⟨c, c1, c2, c3, c4, c5, c6⟩ := column_ok triV tri_ok.2.2 tri_mat.2.2
  have hc : c = ⟨⟨[2, 4], ⟨[⟨2, 1⟩, ⟨1, 1⟩], 0⟩⟩, false⟩ := by
    have h : asColumns triV = .ok ⟨⟨[2, 4], ⟨[⟨2, 1⟩, ⟨1, 1⟩], 0⟩⟩, false⟩ := rfl
    rw [h] at c1; cases c1; rfl
  obtain ⟨x, X, x1, x2, x3, x4⟩ := trsmRun_ok lib hl .C 1 .L none .N .nonUnit none tri_ok.2.1.wf c2 two_ne_zero one_ne_zero tri_mat.2.1 c5
    (.inl rfl) (fun h => by rw [c3] at h; simp [triV] at h) (by decide)
  have x5 : trsmRun lib .C 1 .L none .N .nonUnit none triA.t c = .ok x := by
    rw [← x1]
    exact trsmRun_offset lib .C 1 .L none .N .nonUnit none _ _ _ _ c (by rw [hc]; rfl)
  have x6 : refSolveTriangular lib .C none triA c = .ok (triA.t, x) := by
    unfold refSolveTriangular
    simp only [x5, ok_bind, x3]
    rfl
  obtain ⟨y, y1, y2, y3, y4⟩ := solveWith_vec .C tri_ok.2.2 tri_mat.1 tri_mat.2.2 c1 c3 c4 c5.1 c6 x6 x2 x3
  have x4 : triPart (n := 2) .L .nonUnit (!![1, 0; 0, 1] : Matrix (Fin 2) (Fin 2) ℚ) * X = (1 : ℚ) • Matrix.of fun i (_ : Fin 1) => ![(2 : ℚ), 4] i := x4
  rw [one_smul] at x4
  have x7 := mulVec_of_mul x4
  have hw : (fun i => X i 0) = ![2, 4] := by
    rw [← x7]
    funext i
    fin_cases i <;> simp [triPart, Matrix.mulVec, dotProduct, Fin.sum_univ_two, InTriangle]
  refine ⟨triA.t, y, _, y1, y3, hw, ?_⟩
  · rw [hw]
    intro h
    have := congrFun h 0
    simp [triPart, Matrix.mulVec, dotProduct, Fin.sum_univ_two] at this

/-- What happens to a mutable `b` that is taken to be stored in the order of the library. -/
theorem trsmInternal_raw (lib : Blas3 α) (dflt : Order) (alpha : α) (s : Side) (u : UpLo) (t : Trans) (d : Diag) {a : Tensor α} {b : TRef α} (ha : a.WF)
    {m n : Nat} (hm : m ≠ 0) (hn : n ≠ 0) {A : Matrix (Fin (s.dim m n)) (Fin (s.dim m n)) α} {B : Matrix (Fin m) (Fin n) α}
    (hA : a.arr.IsMat A) (hp : a.layout.fPrefer = true) (h0 : a.layout.offset = 0) (hb : b.mutable = true) (hf : b.t.layout.fPrefer = true)
    (hs : b.t.layout.shape = [m, n]) (hB : loadMat b.t.data 0 m m n = .ok B) :
    trsmInternal lib dflt alpha s u t d a b = .ok (.inPlace ⟨storeMat b.t.data 0 m (lib.trsm s u t d m n alpha A B), b.t.layout⟩) := by
  have hk := dim_ne hm hn s
  obtain ⟨lda, l1, l2, l3⟩ := lead_io ha hA hk hk hp h0
  have y1 : overwritableConvertWithOrder dflt b .F = .ok (.inPlace b.t) := by
    unfold overwritableConvertWithOrder
    rw [if_neg (by simp [hb]), if_pos (.inl ⟨rfl, hf⟩)]
    rfl
  obtain ⟨d0, d1⟩ := dimAt2 hs
  have hsa : a.layout.shape = [s.dim m n, s.dim m n] := hA.1
  unfold trsmInternal
  generalize b.t.layout.dimAt 0 = m' at d0 ⊢
  generalize b.t.layout.dimAt 1 = n' at d1 ⊢
  subst d0 d1
  simp only [hp, Bool.not_true, Bool.false_eq_true, if_false, l1, ok_bind, hsa, ne_eq, not_true_eq_false, y1, blasLd_ok l2,
    blasLd_ok (show (max 1 m' : Int) ≤ m' by omega), l3, Mutable.view, hB]
  rfl

def triD : TRef ℚ := ⟨⟨[1, 0, 0, 2], ⟨[⟨2, 2⟩, ⟨2, 1⟩], 0⟩⟩, false⟩
/-- Every other cell of a vector. -/
def triW : TRef ℚ := ⟨⟨[2, 5, 4], ⟨[⟨2, 2⟩], 0⟩⟩, true⟩

theorem triD_ok : triD.Ok ∧ triW.Ok :=
  ⟨⟨⟨by decide, rfl⟩, fun h => by simp [triD] at h⟩, ⟨⟨by decide, rfl⟩, fun _ => by decide⟩⟩

theorem triD_mat : triD.t.arr.IsMat !![1, 0; 0, 2] ∧ triW.t.arr.IsVec ![2, 4] := by
  refine ⟨⟨rfl, ?_⟩, ⟨rfl, ?_⟩⟩ <;> decide

/-- A mutable vector in every other cell of its storage: the result is wrong and a cell that is not an element of it is overwritten. -/
theorem C73_false_strided (lib : Blas3 ℚ) (hl : TrsmDoc lib.trsm) : triD.Ok ∧ triW.Ok ∧
    triD.t.arr.IsMat (!![1, 0; 0, 2] : Matrix (Fin 2) (Fin 2) ℚ) ∧ triW.t.arr.IsVec (![2, 4] : Fin 2 → ℚ) ∧
    ∃ a x w, solveTriangular lib .C none triD triW = .ok (a, x) ∧ x.arr.IsVec w ∧ (triPart .L .nonUnit !![1, 0; 0, 2]).mulVec w ≠ ![2, 4] ∧
      ¬ Addressed triW.t.layout.stride triW.t.layout.offset triW.t.layout.shape 1 ∧ x.data[1]? ≠ triW.t.data[1]? := by
  refine ⟨triD_ok.1, triD_ok.2, triD_mat.1, triD_mat.2, ?_⟩
  have hA := flipped_mat triD_ok.1.wf triD_mat.1
  have hB : loadMat [2, 5, (4 : ℚ)] 0 (1 : Nat) 1 2 = .ok !![2, 5] := loadMat_ok fun i j => by fin_cases i <;> fin_cases j <;> exact ⟨by decide, rfl⟩
  have e1 := trsmInternal_raw lib .C 1 .R .U .N .nonUnit (flipped_wf triD_ok.1.wf) (m := 1) (n := 2) one_ne_zero two_ne_zero hA rfl rfl
    (b := ⟨⟨[2, 5, 4], ⟨[⟨1, 1⟩, ⟨2, 2⟩], 0⟩⟩, true⟩) rfl rfl rfl (B := !![2, 5]) hB
  have e2 := hl .R .U .N .nonUnit 1 2 1 (!![1, 0; 0, 2] : Matrix (Fin 2) (Fin 2) ℚ).transpose !![2, 5] (by decide)
  generalize lib.trsm .R .U .N .nonUnit 1 2 1 (!![1, 0; 0, 2] : Matrix (Fin 2) (Fin 2) ℚ).transpose !![2, 5] = X at e1 e2
  have e2 : X * triPart (n := 2) .U .nonUnit (!![1, 0; 0, 2] : Matrix (Fin 2) (Fin 2) ℚ).transpose = (1 : ℚ) • !![2, 5] := e2
  rw [one_smul] at e2
  have h0 := congrFun (congrFun e2 0) 0
  have h1 := congrFun (congrFun e2 0) 1
  rw [Matrix.mul_apply, Fin.sum_univ_two] at h0 h1
  simp [triPart, InTriangle] at h0 h1
  refine ⟨triD.t, ⟨[X 0 0, X 0 1, 4], ⟨[⟨2, 2⟩], 0⟩⟩, ![X 0 0, 4], ?_, ?_, ?_, ?_, ?_⟩
  · have c1 : asColumns triW = .ok ⟨⟨[2, 5, 4], ⟨[⟨2, 2⟩, ⟨1, 1⟩], 0⟩⟩, true⟩ := rfl
    have c2 : trsmRun lib .C 1 .L none .N .nonUnit none triD.t ⟨⟨[2, 5, 4], ⟨[⟨2, 2⟩, ⟨1, 1⟩], 0⟩⟩, true⟩ =
        (do let x ← trsmInternal lib .C 1 .R .U .N .nonUnit triD.t.flipped ⟨⟨[2, 5, 4], ⟨[⟨1, 1⟩, ⟨2, 2⟩], 0⟩⟩, true⟩
            return x.flipped) := rfl
    unfold solveTriangular solveWith
    rw [if_neg (by decide), if_neg (by decide)]
    have hst : storeMat [2, 5, (4 : ℚ)] 0 (1 : Nat) X = [X 0 0, X 0 1, 4] := by simp [storeMat]
    simp only [c1, ok_bind, refSolveTriangular, c2, e1, hst]
    rfl
  · refine ⟨rfl, fun i => ?_⟩
    fin_cases i <;> rfl
  · rw [h0]
    intro h
    have := congrFun h 1
    simp [triPart, Matrix.mulVec, dotProduct, Fin.sum_univ_two, InTriangle] at this
  · rintro ⟨idx, h2, h3⟩
    obtain ⟨i, rfl⟩ : ∃ i, idx = [i] := List.length_eq_one_iff.1 h2.length_eq
    simp [position, triW, Layout.stride] at h3
    omega
  · show some (X 0 1) ≠ some 5
    intro h
    rw [Option.some.inj h] at h1
    norm_num at h1

/-! ## Cases that meet the hypotheses -/

theorem tri_det [Field α] [StarRing α] (u : UpLo) (d : Diag) (t : Trans) {n : Nat} (A : Matrix (Fin n) (Fin n) α) (h : ∀ i, triPart u d A i i ≠ 0) :
    IsUnit (t.sq (triPart u d A)).det := by
  have h1 : (triPart u d A).det ≠ 0 := by
    have : (triPart u d A).det = ∏ i, triPart u d A i i := by
      cases u with
      | U =>
        refine Matrix.det_of_isUpperTriangular fun i j (hij : j < i) => ?_
        simp only [triPart, Matrix.of_apply]
        rw [if_neg (ne_of_gt hij), if_neg (by show ¬ i ≤ j; exact not_le.2 hij)]
      | L =>
        refine Matrix.det_of_isLowerTriangular _ fun i j hij => ?_
        have hij : i < j := hij
        simp only [triPart, Matrix.of_apply]
        rw [if_neg (ne_of_lt hij), if_neg (by show ¬ j ≤ i; exact not_le.2 hij)]
    rw [this]
    exact Finset.prod_ne_zero_iff.2 fun i _ => h i
  cases t
  · exact isUnit_iff_ne_zero.2 h1
  · show IsUnit (Matrix.transpose _).det
    rw [Matrix.det_transpose]; exact isUnit_iff_ne_zero.2 h1
  · show IsUnit (Matrix.conjTranspose _).det
    rw [Matrix.det_conjTranspose]; exact isUnit_iff_ne_zero.2 (by simpa using h1)

/-- The arithmetic that the documentation describes. -/
noncomputable def exactBlas (α : Type) [Field α] [StarRing α] : Blas3 α where
  trsm s u t d m n alpha A B := match s, A with
    | .L, A => alpha • ((t.sq (n := m) (triPart u d A))⁻¹ * B)
    | .R, A => alpha • (B * (t.sq (n := n) (triPart u d A))⁻¹)
  gemm ta tb _ _ _ alpha A B beta C := alpha • (ta.op A * tb.op B) + beta • C
  symm hermi s u _ _ alpha A B beta C := symmProduct alpha beta s
    (Matrix.of fun i j => if InTriangle u i j then A i j else if hermi then star (A j i) else A j i) B C

theorem exact_trsm (α : Type) [Field α] [StarRing α] : TrsmDoc (exactBlas α).trsm := by
  intro s u t d m n alpha A B h
  cases s with
  | L =>
    obtain ⟨A, rfl⟩ : ∃ A' : Matrix (Fin m) (Fin m) α, A' = A := ⟨A, rfl⟩
    have hu := tri_det u d t A h
    show t.sq (n := m) (triPart u d A) * (alpha • ((t.sq (n := m) (triPart u d A))⁻¹ * B)) = alpha • B
    rw [Matrix.mul_smul, ← Matrix.mul_assoc, Matrix.mul_nonsing_inv _ hu, Matrix.one_mul]
  | R =>
    obtain ⟨A, rfl⟩ : ∃ A' : Matrix (Fin n) (Fin n) α, A' = A := ⟨A, rfl⟩
    have hu := tri_det u d t A h
    show (alpha • (B * (t.sq (n := n) (triPart u d A))⁻¹)) * t.sq (n := n) (triPart u d A) = alpha • B
    rw [Matrix.smul_mul, Matrix.mul_assoc, Matrix.nonsing_inv_mul _ hu, Matrix.mul_one]

/-- The matrix of a column-major tensor whose strictly upper triangle holds something else, and right-hand sides in an order that is
not that of the matrix, mutable and not contiguous. -/
def triE : TRef ℚ := ⟨⟨[2, 1, 77, 3], ⟨[⟨2, 1⟩, ⟨2, 2⟩], 0⟩⟩, false⟩
def triB : TRef ℚ := ⟨⟨[4, 8, 6, 8, 5, 8, 9], ⟨[⟨2, -4⟩, ⟨2, 2⟩], 4⟩⟩, true⟩
def triB' : TRef ℚ := ⟨⟨[4, 6, 5, 9], ⟨[⟨2, 2⟩, ⟨2, 1⟩], 0⟩⟩, true⟩

theorem triE_ok : triE.Ok ∧ triB.Ok ∧ triB'.Ok :=
  ⟨⟨⟨by decide, rfl⟩, fun h => by simp [triE] at h⟩, ⟨⟨by decide, rfl⟩, fun _ => by decide⟩, ⟨⟨by decide, rfl⟩, fun _ => by decide⟩⟩

theorem triE_mat : triE.t.arr.IsMat !![2, 77; 1, 3] ∧ triB.t.arr.IsMat !![5, 9; 4, 6] ∧ triB'.t.arr.IsMat !![4, 6; 5, 9] := by
  refine ⟨⟨rfl, ?_⟩, ⟨rfl, ?_⟩, ⟨rfl, ?_⟩⟩ <;> decide

theorem triB'_seq : InSequence .C triB'.t.layout.stride triB'.t.layout.offset triB'.t.layout.shape := by
  intro idx hi
  obtain ⟨i, j, rfl, -, -⟩ := of_inRange2 (m := 2) (n := 2) hi
  simp [position, triB', Layout.stride, Layout.shape, rank, rankC]

example := C73_matrix_partial (exactBlas ℚ) (exact_trsm ℚ) .C none .L rfl triE triB triE_ok.1.wf triE_ok.2.1 two_ne_zero two_ne_zero _ _ triE_mat.1
  triE_mat.2.1 (.inl rfl) (fun _ => .inr (by decide)) (by decide)
example := C73_matrix_partial (exactBlas ℚ) (exact_trsm ℚ) .F (some .U) .U rfl triE triB' triE_ok.1.wf triE_ok.2.2 two_ne_zero two_ne_zero _ _ triE_mat.1
  triE_mat.2.2 (.inl rfl) (fun _ => .inl ⟨.C, triB'_seq⟩) (by decide)
example := C73_vector_partial (exactBlas ℚ) (exact_trsm ℚ) .C none .L rfl triE triV triE_ok.1.wf tri_ok.2.2 two_ne_zero _ _ triE_mat.1
  tri_mat.2.2 (.inl rfl) (fun h => by simp [triV] at h) (by decide)
example (o : Option Order) (t : Trans) (d : Diag) := C73_builder_partial (exactBlas ℚ) (exact_trsm ℚ) .C 3 .R (some .L) .L rfl t d o triE.t triB' triE_ok.1.wf
  triE_ok.2.2 two_ne_zero two_ne_zero _ _ triE_mat.1 triE_mat.2.2 (.inl rfl) (fun _ => .inl ⟨.C, triB'_seq⟩) (by cases d <;> decide)
example := C73_reject (exactBlas ℚ) .C none triE ⟨⟨[1, 2, 3], ⟨[⟨3, 1⟩], 0⟩⟩, true⟩ triE_ok.1.wf ⟨⟨by decide, rfl⟩, fun _ => by decide⟩
  (.inr (.inr ⟨3, by decide, by decide⟩))

end
end Rstsr
