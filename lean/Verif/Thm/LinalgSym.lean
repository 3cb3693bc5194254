import Verif.Proof.LinalgSym
/-!
# C71, C72: the Cholesky factor, systems with a symmetric or Hermitian matrix
-/
namespace Rstsr
open Spec Matrix
open scoped ComplexOrder

section
variable {α : Type}

/-! ## Cholesky factors -/

/-- The triangle that is meant: the one named, otherwise the lower one on a row-major device and the upper one on a column-major
device. -/
theorem uploOr_eq (dflt : Order) (uplo : Option UpLo) :
    uploOr dflt uplo = match uplo, dflt with | some u, _ => u | none, .C => .L | none, .F => .U := by
  cases uplo <;> cases dflt <;> rfl

/-- The Cholesky factor of a positive definite matrix `H`, of which one triangle is given. -/
theorem C71_cholesky {𝕜 : Type} [RCLike 𝕜] (lib : LapackSym 𝕜) (hl : PotrfDoc lib.potrf) (dflt : Order) (uplo : Option UpLo) (u : UpLo)
    (hu : u = match uplo, dflt with | some u, _ => u | none, .C => .L | none, .F => .U) (a : TRef 𝕜) (ha : a.Ok)
    {n : Nat} (A H : Matrix (Fin n) (Fin n) 𝕜) (hA : a.t.arr.IsMat A) (hs : SameTriangle u A H) (hH : H.PosDef) :
    ∃ x F, cholesky lib 0 dflt a uplo = .ok x ∧ x.WF ∧ x.arr.IsMat F ∧ IsCholesky u H F ∧ ResultIn a x := by
  rw [← uploOr_eq] at hu
  subst hu
  obtain ⟨G, F, h1, h2, h3⟩ := hl.factor _ n A H hs hH
  obtain ⟨x, x1, x2⟩ := (refCholesky_ok lib dflt ha uplo hA).2 G h1
  rw [keep_triangular _ h2 h3.1] at x2
  obtain ⟨y, y1, y2, y3, y4⟩ := resultOf_ok dflt x2
  have na : a.t.layout.ndim = 2 := ndim_len (s := [n, n]) hA.1
  refine ⟨y, F, ?_, y2, y3, h3, y4⟩
  unfold cholesky
  simp only [na, x1, ok_bind, y1, ne_eq, not_true_eq_false, if_false]

/-- A Hermitian matrix that is not positive definite is an error. -/
theorem C71_indefinite {𝕜 : Type} [RCLike 𝕜] (lib : LapackSym 𝕜) (hl : PotrfDoc lib.potrf) (dflt : Order) (uplo : Option UpLo) (u : UpLo)
    (hu : u = match uplo, dflt with | some u, _ => u | none, .C => .L | none, .F => .U) (a : TRef 𝕜) (ha : a.Ok)
    {n : Nat} (A H : Matrix (Fin n) (Fin n) 𝕜) (hA : a.t.arr.IsMat A) (hs : SameTriangle u A H) (hH : H.IsHermitian)
    (hp : ¬ H.PosDef) : ∃ info, 0 < info ∧ cholesky lib 0 dflt a uplo = .error (.errorCode info) := by
  rw [← uploOr_eq] at hu
  subst hu
  obtain ⟨info, h0, h1⟩ := hl.indefinite _ n A H hs hH hp
  have na : a.t.layout.ndim = 2 := ndim_len (s := [n, n]) hA.1
  refine ⟨info, h0, ?_⟩
  unfold cholesky
  simp only [na, (refCholesky_ok lib dflt ha uplo hA).1 info h1, ne_eq, not_true_eq_false, if_false]
  rfl

/-- Arrays that are no square matrices are an error. -/
theorem C71_reject [Zero α] (lib : LapackSym α) (dflt : Order) (uplo : Option UpLo) (a : TRef α) (ha : a.Ok)
    (h : a.t.arr.shape.length ≠ 2 ∨ ∃ m n, a.t.arr.shape = [m, n] ∧ m ≠ n) :
    cholesky lib 0 dflt a uplo = .error .invalidLayout := by
  unfold cholesky
  by_cases h1 : a.t.layout.ndim = 2
  · rcases h with h | ⟨m, n, hs, hne⟩
    · exact absurd ((ndim_len (l := a.t.layout) rfl).symm.trans h1) h
    · obtain ⟨A, hA⟩ := exists_isMat ha.wf hs
      obtain ⟨x, x1, x2, x3⟩ := convert_ok dflt ha hA
      obtain ⟨d0, d1⟩ := dimAt2 (l := x.view.layout) x2.mat.1
      rw [if_neg (by simp [h1])]
      unfold refCholesky potrfRun
      simp only [x1, ok_bind, d0, d1, ne_eq, hne, not_false_eq_true, if_true]
      rfl
  · rw [if_pos h1]

/-! ## Symmetric systems -/

/-- Solving `S X = B` with a matrix on the right, `S` being symmetric or Hermitian and given by one triangle. -/
theorem C72_matrix_partial {𝕜 : Type} [RCLike 𝕜] (lib : LapackSym 𝕜) (hl : SysvDoc lib.sysv) (dflt : Order) (hermi : Bool) (uplo : Option UpLo)
    (u : UpLo) (hu : u = match uplo, dflt with | some u, _ => u | none, .C => .L | none, .F => .U) (a b : TRef 𝕜) (ha : a.t.WF) (hb : b.Ok)
    {n m : Nat} (hn : n ≠ 0) (A S : Matrix (Fin n) (Fin n) 𝕜) (B : Matrix (Fin n) (Fin m) 𝕜) (hA : a.t.arr.IsMat A)
    (hB : b.t.arr.IsMat B) (hs : SameTriangle u A S) (hS : IsSelf hermi S) (hdet : S.det ≠ 0) :
    ∃ x X, solveSymmetric lib dflt hermi uplo a b = .ok (a.t, x) ∧ x.WF ∧ x.arr.IsMat X ∧ S * X = B ∧ ResultIn b x := by
  rw [← uploOr_eq] at hu
  subst hu
  obtain ⟨F, p, X, h1, h2⟩ := hl.solves hermi _ n m A S B hs hS hdet
  obtain ⟨x, g1, g3, g4⟩ := (refSolveSymmetric_ok lib dflt hermi uplo ha hb hn hA hB).2 F p X h1
  obtain ⟨y, y1, y2, y3, y4⟩ := solveWith_mat dflt hA hB g1 g3 g4
  exact ⟨y, X, y1, y2, y3, h2, y4⟩

/-- The same with a vector on the right. -/
theorem C72_vector_partial {𝕜 : Type} [RCLike 𝕜] (lib : LapackSym 𝕜) (hl : SysvDoc lib.sysv) (dflt : Order) (hermi : Bool) (uplo : Option UpLo)
    (u : UpLo) (hu : u = match uplo, dflt with | some u, _ => u | none, .C => .L | none, .F => .U) (a b : TRef 𝕜) (ha : a.t.WF) (hb : b.Ok)
    {n : Nat} (hn : n ≠ 0) (A S : Matrix (Fin n) (Fin n) 𝕜) (v : Fin n → 𝕜) (hA : a.t.arr.IsMat A)
    (hv : b.t.arr.IsVec v) (hs : SameTriangle u A S) (hS : IsSelf hermi S) (hdet : S.det ≠ 0) :
    ∃ x w, solveSymmetric lib dflt hermi uplo a b = .ok (a.t, x) ∧ x.WF ∧ x.arr.IsVec w ∧ S.mulVec w = v ∧ ResultIn b x := by
  rw [← uploOr_eq] at hu
  subst hu
  obtain ⟨c, c1, c2, c3, c4, c5, c6⟩ := column_ok b hb hv
  obtain ⟨F, p, X, h1, h2⟩ := hl.solves hermi _ n 1 A S _ hs hS hdet
  obtain ⟨x, g1, g3, g4⟩ := (refSolveSymmetric_ok lib dflt hermi uplo ha c2 hn hA c5).2 F p X h1
  obtain ⟨y, y1, y2, y3, y4⟩ := solveWith_vec dflt hb hA hv c1 c3 c4 c5.1 c6 g1 g3 g4
  exact ⟨y, _, y1, y2, y3, mulVec_of_mul h2, y4⟩

/-- A singular matrix is an error, with a matrix or a vector on the right. -/
theorem C72_singular_partial {𝕜 : Type} [RCLike 𝕜] (lib : LapackSym 𝕜) (hl : SysvDoc lib.sysv) (dflt : Order) (hermi : Bool) (uplo : Option UpLo)
    (u : UpLo) (hu : u = match uplo, dflt with | some u, _ => u | none, .C => .L | none, .F => .U) (a b : TRef 𝕜) (ha : a.t.WF) (hb : b.Ok)
    {n : Nat} (hn : n ≠ 0) (A S : Matrix (Fin n) (Fin n) 𝕜) (hA : a.t.arr.IsMat A)
    (hB : b.t.arr.shape = [n] ∨ ∃ m, b.t.arr.shape = [n, m]) (hs : SameTriangle u A S) (hS : IsSelf hermi S) (hdet : S.det = 0) :
    ∃ info, 0 < info ∧ solveSymmetric lib dflt hermi uplo a b = .error (.errorCode info) := by
  rw [← uploOr_eq] at hu
  subst hu
  have na : a.t.layout.ndim = 2 := ndim_len (s := [n, n]) hA.1
  rcases hB with hB | ⟨m, hB⟩
  · obtain ⟨v, hv⟩ := exists_isVec hb.wf hB
    obtain ⟨c, c1, c2, -, -, c5, -⟩ := column_ok b hb hv
    obtain ⟨info, h0, h1⟩ := hl.singular hermi _ n 1 A S _ hs hS hdet
    have nb : b.t.layout.ndim = 1 := ndim_len (s := [n]) hv.1
    exact ⟨info, h0, solveWith_err dflt na (by omega) c1 ((refSolveSymmetric_ok lib dflt hermi uplo ha c2 hn hA c5).1 info h1)⟩
  · obtain ⟨B, hB⟩ := exists_isMat hb.wf hB
    obtain ⟨info, h0, h1⟩ := hl.singular hermi _ n m A S B hs hS hdet
    have nb : b.t.layout.ndim = 2 := ndim_len (s := [n, m]) hB.1
    exact ⟨info, h0, solveWith_err dflt na (by omega) (asColumns_mat hB) ((refSolveSymmetric_ok lib dflt hermi uplo ha hb hn hA hB).1 info h1)⟩

/-- Shapes that do not fit are an error. -/
theorem C72_reject (lib : LapackSym α) (dflt : Order) (hermi : Bool) (uplo : Option UpLo) (a b : TRef α) (ha : a.t.WF) (hb : b.Ok)
    (h : SolveMisfit a.t.arr.shape b.t.arr.shape) : solveSymmetric lib dflt hermi uplo a b = .error .invalidLayout := by
  refine solveWith_reject dflt ha hb ?_ h
  intro b hb r c n m A B hA hB hne
  obtain ⟨x, x1, x2, x3⟩ := convert_ok dflt hb hB
  obtain ⟨y, y1, y2, y3⟩ := convertOrder_ok dflt (a := ⟨a.t, false⟩) ⟨ha, fun h => by simp at h⟩ hA (storageOrder x.view.layout)
  have hy : y.view.layout.shape = [r, c] := y2.mat.1
  obtain ⟨d0, d1⟩ := dimAt2 (l := x.view.layout) x2.mat.1
  unfold refSolveSymmetric sysvRun
  simp only [x1, ok_bind, y1, d0, d1, hy, ne_eq, hne, not_false_eq_true, if_true]
  rfl

/-- A matrix and a vector without elements. -/
def voidA : TRef α := ⟨⟨[], ⟨[⟨0, 1⟩, ⟨0, 1⟩], 0⟩⟩, false⟩
def voidV : TRef α := ⟨⟨[], ⟨[⟨0, 1⟩], 0⟩⟩, false⟩

/-- A system without equations has a solution, but the function reports an error of LAPACK: it asks for the size of the work array
with a leading dimension of zero. -/
theorem C72_false_empty (lib : LapackSym α) (dflt : Order) (hermi : Bool) (uplo : Option UpLo) :
    (voidA : TRef α).Ok ∧ (voidV : TRef α).Ok ∧ (voidA : TRef α).t.arr.IsMat (Matrix.of fun i (_ : Fin 0) => (Fin.elim0 i : α)) ∧
    (voidV : TRef α).t.arr.IsVec (fun i : Fin 0 => (Fin.elim0 i : α)) ∧ solveSymmetric lib dflt hermi uplo voidA voidV = .error (.errorCode (-5)) := by
  refine ⟨⟨⟨Int.le_refl _, rfl⟩, fun h => by simp [voidA] at h⟩, ⟨⟨Int.le_refl _, rfl⟩, fun h => by simp [voidV] at h⟩,
    ⟨rfl, fun i => i.elim0⟩, ⟨rfl, fun i => i.elim0⟩, ?_⟩
  refine solveWith_err dflt rfl (by show ¬ ((1 : Nat) < 1 ∨ 2 < 1); omega) (c := ⟨⟨[], ⟨[⟨0, 1⟩, ⟨1, 1⟩], 0⟩⟩, false⟩) rfl ?_
  cases dflt <;> rfl

/-! ## Cases that meet the hypotheses -/

/-- The matrix given by a triangle. -/
def mirror {𝕜 : Type} [RCLike 𝕜] (hermi : Bool) (u : UpLo) {n : Nat} (A : Matrix (Fin n) (Fin n) 𝕜) : Matrix (Fin n) (Fin n) 𝕜 :=
  Matrix.of fun i j => if InTriangle u i j then A i j else if hermi then star (A j i) else A j i

theorem mirror_eq {𝕜 : Type} [RCLike 𝕜] {hermi : Bool} {u : UpLo} {n : Nat} {A S : Matrix (Fin n) (Fin n) 𝕜} (h : SameTriangle u A S)
    (hS : IsSelf hermi S) : mirror hermi u A = S := by
  ext i j
  simp only [mirror, Matrix.of_apply]
  by_cases hi : InTriangle u i j
  · rw [if_pos hi, h i j hi]
  · have hj : InTriangle u j i := by
      cases u
      · exact (lt_of_not_ge hi).le
      · exact (lt_of_not_ge hi).le
    rw [if_neg hi, h j i hj]
    unfold IsSelf at hS
    cases hermi
    · exact hS.apply i j
    · exact hS.apply i j

/-- Every positive definite matrix has a lower factor, hence also an upper one. -/
theorem exists_cholesky {𝕜 : Type} [RCLike 𝕜] (u : UpLo) {n : Nat} {H : Matrix (Fin n) (Fin n) 𝕜} (hH : H.PosDef) : ∃ F, IsCholesky u H F := by
  have low : ∃ F, IsCholesky .L H F := by
    have hd : ∀ i, 0 < LDL.diagEntries hH i := by
      have h1 : (LDL.diag hH).PosDef := by
        rw [LDL.diag_eq_lowerInv_conj]
        exact hH.mul_mul_conjTranspose_same (Matrix.vecMul_injective_of_isUnit (isUnit_of_invertible _))
      intro i
      have := h1.diag_pos (i := i)
      simpa [LDL.diag] using this
    have hre : ∀ i, ((RCLike.re (LDL.diagEntries hH i) : ℝ) : 𝕜) = LDL.diagEntries hH i := fun i =>
      RCLike.conj_eq_iff_re.1 (RCLike.conj_eq_iff_im.2 (RCLike.pos_iff.1 (hd i)).2)
    let D : Matrix (Fin n) (Fin n) 𝕜 := Matrix.diagonal fun i => ((Real.sqrt (RCLike.re (LDL.diagEntries hH i)) : ℝ) : 𝕜)
    have hD : D * Dᴴ = LDL.diag hH := by
      simp only [D, LDL.diag, Matrix.diagonal_conjTranspose, Matrix.diagonal_mul_diagonal]
      congr 1
      funext i
      simp only [Pi.star_apply, RCLike.star_def, RCLike.conj_ofReal]
      rw [← RCLike.ofReal_mul, Real.mul_self_sqrt (RCLike.pos_iff.1 (hd i)).1.le, hre]
    have ht : BlockTriangular (LDL.lower hH) OrderDual.toDual := by
      have : BlockTriangular (LDL.lowerInv hH) OrderDual.toDual := fun i j hij => LDL.lowerInv_triangular hH (by simpa using hij)
      exact Matrix.blockTriangular_inv_of_blockTriangular this
    refine ⟨LDL.lower hH * D, fun i j hij => ?_, ?_⟩
    · rw [Matrix.mul_diagonal, ht (by simpa [InTriangle] using hij), zero_mul]
    · show (LDL.lower hH * D) * (LDL.lower hH * D)ᴴ = H
      rw [Matrix.conjTranspose_mul, ← Matrix.mul_assoc, Matrix.mul_assoc (LDL.lower hH), hD, LDL.lower_conj_diag]
  cases u with
  | L => exact low
  | U =>
    obtain ⟨F, h1, h2⟩ := low
    refine ⟨Fᴴ, fun i j hij => ?_, ?_⟩
    · rw [Matrix.conjTranspose_apply, h1 j i (by simpa [InTriangle] using hij), star_zero]
    · show Fᴴᴴ * Fᴴ = H
      rw [Matrix.conjTranspose_conjTranspose]; exact h2

open Classical in
/-- Arithmetic that meets the documentation exists. -/
noncomputable def symLib (𝕜 : Type) [RCLike 𝕜] : LapackSym 𝕜 where
  potrf u _ A := if h : (mirror true u A).PosDef then .ok (exists_cholesky u h).choose else .error 1
  sysv h u _ _ A B := if (mirror h u A).det = 0 then .error 1 else .ok (A, [], (mirror h u A)⁻¹ * B)

theorem sym_potrf (𝕜 : Type) [RCLike 𝕜] : PotrfDoc (symLib 𝕜).potrf := by
  refine ⟨fun u n A H hs hH => ?_, fun u n A H hs hH hp => ⟨1, by omega, ?_⟩⟩
  · have e : mirror true u A = H := mirror_eq hs hH.isHermitian
    have hh : (mirror true u A).PosDef := e ▸ hH
    refine ⟨_, _, dif_pos hh, fun _ _ _ => rfl, ?_⟩
    have := (exists_cholesky u hh).choose_spec
    exact ⟨this.1, by
      have := this.2
      cases u <;> exact this.trans e⟩
  · have e : mirror true u A = H := mirror_eq hs hH
    exact dif_neg (e ▸ hp)

theorem sym_sysv (𝕜 : Type) [RCLike 𝕜] : SysvDoc (symLib 𝕜).sysv := by
  refine ⟨fun h u n m A S B hs hS hd => ?_, fun h u n m A S B hs hS hd => ⟨1, by omega, ?_⟩⟩
  · have e : mirror h u A = S := mirror_eq hs hS
    refine ⟨_, _, _, if_neg (e ▸ hd), ?_⟩
    rw [e, ← Matrix.mul_assoc, Matrix.mul_nonsing_inv S (by simpa using hd), Matrix.one_mul]
  · exact if_pos (mirror_eq hs hS ▸ hd)

/-- A complex matrix of which only the lower triangle is meaningful, stored with strides 4 and 2, that may be overwritten. -/
noncomputable def symA : TRef ℂ := ⟨⟨[2, 8, 77, 8, Complex.I, 8, 2], ⟨[⟨2, 4⟩, ⟨2, 2⟩], 0⟩⟩, true⟩
theorem symA_ok : symA.Ok := ⟨⟨by decide, rfl⟩, fun _ => by decide⟩
theorem symA_mat : symA.t.arr.IsMat !![2, 77; Complex.I, 2] := by
  refine ⟨rfl, fun i j => ?_⟩
  fin_cases i <;> fin_cases j <;> rfl
theorem symA_tri : SameTriangle .L !![2, 77; Complex.I, 2] !![2, -Complex.I; Complex.I, 2] := by
  intro i j h
  fin_cases i <;> fin_cases j <;> first | rfl | exact absurd h (by decide)
theorem symH_pos : (!![2, -Complex.I; Complex.I, 2] : Matrix (Fin 2) (Fin 2) ℂ).PosDef := by
  have e : (!![2, -Complex.I; Complex.I, 2] : Matrix (Fin 2) (Fin 2) ℂ) = 1 + !![1, 0; Complex.I, 0] * (!![1, 0; Complex.I, 0])ᴴ := by
    ext i j
    rw [Matrix.add_apply, Matrix.mul_apply, Fin.sum_univ_two]
    fin_cases i <;> fin_cases j <;> simp <;> norm_num
  rw [e]
  exact Matrix.PosDef.one.add_posSemidef (Matrix.posSemidef_self_mul_conjTranspose _)

example := C71_cholesky (symLib ℂ) (sym_potrf ℂ) .C none .L rfl symA symA_ok _ _ symA_mat symA_tri symH_pos
example := C71_cholesky (symLib ℂ) (sym_potrf ℂ) .F (some .L) .L rfl symA symA_ok _ _ symA_mat symA_tri symH_pos
/-- A matrix without elements is its own factor. -/
example := C71_cholesky (symLib ℂ) (sym_potrf ℂ) .C none .L rfl ⟨⟨[], ⟨[⟨0, 0⟩, ⟨0, 1⟩], 0⟩⟩, true⟩ ⟨⟨by decide, rfl⟩, fun _ => by decide⟩
  (n := 0) 1 1 ⟨rfl, fun i => i.elim0⟩ (fun i => i.elim0) Matrix.PosDef.one

/-- A symmetric matrix that is neither definite nor singular, and one that is singular, in row-major storage; right-hand sides. -/
noncomputable def symB : TRef ℝ := ⟨⟨[0, 1, 1, 0], ⟨[⟨2, 2⟩, ⟨2, 1⟩], 0⟩⟩, false⟩
noncomputable def symR : TRef ℝ := ⟨⟨[0, 0, 0, 0, 0], ⟨[⟨2, 2⟩, ⟨2, -1⟩], 1⟩⟩, true⟩
noncomputable def symV : TRef ℝ := ⟨⟨[3, 7, 2], ⟨[⟨2, 2⟩], 0⟩⟩, true⟩
theorem symB_ok : symB.Ok ∧ symR.Ok ∧ symV.Ok :=
  ⟨⟨⟨by decide, rfl⟩, fun h => by simp [symB] at h⟩, ⟨⟨by decide, rfl⟩, fun _ => by decide⟩, ⟨⟨by decide, rfl⟩, fun _ => by decide⟩⟩
theorem symB_mat : symB.t.arr.IsMat !![0, 1; 1, 0] ∧ symR.t.arr.IsMat (0 : Matrix (Fin 2) (Fin 2) ℝ) ∧ symV.t.arr.IsVec ![3, 2] := by
  refine ⟨⟨rfl, fun i j => ?_⟩, ⟨rfl, fun i j => ?_⟩, ⟨rfl, fun i => ?_⟩⟩
  · fin_cases i <;> fin_cases j <;> rfl
  · fin_cases i <;> fin_cases j <;> rfl
  · fin_cases i <;> rfl
theorem symB_self (h : Bool) : IsSelf h (!![0, 1; 1, 0] : Matrix (Fin 2) (Fin 2) ℝ) := by
  cases h
  · show Matrix.IsSymm _
    ext i j; fin_cases i <;> fin_cases j <;> rfl
  · show Matrix.IsHermitian _
    ext i j; fin_cases i <;> fin_cases j <;> simp
theorem symB_indefinite : ¬ (!![0, 1; 1, 0] : Matrix (Fin 2) (Fin 2) ℝ).PosDef := fun h => by
  have := h.diag_pos (i := 0)
  simp at this

example := C71_indefinite (symLib ℝ) (sym_potrf ℝ) .F none .U rfl symB symB_ok.1 _ _ symB_mat.1 (fun _ _ _ => rfl) (symB_self true) symB_indefinite
example := C71_reject (symLib ℝ) .C none ⟨⟨[1, 2, 3, 4, 5, 6], ⟨[⟨2, 3⟩, ⟨3, 1⟩], 0⟩⟩, true⟩ ⟨⟨by decide, rfl⟩, fun _ => by decide⟩
  (.inr ⟨2, 3, rfl, by decide⟩)
example (h : Bool) := C72_matrix_partial (symLib ℝ) (sym_sysv ℝ) .C h none .L rfl symB symR symB_ok.1.wf symB_ok.2.1 two_ne_zero _ _ _
  symB_mat.1 symB_mat.2.1 (fun _ _ _ => rfl) (symB_self h) (by simp [Matrix.det_fin_two])
example (h : Bool) := C72_vector_partial (symLib ℝ) (sym_sysv ℝ) .F h none .U rfl symB symV symB_ok.1.wf symB_ok.2.2 two_ne_zero _ _ _
  symB_mat.1 symB_mat.2.2 (fun _ _ _ => rfl) (symB_self h) (by simp [Matrix.det_fin_two])
example := C72_singular_partial (symLib ℝ) (sym_sysv ℝ) .F false none .U rfl symR symV symB_ok.2.1.wf symB_ok.2.2 two_ne_zero _ _
  symB_mat.2.1 (.inl rfl) (fun _ _ _ => rfl) (by show Matrix.IsSymm _; ext; rfl) (by simp)
example := C72_reject (symLib ℝ) .C true none symB ⟨⟨[1, 2, 3], ⟨[⟨3, 1⟩], 0⟩⟩, true⟩ symB_ok.1.wf ⟨⟨by decide, rfl⟩, fun _ => by decide⟩
  (.inr (.inr ⟨3, by decide, by decide⟩))

end
end Rstsr
