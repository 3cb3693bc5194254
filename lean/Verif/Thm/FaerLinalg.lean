import Verif.Proof.FaerLinalg
/-!
# C82 On the device of `faer`: Cholesky factors, determinants, inverses, solutions of linear equations
-/
namespace Rstsr
open Spec Matrix
open scoped ComplexOrder

section
variable {α ρ : Type} {𝕜 : Type} [RCLike 𝕜]

/-! ## Cholesky factors -/

/-- The Cholesky factor of the positive definite matrix given by one triangle, for every layout. -/
theorem C82_cholesky (lib : FaerLib 𝕜 ρ) (hl : LltDoc lib.llt) (mem : FaerMem 𝕜) (hm : mem.Fits) (sys : Order) (dev : FaerDev) (uplo : Option UpLo)
    (u : UpLo) (hu : u = match uplo, dev.order with | some u, _ => u | none, .C => .L | none, .F => .U) (a : Tensor 𝕜) (ha : a.WF) {n : Nat}
    (A H : Matrix (Fin n) (Fin n) 𝕜) (hA : a.arr.IsMat A) (hs : SameTriangle u A H) (hH : H.PosDef) :
    ∃ x F, faerCholesky lib mem sys dev a uplo = .ok x ∧ x.t.WF ∧ x.t.arr.IsMat F ∧ IsCholesky u H F := by
  have hu := hu.trans (uploOr_eq dev.order uplo).symm
  subst hu
  obtain ⟨L, h1, h2, h3⟩ := hl.factor _ n A H hs hH
  have na : a.layout.ndim = 2 := ndim_len (s := [n, n]) hA.1
  obtain ⟨d0, d1⟩ := dimAt2 (l := a.layout) hA.1
  unfold faerCholesky
  rw [d0, d1]
  simp only [na, faerAssert, loadFaer_ok ha hA, ok_bind, h1, liftFaer, ne_eq, not_true_eq_false, if_false, decide_true, if_true]
  generalize uploOr dev.order uplo = u
  cases u with
  | L =>
    obtain ⟨t, t1, t2, t3, -⟩ := contigOut_ok hm sys dev.order L
    exact ⟨_, L, t1, t2, t3, h2, h3⟩
  | U =>
    obtain ⟨t, t1, t2, t3, -⟩ := contigOut_ok hm sys dev.order Lᴴ
    refine ⟨_, Lᴴ, t1, t2, t3, fun i j hij => ?_, ?_⟩
    · rw [conjTranspose_apply, h2 j i hij, star_zero]
    · show Lᴴᴴ * Lᴴ = H
      rw [conjTranspose_conjTranspose]; exact h3

/-- A Hermitian matrix that is not positive definite is an error. -/
theorem C82_cholesky_indefinite (lib : FaerLib 𝕜 ρ) (hl : LltDoc lib.llt) (mem : FaerMem 𝕜) (sys : Order) (dev : FaerDev) (uplo : Option UpLo)
    (u : UpLo) (hu : u = match uplo, dev.order with | some u, _ => u | none, .C => .L | none, .F => .U) (a : Tensor 𝕜) (ha : a.WF) {n : Nat}
    (A H : Matrix (Fin n) (Fin n) 𝕜) (hA : a.arr.IsMat A) (hs : SameTriangle u A H) (hH : H.IsHermitian) (hp : ¬ H.PosDef) :
    faerCholesky lib mem sys dev a uplo = .error .faerError := by
  have hu := hu.trans (uploOr_eq dev.order uplo).symm
  subst hu
  have h1 := hl.indefinite _ n A H hs hH hp
  have na : a.layout.ndim = 2 := ndim_len (s := [n, n]) hA.1
  obtain ⟨d0, d1⟩ := dimAt2 (l := a.layout) hA.1
  unfold faerCholesky
  rw [d0, d1]
  simp only [na, faerAssert, loadFaer_ok ha hA, ok_bind, h1, liftFaer, ne_eq, not_true_eq_false, if_false, decide_true, if_true]
  rfl

/-! ## Determinant, inverse -/

/-- The determinant of every square matrix, singular ones too. -/
theorem C82_det [CommRing α] (lib : FaerLib α ρ) (hl : ∀ n A, lib.det n A = A.det) (a : Tensor α) (ha : a.WF) {n : Nat}
    (A : Matrix (Fin n) (Fin n) α) (hA : a.arr.IsMat A) : faerDet lib a = .ok A.det := by
  have na : a.layout.ndim = 2 := ndim_len (s := [n, n]) hA.1
  obtain ⟨d0, d1⟩ := dimAt2 (l := a.layout) hA.1
  unfold faerDet
  rw [d0, d1]
  simp only [na, faerAssert, loadFaer_ok ha hA, ok_bind, hl, ne_eq, not_true_eq_false, if_false, decide_true, if_true]
  rfl

theorem svdInv_ok (lib : FaerLib 𝕜 ρ) {n : Nat} {A U V : Matrix (Fin n) (Fin n) 𝕜} {s : Fin (min n n) → 𝕜} (h : lib.svd true n n A = .ok (U, s, V)) :
    svdInv lib n n A = .ok (lib.svdInverse n U s V) := by
  unfold svdInv
  rw [dif_pos rfl]
  show (liftFaer (lib.svd true n n A) >>= _) = _
  rw [h]; rfl

/-- The inverse of a nonsingular matrix, if the decomposition converges. -/
theorem C82_inv (lib : FaerLib 𝕜 ρ) (hl : FaerSvdDoc lib.svd) (hi : SvdInverseDoc lib.svdInverse) (mem : FaerMem 𝕜) (hm : mem.Fits) (sys : Order)
    (dev : FaerDev) (a : Tensor 𝕜) (ha : a.WF) {n : Nat} (A : Matrix (Fin n) (Fin n) 𝕜) (hA : a.arr.IsMat A) (hdet : A.det ≠ 0)
    (hc : ∃ r, lib.svd true n n A = .ok r) :
    ∃ x X, faerInv lib mem sys dev a = .ok x ∧ x.t.WF ∧ x.t.arr.IsMat X ∧ A * X = 1 ∧ X * A = 1 := by
  obtain ⟨⟨U, s, V⟩, h⟩ := hc
  obtain ⟨r, h1, h2⟩ := hl true n n A U s V h
  obtain rfl : s = fun i => (r i : 𝕜) := funext h1
  have h3 := hi n A U r V h2 hdet
  have na : a.layout.ndim = 2 := ndim_len (s := [n, n]) hA.1
  obtain ⟨d0, d1⟩ := dimAt2 (l := a.layout) hA.1
  obtain ⟨t, t1, t2, t3, -⟩ := contigOut_ok hm sys dev.order (lib.svdInverse n U (fun i => (r i : 𝕜)) V)
  refine ⟨⟨t, .dflt sys⟩, _, ?_, t2, t3, h3, mul_eq_one_comm.1 h3⟩
  unfold faerInv
  rw [d0, d1]
  simp only [na, loadFaer_ok ha hA, ok_bind, svdInv_ok lib h, ne_eq, not_true_eq_false, if_false]
  exact t1

/-! ## Solutions -/

theorem faerRefSolve_ok (lib : FaerLib 𝕜 ρ) (hl : FaerSvdDoc lib.svd) (hi : SvdSolveDoc lib.svdSolve) (dflt : Order) {a b : TRef 𝕜} (ha : a.t.WF)
    (hb : b.Ok) {n k : Nat} {A : Matrix (Fin n) (Fin n) 𝕜} {B : Matrix (Fin n) (Fin k) 𝕜} (hA : a.t.arr.IsMat A) (hB : b.t.arr.IsMat B)
    (hdet : A.det ≠ 0) (hc : ∃ r, lib.svd true n n A = .ok r) :
    ∃ x X, faerRefSolve lib dflt a b = .ok (a.t, x) ∧ Leaves b x X ∧ x.cloneToMut dflt = .ok x ∧ A * X = B := by
  obtain ⟨⟨U, s, V⟩, h⟩ := hc
  obtain ⟨r, h1, h2⟩ := hl true n n A U s V h
  obtain rfl : s = fun i => (r i : 𝕜) := funext h1
  have h3 := hi n k A U r V B h2 hdet
  obtain ⟨d0, d1⟩ := dimAt2 (l := a.t.layout) hA.1
  obtain ⟨x, x1, x2, x3⟩ := convertFaer_ok dflt hb hB
  obtain ⟨e0, e1⟩ := dimAt2 (l := x.view.layout) x2.mat.1
  obtain ⟨y, y1, y2, y3⟩ := solveFinish_ok dflt hb hB x2 x3 (lib.svdSolve n k U (fun i => (r i : 𝕜)) V B)
  refine ⟨y, _, ?_, y2, y3, h3⟩
  have key : svdSolveIn lib dflt n n A b = .ok y := by
    unfold svdSolveIn
    rw [dif_pos rfl]
    show (liftFaer (lib.svd true n n A) >>= _) = _
    rw [h]
    simp only [liftFaer, ok_bind, x1]
    rw [e0, e1]
    simp only [faerAssert, decide_true, if_true, loadFaer_ok x2.wf x2.mat, ok_bind]
    exact y1
  unfold faerRefSolve
  rw [d0, d1]
  simp only [loadFaer_ok ha hA, ok_bind, key]
  rfl

/-- Solving `A X = B`, for every layout of both: the matrix on the right holds the solution if it may be overwritten. -/
theorem C82_solve_matrix (lib : FaerLib 𝕜 ρ) (hl : FaerSvdDoc lib.svd) (hi : SvdSolveDoc lib.svdSolve) (dflt : Order) (a b : TRef 𝕜) (ha : a.t.WF)
    (hb : b.Ok) {n k : Nat} (A : Matrix (Fin n) (Fin n) 𝕜) (B : Matrix (Fin n) (Fin k) 𝕜) (hA : a.t.arr.IsMat A) (hB : b.t.arr.IsMat B)
    (hdet : A.det ≠ 0) (hc : ∃ r, lib.svd true n n A = .ok r) :
    ∃ x X, faerSolve lib dflt a b = .ok (a.t, x) ∧ x.WF ∧ x.arr.IsMat X ∧ A * X = B ∧ ResultIn b x := by
  obtain ⟨x, X, x1, x2, x3, x4⟩ := faerRefSolve_ok lib hl hi dflt ha hb hA hB hdet hc
  obtain ⟨y, y1, y2, y3, y4⟩ := solveWith_mat dflt hA hB x1 x2 x3
  exact ⟨y, X, y1, y2, y3, x4, y4⟩

/-- The same with a vector on the right. -/
theorem C82_solve_vector (lib : FaerLib 𝕜 ρ) (hl : FaerSvdDoc lib.svd) (hi : SvdSolveDoc lib.svdSolve) (dflt : Order) (a b : TRef 𝕜)
    (ha : a.t.WF) (hb : b.Ok) {n : Nat} (A : Matrix (Fin n) (Fin n) 𝕜) (v : Fin n → 𝕜) (hA : a.t.arr.IsMat A) (hv : b.t.arr.IsVec v)
    (hdet : A.det ≠ 0) (hc : ∃ r, lib.svd true n n A = .ok r) :
    ∃ x w, faerSolve lib dflt a b = .ok (a.t, x) ∧ x.WF ∧ x.arr.IsVec w ∧ A.mulVec w = v ∧ ResultIn b x := by
  obtain ⟨c, c1, c2, c3, c4, c5, c6⟩ := column_ok b hb hv
  obtain ⟨x, X, x1, x2, x3, x4⟩ := faerRefSolve_ok lib hl hi dflt ha c2 hA c5 hdet hc
  obtain ⟨y, y1, y2, y3, y4⟩ := solveWith_vec dflt hb hA hv c1 c3 c4 c5.1 c6 x1 x2 x3
  exact ⟨y, _, y1, y2, y3, mulVec_of_mul x4, y4⟩

theorem faerRefTriangular_ok (lib : FaerLib 𝕜 ρ) (hl : TriSolveDoc lib.triSolve) (dflt : Order) (uplo : Option UpLo) {a b : TRef 𝕜} (ha : a.t.WF)
    (hb : b.Ok) {n k : Nat} {A : Matrix (Fin n) (Fin n) 𝕜} {B : Matrix (Fin n) (Fin k) 𝕜} (hA : a.t.arr.IsMat A) (hB : b.t.arr.IsMat B)
    (hd : ∀ i, A i i ≠ 0) :
    ∃ x X, faerRefTriangular lib dflt uplo a b = .ok (a.t, x) ∧ Leaves b x X ∧ x.cloneToMut dflt = .ok x ∧
      triPart (uploOr dflt uplo) .nonUnit A * X = B := by
  obtain ⟨d0, d1⟩ := dimAt2 (l := a.t.layout) hA.1
  obtain ⟨x, x1, x2, x3⟩ := convertFaer_ok dflt hb hB
  obtain ⟨e0, e1⟩ := dimAt2 (l := x.view.layout) x2.mat.1
  obtain ⟨y, y1, y2, y3⟩ := solveFinish_ok dflt hb hB x2 x3 (lib.triSolve (uploOr dflt uplo) n k A B)
  refine ⟨y, _, ?_, y2, y3, hl _ n k A B hd⟩
  unfold faerRefTriangular
  simp only [x1, ok_bind]
  rw [d0, d1, e0, e1]
  simp only [faerAssert, and_self, decide_true, if_true, loadFaer_ok x2.wf x2.mat, loadFaer_ok ha hA, ok_bind, y1]
  rfl

/-- Solving with one triangle of a matrix, for every layout of both. -/
theorem C82_triangular_matrix (lib : FaerLib 𝕜 ρ) (hl : TriSolveDoc lib.triSolve) (dflt : Order) (uplo : Option UpLo) (u : UpLo)
    (hu : u = match uplo, dflt with | some u, _ => u | none, .C => .L | none, .F => .U) (a b : TRef 𝕜) (ha : a.t.WF) (hb : b.Ok) {n k : Nat}
    (A : Matrix (Fin n) (Fin n) 𝕜) (B : Matrix (Fin n) (Fin k) 𝕜) (hA : a.t.arr.IsMat A) (hB : b.t.arr.IsMat B) (hd : ∀ i, A i i ≠ 0) :
    ∃ x X, faerTriangularSolve lib dflt uplo a b = .ok (a.t, x) ∧ x.WF ∧ x.arr.IsMat X ∧ triPart u .nonUnit A * X = B ∧ ResultIn b x := by
  have hu := hu.trans (uploOr_eq dflt uplo).symm
  subst hu
  obtain ⟨x, X, x1, x2, x3, x4⟩ := faerRefTriangular_ok lib hl dflt uplo ha hb hA hB hd
  obtain ⟨y, y1, y2, y3, y4⟩ := solveWith_mat dflt hA hB x1 x2 x3
  exact ⟨y, X, y1, y2, y3, x4, y4⟩

/-- The same with a vector on the right. -/
theorem C82_triangular_vector (lib : FaerLib 𝕜 ρ) (hl : TriSolveDoc lib.triSolve) (dflt : Order) (uplo : Option UpLo) (u : UpLo)
    (hu : u = match uplo, dflt with | some u, _ => u | none, .C => .L | none, .F => .U) (a b : TRef 𝕜) (ha : a.t.WF) (hb : b.Ok) {n : Nat}
    (A : Matrix (Fin n) (Fin n) 𝕜) (v : Fin n → 𝕜) (hA : a.t.arr.IsMat A) (hv : b.t.arr.IsVec v) (hd : ∀ i, A i i ≠ 0) :
    ∃ x w, faerTriangularSolve lib dflt uplo a b = .ok (a.t, x) ∧ x.WF ∧ x.arr.IsVec w ∧ (triPart u .nonUnit A).mulVec w = v ∧ ResultIn b x := by
  have hu := hu.trans (uploOr_eq dflt uplo).symm
  subst hu
  obtain ⟨c, c1, c2, c3, c4, c5, c6⟩ := column_ok b hb hv
  obtain ⟨x, X, x1, x2, x3, x4⟩ := faerRefTriangular_ok lib hl dflt uplo ha c2 hA c5 hd
  obtain ⟨y, y1, y2, y3, y4⟩ := solveWith_vec dflt hb hA hv c1 c3 c4 c5.1 c6 x1 x2 x3
  exact ⟨y, _, y1, y2, y3, mulVec_of_mul x4, y4⟩

/-! ## Arguments that do not fit -/

/-- Arrays of the wrong number of dimensions are an error. Missing: matrices of the wrong size (`C82_false_square`). -/
theorem C82_reject_partial [Star α] (lib : FaerLib α ρ) (mem : FaerMem α) (sys : Order) (dev : FaerDev) (uplo : Option UpLo) (a : Tensor α)
    (h : a.arr.shape.length ≠ 2) : faerCholesky lib mem sys dev a uplo = .error .invalidLayout ∧ faerDet lib a = .error .invalidLayout ∧
      faerInv lib mem sys dev a = .error .invalidLayout := by
  have h : a.layout.ndim ≠ 2 := fun e => h ((ndim_len (l := a.layout) rfl).symm.trans e)
  exact ⟨if_pos h, if_pos h, if_pos h⟩

/-- The same for systems of equations. -/
theorem C82_reject_solve_partial (lib : FaerLib α ρ) (dflt : Order) (uplo : Option UpLo) (a b : TRef α)
    (h : a.t.arr.shape.length ≠ 2 ∨ b.t.arr.shape.length < 1 ∨ 2 < b.t.arr.shape.length) :
    faerSolve lib dflt a b = .error .invalidLayout ∧ faerTriangularSolve lib dflt uplo a b = .error .invalidLayout := by
  have ea : a.t.arr.shape.length = a.t.layout.ndim := (ndim_len (l := a.t.layout) rfl).symm
  have eb : b.t.arr.shape.length = b.t.layout.ndim := (ndim_len (l := b.t.layout) rfl).symm
  rw [ea, eb] at h
  unfold faerSolve faerTriangularSolve solveWith
  by_cases h1 : a.t.layout.ndim = 2
  · have h2 : b.t.layout.ndim < 1 ∨ 2 < b.t.layout.ndim := h.resolve_left (not_not.2 h1)
    exact ⟨by rw [if_neg (not_not.2 h1), if_pos h2], by rw [if_neg (not_not.2 h1), if_pos h2]⟩
  · exact ⟨by rw [if_pos h1], by rw [if_pos h1]⟩

/-! ## Where the property fails -/

/-- A matrix that is not square is a panic in the library, not an error. -/
theorem C82_false_square [Star α] (lib : FaerLib α ρ) (mem : FaerMem α) (sys : Order) (dev : FaerDev) (uplo : Option UpLo) (a : Tensor α) (ha : a.WF)
    {m n : Nat} (hs : a.arr.shape = [m, n]) (hne : m ≠ n) (hc : ∀ A, ∃ r, lib.svd true m n A = .ok r) :
    faerCholesky lib mem sys dev a uplo = .error .panic ∧ faerDet lib a = .error .panic ∧ faerInv lib mem sys dev a = .error .panic := by
  obtain ⟨A, hA⟩ := exists_isMat ha hs
  have na : a.layout.ndim = 2 := ndim_len (s := [m, n]) hs
  obtain ⟨d0, d1⟩ := dimAt2 (l := a.layout) hs
  obtain ⟨r, hr⟩ := hc A
  have hne' : ¬ n = m := fun e => hne e.symm
  refine ⟨?_, ?_, ?_⟩
  · unfold faerCholesky
    simp only [na, d0, d1, faerAssert, hne', ne_eq, not_true_eq_false, if_false, decide_false, Bool.false_eq_true]
    rfl
  · unfold faerDet
    simp only [na, d0, d1, faerAssert, hne', ne_eq, not_true_eq_false, if_false, decide_false, Bool.false_eq_true]
    rfl
  · unfold faerInv svdInv
    rw [d0, d1]
    simp only [na, loadFaer_ok ha hA, ok_bind, hne', dif_neg, hr, liftFaer, ne_eq, not_true_eq_false, if_false, not_false_eq_true]
    rfl

/-- A matrix on the right with another number of rows is a panic too. -/
theorem C82_false_rows (lib : FaerLib α ρ) (dflt : Order) (uplo : Option UpLo) (a b : TRef α) (ha : a.t.WF) (hb : b.Ok)
    {n r k : Nat} (hs : a.t.arr.shape = [n, n]) (hs' : b.t.arr.shape = [r, k]) (hne : r ≠ n) (hc : ∀ A, ∃ r, lib.svd true n n A = .ok r) :
    faerSolve lib dflt a b = .error .panic ∧ faerTriangularSolve lib dflt uplo a b = .error .panic := by
  obtain ⟨A, hA⟩ := exists_isMat ha hs
  obtain ⟨B, hB⟩ := exists_isMat hb.wf hs'
  have na : a.t.layout.ndim = 2 := ndim_len (s := [n, n]) hs
  have nb : b.t.layout.ndim = 2 := ndim_len (s := [r, k]) hs'
  obtain ⟨d0, d1⟩ := dimAt2 (l := a.t.layout) hs
  obtain ⟨⟨U, s, V⟩, hr⟩ := hc A
  obtain ⟨x, x1, x2, -⟩ := convertFaer_ok dflt hb hB
  obtain ⟨e0, e1⟩ := dimAt2 (l := x.view.layout) x2.mat.1
  constructor
  · refine solveWith_err dflt na (by omega) (asColumns_mat hB) ?_
    have key : svdSolveIn lib dflt n n A b = .error .panic := by
      unfold svdSolveIn
      rw [dif_pos rfl]
      show (liftFaer (lib.svd true n n A) >>= _) = _
      rw [hr]
      simp only [liftFaer, ok_bind, x1, e0, e1, faerAssert, decide_eq_true_eq, hne, if_false]
      rfl
    unfold faerRefSolve
    rw [d0, d1]
    simp only [loadFaer_ok ha hA, ok_bind, key]
    rfl
  · refine solveWith_err dflt na (by omega) (asColumns_mat hB) ?_
    unfold faerRefTriangular
    simp only [x1, ok_bind, d0, d1, e0, faerAssert, hne, and_false, decide_false, Bool.false_eq_true, if_false]
    rfl

/-- A singular matrix is no error: if the decomposition converges, `inv` gives a matrix, which cannot be an inverse. -/
theorem C82_false_singular (lib : FaerLib 𝕜 ρ) (mem : FaerMem 𝕜) (hm : mem.Fits) (sys : Order) (dev : FaerDev) (a : Tensor 𝕜) (ha : a.WF) {n : Nat}
    (A : Matrix (Fin n) (Fin n) 𝕜) (hA : a.arr.IsMat A) (hdet : A.det = 0) (hc : ∃ r, lib.svd true n n A = .ok r) :
    ∃ x X, faerInv lib mem sys dev a = .ok x ∧ x.t.arr.IsMat X ∧ A * X ≠ 1 := by
  obtain ⟨⟨U, s, V⟩, h⟩ := hc
  have na : a.layout.ndim = 2 := ndim_len (s := [n, n]) hA.1
  obtain ⟨d0, d1⟩ := dimAt2 (l := a.layout) hA.1
  obtain ⟨t, t1, t2, t3, -⟩ := contigOut_ok hm sys dev.order (lib.svdInverse n U s V)
  refine ⟨⟨t, .dflt sys⟩, _, ?_, t3, fun e => ?_⟩
  · unfold faerInv
    rw [d0, d1]
    simp only [na, loadFaer_ok ha hA, ok_bind, svdInv_ok lib h, ne_eq, not_true_eq_false, if_false]
    exact t1
  · have := congrArg Matrix.det e
    rw [Matrix.det_mul, hdet, zero_mul, Matrix.det_one] at this
    exact zero_ne_one this

/-! ## Cases that meet the hypotheses -/

open Classical in
/-- Arithmetic that meets the documentation. -/
noncomputable def faerLib (𝕜 : Type) [RCLike 𝕜] : FaerLib 𝕜 ℝ where
  re := RCLike.re
  ofRe := fun x => (x : 𝕜)
  llt u _ A := if h : (mirror true u A).PosDef then .ok (exists_cholesky .L h).choose else .error ()
  det _ A := A.det
  svd full m n A :=
    if h : ∃ (U : Matrix (Fin m) (Fin (leftCount full m n)) 𝕜) (s : Fin (min m n) → ℝ) (V : Matrix (Fin n) (Fin (rightCount full m n)) 𝕜), IsSvd A U s Vᴴ then
      .ok (h.choose, fun i => (h.choose_spec.choose i : 𝕜), h.choose_spec.choose_spec.choose) else .error ()
  svdInverse n U s V := (U * sigma n n (fun i => RCLike.re (s i)) * Vᴴ)⁻¹
  svdSolve n _ U s V B := (U * sigma n n (fun i => RCLike.re (s i)) * Vᴴ)⁻¹ * B
  triSolve u n k A B := (exactBlas 𝕜).trsm .L u .N .nonUnit n k 1 A B
  eigen u _ A := if h : (mirror true u A).IsHermitian then .ok ((exists_ev h).choose_spec.choose, fun i => ((exists_ev h).choose i : 𝕜)) else .error ()
  eigvals u _ A := if h : (mirror true u A).IsHermitian then .ok (exists_ev h).choose else .error ()
  svals m n A := if h : ∃ s : Fin (min m n) → ℝ, IsSvals A s then .ok h.choose else .error ()

theorem faer_llt (𝕜 : Type) [RCLike 𝕜] : LltDoc (faerLib 𝕜).llt := by
  refine ⟨fun u n A H hs hH => ?_, fun u n A H hs hH hp => ?_⟩
  · have e : mirror true u A = H := mirror_eq hs hH.isHermitian
    have hh : (mirror true u A).PosDef := e ▸ hH
    have := (exists_cholesky .L hh).choose_spec
    exact ⟨_, dif_pos hh, this.1, this.2.trans e⟩
  · have e : mirror true u A = H := mirror_eq hs hH
    exact dif_neg (e ▸ hp)

theorem faer_svd (𝕜 : Type) [RCLike 𝕜] : FaerSvdDoc (faerLib 𝕜).svd ∧ SvdInverseDoc (faerLib 𝕜).svdInverse ∧ SvdSolveDoc (faerLib 𝕜).svdSolve := by
  refine ⟨fun full m n A U s V h => ?_, fun n A U r V h hd => ?_, fun n k A U r V B h hd => ?_⟩
  · simp only [faerLib] at h
    split at h
    · rename_i e
      simp only [Except.ok.injEq, Prod.mk.injEq] at h
      obtain ⟨rfl, rfl, rfl⟩ := h
      exact ⟨_, fun _ => rfl, e.choose_spec.choose_spec.choose_spec⟩
    · cases h
  · simp only [faerLib, RCLike.ofReal_re]
    rw [← h.product, Matrix.mul_nonsing_inv A (by simpa using hd)]
  · simp only [faerLib, RCLike.ofReal_re]
    rw [← h.product, ← Matrix.mul_assoc, Matrix.mul_nonsing_inv A (by simpa using hd), Matrix.one_mul]

theorem faerSvd_ok {m n : Nat} {A : Matrix (Fin m) (Fin n) 𝕜} {full : Bool} {U : Matrix (Fin m) (Fin (leftCount full m n)) 𝕜} {s : Fin (min m n) → ℝ}
    {V : Matrix (Fin n) (Fin (rightCount full m n)) 𝕜} (h : IsSvd A U s Vᴴ) : ∃ r, (faerLib 𝕜).svd full m n A = .ok r := ⟨_, dif_pos ⟨U, s, V, h⟩⟩

theorem faer_tri (𝕜 : Type) [RCLike 𝕜] : TriSolveDoc (faerLib 𝕜).triSolve := by
  intro u n k A B h
  have := exact_trsm 𝕜 .L u .N .nonUnit n k 1 A B (fun i => by simpa [triPart] using h i)
  show triPart u .nonUnit A * (exactBlas 𝕜).trsm .L u .N .nonUnit n k 1 A B = B
  simp only [SolvesTri, one_smul] at this
  exact this

/-- Columns are ten cells longer than they need to be. -/
def faerMem (α : Type) [Zero α] : FaerMem α := ⟨fun m _ => m + 10, 0⟩
theorem faerMem_fits (α : Type) [Zero α] : (faerMem α).Fits := fun _ _ => Nat.le_add_right _ _

example := C82_cholesky (faerLib ℂ) (faer_llt ℂ) (faerMem ℂ) (faerMem_fits ℂ) .C ⟨.C, 2⟩ none .L rfl symA.t symA_ok.wf _ _ symA_mat symA_tri symH_pos
example := C82_cholesky_indefinite (faerLib ℝ) (faer_llt ℝ) (faerMem ℝ) .C ⟨.F, 2⟩ none .U rfl symB.t symB_ok.1.wf _ _ symB_mat.1 (fun _ _ _ => rfl)
  (symB_self true) symB_indefinite
example := C82_det (faerLib ℝ) (fun _ _ => rfl) symB.t symB_ok.1.wf _ symB_mat.1

theorem symB_svd : IsSvd (!![0, 1; 1, 0] : Matrix (Fin 2) (Fin 2) ℝ) (!![0, 1; 1, 0] : Matrix (Fin 2) (Fin 2) ℝ) (fun _ => 1)
    ((1 : Matrix (Fin 2) (Fin 2) ℝ)ᴴ) where
  left := by ext i j; fin_cases i <;> fin_cases j <;> simp [Matrix.mul_apply, Fin.sum_univ_two]
  right := by simp
  product := by ext i j; fin_cases i <;> fin_cases j <;> simp [sigma, Matrix.vecMul, dotProduct]
  nonneg := by intro i; simp
  desc := by intro i j h; simp

theorem symR_svd : IsSvd (0 : Matrix (Fin 2) (Fin 2) ℝ) (1 : Matrix (Fin 2) (Fin 2) ℝ) (fun _ => 0) ((1 : Matrix (Fin 2) (Fin 2) ℝ)ᴴ) where
  left := by simp
  right := by simp
  product := by ext i j; simp [sigma]
  nonneg := by intro i; simp
  desc := by intro i j h; simp

theorem symB_conv : ∃ r, (faerLib ℝ).svd true 2 2 !![0, 1; 1, 0] = .ok r := faerSvd_ok (full := true) symB_svd

example := C82_inv (faerLib ℝ) (faer_svd ℝ).1 (faer_svd ℝ).2.1 (faerMem ℝ) (faerMem_fits ℝ) .C ⟨.F, 0⟩ symB.t symB_ok.1.wf _ symB_mat.1
  (by simp [Matrix.det_fin_two]) symB_conv
example := C82_solve_matrix (faerLib ℝ) (faer_svd ℝ).1 (faer_svd ℝ).2.2 .C symB symR symB_ok.1.wf symB_ok.2.1 _ _ symB_mat.1 symB_mat.2.1
  (by simp [Matrix.det_fin_two]) symB_conv
example := C82_solve_vector (faerLib ℝ) (faer_svd ℝ).1 (faer_svd ℝ).2.2 .F symB symV symB_ok.1.wf symB_ok.2.2 _ _ symB_mat.1
  symB_mat.2.2 (by simp [Matrix.det_fin_two]) symB_conv
example := C82_triangular_matrix (faerLib ℂ) (faer_tri ℂ) .C none .L rfl symA symA symA_ok.wf symA_ok _ _ symA_mat symA_mat
  (by intro i; fin_cases i <;> simp)
example := C82_triangular_vector (faerLib ℂ) (faer_tri ℂ) .F none .U rfl symA ⟨⟨[1, 2, 3], ⟨[⟨2, -2⟩], 2⟩⟩, true⟩ symA_ok.wf
  ⟨⟨by decide, rfl⟩, fun _ => by decide⟩ _ ![3, 1] symA_mat ⟨rfl, fun i => by fin_cases i <;> rfl⟩ (by intro i; fin_cases i <;> simp)
example := C82_reject_partial (faerLib ℂ) (faerMem ℂ) .C ⟨.C, 0⟩ none ⟨[1, 2], ⟨[⟨2, 1⟩], 0⟩⟩ (by decide)
example := C82_reject_solve_partial (faerLib ℝ) .C none symB ⟨⟨[1], ⟨[], 0⟩⟩, false⟩ (.inr (.inl (by decide)))

/-- A library whose decomposition always gives something. -/
noncomputable def faerAny : FaerLib ℝ ℝ := { faerLib ℝ with svd := fun _ _ _ _ => .ok (0, 0, 0) }
example := C82_false_square faerAny (faerMem ℝ) .C ⟨.C, 0⟩ none ⟨[1, 2, 3, 4, 5, 6], ⟨[⟨2, 3⟩, ⟨3, 1⟩], 0⟩⟩ ⟨by decide, rfl⟩ (m := 2) (n := 3) rfl (by decide)
  fun _ => ⟨_, rfl⟩
example := C82_false_rows faerAny .C none symB ⟨⟨[1, 2, 3], ⟨[⟨3, 1⟩, ⟨1, 1⟩], 0⟩⟩, true⟩ symB_ok.1.wf ⟨⟨by decide, rfl⟩, fun _ => by decide⟩
  (n := 2) (r := 3) (k := 1) rfl rfl (by decide) fun _ => ⟨_, rfl⟩
example := C82_false_singular (faerLib ℝ) (faerMem ℝ) (faerMem_fits ℝ) .C ⟨.C, 0⟩ symR.t symB_ok.2.1.wf _ symB_mat.2.1 (by simp)
  (faerSvd_ok (full := true) symR_svd)

end
end Rstsr
