import Verif.Proof.Pinv
import Verif.Thm.Svd
import Verif.Thm.Reduce
import Mathlib.LinearAlgebra.Matrix.Rank
/-!
# Theorems on the pseudo-inverse (C79)
-/
namespace Rstsr
open Spec Matrix

section
variable {𝕜 : Type} [RCLike 𝕜]

/-- The maximum of numbers in descending order is the first one. -/
theorem maxAll_desc (dflt : Order) (par : Option Scheduler) (hp : Device par) {k : Nat} (hk : 0 < k) (l : Fin k → ℝ) (hd : Antitone l)
    (h0 : ∀ i, 0 ≤ l i) (lo : ℝ) (hlo : lo ≤ 0) : (valuesOf l).maxAll dflt par lo max = .ok (l ⟨0, hk⟩) := by
  obtain ⟨w, v⟩ := valuesOf_ok l
  have he := elements_vec v
  obtain ⟨x, x1, x2, x3⟩ := (C38_max dflt par hp (valuesOf l) w lo (by
    rw [he]; intro x hx; obtain ⟨i, rfl⟩ := List.mem_ofFn.1 hx; exact hlo.trans (h0 i))).2 (by
    rw [he]; intro e; have := congrArg List.length e; simp at this; omega)
  rw [x1]
  rw [he] at x2 x3
  obtain ⟨i, rfl⟩ := List.mem_ofFn.1 x2
  congr 1
  exact le_antisymm (hd (Fin.mk_le_of_le_val (Nat.zero_le _))) (x3 _ (List.mem_ofFn.2 ⟨_, rfl⟩))

/-- The number of singular values above the tolerance, as counted by the code. -/
theorem count_spec' {k : Nat} (l : Fin k → ℝ) (hd : Antitone l) (tol : ℝ) :
    ((valuesOf l).data.takeWhile fun x => decide (tol < x)).length ≤ k ∧
    ∀ i : Fin k, (i : Nat) < ((valuesOf l).data.takeWhile fun x => decide (tol < x)).length ↔ tol < l i := by
  have hl : (valuesOf l).data = List.ofFn l := rfl
  rw [hl]
  obtain ⟨h1, h2⟩ := takeWhile_spec (p := fun x : ℝ => decide (tol < x)) (List.ofFn l)
  have hle : ((List.ofFn l).takeWhile fun x => decide (tol < x)).length ≤ k := by
    simpa using (List.takeWhile_prefix (l := List.ofFn l) (fun x : ℝ => decide (tol < x))).length_le
  refine ⟨hle, fun i => ⟨fun h => ?_, fun h => ?_⟩⟩
  · simpa using h1 i (by simp) h
  · by_contra hn
    generalize ((List.ofFn l).takeWhile fun x => decide (tol < x)).length = r at *
    have := h2 (by simp; omega)
    simp only [List.getElem_ofFn, decide_eq_false_iff_not, not_lt] at this
    exact absurd (h.trans_le (hd (show (⟨r, by omega⟩ : Fin k) ≤ i from by simpa [Fin.le_def] using hn))) (not_lt.2 this)

theorem card_of_iff {k r : Nat} (hr : r ≤ k) (p : Fin k → Prop) [DecidablePred p] (h : ∀ i : Fin k, (i : Nat) < r ↔ p i) :
    (Finset.univ.filter p).card = r := by
  have : Finset.univ.filter p = (Finset.univ : Finset (Fin r)).map (Fin.castLEEmb hr) := by
    ext i
    simp only [Finset.mem_filter, Finset.mem_univ, true_and, Finset.mem_map, ← h]
    exact ⟨fun hi => ⟨⟨i, hi⟩, rfl⟩, fun ⟨j, hj⟩ => hj ▸ j.2⟩
  rw [this]
  simp

/-- The equations for a product with orthonormal outer factors. -/
theorem isPinv_of {m n r : Nat} {U : Matrix (Fin m) (Fin r) 𝕜} {W : Matrix (Fin r) (Fin n) 𝕜} (hU : Uᴴ * U = 1) (hW : W * Wᴴ = 1) (d : Fin r → ℝ)
    (hd : ∀ i, d i ≠ 0) :
    IsPinv (U * diagonal (fun i => (d i : 𝕜)) * W) (Wᴴ * diagonal (fun i => ((d i)⁻¹ : 𝕜)) * Uᴴ) := by
  have e1 : diagonal (fun i => (d i : 𝕜)) * diagonal (fun i => ((d i : 𝕜))⁻¹) = 1 := by
    rw [diagonal_mul_diagonal, ← diagonal_one]
    congr 1
    funext i
    exact mul_inv_cancel₀ (by simpa using hd i)
  have e2 : diagonal (fun i => ((d i : 𝕜))⁻¹) * diagonal (fun i => (d i : 𝕜)) = 1 := by
    rw [diagonal_mul_diagonal, ← diagonal_one]
    congr 1
    funext i
    exact inv_mul_cancel₀ (by simpa using hd i)
  generalize diagonal (fun i => (d i : 𝕜)) = D at *
  generalize diagonal (fun i => ((d i : 𝕜))⁻¹) = E at *
  have a : U * D * W * (Wᴴ * E * Uᴴ) = U * Uᴴ := by
    calc U * D * W * (Wᴴ * E * Uᴴ) = U * D * (W * Wᴴ) * E * Uᴴ := by simp only [Matrix.mul_assoc]
      _ = U * (D * E) * Uᴴ := by rw [hW]; simp only [Matrix.mul_assoc, Matrix.one_mul]
      _ = U * Uᴴ := by rw [e1, Matrix.mul_one]
  have b : Wᴴ * E * Uᴴ * (U * D * W) = Wᴴ * W := by
    calc Wᴴ * E * Uᴴ * (U * D * W) = Wᴴ * E * (Uᴴ * U) * D * W := by simp only [Matrix.mul_assoc]
      _ = Wᴴ * (E * D) * W := by rw [hU]; simp only [Matrix.mul_assoc, Matrix.one_mul]
      _ = Wᴴ * W := by rw [e2, Matrix.mul_one]
  refine ⟨?_, ?_, ?_, ?_⟩
  · rw [a]
    calc U * Uᴴ * (U * D * W) = U * (Uᴴ * U) * D * W := by simp only [Matrix.mul_assoc]
      _ = U * D * W := by rw [hU, Matrix.mul_one]
  · rw [b]
    calc Wᴴ * W * (Wᴴ * E * Uᴴ) = Wᴴ * (W * Wᴴ) * E * Uᴴ := by simp only [Matrix.mul_assoc]
      _ = Wᴴ * E * Uᴴ := by rw [hW, Matrix.mul_one]
  · rw [a, conjTranspose_mul, conjTranspose_conjTranspose]
  · rw [b, conjTranspose_mul, conjTranspose_conjTranspose]

/-- The matrix without the small singular values, by its leading vectors. -/
theorem cut_eq {m n k r : Nat} (hr : r ≤ k) (U : Matrix (Fin m) (Fin k) 𝕜) (Vt : Matrix (Fin k) (Fin n) 𝕜) (s : Fin k → ℝ) (tol : ℝ)
    (h : ∀ i : Fin k, (i : Nat) < r ↔ tol < s i) :
    U * sigma k k (above tol s) * Vt =
      U.submatrix id (Fin.castLE hr) * diagonal (fun i => (s (Fin.castLE hr i) : 𝕜)) * Vt.submatrix (Fin.castLE hr) id := by
  have e : (sigma k k (above tol s) : Matrix (Fin k) (Fin k) 𝕜) = diagonal fun i => ((above tol s i : ℝ) : 𝕜) := by
    ext i j
    simp only [sigma, diagonal_apply, Fin.ext_iff]
    by_cases hij : (i : Nat) = j
    · rw [dif_pos ⟨hij, i.2⟩, if_pos hij]
    · rw [dif_neg (fun h => hij h.1), if_neg hij]
  rw [e]
  ext i j
  rw [Matrix.mul_apply, Matrix.mul_apply]
  simp only [mul_diagonal, submatrix_apply, id]
  symm
  refine Fintype.sum_of_injective (Fin.castLE hr) (Fin.castLE_injective hr) _ _ ?_ ?_
  · intro a ha
    have : ¬ tol < s a := by
      rw [← h a]
      intro hlt
      exact ha ⟨⟨a, hlt⟩, rfl⟩
    simp [above, this]
  · intro a
    have : tol < s (Fin.castLE hr a) := (h _).1 a.2
    simp [above, this]

theorem cols_orth {m k r : Nat} (hr : r ≤ k) {U : Matrix (Fin m) (Fin k) 𝕜} (h : Uᴴ * U = 1) :
    (U.submatrix id (Fin.castLE hr))ᴴ * U.submatrix id (Fin.castLE hr) = 1 := by
  ext i j
  have := congrFun (congrFun h (Fin.castLE hr i)) (Fin.castLE hr j)
  simp only [Matrix.mul_apply, conjTranspose_apply, submatrix_apply, id] at this ⊢
  rw [this]
  simp [Matrix.one_apply]

theorem rows_orth {n k r : Nat} (hr : r ≤ k) {V : Matrix (Fin k) (Fin n) 𝕜} (h : V * Vᴴ = 1) :
    V.submatrix (Fin.castLE hr) id * (V.submatrix (Fin.castLE hr) id)ᴴ = 1 := by
  ext i j
  have := congrFun (congrFun h (Fin.castLE hr i)) (Fin.castLE hr j)
  simp only [Matrix.mul_apply, conjTranspose_apply, submatrix_apply, id] at this ⊢
  rw [this]
  simp [Matrix.one_apply]

theorem conj_product {m n r : Nat} (U : Matrix (Fin m) (Fin r) 𝕜) (W : Matrix (Fin r) (Fin n) 𝕜) (d : Fin r → ℝ) :
    (Wᵀ * (Matrix.of fun i j => U i j / ((d j : ℝ) : 𝕜))ᵀ).map star = Wᴴ * diagonal (fun i => ((d i : 𝕜))⁻¹) * Uᴴ := by
  ext i j
  rw [Matrix.map_apply, Matrix.mul_apply, Matrix.mul_apply]
  simp only [mul_diagonal, transpose_apply, of_apply, conjTranspose_apply, star_sum, star_mul', div_eq_mul_inv, star_inv₀]
  refine Finset.sum_congr rfl fun k _ => ?_
  have : star ((d k : ℝ) : 𝕜) = ((d k : ℝ) : 𝕜) := RCLike.conj_ofReal _
  rw [this]
  ring

/-- The tolerance in use: the sum of the absolute one and of the relative one times the largest singular value; `max m n * eps` and zero if none are given. -/
noncomputable def pinvTol (eps : ℝ) (m n : Nat) (top : ℝ) : Option (ℝ × ℝ) → ℝ
  | some (atol, rtol) => atol + rtol * top
  | none => ((max m n : Nat) : ℝ) * eps * top

/-- C79: `pinv` of a matrix with a singular value above the tolerance gives the pseudo-inverse of the matrix without the singular values up to the
tolerance, and the number of those above it. -/
theorem C79_pinv_partial (lib : LapackSvd 𝕜 ℝ) (hl : SvdDoc lib.svd) (blas : Blas3 𝕜) (hb : GemmDoc blas.gemm) (dflt : Order) (par : Option Scheduler)
    (hp : Device par) (lo : ℝ) (hlo : lo ≤ 0) (eps : ℝ) (a : Tensor 𝕜) (ha : a.WF) {m n : Nat} (hm : m ≠ 0) (hn : n ≠ 0) (A : Matrix (Fin m) (Fin n) 𝕜)
    (hA : a.arr.IsMat A) (hc : ∃ r, lib.svd true false m n A = .ok r) (tol : Option (ℝ × ℝ))
    {U : Matrix (Fin m) (Fin (min m n)) 𝕜} {l : Fin (min m n) → ℝ} {Vt : Matrix (Fin (min m n)) (Fin n) 𝕜} (hs : IsSvd A U l Vt)
    (htol : 0 ≤ pinvTol eps m n (l ⟨0, by omega⟩) tol) (hr : pinvTol eps m n (l ⟨0, by omega⟩) tol < l ⟨0, by omega⟩) :
    ∃ r P B, pinv lib blas dflt par lo eps (fun x s => x / (s : 𝕜)) a tol = .ok r ∧ r.pinv.WF ∧ r.pinv.arr.IsMat P ∧
      IsCut A l (pinvTol eps m n (l ⟨0, by omega⟩) tol) B ∧ IsPinv B P ∧
      r.rank = (Finset.univ.filter fun i => pinvTol eps m n (l ⟨0, by omega⟩) tol < l i).card := by
  have hk : 0 < min m n := by omega
  have na : a.layout.ndim = 2 := ndim_len (s := [m, n]) hA.1
  obtain ⟨⟨L, U', s, V⟩, hc⟩ := hc
  have hd := hl _ _ _ _ _ _ _ _ _ hc
  obtain rfl : l = s := svals_unique (full := false) (full' := false) hs hd
  obtain ⟨u, vt, e1, wu, mu, wv, mv, o, fu, fv⟩ := (svdRun_fresh lib true dflt ha false hm hn hA (.inl rfl)).2 _ _ _ _ hc
  obtain ⟨d0, d1⟩ := dimAt2 (l := a.layout) hA.1
  have ev : (tol.map (·.1)).getD 0 + pinvRtol eps a.layout (tol.map (·.2)) * l ⟨0, hk⟩ = pinvTol eps m n (l ⟨0, hk⟩) tol := by
    cases tol with
    | none => simp [pinvRtol, pinvTol, d0, d1]
    | some t => rfl
  change Matrix (Fin m) (Fin (min m n)) 𝕜 at U'
  change Matrix (Fin (min m n)) (Fin n) 𝕜 at V
  change u.layout = freshLayout o [m, min m n] at fu
  change vt.layout = freshLayout o [min m n, n] at fv
  obtain ⟨c1, c2⟩ := count_spec' l hd.desc (pinvTol eps m n (l ⟨0, hk⟩) tol)
  have c3 := (c2 ⟨0, hk⟩).2 hr
  have hmax := maxAll_desc dflt par hp hk l hd.desc hd.nonneg lo hlo
  unfold pinv refPinv
  rw [if_neg (by simp [na]), e1]
  simp only [ok_bind, hmax, orPanic, ev]
  generalize hrk : ((valuesOf l).data.takeWhile fun x => decide (pinvTol eps m n (l ⟨0, hk⟩) tol < x)).length = r at *
  simp only at c3
  have hr0 : r ≠ 0 := by omega
  obtain ⟨s0, s1, xu⟩ := axes2 (l := u.layout) (by rw [fu]; exact freshLayout_shape _ _)
  obtain ⟨t0, t1, xv⟩ := axes2 (l := vt.layout) (by rw [fv]; exact freshLayout_shape _ _)
  have zu : (0 : Int) ∉ u.layout.stride := by rw [fu]; exact freshLayout_nonzero _ _ (by simp; omega)
  have ou : u.layout.offset = 0 := by rw [fu]; cases o <;> rfl
  have ov : vt.layout.offset = 0 := by rw [fv]; cases o <;> rfl
  obtain ⟨f1, g1⟩ := slice_cols wu.fit.valid xu c1
  obtain ⟨f2, g2⟩ := slice_rows wv.fit.valid xv c1
  obtain ⟨w1, m1⟩ := corner_ok wu mu xu le_rfl c1 g1
  obtain ⟨w2, m2⟩ := corner_ok wv mv xv c1 le_rfl g2
  obtain ⟨c, b1, b2, b3, b4⟩ := scaleCols_ok dflt w1 m1 (by simpa [Layout.stride, xu] using zu) l c1 (fun x s => x / (s : 𝕜))
  obtain ⟨x, x1, x2, x3, -⟩ := C74_product_partial blas hb dflt 1 0 .N .N (some dflt) _ _ none (flipped_wf w2) (flipped_wf b2) hn hm hr0
    _ _ 0 (flipped_mat w2 m2) (flipped_mat b2 b4) (fun _ => rfl) (by simp) (.inl ov) (.inl (by
      show c.layout.offset = 0
      rw [b3]; exact ou))
  obtain ⟨y, y1, y2, y3⟩ := mutable_owned dflt x2 x3
  obtain ⟨z, z1, z2, -, z4, -⟩ := C36_unary_consume dflt y star y2
  have z5 := isMat_map y3 z4
  have es : (valuesOf l).sliced [.insert, upTo r] = .ok ⟨List.ofFn l, ⟨[⟨1, 1⟩, ⟨r, 1⟩], 0⟩⟩ := by
    unfold Tensor.sliced
    rw [show (valuesOf l).layout = ⟨[⟨min m n, 1⟩], 0⟩ from rfl, slice_row c1]
    rfl
  have eu : u.sliced [Layout.fullSlice, upTo r] = .ok ⟨u.data, ⟨[⟨m, s0⟩, ⟨r, s1⟩], u.layout.offset⟩⟩ := by
    unfold Tensor.sliced
    rw [f1]
    rfl
  have evt : vt.sliced [upTo r, Layout.fullSlice] = .ok ⟨vt.data, ⟨[⟨r, t0⟩, ⟨n, t1⟩], vt.layout.offset⟩⟩ := by
    unfold Tensor.sliced
    rw [f2]
    rfl
  simp only [eu, es, evt, ok_bind, b1, x1, y1, z1]
  refine ⟨_, _, _, rfl, z2, z5, ⟨U', V, hd, rfl⟩, ?_, (card_of_iff c1 _ c2).symm⟩
  rw [cut_eq c1 U' V l _ c2]
  have := isPinv_of (cols_orth c1 hd.left) (rows_orth c1 hd.right) (fun i => l (Fin.castLE c1 i)) (fun i => by
    have := (c2 (Fin.castLE c1 i)).1 i.2
    linarith)
  rw [← conj_product] at this
  rw [one_smul, zero_smul, add_zero]
  exact this

theorem sigma_diag {k : Nat} (s : Fin k → ℝ) : (sigma k k s : Matrix (Fin k) (Fin k) 𝕜) = diagonal fun i => ((s i : ℝ) : 𝕜) := by
  ext i j
  simp only [sigma, diagonal_apply, Fin.ext_iff]
  by_cases hij : (i : Nat) = j
  · rw [dif_pos ⟨hij, i.2⟩, if_pos hij]
  · rw [dif_neg (fun h => hij h.1), if_neg hij]

/-- The rank is the number of singular values that are not zero. -/
theorem rank_svd {m n : Nat} {A : Matrix (Fin m) (Fin n) 𝕜} {U : Matrix (Fin m) (Fin (min m n)) 𝕜} {l : Fin (min m n) → ℝ}
    {Vt : Matrix (Fin (min m n)) (Fin n) 𝕜} (h : IsSvd A U l Vt) : A.rank = (Finset.univ.filter fun i => l i ≠ 0).card := by
  have hp := h.product
  rw [sigma_diag] at hp
  have e : Uᴴ * A * Vtᴴ = diagonal fun i => ((l i : ℝ) : 𝕜) := by
    rw [hp]
    calc Uᴴ * (U * diagonal (fun i => ((l i : ℝ) : 𝕜)) * Vt) * Vtᴴ = Uᴴ * U * diagonal (fun i => ((l i : ℝ) : 𝕜)) * (Vt * Vtᴴ) := by
          simp only [Matrix.mul_assoc]
      _ = _ := by rw [h.left, h.right, Matrix.one_mul, Matrix.mul_one]
  have hd : (diagonal fun i => ((l i : ℝ) : 𝕜)).rank = (Finset.univ.filter fun i => l i ≠ 0).card := by
    rw [rank_diagonal, Fintype.card_subtype]
    congr 1
    ext i
    simp
  rw [← hd]
  apply le_antisymm
  · rw [hp]
    exact (rank_mul_le_left _ _).trans (rank_mul_le_right _ _)
  · rw [← e]
    exact (rank_mul_le_left _ _).trans (rank_mul_le_right _ _)

/-- C79: if all singular values up to the tolerance are zero, `pinv` gives the pseudo-inverse and the rank of the matrix itself. -/
theorem C79_exact_partial (lib : LapackSvd 𝕜 ℝ) (hl : SvdDoc lib.svd) (blas : Blas3 𝕜) (hb : GemmDoc blas.gemm) (dflt : Order) (par : Option Scheduler)
    (hp : Device par) (lo : ℝ) (hlo : lo ≤ 0) (eps : ℝ) (a : Tensor 𝕜) (ha : a.WF) {m n : Nat} (hm : m ≠ 0) (hn : n ≠ 0) (A : Matrix (Fin m) (Fin n) 𝕜)
    (hA : a.arr.IsMat A) (hc : ∃ r, lib.svd true false m n A = .ok r) (tol : Option (ℝ × ℝ))
    {U : Matrix (Fin m) (Fin (min m n)) 𝕜} {l : Fin (min m n) → ℝ} {Vt : Matrix (Fin (min m n)) (Fin n) 𝕜} (hs : IsSvd A U l Vt)
    (htol : 0 ≤ pinvTol eps m n (l ⟨0, by omega⟩) tol) (h0 : A ≠ 0)
    (hex : ∀ i, l i ≤ pinvTol eps m n (l ⟨0, by omega⟩) tol → l i = 0) :
    ∃ r P, pinv lib blas dflt par lo eps (fun x s => x / (s : 𝕜)) a tol = .ok r ∧ r.pinv.WF ∧ r.pinv.arr.IsMat P ∧ IsPinv A P ∧ r.rank = A.rank := by
  have hk : 0 < min m n := by omega
  have hr : pinvTol eps m n (l ⟨0, hk⟩) tol < l ⟨0, hk⟩ := by
    by_contra hn
    have hz := hex _ (not_lt.1 hn)
    apply h0
    have : sigma (min m n) (min m n) l = (0 : Matrix _ _ 𝕜) := by
      rw [sigma_diag, ← diagonal_zero]
      congr 1
      funext i
      have := le_antisymm ((hs.desc (show (⟨0, hk⟩ : Fin _) ≤ i from Fin.mk_le_of_le_val (Nat.zero_le _))).trans hz.le) (hs.nonneg i)
      simp [this]
    rw [hs.product, this, Matrix.mul_zero, Matrix.zero_mul]
  obtain ⟨r, P, B, h1, h2, h3, ⟨U', V', h4, h5⟩, h6, h7⟩ := C79_pinv_partial lib hl blas hb dflt par hp lo hlo eps a ha hm hn A hA hc tol hs htol hr
  have ha : above (pinvTol eps m n (l ⟨0, hk⟩) tol) l = l := by
    funext i
    unfold above
    split
    · rfl
    · next h => exact (hex i (not_lt.1 h)).symm
  rw [ha, ← h4.product] at h5
  subst h5
  refine ⟨r, P, h1, h2, h3, h6, ?_⟩
  rw [h7, rank_svd hs]
  congr 1
  ext i
  simp only [Finset.mem_filter, Finset.mem_univ, true_and]
  exact ⟨fun h => (htol.trans_lt h).ne', fun h => not_le.1 fun h' => h (hex i h')⟩

/-- C79: the equations determine the pseudo-inverse. -/
theorem C79_unique {m n : Nat} {A : Matrix (Fin m) (Fin n) 𝕜} {P Q : Matrix (Fin n) (Fin m) 𝕜} (hP : IsPinv A P) (hQ : IsPinv A Q) : P = Q := by
  have e1 : P = P * A * Q := by
    have h : A * P = A * Q := by
      have : A * P = (A * Q * (A * P)) := by rw [← Matrix.mul_assoc, hQ.outer]
      have t : (A * P)ᴴ = (A * P)ᴴ * (A * Q)ᴴ := by
        conv_lhs => rw [this]
        rw [conjTranspose_mul]
      rw [hP.left, hQ.left, ← Matrix.mul_assoc, hP.outer] at t
      exact t
    rw [Matrix.mul_assoc, ← h, ← Matrix.mul_assoc, hP.inner]
  have e2 : Q = P * A * Q := by
    have h : P * A = Q * A := by
      have : P * A = P * A * (Q * A) := by
        rw [Matrix.mul_assoc P A, ← Matrix.mul_assoc A Q A, hQ.outer]
      have t : (P * A)ᴴ = (Q * A)ᴴ * (P * A)ᴴ := by
        conv_lhs => rw [this]
        rw [conjTranspose_mul]
      rw [hP.right, hQ.right, Matrix.mul_assoc Q A, ← Matrix.mul_assoc A P A, hP.outer] at t
      exact t
    rw [h, hQ.inner]
  exact e1.trans e2.symm

/-- C79: of an invertible matrix it is the inverse. -/
theorem C79_invertible {n : Nat} {A P : Matrix (Fin n) (Fin n) 𝕜} (hA : IsUnit A) (hP : IsPinv A P) : P * A = 1 ∧ A * P = 1 := by
  obtain ⟨u, rfl⟩ := hA
  have h := hP.outer
  have e : (u : Matrix (Fin n) (Fin n) 𝕜) * P = 1 := by
    calc (u : Matrix (Fin n) (Fin n) 𝕜) * P = u * P * (u * (↑u⁻¹ : Matrix (Fin n) (Fin n) 𝕜)) := by rw [Units.mul_inv, Matrix.mul_one]
      _ = u * P * u * (↑u⁻¹ : Matrix (Fin n) (Fin n) 𝕜) := by rw [Matrix.mul_assoc (_ * P)]
      _ = 1 := by rw [h, Units.mul_inv]
  exact ⟨mul_eq_one_comm.1 e, e⟩

/-- A failure reported by LAPACK is an error. -/
theorem C79_fail_partial (lib : LapackSvd 𝕜 ℝ) (blas : Blas3 𝕜) (dflt : Order) (par : Option Scheduler) (lo eps : ℝ) (scale : 𝕜 → ℝ → 𝕜) (a : Tensor 𝕜)
    (ha : a.WF) {m n : Nat} (hm : m ≠ 0) (hn : n ≠ 0) (A : Matrix (Fin m) (Fin n) 𝕜) (hA : a.arr.IsMat A) (tol : Option (ℝ × ℝ)) (info : Int)
    (h : lib.svd true false m n A = .error info) : pinv lib blas dflt par lo eps scale a tol = .error (.errorCode info) := by
  have na : a.layout.ndim = 2 := ndim_len (s := [m, n]) hA.1
  unfold pinv refPinv
  rw [if_neg (by simp [na]), (svdRun_ok lib true dflt ha false hm hn hA (.inl rfl)).1 info h]
  rfl

/-- What is not a matrix is rejected. -/
theorem C79_reject (lib : LapackSvd 𝕜 ℝ) (blas : Blas3 𝕜) (dflt : Order) (par : Option Scheduler) (lo eps : ℝ) (scale : 𝕜 → ℝ → 𝕜) (a : Tensor 𝕜)
    (tol : Option (ℝ × ℝ)) (h : a.arr.shape.length ≠ 2) : pinv lib blas dflt par lo eps scale a tol = .error .invalidLayout :=
  if_pos fun h1 => h ((ndim_len (l := a.layout) rfl).symm.trans h1)

end

/-! ## Concrete cases -/

theorem pinvM_exact : ∀ i, (![3, 2] : Fin (min 2 3) → ℝ) i ≤ pinvTol (1 / 4096) 2 3 3 none → (![3, 2] : Fin (min 2 3) → ℝ) i = 0 := by
  intro i hi
  change Fin 2 at i
  exfalso
  revert hi
  fin_cases i <;> norm_num [pinvTol]

example := C79_pinv_partial (svdLib ℝ) (svdLib_doc ℝ).1 (exactBlas ℝ) (exact_gemm ℝ) .C none Device.serial (-1) (by norm_num) (1 / 4096) svdTcol svdT_ok.2.2.1
  two_ne_zero three_ne_zero svdM svdT_ok.2.2.2 (svdLib_ok svdM_thin) (some (1, 1 / 2)) svdM_thin (by norm_num [pinvTol]) (by norm_num [pinvTol])

example := C79_exact_partial (svdLib ℝ) (svdLib_doc ℝ).1 (exactBlas ℝ) (exact_gemm ℝ) .F none Device.serial (-1) (by norm_num) (1 / 4096) svdT svdT_ok.1
  two_ne_zero three_ne_zero svdM svdT_ok.2.1 (svdLib_ok svdM_thin) none svdM_thin (by norm_num [pinvTol])
  (fun h => by simpa [svdM] using congrFun (congrFun h 0) 1) pinvM_exact

/-- With the tolerance 5/2 only the singular value 3 counts. -/
example : ∃ r, pinv (svdLib ℝ) (exactBlas ℝ) .C none (-1) (1 / 4096) (fun x s => x / s) svdT (some (5 / 2, 0)) = .ok r ∧ r.rank = 1 := by
  obtain ⟨r, P, B, h1, -, -, -, -, h⟩ := C79_pinv_partial (svdLib ℝ) (svdLib_doc ℝ).1 (exactBlas ℝ) (exact_gemm ℝ) .C none Device.serial (-1) (by norm_num)
    (1 / 4096) svdT svdT_ok.1 two_ne_zero three_ne_zero svdM svdT_ok.2.1 (svdLib_ok svdM_thin) (some (5 / 2, 0)) svdM_thin (by norm_num [pinvTol])
    (by norm_num [pinvTol])
  refine ⟨r, h1, h.trans ?_⟩
  exact card_of_iff (k := 2) (r := 1) (by omega) _ fun i => by fin_cases i <;> norm_num [pinvTol]

example := C79_fail_partial (⟨fun _ _ _ _ _ => .error 7, (svdLib ℝ).vals⟩ : LapackSvd ℝ ℝ) (exactBlas ℝ) .C none 0 0 (fun x s => x / s) svdT svdT_ok.1
  two_ne_zero three_ne_zero svdM svdT_ok.2.1 none 7 rfl

example := C79_reject (svdLib ℝ) (exactBlas ℝ) .C none 0 0 (fun x s => x / s) ⟨[1, 2], ⟨[⟨2, 1⟩], 0⟩⟩ none (by decide)

example : IsPinv (!![2, 0; 0, 0] : Matrix (Fin 2) (Fin 2) ℝ) !![1 / 2, 0; 0, 0] := by
  constructor <;> ext i j <;> fin_cases i <;> fin_cases j <;> norm_num [Matrix.mul_apply]

theorem zeroM_svd : IsSvd (0 : Matrix (Fin 1) (Fin 1) ℝ) (1 : Matrix (Fin 1) (Fin 1) ℝ) (fun _ => 0) (1 : Matrix (Fin 1) (Fin 1) ℝ) where
  left := by simp
  right := by simp
  product := by rw [sigma_diag]; simp
  nonneg := fun _ => le_rfl
  desc := fun _ _ _ => le_rfl

/-- C79 fails for a matrix without a singular value above the tolerance: the pseudo-inverse of the 1×1 zero matrix is the zero matrix and its rank is 0, but
the product of the empty factors is asked from BLAS with an illegal leading dimension. -/
theorem C79_false_zero (lib : LapackSvd ℝ ℝ) (hl : SvdDoc lib.svd) (hc : ∃ r, lib.svd true false 1 1 0 = .ok r) (blas : Blas3 ℝ) (dflt : Order)
    (lo eps : ℝ) (hlo : lo ≤ 0) :
    IsPinv (0 : Matrix (Fin 1) (Fin 1) ℝ) 0 ∧ (⟨[0], ⟨[⟨1, 1⟩, ⟨1, 1⟩], 0⟩⟩ : Tensor ℝ).WF ∧
    (⟨[0], ⟨[⟨1, 1⟩, ⟨1, 1⟩], 0⟩⟩ : Tensor ℝ).arr.IsMat (0 : Matrix (Fin 1) (Fin 1) ℝ) ∧
    pinv lib blas dflt none lo eps (fun x s => x / s) ⟨[0], ⟨[⟨1, 1⟩, ⟨1, 1⟩], 0⟩⟩ none = .error .panic := by
  have hw : (⟨[0], ⟨[⟨1, 1⟩, ⟨1, 1⟩], 0⟩⟩ : Tensor ℝ).WF := ⟨Int.le_refl 0, rfl⟩
  have hA : (⟨[0], ⟨[⟨1, 1⟩, ⟨1, 1⟩], 0⟩⟩ : Tensor ℝ).arr.IsMat (0 : Matrix (Fin 1) (Fin 1) ℝ) :=
    ⟨rfl, fun i j => by fin_cases i; fin_cases j; rfl⟩
  refine ⟨⟨by simp, by simp, by simp, by simp⟩, hw, hA, ?_⟩
  obtain ⟨⟨L, U', s, V⟩, hc⟩ := hc
  have hd := hl _ _ _ _ _ _ _ _ _ hc
  obtain rfl : (fun _ => 0) = s := svals_unique (full := false) (full' := false) zeroM_svd hd
  obtain ⟨u, vt, e1, wu, mu, wv, mv, o, fu, fv⟩ := (svdRun_fresh lib true dflt hw false one_ne_zero one_ne_zero hA (.inl rfl)).2 _ _ _ _ hc
  have hmax := maxAll_desc dflt none Device.serial (k := 1) one_pos (fun _ => 0) hd.desc hd.nonneg lo hlo
  unfold pinv refPinv
  rw [if_neg (by decide), e1]
  change (valuesOf fun _ : Fin (min 1 1) => (0 : ℝ)).maxAll dflt none lo max = _ at hmax
  simp only [ok_bind, hmax, orPanic, mul_zero, add_zero]
  have hz : ((valuesOf fun _ : Fin (min 1 1) => (0 : ℝ)).data.takeWhile fun x => decide ((none : Option ℝ).getD 0 < x)) = [] := by
    simp [valuesOf]
  simp only [Option.map_none, hz, List.length_nil]
  obtain ⟨du, lu⟩ := u
  obtain ⟨dv, lv⟩ := vt
  simp only at fu fv
  subst fu fv
  have h1 : (⟨du, freshLayout o [1, leftCount false 1 1]⟩ : Tensor ℝ).sliced [Layout.fullSlice, upTo 0] = .ok ⟨du, ⟨[⟨1, 1⟩, ⟨0, 1⟩], 0⟩⟩ := by
    cases o <;> rfl
  have h2 : (⟨dv, freshLayout o [rightCount false 1 1, 1]⟩ : Tensor ℝ).sliced [upTo 0, Layout.fullSlice] = .ok ⟨dv, ⟨[⟨0, 1⟩, ⟨1, 1⟩], 0⟩⟩ := by
    cases o <;> rfl
  have h3 : (valuesOf fun _ : Fin (min 1 1) => (0 : ℝ)).sliced [.insert, upTo 0] = .ok ⟨[0], ⟨[⟨1, 1⟩, ⟨0, 1⟩], 0⟩⟩ := rfl
  have h4 : Tensor.assignOp dflt (⟨du, ⟨[⟨1, 1⟩, ⟨0, 1⟩], 0⟩⟩ : Tensor ℝ) (⟨[0], ⟨[⟨1, 1⟩, ⟨0, 1⟩], 0⟩⟩ : Tensor ℝ) (fun x s => x / s) =
      .ok ⟨du, ⟨[⟨1, 1⟩, ⟨0, 1⟩], 0⟩⟩ := by
    cases dflt <;> rfl
  have h5 : gemmRun blas dflt 1 0 .N .N (some dflt) (⟨dv, ⟨[⟨0, 1⟩, ⟨1, 1⟩], 0⟩⟩ : Tensor ℝ).flipped (⟨du, ⟨[⟨1, 1⟩, ⟨0, 1⟩], 0⟩⟩ : Tensor ℝ).flipped none =
      .error .panic := by
    cases dflt <;> rfl
  simp only [h1, h2, h3, ok_bind]
  erw [h4]
  simp only [ok_bind, h5]
  rfl

end Rstsr
