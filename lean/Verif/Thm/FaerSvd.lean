import Verif.Proof.FaerSvd
import Verif.Thm.FaerEig
import Verif.Thm.Pinv
/-!
# Theorems on singular values and the pseudo-inverse on the device of `faer` (C84)
-/
namespace Rstsr
open Spec Matrix

section
variable {𝕜 α ρ : Type} [RCLike 𝕜]

theorem isVec_same {A B : Arr α} {n : Nat} {v : Fin n → α} (h : A.IsVec v) (e : A.Same B) : B.IsVec v := by
  refine ⟨e.1.trans h.1, fun i => ?_⟩
  obtain ⟨x, h1, h2⟩ := e.2 [(i : Nat)] (by rw [h.1]; simp [InRange])
  rw [h.2 i] at h1
  rw [h2, h1]

/-- What `svd` gives: the left vectors, the singular values, and the right vectors with the sign of the imaginary parts reversed. Missing: `Vᴴ` itself for
complex matrices (`C84_false_complex`). -/
theorem C84_svd_partial (lib : FaerLib 𝕜 ℝ) (hre : ∀ x, lib.re x = RCLike.re x) (hl : FaerSvdDoc lib.svd) (mem : FaerMem 𝕜) (hm : mem.Fits) (sys : Order)
    (dev : FaerDev) (full : Bool) (a : Tensor 𝕜) (ha : a.WF) {m n : Nat} (A : Matrix (Fin m) (Fin n) 𝕜) (hA : a.arr.IsMat A)
    (hc : ∃ r, lib.svd full m n A = .ok r) :
    ∃ u s v U l W, faerSvd lib mem sys dev a full = .ok (u, s, v) ∧ u.t.WF ∧ s.t.WF ∧ v.t.WF ∧
      u.t.arr.IsMat (U : Matrix (Fin m) (Fin (leftCount full m n)) 𝕜) ∧ s.t.arr.IsVec l ∧
      v.t.arr.IsMat (W : Matrix (Fin (rightCount full m n)) (Fin n) 𝕜) ∧ IsSvd A U l (W.map star) := by
  obtain ⟨⟨U, s, V⟩, hc⟩ := hc
  obtain ⟨r, r1, r2⟩ := hl _ _ _ _ _ _ _ hc
  have na : a.layout.ndim = 2 := ndim_len (s := [m, n]) hA.1
  obtain ⟨d0, d1⟩ := dimAt2 (l := a.layout) hA.1
  obtain ⟨t, t1, t2, t3, -⟩ := fromFaer_ok hm U
  obtain ⟨v, v1, v2, v3, -⟩ := fromFaer_ok hm V
  obtain ⟨u, u1, u2, u3, -⟩ := C35_into_owned sys t t2
  obtain ⟨u', x1, x2, x3, -⟩ := intoContig_ok sys u2 dev.order
  obtain ⟨w, y1, y2, y3, -⟩ := intoContig_ok sys (flipped_wf v2) dev.order
  obtain ⟨w1, w2⟩ := valuesOf_ok fun i => lib.re (s i)
  obtain ⟨z, z1, z2, z3, -⟩ := intoContig_ok sys w1 dev.order
  refine ⟨⟨u', .dflt sys⟩, ⟨z, .dflt sys⟩, ⟨w, .dflt sys⟩, U, r, Vᵀ, ?_, x2, z2, y2, isMat_same (isMat_same t3 u3) x3, ?_,
    isMat_same (flipped_mat v2 v3) y3, r2⟩
  · unfold faerSvd
    rw [if_neg (not_not.2 na), d0, d1]
    have y1' : Tensor.intoContig sys ⟨v.data, v.layout.reverseAxes⟩ dev.order = .ok w := y1
    simp only [loadFaer_ok ha hA, ok_bind, hc, liftFaer, t1, u1, v1, orPanic, x1, realsOut_eq, z1, y1']
    rfl
  · have : (fun i => lib.re (s i)) = r := by funext i; rw [hre, r1, RCLike.ofReal_re]
    rw [this] at w2 z3
    exact isVec_same w2 z3

/-- For real matrices this is the decomposition. -/
theorem C84_svd_real (lib : FaerLib ℝ ℝ) (hre : ∀ x, lib.re x = x) (hl : FaerSvdDoc lib.svd) (mem : FaerMem ℝ) (hm : mem.Fits) (sys : Order)
    (dev : FaerDev) (full : Bool) (a : Tensor ℝ) (ha : a.WF) {m n : Nat} (A : Matrix (Fin m) (Fin n) ℝ) (hA : a.arr.IsMat A)
    (hc : ∃ r, lib.svd full m n A = .ok r) :
    ∃ u s v U l W, faerSvd lib mem sys dev a full = .ok (u, s, v) ∧ u.t.WF ∧ s.t.WF ∧ v.t.WF ∧
      u.t.arr.IsMat (U : Matrix (Fin m) (Fin (leftCount full m n)) ℝ) ∧ s.t.arr.IsVec l ∧
      v.t.arr.IsMat (W : Matrix (Fin (rightCount full m n)) (Fin n) ℝ) ∧ IsSvd A U l W := by
  obtain ⟨u, s, v, U, l, W, h1, h2, h3, h4, h5, h6, h7, h8⟩ := C84_svd_partial lib hre hl mem hm sys dev full a ha A hA hc
  have : W.map star = W := by ext i j; simp
  rw [this] at h8
  exact ⟨u, s, v, U, l, W, h1, h2, h3, h4, h5, h6, h7, h8⟩

/-- `svdvals`. -/
theorem C84_svdvals (lib : FaerLib 𝕜 ℝ) (hl : FaerSvalsDoc lib.svals) (dev : FaerDev) (a : Tensor 𝕜) (ha : a.WF) {m n : Nat}
    (A : Matrix (Fin m) (Fin n) 𝕜) (hA : a.arr.IsMat A) (hc : ∃ r, lib.svals m n A = .ok r) :
    ∃ s l, faerSvdvals lib dev a = .ok ⟨s, dev⟩ ∧ s.WF ∧ s.arr.IsVec l ∧ IsSvals A l := by
  obtain ⟨l, hc⟩ := hc
  have na : a.layout.ndim = 2 := ndim_len (s := [m, n]) hA.1
  obtain ⟨d0, d1⟩ := dimAt2 (l := a.layout) hA.1
  obtain ⟨w1, w2⟩ := valuesOf_ok l
  refine ⟨valuesOf l, l, ?_, w1, w2, hl _ _ _ _ hc⟩
  unfold faerSvdvals
  rw [if_neg (not_not.2 na), d0, d1]
  simp only [loadFaer_ok ha hA, ok_bind, hc, liftFaer]
  rfl

theorem maxOfRaw_desc {k : Nat} (hk : 0 < k) (l : Fin k → ℝ) (hd : Antitone l) : maxOfRaw (List.ofFn l) = .ok (l ⟨0, hk⟩) := by
  obtain ⟨k, rfl⟩ : ∃ j, k = j + 1 := ⟨k - 1, by omega⟩
  rw [List.ofFn_succ]
  show Except.ok _ = _
  congr 1
  have : ∀ xs : List ℝ, (∀ x ∈ xs, x ≤ l 0) → xs.foldl max (l 0) = l 0 := by
    intro xs
    induction xs with
    | nil => intro _; rfl
    | cons x xs ih =>
      intro h
      rw [List.foldl_cons, max_eq_left (h x (by simp))]
      exact ih fun y hy => h y (by simp [hy])
  refine this _ fun x hx => ?_
  obtain ⟨i, rfl⟩ := List.mem_ofFn.1 hx
  exact hd (Fin.zero_le _)

/-- `pinv`: the pseudo-inverse of the matrix without the singular values up to the tolerance, and the number of those above it; `d` is what the product leaves
in the storage. Missing: matrices without elements (`C84_false_empty`). -/
theorem C84_pinv_partial [DecidableEq 𝕜] (lib : FaerLib 𝕜 ℝ) (hre : ∀ x, lib.re x = RCLike.re x) (hl : FaerSvdDoc lib.svd) (mem : FaerMem 𝕜) (hm : mem.Fits)
    (sys : Order) (par : MatPar) (hp : (par.sched 0).Fits) (fresh : Nat → 𝕜) (eps : ℝ) (a : Tensor 𝕜) (ha : a.WF) {m n : Nat} (h0 : m ≠ 0) (h1 : n ≠ 0)
    (A : Matrix (Fin m) (Fin n) 𝕜) (hA : a.arr.IsMat A) (hc : ∃ r, lib.svd false m n A = .ok r) (tol : Option (ℝ × ℝ))
    {U : Matrix (Fin m) (Fin (min m n)) 𝕜} {l : Fin (min m n) → ℝ} {Vt : Matrix (Fin (min m n)) (Fin n) 𝕜} (hs : IsSvd A U l Vt)
    (htol : 0 ≤ pinvTol eps m n (l ⟨0, by omega⟩) tol) :
    ∃ c w rank d P B, faerPinv (ringOps (· * ·)) 1 lib mem sys par fresh eps (fun x s => x / (s : 𝕜)) a tol = .ok (c, w, rank) ∧ w.Leaves c.data d ∧
      (⟨d, c.layout⟩ : Tensor 𝕜).WF ∧ (⟨d, c.layout⟩ : Tensor 𝕜).arr.IsMat P ∧
      IsCut A l (pinvTol eps m n (l ⟨0, by omega⟩) tol) B ∧ IsPinv B P ∧
      rank = (Finset.univ.filter fun i => pinvTol eps m n (l ⟨0, by omega⟩) tol < l i).card := by
  have hk : 0 < min m n := by omega
  obtain ⟨⟨U', s, V⟩, hc⟩ := hc
  obtain ⟨r', r1, hd⟩ := hl _ _ _ _ _ _ _ hc
  obtain rfl : l = r' := svals_unique (full := false) (full' := false) hs hd
  change Matrix (Fin m) (Fin (min m n)) 𝕜 at U'
  change Matrix (Fin n) (Fin (min m n)) 𝕜 at V
  have na : a.layout.ndim = 2 := ndim_len (s := [m, n]) hA.1
  obtain ⟨d0, d1⟩ := dimAt2 (l := a.layout) hA.1
  have ev : (tol.map (·.1)).getD 0 + pinvRtol eps a.layout (tol.map (·.2)) * l ⟨0, hk⟩ = pinvTol eps m n (l ⟨0, hk⟩) tol := by
    cases tol with
    | none => simp [pinvRtol, pinvTol, d0, d1]
    | some t => rfl
  obtain ⟨c1, c2⟩ := count_spec' l hd.desc (pinvTol eps m n (l ⟨0, hk⟩) tol)
  obtain ⟨t, t1, t2, t3, t4⟩ := fromFaer_ok hm U'
  obtain ⟨v, v1, v2, v3, v4⟩ := fromFaer_ok hm V
  obtain ⟨u, u1, u2, u3, u4, u5⟩ := ownedFaer_ok hm sys h0 (by omega) U' t2 t3 t4
  have es : (fun i => lib.re (s i)) = l := by funext i; rw [hre, r1, RCLike.ofReal_re]
  have hmax := maxOfRaw_desc hk l hd.desc
  generalize hrk : ((valuesOf l).data.takeWhile fun x => decide (pinvTol eps m n (l ⟨0, hk⟩) tol < x)).length = r at *
  obtain ⟨s0, s1, xu⟩ := axes2 (l := u.layout) u3.1
  have xv : v.layout.axes = [⟨n, 1⟩, ⟨min m n, mem.ld n (min m n)⟩] := by rw [v4]
  obtain ⟨f1, g1⟩ := slice_cols u2.fit.valid xu c1
  obtain ⟨f2, g2⟩ := slice_cols v2.fit.valid xv c1
  obtain ⟨w1, m1⟩ := corner_ok u2 u3 xu le_rfl c1 g1
  obtain ⟨w2, m2⟩ := corner_ok v2 v3 xv le_rfl c1 g2
  obtain ⟨c, b1, b2, b3, b4⟩ := scaleCols_ok sys w1 m1 (by simpa [Layout.stride, xu] using u4) l c1 (fun x s => x / (s : 𝕜))
  obtain ⟨y, y1, y2, y3⟩ := C36_map sys c star b2
  have y4 := isMat_map b4 y3
  have sv : (⟨v.data, ⟨[⟨n, 1⟩, ⟨r, (mem.ld n (min m n) : Int)⟩], v.layout.offset⟩⟩ : Tensor 𝕜).Settled := fun _ =>
    settled_of_pos (by show 0 ≤ v.layout.offset; rw [v4]) (by simp)
  have sy : y.flipped.Settled := by
    intro hz
    have hr : r = 0 := by
      have : y.flipped.arr.shape = [r, m] := (flipped_mat y2 y4).1
      rw [this] at hz
      simp at hz
      omega
    subst hr
    have hl := map_layout y1
    rw [b3, show (⟨u.data, ⟨[⟨m, s0⟩, ⟨0, s1⟩], u.layout.offset⟩⟩ : Tensor 𝕜).layout = ⟨[⟨m, s0⟩, ⟨0, s1⟩], u.layout.offset⟩ from rfl, copyK_empty] at hl
    have hl : y.layout = ⟨[⟨m, 1⟩, ⟨0, 1 * m⟩], 0⟩ := by injection hl with hl; exact hl.symm
    refine settled_of_pos ?_ ?_
    · show 0 ≤ y.layout.offset
      rw [hl]
    · show ∀ x ∈ y.layout.axes.reverse, _
      rw [hl]
      simp
  obtain ⟨z, w, d, z1, z2, z3, z4⟩ := faerProduct_ok sys par hp fresh w2 (flipped_wf y2) m2 (flipped_mat y2 y4) sv sy
  have e1 : (valuesOf l).sliced [.insert, upTo r] = .ok ⟨List.ofFn l, ⟨[⟨1, 1⟩, ⟨r, 1⟩], 0⟩⟩ := by
    unfold Tensor.sliced
    rw [show (valuesOf l).layout = ⟨[⟨min m n, 1⟩], 0⟩ from rfl, slice_row c1]
    rfl
  have e2 : u.sliced [Layout.fullSlice, upTo r] = .ok ⟨u.data, ⟨[⟨m, s0⟩, ⟨r, s1⟩], u.layout.offset⟩⟩ := by
    unfold Tensor.sliced
    rw [f1]
    rfl
  have e3 : v.sliced [Layout.fullSlice, upTo r] = .ok ⟨v.data, ⟨[⟨n, 1⟩, ⟨r, (mem.ld n (min m n) : Int)⟩], v.layout.offset⟩⟩ := by
    unfold Tensor.sliced
    rw [f2]
    rfl
  refine ⟨z, w, r, d, _, _, ?_, z2, z3, z4, ⟨U', Vᴴ, hd, rfl⟩, ?_, (card_of_iff c1 _ c2).symm⟩
  · have t1 : @fromFaer _ mem m (leftCount false m n) U' = .ok t := t1
    have v1 : @fromFaer _ mem n (rightCount false m n) V = .ok v := v1
    unfold faerPinv
    rw [if_neg (not_not.2 na), d0, d1]
    simp only [loadFaer_ok ha hA, ok_bind, hc, liftFaer, t1, u1, v1, orPanic, realsOut_eq, es]
    rw [show (valuesOf l).data = List.ofFn l from rfl] at hrk ⊢
    simp only [hmax, ok_bind, ev, hrk, e1, e2, e3, b1, y1, z1]
    rfl
  · rw [cut_eq c1 U' Vᴴ l _ c2]
    have := isPinv_of (cols_orth c1 hd.left) (rows_orth c1 hd.right) (fun i => l (Fin.castLE c1 i)) (fun i => by
      have := (c2 (Fin.castLE c1 i)).1 i.2
      linarith)
    rw [← conj_product] at this
    refine (congrArg (IsPinv _) ?_).mp this
    ext i j
    simp only [Matrix.mul_apply, Matrix.map_apply, transpose_apply, submatrix_apply, conjTranspose_apply, of_apply, id, star_sum, star_mul', star_star]
    refine Finset.sum_congr rfl fun k _ => ?_
    exact congrArg (· * star (U' j (Fin.castLE c1 k) / ((l (Fin.castLE c1 k) : ℝ) : 𝕜))) (star_star (V i (Fin.castLE c1 k)))

/-- If all singular values up to the tolerance are zero, this is the pseudo-inverse and the rank of the matrix itself, the zero matrix included. -/
theorem C84_exact_partial [DecidableEq 𝕜] (lib : FaerLib 𝕜 ℝ) (hre : ∀ x, lib.re x = RCLike.re x) (hl : FaerSvdDoc lib.svd) (mem : FaerMem 𝕜) (hm : mem.Fits)
    (sys : Order) (par : MatPar) (hp : (par.sched 0).Fits) (fresh : Nat → 𝕜) (eps : ℝ) (a : Tensor 𝕜) (ha : a.WF) {m n : Nat} (h0 : m ≠ 0) (h1 : n ≠ 0)
    (A : Matrix (Fin m) (Fin n) 𝕜) (hA : a.arr.IsMat A) (hc : ∃ r, lib.svd false m n A = .ok r) (tol : Option (ℝ × ℝ))
    {U : Matrix (Fin m) (Fin (min m n)) 𝕜} {l : Fin (min m n) → ℝ} {Vt : Matrix (Fin (min m n)) (Fin n) 𝕜} (hs : IsSvd A U l Vt)
    (htol : 0 ≤ pinvTol eps m n (l ⟨0, by omega⟩) tol) (hex : ∀ i, l i ≤ pinvTol eps m n (l ⟨0, by omega⟩) tol → l i = 0) :
    ∃ c w rank d P, faerPinv (ringOps (· * ·)) 1 lib mem sys par fresh eps (fun x s => x / (s : 𝕜)) a tol = .ok (c, w, rank) ∧ w.Leaves c.data d ∧
      (⟨d, c.layout⟩ : Tensor 𝕜).WF ∧ (⟨d, c.layout⟩ : Tensor 𝕜).arr.IsMat P ∧ IsPinv A P ∧ rank = A.rank := by
  obtain ⟨c, w, rank, d, P, B, e1, e2, e3, e4, ⟨U2, V2, q1, q2⟩, e6, e7⟩ :=
    C84_pinv_partial lib hre hl mem hm sys par hp fresh eps a ha h0 h1 A hA hc tol hs htol
  have hab : above (pinvTol eps m n (l ⟨0, by omega⟩) tol) l = l := by
    funext i
    unfold above
    split
    · rfl
    · exact (hex i (not_lt.1 ‹_›)).symm
  have hB : B = A := by rw [q2, hab]; exact q1.product.symm
  subst hB
  refine ⟨c, w, rank, d, P, e1, e2, e3, e4, e6, ?_⟩
  rw [e7, rank_svd hs]
  congr 1
  ext i
  simp only [Finset.mem_filter, Finset.mem_univ, true_and]
  exact ⟨fun h e => by linarith, fun h => by
    by_contra hn
    exact h (hex i (not_lt.1 hn))⟩

/-- A decomposition that does not converge is an error. -/
theorem C84_fail [LinearOrder ρ] [Zero ρ] [Add ρ] [Mul ρ] [NatCast ρ] [Star α] [DecidableEq α] (O : MatOps α α α) (one : α) (lib : FaerLib α ρ)
    (mem : FaerMem α) (sys : Order) (dev : FaerDev) (par : MatPar) (fresh : Nat → α) (eps : ρ) (scale : α → ρ → α) (a : Tensor α) (ha : a.WF) {m n : Nat}
    (A : Matrix (Fin m) (Fin n) α) (hA : a.arr.IsMat A) :
    (∀ full, lib.svd full m n A = .error () → faerSvd lib mem sys dev a full = .error .faerError) ∧
    (lib.svals m n A = .error () → faerSvdvals lib dev a = .error .faerError) ∧
    (lib.svd false m n A = .error () → ∀ tol, faerPinv O one lib mem sys par fresh eps scale a tol = .error .faerError) := by
  have na : a.layout.ndim = 2 := ndim_len (s := [m, n]) hA.1
  obtain ⟨d0, d1⟩ := dimAt2 (l := a.layout) hA.1
  refine ⟨fun full h => ?_, fun h => ?_, fun h tol => ?_⟩
  · unfold faerSvd
    rw [if_neg (not_not.2 na), d0, d1]
    simp only [loadFaer_ok ha hA, ok_bind, h, liftFaer]
    rfl
  · unfold faerSvdvals
    rw [if_neg (not_not.2 na), d0, d1]
    simp only [loadFaer_ok ha hA, ok_bind, h, liftFaer]
    rfl
  · unfold faerPinv
    rw [if_neg (not_not.2 na), d0, d1]
    simp only [loadFaer_ok ha hA, ok_bind, h, liftFaer]
    rfl

/-- Arrays of the wrong number of dimensions are an error. -/
theorem C84_reject [LinearOrder ρ] [Zero ρ] [Add ρ] [Mul ρ] [NatCast ρ] [Star α] [DecidableEq α] (O : MatOps α α α) (one : α) (lib : FaerLib α ρ)
    (mem : FaerMem α) (sys : Order) (dev : FaerDev) (par : MatPar) (fresh : Nat → α) (eps : ρ) (scale : α → ρ → α) (a : Tensor α)
    (h : a.arr.shape.length ≠ 2) (full : Bool) (tol : Option (ρ × ρ)) :
    faerSvd lib mem sys dev a full = .error .invalidLayout ∧ faerSvdvals lib dev a = .error .invalidLayout ∧
      faerPinv O one lib mem sys par fresh eps scale a tol = .error .invalidLayout := by
  have la : a.arr.shape.length = a.layout.ndim := (ndim_len (l := a.layout) rfl).symm
  rw [la] at h
  exact ⟨if_pos h, if_pos h, if_pos h⟩

/-! ## Where the property fails -/

/-- The matrix `[1 i]`. -/
def rowI : Tensor ℂ := ⟨[1, Complex.I], ⟨[⟨1, 2⟩, ⟨2, 1⟩], 0⟩⟩
theorem rowI_ok : rowI.WF ∧ rowI.arr.IsMat (!![1, Complex.I] : Matrix (Fin 1) (Fin 2) ℂ) :=
  ⟨⟨by decide, rfl⟩, rfl, fun i j => by fin_cases i; fin_cases j <;> rfl⟩

/-- No decomposition of this matrix stays one with the right vectors conjugated. -/
theorem rowI_conj {full : Bool} {U : Matrix (Fin 1) (Fin (leftCount full 1 2)) ℂ} {l : Fin (min 1 2) → ℝ}
    {W : Matrix (Fin (rightCount full 1 2)) (Fin 2) ℂ} (h : IsSvd !![1, Complex.I] U l (W.map star)) :
    (!![1, Complex.I] : Matrix (Fin 1) (Fin 2) ℂ) ≠ U * sigma _ _ l * W := by
  intro e
  have hp := h.product
  have hq : 0 < rightCount full 1 2 := by cases full <;> decide
  have hx : ∀ k : Fin (rightCount full 1 2), k ≠ ⟨0, hq⟩ → (U * sigma (leftCount full 1 2) (rightCount full 1 2) l : Matrix (Fin 1) (Fin (rightCount full 1 2)) ℂ) 0 k = 0 := by
    intro k hk
    rw [Matrix.mul_apply]
    refine Finset.sum_eq_zero fun i _ => ?_
    have : (sigma (leftCount full 1 2) (rightCount full 1 2) l : Matrix _ _ ℂ) i k = 0 := by
      unfold sigma
      rw [dif_neg]
      rintro ⟨h1, h2⟩
      apply hk
      apply Fin.ext
      have h2 : (i : Nat) < 1 := h2
      show (k : Nat) = 0
      omega
    rw [this, mul_zero]
  generalize (U * sigma (leftCount full 1 2) (rightCount full 1 2) l : Matrix (Fin 1) (Fin (rightCount full 1 2)) ℂ) = X at e hp hx
  have hj : ∀ (Y : Matrix (Fin (rightCount full 1 2)) (Fin 2) ℂ) j, (X * Y) 0 j = X 0 ⟨0, hq⟩ * Y ⟨0, hq⟩ j := by
    intro Y j
    rw [Matrix.mul_apply]
    refine Finset.sum_eq_single _ (fun k _ hk => ?_) (fun h => absurd (Finset.mem_univ _) h)
    rw [hx k hk, zero_mul]
  have e0 := congrFun (congrFun e 0) 0
  have e1 := congrFun (congrFun e 0) 1
  have p0 := congrFun (congrFun hp 0) 0
  have p1 := congrFun (congrFun hp 0) 1
  rw [hj] at e0 e1 p0 p1
  simp only [Matrix.map_apply, of_apply, cons_val', cons_val_zero, cons_val_one, cons_val_fin_one] at e0 e1 p0 p1
  generalize X 0 ⟨0, hq⟩ = x at e0 e1 p0 p1
  generalize W ⟨0, hq⟩ 0 = a at e0 p0
  generalize W ⟨0, hq⟩ 1 = b at e1 p1
  have hx0 : x ≠ 0 := by rintro rfl; simp at e0
  have ra : star a = a := mul_left_cancel₀ hx0 (p0.symm.trans e0)
  have rb : star b = b := mul_left_cancel₀ hx0 (p1.symm.trans e1)
  have hb : b = Complex.I * a := by
    apply mul_left_cancel₀ hx0
    rw [← e1, ← mul_assoc, mul_comm x, mul_assoc, ← e0, mul_one]
  rw [hb, star_mul', ra] at rb
  have : star Complex.I = -Complex.I := Complex.conj_I
  rw [this] at rb
  have ha : a = 0 := by
    have : Complex.I * a = 0 := by linear_combination (-1 / 2 : ℂ) * rb
    exact (mul_eq_zero.1 this).resolve_left Complex.I_ne_zero
  rw [ha, mul_zero] at e0
  exact one_ne_zero e0

/-- `svd` gives the transpose of the right vectors without conjugating them: for a complex matrix the product of the three factors is another matrix,
whatever decomposition `faer` finds. -/
theorem C84_false_complex (lib : FaerLib ℂ ℝ) (hre : ∀ x, lib.re x = RCLike.re x) (hl : FaerSvdDoc lib.svd) (mem : FaerMem ℂ) (hm : mem.Fits) (sys : Order)
    (dev : FaerDev) (full : Bool) (hc : ∃ r, lib.svd full 1 2 !![1, Complex.I] = .ok r) :
    ∃ u s v U l W, faerSvd lib mem sys dev rowI full = .ok (u, s, v) ∧
      u.t.arr.IsMat (U : Matrix (Fin 1) (Fin (leftCount full 1 2)) ℂ) ∧ s.t.arr.IsVec l ∧
      v.t.arr.IsMat (W : Matrix (Fin (rightCount full 1 2)) (Fin 2) ℂ) ∧ (!![1, Complex.I] : Matrix (Fin 1) (Fin 2) ℂ) ≠ U * sigma _ _ (l : Fin (min 1 2) → ℝ) * W := by
  obtain ⟨u, s, v, U, l, W, h1, -, -, -, h5, h6, h7, h8⟩ := C84_svd_partial lib hre hl mem hm sys dev full rowI rowI_ok.1 _ rowI_ok.2 hc
  exact ⟨u, s, v, U, l, W, h1, h5, h6, h7, rowI_conj h8⟩

/-- `pinv` of a matrix without elements panics: there is no largest singular value. -/
theorem C84_false_empty [LinearOrder ρ] [Zero ρ] [Add ρ] [Mul ρ] [NatCast ρ] [Star α] [DecidableEq α] (O : MatOps α α α) (one : α) (lib : FaerLib α ρ)
    (mem : FaerMem α) (hm : mem.Fits) (sys : Order) (par : MatPar) (fresh : Nat → α) (eps : ρ) (scale : α → ρ → α) (a : Tensor α) (ha : a.WF) {m n : Nat}
    (h0 : m = 0 ∨ n = 0) (A : Matrix (Fin m) (Fin n) α) (hA : a.arr.IsMat A) (hc : ∃ r, lib.svd false m n A = .ok r) (tol : Option (ρ × ρ)) :
    faerPinv O one lib mem sys par fresh eps scale a tol = .error .panic := by
  obtain ⟨⟨U, s, V⟩, hc⟩ := hc
  have na : a.layout.ndim = 2 := ndim_len (s := [m, n]) hA.1
  obtain ⟨d0, d1⟩ := dimAt2 (l := a.layout) hA.1
  obtain ⟨t, t1, t2, t3, -⟩ := fromFaer_ok hm U
  obtain ⟨v, v1, v2, v3, -⟩ := fromFaer_ok hm V
  obtain ⟨u, u1, u2, u3, -⟩ := C35_into_owned sys t t2
  have e : (valuesOf fun i => lib.re (s i)).data = [] := by
    show List.ofFn _ = []
    apply List.eq_nil_of_length_eq_zero
    rw [List.length_ofFn]
    omega
  unfold faerPinv
  rw [if_neg (not_not.2 na), d0, d1]
  simp only [loadFaer_ok ha hA, ok_bind, hc, liftFaer, t1, u1, v1, orPanic, realsOut_eq, e]
  rfl

/-! ## Cases that meet the hypotheses -/

theorem faer_svals (𝕜 : Type) [RCLike 𝕜] : FaerSvalsDoc (faerLib 𝕜).svals := by
  intro m n A s h
  simp only [faerLib] at h
  split at h
  · rename_i e
    simp only [Except.ok.injEq] at h
    subst h
    exact e.choose_spec
  · cases h

theorem faerThin_ok {m n : Nat} {A : Matrix (Fin m) (Fin n) 𝕜} {U : Matrix (Fin m) (Fin (min m n)) 𝕜} {s : Fin (min m n) → ℝ}
    {Vt : Matrix (Fin (min m n)) (Fin n) 𝕜} (h : IsSvd A U s Vt) : ∃ r, (faerLib 𝕜).svd false m n A = .ok r := by
  have h : IsSvd A U s (Vtᴴ)ᴴ := by rw [conjTranspose_conjTranspose]; exact h
  exact faerSvd_ok (full := false) h

theorem svdM_conv : ∃ r, (faerLib ℝ).svd false 2 3 svdM = .ok r := faerThin_ok svdM_thin

example := C84_svd_real (faerLib ℝ) (fun _ => rfl) (faer_svd ℝ).1 (faerMem ℝ) (faerMem_fits ℝ) .C ⟨.F, 3⟩ false svdT svdT_ok.1 svdM svdT_ok.2.1 svdM_conv
example := C84_svdvals (faerLib ℝ) (faer_svals ℝ) ⟨.F, 3⟩ svdTcol svdT_ok.2.2.1 svdM svdT_ok.2.2.2 ⟨_, dif_pos ⟨_, _, _, svdM_svd⟩⟩
example (par : MatPar) (hp : (par.sched 0).Fits) := C84_pinv_partial (faerLib ℝ) (fun _ => rfl) (faer_svd ℝ).1 (faerMem ℝ) (faerMem_fits ℝ) .C par hp (fun _ => 7) (1 / 4096) svdTcol
  svdT_ok.2.2.1 two_ne_zero three_ne_zero svdM svdT_ok.2.2.2 svdM_conv (some (1, 1 / 2)) svdM_thin (by norm_num [pinvTol])
example (par : MatPar) (hp : (par.sched 0).Fits) := C84_exact_partial (faerLib ℝ) (fun _ => rfl) (faer_svd ℝ).1 (faerMem ℝ) (faerMem_fits ℝ) .F par hp (fun _ => 7) (1 / 4096) svdT
  svdT_ok.1 two_ne_zero three_ne_zero svdM svdT_ok.2.1 svdM_conv none svdM_thin (by norm_num [pinvTol]) pinvM_exact

/-- The zero matrix, whose rank is 0. -/
example (par : MatPar) (hp : (par.sched 0).Fits) := C84_exact_partial (faerLib ℝ) (fun _ => rfl) (faer_svd ℝ).1 (faerMem ℝ) (faerMem_fits ℝ) .F par hp (fun _ => 7) (1 / 4096) symR.t
  symB_ok.2.1.wf two_ne_zero two_ne_zero 0 symB_mat.2.1 (faerSvd_ok (full := false) (s := fun _ => 0) symR_svd) none (l := fun _ => 0) symR_svd
  (by norm_num [pinvTol]) (fun _ _ => rfl)
example (par : MatPar) := C84_fail (ringOps (· * ·)) 1 ({ faerLib ℝ with svd := fun _ _ _ _ => .error (), svals := fun _ _ _ => .error () } : FaerLib ℝ ℝ) (faerMem ℝ) .C
  ⟨.F, 3⟩ par (fun _ => 7) (1 / 4096) (fun x s => x / s) svdT svdT_ok.1 svdM svdT_ok.2.1
example (par : MatPar) := C84_reject (ringOps (· * ·)) 1 (faerLib ℝ) (faerMem ℝ) .C ⟨.F, 3⟩ par (fun _ => 7) (1 / 4096) (fun x s => x / s)
  ⟨[1, 2], ⟨[⟨2, 1⟩], 0⟩⟩ (by decide) true none

theorem rowI_svd : IsSvd (!![1, Complex.I] : Matrix (Fin 1) (Fin 2) ℂ) (1 : Matrix (Fin 1) (Fin 1) ℂ) (fun _ => √2)
    (!![1 / (√2 : ℂ), Complex.I / (√2 : ℂ)] : Matrix (Fin 1) (Fin 2) ℂ) where
  left := by simp
  right := by
    have h : ((√2 : ℝ) : ℂ) * ((√2 : ℝ) : ℂ) = 2 := by rw [← Complex.ofReal_mul, Real.mul_self_sqrt (by norm_num)]; norm_num
    have h0 : ((√2 : ℝ) : ℂ) ≠ 0 := by intro e; rw [e] at h; norm_num at h
    ext i j
    fin_cases i; fin_cases j
    simp [Matrix.mul_apply, Fin.sum_univ_two]
    field_simp
    linear_combination (-1 : ℂ) * h - Complex.I_sq
  product := by
    have h0 : ((√2 : ℝ) : ℂ) ≠ 0 := by norm_num
    ext i j
    fin_cases i; fin_cases j <;> simp [sigma, Matrix.mul_apply] <;> field_simp
  nonneg := fun _ => Real.sqrt_nonneg _
  desc := fun _ _ _ => le_refl _

example := C84_false_complex (faerLib ℂ) (fun _ => rfl) (faer_svd ℂ).1 (faerMem ℂ) (faerMem_fits ℂ) .C ⟨.C, 0⟩ false
  (faerThin_ok (s := fun _ => √2) rowI_svd)
example (par : MatPar) := C84_false_empty (ringOps (· * ·)) 1 faerAny (faerMem ℝ) (faerMem_fits ℝ) .C par (fun _ => 7) (1 / 4096) (fun x s => x / s)
  ⟨[], ⟨[⟨0, 1⟩, ⟨2, 1⟩], 0⟩⟩ ⟨by decide, rfl⟩ (m := 0) (n := 2) (.inl rfl) 0 ⟨rfl, fun i => i.elim0⟩ ⟨_, rfl⟩ none

end
end Rstsr
