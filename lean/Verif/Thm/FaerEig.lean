import Verif.Thm.FaerLinalg
/-!
# C83 On the device of `faer`: eigenvalues and eigenvectors of Hermitian matrices
-/
namespace Rstsr
open Spec Matrix
open scoped ComplexOrder

section
variable {α ρ : Type} {𝕜 : Type} [RCLike 𝕜]

/-! ## One matrix -/

theorem eigvals_of_vecs {n : Nat} {S V : Matrix (Fin n) (Fin n) 𝕜} {w : Fin n → ℝ} (hm : Monotone w) (h : IsEigvecs S w V) : IsEigvals S w :=
  ⟨hm, charpoly_of_diag (IsUnit.of_mul_eq_one _ (mul_eq_one_comm.1 h.1)) h.2⟩

/-- `eigh` of the Hermitian matrix given by one triangle, for every layout, if the iteration converges. -/
theorem C83_eigh (lib : FaerLib 𝕜 ℝ) (hre : ∀ x, lib.re x = RCLike.re x) (hl : FaerEigDoc lib.eigen) (mem : FaerMem 𝕜) (hm : mem.Fits) (sys : Order)
    (dev : FaerDev) (uplo : Option UpLo) (u : UpLo) (hu : u = match uplo, dev.order with | some u, _ => u | none, .C => .L | none, .F => .U)
    (a : Tensor 𝕜) (ha : a.WF) {n : Nat} (A S : Matrix (Fin n) (Fin n) 𝕜) (hA : a.arr.IsMat A) (hs : SameTriangle u A S) (hS : S.IsHermitian)
    (hc : ∃ r, lib.eigen u n A = .ok r) :
    ∃ w v l V, faerEigh lib mem sys dev a uplo = .ok (w, v) ∧ w.t.WF ∧ w.t.arr.IsVec l ∧ IsEigvals S l ∧ v.t.WF ∧ v.t.arr.IsMat V ∧ IsEigvecs S l V := by
  have hu := hu.trans (uploOr_eq dev.order uplo).symm
  subst hu
  obtain ⟨⟨V, s⟩, h⟩ := hc
  obtain ⟨l, l1, l2, l3⟩ := hl _ n A S V s hs hS h
  have na : a.layout.ndim = 2 := ndim_len (s := [n, n]) hA.1
  obtain ⟨d0, d1⟩ := dimAt2 (l := a.layout) hA.1
  obtain ⟨w, w1, w2, w3⟩ := realsOut_ok lib sys s
  obtain ⟨t, t1, t2, t3, -⟩ := contigOut_ok hm sys dev.order V
  obtain ⟨c, c1, c2, c3, -⟩ := C35_into_owned sys t t2
  have e : (fun i => lib.re (s i)) = l := by funext i; rw [hre, l1, RCLike.ofReal_re]
  refine ⟨⟨w, .dflt sys⟩, ⟨c, .dflt sys⟩, l, V, ?_, w2, e ▸ w3, eigvals_of_vecs l2 l3, c2, isMat_same t3 c3, l3⟩
  unfold faerEigh
  rw [d0, d1]
  simp only [na, faerAssert, loadFaer_ok ha hA, ok_bind, h, liftFaer, w1, t1, c1, orPanic, ne_eq, not_true_eq_false, if_false, decide_true, if_true]
  rfl

/-- `eigvalsh`. -/
theorem C83_eigvalsh (lib : FaerLib 𝕜 ℝ) (hl : FaerEigvalsDoc lib.eigvals)
    (dev : FaerDev) (uplo : Option UpLo) (u : UpLo) (hu : u = match uplo, dev.order with | some u, _ => u | none, .C => .L | none, .F => .U)
    (a : Tensor 𝕜) (ha : a.WF) {n : Nat} (A S : Matrix (Fin n) (Fin n) 𝕜) (hA : a.arr.IsMat A) (hs : SameTriangle u A S) (hS : S.IsHermitian)
    (hc : ∃ r, lib.eigvals u n A = .ok r) :
    ∃ w l, faerEigvalsh lib dev a uplo = .ok w ∧ w.t.WF ∧ w.t.arr.IsVec l ∧ IsEigvals S l := by
  have hu := hu.trans (uploOr_eq dev.order uplo).symm
  subst hu
  obtain ⟨l, h⟩ := hc
  have na : a.layout.ndim = 2 := ndim_len (s := [n, n]) hA.1
  obtain ⟨d0, d1⟩ := dimAt2 (l := a.layout) hA.1
  refine ⟨⟨valuesOf l, dev⟩, l, ?_, (valuesOf_ok l).1, (valuesOf_ok l).2, hl _ n A S l hs hS h⟩
  unfold faerEigvalsh
  rw [d0, d1]
  simp only [na, faerAssert, loadFaer_ok ha hA, ok_bind, h, liftFaer, ne_eq, not_true_eq_false, if_false, decide_true, if_true]
  rfl

/-- An iteration that does not converge is an error. -/
theorem C83_fail (lib : FaerLib α ρ) (mem : FaerMem α) (sys : Order)
    (dev : FaerDev) (uplo : Option UpLo) (u : UpLo) (hu : u = match uplo, dev.order with | some u, _ => u | none, .C => .L | none, .F => .U)
    (a : Tensor α) (ha : a.WF) {n : Nat} (A : Matrix (Fin n) (Fin n) α) (hA : a.arr.IsMat A) :
    (lib.eigen u n A = .error () → faerEigh lib mem sys dev a uplo = .error .faerError) ∧
    (lib.eigvals u n A = .error () → faerEigvalsh lib dev a uplo = .error .faerError) := by
  have hu := hu.trans (uploOr_eq dev.order uplo).symm
  subst hu
  have na : a.layout.ndim = 2 := ndim_len (s := [n, n]) hA.1
  obtain ⟨d0, d1⟩ := dimAt2 (l := a.layout) hA.1
  constructor <;> intro h
  · unfold faerEigh
    rw [d0, d1]
    simp only [na, faerAssert, loadFaer_ok ha hA, ok_bind, h, liftFaer, ne_eq, not_true_eq_false, if_false, decide_true, if_true]
    rfl
  · unfold faerEigvalsh
    rw [d0, d1]
    simp only [na, faerAssert, loadFaer_ok ha hA, ok_bind, h, liftFaer, ne_eq, not_true_eq_false, if_false, decide_true, if_true]
    rfl

/-! ## Filling in the other triangle -/

/-- The cells of the elements named hold those of the matrix. -/
structure Holds (l : Layout) (N : Nat) {n : Nat} (S : Matrix (Fin n) (Fin n) α) (D : Fin n → Fin n → Prop) (c : List α) : Prop where
  len : c.length = N
  at_ : ∀ p q, D p q → c[(l.addr [(p : Nat), (q : Nat)]).toNat]? = some (S p q)

theorem Holds.set {l : Layout} {n : Nat} (hf : Fit [n, n] l)
    (hu : ∀ p q p' q' : Fin n, l.addr [(p : Nat), (q : Nat)] = l.addr [(p' : Nat), (q' : Nat)] → p = p' ∧ q = q')
    {N : Nat} {S : Matrix (Fin n) (Fin n) α} {D : Fin n → Fin n → Prop} {c : List α} (hcov : ∀ p q : Fin n, (l.addr [(p : Nat), (q : Nat)]).toNat < N)
    (h : Holds l N S D c) {i j p q : Fin n} (hD : D i j) {f : α → α} (hf' : f (S i j) = S p q) :
    ∃ c', setFrom f l (i, j) (p, q) c = .ok c' ∧ Holds l N S (fun p' q' => D p' q' ∨ (p' = p ∧ q' = q)) c' := by
  obtain ⟨c', k1, k2⟩ := writes_one (c := c) (f (S i j)) (k := (l.addr [(p : Nat), (q : Nat)]).toNat) (by rw [h.len]; exact hcov p q)
  refine ⟨c', ?_, k2.len.trans h.len, fun p' q' hd => ?_⟩
  · unfold setFrom readAt
    simp only [h.at_ i j hD]
    exact k1
  · by_cases e : p' = p ∧ q' = q
    · obtain ⟨rfl, rfl⟩ := e
      rw [k2.set _ _ ⟨rfl, rfl⟩, hf']
    · rw [k2.keep _ ?_]
      · exact h.at_ p' q' (hd.resolve_right e)
      · rintro v ⟨k, -⟩
        have a1 := hf.nonneg [(p' : Nat), (q' : Nat)] (inRange2.2 ⟨p'.2, q'.2⟩)
        have a2 := hf.nonneg [(p : Nat), (q : Nat)] (inRange2.2 ⟨p.2, q.2⟩)
        exact e (hu _ _ _ _ (by omega))

theorem mem_symSteps {u : UpLo} {n : Nat} {x : Bool × Nat × Nat} (h : x ∈ symSteps u n) :
    ∃ i j : Fin n, x.2 = ((i : Nat), (j : Nat)) ∧ InTriangle u i j ∧ (x.1 = false → i = j) := by
  unfold symSteps at h
  obtain ⟨i, hi, h⟩ := List.mem_flatMap.1 h
  have hi := List.mem_range.1 hi
  rcases List.mem_append.1 h with h | h
  · cases u with
    | L =>
      obtain ⟨j, hj, rfl⟩ := List.mem_map.1 h
      have hj := List.mem_range.1 hj
      exact ⟨⟨i, hi⟩, ⟨j, by omega⟩, rfl, Nat.le_of_lt hj, fun h => by cases h⟩
    | U =>
      obtain ⟨j, hj, rfl⟩ := List.mem_map.1 h
      have hj := List.mem_range'_1.1 hj
      exact ⟨⟨i, hi⟩, ⟨j, by omega⟩, rfl, (by show i ≤ j; omega), fun h => by cases h⟩
  · rw [List.mem_singleton] at h
    subst h
    exact ⟨⟨i, hi⟩, ⟨i, hi⟩, rfl, by cases u <;> exact le_refl _, fun _ => rfl⟩

/-- Every element outside of the triangle is written. -/
theorem symSteps_all {u : UpLo} {n : Nat} (p q : Fin n) (h : ¬ InTriangle u p q) : (true, (q : Nat), (p : Nat)) ∈ symSteps u n := by
  unfold symSteps
  refine List.mem_flatMap.2 ⟨q, List.mem_range.2 q.2, List.mem_append_left _ ?_⟩
  cases u with
  | L =>
    have h : ¬ q ≤ p := h
    exact List.mem_map.2 ⟨p, List.mem_range.2 (by omega), rfl⟩
  | U =>
    have h : ¬ p ≤ q := h
    exact List.mem_map.2 ⟨p, List.mem_range'_1.2 (by omega), rfl⟩

theorem symmetrise_ok (lib : FaerLib 𝕜 ℝ) (hre : ∀ x, lib.re x = RCLike.re x) (hof : ∀ x, lib.ofRe x = (x : 𝕜)) (u : UpLo) {a : Tensor 𝕜} (ha : a.WF)
    (hu : a.Unshared) {n : Nat} {A S : Matrix (Fin n) (Fin n) 𝕜} (hA : a.arr.IsMat A) (hs : SameTriangle u A S) (hS : S.IsHermitian) :
    ∃ c, symmetrise lib u n a = .ok c ∧ c.WF ∧ c.arr.IsMat S ∧ c.layout = a.layout := by
  have hf : Fit [n, n] a.layout := hA.1 ▸ ha.fit
  have hcov := ha.covers
  have hcov : ∀ p q : Fin n, (a.layout.addr [(p : Nat), (q : Nat)]).toNat < a.data.length := fun p q =>
    hcov _ (by rw [show a.layout.shape = [n, n] from hA.1]; exact inRange2.2 ⟨p.2, q.2⟩)
  have hu : ∀ p q p' q' : Fin n, a.layout.addr [(p : Nat), (q : Nat)] = a.layout.addr [(p' : Nat), (q' : Nat)] → p = p' ∧ q = q' := by
    intro p q p' q' e
    have := hu _ _ (hA.1 ▸ inRange2.2 ⟨p.2, q.2⟩) (hA.1 ▸ inRange2.2 ⟨p'.2, q'.2⟩) e
    simp only [List.cons.injEq, and_true] at this
    exact ⟨Fin.ext this.1, Fin.ext this.2⟩
  have key : ∀ (xs : List (Bool × Nat × Nat)) (D : Fin n → Fin n → Prop) (c : List 𝕜),
      (∀ x ∈ xs, ∃ i j : Fin n, x.2 = ((i : Nat), (j : Nat)) ∧ InTriangle u i j ∧ (x.1 = false → i = j)) →
      (∀ i j, InTriangle u i j → D i j) → Holds a.layout a.data.length S D c →
      ∃ c', runAll (fun (x : Bool × Nat × Nat) c => if x.1 then setFrom star a.layout x.2 (x.2.2, x.2.1) c
          else setFrom (fun v => lib.ofRe (lib.re v)) a.layout x.2 x.2 c) xs c = .ok c' ∧
        Holds a.layout a.data.length S (fun p q => D p q ∨ (true, (q : Nat), (p : Nat)) ∈ xs) c' := by
    intro xs
    induction xs with
    | nil => intro D c _ _ h; exact ⟨c, rfl, h.len, fun p q hd => h.at_ p q (hd.resolve_right (by simp))⟩
    | cons x xs ih =>
      intro D c hx hD h
      obtain ⟨i, j, e, ht, hb⟩ := hx x List.mem_cons_self
      obtain ⟨b, y⟩ := x
      simp only at e hb
      subst e
      cases b with
      | true =>
        obtain ⟨c1, k1, k2⟩ := h.set hf hu hcov (hD i j ht) (p := j) (q := i) (f := star) (hS.apply j i)
        obtain ⟨c2, g1, g2⟩ := ih _ c1 (fun x hx' => hx x (List.mem_cons_of_mem _ hx')) (fun i j h => .inl (hD i j h)) k2
        refine ⟨c2, ?_, g2.len, fun p q hd => g2.at_ p q ?_⟩
        · show (setFrom star a.layout _ _ c >>= runAll _ xs) = _
          simp only [k1, ok_bind]
          exact g1
        · rcases hd with hd | hd
          · exact .inl (.inl hd)
          · rcases List.mem_cons.1 hd with e | hd
            · simp only [Prod.mk.injEq, true_and] at e
              exact .inl (.inr ⟨Fin.ext e.2, Fin.ext e.1⟩)
            · exact .inr hd
      | false =>
        obtain rfl := hb rfl
        obtain ⟨c1, k1, k2⟩ := h.set hf hu hcov (hD i i ht) (p := i) (q := i) (f := fun v => lib.ofRe (lib.re v)) (by
          rw [hre, hof]
          exact RCLike.conj_eq_iff_re.1 (hS.apply i i))
        obtain ⟨c2, g1, g2⟩ := ih _ c1 (fun x hx' => hx x (List.mem_cons_of_mem _ hx')) (fun i j h => .inl (hD i j h)) k2
        refine ⟨c2, ?_, g2.len, fun p q hd => g2.at_ p q ?_⟩
        · show (setFrom (fun v => lib.ofRe (lib.re v)) a.layout _ _ c >>= runAll _ xs) = _
          simp only [k1, ok_bind]
          exact g1
        · rcases hd with hd | hd
          · exact .inl (.inl hd)
          · rcases List.mem_cons.1 hd with e | hd
            · simp at e
            · exact .inr hd
  obtain ⟨c, c1, c2⟩ := key (symSteps u n) (InTriangle u) a.data (fun x hx => mem_symSteps hx) (fun _ _ h => h)
    ⟨rfl, fun p q h => by rw [← hs p q h]; exact isMat_get ha hA p q⟩
  have hw : (⟨c, a.layout⟩ : Tensor 𝕜).WF := ha.of_data c2.len
  refine ⟨⟨c, a.layout⟩, ?_, hw, ⟨hA.1, fun p q => ?_⟩, rfl⟩
  · unfold symmetrise
    rw [c1]; rfl
  · rw [elem_pos hf (inRange2.2 ⟨p.2, q.2⟩)]
    refine c2.at_ p q ?_
    by_cases h : InTriangle u p q
    · exact .inl h
    · exact .inr (symSteps_all p q h)

/-! ## Triangular factors -/

theorem block_of_lower {n : Nat} {L : Matrix (Fin n) (Fin n) 𝕜} (h : Triangular .L L) : L.BlockTriangular OrderDual.toDual := fun i j hij =>
  h i j (fun e : j ≤ i => absurd hij (not_lt.2 (OrderDual.toDual_le_toDual.2 e)))

theorem lower_of_block {n : Nat} {L : Matrix (Fin n) (Fin n) 𝕜} (h : L.BlockTriangular OrderDual.toDual) : Triangular .L L := fun _ _ hij =>
  h (OrderDual.toDual_lt_toDual.2 (lt_of_not_ge hij))

theorem triPart_self {u : UpLo} {n : Nat} {L : Matrix (Fin n) (Fin n) 𝕜} (h : Triangular u L) : triPart u .nonUnit L = L := by
  ext i j
  simp only [triPart, Matrix.of_apply]
  split
  · rfl
  · split
    · rfl
    · rename_i h'; exact (h i j h').symm

theorem diag_ne {n : Nat} {L : Matrix (Fin n) (Fin n) 𝕜} (h : Triangular .L L) (hd : IsUnit L.det) (i : Fin n) : L i i ≠ 0 := by
  intro e
  rw [Matrix.det_of_lowerTriangular L (block_of_lower h), Finset.prod_eq_zero (f := fun i => L i i) (Finset.mem_univ i) e] at hd
  exact not_isUnit_zero hd

/-- Solving with a lower factor that has an inverse. -/
theorem triSolve_lower {lib : FaerLib 𝕜 ρ} (hl : TriSolveDoc lib.triSolve) {n : Nat} {L K : Matrix (Fin n) (Fin n) 𝕜} (ht : Triangular .L L) (h : L * K = 1)
    (B : Matrix (Fin n) (Fin n) 𝕜) : lib.triSolve .L n n L B = K * B := by
  have hd : IsUnit L.det := (Matrix.isUnit_iff_isUnit_det L).1 (IsUnit.of_mul_eq_one _ h)
  have := hl .L n n L B (diag_ne ht hd)
  rw [triPart_self ht] at this
  calc lib.triSolve .L n n L B = K * L * lib.triSolve .L n n L B := by rw [mul_eq_one_comm.1 h, Matrix.one_mul]
    _ = K * B := by rw [Matrix.mul_assoc, this]

/-- The same with an upper factor. -/
theorem triSolve_upper {lib : FaerLib 𝕜 ρ} (hl : TriSolveDoc lib.triSolve) {n : Nat} {U K : Matrix (Fin n) (Fin n) 𝕜}
    (hU : Triangular .U U) (hz : ∀ i, U i i ≠ 0) (h : U * K = 1)
    (B : Matrix (Fin n) (Fin n) 𝕜) : lib.triSolve .U n n U B = K * B := by
  have := hl .U n n U B hz
  rw [triPart_self hU] at this
  calc lib.triSolve .U n n U B = K * U * lib.triSolve .U n n U B := by rw [mul_eq_one_comm.1 h, Matrix.one_mul]
    _ = K * B := by rw [Matrix.mul_assoc, this]

theorem upper_of_adj {n : Nat} {L : Matrix (Fin n) (Fin n) 𝕜} (h : Triangular .L L) : Triangular .U Lᴴ := fun i j hij => by
  rw [conjTranspose_apply, h j i hij, star_zero]

theorem upper_of_tr {n : Nat} {L : Matrix (Fin n) (Fin n) 𝕜} (h : Triangular .L L) : Triangular .U Lᵀ := fun i j hij => by
  rw [transpose_apply, h j i hij]

/-! ## Two matrices -/

/-- From the problem of one matrix to that of two. -/
theorem gen_of_ev {n : Nat} {S H L K : Matrix (Fin n) (Fin n) 𝕜} (hL : L * Lᴴ = H) (k2 : L * K = 1) :
    (∀ l Y, Monotone l → IsEigvecs (K * S * Kᴴ) l Y → IsEigvals (genMat 1 S H) l ∧ IsGenEigvecs 1 S H l (Kᴴ * Y)) ∧
    (∀ l Y, Monotone l → IsEigvecs (Lᴴ * S * L) l Y → IsEigvals (genMat 2 S H) l ∧ IsGenEigvecs 2 S H l (Kᴴ * Y)) ∧
    (∀ l Y, Monotone l → IsEigvecs (Lᴴ * S * L) l Y → IsEigvals (genMat 3 S H) l ∧ IsGenEigvecs 3 S H l (L * Y)) := by
  have k1 : K * L = 1 := mul_eq_one_comm.1 k2
  have k3 : Lᴴ * Kᴴ = 1 := by rw [← Matrix.conjTranspose_mul, k1, Matrix.conjTranspose_one]
  have k4 : Kᴴ * Lᴴ = 1 := mul_eq_one_comm.1 k3
  have hinv : H⁻¹ = Kᴴ * K := by
    refine Matrix.inv_eq_right_inv ?_
    rw [← hL]
    calc L * Lᴴ * (Kᴴ * K) = L * (Lᴴ * Kᴴ) * K := by simp only [Matrix.mul_assoc]
      _ = 1 := by rw [k3, Matrix.mul_one, k2]
  have unit : ∀ {Y P Q : Matrix (Fin n) (Fin n) 𝕜}, Yᴴ * Y = 1 → P * Q = 1 → IsUnit (P * Y) := by
    intro Y P Q hY hP
    have h1 : IsUnit P := IsUnit.of_mul_eq_one _ hP
    have h2 : IsUnit Y := IsUnit.of_mul_eq_one _ (mul_eq_one_comm.1 hY)
    exact h1.mul h2
  have a1 : ∀ X : Matrix (Fin n) (Fin n) 𝕜, K * (L * X) = X := fun X => by rw [← Matrix.mul_assoc, k1, Matrix.one_mul]
  have a2 : ∀ X : Matrix (Fin n) (Fin n) 𝕜, L * (K * X) = X := fun X => by rw [← Matrix.mul_assoc, k2, Matrix.one_mul]
  have a3 : ∀ X : Matrix (Fin n) (Fin n) 𝕜, Lᴴ * (Kᴴ * X) = X := fun X => by rw [← Matrix.mul_assoc, k3, Matrix.one_mul]
  have a4 : ∀ X : Matrix (Fin n) (Fin n) 𝕜, Kᴴ * (Lᴴ * X) = X := fun X => by rw [← Matrix.mul_assoc, k4, Matrix.one_mul]
  refine ⟨fun l Y m h => ?_, fun l Y m h => ?_, fun l Y m h => ?_⟩ <;> obtain ⟨y1, y2⟩ := h <;> simp only [Matrix.mul_assoc] at y2
  · have e : S * (Kᴴ * Y) = L * (Y * diagonal fun i => (l i : 𝕜)) := by rw [← y2, a2]
    refine ⟨⟨m, charpoly_of_diag (unit y1 k4) ?_⟩, fun _ => ⟨?_, ?_⟩, fun h => absurd h (by decide), fun h => absurd h (by decide)⟩
    · rw [genMat, if_pos rfl, hinv]
      simp only [Matrix.mul_assoc]
      rw [e, a1]
    · rw [← hL]
      simp only [Matrix.mul_assoc]
      rw [e, a3]
    · rw [← hL, Matrix.conjTranspose_mul, Matrix.conjTranspose_conjTranspose]
      simp only [Matrix.mul_assoc]
      rw [a3, a1, y1]
  · have e : S * (L * Y) = Kᴴ * (Y * diagonal fun i => (l i : 𝕜)) := by rw [← y2, a4]
    have f : S * H * (Kᴴ * Y) = Kᴴ * Y * diagonal fun i => (l i : 𝕜) := by
      rw [← hL]
      simp only [Matrix.mul_assoc]
      rw [a3, e]
    refine ⟨⟨m, charpoly_of_diag (unit y1 k4) ?_⟩, fun h => absurd h (by decide), fun _ => ⟨f, ?_⟩, fun h => absurd h (by decide)⟩
    · rw [genMat, if_neg (by decide), if_pos rfl, f]
    · rw [← hL, Matrix.conjTranspose_mul, Matrix.conjTranspose_conjTranspose]
      simp only [Matrix.mul_assoc]
      rw [a3, a1, y1]
  · have f : H * S * (L * Y) = L * Y * diagonal fun i => (l i : 𝕜) := by
      rw [← hL]
      simp only [Matrix.mul_assoc]
      rw [y2]
    refine ⟨⟨m, charpoly_of_diag (unit y1 k2) ?_⟩, fun h => absurd h (by decide), fun h => absurd h (by decide), fun _ => ⟨f, ?_⟩⟩
    · rw [genMat, if_neg (by decide), if_neg (by decide), f]
    · rw [hinv, Matrix.conjTranspose_mul]
      simp only [Matrix.mul_assoc]
      rw [a1, a3, y1]

theorem genSolve_ok (lib : FaerLib 𝕜 ℝ) (hl : TriSolveDoc lib.triSolve) (he : FaerEigDoc lib.eigen) (u : UpLo) (t : Int) (ht : t = 1 ∨ t = 2 ∨ t = 3)
    {n : Nat} {S H L : Matrix (Fin n) (Fin n) 𝕜} (hS : S.IsHermitian) (hH : H.PosDef) (hL : IsCholesky .L H L)
    (hc : ∀ M : Matrix (Fin n) (Fin n) 𝕜, M.IsHermitian → ∃ r, lib.eigen u n M = .ok r) :
    ∃ (s : Fin n → 𝕜) (l : Fin n → ℝ) (V : Matrix (Fin n) (Fin n) 𝕜), genSolve lib u t L S = .ok (s, V) ∧ (∀ i, s i = (l i : 𝕜)) ∧ IsEigvals (genMat t S H) l ∧ IsGenEigvecs t S H l V := by
  obtain ⟨hT, hL⟩ := hL
  have hL : L * Lᴴ = H := hL
  have hu : IsUnit H.det := hH.det_pos.ne'.isUnit
  have hd : IsUnit L.det := by
    have : IsUnit (L.det * (Lᴴ).det) := by rw [← Matrix.det_mul, hL]; exact hu
    exact isUnit_of_mul_isUnit_left this
  obtain ⟨K, k2, kT⟩ : ∃ K : Matrix (Fin n) (Fin n) 𝕜, L * K = 1 ∧ Triangular .L K := by
    have : Invertible L := Matrix.invertibleOfIsUnitDet L hd
    exact ⟨L⁻¹, Matrix.mul_nonsing_inv L hd, lower_of_block (Matrix.blockTriangular_inv_of_blockTriangular (block_of_lower hT))⟩
  have k1 : K * L = 1 := mul_eq_one_comm.1 k2
  have k3 : Lᴴ * Kᴴ = 1 := by rw [← Matrix.conjTranspose_mul, k1, Matrix.conjTranspose_one]
  have k4 : Kᴴ * Lᴴ = 1 := mul_eq_one_comm.1 k3
  have hdK : IsUnit K.det := (Matrix.isUnit_iff_isUnit_det K).1 (IsUnit.of_mul_eq_one _ k1)
  have lne := diag_ne hT hd
  have kne := diag_ne kT hdK
  obtain ⟨g1, g2, g3⟩ := gen_of_ev (S := S) hL k2
  -- conjugates and transposes of the factors
  have cT : Triangular .L (L.map star) := fun i j h => by rw [Matrix.map_apply, hT i j h, star_zero]
  have cK : L.map star * K.map star = 1 := by
    have : (L * K).map star = L.map star * K.map star := by
      have h := Matrix.map_mul (L := L) (M := K) (f := starRingEnd 𝕜)
      exact h
    rw [← this, k2]
    ext i j
    simp [Matrix.one_apply, apply_ite]
  have tr : ∀ M : Matrix (Fin n) (Fin n) 𝕜, (K.map star * Mᵀ)ᵀ = M * Kᴴ := fun M => by
    rw [Matrix.transpose_mul, Matrix.transpose_transpose]; rfl
  have back : ∀ V, lib.triSolve .U n n Lᴴ V = Kᴴ * V :=
    triSolve_upper hl (upper_of_adj hT) (fun i => by rw [conjTranspose_apply]; exact star_ne_zero.2 (lne i)) k3
  have e1 : lib.triSolve .L n n L 1 = K := by rw [triSolve_lower hl hT k2, Matrix.mul_one]
  have e2 : lib.triSolve .U n n Kᴴ S = Lᴴ * S :=
    triSolve_upper hl (upper_of_adj kT) (fun i => by rw [conjTranspose_apply]; exact star_ne_zero.2 (kne i)) k4 S
  have e3 : (lib.triSolve .U n n Kᵀ (Lᴴ * S)ᵀ)ᵀ = Lᴴ * S * L := by
    rw [triSolve_upper hl (upper_of_tr kT) (fun i => kne i) (K := Lᵀ) (by rw [← Matrix.transpose_mul, k2, Matrix.transpose_one]),
      Matrix.transpose_mul, Matrix.transpose_transpose, Matrix.transpose_transpose]
  have C1 : (K * S * Kᴴ).IsHermitian := Matrix.isHermitian_mul_mul_conjTranspose K hS
  have C2 : (Lᴴ * S * L).IsHermitian := Matrix.isHermitian_conjTranspose_mul_mul L hS
  rcases ht with rfl | rfl | rfl
  · obtain ⟨⟨V, s⟩, h⟩ := hc _ C1
    obtain ⟨l, l1, l2, l3⟩ := he u n _ _ V s (fun _ _ _ => rfl) C1 h
    refine ⟨s, l, _, ?_, l1, g1 l V l2 l3⟩
    unfold genSolve
    rw [if_pos rfl]
    simp only [triSolve_lower hl hT k2, triSolve_lower hl cT cK, tr, h, liftFaer, ok_bind, back]
    rfl
  · obtain ⟨⟨V, s⟩, h⟩ := hc _ C2
    obtain ⟨l, l1, l2, l3⟩ := he u n _ _ V s (fun _ _ _ => rfl) C2 h
    refine ⟨s, l, _, ?_, l1, g2 l V l2 l3⟩
    unfold genSolve
    rw [if_neg (by decide)]
    simp only [e1, e2, e3, h, liftFaer, ok_bind, back]
    rfl
  · obtain ⟨⟨V, s⟩, h⟩ := hc _ C2
    obtain ⟨l, l1, l2, l3⟩ := he u n _ _ V s (fun _ _ _ => rfl) C2 h
    refine ⟨s, l, _, ?_, l1, g3 l V l2 l3⟩
    unfold genSolve
    rw [if_neg (by decide)]
    simp only [e1, e2, e3, h, liftFaer, ok_bind, triSolve_lower hl kT k1]
    rfl

theorem intoOwned_unshared (dflt : Order) {a : Tensor α} (ha : a.WF) (hu : a.Unshared) :
    ∃ c, Tensor.intoOwned dflt a = .ok c ∧ c.WF ∧ a.arr.Same c.arr ∧ c.Unshared := by
  obtain ⟨c, c1, c2, c3, -⟩ := C35_into_owned dflt a ha
  refine ⟨c, c1, c2, c3, ?_⟩
  obtain ⟨mn, mx, hb, -, -⟩ := WF_bounds ha
  unfold Tensor.intoOwned at c1
  simp only [hb, ok_bind] at c1
  split at c1
  · cases c1; exact hu
  · obtain ⟨m, h1, h2, h3, h4⟩ := forArrayCopy_spec dflt ha.fit.valid .K (by simp)
    have hm : c.layout = m := by
      unfold Tensor.asarray at c1
      simp only [h1, ok_bind] at c1
      obtain ⟨_, -, c1⟩ := bind_ok.1 c1
      obtain ⟨_, -, c1⟩ := bind_ok.1 c1
      exact newF_layout c1
    have ht := h3.tight fun hz => h4 (h2 ▸ hz)
    intro i j hi hj e
    rw [← hm] at ht
    exact ht.inj i j hi hj (by
      unfold Layout.pos
      have e : c.layout.addr i = c.layout.addr j := e
      rw [e])

/-- The copy after the other triangle is filled in. -/
theorem general_of_sym (lib : FaerLib 𝕜 ℝ) (hre : ∀ x, lib.re x = RCLike.re x) (hf : LltDoc lib.llt)
    (hl : TriSolveDoc lib.triSolve) (he : FaerEigDoc lib.eigen) (mem : FaerMem 𝕜) (hm : mem.Fits) (sys : Order) (dev : FaerDev) (uplo : Option UpLo)
    {a a' c b : Tensor 𝕜} {n : Nat} (hsa : a.arr.shape = [n, n]) (h1 : Tensor.intoOwned dev.order a = .ok a') (hs' : a'.arr.shape = [n, n])
    (h2 : symmetrise lib (uploOr dev.order uplo) n a' = .ok c) (hcw : c.WF) {S : Matrix (Fin n) (Fin n) 𝕜} (hcm : c.arr.IsMat S) (hS : S.IsHermitian)
    (hb : b.WF) {B H : Matrix (Fin n) (Fin n) 𝕜} (hB : b.arr.IsMat B) (hs : SameTriangle (uploOr dev.order uplo) B H) (hH : H.PosDef)
    (t : Int) (ht : t = 1 ∨ t = 2 ∨ t = 3) (hc : ∀ M : Matrix (Fin n) (Fin n) 𝕜, M.IsHermitian → ∃ r, lib.eigen (uploOr dev.order uplo) n M = .ok r) :
    ∃ w v l V, faerEighGeneral lib mem sys dev a b uplo t = .ok (w, v) ∧ w.t.WF ∧ w.t.arr.IsVec l ∧ IsEigvals (genMat t S H) l ∧ v.t.WF ∧
      v.t.arr.IsMat V ∧ IsGenEigvecs t S H l V := by
  obtain ⟨L, f1, f2⟩ := hf.factor _ n B H hs hH
  obtain ⟨s, l, V, g1, g2, g3, g4⟩ := genSolve_ok lib hl he (uploOr dev.order uplo) t ht hS hH f2 hc
  have na : a.layout.ndim = 2 := ndim_len (s := [n, n]) hsa
  have nb : b.layout.ndim = 2 := ndim_len (s := [n, n]) hB.1
  obtain ⟨d0, d1⟩ := dimAt2 (l := a.layout) hsa
  obtain ⟨d2, -⟩ := dimAt2 (l := a'.layout) hs'
  obtain ⟨e0, e1⟩ := dimAt2 (l := b.layout) hB.1
  obtain ⟨w, w1, w2, w3⟩ := realsOut_ok lib sys s
  obtain ⟨x, x1, x2, x3, -⟩ := contigOut_ok hm sys dev.order V
  obtain ⟨y, y1, y2, y3, -⟩ := C35_into_owned sys x x2
  have e : (fun i => lib.re (s i)) = l := by funext i; rw [hre, g2, RCLike.ofReal_re]
  refine ⟨⟨w, .dflt sys⟩, ⟨y, .dflt sys⟩, l, V, ?_, w2, e ▸ w3, g3, y2, isMat_same x3 y3, g4⟩
  unfold faerEighGeneral
  rw [if_neg (not_not.2 na), if_neg (not_not.2 nb), if_neg (by omega), if_neg (by rw [d0, d1]; simp)]
  simp only [h1, orPanic, ok_bind]
  rw [d2, e0, e1]
  simp only [h2, ok_bind, faerAssert, decide_true, if_true, loadFaer_ok hb hB, f1, liftFaer, dif_pos, loadFaer_ok hcw hcm, g1, w1, x1, y1]
  rfl

/-- The problems of two matrices, a Hermitian one and a positive definite one, each given by one triangle, if no two elements of the first one share a cell
(`C83_false_shared`) and the iteration converges for Hermitian matrices. -/
theorem C83_general_partial (lib : FaerLib 𝕜 ℝ) (hre : ∀ x, lib.re x = RCLike.re x) (hof : ∀ x, lib.ofRe x = (x : 𝕜)) (hf : LltDoc lib.llt)
    (hl : TriSolveDoc lib.triSolve) (he : FaerEigDoc lib.eigen) (mem : FaerMem 𝕜) (hm : mem.Fits) (sys : Order) (dev : FaerDev) (uplo : Option UpLo)
    (u : UpLo) (hu : u = match uplo, dev.order with | some u, _ => u | none, .C => .L | none, .F => .U)
    (a b : Tensor 𝕜) (ha : a.WF) (hua : a.Unshared) (hb : b.WF) {n : Nat} (A S B H : Matrix (Fin n) (Fin n) 𝕜) (hA : a.arr.IsMat A) (hB : b.arr.IsMat B)
    (hs : SameTriangle u A S) (hS : S.IsHermitian) (hs' : SameTriangle u B H) (hH : H.PosDef) (t : Int) (ht : t = 1 ∨ t = 2 ∨ t = 3)
    (hc : ∀ M : Matrix (Fin n) (Fin n) 𝕜, M.IsHermitian → ∃ r, lib.eigen u n M = .ok r) :
    ∃ w v l V, faerEighGeneral lib mem sys dev a b uplo t = .ok (w, v) ∧ w.t.WF ∧ w.t.arr.IsVec l ∧ IsEigvals (genMat t S H) l ∧ v.t.WF ∧
      v.t.arr.IsMat V ∧ IsGenEigvecs t S H l V := by
  have hu := hu.trans (uploOr_eq dev.order uplo).symm
  subst hu
  obtain ⟨a', a1, a2, a3, a4⟩ := intoOwned_unshared dev.order ha hua
  have hA' := isMat_same hA a3
  obtain ⟨c, c1, c2, c3, -⟩ := symmetrise_ok lib hre hof (uploOr dev.order uplo) a2 a4 hA' hs hS
  exact general_of_sym lib hre hf hl he mem hm sys dev uplo hA.1 a1 hA'.1 c1 c2 c3 hS hb hB hs' hH t ht hc

/-- A second matrix that is not positive definite is an error. -/
theorem C83_indefinite_partial (lib : FaerLib 𝕜 ℝ) (hre : ∀ x, lib.re x = RCLike.re x) (hof : ∀ x, lib.ofRe x = (x : 𝕜)) (hf : LltDoc lib.llt)
    (mem : FaerMem 𝕜) (sys : Order) (dev : FaerDev) (uplo : Option UpLo)
    (u : UpLo) (hu : u = match uplo, dev.order with | some u, _ => u | none, .C => .L | none, .F => .U)
    (a b : Tensor 𝕜) (ha : a.WF) (hua : a.Unshared) (hb : b.WF) {n : Nat} (A S B H : Matrix (Fin n) (Fin n) 𝕜) (hA : a.arr.IsMat A) (hB : b.arr.IsMat B)
    (hs : SameTriangle u A S) (hS : S.IsHermitian) (hs' : SameTriangle u B H) (hH : H.IsHermitian) (hp : ¬ H.PosDef) (t : Int) (ht : t = 1 ∨ t = 2 ∨ t = 3) :
    faerEighGeneral lib mem sys dev a b uplo t = .error .faerError := by
  have hu := hu.trans (uploOr_eq dev.order uplo).symm
  subst hu
  obtain ⟨a', a1, a2, a3, a4⟩ := intoOwned_unshared dev.order ha hua
  have hA' := isMat_same hA a3
  obtain ⟨c, c1, c2, c3, -⟩ := symmetrise_ok lib hre hof (uploOr dev.order uplo) a2 a4 hA' hs hS
  have f1 := hf.indefinite _ n B H hs' hH hp
  have na : a.layout.ndim = 2 := ndim_len (s := [n, n]) hA.1
  have nb : b.layout.ndim = 2 := ndim_len (s := [n, n]) hB.1
  obtain ⟨d0, d1⟩ := dimAt2 (l := a.layout) hA.1
  obtain ⟨d2, -⟩ := dimAt2 (l := a'.layout) hA'.1
  obtain ⟨e0, e1⟩ := dimAt2 (l := b.layout) hB.1
  unfold faerEighGeneral
  rw [if_neg (not_not.2 na), if_neg (not_not.2 nb), if_neg (by omega), if_neg (by rw [d0, d1]; simp)]
  simp only [a1, orPanic, ok_bind]
  rw [d2, e0, e1]
  simp only [c1, ok_bind, faerAssert, decide_true, if_true, loadFaer_ok hb hB, f1, liftFaer]
  rfl

/-- Arrays of the wrong number of dimensions, problems of another type and a first matrix that is not square (of two) are errors. -/
theorem C83_reject_partial [Star α] [Zero α] [One α] (lib : FaerLib α ρ) (mem : FaerMem α) (sys : Order) (dev : FaerDev) (uplo : Option UpLo) (a b : Tensor α) (t : Int) :
    (a.arr.shape.length ≠ 2 → faerEigh lib mem sys dev a uplo = .error .invalidLayout ∧ faerEigvalsh lib dev a uplo = .error .invalidLayout) ∧
    (a.arr.shape.length ≠ 2 ∨ b.arr.shape.length ≠ 2 ∨ ¬ (1 ≤ t ∧ t ≤ 3) ∨ (∃ m n, a.arr.shape = [m, n] ∧ m ≠ n) →
      faerEighGeneral lib mem sys dev a b uplo t = .error .invalidLayout) := by
  have la : a.arr.shape.length = a.layout.ndim := (ndim_len (l := a.layout) rfl).symm
  have lb : b.arr.shape.length = b.layout.ndim := (ndim_len (l := b.layout) rfl).symm
  rw [la, lb]
  refine ⟨fun h => ⟨if_pos h, if_pos h⟩, fun h => ?_⟩
  unfold faerEighGeneral
  by_cases h1 : a.layout.ndim = 2
  · rw [if_neg (not_not.2 h1)]
    by_cases h2 : b.layout.ndim = 2
    · rw [if_neg (not_not.2 h2)]
      by_cases h3 : t < 1 ∨ 3 < t
      · rw [if_pos h3]
      · rw [if_neg h3]
        obtain ⟨m, n, hs, hne⟩ : ∃ m n, a.arr.shape = [m, n] ∧ m ≠ n := by
          rcases h with h | h | h | h
          · exact absurd h1 h
          · exact absurd h2 h
          · omega
          · exact h
        obtain ⟨d0, d1⟩ := dimAt2 (l := a.layout) hs
        rw [if_pos (by rw [d0, d1]; exact hne)]
    · rw [if_pos h2]
  · rw [if_pos h1]

/-! ## Where the property fails -/

/-- A matrix that is not square is a panic in the library, not an error. -/
theorem C83_false_square (lib : FaerLib α ρ) (mem : FaerMem α) (sys : Order) (dev : FaerDev) (uplo : Option UpLo) (a : Tensor α)
    {m n : Nat} (hs : a.arr.shape = [m, n]) (hne : m ≠ n) :
    faerEigh lib mem sys dev a uplo = .error .panic ∧ faerEigvalsh lib dev a uplo = .error .panic := by
  have na : a.layout.ndim = 2 := ndim_len (s := [m, n]) hs
  obtain ⟨d0, d1⟩ := dimAt2 (l := a.layout) hs
  have hne' : ¬ n = m := fun e => hne e.symm
  constructor
  · unfold faerEigh
    simp only [na, d0, d1, faerAssert, hne', ne_eq, not_true_eq_false, if_false, decide_false, Bool.false_eq_true]
    rfl
  · unfold faerEigvalsh
    simp only [na, d0, d1, faerAssert, hne', ne_eq, not_true_eq_false, if_false, decide_false, Bool.false_eq_true]
    rfl

/-- A second matrix of another size is a panic too. -/
theorem C83_false_size (lib : FaerLib 𝕜 ℝ) (hre : ∀ x, lib.re x = RCLike.re x) (hof : ∀ x, lib.ofRe x = (x : 𝕜)) (hf : LltDoc lib.llt)
    (mem : FaerMem 𝕜) (sys : Order) (dev : FaerDev) (uplo : Option UpLo)
    (a b : Tensor 𝕜) (ha : a.WF) (hua : a.Unshared) (hb : b.WF) {n k : Nat} (hne : k ≠ n) (S : Matrix (Fin n) (Fin n) 𝕜) (H : Matrix (Fin k) (Fin k) 𝕜)
    (hA : a.arr.IsMat S) (hB : b.arr.IsMat H) (hS : S.IsHermitian) (hH : H.PosDef) (t : Int) (ht : t = 1 ∨ t = 2 ∨ t = 3) :
    faerEighGeneral lib mem sys dev a b uplo t = .error .panic := by
  obtain ⟨a', a1, a2, a3, a4⟩ := intoOwned_unshared dev.order ha hua
  have hA' := isMat_same hA a3
  obtain ⟨c, c1, c2, c3, -⟩ := symmetrise_ok lib hre hof (uploOr dev.order uplo) a2 a4 hA' (fun _ _ _ => rfl) hS
  obtain ⟨L, f1, -⟩ := hf.factor (uploOr dev.order uplo) k H H (fun _ _ _ => rfl) hH
  have na : a.layout.ndim = 2 := ndim_len (s := [n, n]) hA.1
  have nb : b.layout.ndim = 2 := ndim_len (s := [k, k]) hB.1
  obtain ⟨d0, d1⟩ := dimAt2 (l := a.layout) hA.1
  obtain ⟨d2, -⟩ := dimAt2 (l := a'.layout) hA'.1
  obtain ⟨e0, e1⟩ := dimAt2 (l := b.layout) hB.1
  unfold faerEighGeneral
  rw [if_neg (not_not.2 na), if_neg (not_not.2 nb), if_neg (by omega), if_neg (by rw [d0, d1]; simp)]
  simp only [a1, orPanic, ok_bind]
  rw [d2, e0, e1]
  simp only [c1, ok_bind, faerAssert, decide_true, if_true, loadFaer_ok hb hB, f1, liftFaer, dif_neg hne]

/-- Two rows that share their cells, in a storage of as many cells as there are elements: first and last cell of four, stretched to two rows. -/
noncomputable def sharedA : Tensor ℝ := ⟨[1, 9, 9, 5], ⟨[⟨2, 0⟩, ⟨2, 3⟩], 0⟩⟩
noncomputable def unitB : Tensor ℝ := ⟨[1, 0, 0, 1], ⟨[⟨2, 2⟩, ⟨2, 1⟩], 0⟩⟩

theorem sharedA_ok : sharedA.WF ∧ sharedA.arr.IsMat (!![1, 5; 1, 5] : Matrix (Fin 2) (Fin 2) ℝ) ∧ unitB.WF ∧ unitB.arr.IsMat (1 : Matrix (Fin 2) (Fin 2) ℝ) := by
  refine ⟨⟨by decide, rfl⟩, ⟨rfl, fun i j => ?_⟩, ⟨by decide, rfl⟩, ⟨rfl, fun i j => ?_⟩⟩
  · fin_cases i <;> fin_cases j <;> rfl
  · fin_cases i <;> fin_cases j <;> rfl

/-- `to_owned` keeps a layout in which elements share cells, if the storage has as many cells as there are elements. Filling in the other triangle then
changes the triangle that was given: these are not the eigenvalues of the matrix whose lower triangle was given. -/
theorem C83_false_shared (lib : FaerLib ℝ ℝ) (hre : ∀ x, lib.re x = x) (hof : ∀ x, lib.ofRe x = x) (hf : LltDoc lib.llt)
    (hl : TriSolveDoc lib.triSolve) (he : FaerEigDoc lib.eigen) (mem : FaerMem ℝ) (hm : mem.Fits) (sys : Order)
    (hc : ∀ M : Matrix (Fin 2) (Fin 2) ℝ, M.IsHermitian → ∃ r, lib.eigen .L 2 M = .ok r) :
    SameTriangle .L (!![1, 5; 1, 5] : Matrix (Fin 2) (Fin 2) ℝ) !![1, 1; 1, 5] ∧
    ∃ w v l, faerEighGeneral lib mem sys ⟨.C, 0⟩ sharedA unitB none 1 = .ok (w, v) ∧ w.t.arr.IsVec l ∧
      ¬ IsEigvals (genMat 1 !![1, 1; 1, 5] (1 : Matrix (Fin 2) (Fin 2) ℝ)) l := by
  constructor
  · intro i j h
    fin_cases i <;> fin_cases j <;> first | rfl | exact absurd h (by decide)
  · have e : symmetrise lib .L 2 sharedA =
        .ok ⟨[lib.ofRe (lib.re 1), 9, 9, lib.ofRe (lib.re (star (lib.ofRe (lib.re 1))))], ⟨[⟨2, 0⟩, ⟨2, 3⟩], 0⟩⟩ := rfl
    simp only [hre, hof, star_trivial] at e
    have hM : (⟨[1, 9, 9, 1], ⟨[⟨2, 0⟩, ⟨2, 3⟩], 0⟩⟩ : Tensor ℝ).arr.IsMat (!![1, 1; 1, 1] : Matrix (Fin 2) (Fin 2) ℝ) :=
      ⟨rfl, fun i j => by fin_cases i <;> fin_cases j <;> rfl⟩
    obtain ⟨w, v, l, V, h1, h2, h3, h4, -⟩ := general_of_sym lib hre hf hl he mem hm sys ⟨.C, 0⟩ none (a := sharedA) (a' := sharedA) (b := unitB) (n := 2)
      rfl rfl rfl e ⟨by decide, rfl⟩ hM (by ext i j; fin_cases i <;> fin_cases j <;> simp) sharedA_ok.2.2.1 sharedA_ok.2.2.2 (fun _ _ _ => rfl)
      Matrix.PosDef.one 1 (.inl rfl) hc
    refine ⟨w, v, l, h1, h3, fun h => ?_⟩
    have := congrArg (fun p => (-1 : ℝ) ^ Fintype.card (Fin 2) * Polynomial.coeff p 0) (h4.2.trans h.2.symm)
    simp only [← Matrix.det_eq_sign_charpoly_coeff, genMat, if_pos, inv_one, Matrix.one_mul, Matrix.det_fin_two_of] at this
    norm_num at this

/-! ## Cases that meet the hypotheses -/

theorem faer_eig (𝕜 : Type) [RCLike 𝕜] : FaerEigDoc (faerLib 𝕜).eigen ∧ FaerEigvalsDoc (faerLib 𝕜).eigvals := by
  constructor
  · intro u n A S V s hs hS h
    obtain rfl : mirror true u A = S := mirror_eq hs hS
    have e : (faerLib 𝕜).eigen u n A = _ := dif_pos hS
    rw [e] at h
    simp only [Except.ok.injEq, Prod.mk.injEq] at h
    obtain ⟨rfl, rfl⟩ := h
    have := (exists_ev hS).choose_spec.choose_spec
    exact ⟨_, fun _ => rfl, this.1.1, this.2⟩
  · intro u n A S w hs hS h
    obtain rfl : mirror true u A = S := mirror_eq hs hS
    have e : (faerLib 𝕜).eigvals u n A = _ := dif_pos hS
    rw [e] at h
    simp only [Except.ok.injEq] at h
    subst h
    exact (exists_ev hS).choose_spec.choose_spec.1

theorem faerEig_ok {u : UpLo} {n : Nat} {A S : Matrix (Fin n) (Fin n) 𝕜} (hs : SameTriangle u A S) (hS : S.IsHermitian) :
    (∃ r, (faerLib 𝕜).eigen u n A = .ok r) ∧ ∃ r, (faerLib 𝕜).eigvals u n A = .ok r := by
  obtain rfl : mirror true u A = S := mirror_eq hs hS
  exact ⟨⟨_, dif_pos hS⟩, ⟨_, dif_pos hS⟩⟩

example := C83_eigh (faerLib ℂ) (fun _ => rfl) (faer_eig ℂ).1 (faerMem ℂ) (faerMem_fits ℂ) .C ⟨.C, 4⟩ none .L rfl symA.t symA_ok.wf _ _ symA_mat symA_tri
  symH_pos.isHermitian (faerEig_ok symA_tri symH_pos.isHermitian).1
example := C83_eigvalsh (faerLib ℂ) (faer_eig ℂ).2 ⟨.F, 4⟩ (some .L) .L rfl symA.t symA_ok.wf _ _ symA_mat symA_tri
  symH_pos.isHermitian (faerEig_ok symA_tri symH_pos.isHermitian).2
example := C83_fail ({ faerLib ℂ with eigen := fun _ _ _ => .error () } : FaerLib ℂ ℝ) (faerMem ℂ) .C ⟨.C, 4⟩ none .L rfl symA.t symA_ok.wf _ symA_mat
theorem symA_unshared : symA.t.Unshared := unshared_of_writable symA_ok.wf (by decide)
example (t : Int) := C83_general_partial (faerLib ℂ) (fun _ => rfl) (fun _ => rfl) (faer_llt ℂ) (faer_tri ℂ) (faer_eig ℂ).1 (faerMem ℂ) (faerMem_fits ℂ) .C
  ⟨.C, 4⟩ none .L rfl symA.t symA.t symA_ok.wf symA_unshared symA_ok.wf _ _ _ _ symA_mat symA_mat symA_tri symH_pos.isHermitian symA_tri symH_pos t
example := C83_general_partial (faerLib ℂ) (fun _ => rfl) (fun _ => rfl) (faer_llt ℂ) (faer_tri ℂ) (faer_eig ℂ).1 (faerMem ℂ) (faerMem_fits ℂ) .C
  ⟨.C, 4⟩ none .L rfl symA.t symA.t symA_ok.wf symA_unshared symA_ok.wf _ _ _ _ symA_mat symA_mat symA_tri symH_pos.isHermitian symA_tri symH_pos 2 (by decide)
  fun _ h => (faerEig_ok (fun _ _ _ => rfl) h).1
example := C83_indefinite_partial (faerLib ℝ) (fun _ => rfl) (fun _ => rfl) (faer_llt ℝ) (faerMem ℝ) .C ⟨.F, 4⟩ none .U rfl symB.t symB.t symB_ok.1.wf
  (unshared_of_writable symB_ok.1.wf (by decide)) symB_ok.1.wf _ _ _ _ symB_mat.1 symB_mat.1 (fun _ _ _ => rfl) (symB_self true) (fun _ _ _ => rfl)
  (symB_self true) symB_indefinite 3 (by decide)
example := (C83_reject_partial (faerLib ℝ) (faerMem ℝ) .C ⟨.F, 4⟩ none symB.t symB.t 4).2 (.inr (.inr (.inl (by decide))))
example := C83_false_square (faerLib ℝ) (faerMem ℝ) .C ⟨.F, 4⟩ none ⟨[1, 2, 3, 4, 5, 6], ⟨[⟨2, 3⟩, ⟨3, 1⟩], 0⟩⟩ (m := 2) (n := 3) rfl (by decide)
example := C83_false_size (faerLib ℝ) (fun _ => rfl) (fun _ => rfl) (faer_llt ℝ) (faerMem ℝ) .C ⟨.F, 4⟩ none symB.t ⟨[1], ⟨[⟨1, 1⟩, ⟨1, 1⟩], 0⟩⟩ symB_ok.1.wf
  (unshared_of_writable symB_ok.1.wf (by decide)) ⟨by decide, rfl⟩ (n := 2) (k := 1) (by decide) _ (1 : Matrix (Fin 1) (Fin 1) ℝ) symB_mat.1
  ⟨rfl, fun i j => by fin_cases i; fin_cases j; rfl⟩ (symB_self true) Matrix.PosDef.one 1 (.inl rfl)
example := C83_false_shared (faerLib ℝ) (fun _ => rfl) (fun _ => rfl) (faer_llt ℝ) (faer_tri ℝ) (faer_eig ℝ).1 (faerMem ℝ) (faerMem_fits ℝ) .C
  fun _ h => (faerEig_ok (fun _ _ _ => rfl) h).1

end
end Rstsr
