import Mathlib.LinearAlgebra.Matrix.Block
import Verif.Model.LinalgLU
import Verif.Spec.LinalgLU
import Verif.Thm.Linalg
/-! # Proofs: functions built on the factors of a matrix -/
namespace Rstsr
open Spec

section
variable {α β : Type}

theorem withMat_ok {t : Tensor α} (ht : t.WF) {m n : Nat} {M : Matrix (Fin m) (Fin n) α} (hM : t.arr.IsMat M)
    {o : Order} (he : o = .F → m ≠ 0 ∧ n ≠ 0) (hp : Prefers o t.layout) :
    ∃ ld, ldUnwrap t.layout o = .ok ld ∧ (m ≠ 0 → n ≠ 0 → (max 1 (min m n) : Int) ≤ ld) ∧
      ∀ {β : Type} (bad : Int) (f : Matrix (Fin m) (Fin n) α → Except Int (Matrix (Fin m) (Fin n) α × β)),
        (∀ info, f M = .error info → withMat o t.data t.layout.offset ld m n bad f = .error (.errorCode info)) ∧
        ∀ M' x, f M = .ok (M', x) → ∃ d, withMat o t.data t.layout.offset ld m n bad f = .ok (d, x) ∧
          (⟨d, t.layout⟩ : Tensor α).WF ∧ (⟨d, t.layout⟩ : Tensor α).arr.IsMat M' ∧
          ChangedOnly (Addressed t.layout.stride t.layout.offset t.layout.shape) t.data d := by
  obtain ⟨ld, w, off', ld', h1, h2, h3, h4, h5, h6⟩ := matIo ht hM he hp
  refine ⟨ld, h1, h6, fun bad f => ⟨fun info hf => ?_, fun M' x hf => ?_⟩⟩
  · unfold withMat
    simp only [h2, ok_bind, checkLd_ok h3, h4, hf, liftInfo]
    rfl
  · obtain ⟨d, d1, d2⟩ := h5 M'
    refine ⟨d, ?_, d2⟩
    unfold withMat
    simp only [h2, ok_bind, checkLd_ok h3, h4, hf, liftInfo, d1]
    rfl

theorem assumeInit_map {γ : Type} (l : List γ) : assumeInit (l.map some) = .ok l := by
  induction l with
  | nil => rfl
  | cons x xs ih => simp only [List.map_cons, assumeInit, ih, ok_bind]; rfl

/-- What `GETRF` is called with and what is done with its results. -/
theorem getrfRun_ok (lib : LapackLU α) (dflt : Order) {a : TRef α} (ha : a.Ok) {m n : Nat}
    {A : Matrix (Fin m) (Fin n) α} (hA : a.t.arr.IsMat A) :
    (∀ info, lib.getrf m n A = .error info → getrfRun lib dflt a = .error (.errorCode info)) ∧
    ∀ F p, lib.getrf m n A = .ok (F, p) → (p.length < n → getrfRun lib dflt a = .error .panic) ∧
      (p.length = n → ∃ x, getrfRun lib dflt a = .ok (x, p.map (· - 1)) ∧
      Leaves a x F ∧ ((x.view.layout.fPrefer || x.view.layout.cPrefer) = false → (0 : Int) ∉ x.view.layout.stride)) := by
  obtain ⟨x, x1, x2, x3⟩ := convert_ok dflt ha hA
  have hx : x.view.layout.shape = [m, n] := x2.mat.1
  obtain ⟨ld, l1, -, l3⟩ := withMat_ok x2.wf x2.mat (storageF hx) x3
  obtain ⟨d0, d1⟩ := dimAt2 hx
  have key : getrfRun lib dflt a = (do
      let (d, p) ← driverGetrf lib (storageOrder x.view.layout) m n x.view.data x.view.layout.offset ld
      let ipiv ← assumeInit (p.map some ++ List.replicate (n - p.length) none)
      return (← (x.setData d).cloneToMut dflt, ipiv.map (· - 1))) := by
    unfold getrfRun
    simp only [x1, ok_bind, d0, d1, l1]
  rw [key]
  unfold driverGetrf
  obtain ⟨e1, e2⟩ := l3 (-4) (lib.getrf m n)
  refine ⟨fun info hi => ?_, fun F p hp => ?_⟩
  · rw [e1 info hi]; rfl
  · obtain ⟨d, f1, f2, f3, f4⟩ := e2 F p hp
    obtain ⟨y, y1, y2, -⟩ := finish_ok dflt ha x2 hA.1 f2 f3 f4
    simp only [f1, ok_bind, y1]
    refine ⟨fun hl => ?_, fun hl => ⟨y, ?_, y2, ?_⟩⟩
    · have : ∀ (l : List Int) (k : Nat), 0 < k → assumeInit (l.map some ++ List.replicate k none) = .error .panic := by
        intro l k hk
        induction l with
        | nil => obtain ⟨k, rfl⟩ := Nat.exists_eq_succ_of_ne_zero hk.ne'; rfl
        | cons x xs ih => simp only [List.map_cons, List.cons_append, assumeInit, ih]; rfl
      rw [this _ _ (by omega)]
      rfl
    · rw [hl, Nat.sub_self, List.replicate_zero, List.append_nil, assumeInit_map]
      rfl
    · intro hno
      by_cases hmut : a.mutable = true
      · obtain ⟨d', rfl, -⟩ := y2.shared hmut
        refine (ha.writable hmut).resolve_right fun h0 => ?_
        have : a.t.layout.fPrefer = true := prefers_of_empty .F h0
        simp only [Mutable.view, this, Bool.true_or, Bool.true_eq_false] at hno
      · obtain ⟨t, rfl⟩ := x2.owned (by simpa using hmut)
        have : y = .owned ⟨d, t.layout⟩ := by
          simp only [Mutable.setData, Mutable.cloneToMut] at y1
          injection y1 with y1
          exact y1.symm
        subst this
        exfalso
        have hno : (t.layout.fPrefer || t.layout.cPrefer) = false := hno
        have x3 : Prefers (storageOrder t.layout) t.layout := x3
        revert x3
        generalize storageOrder t.layout = o
        rw [Bool.or_eq_false_iff] at hno
        cases o <;> simp [Prefers, hno.1, hno.2]

/-- What `GETRI` is called with and what is done with its result. -/
theorem getriRun_ok (lib : LapackLU α) (dflt : Order) {v : TRef α} (hv : v.t.WF) {n : Nat} (hn : n ≠ 0)
    (hw : (v.t.layout.fPrefer || v.t.layout.cPrefer) = false → (0 : Int) ∉ v.t.layout.stride)
    {F : Matrix (Fin n) (Fin n) α} (hF : v.t.arr.IsMat F) (ipiv : List Int) :
    (∀ info, lib.getri n F (ipiv.map (· + 1)) = .error info → getriRun lib dflt v ipiv = .error (.errorCode info)) ∧
    ∀ X, lib.getri n F (ipiv.map (· + 1)) = .ok X → ∃ y, getriRun lib dflt v ipiv = .ok y ∧ Leaves v y X := by
  obtain ⟨x, x1, x2, x3, x4⟩ := convertAny_ok dflt hv hF
  obtain ⟨ld, l1, l2, l3⟩ := withMat_ok x2.wf x2.mat (fun _ => ⟨hn, hn⟩) x3
  have hx : x.view.layout.shape = [n, n] := x2.mat.1
  obtain ⟨d0, d1⟩ := dimAt2 hx
  have key : getriRun lib dflt v ipiv = (do
      let d ← driverGetri lib (storageOrder x.view.layout) n x.view.data x.view.layout.offset ld (ipiv.map (· + 1))
      (x.setData d).cloneToMut dflt) := by
    unfold getriRun
    simp only [x1, ok_bind, d0, d1, l1, ne_eq, not_true_eq_false, if_false]
  rw [key]
  unfold driverGetri
  have l2 := l2 hn hn
  rw [checkLd_ok (by omega)]
  obtain ⟨e1, e2⟩ := l3 (-3) (fun A => (lib.getri n A (ipiv.map (· + 1))).map (·, ()))
  refine ⟨fun info hi => ?_, fun X hX => ?_⟩
  · rw [ok_bind, e1 info (by rw [hi]; rfl)]; rfl
  · obtain ⟨d, f1, f2, f3, f4⟩ := e2 X () (by rw [hX]; rfl)
    obtain ⟨y, y1, y2, -⟩ := finishAny_ok dflt hv (fun buf _ e => hw (x4 buf e)) x2 hF.1 f2 f3 f4
    refine ⟨y, ?_, y2⟩
    simp only [f1, ok_bind, y1]
    exact y1

/-! ## Factors -/

theorem interchanges_sign {n : Nat} (q : Fin n → Fin n) :
    Equiv.Perm.sign (interchanges q) = (-1) ^ (List.finRange n).countP fun i => q i ≠ i := by
  unfold interchanges
  generalize List.finRange n = l
  induction l with
  | nil => simp
  | cons i l ih =>
    rw [List.map_cons, List.prod_cons, Equiv.Perm.sign_mul, ih, List.countP_cons]
    by_cases h : q i = i
    · simp [h]
    · rw [Equiv.Perm.sign_swap (fun e => h e.symm)]
      simp [h, pow_succ]

theorem det_lu [CommRing α] {n : Nat} {A F : Matrix (Fin n) (Fin n) α} (q : Fin n → Fin n)
    (h : unitLower F * upper F = A.submatrix (interchanges q) id) :
    A.det = (-1) ^ ((List.finRange n).countP fun i => q i ≠ i) * ∏ i, F i i := by
  have h1 : (unitLower F).det = 1 := by
    rw [Matrix.det_of_lowerTriangular]
    · simp [unitLower]
    · intro i j hij
      have : i < j := hij
      simp [unitLower, this.not_gt, this.ne]
  have h2 : (upper F).det = ∏ i, F i i := by
    rw [Matrix.det_of_upperTriangular]
    · simp [upper]
    · intro i j hij
      have : j < i := hij
      simp [upper, this.not_ge]
  have h3 := congrArg Matrix.det h
  rw [Matrix.det_mul, h1, h2, one_mul, Matrix.det_permute, interchanges_sign] at h3
  rw [h3, ← mul_assoc]
  push_cast
  rw [← mul_pow]
  simp

/-- The interchanges of the rows below the first one. -/
theorem interchanges_succ {n : Nat} (r : Fin (n + 1)) (q : Fin n → Fin n) :
    (∀ i, interchanges (Fin.cons r (fun i => (q i).succ)) (Fin.succ i) = Equiv.swap 0 r (Fin.succ (interchanges q i))) ∧
    interchanges (Fin.cons r (fun i => (q i).succ)) 0 = r := by
  have key : ∀ l : List (Fin n),
      (∀ i, (l.map fun i => Equiv.swap i.succ (q i).succ).prod (Fin.succ i) = Fin.succ ((l.map fun i => Equiv.swap i (q i)).prod i)) ∧
      (l.map fun i => Equiv.swap i.succ (q i).succ).prod 0 = 0 := by
    intro l
    induction l with
    | nil => simp
    | cons a l ih =>
      constructor
      · intro i
        rw [List.map_cons, List.prod_cons, Equiv.Perm.mul_apply, ih.1, List.map_cons, List.prod_cons, Equiv.Perm.mul_apply]
        generalize (l.map fun i => Equiv.swap i (q i)).prod i = k
        simp only [Equiv.swap_apply_def]
        by_cases h1 : k = a
        · simp [h1]
        · by_cases h2 : k = q a
          · subst h2
            simp [h1]
          · simp [h1, h2, Fin.succ_inj]
      · rw [List.map_cons, List.prod_cons, Equiv.Perm.mul_apply, ih.2]
        exact Equiv.swap_apply_of_ne_of_ne (Fin.succ_ne_zero _).symm (Fin.succ_ne_zero _).symm
  have e : interchanges (Fin.cons r (fun i => (q i).succ)) = Equiv.swap 0 r * ((List.finRange n).map fun i => Equiv.swap i.succ (q i).succ).prod := by
    unfold interchanges
    rw [List.finRange_succ, List.map_cons, List.prod_cons, List.map_map]
    rfl
  rw [e]
  constructor
  · intro i
    rw [Equiv.Perm.mul_apply, (key _).1]
    rfl
  · rw [Equiv.Perm.mul_apply, (key _).2, Equiv.swap_apply_left]

/-- Gaussian elimination: every nonsingular matrix has factors. -/
theorem exists_lu [Field α] : ∀ (n : Nat) (A : Matrix (Fin n) (Fin n) α), A.det ≠ 0 →
    ∃ (F : Matrix (Fin n) (Fin n) α) (q : Fin n → Fin n), unitLower F * upper F = A.submatrix (interchanges q) id
  | 0, A, _ => ⟨A, fun i => i, by ext i; exact i.elim0⟩
  | n + 1, A, hA => by
    have hr : ∃ r, A r 0 ≠ 0 := by
      by_contra h
      push Not at h
      exact hA (Matrix.det_eq_zero_of_column_eq_zero 0 h)
    obtain ⟨r, hr⟩ := hr
    let B := A.submatrix (Equiv.swap 0 r) id
    have hB0 : B 0 0 ≠ 0 := by simpa [B] using hr
    have hBdet : B.det ≠ 0 := by
      have : B.det = _ := Matrix.det_permute (Equiv.swap 0 r) A
      rw [this]
      refine mul_ne_zero ?_ hA
      rcases Int.units_eq_one_or (Equiv.Perm.sign (Equiv.swap 0 r)) with e | e <;> simp [e]
    let S : Matrix (Fin n) (Fin n) α := Matrix.of fun i j => B i.succ j.succ - B i.succ 0 / B 0 0 * B 0 j.succ
    have hS : S.det ≠ 0 := by
      let C : Matrix (Fin (n + 1)) (Fin (n + 1)) α := Matrix.of fun i j => if i = 0 then B 0 j else B i j - B i 0 / B 0 0 * B 0 j
      have h1 : C.det = B.det := by
        refine Matrix.det_eq_of_forall_row_eq_smul_add_const (fun i => if i = 0 then 0 else - (B i 0 / B 0 0)) 0 (by simp) fun i j => ?_
        by_cases h : i = 0
        · simp [C, h]
        · simp [C, h]; ring
      have h2 : C.det = B 0 0 * S.det := by
        rw [Matrix.det_succ_column_zero, Finset.sum_eq_single 0]
        · have : C.submatrix (Fin.succAbove 0) Fin.succ = S := by
            ext i j
            simp [C, S, Fin.succ_ne_zero]
          rw [this]
          simp [C]
        · intro i _ hi
          have : C i 0 = 0 := by simp [C, hi, hB0]
          rw [this]
          simp
        · simp
      intro h
      rw [← h1, h2, h, mul_zero] at hBdet
      exact hBdet rfl
    obtain ⟨F, q, hF⟩ := exists_lu n S hS
    refine ⟨Matrix.of fun i j => Fin.cases (B 0 j) (fun i => Fin.cases (B (interchanges q i).succ 0 / B 0 0) (fun j => F i j) j) i,
      Fin.cons r (fun i => (q i).succ), ?_⟩
    obtain ⟨t1, t2⟩ := interchanges_succ r q
    ext i j
    rw [Matrix.mul_apply, Fin.sum_univ_succ]
    refine Fin.cases ?_ (fun i => ?_) i
    · rw [Matrix.submatrix_apply, t2]
      have h0 : ∀ x : Fin n, ¬ (0 : Fin (n + 1)) = x.succ := fun x => (Fin.succ_ne_zero x).symm
      simp [unitLower, upper, B, h0]
    · rw [Matrix.submatrix_apply, t1]
      have hb : ∀ j, A (Equiv.swap 0 r (interchanges q i).succ) (id j) = B (interchanges q i).succ j := fun j => rfl
      rw [hb]
      refine Fin.cases ?_ (fun j => ?_) j
      · simp [unitLower, upper]
        field_simp
      · have := congrFun (congrFun hF i) j
        rw [Matrix.mul_apply] at this
        simp only [Matrix.submatrix_apply, id, S, Matrix.of_apply] at this
        simp only [unitLower, upper, Matrix.of_apply, Fin.cases_succ, Fin.cases_zero, Fin.succ_lt_succ_iff, Fin.succ_le_succ_iff,
          Fin.succ_inj, Fin.succ_pos, Fin.zero_le, if_true] at this ⊢
        rw [this]
        ring

end
end Rstsr
