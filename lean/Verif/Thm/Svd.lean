import Mathlib.Tactic.FinCases
import Verif.Proof.Svd
import Verif.Thm.Eig
/-! # Theorems: singular value decomposition -/
namespace Rstsr
open Spec Matrix

section
variable {α ρ : Type} {𝕜 : Type} [RCLike 𝕜]

theorem refSvd_vecs (lib : LapackSvd α ρ) (dflt : Order) {x : SvdArgs α} {full dc : Bool} (hf : x.fullMatrices = some full)
    (hd : (x.driver = some "gesvd" ∧ dc = false) ∨ ((x.driver = none ∨ x.driver = some "gesdd") ∧ dc = true)) :
    refSvd lib dflt x = (do let (u, s, vt) ← svdRun lib dc dflt x.a full; return (some u, s, some vt)) := by
  unfold refSvd
  rcases hd with ⟨h, rfl⟩ | ⟨h | h, rfl⟩ <;> simp only [h, hf, Option.getD] <;> rfl

theorem refSvd_vals (lib : LapackSvd α ρ) (dflt : Order) {x : SvdArgs α} {dc : Bool} (hf : x.fullMatrices = none)
    (hd : (x.driver = some "gesvd" ∧ dc = false) ∨ ((x.driver = none ∨ x.driver = some "gesdd") ∧ dc = true)) :
    refSvd lib dflt x = (do return (none, ← svalsRun lib dc dflt x.a, none)) := by
  unfold refSvd
  rcases hd with ⟨h, rfl⟩ | ⟨h | h, rfl⟩ <;> simp only [h, hf, Option.getD] <;> rfl

/-- The decomposition `A = U Σ V`, with square unitary matrices if they are asked for. Missing: matrices without elements. -/
theorem C78_svd_partial (lib : LapackSvd 𝕜 ℝ) (hl : SvdDoc lib.svd) (dflt : Order) (full : Bool) (a : Tensor 𝕜) (ha : a.WF)
    {m n : Nat} (hm : m ≠ 0) (hn : n ≠ 0) (A : Matrix (Fin m) (Fin n) 𝕜) (hA : a.arr.IsMat A) (hc : ∃ r, lib.svd true full m n A = .ok r)
    (p q : Nat) (hp : p = if full then m else min m n) (hq : q = if full then n else min m n) :
    ∃ u s vt, svd lib dflt a full = .ok (u, s, vt) ∧ u.WF ∧ s.WF ∧ vt.WF ∧
      ∃ (U : Matrix (Fin m) (Fin p) 𝕜) (l : Fin (min m n) → ℝ) (Vt : Matrix (Fin q) (Fin n) 𝕜),
        u.arr.IsMat U ∧ s.arr.IsVec l ∧ vt.arr.IsMat Vt ∧ IsSvd A U l Vt := by
  obtain rfl : p = leftCount full m n := hp
  obtain rfl : q = rightCount full m n := hq
  obtain ⟨⟨L, U, l, Vt⟩, h⟩ := hc
  obtain ⟨u, vt, e, e1, e2, e3, e4⟩ := (svdRun_ok lib true dflt ha full hm hn hA (.inl rfl)).2 L U l Vt h
  have na : a.layout.ndim = 2 := ndim_len (s := [m, n]) hA.1
  refine ⟨u, _, vt, ?_, e1, (valuesOf_ok l).1, e3, U, l, Vt, e2, (valuesOf_ok l).2, e4, hl _ _ _ _ _ _ _ _ _ h⟩
  unfold svd
  rw [if_neg (by simp [na]), refSvd_vecs lib dflt rfl (.inr ⟨.inl rfl, rfl⟩), e]
  rfl

/-- Only the singular values. -/
theorem C78_svdvals_partial (lib : LapackSvd 𝕜 ℝ) (hl : SvalsDoc lib.vals) (dflt : Order) (a : Tensor 𝕜) (ha : a.WF)
    {m n : Nat} (hm : m ≠ 0) (hn : n ≠ 0) (A : Matrix (Fin m) (Fin n) 𝕜) (hA : a.arr.IsMat A) (hc : ∃ r, lib.vals true m n A = .ok r) :
    ∃ s l, svdvals lib dflt a = .ok s ∧ s.WF ∧ s.arr.IsVec l ∧ IsSvals A l := by
  obtain ⟨⟨L, l⟩, h⟩ := hc
  have e := (svalsRun_ok lib true dflt ha hm hn hA (.inl rfl)).2 L l h
  have na : a.layout.ndim = 2 := ndim_len (s := [m, n]) hA.1
  refine ⟨_, l, ?_, (valuesOf_ok l).1, (valuesOf_ok l).2, hl _ _ _ _ _ _ h⟩
  unfold svdvals
  rw [if_neg (by simp [na]), refSvd_vals lib dflt rfl (.inr ⟨.inl rfl, rfl⟩), e]
  rfl

/-- The arguments as a structure, with a choice of the routine. Missing: matrices without elements, and the routine `gesvd` for column-major matrices, where it
fails (`C78_false_gesvd`). -/
theorem C78_args_partial (lib : LapackSvd 𝕜 ℝ) (hl : SvdDoc lib.svd) (hl' : SvalsDoc lib.vals) (dflt : Order) (x : SvdArgs 𝕜) (ha : x.a.WF) (dc : Bool)
    (hd : (x.driver = some "gesvd" ∧ dc = false ∧ (x.a.layout.cPrefer = true ∧ x.a.layout.fPrefer = false ∨
        x.a.layout.cPrefer = x.a.layout.fPrefer ∧ dflt = .F)) ∨
      ((x.driver = none ∨ x.driver = some "gesdd") ∧ dc = true))
    {m n : Nat} (hm : m ≠ 0) (hn : n ≠ 0) (A : Matrix (Fin m) (Fin n) 𝕜) (hA : x.a.arr.IsMat A) :
    (∀ full, x.fullMatrices = some full → (∃ r, lib.svd dc full m n A = .ok r) → svdvalsArgs lib dflt x = .error .invalidValue ∧
      ∀ p q, p = (if full then m else min m n) → q = (if full then n else min m n) →
      ∃ u s vt, svdArgs lib dflt x = .ok (u, s, vt) ∧ u.WF ∧ s.WF ∧ vt.WF ∧
        ∃ (U : Matrix (Fin m) (Fin p) 𝕜) (l : Fin (min m n) → ℝ) (Vt : Matrix (Fin q) (Fin n) 𝕜),
          u.arr.IsMat U ∧ s.arr.IsVec l ∧ vt.arr.IsMat Vt ∧ IsSvd A U l Vt) ∧
    (x.fullMatrices = none → (∃ r, lib.vals dc m n A = .ok r) → svdArgs lib dflt x = .error .invalidValue ∧
      ∃ s l, svdvalsArgs lib dflt x = .ok s ∧ s.WF ∧ s.arr.IsVec l ∧ IsSvals A l) := by
  have ho : dc = true ∨ svdOrder dc dflt x.a.layout = .F := by
    rcases hd with ⟨-, rfl, ⟨h1, h2⟩ | ⟨h1, rfl⟩⟩ | ⟨-, h⟩
    · right; simp [svdOrder, h1, h2]
    · right; unfold svdOrder; rw [h1]; cases x.a.layout.fPrefer <;> rfl
    · exact .inl h
  have hd' : (x.driver = some "gesvd" ∧ dc = false) ∨ ((x.driver = none ∨ x.driver = some "gesdd") ∧ dc = true) :=
    hd.imp (fun h => ⟨h.1, h.2.1⟩) id
  refine ⟨fun full hf hc => ⟨by simp [svdvalsArgs, hf], fun p q hp hq => ?_⟩, fun hf hc => ⟨by simp [svdArgs, hf], ?_⟩⟩
  · obtain rfl : p = leftCount full m n := hp
    obtain rfl : q = rightCount full m n := hq
    obtain ⟨⟨L, U, l, Vt⟩, h⟩ := hc
    obtain ⟨u, vt, e, e1, e2, e3, e4⟩ := (svdRun_ok lib dc dflt ha full hm hn hA ho).2 L U l Vt h
    refine ⟨u, _, vt, ?_, e1, (valuesOf_ok l).1, e3, U, l, Vt, e2, (valuesOf_ok l).2, e4, hl _ _ _ _ _ _ _ _ _ h⟩
    unfold svdArgs
    rw [refSvd_vecs lib dflt hf hd', e, hf]
    rfl
  · obtain ⟨⟨L, l⟩, h⟩ := hc
    have e := (svalsRun_ok lib dc dflt ha hm hn hA ho).2 L l h
    refine ⟨_, l, ?_, (valuesOf_ok l).1, (valuesOf_ok l).2, hl' _ _ _ _ _ _ h⟩
    unfold svdvalsArgs
    rw [refSvd_vals lib dflt hf hd', e, hf]
    rfl

/-- If LAPACK reports a number, so do the functions. -/
theorem C78_fail_partial (lib : LapackSvd α ρ) (dflt : Order) (a : Tensor α) (ha : a.WF) {m n : Nat} (hm : m ≠ 0) (hn : n ≠ 0)
    (A : Matrix (Fin m) (Fin n) α) (hA : a.arr.IsMat A) (info : Int) :
    (∀ full, lib.svd true full m n A = .error info → svd lib dflt a full = .error (.errorCode info)) ∧
    (lib.vals true m n A = .error info → svdvals lib dflt a = .error (.errorCode info)) := by
  have na : a.layout.ndim = 2 := ndim_len (s := [m, n]) hA.1
  refine ⟨fun full h => ?_, fun h => ?_⟩
  · unfold svd
    rw [if_neg (by simp [na]), refSvd_vecs lib dflt rfl (.inr ⟨.inl rfl, rfl⟩), (svdRun_ok lib true dflt ha full hm hn hA (.inl rfl)).1 info h]
    rfl
  · unfold svdvals
    rw [if_neg (by simp [na]), refSvd_vals lib dflt rfl (.inr ⟨.inl rfl, rfl⟩), (svalsRun_ok lib true dflt ha hm hn hA (.inl rfl)).1 info h]
    rfl

/-- Arrays that are no matrices are an error, whatever LAPACK does. -/
theorem C78_reject (lib : LapackSvd α ρ) (dflt : Order) (a : Tensor α) (full : Bool) (h : a.arr.shape.length ≠ 2) :
    svd lib dflt a full = .error .invalidLayout ∧ svdvals lib dflt a = .error .invalidLayout := by
  have h1 : a.layout.ndim ≠ 2 := fun h1 => h ((ndim_len (l := a.layout) rfl).symm.trans h1)
  exact ⟨if_pos h1, if_pos h1⟩

/-- A name that means no routine is an error. -/
theorem C78_driver (lib : LapackSvd α ρ) (dflt : Order) (x : SvdArgs α) (name : String) (hd : x.driver = some name)
    (h1 : name ≠ "gesvd") (h2 : name ≠ "gesdd") :
    svdArgs lib dflt x = .error .invalidValue ∧ svdvalsArgs lib dflt x = .error .invalidValue := by
  have key : refSvd lib dflt x = .error .invalidValue := by
    unfold refSvd
    simp only [hd, Option.getD, h1, h2, if_false]
  constructor
  · unfold svdArgs
    rw [key]; split <;> rfl
  · unfold svdvalsArgs
    rw [key]; split <;> rfl

/-! ## The singular values are determined by the matrix -/

theorem desc_unique {k : Nat} {f g : Fin k → ℝ} (hf : Antitone f) (hg : Antitone g) (hf0 : ∀ i, 0 ≤ f i) (hg0 : ∀ i, 0 ≤ g i)
    (h : ∏ i, (Polynomial.X - Polynomial.C ((f i : 𝕜) ^ 2)) = ∏ i, (Polynomial.X - Polynomial.C ((g i : 𝕜) ^ 2))) : f = g := by
  have e := congrArg Polynomial.roots h
  have rt : ∀ d : Fin k → 𝕜, (∏ i, (Polynomial.X - Polynomial.C (d i))).roots = Finset.univ.val.map d := by
    intro d
    rw [Finset.prod, ← Polynomial.roots_multiset_prod_X_sub_C (Finset.univ.val.map d), Multiset.map_map]
    rfl
  rw [rt fun i => (f i : 𝕜) ^ 2, rt fun i => (g i : 𝕜) ^ 2] at e
  have key : ∀ f : Fin k → ℝ, (∀ i, 0 ≤ f i) →
      Multiset.map (fun z : 𝕜 => Real.sqrt (RCLike.re z)) (Finset.univ.val.map fun i => (f i : 𝕜) ^ 2) = Finset.univ.val.map f := by
    intro f hf
    rw [Multiset.map_map]
    refine Multiset.map_congr rfl fun i _ => ?_
    simp only [Function.comp]
    rw [← RCLike.ofReal_pow, RCLike.ofReal_re, Real.sqrt_sq (hf i)]
  have e' := congrArg (Multiset.map fun z : 𝕜 => Real.sqrt (RCLike.re z)) e
  rw [key f hf0, key g hg0] at e'
  have hp : (List.ofFn f).Perm (List.ofFn g) := by
    rw [← Multiset.coe_eq_coe]
    simpa [Fin.univ_val_map] using e'
  exact List.ofFn_injective (hp.eq_of_sortedGE (List.sortedGE_ofFn_iff.2 hf) (List.sortedGE_ofFn_iff.2 hg))

theorem unit_of_left {k : Nat} {U : Matrix (Fin k) (Fin k) 𝕜} (h : Uᴴ * U = 1) : IsUnit U := by
  rw [Matrix.isUnit_iff_isUnit_det]
  have : IsUnit ((Uᴴ).det * U.det) := by rw [← Matrix.det_mul, h, Matrix.det_one]; exact isUnit_one
  exact isUnit_of_mul_isUnit_right this

theorem sigma_mul_conj {k p q : Nat} (hp : p ≤ k) (hq : p ≤ q) (s : Fin k → ℝ) :
    (sigma p q s : Matrix (Fin p) (Fin q) 𝕜) * (sigma p q s)ᴴ = diagonal fun i : Fin p => ((s ⟨i, by omega⟩ : ℝ) : 𝕜) ^ 2 := by
  ext i j
  rw [Matrix.mul_apply, Finset.sum_eq_single ⟨i, by omega⟩]
  · simp only [sigma, conjTranspose_apply, true_and]
    rw [dif_pos (by omega)]
    by_cases e : i = j
    · subst e
      simp only [true_and, diagonal_apply_eq]
      rw [dif_pos (by omega), RCLike.star_def, RCLike.conj_ofReal, sq]
    · rw [dif_neg (fun h => e (Fin.ext h.1.symm)), diagonal_apply_ne _ e]
      simp
  · intro l _ hl
    simp only [sigma]
    rw [dif_neg (fun h => hl (Fin.ext h.1.symm))]
    simp
  · simp

theorem conj_mul_sigma {k p q : Nat} (hp : q ≤ k) (hq : q ≤ p) (s : Fin k → ℝ) :
    (sigma p q s : Matrix (Fin p) (Fin q) 𝕜)ᴴ * sigma p q s = diagonal fun i : Fin q => ((s ⟨i, by omega⟩ : ℝ) : 𝕜) ^ 2 := by
  have e : (sigma p q s : Matrix (Fin p) (Fin q) 𝕜)ᴴ = sigma q p s := by
    ext i j
    simp only [conjTranspose_apply, sigma]
    by_cases h : (j : Nat) = i ∧ (j : Nat) < k
    · rw [dif_pos h, dif_pos ⟨h.1.symm, by omega⟩, RCLike.star_def, RCLike.conj_ofReal]
      congr 3
      exact h.1
    · rw [dif_neg h, dif_neg (by omega)]; simp
  have e' : (sigma p q s : Matrix (Fin p) (Fin q) 𝕜) = (sigma q p s)ᴴ := by rw [← e, conjTranspose_conjTranspose]
  rw [e, e', sigma_mul_conj hp hq]

/-- Two decompositions of one matrix have the same singular values. -/
theorem svals_unique {m n : Nat} {A : Matrix (Fin m) (Fin n) 𝕜} {full full' : Bool}
    {U : Matrix (Fin m) (Fin (leftCount full m n)) 𝕜} {s : Fin (min m n) → ℝ} {Vt : Matrix (Fin (rightCount full m n)) (Fin n) 𝕜} (h : IsSvd A U s Vt)
    {U' : Matrix (Fin m) (Fin (leftCount full' m n)) 𝕜} {s' : Fin (min m n) → ℝ} {Vt' : Matrix (Fin (rightCount full' m n)) (Fin n) 𝕜}
    (h' : IsSvd A U' s' Vt') : s = s' := by
  rcases le_total m n with hmn | hmn
  · have key : ∀ {full : Bool} {U : Matrix (Fin m) (Fin (leftCount full m n)) 𝕜} {s : Fin (min m n) → ℝ}
        {Vt : Matrix (Fin (rightCount full m n)) (Fin n) 𝕜}, IsSvd A U s Vt → (A * Aᴴ).charpoly = ∏ i, (Polynomial.X - Polynomial.C ((s i : 𝕜) ^ 2)) := by
      intro full U s Vt h
      have e : leftCount full m n = m := by unfold leftCount; split <;> omega
      have e' : m ≤ rightCount full m n := by unfold rightCount; split <;> omega
      obtain ⟨h1, h2, h3, -, -⟩ := h
      generalize leftCount full m n = p at *
      generalize rightCount full m n = q at *
      subst e
      have hk : min p n = p := by omega
      have := charpoly_of_diag (M := A * Aᴴ) (unit_of_left h1) (d := fun i => ((s ⟨i, by omega⟩ : ℝ) : 𝕜) ^ 2) (by
        rw [h3, conjTranspose_mul, conjTranspose_mul, ← sigma_mul_conj (by omega) e' s]
        simp only [Matrix.mul_assoc]
        have h2' := congrArg (fun M => M * (sigma p q s)ᴴ) h2
        simp only [Matrix.mul_assoc, Matrix.one_mul] at h2'
        rw [h1, Matrix.mul_one, h2'])
      rw [this]
      exact Fintype.prod_equiv (finCongr hk.symm) _ _ fun i => rfl
    exact desc_unique h.desc h'.desc h.nonneg h'.nonneg ((key h).symm.trans (key h'))
  · have key : ∀ {full : Bool} {U : Matrix (Fin m) (Fin (leftCount full m n)) 𝕜} {s : Fin (min m n) → ℝ}
        {Vt : Matrix (Fin (rightCount full m n)) (Fin n) 𝕜}, IsSvd A U s Vt → (Aᴴ * A).charpoly = ∏ i, (Polynomial.X - Polynomial.C ((s i : 𝕜) ^ 2)) := by
      intro full U s Vt h
      have e : rightCount full m n = n := by unfold rightCount; split <;> omega
      have e' : n ≤ leftCount full m n := by unfold leftCount; split <;> omega
      obtain ⟨h1, h2, h3, -, -⟩ := h
      generalize leftCount full m n = p at *
      generalize rightCount full m n = q at *
      subst e
      have hk : min m q = q := by omega
      have h2' : Vtᴴᴴ * Vtᴴ = 1 := by rw [conjTranspose_conjTranspose]; exact h2
      have := charpoly_of_diag (M := Aᴴ * A) (unit_of_left h2') (d := fun i => ((s ⟨i, by omega⟩ : ℝ) : 𝕜) ^ 2) (by
        rw [h3, conjTranspose_mul, conjTranspose_mul, ← conj_mul_sigma (by omega) e' s]
        simp only [Matrix.mul_assoc]
        have h1' := congrArg (fun M => M * sigma p q s) h1
        simp only [Matrix.mul_assoc, Matrix.one_mul] at h1'
        rw [h2, Matrix.mul_one, h1'])
      rw [this]
      exact Fintype.prod_equiv (finCongr hk.symm) _ _ fun i => rfl
    exact desc_unique h.desc h'.desc h.nonneg h'.nonneg ((key h).symm.trans (key h'))

/-- `svd` with all vectors, `svd` with one vector for each singular value and `svdvals` give the same singular values, also when the
matrix is stored differently. Missing: matrices without elements. -/
theorem C78_agree_partial (lib : LapackSvd 𝕜 ℝ) (hl : SvdDoc lib.svd) (hl' : SvalsDoc lib.vals) (dflt : Order) (a b c : Tensor 𝕜) (ha : a.WF) (hb : b.WF)
    (hc : c.WF) {m n : Nat} (hm : m ≠ 0) (hn : n ≠ 0) (A : Matrix (Fin m) (Fin n) 𝕜) (hA : a.arr.IsMat A) (hB : b.arr.IsMat A) (hC : c.arr.IsMat A)
    {u s vt u' s' vt' s'' : _} (h1 : svd lib dflt a true = .ok (u, s, vt)) (h2 : svd lib dflt b false = .ok (u', s', vt')) (h3 : svdvals lib dflt c = .ok s'') :
    ∃ l : Fin (min m n) → ℝ, s.arr.IsVec l ∧ s'.arr.IsVec l ∧ s''.arr.IsVec l := by
  have ok : ∀ full (a : Tensor 𝕜), a.WF → a.arr.IsMat A → ∀ r, svd lib dflt a full = .ok r → ∃ r, lib.svd true full m n A = .ok r := by
    intro full a ha hA r h
    cases e : lib.svd true full m n A with
    | ok r => exact ⟨r, rfl⟩
    | error i => rw [(C78_fail_partial lib dflt a ha hm hn A hA i).1 full e] at h; cases h
  obtain ⟨_, _, _, e1, -, -, -, U1, l1, V1, -, i1, -, j1⟩ := C78_svd_partial lib hl dflt true a ha hm hn A hA (ok _ _ ha hA _ h1) _ _ rfl rfl
  obtain ⟨_, _, _, e2, -, -, -, U2, l2, V2, -, i2, -, j2⟩ := C78_svd_partial lib hl dflt false b hb hm hn A hB (ok _ _ hb hB _ h2) _ _ rfl rfl
  obtain ⟨_, l3, e3, -, i3, U3, V3, j3⟩ := C78_svdvals_partial lib hl' dflt c hc hm hn A hC (by
    cases e : lib.vals true m n A with
    | ok r => exact ⟨r, rfl⟩
    | error i => rw [(C78_fail_partial lib dflt c hc hm hn A hC i).2 e] at h3; cases h3)
  rw [e1] at h1; rw [e2] at h2; rw [e3] at h3
  simp only [Except.ok.injEq, Prod.mk.injEq] at h1 h2 h3
  obtain ⟨-, rfl, -⟩ := h1
  obtain ⟨-, rfl, -⟩ := h2
  subst h3
  have q1 : l1 = l2 := svals_unique (full := true) (full' := false) j1 j2
  have q2 : l1 = l3 := svals_unique (full := true) (full' := true) j1 j3
  subst q1; subst q2
  exact ⟨l1, i1, i2, i3⟩

/-! ## Concrete cases -/

open Classical in
/-- Arithmetic that meets the documentation. -/
noncomputable def svdLib (𝕜 : Type) [RCLike 𝕜] : LapackSvd 𝕜 ℝ where
  svd _ full m n A :=
    if h : ∃ (U : Matrix (Fin m) (Fin (leftCount full m n)) 𝕜) (s : Fin (min m n) → ℝ) (Vt : Matrix (Fin (rightCount full m n)) (Fin n) 𝕜), IsSvd A U s Vt then
      .ok (A, h.choose, h.choose_spec.choose, h.choose_spec.choose_spec.choose) else .error 1
  vals _ m n A := if h : ∃ s : Fin (min m n) → ℝ, IsSvals A s then .ok (A, h.choose) else .error 1

theorem svdLib_doc (𝕜 : Type) [RCLike 𝕜] : SvdDoc (svdLib 𝕜).svd ∧ SvalsDoc (svdLib 𝕜).vals := by
  constructor
  · intro dc full m n A L U s Vt h
    simp only [svdLib] at h
    split at h
    · rename_i e
      simp only [Except.ok.injEq, Prod.mk.injEq] at h
      obtain ⟨-, rfl, rfl, rfl⟩ := h
      exact e.choose_spec.choose_spec.choose_spec
    · cases h
  · intro dc m n A L s h
    simp only [svdLib] at h
    split at h
    · rename_i e
      simp only [Except.ok.injEq, Prod.mk.injEq] at h
      obtain ⟨-, rfl⟩ := h
      exact e.choose_spec
    · cases h

theorem svdLib_ok {m n : Nat} {A : Matrix (Fin m) (Fin n) 𝕜} {dc full : Bool} {U : Matrix (Fin m) (Fin (leftCount full m n)) 𝕜} {s : Fin (min m n) → ℝ}
    {Vt : Matrix (Fin (rightCount full m n)) (Fin n) 𝕜} (h : IsSvd A U s Vt) : ∃ r, (svdLib 𝕜).svd dc full m n A = .ok r := ⟨_, dif_pos ⟨U, s, Vt, h⟩⟩

theorem svdLib_vals {m n : Nat} {A : Matrix (Fin m) (Fin n) 𝕜} {dc : Bool} {s : Fin (min m n) → ℝ} (h : IsSvals A s) :
    ∃ r, (svdLib 𝕜).vals dc m n A = .ok r := ⟨_, dif_pos ⟨s, h⟩⟩

/-- A matrix of two rows and three columns, stored by rows, then by columns. -/
noncomputable def svdT : Tensor ℝ := ⟨[0, 3, 0, 2, 0, 0], ⟨[⟨2, 3⟩, ⟨3, 1⟩], 0⟩⟩
noncomputable def svdTcol : Tensor ℝ := ⟨[0, 2, 3, 0, 0, 0], ⟨[⟨2, 1⟩, ⟨3, 2⟩], 0⟩⟩
noncomputable def svdTall : Tensor ℝ := ⟨[0, 3, 0, 2, 0, 0], ⟨[⟨3, 1⟩, ⟨2, 3⟩], 0⟩⟩

def svdM : Matrix (Fin 2) (Fin 3) ℝ := !![0, 3, 0; 2, 0, 0]
def svdVtM : Matrix (Fin 3) (Fin 3) ℝ := !![0, 1, 0; 1, 0, 0; 0, 0, 1]

theorem svdT_ok : svdT.WF ∧ svdT.arr.IsMat svdM ∧ svdTcol.WF ∧ svdTcol.arr.IsMat svdM := by
  refine ⟨⟨by decide, rfl⟩, ⟨rfl, fun i j => ?_⟩, ⟨by decide, rfl⟩, ⟨rfl, fun i j => ?_⟩⟩ <;> fin_cases i <;> fin_cases j <;> rfl

theorem svdM_svd : IsSvd svdM (1 : Matrix (Fin 2) (Fin 2) ℝ) ![3, 2] svdVtM where
  left := by simp
  right := by
    ext i j; fin_cases i <;> fin_cases j <;> simp [svdVtM, Matrix.mul_apply, Fin.sum_univ_three]
  product := by
    ext i j; fin_cases i <;> fin_cases j <;> simp [svdM, svdVtM, sigma, Matrix.mul_apply, Fin.sum_univ_three]
  nonneg := by intro i; fin_cases i <;> simp
  desc := by
    intro i j h
    fin_cases i <;> fin_cases j <;> simp_all <;> norm_num

example := C78_svd_partial (svdLib ℝ) (svdLib_doc ℝ).1 .C true svdTcol svdT_ok.2.2.1 two_ne_zero three_ne_zero svdM svdT_ok.2.2.2
  (svdLib_ok svdM_svd) 2 3 rfl rfl
example := C78_svdvals_partial (svdLib ℝ) (svdLib_doc ℝ).2 .F svdT svdT_ok.1 two_ne_zero three_ne_zero svdM svdT_ok.2.1
  (svdLib_vals ⟨_, _, svdM_svd⟩)
example := (C78_args_partial (svdLib ℝ) (svdLib_doc ℝ).1 (svdLib_doc ℝ).2 .C { a := svdT, driver := some "gesvd" } svdT_ok.1 false
  (.inl ⟨rfl, rfl, .inl ⟨rfl, rfl⟩⟩) two_ne_zero three_ne_zero svdM svdT_ok.2.1).1 true rfl (svdLib_ok svdM_svd)
theorem svdM_thin : IsSvd svdM (1 : Matrix (Fin 2) (Fin 2) ℝ) ![3, 2] (!![0, 1, 0; 1, 0, 0] : Matrix (Fin 2) (Fin 3) ℝ) where
  left := by simp
  right := by
    ext i j; fin_cases i <;> fin_cases j <;> simp [Matrix.mul_apply, Fin.sum_univ_three]
  product := by
    ext i j; fin_cases i <;> fin_cases j <;> simp [svdM, sigma, Matrix.mul_apply]
  nonneg := svdM_svd.nonneg
  desc := svdM_svd.desc

example : ∃ u s vt u' s' vt' s'', svd (svdLib ℝ) .C svdT true = .ok (u, s, vt) ∧ svd (svdLib ℝ) .C svdTcol false = .ok (u', s', vt') ∧
    svdvals (svdLib ℝ) .C svdT = .ok s'' ∧ ∃ l : Fin (min 2 3) → ℝ, s.arr.IsVec l ∧ s'.arr.IsVec l ∧ s''.arr.IsVec l := by
  obtain ⟨u, s, vt, h1, -⟩ := C78_svd_partial (svdLib ℝ) (svdLib_doc ℝ).1 .C true svdT svdT_ok.1 two_ne_zero three_ne_zero svdM svdT_ok.2.1
    (svdLib_ok svdM_svd) 2 3 rfl rfl
  obtain ⟨u', s', vt', h2, -⟩ := C78_svd_partial (svdLib ℝ) (svdLib_doc ℝ).1 .C false svdTcol svdT_ok.2.2.1 two_ne_zero three_ne_zero svdM svdT_ok.2.2.2
    (svdLib_ok svdM_thin) 2 2 rfl rfl
  obtain ⟨s'', l, h3, -⟩ := C78_svdvals_partial (svdLib ℝ) (svdLib_doc ℝ).2 .C svdT svdT_ok.1 two_ne_zero three_ne_zero svdM svdT_ok.2.1
    (svdLib_vals ⟨_, _, svdM_svd⟩)
  exact ⟨u, s, vt, u', s', vt', s'', h1, h2, h3, C78_agree_partial (svdLib ℝ) (svdLib_doc ℝ).1 (svdLib_doc ℝ).2 .C svdT svdTcol svdT svdT_ok.1 svdT_ok.2.2.1
    svdT_ok.1 two_ne_zero three_ne_zero svdM svdT_ok.2.1 svdT_ok.2.2.2 svdT_ok.2.1 h1 h2 h3⟩

example := C78_fail_partial (⟨fun _ _ _ _ _ => .error 7, (svdLib ℝ).vals⟩ : LapackSvd ℝ ℝ) .C svdT svdT_ok.1 two_ne_zero three_ne_zero svdM svdT_ok.2.1 7
example := C78_reject (svdLib ℝ) .C ⟨[1, 2], ⟨[⟨2, 1⟩], 0⟩⟩ true (by decide)
example := C78_driver (svdLib ℝ) .C { a := svdT, driver := some "gesvj" } "gesvj" rfl (by decide) (by decide)

/-- The routine `gesvd` on any matrix that it works on by rows, with no more rows than columns: if LAPACK gives a result, the function panics. -/
theorem gesvd_panics (lib : LapackSvd α ρ) (dflt : Order) {a : Tensor α} (ha : a.WF) (full : Bool) {m n : Nat} (hm : 2 ≤ m) (hn : m ≤ n)
    {A : Matrix (Fin m) (Fin n) α} (hA : a.arr.IsMat A) (ho : svdOrder false dflt a.layout = .C) (hc : ∃ r, lib.svd false full m n A = .ok r) :
    svdRun lib false dflt a full = .error .panic := by
  have h0 : m ≠ 0 := by omega
  have h0' : n ≠ 0 := by omega
  obtain ⟨x, x1, x2, x3⟩ := convertOrder_ok dflt (a := ⟨a, false⟩) ⟨ha, fun h => by simp at h⟩ hA .C
  obtain ⟨d0, d1⟩ := dimAt2 (l := x.view.layout) x2.mat.1
  obtain ⟨lda, w, off', ld', l1, l2, l3, l4, -, l6⟩ := matIo_ld x2.wf x2.mat h0 h0' x3
  obtain ⟨ldu, u1, -, -⟩ := svdOut_ok (α := α) (dc := true) (o := .C) (.inl rfl) h0 (leftCount_pos h0 h0' full)
  obtain ⟨ldvt, v1, -, -⟩ := svdOut_ok (α := α) (dc := true) (o := .C) (.inl rfl) (rightCount_pos h0 h0' full) h0'
  have hl : leftCount full m n = m := by unfold leftCount; split <;> omega
  have hr : rightCount full m n ≤ n := by unfold rightCount; split <;> omega
  have hld : ∀ r c ld, r ≠ 0 → c ≠ 0 → ldUnwrap (Layout.newContig .C [r, c]) .C = .ok ld → ld = c := by
    intro r c ld hr hc h
    have hp := fresh_prefers .C hr hc
    have hp : (Layout.newContig .C [r, c]).cPrefer = true := hp
    simp only [ldUnwrap, Layout.ld, hp, Bool.not_true, Bool.false_eq_true, if_false] at h
    have e0 : (Layout.newContig .C [r, c]).dimAt 0 = r := rfl
    have e1 : (Layout.newContig .C [r, c]).dimAt 1 = c := rfl
    have e2 : (Layout.newContig .C [r, c]).stride.getD 0 0 = (c : Int) := by
      simp [Layout.newContig, Layout.newCContig, Layout.stride, mkAxes, strideCContig, fStrides]
    rw [e0, e1, e2] at h
    split at h <;> rename_i e <;> split at e <;> simp_all
  have hu := hld _ _ _ h0 (leftCount_pos h0 h0' full) u1
  have hv := hld _ _ _ (rightCount_pos h0 h0' full) h0' v1
  have hq : svdQuery false m n lda ldu ldvt m (rightCount full m n) = .ok () := svdQuery_ok h0 fun _ => by
    refine ⟨by omega, by omega, ?_⟩
    have := rightCount_pos h0 h0' full
    omega
  have hsup : svdSuper false m n = .ok () := by
    unfold svdSuper
    rw [if_neg]
    simp only [Bool.and_eq_true, decide_eq_true_eq, not_and]
    omega
  obtain ⟨⟨L, U, s, Vt⟩, h⟩ := hc
  have hback : ∀ w' : List α, svdBack false .C x.view.data x.view.layout.offset lda m n w' = .error .panic := by
    intro w'
    have : lda ≠ 1 := by omega
    simp only [svdBack, Bool.false_eq_true, if_false, rowOutR2C, orderR2C, ne_eq, not_true_eq_false, this, not_false_eq_true, if_true, orPanic]
  unfold svdRun driverSvd
  simp only [ho, x1, ok_bind, l1]
  generalize x.view.layout.dimAt 0 = k at d0 ⊢
  generalize x.view.layout.dimAt 1 = k' at d1 ⊢
  subst d0; subst d1
  have c1 : checkLd (outLd .C ldu k) k (if false = true then -8 else -9) = .ok () := checkLd_ok (by simp only [outLd]; omega)
  have c2 : checkLd (outLd .C ldvt (rightCount full k k')) (rightCount full k k') (if false = true then -10 else -11) = .ok () :=
    checkLd_ok (by simp only [outLd]; omega)
  simp only [hsup, ok_bind, u1, v1, hq, l2, checkLd_ok l3, c1, c2, l4, h, liftInfo, hback]
  rfl

/-- The routine `gesvd` on a column-major matrix: with no more rows than columns the function panics, with more rows than columns it reports an illegal argument,
although LAPACK would give a result. -/
theorem C78_false_gesvd (lib : LapackSvd ℝ ℝ) (full : Bool) (hc : ∃ r, lib.svd false full 2 3 svdM = .ok r) :
    svdArgs lib .C { a := svdTcol, fullMatrices := some full, driver := some "gesvd" } = .error .panic ∧
    svdArgs lib .C { a := svdTall, fullMatrices := some full, driver := some "gesvd" } = .error (.errorCode (-6)) := by
  constructor
  · unfold svdArgs
    rw [refSvd_vecs lib .C (dc := false) rfl (.inl ⟨rfl, rfl⟩),
      gesvd_panics lib .C svdT_ok.2.2.1 full (le_refl 2) (by omega) svdT_ok.2.2.2 rfl hc]
    rfl
  · cases full <;> rfl

example := C78_false_gesvd (svdLib ℝ) true (svdLib_ok svdM_svd)

end
end Rstsr
