import Mathlib.Analysis.Complex.Basic
import Verif.Proof.LinalgLU
import Verif.Thm.Diag
import Verif.Thm.Reduce
import Verif.Thm.PackArray
/-! # Theorems: inverse and determinant -/
namespace Rstsr
open Spec

section
variable {α : Type}

/-- What a function of one matrix gives back when it worked on the argument. -/
theorem resultOf_ok (dflt : Order) {a : TRef α} {x : Mutable α} {m n : Nat} {X : Matrix (Fin m) (Fin n) α} (h : Leaves a x X) :
    ∃ y, resultOf dflt a x = .ok y ∧ y.WF ∧ y.arr.IsMat X ∧ ResultIn a y := by
  unfold resultOf
  by_cases hm : a.mutable = true
  · obtain ⟨d, rfl, h2⟩ := h.shared hm
    refine ⟨⟨d, a.t.layout⟩, ?_, h.wf, h.mat, fun _ => rfl, fun _ => h2⟩
    simp only [hm, if_true, Mutable.cloneToMut, ok_bind, TRef.after]
    rfl
  · obtain ⟨t, rfl⟩ := h.owned (by simpa using hm)
    exact ⟨t, by simp [hm, Mutable.intoOwned, orPanic], h.wf, h.mat, by simp [hm], by simp [hm]⟩

theorem changedOnly_trans {P : Nat → Prop} {a b c : List α} (h1 : ChangedOnly P a b) (h2 : ChangedOnly P b c) : ChangedOnly P a c :=
  ⟨h2.1.trans h1.1, fun k hk => (h2.2 k hk).trans (h1.2 k hk)⟩

theorem pivots_back (q : List Int) : (q.map (· - 1)).map (· + 1) = q := by
  rw [List.map_map]
  conv_rhs => rw [← List.map_id q]
  refine List.map_congr_left fun x _ => ?_
  simp

/-- `refInv` from the two routines. -/
theorem refInv_ok (lib : LapackLU α) (dflt : Order) {a : TRef α} (ha : a.Ok) {n : Nat} (hn : n ≠ 0) {A F X : Matrix (Fin n) (Fin n) α}
    (hA : a.t.arr.IsMat A) {p : List Int} (h1 : lib.getrf n n A = .ok (F, p)) (hp : p.length = n) (h2 : lib.getri n F p = .ok X) :
    ∃ x, refInv lib dflt a = .ok x ∧ Leaves a x X := by
  obtain ⟨x, x1, x2, x3⟩ := ((getrfRun_ok lib dflt ha hA).2 F p h1).2 hp
  obtain ⟨y, y1, y2⟩ := (getriRun_ok lib dflt (v := ⟨x.view, true⟩) x2.wf hn x3 x2.mat (p.map (· - 1))).2 X (by rw [pivots_back]; exact h2)
  obtain ⟨d, rfl, y3⟩ := y2.shared rfl
  have e : (TRef.after (⟨x.view, true⟩ : TRef α) (.inPlace ⟨d, x.view.layout⟩)).data = d := rfl
  unfold refInv
  simp only [x1, ok_bind, y1, e]
  have w1 : (⟨d, x.view.layout⟩ : Tensor α).WF := y2.wf
  have w2 : (⟨d, x.view.layout⟩ : Tensor α).arr.IsMat X := y2.mat
  by_cases hm : a.mutable = true
  · obtain ⟨d0, rfl, z⟩ := x2.shared hm
    exact ⟨.inPlace ⟨d, a.t.layout⟩, rfl, w1, w2, by simp [hm], fun _ => ⟨d, rfl, changedOnly_trans z y3⟩⟩
  · obtain ⟨t, rfl⟩ := x2.owned (by simpa using hm)
    exact ⟨.owned ⟨d, t.layout⟩, rfl, w1, w2, fun _ => ⟨_, rfl⟩, by simp [hm]⟩

/-- The inverse of a nonsingular matrix. Missing: matrices without elements. -/
theorem C69_inv_partial [Field α] (lib : LapackLU α) (hf : GetrfDoc lib.getrf) (hi : GetriDoc lib.getri) (dflt : Order) (a : TRef α) (ha : a.Ok)
    {n : Nat} (hn : n ≠ 0) (A : Matrix (Fin n) (Fin n) α) (hA : a.t.arr.IsMat A) (hdet : A.det ≠ 0) :
    ∃ x X, inv lib dflt a = .ok x ∧ x.WF ∧ x.arr.IsMat X ∧ A * X = 1 ∧ X * A = 1 ∧ ResultIn a x := by
  obtain ⟨F, p, h1, h2⟩ := hf.factors n A hdet
  obtain ⟨X, h3, h4⟩ := hi n A F p hdet h2
  have hp : p.length = n := by obtain ⟨q, rfl, -⟩ := h2; simp
  obtain ⟨x, x1, x2⟩ := refInv_ok lib dflt ha hn hA h1 hp h3
  obtain ⟨y, y1, y2, y3, y4⟩ := resultOf_ok dflt x2
  have na : a.t.layout.ndim = 2 := ndim_len (s := [n, n]) hA.1
  refine ⟨y, X, ?_, y2, y3, h4, mul_eq_one_comm.1 h4, y4⟩
  unfold inv
  simp only [na, x1, ok_bind, y1, ne_eq, not_true_eq_false, if_false]

/-- A singular matrix is an error. -/
theorem C69_singular [Field α] (lib : LapackLU α) (hf : GetrfDoc lib.getrf) (dflt : Order) (a : TRef α) (ha : a.Ok)
    {n : Nat} (A : Matrix (Fin n) (Fin n) α) (hA : a.t.arr.IsMat A) (hdet : A.det = 0) :
    ∃ info, 0 < info ∧ inv lib dflt a = .error (.errorCode info) := by
  obtain ⟨info, h0, h1⟩ := hf.singular n A hdet
  have na : a.t.layout.ndim = 2 := ndim_len (s := [n, n]) hA.1
  refine ⟨info, h0, ?_⟩
  unfold inv refInv
  simp only [na, (getrfRun_ok lib dflt ha hA).1 info h1, ne_eq, not_true_eq_false, if_false]
  rfl

/-- Arrays that are no square matrices are an error; here with `n` columns and more rows (`getrf` gives `n` pivots, or an error).
For more columns than rows see `C69_false_wide`. -/
theorem C69_reject_partial (lib : LapackLU α) (hl : ∀ m n A F p, lib.getrf m n A = .ok (F, p) → p.length = min m n) (dflt : Order) (a : TRef α) (ha : a.Ok)
    (h : a.t.arr.shape.length ≠ 2 ∨ ∃ m n, a.t.arr.shape = [m, n] ∧ n < m) :
    inv lib dflt a = .error .invalidLayout ∨ ∃ info, inv lib dflt a = .error (.errorCode info) := by
  unfold inv
  by_cases h1 : a.t.layout.ndim = 2
  · rcases h with h | ⟨m, n, hs, hlt⟩
    · exact absurd ((ndim_len (l := a.t.layout) rfl).symm.trans h1) h
    · obtain ⟨A, hA⟩ := exists_isMat ha.wf hs
      obtain ⟨g1, g2⟩ := getrfRun_ok lib dflt ha hA
      rw [if_neg (by simp [h1])]
      unfold refInv
      cases e : lib.getrf m n A with
      | error info => exact .inr ⟨info, by rw [g1 info e]; rfl⟩
      | ok r =>
        obtain ⟨F, p⟩ := r
        obtain ⟨x, x1, x2, -⟩ := (g2 F p e).2 (by rw [hl m n A F p e]; omega)
        left
        obtain ⟨y, y1, y2, -⟩ := convertAny_ok dflt (a := ⟨x.view, true⟩) x2.wf x2.mat
        obtain ⟨d0, d1⟩ := dimAt2 (l := y.view.layout) y2.mat.1
        have : getriRun lib dflt ⟨x.view, true⟩ (p.map (· - 1)) = .error .invalidLayout := by
          unfold getriRun
          simp only [y1, ok_bind, d0, d1, ne_eq]
          rw [if_pos (by omega)]
        simp only [x1, ok_bind, this]
        rfl
  · exact .inl (by rw [if_pos h1])

/-- For more columns than rows `inv` reads pivots that were never written, before it finds that the matrix is not square. -/
theorem C69_false_wide (lib : LapackLU α) (dflt : Order) (a : TRef α) (ha : a.Ok) {m n : Nat} (hlt : m < n)
    (A : Matrix (Fin m) (Fin n) α) (hA : a.t.arr.IsMat A) {F : Matrix (Fin m) (Fin n) α} {p : List Int} (h : lib.getrf m n A = .ok (F, p))
    (hp : p.length = min m n) : inv lib dflt a = .error .panic := by
  have na : a.t.layout.ndim = 2 := ndim_len (s := [m, n]) hA.1
  have := ((getrfRun_ok lib dflt ha hA).2 F p h).1 (by omega)
  unfold inv refInv
  simp only [na, this, ne_eq, not_true_eq_false, if_false]
  rfl

/-! ## Determinants -/

/-- The operations on real or complex numbers. -/
noncomputable def rcOps (𝕜 : Type) [RCLike 𝕜] : DetOps 𝕜 ℝ where
  one := 1
  mul := (· * ·)
  neg x := -x
  sign z := z / ((‖z‖ : ℝ) : 𝕜)
  abs z := ‖z‖
  log := Real.log
  zero := 0
  add := (· + ·)
  exp := Real.exp
  scale z r := z * (r : 𝕜)

theorem elements_vec {t : Tensor α} {n : Nat} {v : Fin n → α} (h : t.arr.IsVec v) : t.arr.elements = List.ofFn v := by
  unfold Arr.elements
  rw [h.1]
  have : all .C [n] = (List.finRange n).map fun i : Fin n => [(i : Nat)] := by
    show allC [n] = _
    have e : allC [n] = (List.range n).map fun i => [i] := by
      simp only [allC, List.map_cons, List.map_nil]
      generalize List.range n = l
      induction l with
      | nil => rfl
      | cons x l ih => rw [List.flatMap_cons, ih]; rfl
    rw [e, ← List.map_coe_finRange_eq_range, List.map_map]
    rfl
  rw [this, List.filterMap_map, List.ofFn_eq_map, ← List.filterMap_eq_map]
  refine List.filterMap_congr fun i _ => ?_
  exact h.2 i

/-- The diagonal of a matrix as a view. -/
theorem diag_ok {t : Tensor α} (ht : t.WF) {n : Nat} {M : Matrix (Fin n) (Fin n) α} (hM : t.arr.IsMat M) :
    ∃ m, t.layout.diagonal none none none = .ok m ∧ (⟨t.data, m⟩ : Tensor α).WF ∧ (⟨t.data, m⟩ : Tensor α).arr.IsVec fun i => M i i := by
  have hs : t.layout.shape = [n, n] := hM.1
  by_cases hn : n = 0
  · subst hn
    obtain ⟨s0, s1, ha⟩ := axes2 hs
    have hg : Good ⟨[⟨0, s0 + s1⟩], t.layout.offset⟩ := Or.inl (by simp [dims])
    have hnd : t.layout.ndim = 2 := by simp [Layout.ndim, ha]
    obtain ⟨-, -, -, -, hb⟩ := WF_bounds ht
    refine ⟨⟨[⟨0, s0 + s1⟩], t.layout.offset⟩, ?_, wf_of_inside hg ht.1 (fun _ => hb) ?_, rfl, fun i => i.elim0⟩
    · unfold Layout.diagonal
      have c0 : checkAxis 0 2 = .ok 0 := rfl
      have c1 : checkAxis 1 2 = .ok 1 := rfl
      simp only [hnd, Option.getD_none, c0, c1, ok_bind, ha]
      exact hg.accepted
    · intro idx hi
      match idx, hi with
      | [i], hi => exact absurd hi.1 (Nat.not_lt_zero i)
  obtain ⟨m, k1, k2, k3⟩ := diag_view ht.fit.valid ht.1 hs (k := 0) (.inr (.inl ⟨by omega, by omega⟩))
  have hd : diagLen n n 0 = n := by unfold diagLen; simp
  rw [hd] at k2 k3
  have hz : 0 ∉ [n] := by simp; omega
  have ho := k2.off hz
  have ha : ∀ i : Fin n, m.addr [(i : Nat)] = t.layout.addr [(i : Nat), (i : Nat)] := fun i => by
    have := (k3 i i.2).2
    simpa using this
  have hin : ∀ i : Fin n, InRange [(i : Nat), (i : Nat)] t.arr.shape := fun i => by rw [hM.1]; exact inRange2.2 ⟨i.2, i.2⟩
  have hwf : (⟨t.data, m⟩ : Tensor α).WF := by
    refine wf_of_inside ((valid_iff.1 k2.valid).good ho) ho (by rw [k2.shape]; exact fun h => absurd h hz) fun idx hi => ?_
    rw [k2.shape] at hi
    match idx, hi with
    | [i], hi =>
      rw [ha ⟨i, hi.1⟩]
      obtain ⟨x, x1, -⟩ := ht.get (hin ⟨i, hi.1⟩)
      have := (List.getElem?_eq_some_iff.1 x1).1
      unfold Layout.pos at this
      omega
  refine ⟨m, k1, hwf, k2.shape, fun i => ?_⟩
  have hf : Fit [n] m := ⟨k2.valid, ho, k2.shape⟩
  rw [elem_pos (d := t.data) hf (by simp [InRange])]
  have := isMat_get ht hM i i
  rw [← this]
  show t.data[m.pos [(i : Nat)]]? = _
  unfold Layout.pos
  rw [ha i]

theorem isVec_map {A : Arr α} {β : Type} {B : Arr β} {f : α → β} {n : Nat} {v : Fin n → α} (h : A.IsVec v) (hm : IsMap f A B) :
    B.IsVec fun i => f (v i) := by
  refine ⟨hm.1.trans h.1, fun i => ?_⟩
  obtain ⟨x, x1, x2⟩ := hm.2 [(i : Nat)] (by rw [h.1]; simp [InRange])
  rw [h.2 i] at x1
  injection x1 with x1
  rw [x2, ← x1]

/-- Sign and logarithm of the diagonal. -/
theorem signLog_ok {𝕜 : Type} [RCLike 𝕜] (dflt : Order) (par : Option Scheduler) (hp : Device par) {t : Tensor 𝕜} (ht : t.WF) {n : Nat}
    {M : Matrix (Fin n) (Fin n) 𝕜} (hM : t.arr.IsMat M) (piv : List Int) :
    signLog (rcOps 𝕜) dflt par t piv = .ok
      ((-1) ^ signChanges piv * ∏ i, M i i / ((‖M i i‖ : ℝ) : 𝕜), ∑ i, Real.log ‖M i i‖) := by
  obtain ⟨m, m1, m2, m3⟩ := diag_ok ht hM
  obtain ⟨u, u1, u2, u3⟩ := C36_map dflt (⟨t.data, m⟩ : Tensor 𝕜) (rcOps 𝕜).abs m2
  obtain ⟨w, w1, w2, w3⟩ := C36_map dflt (⟨t.data, m⟩ : Tensor 𝕜) (rcOps 𝕜).sign m2
  obtain ⟨g, g1, g2, -, g3, -⟩ := C36_unary_consume dflt u (rcOps 𝕜).log u2
  have e1 := elements_vec (isVec_map m3 w3)
  have e2 := elements_vec (isVec_map (isVec_map m3 u3) g3)
  have s1 : w.prodAll dflt par (rcOps 𝕜).one (rcOps 𝕜).mul = .ok (∏ i, M i i / ((‖M i i‖ : ℝ) : 𝕜)) := by
    have := C38_prod dflt par hp w w2
    rw [e1, List.prod_ofFn] at this
    exact this
  have s2 : g.sumAll dflt par (rcOps 𝕜).zero (rcOps 𝕜).add = .ok (∑ i, Real.log ‖M i i‖) := by
    have := C38_sum dflt par hp g g2
    rw [e2, List.sum_ofFn] at this
    exact this
  unfold signLog
  simp only [m1, ok_bind, u1, w1, g1, s1, s2]
  show Except.ok _ = _
  congr 2
  by_cases h : signChanges piv % 2 = 0
  · rw [if_pos h, Even.neg_one_pow (Nat.even_iff.2 h), one_mul]
  · rw [if_neg h, Odd.neg_one_pow (Nat.odd_iff.2 (by omega)), neg_one_mul]
    rfl

theorem signChanges_eq {n : Nat} (q : Fin n → Fin n) :
    signChanges ((List.ofFn fun i => ((q i : Nat) : Int) + 1).map (· - 1)) = (List.finRange n).countP fun i => q i ≠ i := by
  unfold signChanges
  rw [List.length_map, List.length_ofFn, ← List.map_coe_finRange_eq_range, List.countP_map]
  refine List.countP_congr fun i _ => ?_
  simp [Fin.ext_iff]

/-- From the factors to the determinant. -/
theorem slog_value {𝕜 : Type} [RCLike 𝕜] {n : Nat} {A F : Matrix (Fin n) (Fin n) 𝕜} {p : List Int} (hdet : A.det ≠ 0) (h : IsLU A F p) :
    ‖((-1) ^ signChanges (p.map (· - 1)) * ∏ i, F i i / ((‖F i i‖ : ℝ) : 𝕜) : 𝕜)‖ = 1 ∧
    A.det = (-1) ^ signChanges (p.map (· - 1)) * (∏ i, F i i / ((‖F i i‖ : ℝ) : 𝕜)) * ((Real.exp (∑ i, Real.log ‖F i i‖) : ℝ) : 𝕜) := by
  obtain ⟨q, rfl, hq⟩ := h
  have hd := det_lu q hq
  rw [signChanges_eq]
  have hne : ∀ i, F i i ≠ 0 := fun i e => hdet (by
    have : ∏ i, F i i = 0 := Finset.prod_eq_zero (Finset.mem_univ i) e
    rw [hd, this, mul_zero])
  have hnn : ∀ i, ((‖F i i‖ : ℝ) : 𝕜) ≠ 0 := fun i => by
    rw [Ne, RCLike.ofReal_eq_zero, norm_eq_zero]; exact hne i
  constructor
  · rw [norm_mul, norm_pow, norm_neg, norm_one, one_pow, one_mul, norm_prod]
    refine Finset.prod_eq_one fun i _ => ?_
    rw [norm_div, RCLike.norm_ofReal, abs_norm, div_self]
    exact norm_ne_zero_iff.2 (hne i)
  · rw [Real.exp_sum, hd, mul_assoc]
    congr 1
    push_cast
    rw [← Finset.prod_mul_distrib]
    refine Finset.prod_congr rfl fun i _ => ?_
    rw [Real.exp_log (norm_pos_iff.2 (hne i)), div_mul_cancel₀ _ (hnn i)]

/-- `slogdet` of a nonsingular matrix: a number of absolute value one and a logarithm that give the determinant. Missing:
singular matrices (`C70_false_singular`). -/
theorem C70_slogdet_partial {𝕜 : Type} [RCLike 𝕜] (lib : LapackLU 𝕜) (hf : GetrfDoc lib.getrf) (dflt : Order) (par : Option Scheduler) (hp : Device par)
    (a : TRef 𝕜) (ha : a.Ok) {n : Nat} (A : Matrix (Fin n) (Fin n) 𝕜) (hA : a.t.arr.IsMat A) (hdet : A.det ≠ 0) :
    ∃ a' s l, slogdet lib (rcOps 𝕜) dflt par a = .ok (a', s, l) ∧ ‖s‖ = 1 ∧ A.det = s * ((Real.exp l : ℝ) : 𝕜) ∧ l = Real.log ‖A.det‖ ∧ Spent a a' := by
  obtain ⟨F, p, h1, h2⟩ := hf.factors n A hdet
  have hpl : p.length = n := by obtain ⟨q, rfl, -⟩ := h2; simp
  obtain ⟨x, x1, x2, -⟩ := ((getrfRun_ok lib dflt ha hA).2 F p h1).2 hpl
  obtain ⟨v1, v2⟩ := slog_value hdet h2
  have na : a.t.layout.ndim = 2 := ndim_len (s := [n, n]) hA.1
  refine ⟨_, _, _, ?_, v1, v2, ?_, x2.spent⟩
  · unfold slogdet refSlogdet
    simp only [na, x1, ok_bind, signLog_ok dflt par hp x2.wf x2.mat, ne_eq, not_true_eq_false, if_false]
    rfl
  · rw [v2, norm_mul, v1, one_mul, RCLike.norm_ofReal, Real.abs_exp, Real.log_exp]

/-- `det` of a nonsingular matrix. -/
theorem C70_det_partial {𝕜 : Type} [RCLike 𝕜] (lib : LapackLU 𝕜) (hf : GetrfDoc lib.getrf) (dflt : Order) (par : Option Scheduler) (hp : Device par)
    (a : TRef 𝕜) (ha : a.Ok) {n : Nat} (A : Matrix (Fin n) (Fin n) 𝕜) (hA : a.t.arr.IsMat A) (hdet : A.det ≠ 0) :
    ∃ a', det lib (rcOps 𝕜) dflt par a = .ok (a', A.det) ∧ Spent a a' := by
  obtain ⟨F, p, h1, h2⟩ := hf.factors n A hdet
  have hpl : p.length = n := by obtain ⟨q, rfl, -⟩ := h2; simp
  obtain ⟨x, x1, x2, -⟩ := ((getrfRun_ok lib dflt ha hA).2 F p h1).2 hpl
  obtain ⟨v1, v2⟩ := slog_value hdet h2
  have na : a.t.layout.ndim = 2 := ndim_len (s := [n, n]) hA.1
  refine ⟨_, ?_, x2.spent⟩
  unfold det refSlogdet
  simp only [na, x1, ok_bind, signLog_ok dflt par hp x2.wf x2.mat, ne_eq, not_true_eq_false, if_false]
  rw [v2]
  rfl

/-- The determinant of a singular matrix is zero, but every conforming LAPACK makes `det` and `slogdet` an error: `getrf` reports a
singular factor. -/
theorem C70_false_singular {𝕜 : Type} [RCLike 𝕜] (lib : LapackLU 𝕜) (hf : GetrfDoc lib.getrf) (dflt : Order) (par : Option Scheduler)
    (a : TRef 𝕜) (ha : a.Ok) {n : Nat} (A : Matrix (Fin n) (Fin n) 𝕜) (hA : a.t.arr.IsMat A) (hdet : A.det = 0) :
    ∃ info, 0 < info ∧ det lib (rcOps 𝕜) dflt par a = .error (.errorCode info) ∧ slogdet lib (rcOps 𝕜) dflt par a = .error (.errorCode info) := by
  obtain ⟨info, h0, h1⟩ := hf.singular n A hdet
  have na : a.t.layout.ndim = 2 := ndim_len (s := [n, n]) hA.1
  have := (getrfRun_ok lib dflt ha hA).1 info h1
  refine ⟨info, h0, ?_, ?_⟩
  · unfold det refSlogdet
    simp only [na, this, ne_eq, not_true_eq_false, if_false]
    rfl
  · unfold slogdet refSlogdet
    simp only [na, this, ne_eq, not_true_eq_false, if_false]
    rfl

/-- A matrix with more rows than columns has no determinant, but `det` gives a number. -/
theorem C70_false_tall : ∃ (lib : LapackLU ℚ) (O : DetOps ℚ ℚ) (a : TRef ℚ) (r : Tensor ℚ × ℚ), a.Ok ∧ a.t.arr.shape = [3, 2] ∧
    det lib O .C none a = .ok r :=
  ⟨⟨fun m n A => .ok (A, (List.range (min m n)).map fun i => (i : Int) + 1), fun _ _ _ => .error 1⟩,
    ⟨1, (· * ·), (- ·), fun x => x / |x|, fun x => |x|, id, 0, (· + ·), id, (· * ·)⟩,
    ⟨⟨[1, 0, 0, 1, 0, 0], ⟨[⟨3, 2⟩, ⟨2, 1⟩], 0⟩⟩, false⟩, _, ⟨⟨by decide, rfl⟩, fun h => by simp at h⟩, rfl, rfl⟩

/-! ## Cases that meet the hypotheses -/

open Classical in
/-- Arithmetic that meets the documentation exists: Gaussian elimination. -/
noncomputable def gaussLib (α : Type) [Field α] : LapackLU α where
  getrf m n A :=
    if h : ∃ (e : m = n), (A.submatrix id (Fin.cast e)).det ≠ 0 then
      .ok ((exists_lu m _ h.2).choose.submatrix id (Fin.cast h.1.symm), List.ofFn fun i => (((exists_lu m _ h.2).choose_spec.choose i : Nat) : Int) + 1)
    else .error 1
  getri n F p := if h : ∃ A : Matrix (Fin n) (Fin n) α, A.det ≠ 0 ∧ IsLU A F p then .ok h.choose⁻¹ else .error 1

theorem gauss_getrf (α : Type) [Field α] : GetrfDoc (gaussLib α).getrf := by
  refine ⟨fun n A h => ?_, fun n A h => ⟨1, by omega, ?_⟩⟩
  · have hh : ∃ (e : n = n), (A.submatrix id (Fin.cast e)).det ≠ 0 := ⟨rfl, h⟩
    exact ⟨_, _, dif_pos hh, _, rfl, (exists_lu n _ hh.2).choose_spec.choose_spec⟩
  · refine dif_neg ?_
    rintro ⟨e, h'⟩
    exact h' h

theorem lu_unique [Field α] {n : Nat} {A B F : Matrix (Fin n) (Fin n) α} {p : List Int} (h : IsLU A F p) (h' : IsLU B F p) : A = B := by
  obtain ⟨q, h1, h2⟩ := h
  obtain ⟨r, h3, h4⟩ := h'
  have : q = r := by
    have := List.ofFn_injective (h1.symm.trans h3)
    funext i
    have : ((q i : Nat) : Int) + 1 = ((r i : Nat) : Int) + 1 := congrFun this i
    exact Fin.ext (by omega)
  subst this
  rw [h2] at h4
  ext i j
  have := congrFun (congrFun h4 ((interchanges q).symm i)) j
  simpa using this

theorem gauss_getri (α : Type) [Field α] : GetriDoc (gaussLib α).getri := by
  intro n A F p h1 h2
  have hh : ∃ A : Matrix (Fin n) (Fin n) α, A.det ≠ 0 ∧ IsLU A F p := ⟨A, h1, h2⟩
  refine ⟨_, dif_pos hh, ?_⟩
  rw [lu_unique hh.choose_spec.2 h2]
  exact Matrix.mul_nonsing_inv A (by simpa using h1)

example := C69_inv_partial (gaussLib ℚ) (gauss_getrf ℚ) (gauss_getri ℚ) .C sysA sysA_ok.1 two_ne_zero _ sys_mat.1 sys_det
example := C69_inv_partial (gaussLib ℚ) (gauss_getrf ℚ) (gauss_getri ℚ) .F sysA' sysA_ok.2.1 two_ne_zero _ sys_mat.2.1 sys_det
example := C69_singular (gaussLib ℚ) (gauss_getrf ℚ) .C sysS ⟨⟨by decide, rfl⟩, fun h => by simp [sysS] at h⟩
  !![1, 2; 2, 4] ⟨rfl, by decide⟩ (by simp [Matrix.det_fin_two]; norm_num)

/-- The factors of a matrix that is upper triangular already. -/
def plainLU : LapackLU ℚ := ⟨fun m n A => .ok (A, (List.range (min m n)).map fun i => (i : Int) + 1), fun _ _ _ => .error 1⟩
example := C69_reject_partial plainLU (fun m n A F p h => by
    simp only [plainLU, Except.ok.injEq, Prod.mk.injEq] at h
    rw [← h.2]; simp) .C ⟨⟨[1, 0, 0, 1, 0, 0], ⟨[⟨3, 2⟩, ⟨2, 1⟩], 0⟩⟩, true⟩ ⟨⟨by decide, rfl⟩, fun _ => by decide⟩
  (.inr ⟨3, 2, rfl, by decide⟩)
example := C69_false_wide plainLU .C ⟨⟨[1, 0, 3, 0, 1, 4], ⟨[⟨2, 3⟩, ⟨3, 1⟩], 0⟩⟩, true⟩ ⟨⟨by decide, rfl⟩, fun _ => by decide⟩
  (by decide) !![1, 0, 3; 0, 1, 4] ⟨rfl, by decide⟩ rfl rfl

/-- A matrix of complex numbers, stored with strides 4 and 2, that may be overwritten. -/
noncomputable def sysC : TRef ℂ := ⟨⟨[0, 8, Complex.I, 8, 2, 8, 1], ⟨[⟨2, 4⟩, ⟨2, 2⟩], 0⟩⟩, true⟩
theorem sysC_ok : sysC.Ok := ⟨⟨by decide, rfl⟩, fun _ => by decide⟩
theorem sysC_mat : sysC.t.arr.IsMat !![0, Complex.I; 2, 1] := by
  refine ⟨rfl, fun i j => ?_⟩
  fin_cases i <;> fin_cases j <;> rfl
theorem sysC_det : (!![0, Complex.I; 2, 1] : Matrix (Fin 2) (Fin 2) ℂ).det ≠ 0 := by simp [Matrix.det_fin_two]

example := C70_slogdet_partial (gaussLib ℂ) (gauss_getrf ℂ) .C none (fun _ h => by cases h) sysC sysC_ok _ sysC_mat sysC_det
example := C70_det_partial (gaussLib ℂ) (gauss_getrf ℂ) .F none (fun _ h => by cases h) sysC sysC_ok _ sysC_mat sysC_det
/-- The determinant of a matrix without elements is one. -/
example := C70_det_partial (gaussLib ℂ) (gauss_getrf ℂ) .F none (fun _ h => by cases h) ⟨⟨[], ⟨[⟨0, 0⟩, ⟨0, 1⟩], 0⟩⟩, true⟩
  ⟨⟨by decide, rfl⟩, fun _ => by decide⟩ (n := 0) 1 ⟨rfl, fun i => i.elim0⟩ (by simp)
example := C70_false_singular (gaussLib ℂ) (gauss_getrf ℂ) .C none ⟨⟨[0, 0, 0, 0], ⟨[⟨2, 2⟩, ⟨2, 1⟩], 0⟩⟩, false⟩
  ⟨⟨by decide, rfl⟩, fun h => by simp at h⟩ (0 : Matrix (Fin 2) (Fin 2) ℂ)
  ⟨rfl, fun i j => by fin_cases i <;> fin_cases j <;> rfl⟩ (by simp)

end
end Rstsr
