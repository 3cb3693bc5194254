import Verif.Thm.Gemm
/-!
# C75: the builder of products with a symmetric or Hermitian matrix
-/
namespace Rstsr
open Spec

section
variable {α : Type}

/-- The order in which the product is worked out. -/
def symmOrder (dflt : Order) (order : Option Order) (c : Option (Tensor α)) : Order :=
  outputOrder [] dflt [order.map orderFlags, c.map fun c => prefFlags c.layout]

/-- The call of the library. -/
theorem symmInternal_raw [Zero α] (lib : Blas3 α) (hermi : Bool) (dflt : Order) (alpha beta : α) (s : Side) (u : UpLo) {a b : Tensor α} {c : Option (Tensor α)}
    (ha : a.WF) (hb : b.WF) {m n n' : Nat} (hm : m ≠ 0) (hn : n ≠ 0) (hn' : n' ≠ 0) (hd : s.dim m n = n)
    {A : Matrix (Fin (s.dim m n)) (Fin (s.dim m n)) α} {B : Matrix (Fin m) (Fin n') α} {B' C : Matrix (Fin m) (Fin n) α} (hA : a.arr.IsMat A) (hB : b.arr.IsMat B)
    (pa : a.layout.fPrefer = true) (pb : b.layout.fPrefer = true) (oa : a.layout.offset = 0)
    (hl : ∀ ldb, ldUnwrap b.layout .F = .ok ldb → loadMat b.data 0 ldb m n = .ok B')
    {y : Mutable α} (y1 : productOut dflt m n c = .ok y) (i1 : loadMat y.view.data 0 m m n = .ok C) :
    symmInternal lib hermi dflt alpha beta s u a b c =
      (y.setData (storeMat y.view.data 0 m (lib.symm hermi s u m n alpha A B' beta C))).cloneToMut dflt := by
  have hk := dim_ne hm hn s
  obtain ⟨lda, l1, l2, l3⟩ := lead_io ha hA hk hk pa oa
  obtain ⟨ldb, w, off', ld', k1, k2, k3, -, -⟩ := mat_io hb hB hm hn' (o := .F) pb
  simp only [matIn, Except.ok.injEq, Prod.mk.injEq] at k2
  obtain ⟨rfl, rfl, rfl⟩ := k2
  have k4 := hl _ k1
  have hsa : a.layout.shape = [s.dim m n, s.dim m n] := hA.1
  obtain ⟨d1, -⟩ := dimAt2 (show b.layout.shape = [m, n'] from hB.1)
  obtain ⟨-, d2⟩ := dimAt2 hsa
  rw [hd] at d2
  unfold symmInternal
  simp only [pa, pb, Bool.not_true, Bool.false_eq_true, if_false]
  generalize b.layout.dimAt 0 = m' at d1 ⊢
  generalize a.layout.dimAt 1 = n'' at d2 ⊢
  subst d1 d2
  simp only [l1, k1, hsa, ok_bind, ne_eq, not_true_eq_false, if_false, y1, blasLd_ok l2, blasLd_ok k3,
    blasLd_ok (show (max 1 m' : Int) ≤ m' by omega), l3, k4, i1]

theorem symmInternal_ok [Zero α] (lib : Blas3 α) (hermi : Bool) (dflt : Order) (alpha beta : α) (s : Side) (u : UpLo) {a b : Tensor α} {c : Option (Tensor α)}
    (ha : a.WF) (hb : b.WF) {m n : Nat} (hm : m ≠ 0) (hn : n ≠ 0) (hd : s.dim m n = n)
    {A : Matrix (Fin (s.dim m n)) (Fin (s.dim m n)) α} {B C : Matrix (Fin m) (Fin n) α} (hA : a.arr.IsMat A) (hB : b.arr.IsMat B) (hC : OutIs c C)
    (pa : a.layout.fPrefer = true) (pb : b.layout.fPrefer = true) (oa : a.layout.offset = 0) (ob : b.layout.offset = 0) :
    ∃ x, symmInternal lib hermi dflt alpha beta s u a b c = .ok x ∧ Leaves (outRef m n c) x (lib.symm hermi s u m n alpha A B beta C) := by
  obtain ⟨y, y1, y2, y3, y4, y5⟩ := productOut_ok dflt hm hn hC
  obtain ⟨i1, i2⟩ := seq_io y2.wf y2.mat hm y3
  obtain ⟨w1, w2, w3⟩ := i2 (lib.symm hermi s u m n alpha A B beta C)
  obtain ⟨x, x1, x2, -⟩ := finish_ok dflt y4 y2 y5 w1 w2 w3
  refine ⟨x, (symmInternal_raw lib hermi dflt alpha beta s u ha hb hm hn hn hd hA hB pa pb oa (fun ldb h => ?_) y1 i1).trans x1, x2⟩
  obtain ⟨ldb, k1, -, k3⟩ := lead_io hb hB hm hn pb ob
  rw [k1] at h; cases h
  exact k3

/-- The product of the transposes. -/
theorem symmProduct_flip [Field α] (alpha beta : α) (s : Side) {m n : Nat} (S : Matrix (Fin (s.dim m n)) (Fin (s.dim m n)) α) (B C : Matrix (Fin m) (Fin n) α) :
    ∃ S' : Matrix (Fin ((flipSide s).dim n m)) (Fin ((flipSide s).dim n m)) α, HEq S' S.transpose ∧
      symmProduct alpha beta (flipSide s) S' B.transpose C.transpose = (symmProduct alpha beta s S B C).transpose := by
  cases s with
  | L =>
    obtain ⟨S, rfl⟩ : ∃ S' : Matrix (Fin m) (Fin m) α, S' = S := ⟨S, rfl⟩
    refine ⟨S.transpose, HEq.rfl, ?_⟩
    show alpha • (B.transpose * S.transpose) + beta • C.transpose = (alpha • (S * B) + beta • C).transpose
    rw [Matrix.transpose_add, Matrix.transpose_smul, Matrix.transpose_smul, Matrix.transpose_mul]
  | R =>
    obtain ⟨S, rfl⟩ : ∃ S' : Matrix (Fin n) (Fin n) α, S' = S := ⟨S, rfl⟩
    refine ⟨S.transpose, HEq.rfl, ?_⟩
    show alpha • (S.transpose * B.transpose) + beta • C.transpose = (alpha • (B * S) + beta • C).transpose
    rw [Matrix.transpose_add, Matrix.transpose_smul, Matrix.transpose_smul, Matrix.transpose_mul]

theorem selfTwin_transpose [Star α] {hermi : Bool} {n : Nat} {S : Matrix (Fin n) (Fin n) α} (h : SelfTwin hermi S) : SelfTwin hermi S.transpose := by
  unfold SelfTwin at *
  cases hermi
  · simp only [Bool.false_eq_true, if_false] at h ⊢
    show S.transpose.transpose = S.transpose
    rw [h]; exact h
  · simp only [if_true] at h ⊢
    show S.transpose.conjTranspose = S.transpose
    have : S.transpose.conjTranspose = S.conjTranspose.transpose := rfl
    rw [this, h]

theorem sameTriangle_transpose {u : UpLo} {n : Nat} {A S : Matrix (Fin n) (Fin n) α} (h : SameTriangle u A S) :
    SameTriangle (flipUpLo u) A.transpose S.transpose := fun i j hij => h j i ((inTriangle_flip u i j).1 hij)

/-- Both orders; `u` is the triangle that is passed on for the matrix. -/
theorem symm_orders [Field α] [Star α] (lib : Blas3 α) (hl : SymmDoc lib.symm) (hermi : Bool) (dflt : Order) (alpha beta : α) (o : Order) (s : Side) (u : UpLo)
    {a b : Tensor α} {c : Option (Tensor α)} (ha : a.WF) (hb : b.WF) {m n : Nat} (hm : m ≠ 0) (hn : n ≠ 0)
    (hd : m = n ∨ s = match o with | .F => .R | .C => .L)
    {A S : Matrix (Fin (s.dim m n)) (Fin (s.dim m n)) α} {B C : Matrix (Fin m) (Fin n) α}
    (hA : a.arr.IsMat A) (hB : b.arr.IsMat B) (hC : OutIs c C) (hs : SameTriangle u A S) (hS : SelfTwin hermi S) :
    ∃ x, (match o with
      | .F => do
        let a' ← Tensor.changeContig dflt a .F
        let b' ← Tensor.changeContig dflt b .F
        symmInternal lib hermi dflt alpha beta s u a' b' c
      | .C => do
        let a' ← Tensor.changeContig dflt a .C
        let b' ← Tensor.changeContig dflt b .C
        let x ← symmInternal lib hermi dflt alpha beta (flipSide s) (flipUpLo u) a'.flipped b'.flipped (c.map Tensor.flipped)
        return x.flipped) = .ok x ∧ x.view.WF ∧ x.view.arr.IsMat (symmProduct alpha beta s S B C) ∧ ∀ c0, c = some c0 → ResultIn ⟨c0, true⟩ x.view := by
  have hk := dim_ne hm hn s
  obtain ⟨a', a1, a2, a3, a4⟩ := changeContig_ok dflt ha o
  obtain ⟨b', b1, b2, b3, b4⟩ := changeContig_ok dflt hb o
  rw [show a.layout.shape = [_, _] from hA.1] at a2
  rw [show b.layout.shape = [_, _] from hB.1] at b2
  have a5 := isMat_same hA a4
  have b5 := isMat_same hB b4
  have a6 : Prefers o a'.layout := a2 ▸ fresh_prefers o hk hk
  have b6 : Prefers o b'.layout := b2 ▸ fresh_prefers o hm hn
  have a7 : a'.layout.offset = 0 := a2 ▸ (fresh_axes o _ _).1
  have b7 : b'.layout.offset = 0 := b2 ▸ (fresh_axes o _ _).1
  cases o with
  | F =>
    have hd : s.dim m n = n := by rcases hd with rfl | rfl <;> (try cases s) <;> rfl
    obtain ⟨x, x1, x2⟩ := symmInternal_ok lib hermi dflt alpha beta s u a3 b3 hm hn hd a5 b5 hC a6 b6 a7 b7
    rw [hl hermi s u m n alpha A S B beta C hs hS] at x2
    refine ⟨x, ?_, x2.wf, x2.mat, ?_⟩
    · simp only [a1, b1, ok_bind]; exact x1
    · rintro c0 rfl
      obtain ⟨d, rfl, h⟩ := x2.shared rfl
      exact ⟨fun _ => rfl, fun _ => h⟩
  | C =>
    have hq : ∀ {a : Tensor α}, Prefers .C a.layout → a.flipped.layout.fPrefer = true := fun {a} hp => by
      show a.layout.reverseAxes.fPrefer = true
      rw [← cPrefer_rev]; exact hp
    have key : ∃ A' : Matrix (Fin ((flipSide s).dim n m)) (Fin ((flipSide s).dim n m)) α, a'.flipped.arr.IsMat A' ∧
        lib.symm hermi (flipSide s) (flipUpLo u) n m alpha A' B.transpose beta C.transpose = (symmProduct alpha beta s S B C).transpose := by
      obtain ⟨S', h1, h2⟩ := symmProduct_flip alpha beta s S B C
      have hA' := flipped_mat a3 a5
      cases s with
      | L =>
        obtain rfl := eq_of_heq h1
        refine ⟨A.transpose, hA', ?_⟩
        exact (hl hermi .R (flipUpLo u) n m alpha A.transpose S.transpose B.transpose beta C.transpose (sameTriangle_transpose hs) (selfTwin_transpose hS)).trans h2
      | R =>
        obtain rfl := eq_of_heq h1
        refine ⟨A.transpose, hA', ?_⟩
        exact (hl hermi .L (flipUpLo u) n m alpha A.transpose S.transpose B.transpose beta C.transpose (sameTriangle_transpose hs) (selfTwin_transpose hS)).trans h2
    obtain ⟨A', g1, g2⟩ := key
    have hd : (flipSide s).dim n m = m := by rcases hd with rfl | rfl <;> (try cases s) <;> rfl
    obtain ⟨x, x1, x2⟩ := symmInternal_ok lib hermi dflt alpha beta (flipSide s) (flipUpLo u) (flipped_wf a3) (flipped_wf b3) hn hm hd g1 (flipped_mat b3 b5)
      (hC.flip hm hn) (hq a6) (hq b6) a7 b7
    rw [g2] at x2
    have hv : x.flipped.view = x.view.flipped := by cases x <;> rfl
    refine ⟨x.flipped, ?_, hv ▸ flipped_wf x2.wf, ?_, ?_⟩
    · simp only [a1, b1, ok_bind, x1]; rfl
    · have := flipped_mat x2.wf x2.mat
      rw [Matrix.transpose_transpose] at this
      rw [hv]; exact this
    · rintro c0 rfl
      have x3 : Leaves (TRef.flipped ⟨c0, true⟩) x _ := x2
      obtain ⟨d, h1, h⟩ := x3.unflip.shared rfl
      rw [h1]
      exact ⟨fun _ => rfl, fun _ => h⟩

/-- The triangle that is passed on. -/
def symmTriangle (hermi : Bool) (o : Order) (l : Layout) (u : UpLo) : UpLo := if !hermi && !prefersB o l then flipUpLo u else u

theorem symmRun_eq [Zero α] (lib : Blas3 α) (hermi : Bool) (dflt : Order) (alpha beta : α) (s : Side) (u : UpLo) (order : Option Order) (a b : Tensor α)
    (c : Option (Tensor α)) : symmRun lib hermi dflt alpha beta s u order a b c = match symmOrder dflt order c with
      | .F => do
        let a' ← Tensor.changeContig dflt a .F
        let b' ← Tensor.changeContig dflt b .F
        symmInternal lib hermi dflt alpha beta s (symmTriangle hermi (symmOrder dflt order c) a.layout u) a' b' c
      | .C => do
        let a' ← Tensor.changeContig dflt a .C
        let b' ← Tensor.changeContig dflt b .C
        let x ← symmInternal lib hermi dflt alpha beta (flipSide s) (flipUpLo (symmTriangle hermi (symmOrder dflt order c) a.layout u)) a'.flipped b'.flipped (c.map Tensor.flipped)
        return x.flipped := by
  unfold symmRun
  show (match symmOrder dflt order c with | .F => _ | .C => _) = _
  generalize symmOrder dflt order c = o
  cases o <;> rfl

/-! ## The order of work -/

theorem seq_imp_prefers {o : Order} {l : Layout} {m n : Nat} (hm : m ≠ 0) (hn : n ≠ 0) (hs : l.shape = [m, n]) (h : Seq2 o m n l) :
    Prefers o l ∧ (m ≠ 1 → n ≠ 1 → ∀ o', Prefers o' l → o' = o) := by
  obtain ⟨s0, s1, e⟩ := axes2 hs
  have key : ∀ o, Seq2 o m n l → (m ≠ 1 → s0 = match o with | .F => 1 | .C => n) ∧ (n ≠ 1 → s1 = match o with | .F => m | .C => 1) := by
    intro o h
    constructor
    · intro h1
      cases o
      · have a0 := h 0 (by omega) 0 (by omega)
        have a1 := h 1 (by omega) 0 (by omega)
        rw [addr_pair e] at a0 a1
        simp at a0 a1
        show s0 = n
        omega
      · have a0 := h 0 (by omega) 0 (by omega)
        have a1 := h 1 (by omega) 0 (by omega)
        rw [addr_pair e] at a0 a1
        simp at a0 a1
        show s0 = 1
        omega
    · intro h1
      cases o
      · have a0 := h 0 (by omega) 0 (by omega)
        have a1 := h 0 (by omega) 1 (by omega)
        rw [addr_pair e] at a0 a1
        simp at a0 a1
        show s1 = 1
        omega
      · have a0 := h 0 (by omega) 0 (by omega)
        have a1 := h 0 (by omega) 1 (by omega)
        rw [addr_pair e] at a0 a1
        simp at a0 a1
        show s1 = m
        omega
  obtain ⟨k0, k1⟩ := key o h
  have hF : Prefers .F l ↔ (m ≠ 1 → s0 = 1) ∧ (n ≠ 1 → 1 ≤ s1) := fPrefer2 e hm hn
  have hC : Prefers .C l ↔ (n ≠ 1 → s1 = 1) ∧ (m ≠ 1 → 1 ≤ s0) := by
    show l.cPrefer = true ↔ _
    rw [cPrefer_rev, fPrefer2 (rev2 e) hn hm]
  cases o
  · refine ⟨hC.2 ⟨k1, fun h => by have := k0 h; simp only at this; omega⟩, fun h1 h2 o' ho => ?_⟩
    cases o'
    · rfl
    · have := (hF.1 ho).1 h1
      have := k0 h1
      simp only at this
      omega
  · refine ⟨hF.2 ⟨k0, fun h => by have := k1 h; simp only at this; omega⟩, fun h1 h2 o' ho => ?_⟩
    cases o'
    · have := (hC.1 ho).1 h2
      have := k1 h2
      simp only at this
      omega
    · rfl

/-- The order in which the product is worked out: not the one asked for, otherwise that of the output, otherwise that of the device. -/
theorem symmOrder_of {dflt o : Order} {order : Option Order} {c : Option (Tensor α)} {m n : Nat} (hm : m ≠ 0) (hn : n ≠ 0)
    (h : (∃ o', order = some o' ∧ o ≠ o') ∨ (order = none ∧ c = none ∧ o = dflt) ∨
      (order = none ∧ ∃ c0, c = some c0 ∧ c0.arr.shape = [m, n] ∧ m ≠ 1 ∧ n ≠ 1 ∧ InSequence o c0.layout.stride c0.layout.offset c0.layout.shape)) :
    symmOrder dflt order c = o := by
  rcases h with ⟨o', rfl, h⟩ | ⟨rfl, rfl, rfl⟩ | ⟨rfl, c0, rfl, hs, h1, h2, h3⟩
  · cases o <;> cases o' <;> first | exact absurd rfl h | rfl
  · rfl
  · obtain ⟨k1, k2⟩ := seq_imp_prefers hm hn hs (seq2_of hs h3)
    have k2 := k2 h1 h2
    unfold symmOrder
    cases o
    · have e1 : c0.layout.cPrefer = true := k1
      have e2 : c0.layout.fPrefer = false := by
        cases e : c0.layout.fPrefer
        · rfl
        · cases k2 .F e
      simp [outputOrder, prefFlags, e1, e2]
    · have e1 : c0.layout.fPrefer = true := k1
      have e2 : c0.layout.cPrefer = false := by
        cases e : c0.layout.cPrefer
        · rfl
        · cases k2 .C e
      simp [outputOrder, prefFlags, e1, e2]

/-! ## The property -/

/-- The builders `SYMM` and `HEMM`: `α S B + β C` or `α B S + β C` with the symmetric or Hermitian matrix `S` of which a triangle is given.
Proved where the order of work `o`, the side and the storage of `A` go together: the matrix `B` is square or the side is the one on which the
width is taken from the right matrix; the matrix is Hermitian, or both triangles are given, or `A` is stored in the order of work. Missing: the other
cases (`C75_false_triangle`, `C75_false_shape`); an output in a window or with padded rows or columns; matrices without elements. -/
theorem C75_product_partial [Field α] [Star α] (lib : Blas3 α) (hl : SymmDoc lib.symm) (hermi : Bool) (dflt : Order) (alpha beta : α) (s : Side) (u : UpLo)
    (order : Option Order) (a b : Tensor α) (c : Option (Tensor α)) (ha : a.WF) (hb : b.WF) {m n : Nat} (hm : m ≠ 0) (hn : n ≠ 0)
    (A S : Matrix (Fin (s.dim m n)) (Fin (s.dim m n)) α) (B C : Matrix (Fin m) (Fin n) α)
    (hA : a.arr.IsMat A) (hB : b.arr.IsMat B) (hs : SameTriangle u A S) (hS : SelfTwin hermi S) (hz : c = none → C = 0)
    (hC : ∀ c0, c = some c0 → (⟨c0, true⟩ : TRef α).Ok ∧ c0.arr.IsMat C ∧
      ((∃ o, InSequence o c0.layout.stride c0.layout.offset c0.layout.shape) ∨ (m ≠ 1 ∧ n ≠ 1 ∧ (1 : Int) ∉ c0.layout.stride)))
    (h : (m = n ∧ (hermi = true ∨ A = S)) ∨ ∃ o, ((∃ o', order = some o' ∧ o ≠ o') ∨ (order = none ∧ c = none ∧ o = dflt) ∨
        (order = none ∧ ∃ c0, c = some c0 ∧ m ≠ 1 ∧ n ≠ 1 ∧ InSequence o c0.layout.stride c0.layout.offset c0.layout.shape)) ∧
      (m = n ∨ s = match o with | .F => .R | .C => .L) ∧
      (hermi = true ∨ A = S ∨ InSequence o a.layout.stride a.layout.offset a.layout.shape)) :
    ∃ x, symmRun lib hermi dflt alpha beta s u order a b c = .ok x ∧ x.view.WF ∧ x.view.arr.IsMat (symmProduct alpha beta s S B C) ∧
      ∀ c0, c = some c0 → ResultIn ⟨c0, true⟩ x.view := by
  have ho : OutIs c C := by
    cases c with
    | none => exact hz rfl
    | some c0 =>
      obtain ⟨g1, g2, g3⟩ := hC c0 rfl
      exact ⟨g1, g2, gapless_of hm hn g2.1 g3⟩
  have hk := dim_ne hm hn s
  have key : ∃ o, symmOrder dflt order c = o ∧ (m = n ∨ s = match o with | .F => .R | .C => .L) ∧ SameTriangle (symmTriangle hermi o a.layout u) A S := by
    have tri : ∀ o, (hermi = true ∨ A = S) → SameTriangle (symmTriangle hermi o a.layout u) A S := fun o h => by
      rcases h with h | rfl
      · simp only [symmTriangle, h]; exact hs
      · exact fun _ _ _ => rfl
    rcases h with ⟨h1, h2⟩ | ⟨o, h1, h2, h3⟩
    · exact ⟨_, rfl, .inl h1, tri _ h2⟩
    · refine ⟨o, symmOrder_of hm hn ?_, h2, ?_⟩
      · refine h1.imp id (Or.imp id ?_)
        rintro ⟨e, c0, rfl, g⟩
        exact ⟨e, c0, rfl, (hC c0 rfl).2.1.1, g⟩
      · rcases h3 with h3 | h3 | h3
        · exact tri _ (.inl h3)
        · exact tri _ (.inr h3)
        · have := prefersB_iff.2 (seq_imp_prefers hk hk hA.1 (seq2_of hA.1 h3)).1
          simp only [symmTriangle, this, Bool.not_true, Bool.and_false, Bool.false_eq_true, if_false]
          exact hs
  obtain ⟨o, e, h2, h3⟩ := key
  rw [symmRun_eq, e]
  exact symm_orders lib hl hermi dflt alpha beta o s _ ha hb hm hn h2 hA hB ho h3 hS

/-! ## Shapes that do not fit -/

/-- A matrix that is not square is an error. Missing: a matrix on the right or (worked out row by row) on the left whose size is not that of the
other factor is not refused (`C75_false_shape`). -/
theorem C75_reject_partial [Zero α] (lib : Blas3 α) (hermi : Bool) (dflt : Order) (alpha beta : α) (s : Side) (u : UpLo) (order : Option Order) (a b : Tensor α)
    (c : Option (Tensor α)) (ha : a.WF) (hb : b.WF) {p q m n : Nat} (hp : p ≠ 0) (hq : q ≠ 0) (hm : m ≠ 0) (hn : n ≠ 0) (hA : a.arr.shape = [p, q])
    (hB : b.arr.shape = [m, n]) (h : p ≠ q) : symmRun lib hermi dflt alpha beta s u order a b c = .error .invalidLayout := by
  obtain ⟨A, hA⟩ := exists_isMat ha hA
  obtain ⟨B, hB⟩ := exists_isMat hb hB
  have key : ∀ (s : Side) (u : UpLo) (c : Option (Tensor α)) {a b : Tensor α} (_ : a.WF) (_ : b.WF) {p q m n : Nat} (_ : p ≠ 0) (_ : q ≠ 0) (_ : m ≠ 0) (_ : n ≠ 0)
      {A : Matrix (Fin p) (Fin q) α} {B : Matrix (Fin m) (Fin n) α} (_ : a.arr.IsMat A) (_ : b.arr.IsMat B) (_ : a.layout.fPrefer = true)
      (_ : b.layout.fPrefer = true) (_ : p ≠ q), symmInternal lib hermi dflt alpha beta s u a b c = .error .invalidLayout := by
    intro s u c a b ha hb p q m n hp hq hm hn A B hA hB pa pb h
    obtain ⟨lda, -, -, -, l1, -⟩ := mat_io ha hA hp hq (o := .F) pa
    obtain ⟨ldb, -, -, -, k1, -⟩ := mat_io hb hB hm hn (o := .F) pb
    have hsa : a.layout.shape = [p, q] := hA.1
    unfold symmInternal
    simp only [pa, pb, Bool.not_true, Bool.false_eq_true, if_false, l1, k1, ok_bind, hsa]
    rw [if_pos (by intro e; simp only [List.cons.injEq, and_true] at e; exact h (e.1.trans e.2.symm))]
  rw [symmRun_eq]
  generalize symmOrder dflt order c = o
  obtain ⟨a', a1, a2, a3, a4⟩ := changeContig_ok dflt ha o
  obtain ⟨b', b1, b2, b3, b4⟩ := changeContig_ok dflt hb o
  rw [show a.layout.shape = [_, _] from hA.1] at a2
  rw [show b.layout.shape = [_, _] from hB.1] at b2
  have a5 := isMat_same hA a4
  have b5 := isMat_same hB b4
  have a6 : Prefers o a'.layout := a2 ▸ fresh_prefers o hp hq
  have b6 : Prefers o b'.layout := b2 ▸ fresh_prefers o hm hn
  cases o with
  | F =>
    simp only [a1, b1, ok_bind]
    exact key _ _ _ a3 b3 hp hq hm hn a5 b5 a6 b6 h
  | C =>
    have hf : ∀ {a : Tensor α}, Prefers .C a.layout → a.flipped.layout.fPrefer = true := fun {a} hp => by
      show a.layout.reverseAxes.fPrefer = true
      rw [← cPrefer_rev]; exact hp
    simp only [a1, b1, ok_bind, key (flipSide s) (flipUpLo (symmTriangle hermi .C a.layout u)) (c.map Tensor.flipped) (flipped_wf a3) (flipped_wf b3) hq hp hn hm
      (flipped_mat a3 a5) (flipped_mat b3 b5) (hf a6) (hf b6) h.symm]
    rfl

/-! ## Where the property fails -/

/-- A symmetric matrix of which the lower triangle is given, row by row; the unit matrix; a matrix of two rows and three columns. -/
def smmA : Tensor ℚ := ⟨[1, 9, 2, 3], ⟨[⟨2, 2⟩, ⟨2, 1⟩], 0⟩⟩
def smmI : Tensor ℚ := ⟨[1, 0, 0, 1], ⟨[⟨2, 1⟩, ⟨2, 2⟩], 0⟩⟩
def smmB : Tensor ℚ := ⟨[1, 2, 3, 4, 5, 6], ⟨[⟨2, 1⟩, ⟨3, 2⟩], 0⟩⟩

theorem smm_wf : smmA.WF ∧ smmI.WF ∧ smmB.WF := ⟨⟨by decide, rfl⟩, ⟨by decide, rfl⟩, ⟨by decide, rfl⟩⟩

theorem smm_mat : smmA.arr.IsMat !![1, 9; 2, 3] ∧ smmI.arr.IsMat !![1, 0; 0, 1] ∧ smmB.arr.IsMat !![1, 3, 5; 2, 4, 6] := by
  refine ⟨⟨rfl, ?_⟩, ⟨rfl, ?_⟩, ⟨rfl, ?_⟩⟩ <;> decide

/-- A symmetric matrix that is not stored in the order of work is read from the other triangle: the product of the matrix with the lower triangle
`1; 2 3` and the unit matrix has the elements `9` of the upper triangle. -/
theorem C75_false_triangle (lib : Blas3 ℚ) (hl : SymmDoc lib.symm) : smmA.WF ∧ smmI.WF ∧ smmA.arr.IsMat (!![1, 9; 2, 3] : Matrix (Fin 2) (Fin 2) ℚ) ∧
    smmI.arr.IsMat (!![1, 0; 0, 1] : Matrix (Fin 2) (Fin 2) ℚ) ∧ SameTriangle .L (!![1, 9; 2, 3] : Matrix (Fin 2) (Fin 2) ℚ) !![1, 2; 2, 3] ∧
    SelfTwin false (!![1, 2; 2, 3] : Matrix (Fin 2) (Fin 2) ℚ) ∧
    ∃ x, symmRun lib false .F 1 0 .L .L none smmA smmI none = .ok x ∧ x.view.arr.IsMat (!![1, 9; 9, 3] : Matrix (Fin 2) (Fin 2) ℚ) := by
  refine ⟨smm_wf.1, smm_wf.2.1, smm_mat.1, smm_mat.2.1, ?_, ?_, ?_⟩
  · intro i j
    fin_cases i <;> fin_cases j <;> simp [InTriangle]
  · show (!![1, 2; 2, 3] : Matrix (Fin 2) (Fin 2) ℚ).transpose = _
    ext i j
    fin_cases i <;> fin_cases j <;> rfl
  · have ht : SameTriangle .U (!![1, 9; 2, 3] : Matrix (Fin 2) (Fin 2) ℚ) !![1, 9; 9, 3] := by
      intro i j
      fin_cases i <;> fin_cases j <;> simp [InTriangle]
    obtain ⟨x, x1, -, x3, -⟩ := symm_orders lib hl false .F 1 0 .F .L .U (c := none) (C := 0) smm_wf.1 smm_wf.2.1 (m := 2) (n := 2) two_ne_zero two_ne_zero (.inl rfl)
      (S := (!![1, 9; 9, 3] : Matrix (Fin 2) (Fin 2) ℚ)) smm_mat.1 smm_mat.2.1 (show _ = _ from rfl)
      ht
      (by
        show (!![1, 9; 9, 3] : Matrix (Fin 2) (Fin 2) ℚ).transpose = _
        ext i j
        fin_cases i <;> fin_cases j <;> rfl)
    refine ⟨x, x1, ?_⟩
    have e : symmProduct (1 : ℚ) 0 .L (m := 2) (n := 2) (!![1, 9; 9, 3] : Matrix (Fin 2) (Fin 2) ℚ) (!![1, 0; 0, 1] : Matrix (Fin 2) (Fin 2) ℚ) 0 = !![1, 9; 9, 3] := by
      show (1 : ℚ) • ((!![1, 9; 9, 3] : Matrix (Fin 2) (Fin 2) ℚ) * (!![1, 0; 0, 1] : Matrix (Fin 2) (Fin 2) ℚ)) + (0 : ℚ) • 0 = _
      rw [one_smul, smul_zero, add_zero]
      ext i j
      rw [Matrix.mul_apply, Fin.sum_univ_two]
      fin_cases i <;> fin_cases j <;> simp
    rw [← e]
    exact x3

/-- The product of a matrix of two rows and columns with one of two rows and three columns has two columns. -/
theorem C75_false_shape (lib : Blas3 ℚ) : smmI.WF ∧ smmB.WF ∧ smmI.arr.shape = [2, 2] ∧ smmB.arr.shape = [2, 3] ∧
    ∃ x, symmRun lib false .F 1 0 .L .L none smmI smmB none = .ok x ∧ x.view.arr.shape = [2, 2] := by
  refine ⟨smm_wf.2.1, smm_wf.2.2, rfl, rfl, ?_⟩
  have hC : loadMat (zeros (α := ℚ) 2 2).data 0 (2 : Nat) 2 2 = .ok (0 : Matrix (Fin 2) (Fin 2) ℚ) :=
    loadMat_ok fun i j => by fin_cases i <;> fin_cases j <;> exact ⟨by decide, rfl⟩
  have hB : loadMat smmB.data 0 2 2 2 = .ok (!![1, 3; 2, 4] : Matrix (Fin 2) (Fin 2) ℚ) :=
    loadMat_ok fun i j => by fin_cases i <;> fin_cases j <;> exact ⟨by decide, rfl⟩
  have hld : ldUnwrap smmB.layout .F = .ok 2 := by decide +kernel
  have e1 := symmInternal_raw lib false .F 1 0 .L .L smm_wf.2.1 smm_wf.2.2 (m := 2) (n := 2) (n' := 3) two_ne_zero two_ne_zero three_ne_zero rfl smm_mat.2.1
    smm_mat.2.2 rfl rfl rfl (fun ldb h => by rw [hld] at h; cases h; exact hB) (c := none) (y := .owned (zeros 2 2)) rfl hC
  have e2 : symmRun lib false .F 1 0 .L .L none smmI smmB none = (do
      let a' ← Tensor.changeContig .F smmI .F
      let b' ← Tensor.changeContig .F smmB .F
      symmInternal lib false .F 1 0 .L .L a' b' none) := rfl
  have e3 : Tensor.changeContig .F smmI .F = .ok smmI := by decide +kernel
  have e4 : Tensor.changeContig .F smmB .F = .ok smmB := by decide +kernel
  rw [e2, e3, e4]
  exact ⟨_, e1, rfl⟩

/-! ## Cases that meet the hypotheses -/

theorem exact_symm (α : Type) [Field α] [StarRing α] : SymmDoc (exactBlas α).symm := by
  intro h s u m n alpha A S B beta C hs hS
  show symmProduct alpha beta s (Matrix.of fun i j => if InTriangle u i j then A i j else if h then star (A j i) else A j i) B C = _
  congr 1
  ext i j
  show (if InTriangle u i j then A i j else if h then star (A j i) else A j i) = S i j
  split
  · rename_i hij; exact hs i j hij
  · rename_i hij
    have hji : InTriangle u j i := by
      cases u <;> simp only [InTriangle] at hij ⊢ <;> omega
    rw [hs j i hji]
    cases h
    · simp only [Bool.false_eq_true, if_false]
      exact congrFun (congrFun (show S.transpose = S from hS) i) j
    · simp only [if_true]
      exact congrFun (congrFun (show S.conjTranspose = S from hS) i) j

/-- Rows of the matrix of the system one after the other, the other triangle holds something else. -/
theorem smmA_seq : InSequence .C smmA.layout.stride smmA.layout.offset smmA.layout.shape := by
  intro idx hi
  obtain ⟨i, j, rfl, -, -⟩ := of_inRange2 (m := 2) (n := 2) hi
  simp [smmA, position, Layout.stride, Layout.shape, rank, rankC]

theorem smmA_tri : SameTriangle .L (!![1, 9; 2, 3] : Matrix (Fin 2) (Fin 2) ℚ) !![1, 2; 2, 3] ∧ SelfTwin false (!![1, 2; 2, 3] : Matrix (Fin 2) (Fin 2) ℚ) ∧
    SelfTwin true (!![1, 2; 2, 3] : Matrix (Fin 2) (Fin 2) ℚ) := by
  refine ⟨?_, ?_, ?_⟩
  · intro i j
    fin_cases i <;> fin_cases j <;> simp [InTriangle]
  · show (!![1, 2; 2, 3] : Matrix (Fin 2) (Fin 2) ℚ).transpose = _
    ext i j
    fin_cases i <;> fin_cases j <;> rfl
  · show (!![1, 2; 2, 3] : Matrix (Fin 2) (Fin 2) ℚ).conjTranspose = _
    ext i j
    fin_cases i <;> fin_cases j <;> rfl

example := C75_product_partial (exactBlas ℚ) (exact_symm ℚ) false .C 2 3 .L .L none smmA smmB none smm_wf.1 smm_wf.2.2 (m := 2) (n := 3) two_ne_zero three_ne_zero
  _ _ _ 0 smm_mat.1 smm_mat.2.2 smmA_tri.1 smmA_tri.2.1 (fun _ => rfl) (fun _ h => by cases h)
  (.inr ⟨.C, .inr (.inl ⟨rfl, rfl, rfl⟩), .inr rfl, .inr (.inr smmA_seq)⟩)
example (s : Order) := C75_product_partial (exactBlas ℚ) (exact_symm ℚ) true s 2 3 .L .L (some .F) smmA smmI (some smmA) smm_wf.1 smm_wf.2.1 (m := 2) (n := 2) two_ne_zero
  two_ne_zero _ _ _ _ smm_mat.1 smm_mat.2.1 smmA_tri.1 smmA_tri.2.2 (fun h => by cases h)
  (fun c h => by cases h; exact ⟨⟨smm_wf.1, fun _ => by decide⟩, smm_mat.1, .inl ⟨.C, smmA_seq⟩⟩) (.inl ⟨rfl, .inl rfl⟩)
example (u : UpLo) (o : Option Order) (s : Side) (d : Order) := C75_reject_partial (exactBlas ℚ) false d 2 3 s u o smmB smmA none smm_wf.2.2 smm_wf.1 (p := 2) (q := 3)
  (m := 2) (n := 2) two_ne_zero three_ne_zero two_ne_zero two_ne_zero rfl rfl (by decide)

end
end Rstsr
