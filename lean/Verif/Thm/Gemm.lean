import Verif.Thm.Blas3
/-!
# C74: the builder of matrix products
-/
namespace Rstsr
open Spec

section
variable {α : Type}

/-! ## The factors -/

theorem rows_ne {m n : Nat} (hm : m ≠ 0) (hn : n ≠ 0) (t : Trans) : t.rows m n ≠ 0 ∧ t.cols m n ≠ 0 := by
  cases t; exacts [⟨hm, hn⟩, ⟨hn, hm⟩, ⟨hn, hm⟩]

/-- A factor after its flag and its order of storage have been settled. -/
theorem flipTrans_op [Star α] (dflt o : Order) (t : Trans) {a : Tensor α} (ha : a.WF) {m n : Nat} (hm : m ≠ 0) (hn : n ≠ 0)
    {A : Matrix (Fin (t.rows m n)) (Fin (t.cols m n)) α} (hA : a.arr.IsMat A) :
    ∃ (t' : Trans) (a' : Tensor α) (A' : Matrix (Fin (t'.rows m n)) (Fin (t'.cols m n)) α), flipTrans dflt o t a = .ok (t', a') ∧ a'.WF ∧ a'.arr.IsMat A' ∧
      Prefers o a'.layout ∧ (AtStart a.layout → a'.layout.offset = 0) ∧ t'.op A' = t.op A := by
  obtain ⟨h1, h2⟩ := rows_ne hm hn t
  rcases flipTrans_ok dflt o t ha hA with ⟨a', f1, f2, f3, f4, f5⟩ | ⟨t', a', A', f1, f2, f3, f4, f5, f6⟩
  · exact ⟨t, a', A, f1, f2, f3, f4, f5, rfl⟩
  · cases t <;> obtain ⟨rfl, rfl⟩ := f6
    · exact ⟨.T, a', Matrix.transpose A, f1, f2, f3, f4, f5, rfl⟩
    · exact ⟨.N, a', Matrix.transpose A, f1, f2, f3, f4, f5, rfl⟩
    · exact ⟨.N, a', Matrix.conjTranspose A, f1, f2, f3, f4, f5, rfl⟩

/-- A factor of the product of the transposes. -/
theorem flipped_op [Star α] {t : Trans} {a : Tensor α} (ha : a.WF) {m n : Nat} {A : Matrix (Fin (t.rows m n)) (Fin (t.cols m n)) α} (hA : a.arr.IsMat A) :
    ∃ A' : Matrix (Fin (t.rows n m)) (Fin (t.cols n m)) α, a.flipped.arr.IsMat A' ∧ t.op A' = (t.op A).transpose := by
  have := flipped_mat ha hA
  cases t
  · exact ⟨Matrix.transpose A, this, rfl⟩
  · exact ⟨Matrix.transpose A, this, rfl⟩
  · exact ⟨Matrix.transpose A, this, rfl⟩

/-! ## The output -/

/-- The tensor that is made if no output is given. -/
def zeros [Zero α] (m n : Nat) : Tensor α := ⟨List.replicate (m * n) 0, Layout.newFContig [m, n] 0⟩

/-- The output as an argument that is overwritten. -/
def outRef [Zero α] (m n : Nat) : Option (Tensor α) → TRef α
  | some c => ⟨c, true⟩
  | none => ⟨zeros m n, false⟩

/-- A given output holds the matrix `C`; without one it is zero. -/
def OutIs [Zero α] {m n : Nat} (c : Option (Tensor α)) (C : Matrix (Fin m) (Fin n) α) : Prop := match c with
  | some c => (⟨c, true⟩ : TRef α).Ok ∧ c.arr.IsMat C ∧ Gapless c.layout
  | none => C = 0

theorem OutIs.flip [Zero α] {m n : Nat} {c : Option (Tensor α)} {C : Matrix (Fin m) (Fin n) α} (hm : m ≠ 0) (hn : n ≠ 0) (h : OutIs c C) :
    OutIs (c.map Tensor.flipped) C.transpose := by
  cases c with
  | none => rw [show C = 0 from h]; rfl
  | some c =>
    obtain ⟨h1, h2, h3⟩ := h
    refine ⟨flipped_ok h1, flipped_mat h1.wf h2, ?_⟩
    rcases h3 with ⟨o, h3⟩ | h3
    · left
      refine ⟨match o with | .C => .F | .F => .C, fun idx hi => ?_⟩
      have hs : c.layout.shape = [m, n] := h2.1
      have hs' : c.flipped.layout.shape = [n, m] := by show c.layout.reverseAxes.shape = _; rw [rev_shape, hs]; rfl
      rw [hs'] at hi ⊢
      obtain ⟨i, j, rfl, hi, hj⟩ := of_inRange2 hi
      have hnd : c.layout.ndim = 2 := ndim_len hs
      have := h3 [j, i] (hs ▸ inRange2.2 ⟨hj, hi⟩)
      rw [hs] at this
      have e : c.layout.reverseAxes.addr [i, j] = c.layout.addr [j, i] := by rw [rev_addr (by simp [hnd])]; rfl
      refine (e.trans this).trans ?_
      cases o <;> simp [rank, rankC, rankF]
      · ring
      · ring
    · right
      intro h
      apply h3
      have e1 : c.layout.reverseAxes.cPrefer = c.layout.fPrefer := by rw [cPrefer_rev, rev_rev]
      have e2 : c.layout.reverseAxes.fPrefer = c.layout.cPrefer := by rw [cPrefer_rev]
      have h : (c.layout.reverseAxes.fPrefer || c.layout.reverseAxes.cPrefer) = true := h
      rw [e1, e2, Bool.or_comm] at h
      exact h

theorem zeros_ok [Zero α] {m n : Nat} : (zeros (α := α) m n).WF ∧ (zeros (α := α) m n).arr.IsMat (0 : Matrix (Fin m) (Fin n) α) ∧
    Seq2 .F m n (zeros (α := α) m n).layout ∧ ∃ k, (Layout.newFContig [m, n] 0).boundsIndex = .ok (k, (m * n : Nat)) := by
  have ht := freshLayout_tight .F [m, n]
  have hs : (freshLayout .F [m, n]).shape = [m, n] := freshLayout_shape ..
  have hz : (freshLayout .F [m, n]).size = m * n := by simp [Layout.size, hs]
  have hw : (zeros (α := α) m n).WF := ht.wf (by simp [zeros, hz])
  obtain ⟨k, hk⟩ := ht.bounds
  refine ⟨hw, ⟨hs, fun i j => ?_⟩, fresh_seq .F m n, k, by rw [hz] at hk; exact hk⟩
  obtain ⟨x, h1, h2⟩ := hw.get (idx := [(i : Nat), (j : Nat)]) (by
    show InRange _ (freshLayout .F [m, n]).shape
    rw [hs]; exact inRange2.2 ⟨i.2, j.2⟩)
  rw [h2]
  have : x ∈ List.replicate (m * n) (0 : α) := List.mem_of_getElem? h1
  rw [List.eq_of_mem_replicate this]
  rfl

/-- Where the product goes. -/
theorem productOut_ok [Zero α] (dflt : Order) {m n : Nat} (hm : m ≠ 0) (hn : n ≠ 0) {c : Option (Tensor α)} {C : Matrix (Fin m) (Fin n) α} (h : OutIs c C) :
    ∃ x, productOut dflt m n c = .ok x ∧ Stands (outRef m n c) x C ∧ Seq2 .F m n x.view.layout ∧ (outRef m n c).Ok ∧ (outRef m n c).t.arr.shape = [m, n] := by
  cases c with
  | none =>
    rw [show C = 0 from h]
    obtain ⟨z1, z2, z3, k, z4⟩ := zeros_ok (α := α) (m := m) (n := n)
    refine ⟨.owned (zeros m n), ?_, ⟨z1, z2, fun _ => ⟨_, rfl⟩, fun h => by simp [outRef] at h, fun _ e => by cases e⟩, z3, ⟨z1, fun h => by simp [outRef] at h⟩, z2.1⟩
    unfold productOut
    simp only [z4, ok_bind]
    rfl
  | some c =>
    obtain ⟨h1, h2, h3⟩ := h
    obtain ⟨x, x1, x2, x3⟩ := convertSeq_ok dflt h1 h2 hm hn fun _ hp => h3.seq hm hn h2.1 .F hp
    refine ⟨x, ?_, x2, x3, h1, h2.1⟩
    rw [← x1]
    unfold productOut overwritableConvertWithOrder
    simp only [show c.layout.shape = [m, n] from h2.1, ne_eq, not_true_eq_false, if_false]
    by_cases hp : c.layout.fPrefer = true
    · simp [hp]
    · simp [hp]

/-! ## The builder -/

theorem op_dims {t : Trans} {l : Layout} {m n : Nat} (h : l.shape = [t.rows m n, t.cols m n]) : opRows t l = m ∧ opCols t l = n := by
  obtain ⟨d0, d1⟩ := dimAt2 h
  cases t; exacts [⟨d0, d1⟩, ⟨d1, d0⟩, ⟨d1, d0⟩]

/-- The call of the library, whatever the output is made of. -/
theorem gemmInternal_raw [Zero α] (lib : Blas3 α) (dflt : Order) (alpha beta : α) (ta tb : Trans) {a b : Tensor α} {c : Option (Tensor α)} (ha : a.WF) (hb : b.WF)
    {m n k : Nat} (hm : m ≠ 0) (hn : n ≠ 0) (hk : k ≠ 0) {A : Matrix (Fin (ta.rows m k)) (Fin (ta.cols m k)) α}
    {B : Matrix (Fin (tb.rows k n)) (Fin (tb.cols k n)) α} {C : Matrix (Fin m) (Fin n) α} (hA : a.arr.IsMat A) (hB : b.arr.IsMat B)
    (pa : a.layout.fPrefer = true) (pb : b.layout.fPrefer = true) (oa : a.layout.offset = 0) (ob : b.layout.offset = 0)
    {y : Mutable α} (y1 : productOut dflt m n c = .ok y) (i1 : loadMat y.view.data 0 m m n = .ok C) :
    gemmInternal lib dflt alpha beta ta tb a b c =
      (y.setData (storeMat y.view.data 0 m (lib.gemm ta tb m n k alpha A B beta C))).cloneToMut dflt := by
  obtain ⟨ra, ca⟩ := rows_ne hm hk ta
  obtain ⟨rb, cb⟩ := rows_ne hk hn tb
  obtain ⟨lda, l1, l2, l3⟩ := lead_io ha hA ra ca pa oa
  obtain ⟨ldb, k1, k2, k3⟩ := lead_io hb hB rb cb pb ob
  obtain ⟨d1, d2⟩ := op_dims hA.1
  obtain ⟨d4, d3⟩ := op_dims hB.1
  unfold gemmInternal
  simp only [pa, pb, Bool.not_true, Bool.false_eq_true, if_false, d4]
  generalize opRows ta a.layout = m' at d1 ⊢
  generalize opCols ta a.layout = k' at d2 ⊢
  generalize opCols tb b.layout = n' at d3 ⊢
  subst d1 d2 d3
  simp only [l1, k1, ok_bind, ne_eq, not_true_eq_false, if_false, y1, blasLd_ok l2, blasLd_ok k2,
    blasLd_ok (show (max 1 m' : Int) ≤ m' by omega), l3, k3, i1]

theorem gemmInternal_ok [Zero α] (lib : Blas3 α) (dflt : Order) (alpha beta : α) (ta tb : Trans) {a b : Tensor α} {c : Option (Tensor α)} (ha : a.WF) (hb : b.WF)
    {m n k : Nat} (hm : m ≠ 0) (hn : n ≠ 0) (hk : k ≠ 0) {A : Matrix (Fin (ta.rows m k)) (Fin (ta.cols m k)) α}
    {B : Matrix (Fin (tb.rows k n)) (Fin (tb.cols k n)) α} {C : Matrix (Fin m) (Fin n) α} (hA : a.arr.IsMat A) (hB : b.arr.IsMat B) (hC : OutIs c C)
    (pa : a.layout.fPrefer = true) (pb : b.layout.fPrefer = true) (oa : a.layout.offset = 0) (ob : b.layout.offset = 0) :
    ∃ x, gemmInternal lib dflt alpha beta ta tb a b c = .ok x ∧ Leaves (outRef m n c) x (lib.gemm ta tb m n k alpha A B beta C) := by
  obtain ⟨y, y1, y2, y3, y4, y5⟩ := productOut_ok dflt hm hn hC
  obtain ⟨i1, i2⟩ := seq_io y2.wf y2.mat hm y3
  obtain ⟨w1, w2, w3⟩ := i2 (lib.gemm ta tb m n k alpha A B beta C)
  obtain ⟨x, x1, x2, -⟩ := finish_ok dflt y4 y2 y5 w1 w2 w3
  exact ⟨x, (gemmInternal_raw lib dflt alpha beta ta tb ha hb hm hn hk hA hB pa pb oa ob y1 i1).trans x1, x2⟩

theorem gemmRun_eq [Star α] [Zero α] (lib : Blas3 α) (dflt : Order) (alpha beta : α) (ta tb : Trans) (order : Option Order) (a b : Tensor α)
    (c : Option (Tensor α)) : ∃ o, gemmRun lib dflt alpha beta ta tb order a b c = (do
      let (ta', a') ← flipTrans dflt o ta a
      let (tb', b') ← flipTrans dflt o tb b
      match o with
        | .F => gemmInternal lib dflt alpha beta ta' tb' a' b' c
        | .C => do
          let x ← gemmInternal lib dflt alpha beta tb' ta' b'.flipped a'.flipped (c.map Tensor.flipped)
          return x.flipped) := by
  unfold gemmRun
  generalize outputOrder [] dflt [order.map orderFlags, c.map fun c => prefFlags c.layout] = o
  exact ⟨o, by cases o <;> rfl⟩

theorem gemm_orders [Field α] [StarRing α] (lib : Blas3 α) (hl : GemmDoc lib.gemm) (dflt : Order) (alpha beta : α) (o : Order) (ta tb : Trans)
    {a b : Tensor α} {c : Option (Tensor α)} (ha : a.WF) (hb : b.WF) {m n k : Nat} (hm : m ≠ 0) (hn : n ≠ 0) (hk : k ≠ 0)
    {A : Matrix (Fin (ta.rows m k)) (Fin (ta.cols m k)) α} {B : Matrix (Fin (tb.rows k n)) (Fin (tb.cols k n)) α} {C : Matrix (Fin m) (Fin n) α}
    (hA : a.arr.IsMat A) (hB : b.arr.IsMat B) (hC : OutIs c C) (pa : Prefers o a.layout) (pb : Prefers o b.layout) (oa : a.layout.offset = 0)
    (ob : b.layout.offset = 0) :
    ∃ x, (match o with
        | .F => gemmInternal lib dflt alpha beta ta tb a b c
        | .C => do
          let x ← gemmInternal lib dflt alpha beta tb ta b.flipped a.flipped (c.map Tensor.flipped)
          return x.flipped) = .ok x ∧ x.view.WF ∧ x.view.arr.IsMat (alpha • (ta.op A * tb.op B) + beta • C) ∧
      ∀ c0, c = some c0 → ResultIn ⟨c0, true⟩ x.view := by
  cases o with
  | F =>
    obtain ⟨x, x1, x2⟩ := gemmInternal_ok lib dflt alpha beta ta tb ha hb hm hn hk hA hB hC pa pb oa ob
    rw [hl] at x2
    refine ⟨x, x1, x2.wf, x2.mat, ?_⟩
    rintro c0 rfl
    obtain ⟨d, rfl, h⟩ := x2.shared rfl
    exact ⟨fun _ => rfl, fun _ => h⟩
  | C =>
    have hq : ∀ {a : Tensor α}, Prefers .C a.layout → a.flipped.layout.fPrefer = true := fun {a} hp => by
      show a.layout.reverseAxes.fPrefer = true
      rw [← cPrefer_rev]; exact hp
    obtain ⟨A', a1, a2⟩ := flipped_op ha hA
    obtain ⟨B', b1, b2⟩ := flipped_op hb hB
    obtain ⟨x, x1, x2⟩ := gemmInternal_ok lib dflt alpha beta tb ta (flipped_wf hb) (flipped_wf ha) hn hm hk b1 a1 (hC.flip hm hn) (hq pb) (hq pa) ob oa
    have e : lib.gemm tb ta n m k alpha B' A' beta C.transpose = (alpha • (ta.op A * tb.op B) + beta • C).transpose := by
      rw [hl, a2, b2, Matrix.transpose_add, Matrix.transpose_smul, Matrix.transpose_smul, Matrix.transpose_mul]
    rw [e] at x2
    have hv : x.flipped.view = x.view.flipped := by cases x <;> rfl
    refine ⟨x.flipped, ?_, hv ▸ flipped_wf x2.wf, ?_, ?_⟩
    · show (do
        let x ← gemmInternal lib dflt alpha beta tb ta b.flipped a.flipped (c.map Tensor.flipped)
        return x.flipped) = _
      rw [x1]; rfl
    · have := flipped_mat x2.wf x2.mat
      rw [Matrix.transpose_transpose] at this
      rw [hv]; exact this
    · rintro c0 rfl
      have x3 : Leaves (TRef.flipped ⟨c0, true⟩) x _ := x2
      obtain ⟨d, h1, h⟩ := x3.unflip.shared rfl
      rw [h1]
      exact ⟨fun _ => rfl, fun _ => h⟩

/-- The builder `GEMM`: `α op(A) op(B) + β C`, with every combination of its options; without an output `C` counts as zero. A given
output holds the result in the cells it addresses and no other cell changes. Missing: factors in a window of a matrix whose storage
starts elsewhere; an output in such a window or with padded rows or columns (`C74_false_*`); matrices without elements; conjugation without
transposition. -/
theorem C74_product_partial [Field α] [StarRing α] (lib : Blas3 α) (hl : GemmDoc lib.gemm) (dflt : Order) (alpha beta : α) (ta tb : Trans)
    (order : Option Order) (a b : Tensor α) (c : Option (Tensor α)) (ha : a.WF) (hb : b.WF) {m n k : Nat} (hm : m ≠ 0) (hn : n ≠ 0) (hk : k ≠ 0)
    (A : Matrix (Fin (ta.rows m k)) (Fin (ta.cols m k)) α) (B : Matrix (Fin (tb.rows k n)) (Fin (tb.cols k n)) α) (C : Matrix (Fin m) (Fin n) α)
    (hA : a.arr.IsMat A) (hB : b.arr.IsMat B) (hn : c = none → C = 0)
    (hC : ∀ c0, c = some c0 → (⟨c0, true⟩ : TRef α).Ok ∧ c0.arr.IsMat C ∧
      ((∃ o, InSequence o c0.layout.stride c0.layout.offset c0.layout.shape) ∨ (m ≠ 1 ∧ n ≠ 1 ∧ (1 : Int) ∉ c0.layout.stride)))
    (h0 : a.layout.offset = 0 ∨ (m ≠ 1 ∧ k ≠ 1 ∧ (1 : Int) ∉ a.layout.stride))
    (h1 : b.layout.offset = 0 ∨ (k ≠ 1 ∧ n ≠ 1 ∧ (1 : Int) ∉ b.layout.stride)) :
    ∃ x, gemmRun lib dflt alpha beta ta tb order a b c = .ok x ∧ x.view.WF ∧ x.view.arr.IsMat (alpha • (ta.op A * tb.op B) + beta • C) ∧
      ∀ c0, c = some c0 → ResultIn ⟨c0, true⟩ x.view := by
  rename_i hn'
  have ho : OutIs c C := by
    cases c with
    | none => exact hn rfl
    | some c0 =>
      obtain ⟨g1, g2, g3⟩ := hC c0 rfl
      exact ⟨g1, g2, gapless_of hm hn' g2.1 g3⟩
  obtain ⟨ra, ca⟩ := rows_ne hm hk ta
  obtain ⟨rb, cb⟩ := rows_ne hk hn' tb
  have s0 : AtStart a.layout := atStart_of ra ca hA.1 (h0.imp id fun ⟨h, h', h''⟩ => by cases ta; exacts [⟨h, h', h''⟩, ⟨h', h, h''⟩, ⟨h', h, h''⟩])
  have s1 : AtStart b.layout := atStart_of rb cb hB.1 (h1.imp id fun ⟨h, h', h''⟩ => by cases tb; exacts [⟨h, h', h''⟩, ⟨h', h, h''⟩, ⟨h', h, h''⟩])
  obtain ⟨o, e⟩ := gemmRun_eq lib dflt alpha beta ta tb order a b c
  rw [e]
  obtain ⟨ta', a', A', a1, a2, a3, a4, a5, a6⟩ := flipTrans_op dflt o ta ha hm hk hA
  obtain ⟨tb', b', B', b1, b2, b3, b4, b5, b6⟩ := flipTrans_op dflt o tb hb hk hn' hB
  obtain ⟨x, x1, x2, x3, x4⟩ := gemm_orders lib hl dflt alpha beta o ta' tb' a2 b2 hm hn' hk a3 b3 ho a4 b4 (a5 s0) (b5 s1)
  rw [a6, b6] at x3
  refine ⟨x, ?_, x2, x3, x4⟩
  simp only [a1, b1, ok_bind]
  exact x1

/-! ## Shapes that do not fit -/

theorem productOut_reject [Zero α] (dflt : Order) {m n : Nat} {c : Tensor α} (h : c.layout.shape ≠ [m, n]) : productOut dflt m n (some c) = .error .invalidLayout := by
  show (if c.layout.shape ≠ [m, n] then _ else _) = _
  rw [if_pos h]

theorem gemmInternal_reject [Zero α] (lib : Blas3 α) (dflt : Order) (alpha beta : α) (ta tb : Trans) {a b : Tensor α} {c : Option (Tensor α)} (ha : a.WF) (hb : b.WF)
    {m n k k' : Nat} (hm : m ≠ 0) (hn : n ≠ 0) (hk : k ≠ 0) (hk' : k' ≠ 0) {A : Matrix (Fin (ta.rows m k)) (Fin (ta.cols m k)) α}
    {B : Matrix (Fin (tb.rows k' n)) (Fin (tb.cols k' n)) α} (hA : a.arr.IsMat A) (hB : b.arr.IsMat B)
    (pa : a.layout.fPrefer = true) (pb : b.layout.fPrefer = true) (h : k ≠ k' ∨ ∃ c0, c = some c0 ∧ c0.layout.shape ≠ [m, n]) :
    gemmInternal lib dflt alpha beta ta tb a b c = .error .invalidLayout := by
  obtain ⟨ra, ca⟩ := rows_ne hm hk ta
  obtain ⟨rb, cb⟩ := rows_ne hk' hn tb
  obtain ⟨lda, -, -, -, l1, -⟩ := mat_io ha hA ra ca (o := .F) pa
  obtain ⟨ldb, -, -, -, k1, -⟩ := mat_io hb hB rb cb (o := .F) pb
  obtain ⟨d1, d2⟩ := op_dims hA.1
  obtain ⟨d4, d3⟩ := op_dims hB.1
  unfold gemmInternal
  simp only [pa, pb, Bool.not_true, Bool.false_eq_true, if_false, l1, k1, ok_bind, d1, d2, d3, d4]
  by_cases hne : k' ≠ k
  · rw [if_pos hne]
  · rw [if_neg hne]
    obtain ⟨c0, rfl, hc⟩ := h.resolve_left (by omega)
    simp only [productOut_reject dflt hc]
    rfl

/-- Factors that do not fit to each other and an output of another shape are errors. -/
theorem C74_reject_partial [Star α] [Zero α] (lib : Blas3 α) (dflt : Order) (alpha beta : α) (ta tb : Trans)
    (order : Option Order) (a b : Tensor α) (c : Option (Tensor α)) (ha : a.WF) (hb : b.WF) {m n k k' : Nat} (hm : m ≠ 0) (hn : n ≠ 0) (hk : k ≠ 0)
    (hk' : k' ≠ 0) (hA : a.arr.shape = [ta.rows m k, ta.cols m k]) (hB : b.arr.shape = [tb.rows k' n, tb.cols k' n])
    (h : k ≠ k' ∨ ∃ c0, c = some c0 ∧ c0.arr.shape ≠ [m, n]) :
    gemmRun lib dflt alpha beta ta tb order a b c = .error .invalidLayout := by
  obtain ⟨A, hA⟩ := exists_isMat ha hA
  obtain ⟨B, hB⟩ := exists_isMat hb hB
  obtain ⟨o, e⟩ := gemmRun_eq lib dflt alpha beta ta tb order a b c
  rw [e]
  obtain ⟨ta', a', A', a1, a2, a3, a4, -, -⟩ := flipTrans_op dflt o ta ha hm hk hA
  obtain ⟨tb', b', B', b1, b2, b3, b4, -, -⟩ := flipTrans_op dflt o tb hb hk' hn hB
  simp only [a1, b1, ok_bind]
  cases o with
  | F => exact gemmInternal_reject lib dflt alpha beta ta' tb' a2 b2 hm hn hk hk' a3 b3 a4 b4 h
  | C =>
    obtain ⟨A2, q1, -⟩ := flipped_op a2 a3
    obtain ⟨B2, r1, -⟩ := flipped_op b2 b3
    have hq : ∀ {a : Tensor α}, Prefers .C a.layout → a.flipped.layout.fPrefer = true := fun {a} hp => by
      show a.layout.reverseAxes.fPrefer = true
      rw [← cPrefer_rev]; exact hp
    show (do
      let x ← gemmInternal lib dflt alpha beta tb' ta' b'.flipped a'.flipped (c.map Tensor.flipped)
      return x.flipped) = _
    rw [gemmInternal_reject lib dflt alpha beta tb' ta' (flipped_wf b2) (flipped_wf a2) hn hm hk' hk r1 q1 (hq b4) (hq a4) ?_]
    · rfl
    · rcases h with h | ⟨c0, rfl, h⟩
      · exact .inl h.symm
      · refine .inr ⟨c0.flipped, rfl, fun e => h ?_⟩
        have e : c0.layout.reverseAxes.shape = [n, m] := e
        rw [rev_shape] at e
        have := congrArg List.reverse e
        rw [List.reverse_reverse] at this
        exact this

/-! ## Where the property fails -/

def gemA : Tensor ℚ := ⟨[1, 0, 0, 1, 2, 0, 0, 2], ⟨[⟨2, 1⟩, ⟨2, 2⟩], 4⟩⟩
def gemA0 : Tensor ℚ := ⟨[1, 0, 0, 1, 2, 0, 0, 2], ⟨[⟨2, 1⟩, ⟨2, 2⟩], 0⟩⟩
def gemB : Tensor ℚ := ⟨[1, 3, 5, 7], ⟨[⟨2, 1⟩, ⟨2, 2⟩], 0⟩⟩
def gemZ : Tensor ℚ := ⟨[0, 0, 0, 0, 0, 0, 0, 0], ⟨[⟨2, 1⟩, ⟨2, 2⟩], 4⟩⟩

theorem gem_wf : gemA.WF ∧ gemA0.WF ∧ gemB.WF ∧ (⟨gemZ, true⟩ : TRef ℚ).Ok := by
  refine ⟨⟨by decide, rfl⟩, ⟨by decide, rfl⟩, ⟨by decide, rfl⟩, ⟨by decide, rfl⟩, fun _ => by decide⟩

theorem gem_mat : gemA.arr.IsMat !![2, 0; 0, 2] ∧ gemA0.arr.IsMat !![1, 0; 0, 1] ∧ gemB.arr.IsMat !![1, 5; 3, 7] ∧ gemZ.arr.IsMat !![0, 0; 0, 0] := by
  refine ⟨⟨rfl, ?_⟩, ⟨rfl, ?_⟩, ⟨rfl, ?_⟩, ⟨rfl, ?_⟩⟩ <;> decide

theorem gem_prod : (1 : ℚ) • (Trans.N.op (m := 2) (k := 2) (!![1, 0; 0, 1] : Matrix (Fin 2) (Fin 2) ℚ) * Trans.N.op (m := 2) (k := 2) (!![1, 5; 3, 7] : Matrix (Fin 2) (Fin 2) ℚ)) + (0 : ℚ) • 0 = !![1, 5; 3, 7] := by
  rw [one_smul, smul_zero, add_zero]
  ext i j
  show ((!![1, 0; 0, 1] : Matrix (Fin 2) (Fin 2) ℚ) * (!![1, 5; 3, 7] : Matrix (Fin 2) (Fin 2) ℚ)) i j = _
  rw [Matrix.mul_apply, Fin.sum_univ_two]
  fin_cases i <;> fin_cases j <;> simp

/-- The pointers to the storage of the factors are passed on without the offsets: the second matrix of a stack is taken for the first one. -/
theorem C74_false_offset (lib : Blas3 ℚ) (hl : GemmDoc lib.gemm) : gemA.WF ∧ gemB.WF ∧
    gemA.arr.IsMat (!![2, 0; 0, 2] : Matrix (Fin 2) (Fin 2) ℚ) ∧ gemB.arr.IsMat (!![1, 5; 3, 7] : Matrix (Fin 2) (Fin 2) ℚ) ∧
    ∃ x, gemmRun lib .F 1 0 .N .N none gemA gemB none = .ok x ∧ x.view.arr.IsMat (!![1, 5; 3, 7] : Matrix (Fin 2) (Fin 2) ℚ) := by
  refine ⟨gem_wf.1, gem_wf.2.2.1, gem_mat.1, gem_mat.2.2.1, ?_⟩
  obtain ⟨x, x1, -, x3, -⟩ := C74_product_partial lib hl .F 1 0 .N .N none gemA0 gemB none gem_wf.2.1 gem_wf.2.2.1 (m := 2) (n := 2) (k := 2)
    two_ne_zero two_ne_zero two_ne_zero _ _ 0 gem_mat.2.1 gem_mat.2.2.1 (fun _ => rfl) (fun _ h => by cases h) (.inl rfl) (.inl rfl)
  refine ⟨x, x1, ?_⟩
  have e := gem_prod
  rw [← e]
  exact x3

/-- The same for the output: the product is written over the first matrix of the stack, the second one is left as it is. -/
theorem C74_false_output (lib : Blas3 ℚ) (hl : GemmDoc lib.gemm) : gemA0.WF ∧ gemB.WF ∧ (⟨gemZ, true⟩ : TRef ℚ).Ok ∧
    gemA0.arr.IsMat (!![1, 0; 0, 1] : Matrix (Fin 2) (Fin 2) ℚ) ∧ gemB.arr.IsMat (!![1, 5; 3, 7] : Matrix (Fin 2) (Fin 2) ℚ) ∧
    ∃ x, gemmRun lib .F 1 0 .N .N none gemA0 gemB (some gemZ) = .ok x ∧ x.view.arr.IsMat (0 : Matrix (Fin 2) (Fin 2) ℚ) ∧
      x.view.data = [1, 3, 5, 7, 0, 0, 0, 0] := by
  refine ⟨gem_wf.2.1, gem_wf.2.2.1, gem_wf.2.2.2, gem_mat.2.1, gem_mat.2.2.1, ?_⟩
  have hC : loadMat gemZ.data 0 (2 : Nat) 2 2 = .ok (0 : Matrix (Fin 2) (Fin 2) ℚ) :=
    loadMat_ok fun i j => by fin_cases i <;> fin_cases j <;> exact ⟨by decide, rfl⟩
  have e1 := gemmInternal_raw lib .F 1 0 .N .N gem_wf.2.1 gem_wf.2.2.1 (m := 2) (n := 2) (k := 2) two_ne_zero two_ne_zero two_ne_zero gem_mat.2.1 gem_mat.2.2.1
    rfl rfl rfl rfl (c := some gemZ) (y := .inPlace gemZ) rfl hC
  have e1 := e1.trans (congrArg (fun M : Matrix (Fin 2) (Fin 2) ℚ => Mutable.cloneToMut .F (Mutable.setData (storeMat gemZ.data 0 (2 : Nat) M) (.inPlace gemZ)))
    ((hl .N .N 2 2 2 1 _ _ 0 0).trans gem_prod))
  have hs : storeMat gemZ.data 0 (2 : Nat) (!![1, 5; 3, 7] : Matrix (Fin 2) (Fin 2) ℚ) = [1, 3, 5, 7, 0, 0, 0, 0] := by decide +kernel
  refine ⟨.inPlace ⟨[1, 3, 5, 7, 0, 0, 0, 0], ⟨[⟨2, 1⟩, ⟨2, 2⟩], 4⟩⟩, ?_, ⟨rfl, fun i j => ?_⟩, rfl⟩
  · have e2 : gemmRun lib .F 1 0 .N .N none gemA0 gemB (some gemZ) = gemmInternal lib .F 1 0 .N .N gemA0 gemB (some gemZ) := rfl
    rw [e2, e1]
    simp only [hs]
    rfl
  · fin_cases i <;> fin_cases j <;> rfl

/-- The order that is asked for is not the order of the result. -/
theorem C74_false_order (lib : Blas3 ℚ) : ∃ x, gemmRun lib .F 1 0 .N .N (some .F) gemA0 gemB none = .ok x ∧
    InSequence .C x.view.layout.stride x.view.layout.offset x.view.layout.shape ∧ x.view.layout.stride = [2, 1] := by
  have hC : loadMat (zeros (α := ℚ) 2 2).data 0 (2 : Nat) 2 2 = .ok (0 : Matrix (Fin 2) (Fin 2) ℚ) :=
    loadMat_ok fun i j => by fin_cases i <;> fin_cases j <;> exact ⟨by decide, rfl⟩
  have e1 := gemmInternal_raw lib .F 1 0 .T .T gem_wf.2.2.1 gem_wf.2.1 (m := 2) (n := 2) (k := 2) two_ne_zero two_ne_zero two_ne_zero gem_mat.2.2.1 gem_mat.2.1
    rfl rfl rfl rfl (c := none) (y := .owned (zeros 2 2)) rfl hC
  have e2 : gemmRun lib .F 1 0 .N .N (some .F) gemA0 gemB none = (do
      let x ← gemmInternal lib .F 1 0 .T .T gemB gemA0 none
      return x.flipped) := rfl
  rw [e2, e1]
  refine ⟨_, rfl, fun idx hi => ?_, rfl⟩
  obtain ⟨i, j, rfl, -, -⟩ := of_inRange2 (m := 2) (n := 2) hi
  simp [position, Mutable.view, Mutable.flipped, Tensor.flipped, Layout.stride, Layout.shape, Layout.reverseAxes, Mutable.setData, zeros, Layout.newFContig, mkAxes,
    strideFContig, fStrides, rank, rankC]

/-! ## Cases that meet the hypotheses -/

theorem exact_gemm (α : Type) [Field α] [StarRing α] : GemmDoc (exactBlas α).gemm := fun _ _ _ _ _ _ _ _ _ _ => rfl

/-- Factors of shapes two by three and three by two, one of them transposed and not contiguous; an output with gaps and one without. -/
def gemP : Tensor ℚ := ⟨[1, 2, 3, 4, 5, 6], ⟨[⟨3, 2⟩, ⟨2, 1⟩], 0⟩⟩
def gemQ : Tensor ℚ := ⟨[0, 6, 8, 5, 8, 4, 8, 3, 8, 2, 8, 1], ⟨[⟨3, -4⟩, ⟨2, -2⟩], 11⟩⟩
def gemR : Tensor ℚ := ⟨[1, 9, 2, 9, 3, 9, 4], ⟨[⟨2, 4⟩, ⟨2, 2⟩], 0⟩⟩

theorem gemP_wf : gemP.WF ∧ gemQ.WF ∧ (⟨gemR, true⟩ : TRef ℚ).Ok :=
  ⟨⟨by decide, rfl⟩, ⟨by decide, rfl⟩, ⟨by decide, rfl⟩, fun _ => by decide⟩

theorem gemP_mat : gemP.arr.IsMat !![1, 2; 3, 4; 5, 6] ∧ gemQ.arr.IsMat !![1, 2; 3, 4; 5, 6] ∧ gemR.arr.IsMat !![1, 2; 3, 4] := by
  refine ⟨⟨rfl, ?_⟩, ⟨rfl, ?_⟩, ⟨rfl, ?_⟩⟩ <;> decide

example (o : Option Order) (d : Order) := C74_product_partial (exactBlas ℚ) (exact_gemm ℚ) d 2 3 .T .N o gemP gemQ (some gemR) gemP_wf.1 gemP_wf.2.1 (m := 2) (n := 2) (k := 3)
  two_ne_zero two_ne_zero three_ne_zero _ _ _ gemP_mat.1 gemP_mat.2.1 (fun h => by cases h)
  (fun c h => by cases h; exact ⟨gemP_wf.2.2, gemP_mat.2.2, .inr (by decide)⟩) (.inl rfl) (.inr (by decide))
example (o : Option Order) (d : Order) := C74_product_partial (exactBlas ℚ) (exact_gemm ℚ) d 2 3 .N .C o gemP gemQ none gemP_wf.1 gemP_wf.2.1 (m := 3) (n := 3) (k := 2)
  three_ne_zero three_ne_zero two_ne_zero _ _ _ gemP_mat.1 gemP_mat.2.1 (fun _ => rfl) (fun c h => by cases h) (.inl rfl) (.inr (by decide))
example (o : Option Order) (d : Order) := C74_reject_partial (exactBlas ℚ) d 2 3 .N .N o gemP gemQ none gemP_wf.1 gemP_wf.2.1 (m := 3) (n := 2) (k := 2) (k' := 3)
  three_ne_zero two_ne_zero two_ne_zero three_ne_zero rfl rfl (.inl (by decide))
example (o : Option Order) (d : Order) := C74_reject_partial (exactBlas ℚ) d 2 3 .T .N o gemP gemQ (some gemP) gemP_wf.1 gemP_wf.2.1 (m := 2) (n := 2) (k := 3) (k' := 3)
  two_ne_zero two_ne_zero three_ne_zero three_ne_zero rfl rfl (.inr ⟨_, rfl, by decide⟩)

end
end Rstsr
