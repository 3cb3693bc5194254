import Verif.Model.Blas3
import Verif.Proof.LinalgSym
/-!
# Lemmas for the BLAS level 3 builders
-/
namespace Rstsr
open Spec

section
variable {α : Type}

/-! ## Orders of storage -/

theorem prefersB_iff {o : Order} {l : Layout} : prefersB o l = true ↔ Prefers o l := by cases o <;> exact Iff.rfl

/-- The elements of a matrix stand one after the other. -/
def Seq2 (o : Order) (m n : Nat) (l : Layout) : Prop := match o with
  | .F => ∀ i < m, ∀ j < n, l.addr [i, j] = i + j * m
  | .C => ∀ i < m, ∀ j < n, l.addr [i, j] = i * n + j

theorem seq2_of {o : Order} {l : Layout} {m n : Nat} (hs : l.shape = [m, n]) (h : InSequence o l.stride l.offset l.shape) : Seq2 o m n l := by
  have key : ∀ i < m, ∀ j < n, l.addr [i, j] = (rank o [m, n] [i, j] : Int) := fun i hi j hj => by
    have := h [i, j] (hs ▸ inRange2.2 ⟨hi, hj⟩)
    rw [hs] at this
    exact this
  cases o with
  | F =>
    intro i hi j hj
    rw [key i hi j hj]
    simp [rank, rankF]; ring
  | C =>
    intro i hi j hj
    rw [key i hi j hj]
    simp [rank, rankC]

theorem addr_pair {l : Layout} {m n : Nat} {s0 s1 : Int} (h : l.axes = [⟨m, s0⟩, ⟨n, s1⟩]) (i j : Nat) :
    l.addr [i, j] = l.offset + (i * s0 + j * s1) := by
  rw [addr_eq, h]; simp [dot]

theorem fresh_axes (o : Order) (m n : Nat) : (freshLayout o [m, n]).offset = 0 ∧
    (freshLayout o [m, n]).axes = match o with | .F => [⟨m, 1⟩, ⟨n, m⟩] | .C => [⟨m, n⟩, ⟨n, 1⟩] := by
  cases o with
  | F => exact ⟨rfl, by show (Layout.newFContig [m, n] 0).axes = _; simp [Layout.newFContig, mkAxes, strideFContig, fStrides]⟩
  | C => exact ⟨rfl, by show (Layout.newCContig [m, n] 0).axes = _; simp [Layout.newCContig, mkAxes, strideCContig, fStrides]⟩

theorem fresh_seq (o : Order) (m n : Nat) : Seq2 o m n (freshLayout o [m, n]) := by
  obtain ⟨h0, h1⟩ := fresh_axes o m n
  cases o <;> · intro i _ j _; rw [addr_pair h1, h0]; simp

/-- A copy of a matrix that the library can read in an order is dense in that order. -/
theorem copyK_keeps (dflt o : Order) {l lo : Layout} {m n : Nat} (hm : m ≠ 0) (hn : n ≠ 0) (hf : Fit [m, n] l) (hp : Prefers o l)
    (h : l.forArrayCopy dflt .K = .ok lo) : Prefers o lo ∧ Seq2 o m n lo ∧ lo.offset = 0 := by
  have hs : lo.shape = [m, n] ∧ lo.offset = 0 := by
    obtain ⟨lo', h1, h2, h3, -⟩ := forArrayCopy_spec dflt hf.valid .K (by simp)
    rw [h] at h1; cases h1
    exact ⟨h2.trans hf.shape, h3.off⟩
  obtain ⟨s0, s1, e⟩ := axes2 hf.shape
  obtain ⟨t0, t1, ht⟩ := axes2 hs.1
  have hno : NoOverlap l.axes := (valid_iff.1 hf.valid).noOverlap (by
    have : dims l.axes = [m, n] := hf.shape
    rw [this]; simp; omega)
  have hplain : (m ≠ 1 → s0 ≠ 0) → (n ≠ 1 → s1 ≠ 0) → Plain l := fun h0 h1 => by
    refine ⟨by rw [hf.shape]; simp; omega, fun x hx hd => ?_⟩
    rw [e] at hx
    simp only [List.mem_cons, List.not_mem_nil, or_false] at hx
    rcases hx with rfl | rfl
    · exact h0 hd
    · exact h1 hd
  cases o with
  | F =>
    obtain ⟨p0, p1⟩ := (fPrefer2 e hm hn).1 hp
    have hk := copyK_packed dflt hf.valid (hplain (fun h => by rw [p0 h]; simp) (fun h => by have := p1 h; omega)) h
    rw [moving_pair e, e, ht] at hk
    have key : (m ≠ 1 → t0 = 1) ∧ (n ≠ 1 → t1 = m) := by
      by_cases h1 : m = 1 <;> by_cases h2 : n = 1
      · simp [h1, h2]
      · have := p1 h2
        have h0 : s1 ≠ 0 := by omega
        simp [h1, h2, pick, Packed, h0] at hk ⊢
        exact hk
      · have := p0 h1
        simp [h1, h2, pick, Packed, this] at hk ⊢
        exact hk
      · have q0 := p0 h1
        have q1 := p1 h2
        have h0 : s1 ≠ 0 := by omega
        have h3 : 1 ≤ s1.natAbs := by omega
        simp [h1, h2, pick, Packed, q0, h0, List.insertionSort, h3] at hk ⊢
        exact hk
    refine ⟨(fPrefer2 ht hm hn).2 ⟨key.1, fun h => by rw [key.2 h]; omega⟩, fun i hi j hj => ?_, hs.2⟩
    rw [addr_pair ht, hs.2]
    have e0 : (i : Int) * t0 = i := by
      by_cases h1 : m = 1
      · have : i = 0 := by omega
        simp [this]
      · rw [key.1 h1]; ring
    have e1 : (j : Int) * t1 = j * m := by
      by_cases h1 : n = 1
      · have : j = 0 := by omega
        simp [this]
      · rw [key.2 h1]
    rw [e0, e1]; ring
  | C =>
    have hp' : l.cPrefer = true := hp
    rw [cPrefer_rev, fPrefer2 (rev2 e) hn hm] at hp'
    obtain ⟨p1, p0⟩ := hp'
    have hk := copyK_packed dflt hf.valid (hplain (fun h => by have := p0 h; omega) (fun h => by rw [p1 h]; simp)) h
    rw [moving_pair e, e, ht] at hk
    have key : (n ≠ 1 → t1 = 1) ∧ (m ≠ 1 → t0 = n) := by
      by_cases h1 : m = 1 <;> by_cases h2 : n = 1
      · simp [h1, h2]
      · have := p1 h2
        simp [h1, h2, pick, Packed, this] at hk ⊢
        exact hk
      · have := p0 h1
        have h0 : s0 ≠ 0 := by omega
        simp [h1, h2, pick, Packed, h0] at hk ⊢
        exact hk
      · have q1 := p1 h2
        have q0 := p0 h1
        have h0 : s0 ≠ 0 := by omega
        have h3 : ¬ s0.natAbs ≤ 1 := by
          subst q1
          have hr : NoOverlap [⟨n, 1⟩, ⟨m, s0⟩] := by
            have := (valid_iff.1 hf.rev.valid).noOverlap (by
              have : dims l.reverseAxes.axes = [n, m] := hf.rev.shape
              rw [this]; simp; omega)
            rwa [rev2 e] at this
          have := noOverlap2 hr (by omega) (by omega) q0
          omega
        simp [h1, h2, pick, Packed, q1, h0, List.insertionSort, h3] at hk ⊢
        exact hk
    refine ⟨?_, fun i hi j hj => ?_, hs.2⟩
    · show lo.cPrefer = true
      rw [cPrefer_rev, fPrefer2 (rev2 ht) hn hm]
      exact ⟨key.1, fun h => by rw [key.2 h]; omega⟩
    · rw [addr_pair ht, hs.2]
      have e0 : (i : Int) * t0 = i * n := by
        by_cases h1 : m = 1
        · have : i = 0 := by omega
          simp [this]
        · rw [key.2 h1]
      have e1 : (j : Int) * t1 = j := by
        by_cases h1 : n = 1
        · have : j = 0 := by omega
          simp [this]
        · rw [key.1 h1]; ring
      rw [e0, e1]; ring

theorem changeContig_ok (dflt : Order) {a : Tensor α} (ha : a.WF) (o : Order) :
    ∃ b, Tensor.changeContig dflt a o = .ok b ∧ b.layout = freshLayout o a.layout.shape ∧ b.WF ∧ a.arr.Same b.arr := by
  obtain ⟨b, b1, hb, b2, b4⟩ := changeLayout_tight dflt ha (freshLayout_tight o a.layout.shape)
    (by simp only [Layout.size, freshLayout_shape])
  refine ⟨b, by cases o <;> exact b1, hb, b2, same_of_seq ?_ b4⟩
  show b.layout.shape = _
  rw [hb, freshLayout_shape]; rfl

/-- The copy stands one element after the other. -/
theorem intoContig_seq (dflt : Order) {a c : Tensor α} (ha : a.WF) {m n : Nat} (hs : a.arr.shape = [m, n]) (hm : m ≠ 0)
    (hn : n ≠ 0) {o : Order} (h : Tensor.intoContig dflt a o = .ok c) : Seq2 o m n c.layout := by
  have hs' : a.layout.shape = [m, n] := hs
  obtain ⟨b, b1, hb, b2, -⟩ := changeContig_ok dflt ha o
  obtain ⟨mn, mx, hbd, -, -⟩ := WF_bounds b2
  unfold Tensor.intoContig at h
  rw [b1] at h
  simp only [ok_bind] at h
  unfold Tensor.intoOwned at h
  simp only [hbd, ok_bind] at h
  rw [hs'] at hb
  by_cases hc : mn = 0 ∧ mx = b.data.length ∧ mx = b.layout.size
  · simp only [if_pos hc] at h
    cases h
    rw [hb]
    exact fresh_seq o m n
  · simp only [if_neg hc] at h
    obtain ⟨c', c1, -⟩ := C35_asarray dflt b b2 .K (by simp)
    rw [c1] at h
    cases h
    unfold Tensor.asarray at c1
    obtain ⟨l, h1, c1⟩ := bind_ok.1 c1
    obtain ⟨_, -, c1⟩ := bind_ok.1 c1
    obtain ⟨_, -, c1⟩ := bind_ok.1 c1
    rw [newF_layout c1]
    rw [hb] at h1
    exact (copyK_keeps dflt o hm hn (fresh_facts o [m, n]).1 (fresh_prefers o hm hn) h1).2.1

/-! ## Transposed tensors -/

theorem flipped_wf {t : Tensor α} (h : t.WF) : t.flipped.WF := by
  have hg := (valid_iff.1 h.fit.valid).good h.1
  refine wf_of_sub h (keeps_reverse t.layout t.layout.reverseAxes hg rfl).1 ?_ h.1 (fun h0 => ?_)
  · intro j hj
    rw [rev_shape] at hj
    refine ⟨j.reverse, by simpa using hj.reverse, ?_⟩
    rw [rev_addr]
    have := hj.length_eq
    simpa [Layout.shape, Layout.ndim] using this
  · obtain ⟨mn, mx, hb, h1, h2⟩ := WF_bounds h
    rw [rev_shape] at h0
    rw [boundsIndex_of_zero (by simpa using h0)] at hb
    cases hb
    exact h2

theorem flipped_flipped (t : Tensor α) : t.flipped.flipped = t := by
  unfold Tensor.flipped; simp only [rev_rev]

theorem flipped_elem {t : Tensor α} {m n : Nat} (hs : t.layout.shape = [m, n]) (ht : t.WF) {i j : Nat} (hi : i < n) (hj : j < m) :
    t.flipped.arr.elem [i, j] = t.arr.elem [j, i] := by
  have h1 : t.flipped.layout.shape = [n, m] := by show t.layout.reverseAxes.shape = _; rw [rev_shape, hs]; rfl
  rw [elem_pos (s := [n, m]) (h1 ▸ (flipped_wf ht).fit) (inRange2.2 ⟨hi, hj⟩), elem_pos (s := [m, n]) (hs ▸ ht.fit) (inRange2.2 ⟨hj, hi⟩)]
  show t.data[t.layout.reverseAxes.pos _]? = _
  rw [rev_pos]
  · rfl
  · have : t.layout.ndim = 2 := by rw [← show t.layout.shape.length = t.layout.ndim by simp [Layout.shape, Layout.ndim], hs]; rfl
    simp [this]

theorem flipped_mat {t : Tensor α} (ht : t.WF) {m n : Nat} {M : Matrix (Fin m) (Fin n) α} (h : t.arr.IsMat M) : t.flipped.arr.IsMat M.transpose := by
  have hs : t.layout.shape = [m, n] := h.1
  refine ⟨?_, fun i j => ?_⟩
  · show t.layout.reverseAxes.shape = _
    rw [rev_shape, hs]; rfl
  · rw [flipped_elem hs ht i.2 j.2]
    exact h.2 j i

theorem flipped_prefers {o : Order} {l : Layout} : Prefers o l.reverseAxes ↔ Prefers (match o with | .C => .F | .F => .C) l := by
  cases o
  · show l.reverseAxes.cPrefer = true ↔ l.fPrefer = true
    rw [cPrefer_rev, rev_rev]
  · show l.reverseAxes.fPrefer = true ↔ l.cPrefer = true
    rw [cPrefer_rev]

theorem flipped_seq {o : Order} {l : Layout} {m n : Nat} (hs : l.shape = [m, n]) (h : Seq2 o m n l) :
    Seq2 (match o with | .C => .F | .F => .C) n m l.reverseAxes := by
  have hn : l.ndim = 2 := by rw [← show l.shape.length = l.ndim by simp [Layout.shape, Layout.ndim], hs]; rfl
  have key : ∀ i j, l.reverseAxes.addr [i, j] = l.addr [j, i] := fun i j => by rw [rev_addr (by simp [hn])]; rfl
  cases o with
  | C =>
    intro i hi j hj
    rw [key, h j hj i hi]; ring
  | F =>
    intro i hi j hj
    rw [key, h j hj i hi]; ring

theorem flipped_cells {l : Layout} {k : Nat} : Addressed l.reverseAxes.stride l.reverseAxes.offset l.reverseAxes.shape k ↔
    Addressed l.stride l.offset l.shape k := by
  have key : ∀ l : Layout, Addressed l.reverseAxes.stride l.reverseAxes.offset l.reverseAxes.shape k → Addressed l.stride l.offset l.shape k := by
    rintro l ⟨idx, h1, h2⟩
    rw [rev_shape] at h1
    refine ⟨idx.reverse, by simpa using h1.reverse, ?_⟩
    have := rev_addr (l := l) (idx := idx) (by have := h1.length_eq; simpa [Layout.shape, Layout.ndim] using this)
    exact this.symm.trans h2
  refine ⟨key l, fun h => key l.reverseAxes ?_⟩
  rw [rev_rev]; exact h

theorem flipped_ok {b : TRef α} (h : b.Ok) : b.flipped.Ok := by
  refine ⟨flipped_wf h.wf, fun hm => ?_⟩
  have := h.writable hm
  show (0 : Int) ∉ b.t.layout.reverseAxes.stride ∨ 0 ∈ b.t.layout.reverseAxes.shape
  rw [rev_shape, List.mem_reverse]
  refine this.imp_left fun this => ?_
  simpa [Layout.stride, Layout.reverseAxes] using this

theorem Leaves.unflip {b : TRef α} {x : Mutable α} {m n : Nat} {X : Matrix (Fin m) (Fin n) α} (h : Leaves b.flipped x X) : Leaves b x.flipped X.transpose := by
  have hv : x.flipped.view = x.view.flipped := by cases x <;> rfl
  refine ⟨hv ▸ flipped_wf h.wf, hv ▸ flipped_mat h.wf h.mat, fun hm => ?_, fun hm => ?_⟩
  · obtain ⟨t, rfl⟩ := h.owned hm
    exact ⟨_, rfl⟩
  · obtain ⟨d, rfl, h2⟩ := h.shared hm
    refine ⟨d, ?_, h2.1, fun k hk => h2.2 k fun hk' => hk (flipped_cells.1 hk')⟩
    show Mutable.inPlace (⟨d, b.t.layout.reverseAxes.reverseAxes⟩ : Tensor α) = _
    rw [rev_rev]

/-! ## Matrices at the start of the storage -/

/-- A matrix that stands one element after the other: what the library reads and writes with its number of rows as leading
dimension. -/
theorem seq_io {t : Tensor α} (ht : t.WF) {m n : Nat} {M : Matrix (Fin m) (Fin n) α} (hM : t.arr.IsMat M) (hm : m ≠ 0)
    (hd : Seq2 .F m n t.layout) :
    loadMat t.data 0 m m n = .ok M ∧ ∀ M' : Matrix (Fin m) (Fin n) α, (⟨storeMat t.data 0 m M', t.layout⟩ : Tensor α).WF ∧
      (⟨storeMat t.data 0 m M', t.layout⟩ : Tensor α).arr.IsMat M' ∧
      ChangedOnly (Addressed t.layout.stride t.layout.offset t.layout.shape) t.data (storeMat t.data 0 m M') := by
  have hs : t.layout.shape = [m, n] := hM.1
  have hf : Fit [m, n] t.layout := hs ▸ ht.fit
  have pe : ∀ (i : Fin m) (j : Fin n), (blasPos false 0 (m : Int) i j).toNat = t.layout.pos [(i : Nat), (j : Nat)] := fun i j => by
    unfold Layout.pos
    rw [hd i i.2 j j.2]
    simp [blasPos]
  have hat : MatAt t.data 0 m M := fun i j => by
    refine ⟨?_, ?_⟩
    · simp only [blasPos, Bool.false_eq_true, if_false, zero_add]; positivity
    · rw [pe]; exact isMat_get ht hM i j
  refine ⟨loadMat_ok hat, fun M' => ?_⟩
  have hw := (storeMat_writes hat (by omega) M').congr (Q := fun k v => ∃ (i : Fin m) (j : Fin n), t.layout.pos [(i : Nat), (j : Nat)] = k ∧ v = M' i j)
    (fun k v => by simp only [pe])
  refine ⟨ht.of_data hw.len, ⟨hs, fun i j => ?_⟩, changed_of hf hw.len fun k hk => hw.keep k ?_⟩
  · rw [elem_pos hf (inRange2.2 ⟨i.2, j.2⟩)]
    exact hw.set _ _ ⟨i, j, rfl, rfl⟩
  · rintro v ⟨i, j, e, -⟩
    exact hk _ (inRange2.2 ⟨i.2, j.2⟩) e

/-- A matrix at the start of the storage. -/
theorem lead_io {t : Tensor α} (ht : t.WF) {m n : Nat} {M : Matrix (Fin m) (Fin n) α} (hM : t.arr.IsMat M) (hm : m ≠ 0) (hn : n ≠ 0)
    (hp : t.layout.fPrefer = true) (h0 : t.layout.offset = 0) :
    ∃ ld, ldUnwrap t.layout .F = .ok ld ∧ (max 1 m : Int) ≤ ld ∧ loadMat t.data 0 ld m n = .ok M := by
  obtain ⟨ld, w, off', ld', h1, h2, h3, h4, -⟩ := mat_io ht hM hm hn (o := .F) hp
  simp only [matIn, Except.ok.injEq, Prod.mk.injEq] at h2
  obtain ⟨rfl, rfl, rfl⟩ := h2
  rw [h0] at h4
  exact ⟨ld, h1, h3, h4⟩

theorem blasLd_ok {ld : Int} {m : Nat} (h : (max 1 m : Int) ≤ ld) : blasLd ld m = .ok () := by
  unfold blasLd; rw [if_neg (by omega)]

/-! ## Arguments that are only read -/

/-- A copy is made, or the storage starts with the first element. -/
def AtStart (l : Layout) : Prop := l.offset = 0 ∨ ¬ (l.fPrefer || l.cPrefer) = true

theorem AtStart.off {o : Order} {l : Layout} (h : AtStart l) (hp : Prefers o l) : l.offset = 0 := by
  refine h.resolve_right fun h => h ?_
  cases o
  · rw [show l.cPrefer = true from hp]; simp
  · rw [show l.fPrefer = true from hp]; simp

theorem AtStart.flip {l : Layout} (h : AtStart l) : AtStart l.reverseAxes := by
  rcases h with h | h
  · exact .inl h
  · right
    intro h'
    apply h
    have e1 : l.reverseAxes.cPrefer = l.fPrefer := by rw [cPrefer_rev, rev_rev]
    have e2 : l.reverseAxes.fPrefer = l.cPrefer := by rw [cPrefer_rev]
    rw [e1, e2, Bool.or_comm] at h'
    exact h'

/-- The other flag and the matrix that goes with it. -/
def Turned [Star α] (t t' : Trans) {m n : Nat} (A : Matrix (Fin m) (Fin n) α) (A' : Matrix (Fin n) (Fin m) α) : Prop := match t with
  | .N => t' = .T ∧ A' = A.transpose
  | .T => t' = .N ∧ A' = A.transpose
  | .C => t' = .N ∧ A' = A.conjTranspose

theorem Turned.ne [Star α] {t t' : Trans} {m n : Nat} {A : Matrix (Fin m) (Fin n) α} {A' : Matrix (Fin n) (Fin m) α} (h : Turned t t' A A') : t' ≠ t := by
  cases t <;> (rw [h.1]; simp)

/-- The tensor passed in place of `a`: the matrix or, with the other flag, its (conjugate) transpose. -/
theorem flipTrans_ok [Star α] (dflt o : Order) (t : Trans) {a : Tensor α} (ha : a.WF) {m n : Nat} {A : Matrix (Fin m) (Fin n) α} (hA : a.arr.IsMat A) :
    (∃ a', flipTrans dflt o t a = .ok (t, a') ∧ a'.WF ∧ a'.arr.IsMat A ∧ Prefers o a'.layout ∧ (AtStart a.layout → a'.layout.offset = 0)) ∨
    ∃ t' a' A', flipTrans dflt o t a = .ok (t', a') ∧ a'.WF ∧ a'.arr.IsMat A' ∧ Prefers o a'.layout ∧
      (AtStart a.layout → a'.layout.offset = 0) ∧ Turned t t' A A' := by
  by_cases hp : Prefers o a.layout
  · left
    refine ⟨a, ?_, ha, hA, hp, fun h0 => h0.off hp⟩
    unfold flipTrans; rw [if_pos (prefersB_iff.2 hp)]
  · right
    obtain ⟨hm, hn⟩ : m ≠ 0 ∧ n ≠ 0 := by
      have hz : 0 ∉ a.layout.shape := fun h => hp (prefers_of_empty o h)
      rw [show a.layout.shape = [m, n] from hA.1] at hz
      simp only [List.mem_cons, List.not_mem_nil, or_false, not_or] at hz
      exact ⟨fun e => hz.1 e.symm, fun e => hz.2 e.symm⟩
    have hw := flipped_wf ha
    have hM := flipped_mat ha hA
    have key : ∃ v, orPanic (a.flipped.changePrefer dflt o) = .ok v ∧ a.flipped.changePrefer dflt o = .ok v ∧ v.WF ∧ v.arr.IsMat A.transpose ∧
        Prefers o v.layout ∧ (AtStart a.layout → v.layout.offset = 0) := by
      unfold Tensor.changePrefer
      by_cases hq : prefersB o a.flipped.layout = true
      · rw [if_pos hq]
        exact ⟨_, rfl, rfl, hw, hM, prefersB_iff.1 hq, fun h0 => h0.flip.off (prefersB_iff.1 hq)⟩
      · rw [if_neg hq]
        obtain ⟨b, b1, b2, b3, b4⟩ := changeContig_ok dflt hw o
        rw [show a.flipped.layout.shape = [n, m] from hM.1] at b2
        refine ⟨b, by rw [b1]; rfl, b1, b3, isMat_same hM b4, ?_, fun _ => ?_⟩
        · rw [b2]; exact fresh_prefers o hn hm
        · rw [b2]; exact (fresh_axes o n m).1
    obtain ⟨v, v1, v1', v2, v3, v4, v5⟩ := key
    have hp' : ¬ prefersB o a.layout = true := fun h => hp (prefersB_iff.1 h)
    cases t with
    | N => exact ⟨.T, v, _, by unfold flipTrans; rw [if_neg hp']; simp only [v1, ok_bind]; rfl, v2, v3, v4, v5, rfl, rfl⟩
    | T => exact ⟨.N, v, _, by unfold flipTrans; rw [if_neg hp']; simp only [v1, ok_bind]; rfl, v2, v3, v4, v5, rfl, rfl⟩
    | C =>
      obtain ⟨c, c1, c2, c3⟩ := C36_map dflt v star v2
      have hl : ∃ lo, v.layout.forArrayCopy dflt .K = .ok lo ∧ c.layout = lo := by
        have c1' := c1
        unfold Tensor.map at c1'
        obtain ⟨lo, h1, c1'⟩ := bind_ok.1 c1'
        refine ⟨lo, h1, ?_⟩
        unfold Tensor.build at c1'
        obtain ⟨_, -, c1'⟩ := bind_ok.1 c1'
        obtain ⟨_, -, c1'⟩ := bind_ok.1 c1'
        obtain ⟨_, -, c1'⟩ := bind_ok.1 c1'
        exact newF_layout c1'
      obtain ⟨lo, l1, l2⟩ := hl
      obtain ⟨k1, k2, k3⟩ := copyK_keeps dflt o hn hm (v3.1 ▸ v2.fit) v4 l1
      refine ⟨.N, c, _, ?_, c2, ⟨c3.1.trans v3.1, fun i j => ?_⟩, l2 ▸ k1, fun _ => l2 ▸ k3, rfl, rfl⟩
      · unfold flipTrans
        rw [if_neg hp']
        simp only [v1', ok_bind, c1, orPanic]
        rfl
      · obtain ⟨x, x1, x2⟩ := c3.2 [(i : Nat), (j : Nat)] (by rw [v3.1]; exact inRange2.2 ⟨i.2, j.2⟩)
        rw [v3.2 i j] at x1
        rw [x2, ← Option.some.inj x1]
        rfl

/-! ## Arguments that are overwritten -/

theorem seq_prefers {o o' : Order} {l : Layout} {m n : Nat} (hs : l.shape = [m, n]) (hm : m ≠ 0) (hn : n ≠ 0) (h : Seq2 o m n l)
    (hp : Prefers o' l) : Seq2 o' m n l := by
  obtain ⟨s0, s1, e⟩ := axes2 hs
  cases o <;> cases o'
  · exact h
  · obtain ⟨p0, p1⟩ := (fPrefer2 e hm hn).1 hp
    by_cases h2 : n = 1
    · intro i hi j hj
      have : j = 0 := by omega
      rw [h i hi j hj, this, h2]; simp
    · by_cases h1 : m = 1
      · intro i hi j hj
        have : i = 0 := by omega
        rw [h i hi j hj, this, h1]; simp
      · exfalso
        have a0 := h 0 (by omega) 0 (by omega)
        have a1 := h 1 (by omega) 0 (by omega)
        rw [addr_pair e, p0 h1] at a0 a1
        simp at a0 a1
        omega
  · have hp : l.cPrefer = true := hp
    rw [cPrefer_rev, fPrefer2 (rev2 e) hn hm] at hp
    obtain ⟨p1, p0⟩ := hp
    by_cases h2 : n = 1
    · intro i hi j hj
      have : j = 0 := by omega
      rw [h i hi j hj, this, h2]; simp
    · by_cases h1 : m = 1
      · intro i hi j hj
        have : i = 0 := by omega
        rw [h i hi j hj, this, h1]; simp
      · exfalso
        have a0 := h 0 (by omega) 0 (by omega)
        have a1 := h 0 (by omega) 1 (by omega)
        rw [addr_pair e, p1 h2] at a0 a1
        simp at a0 a1
        omega
  · exact h

theorem convertSeq_ok (dflt : Order) {b : TRef α} (hb : b.Ok) {m n : Nat} {B : Matrix (Fin m) (Fin n) α} (hB : b.t.arr.IsMat B)
    (hm : m ≠ 0) (hn : n ≠ 0) (h0 : b.mutable = true → b.t.layout.fPrefer = true → Seq2 .F m n b.t.layout) :
    ∃ x, overwritableConvertWithOrder dflt b .F = .ok x ∧ Stands b x B ∧ Seq2 .F m n x.view.layout := by
  obtain ⟨c, c1, -⟩ := intoContig_ok dflt hb.wf .F
  have c4 := intoContig_seq dflt hb.wf hB.1 hm hn c1
  obtain ⟨x, x1, x2, x3⟩ := convertOrder_ok dflt hb hB .F
  refine ⟨x, x1, x2, ?_⟩
  unfold overwritableConvertWithOrder at x1
  rw [c1] at x1
  by_cases h1 : b.mutable = true
  · rw [if_neg (by simp [h1])] at x1
    by_cases h2 : (Order.F = .F ∧ b.t.layout.fPrefer = true) ∨ (Order.F = .C ∧ b.t.layout.cPrefer = true)
    · rw [if_pos h2] at x1
      cases x1
      exact h0 h1 (by simpa using h2)
    · rw [if_neg h2] at x1
      cases x1
      exact c4
  · rw [if_pos (by simp [h1])] at x1
    cases x1
    exact c4

end
end Rstsr
