import Verif.Proof.Tri
/-!
# Theorems on packed triangles: C45 `pack_tri`, `unpack_tri`
-/
namespace Rstsr
open Spec

section
variable {α : Type}

theorem dimSplitAt_pos {l : Layout} {core bl : List Nat} (h : l.shape = core ++ bl) {n : Int} (hn : n = core.length) :
    l.dimSplitAt n = .ok (⟨l.axes.take core.length, l.offset⟩, ⟨l.axes.drop core.length, l.offset⟩) := by
  have hl : l.ndim = core.length + bl.length := by
    have := congrArg List.length h
    simpa [Layout.shape, Layout.ndim] using this
  unfold Layout.dimSplitAt
  have e : (if n < 0 then (l.ndim : Int) + n else n) = (core.length : Int) := by rw [if_neg (by omega)]; omega
  dsimp only
  rw [e, if_pos ⟨by omega, by omega⟩]
  rfl

theorem triOut_fresh (dev : Order) (lb : Layout) (s : List Nat) : ∃ o, triOut dev lb s = freshLayout o s := by
  unfold triOut
  cases lb.cPrefer <;> cases lb.fPrefer <;> cases dev <;> first | exact ⟨.C, rfl⟩ | exact ⟨.F, rfl⟩

theorem triIndex_flip (uplo : UpLo) (n i j : Nat) : triIndex .C (flipUplo uplo) n i j = triIndex .F uplo n j i := by
  cases uplo <;> rfl

theorem inTri_flip (uplo : UpLo) (i j : Nat) : InTri (flipUplo uplo) i j ↔ InTri uplo j i := by
  cases uplo <;> rfl

/-- What a fresh output of shape `s` gives, for either order. -/
theorem fresh_facts (o : Order) (s : List Nat) : Fit s (freshLayout o s) ∧
    (∀ idx, InRange idx (freshLayout o s).shape → (freshLayout o s).pos idx < (freshLayout o s).size) ∧
    (∀ i j, InRange i (freshLayout o s).shape → InRange j (freshLayout o s).shape →
      (freshLayout o s).pos i = (freshLayout o s).pos j → i = j) := by
  have h := freshLayout_tight o s
  refine ⟨?_, h.lt, h.inj⟩
  have := h.fit
  rwa [freshLayout_shape] at this

theorem rev_facts {l : Layout} {s : List Nat} {n : Nat} (h : Fit s l) (h1 : ∀ idx, InRange idx l.shape → l.pos idx < n)
    (h2 : ∀ i j, InRange i l.shape → InRange j l.shape → l.pos i = l.pos j → i = j) :
    Fit s.reverse l.reverseAxes ∧ (∀ idx, InRange idx l.reverseAxes.shape → l.reverseAxes.pos idx < n) ∧
    (∀ i j, InRange i l.reverseAxes.shape → InRange j l.reverseAxes.shape → l.reverseAxes.pos i = l.reverseAxes.pos j → i = j) := by
  have key : ∀ idx, InRange idx l.reverseAxes.shape → InRange idx.reverse l.shape ∧ l.reverseAxes.pos idx = l.pos idx.reverse := by
    intro idx hi
    rw [rev_shape] at hi
    have := hi.reverse
    rw [List.reverse_reverse] at this
    exact ⟨this, rev_pos (by have := hi.length_eq; simpa [Layout.shape, Layout.ndim] using this)⟩
  refine ⟨h.rev, fun idx hi => ?_, fun i j hi hj e => ?_⟩
  · rw [(key idx hi).2]; exact h1 _ (key idx hi).1
  · rw [(key i hi).2, (key j hj).2] at e
    exact List.reverse_injective (h2 _ _ (key i hi).1 (key j hj).1 e)

theorem inRange_one {k m : Nat} : InRange [k] [m] ↔ k < m := by simp [InRange]

theorem rev_core {l : Layout} {core bl : List Nat} (h : l.shape = core ++ bl) {b c : List Nat} (hb : InRange b bl.reverse)
    (hc : InRange c core.reverse) :
    l.reverseAxes.pos (b ++ c) = l.pos (c.reverse ++ b.reverse) ∧ InRange (c.reverse ++ b.reverse) l.shape := by
  have hb' := hb.reverse
  have hc' := hc.reverse
  rw [List.reverse_reverse] at hb' hc'
  have hr : InRange (c.reverse ++ b.reverse) l.shape := by
    rw [h]; exact (inRange_append hc'.length_eq).2 ⟨hc', hb'⟩
  refine ⟨?_, hr⟩
  rw [rev_pos, List.reverse_append]
  have := hr.length_eq
  simp only [List.length_append, List.length_reverse, Layout.shape, List.length_map] at this ⊢
  unfold Layout.ndim
  omega

/-- `pack_tri`: on the serial device and under every schedule of the parallel one, every execution ends with a tensor
that holds the elements of the triangle of every matrix, row after row on a row-major device, column after column on
a column-major one. -/
theorem C45_pack (dflt dev : Order) (par : Option Scheduler) (hp : Device par) (t : Tensor α) (ht : t.WF) (uplo : UpLo)
    (bl : List Nat) (n : Nat) (hs : t.arr.shape = glue dev bl [n, n]) (hz : 0 ∉ t.arr.shape) :
    ∃ r, Delivers (t.packTri dflt dev par uplo) r ∧ r.WF ∧ PackOf dev uplo bl n t.arr r.arr := by
  have hs' : t.layout.shape = glue dev bl [n, n] := hs
  have hbl : 0 ∉ bl ∧ 0 < n := by
    rw [hs] at hz
    cases dev <;> simp [glue] at hz <;> exact ⟨by simp [hz], by omega⟩
  obtain ⟨hbl, hn⟩ := hbl
  have hns := triSize_pos hn
  have hfit : Fit (glue dev bl [n, n]) t.layout := hs' ▸ ht.fit
  have hne : Nonempty α := by
    have hi : InRange (List.replicate t.layout.shape.length 0) t.layout.shape :=
      inRange_zeros fun d hd => Nat.pos_of_ne_zero (by rintro rfl; exact hz hd)
    obtain ⟨x, -⟩ := ht.get hi
    exact ⟨x⟩
  obtain ⟨x0⟩ := hne
  cases dev with
  | C =>
    simp only [glue] at hs' hfit hs
    obtain ⟨o, ho⟩ := triOut_fresh .C t.layout (bl ++ [n * (n + 1) / 2])
    have T := freshLayout_tight o (bl ++ [n * (n + 1) / 2])
    obtain ⟨f1, f2, f3⟩ := fresh_facts o (bl ++ [n * (n + 1) / 2])
    obtain ⟨one, ra, rb, e, ws, h1, h2⟩ := packPlan_ok dflt uplo (b := t.data) hn hbl f1 hfit f2 f3
      (X := fun b i j => (t.arr.elem (b ++ [i, j])).getD x0) (by
        intro b i j hb hi hj
        obtain ⟨x, x1, x2⟩ := ht.get (idx := b ++ [i, j]) (by
          rw [hs']; exact (inRange_append hb.length_eq).2 ⟨hb, by simp [InRange, hi, hj]⟩)
        rw [x1, x2]; rfl)
    obtain ⟨r, r1, r2, r3, r4⟩ := tri_deliver par hp T (plan := fun lenA => packPlan dflt lenA (freshLayout o (bl ++ [n * (n + 1) / 2])) t.data t.layout uplo) h1 h2
    refine ⟨r, ?_, r2, hs, ?_, ?_⟩
    · have s1 := dimSplitAt_of hs' (n := -2) rfl (by simp)
      have q := split_rest hs'
      have q0 := dimAt_eq _ 0 n (congrArg (·[0]?) q.2)
      have q1 := dimAt_eq _ 1 n (congrArg (·[1]?) q.2)
      have : t.packTri dflt .C par uplo = triFinish par (freshLayout o (bl ++ [n * (n + 1) / 2])) (fun lenA => packPlan dflt lenA (freshLayout o (bl ++ [n * (n + 1) / 2])) t.data t.layout uplo) := by
        unfold Tensor.packTri
        simp only [s1, ok_bind, q0, q1, q.1, ho]
        rw [if_neg (by simp)]
      rw [this]; exact r1
    · show r.layout.shape = _
      rw [r3, freshLayout_shape]; rfl
    · intro b i j hb hi hj hij
      simp only [glue]
      have hr : InRange (b ++ [triIndex .C uplo n i j]) (bl ++ [n * (n + 1) / 2]) :=
        (inRange_append hb.length_eq).2 ⟨hb, inRange_one.2 (triIndex_lt hi hj hij)⟩
      obtain ⟨v, v1, v2⟩ := r4 _ (by rw [freshLayout_shape]; exact hr)
      obtain ⟨x, -, x2⟩ := ht.get (idx := b ++ [i, j]) (by
          rw [hs']; exact (inRange_append hb.length_eq).2 ⟨hb, by simp [InRange, hi, hj]⟩)
      rw [v2, v1 b i j hb hi hj hij rfl, x2]
      rfl
  | F =>
    simp only [glue] at hs' hfit hs
    obtain ⟨o, ho⟩ := triOut_fresh .F t.layout ([n * (n + 1) / 2] ++ bl)
    have T := freshLayout_tight o ([n * (n + 1) / 2] ++ bl)
    obtain ⟨f1, f2, f3⟩ := fresh_facts o ([n * (n + 1) / 2] ++ bl)
    obtain ⟨f1, f2, f3⟩ := rev_facts f1 f2 f3
    have e1 : ([n * (n + 1) / 2] ++ bl).reverse = bl.reverse ++ [triSize n] := by simp [triSize]
    have e2 : ([n, n] ++ bl).reverse = bl.reverse ++ [n, n] := by simp
    have hget : ∀ b i j, InRange b bl.reverse → i < n → j < n →
        t.layout.reverseAxes.pos (b ++ [i, j]) = t.layout.pos ([j, i] ++ b.reverse) ∧ InRange ([j, i] ++ b.reverse) t.layout.shape :=
      fun b i j hb hi hj => rev_core hs' hb (c := [i, j]) (by simp [InRange, hi, hj])
    obtain ⟨one, ra, rb, e, ws, h1, h2⟩ := packPlan_ok dflt (flipUplo uplo) (b := t.data) hn (by simpa using hbl) (e1 ▸ f1) (e2 ▸ hfit.rev) f2 f3
      (X := fun b i j => (t.arr.elem ([j, i] ++ b.reverse)).getD x0) (by
        intro b i j hb hi hj
        obtain ⟨g1, g2⟩ := hget b i j hb hi hj
        obtain ⟨x, x1, x2⟩ := ht.get g2
        rw [g1, x1, x2]; rfl)
    obtain ⟨r, r1, r2, r3, r4⟩ := tri_deliver par hp T (plan := fun lenA => packPlan dflt lenA (freshLayout o ([n * (n + 1) / 2] ++ bl)).reverseAxes t.data t.layout.reverseAxes (flipUplo uplo)) h1 h2.rev
    refine ⟨r, ?_, r2, hs, ?_, ?_⟩
    · have s1 := dimSplitAt_pos hs' (n := 2) rfl
      have q : (⟨t.layout.axes.take 2, t.layout.offset⟩ : Layout).shape = [n, n] ∧
          (⟨t.layout.axes.drop 2, t.layout.offset⟩ : Layout).shape = bl := split_rest hs'
      have q0 := dimAt_eq _ 0 n (congrArg (·[0]?) q.1)
      have q1 := dimAt_eq _ 1 n (congrArg (·[1]?) q.1)
      have : t.packTri dflt .F par uplo = triFinish par (freshLayout o ([n * (n + 1) / 2] ++ bl)) (fun lenA => packPlan dflt lenA (freshLayout o ([n * (n + 1) / 2] ++ bl)).reverseAxes t.data t.layout.reverseAxes (flipUplo uplo)) := by
        unfold Tensor.packTri
        simp only [s1, ok_bind, List.length_cons, List.length_nil, Nat.zero_add, Nat.reduceAdd, q0, q1, q.2, ho]
        rw [if_neg (by simp)]
      rw [this]; exact r1
    · show r.layout.shape = _
      rw [r3, freshLayout_shape]; rfl
    · intro b i j hb hi hj hij
      simp only [glue]
      have hij' : InTri (flipUplo uplo) j i := (inTri_flip _ _ _).2 hij
      have hlt := triIndex_lt hj hi hij'
      rw [triIndex_flip] at hlt
      have hr : InRange ([triIndex .F uplo n i j] ++ b) ([n * (n + 1) / 2] ++ bl) :=
        (inRange_append (i₁ := [_]) (s₁ := [_]) (by simp)).2 ⟨inRange_one.2 hlt, hb⟩
      obtain ⟨v, v1, v2⟩ := r4 _ (by rw [freshLayout_shape]; exact hr)
      obtain ⟨g1, g2⟩ := hget b.reverse j i hb.reverse hj hi
      rw [List.reverse_reverse] at g2
      obtain ⟨x, -, x2⟩ := ht.get g2
      rw [v2, v1 b.reverse j i hb.reverse hj hi hij' (by simp [triIndex_flip]), List.reverse_reverse, x2]
      rfl


/-- `unpack_tri` for a known symmetry: every execution ends with the matrices that have the packed elements in the
triangle, their mirror images on the other side and the diagonal described by `onDiag`. -/
theorem C45_unpack (dflt dev : Order) (par : Option Scheduler) (hp : Device par) (O : TriOps α) (t : Tensor α) (ht : t.WF)
    (uplo : UpLo) {symm : Symm} (hsy : symm ≠ .N) (bl : List Nat) (n : Nat) (hs : t.arr.shape = glue dev bl [triSize n])
    (hz : 0 ∉ t.arr.shape) :
    ∃ r, Delivers (t.unpackTri dflt dev par O uplo symm) r ∧ r.WF ∧ UnpackOf dev O.zero O.neg O.conj uplo symm bl n t.arr r.arr := by
  have hs' : t.layout.shape = glue dev bl [triSize n] := hs
  have hbl : 0 ∉ bl ∧ 0 < n := by
    rw [hs] at hz
    have : 0 ∉ bl ∧ triSize n ≠ 0 := by
      cases dev <;> simp [glue] at hz <;> exact ⟨by simp [hz], by omega⟩
    refine ⟨this.1, Nat.pos_of_ne_zero ?_⟩
    rintro rfl
    exact this.2 rfl
  obtain ⟨hbl, hn⟩ := hbl
  have hsq : isqrt (2 * triSize n) = n := isqrt_tri n
  have hfit : Fit (glue dev bl [triSize n]) t.layout := hs' ▸ ht.fit
  have hne : Nonempty α := by
    have hi : InRange (List.replicate t.layout.shape.length 0) t.layout.shape :=
      inRange_zeros fun d hd => Nat.pos_of_ne_zero (by rintro rfl; exact hz hd)
    obtain ⟨x, -⟩ := ht.get hi
    exact ⟨x⟩
  obtain ⟨x0⟩ := hne
  cases dev with
  | C =>
    simp only [glue] at hs' hfit hs
    obtain ⟨o, ho⟩ := triOut_fresh .C t.layout (bl ++ [n, n])
    have T := freshLayout_tight o (bl ++ [n, n])
    obtain ⟨f1, f2, f3⟩ := fresh_facts o (bl ++ [n, n])
    obtain ⟨one, ra, rb, e, ws, h1, h2⟩ := unpackPlan_ok dflt O uplo hsy (b := t.data) hn hbl f1 hfit f2 f3
      (X := fun b k => (t.arr.elem (b ++ [k])).getD x0) (by
        intro b k hb hk
        obtain ⟨x, x1, x2⟩ := ht.get (idx := b ++ [k]) (by
          rw [hs']; exact (inRange_append hb.length_eq).2 ⟨hb, inRange_one.2 hk⟩)
        rw [x1, x2]; rfl)
    obtain ⟨r, r1, r2, r3, r4⟩ := tri_deliver par hp T (plan := fun lenA => unpackPlan dflt O lenA (freshLayout o (bl ++ [n, n])) t.data t.layout uplo symm) h1 h2
    refine ⟨r, ?_, r2, hs, ?_, ?_⟩
    · have s1 := dimSplitAt_of hs' (n := -1) rfl (by simp)
      have q := split_rest hs'
      have q0 := dimAt_eq _ 0 (triSize n) (congrArg (·[0]?) q.2)
      have : t.unpackTri dflt .C par O uplo symm = triFinish par (freshLayout o (bl ++ [n, n])) (fun lenA => unpackPlan dflt O lenA (freshLayout o (bl ++ [n, n])) t.data t.layout uplo symm) := by
        unfold Tensor.unpackTri
        simp only [s1, ok_bind, q0, hsq, q.1, ho]
        rw [if_neg (by simp [triSize])]
      rw [this]; exact r1
    · show r.layout.shape = _
      rw [r3, freshLayout_shape]; rfl
    · intro b i j v hb hi hj hij hv
      simp only [glue] at hv ⊢
      have hval : ∀ a c, a < n → c < n → r.arr.elem (b ++ [a, c]) =
          some (triVal O uplo symm n (fun k => (t.arr.elem (b ++ [k])).getD x0) a c) := by
        intro a c ha hc
        obtain ⟨v, v1, v2⟩ := r4 (b ++ [a, c]) (by
          rw [freshLayout_shape]; exact (inRange_append hb.length_eq).2 ⟨hb, by simp [InRange, ha, hc]⟩)
        rw [v2, v1 b a c hb ha hc rfl]
      refine ⟨fun hne => ⟨?_, ?_⟩, ?_⟩
      · rw [hval i j hi hj, triVal, if_neg hne, if_pos hij]
        simp [hv]
      · have : ¬ InTri uplo j i := fun h => hne (inTri_antisymm hij h)
        rw [hval j i hj hi, triVal, if_neg (fun h => hne h.symm), if_neg this]
        simp [hv]
      · rintro rfl
        rw [hval i i hi hi, triVal, if_pos rfl]
        simp [hv]
  | F =>
    simp only [glue] at hs' hfit hs
    obtain ⟨o, ho⟩ := triOut_fresh .F t.layout ([n, n] ++ bl)
    have T := freshLayout_tight o ([n, n] ++ bl)
    obtain ⟨f1, f2, f3⟩ := fresh_facts o ([n, n] ++ bl)
    obtain ⟨f1, f2, f3⟩ := rev_facts f1 f2 f3
    have e1 : ([triSize n] ++ bl).reverse = bl.reverse ++ [triSize n] := by simp
    have e2 : ([n, n] ++ bl).reverse = bl.reverse ++ [n, n] := by simp
    obtain ⟨one, ra, rb, e, ws, h1, h2⟩ := unpackPlan_ok dflt O (flipUplo uplo) hsy (b := t.data) hn (by simpa using hbl) (e2 ▸ f1) (e1 ▸ hfit.rev) f2 f3
      (X := fun b k => (t.arr.elem ([k] ++ b.reverse)).getD x0) (by
        intro b k hb hk
        obtain ⟨g1, g2⟩ := rev_core hs' hb (c := [k]) (inRange_one.2 hk)
        obtain ⟨x, x1, x2⟩ := ht.get g2
        rw [g1, x1]
        simp only [List.reverse_singleton] at x2
        rw [x2]; rfl)
    obtain ⟨r, r1, r2, r3, r4⟩ := tri_deliver par hp T (plan := fun lenA => unpackPlan dflt O lenA (freshLayout o ([n, n] ++ bl)).reverseAxes t.data t.layout.reverseAxes (flipUplo uplo) symm) h1 h2.rev
    refine ⟨r, ?_, r2, hs, ?_, ?_⟩
    · have s1 := dimSplitAt_pos hs' (n := 1) rfl
      have q : (⟨t.layout.axes.take 1, t.layout.offset⟩ : Layout).shape = [triSize n] ∧
          (⟨t.layout.axes.drop 1, t.layout.offset⟩ : Layout).shape = bl := split_rest hs'
      have q0 := dimAt_eq _ 0 (triSize n) (congrArg (·[0]?) q.1)
      have : t.unpackTri dflt .F par O uplo symm = triFinish par (freshLayout o ([n, n] ++ bl)) (fun lenA => unpackPlan dflt O lenA (freshLayout o ([n, n] ++ bl)).reverseAxes t.data t.layout.reverseAxes (flipUplo uplo) symm) := by
        unfold Tensor.unpackTri
        simp only [s1, ok_bind, List.length_cons, List.length_nil, Nat.zero_add, q0, hsq, q.2, ho]
        rw [if_neg (by simp [triSize])]
      rw [this]; exact r1
    · show r.layout.shape = _
      rw [r3, freshLayout_shape]; rfl
    · intro b i j v hb hi hj hij hv
      simp only [glue] at hv ⊢
      have hij' : InTri (flipUplo uplo) j i := (inTri_flip _ _ _).2 hij
      have hval : ∀ a c, a < n → c < n → r.arr.elem ([a, c] ++ b) =
          some (triVal O (flipUplo uplo) symm n (fun k => (t.arr.elem ([k] ++ b)).getD x0) c a) := by
        intro a c ha hc
        obtain ⟨v, v1, v2⟩ := r4 ([a, c] ++ b) (by
          rw [freshLayout_shape]; exact (inRange_append (i₁ := [_, _]) (s₁ := [_, _]) (by simp)).2 ⟨by simp [InRange, ha, hc], hb⟩)
        rw [v2, v1 b.reverse c a hb.reverse hc ha (by simp), List.reverse_reverse]
      refine ⟨fun hne => ⟨?_, ?_⟩, ?_⟩
      · rw [hval i j hi hj, triVal, if_neg (fun h => hne h.symm), if_pos hij', triIndex_flip, hv]
        rfl
      · have : ¬ InTri (flipUplo uplo) i j := fun h => hne (inTri_antisymm hij' h).symm
        rw [hval j i hj hi, triVal, if_neg hne, if_neg this, triIndex_flip, hv]
        rfl
      · rintro rfl
        rw [hval i i hi hi, triVal, if_pos rfl, triIndex_flip, hv]
        rfl


/-! ## What is rejected -/

/-- Fewer than two axes, or matrices that are not square. -/
theorem C45_pack_reject (dflt dev : Order) (par : Option Scheduler) (t : Tensor α) (uplo : UpLo) :
    (t.arr.shape.length < 2 → ∃ e, t.packTri dflt dev par uplo = .error e) ∧
    ∀ bl m n, t.arr.shape = glue dev bl [m, n] → m ≠ n → t.packTri dflt dev par uplo = .error .invalidLayout := by
  constructor
  · intro h
    have hl : t.layout.ndim < 2 := by
      have : t.arr.shape.length = t.layout.ndim := by
        show t.layout.shape.length = _
        simp [Layout.shape, Layout.ndim]
      omega
    unfold Tensor.packTri
    have key : ∀ a : Int, a = -2 ∨ a = 2 → ∃ e, t.layout.dimSplitAt a = .error e := by
      intro a ha
      cases hc : t.layout.dimSplitAt a with
      | error e => exact ⟨e, rfl⟩
      | ok p =>
        have := ((C52_split_at t.layout a).1).1 ⟨p, hc⟩
        omega
    cases dev with
    | C =>
      obtain ⟨e, he⟩ := key (-2) (.inl rfl)
      exact ⟨e, by simp only [he]; rfl⟩
    | F =>
      obtain ⟨e, he⟩ := key 2 (.inr rfl)
      exact ⟨e, by simp only [he]; rfl⟩
  · intro bl m n hs hne
    have hs' : t.layout.shape = glue dev bl [m, n] := hs
    cases dev with
    | C =>
      simp only [glue] at hs'
      have s1 := dimSplitAt_of hs' (n := -2) rfl (by simp)
      have q := split_rest hs'
      have q0 := dimAt_eq _ 0 m (congrArg (·[0]?) q.2)
      have q1 := dimAt_eq _ 1 n (congrArg (·[1]?) q.2)
      unfold Tensor.packTri
      simp only [s1, ok_bind, q0, q1]
      rw [if_pos hne]
    | F =>
      simp only [glue] at hs'
      have s1 := dimSplitAt_pos hs' (n := 2) rfl
      have q : (⟨t.layout.axes.take 2, t.layout.offset⟩ : Layout).shape = [m, n] ∧
          (⟨t.layout.axes.drop 2, t.layout.offset⟩ : Layout).shape = bl := split_rest hs'
      have q0 := dimAt_eq _ 0 m (congrArg (·[0]?) q.1)
      have q1 := dimAt_eq _ 1 n (congrArg (·[1]?) q.1)
      unfold Tensor.packTri
      simp only [s1, ok_bind, List.length_cons, List.length_nil, Nat.zero_add, Nat.reduceAdd, q0, q1]
      rw [if_pos hne]

/-- Lengths that are not those of a packed triangle. -/
theorem C45_unpack_reject (dflt dev : Order) (par : Option Scheduler) (O : TriOps α) (t : Tensor α) (uplo : UpLo) (symm : Symm)
    (bl : List Nat) (m : Nat) (hs : t.arr.shape = glue dev bl [m]) (hm : ∀ n, triSize n ≠ m) :
    t.unpackTri dflt dev par O uplo symm = .error .invalidLayout := by
  have hs' : t.layout.shape = glue dev bl [m] := hs
  have hne : isqrt (2 * m) * (isqrt (2 * m) + 1) / 2 ≠ m := hm (isqrt (2 * m))
  cases dev with
  | C =>
    simp only [glue] at hs'
    have s1 := dimSplitAt_of hs' (n := -1) rfl (by simp)
    have q := split_rest hs'
    have q0 := dimAt_eq _ 0 m (congrArg (·[0]?) q.2)
    unfold Tensor.unpackTri
    simp only [s1, ok_bind, q0]
    rw [if_pos hne]
  | F =>
    simp only [glue] at hs'
    have s1 := dimSplitAt_pos hs' (n := 1) rfl
    have q : (⟨t.layout.axes.take 1, t.layout.offset⟩ : Layout).shape = [m] ∧
        (⟨t.layout.axes.drop 1, t.layout.offset⟩ : Layout).shape = bl := split_rest hs'
    have q0 := dimAt_eq _ 0 m (congrArg (·[0]?) q.1)
    unfold Tensor.unpackTri
    simp only [s1, ok_bind, List.length_cons, List.length_nil, Nat.zero_add, q0]
    rw [if_pos hne]

/-! ## Round trips -/

theorem glue_inRange {o : Order} {idx bl core : List Nat} (h : InRange idx (glue o bl core)) :
    ∃ t c, idx = glue o t c ∧ InRange t bl ∧ InRange c core := by
  cases o with
  | C =>
    have hl := h.length_eq
    simp only [glue, List.length_append] at hl h
    have e : idx = idx.take bl.length ++ idx.drop bl.length := (List.take_append_drop _ _).symm
    rw [e, inRange_append (by simp; omega)] at h
    exact ⟨_, _, e, h⟩
  | F =>
    have hl := h.length_eq
    simp only [glue, List.length_append] at hl h
    have e : idx = idx.take core.length ++ idx.drop core.length := (List.take_append_drop _ _).symm
    rw [e, inRange_append (by simp; omega)] at h
    exact ⟨_, _, e, h.2, h.1⟩

theorem triIndex_lt' {o : Order} {uplo : UpLo} {n i j : Nat} (hi : i < n) (hj : j < n) (h : InTri uplo i j) :
    triIndex o uplo n i j < triSize n := by
  cases o with
  | C => exact triIndex_lt hi hj h
  | F => rw [← triIndex_flip]; exact triIndex_lt hj hi ((inTri_flip _ _ _).2 h)

theorem triIndex_surj' (o : Order) (uplo : UpLo) {n k : Nat} (h : k < triSize n) :
    ∃ i j, i < n ∧ j < n ∧ InTri uplo i j ∧ triIndex o uplo n i j = k := by
  cases o with
  | C => exact triIndex_surj uplo h
  | F =>
    obtain ⟨i, j, h1, h2, h3, h4⟩ := triIndex_surj (flipUplo uplo) h
    exact ⟨j, i, h2, h1, (inTri_flip _ _ _).1 h3, by rw [← triIndex_flip]; exact h4⟩

theorem zero_glue {o : Order} {bl core : List Nat} : 0 ∉ glue o bl core ↔ 0 ∉ bl ∧ 0 ∉ core := by
  cases o <;> simp [glue, and_comm]

/-- The place of an element in the packed triangle: different elements of the triangle have different places, and the
places are exactly those below `n (n + 1) / 2`. -/
theorem C45_places (o : Order) (uplo : UpLo) (n : Nat) :
    (∀ i j, i < n → j < n → InTri uplo i j → triIndex o uplo n i j < n * (n + 1) / 2) ∧
    (∀ k < n * (n + 1) / 2, ∃ i j, i < n ∧ j < n ∧ InTri uplo i j ∧ triIndex o uplo n i j = k) ∧
    ∀ i j i' j', i < n → j < n → InTri uplo i j → i' < n → j' < n → InTri uplo i' j' →
      triIndex o uplo n i j = triIndex o uplo n i' j' → i = i' ∧ j = j' := by
  refine ⟨fun i j => triIndex_lt', fun k hk => triIndex_surj' o uplo hk, ?_⟩
  intro i j i' j' h1 h2 h3 h4 h5 h6 e
  cases o with
  | C => exact triIndex_inj h1 h2 h3 h4 h5 h6 e
  | F =>
    rw [← triIndex_flip, ← triIndex_flip] at e
    exact (triIndex_inj h2 h1 ((inTri_flip _ _ _).2 h3) h5 h4 ((inTri_flip _ _ _).2 h6) e).symm

/-- Packing a matrix with a symmetry and unpacking it gives the matrix back. Missing: anti-Hermitian matrices with an
imaginary diagonal, where it fails (`C45_false_antihermitian`), and matrices without elements. -/
theorem C45_round_trip_partial (dflt dev : Order) (par par' : Option Scheduler) (hp : Device par) (hp' : Device par') (O : TriOps α)
    (hneg : ∀ v, O.neg v = v → v = O.zero) (t : Tensor α) (ht : t.WF) (uplo : UpLo) (symm : Symm) (hsy : symm ≠ .N)
    (bl : List Nat) (n : Nat) (hs : t.arr.shape = glue dev bl [n, n]) (hz : 0 ∉ t.arr.shape)
    (hA : HasSymm dev O.neg O.conj symm bl n t.arr)
    (hd : symm = .Ah → ∀ b i, InRange b bl → i < n → t.arr.elem (glue dev b [i, i]) = some O.zero) :
    ∃ p r, Delivers (t.packTri dflt dev par uplo) p ∧ Delivers (p.unpackTri dflt dev par' O uplo symm) r ∧ r.WF ∧
      t.arr.Same r.arr := by
  obtain ⟨p, p1, p2, p3, p4, p5⟩ := C45_pack dflt dev par hp t ht uplo bl n hs hz
  have hz' := hz
  rw [hs, zero_glue] at hz'
  have hn : 0 < n := Nat.pos_of_ne_zero (by have := hz'.2; simp at this; omega)
  obtain ⟨r, r1, r2, r3, r4, r5⟩ := C45_unpack dflt dev par' hp' O p p2 uplo hsy bl n p4 (by
    rw [p4, zero_glue]; have := triSize_pos hn; exact ⟨hz'.1, by simp; omega⟩)
  refine ⟨p, r, p1, r1, r2, by rw [r4, hs], ?_⟩
  intro idx hidx
  obtain ⟨x, -, hx⟩ := ht.get hidx
  refine ⟨x, hx, ?_⟩
  rw [hs] at hidx
  obtain ⟨b, c, rfl, hb, hc⟩ := glue_inRange hidx
  clear hidx
  obtain ⟨i, j, rfl, hi, hj⟩ : ∃ i j, c = [i, j] ∧ i < n ∧ j < n := by
    have hl := hc.length_eq
    match c, hl with
    | [i, j], _ => exact ⟨i, j, rfl, by simpa [InRange] using hc⟩
  by_cases hij : i = j
  · subst hij
    have e := p5 b i i hb hi hi (inTri_refl _ _)
    rw [hx] at e
    rw [(r5 b i i x hb hi hi (inTri_refl _ _) e).2 rfl]
    have hsym := hA b i i x hb hi hi hx
    rw [hx, Option.some.injEq] at hsym
    congr 1
    cases symm with
    | Sy => rfl
    | He => exact hsym.symm
    | Ay => exact (hneg x hsym.symm).symm
    | Ah =>
      have := hd rfl b i hb hi
      rw [hx, Option.some.injEq] at this
      exact this.symm
    | N => exact absurd rfl hsy
  · rcases inTri_total uplo i j with hT | hT
    · have e := p5 b i j hb hi hj hT
      rw [hx] at e
      exact ((r5 b i j x hb hi hj hT e).1 hij).1
    · obtain ⟨y, -, hy⟩ := ht.get (idx := glue dev b [j, i]) (by
        rw [show t.layout.shape = _ from hs]; exact inRange_glue hb (by simp [InRange, hi, hj]))
      have e := p5 b j i hb hj hi hT
      rw [hy] at e
      have h1 := ((r5 b j i y hb hj hi hT e).1 fun h => hij h.symm).2
      have h2 := hA b j i y hb hj hi hy
      rw [h1, ← h2, hx]

/-- Unpacking and packing again gives the packed elements back. Missing: a packed diagonal that a matrix with that
symmetry cannot have (`C45_false_diagonal`), and `FlagSymm::N` (`C45_false_unknown`). -/
theorem C45_unpack_pack_partial (dflt dev : Order) (par par' : Option Scheduler) (hp : Device par) (hp' : Device par') (O : TriOps α)
    (t : Tensor α) (ht : t.WF) (uplo : UpLo) (symm : Symm) (hsy : symm ≠ .N) (bl : List Nat) (n : Nat)
    (hs : t.arr.shape = glue dev bl [triSize n]) (hz : 0 ∉ t.arr.shape)
    (hd : ∀ b i v, InRange b bl → i < n → t.arr.elem (glue dev b [triIndex dev uplo n i i]) = some v →
      onDiag O.zero O.conj symm v = v) :
    ∃ p r, Delivers (t.unpackTri dflt dev par O uplo symm) p ∧ Delivers (p.packTri dflt dev par' uplo) r ∧ r.WF ∧
      t.arr.Same r.arr := by
  obtain ⟨p, p1, p2, p3, p4, p5⟩ := C45_unpack dflt dev par hp O t ht uplo hsy bl n hs hz
  have hz' := hz
  rw [hs, zero_glue] at hz'
  have hn : 0 < n := by
    apply Nat.pos_of_ne_zero
    rintro rfl
    exact hz'.2 (by decide)
  obtain ⟨r, r1, r2, r3, r4, r5⟩ := C45_pack dflt dev par' hp' p p2 uplo bl n p4 (by
    rw [p4, zero_glue]; exact ⟨hz'.1, by simp; omega⟩)
  refine ⟨p, r, p1, r1, r2, by rw [r4, hs], ?_⟩
  intro idx hidx
  obtain ⟨x, -, hx⟩ := ht.get hidx
  refine ⟨x, hx, ?_⟩
  rw [hs] at hidx
  obtain ⟨b, c, rfl, hb, hc⟩ := glue_inRange hidx
  clear hidx
  obtain ⟨k, rfl, hk⟩ : ∃ k, c = [k] ∧ k < triSize n := by
    have hl := hc.length_eq
    match c, hl with
    | [k], _ => exact ⟨k, rfl, by simpa [InRange] using hc⟩
  obtain ⟨i, j, hi, hj, hT, rfl⟩ := triIndex_surj' dev uplo hk
  rw [r5 b i j hb hi hj hT]
  by_cases hij : i = j
  · subst hij
    rw [(p5 b i i x hb hi hi hT hx).2 rfl, hd b i x hb hi hx]
  · exact ((p5 b i j x hb hi hj hT hx).1 hij).1

/-! ## Disagreements -/

/-- Gaussian integers, as pairs. -/
def gauss : TriOps (Int × Int) := ⟨(0, 0), fun z => (-z.1, -z.2), fun z => (z.1, -z.2)⟩

/-- The anti-Hermitian matrix `[[i]]` comes back as `[[0]]`. -/
theorem C45_false_antihermitian : ∃ (t p r : Tensor (Int × Int)), t.WF ∧ t.arr.shape = [1, 1] ∧
    HasSymm .C gauss.neg gauss.conj .Ah [] 1 t.arr ∧
    t.packTri .C .C none .L = .ok (.done p) ∧ p.unpackTri .C .C none gauss .L .Ah = .ok (.done r) ∧
    t.arr.elem [0, 0] = some (0, 1) ∧ r.arr.elem [0, 0] = some (0, 0) := by
  refine ⟨⟨[(0, 1)], ⟨[⟨1, 1⟩, ⟨1, 1⟩], 0⟩⟩, ⟨[(0, 1)], ⟨[⟨1, 1⟩], 0⟩⟩, ⟨[(0, 0)], ⟨[⟨1, 1⟩, ⟨1, 1⟩], 0⟩⟩, ⟨by decide, rfl⟩, rfl, ?_,
    rfl, rfl, rfl, rfl⟩
  intro t i j v ht hi hj hv
  obtain rfl : t = [] := by have := ht.length_eq; simpa using this
  obtain rfl : i = 0 := by omega
  obtain rfl : j = 0 := by omega
  obtain rfl : v = (0, 1) := by
    have : (some ((0 : Int), (1 : Int))) = some v := hv
    simpa using this.symm
  rfl

/-- A packed diagonal element that is not zero is lost. -/
theorem C45_false_diagonal : ∃ (t p r : Tensor (Int × Int)), t.WF ∧ t.arr.shape = [triSize 1] ∧
    t.unpackTri .C .C none gauss .L .Ay = .ok (.done p) ∧ p.packTri .C .C none .L = .ok (.done r) ∧
    t.arr.elem [0] = some (5, 0) ∧ r.arr.elem [0] = some (0, 0) :=
  ⟨⟨[(5, 0)], ⟨[⟨1, 1⟩], 0⟩⟩, ⟨[(0, 0)], ⟨[⟨1, 1⟩, ⟨1, 1⟩], 0⟩⟩, ⟨[(0, 0)], ⟨[⟨1, 1⟩], 0⟩⟩, ⟨by decide, rfl⟩, rfl, rfl, rfl, rfl, rfl⟩

/-- Unpacking without a known symmetry leaves the other triangle unwritten and then takes it as initialized. -/
theorem C45_false_unknown : ∃ t : Tensor (Int × Int), t.WF ∧ t.arr.shape = [triSize 2] ∧
    t.unpackTri .C .C none gauss .L .N = .error .panic :=
  ⟨⟨[(1, 0), (2, 0), (3, 0)], ⟨[⟨3, 1⟩], 0⟩⟩, ⟨by decide, rfl⟩, rfl, rfl⟩

/-! ## The hypotheses are met -/

/-- Two 2 by 2 matrices on a column-major device. -/
def packEx : Tensor Int := ⟨[1, 2, 2, 3, 4, 5, 5, 6], ⟨[⟨2, 1⟩, ⟨2, 2⟩, ⟨2, 4⟩], 0⟩⟩

example : packEx.WF ∧ packEx.arr.shape = glue .F [2] [2, 2] ∧ 0 ∉ packEx.arr.shape := ⟨⟨by decide, rfl⟩, rfl, by decide⟩
example : packEx.packTri .C .F none .U = .ok (.done ⟨[1, 2, 3, 4, 5, 6], ⟨[⟨3, 1⟩, ⟨2, 3⟩], 0⟩⟩) := rfl
example : (⟨[1, 2, 3, 4, 5, 6], ⟨[⟨3, 1⟩, ⟨2, 3⟩], 0⟩⟩ : Tensor Int).unpackTri .C .F none ⟨0, fun v => -v, fun v => v⟩ .U .Sy =
  .ok (.done packEx) := rfl
example : HasSymm .F (fun v : Int => -v) (fun v => v) .Sy [2] 2 packEx.arr := by
  intro t i j v ht hi hj hv
  obtain ⟨k, rfl, hk⟩ : ∃ k, t = [k] ∧ k < 2 := by
    have hl := ht.length_eq
    match t, hl with
    | [k], _ => exact ⟨k, rfl, by simpa [InRange] using ht⟩
  have h1 : i = 0 ∨ i = 1 := by omega
  have h2 : j = 0 ∨ j = 1 := by omega
  have h3 : k = 0 ∨ k = 1 := by omega
  rcases h1 with rfl | rfl <;> rcases h2 with rfl | rfl <;> rcases h3 with rfl | rfl <;> exact hv
example : Device (some halving) := Device.par halving_fits
example : ∀ n, triSize n ≠ 5 := by
  intro n h
  have h1 : n < 4 := by
    by_contra hc
    have : 4 * (4 + 1) / 2 ≤ n * (n + 1) / 2 := Nat.div_le_div_right (Nat.mul_le_mul (by omega) (by omega))
    unfold triSize at h
    omega
  have : n = 0 ∨ n = 1 ∨ n = 2 ∨ n = 3 := by omega
  rcases this with rfl | rfl | rfl | rfl <;> revert h <;> decide
example : ∀ v : Int, -v = v → v = 0 := fun v h => by omega

end
end Rstsr
