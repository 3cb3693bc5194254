import Verif.Model.Tri
import Verif.Thm.Matmul
import Verif.Thm.Copy
import Verif.Proof.Writes
/-!
# Theorems on the triangle functions: C44 `tril`, `triu`
-/
namespace Rstsr
open Spec

section
variable {α : Type}

/-! ## Zeroing a set of columns in every row -/

theorem zeroCell_writes (zero : α) {l m : Layout} {i j : Nat} {idx : List Nat} (hd : l.ndim = 2)
    (he : l.addr [i, j] = m.addr idx) (h0 : 0 ≤ m.addr idx) {c : List α} (hc : m.pos idx < c.length) :
    ∃ c', zeroCell zero l i j c = .ok c' ∧ Writes (fun k v => k = m.pos idx ∧ v = zero) c c' := by
  unfold zeroCell
  rw [indexUncheck_eq (idx := [i, j]) (by simp [hd])]
  simp only [ok_bind, modifyInt, he]
  rw [if_neg (by omega)]
  exact writes_one zero hc

theorem zeroCols_writes (zero : α) {l m : Layout} {b : List Nat} {nr nc n : Nat} (J : Nat → List Nat) (hd : l.ndim = 2)
    (hJ : ∀ i < nr, ∀ j ∈ J i, j < nc) (he : ∀ i < nr, ∀ j < nc, l.addr [i, j] = m.addr (b ++ [i, j]))
    (h0 : ∀ i < nr, ∀ j < nc, 0 ≤ m.addr (b ++ [i, j])) (hn : ∀ i < nr, ∀ j < nc, m.pos (b ++ [i, j]) < n)
    {c : List α} (hc : c.length = n) :
    ∃ c', runAll (fun (i : Nat) raw => runAll (fun j raw => zeroCell zero l i j raw) (J i) raw) (List.range nr) c = .ok c' ∧
      Writes (fun k v => (∃ i < nr, ∃ j ∈ J i, k = m.pos (b ++ [i, j])) ∧ v = zero) c c' := by
  obtain ⟨c', h1, h2⟩ := runAll_writes (n := n) (xs := List.range nr)
    (st := fun (i : Nat) raw => runAll (fun j raw => zeroCell zero l i j raw) (J i) raw)
    (fun i k v => ∃ j ∈ J i, k = m.pos (b ++ [i, j]) ∧ v = zero) (by
      intro i hi c hc
      rw [List.mem_range] at hi
      refine runAll_writes (n := n) (fun j k v => k = m.pos (b ++ [i, j]) ∧ v = zero) ?_ ?_ hc
      · intro j hj c hc
        have hj := hJ i hi j hj
        exact zeroCell_writes zero hd (he i hi j hj) (h0 i hi j hj) (hc ▸ hn i hi j hj)
      · rintro j - j' - k v w ⟨-, rfl⟩ ⟨-, rfl⟩; rfl)
    (by rintro i - i' - k v w ⟨_, _, _, rfl⟩ ⟨_, _, _, rfl⟩; rfl) hc
  refine ⟨c', h1, h2.congr fun k v => ?_⟩
  constructor
  · rintro ⟨i, hi, j, hj, hk, hv⟩
    exact ⟨⟨i, List.mem_range.1 hi, j, hj, hk⟩, hv⟩
  · rintro ⟨⟨i, hi, j, hj, hk⟩, hv⟩
    exact ⟨i, List.mem_range.2 hi, j, hj, hk, hv⟩

/-- The cells of the elements below or above the diagonal with number `k`, as seen by the user. -/
def TriCells (t : Tensor α) (P : Nat → Nat → Prop) (p : Nat) : Prop :=
  ∃ b i j, InRange (b ++ [i, j]) t.arr.shape ∧ P i j ∧ position t.layout.stride t.layout.offset (b ++ [i, j]) = p

/-- Every matrix in the stack: elements with `P` become zero, the others and all other cells stay. -/
structure ZeroedWhere (t c : Tensor α) (zero : α) (P : Nat → Nat → Prop) : Prop where
  wf : c.WF
  layout : c.layout = t.layout
  zeroed : ∀ b i j, InRange (b ++ [i, j]) t.arr.shape → P i j → c.arr.elem (b ++ [i, j]) = some zero
  kept : ∀ b i j, InRange (b ++ [i, j]) t.arr.shape → ¬ P i j → c.arr.elem (b ++ [i, j]) = t.arr.elem (b ++ [i, j])
  only : ChangedOnly (TriCells t P) t.data c.data

/-- No two elements share a cell. -/
def Tensor.Unshared (t : Tensor α) : Prop := ∀ i j, InRange i t.arr.shape → InRange j t.arr.shape →
  position t.layout.stride t.layout.offset i = position t.layout.stride t.layout.offset j → i = j

theorem inRange_pair {nr nc i j : Nat} : InRange [i, j] [nr, nc] ↔ i < nr ∧ j < nc := by
  simp [inRange_cons, InRange]

theorem zeroed_all (zero : α) {t : Tensor α} (ht : t.WF) (hs : t.Settled) (hu : t.Unshared) {bl : List Nat} {nr nc : Nat}
    (hsh : t.arr.shape = bl ++ [nr, nc]) (J : Nat → List Nat) (P : Nat → Nat → Prop)
    (hJ : ∀ i < nr, ∀ j, j ∈ J i ↔ j < nc ∧ P i j)
    {st : Nat → List α → Res (List α)} {rest m : Layout} (hsp : t.layout.dimSplitAt (-2) = .ok (rest, m))
    (hst : ∀ off c, st off c = runAll (fun (i : Nat) raw => runAll (fun j raw => zeroCell zero (m.setOffset off) i j raw) (J i) raw)
      (List.range ((m.setOffset off).dimAt 0)) c) :
    ∃ xs d, colItems rest = .ok xs ∧ runAll st xs t.data = .ok d ∧ ZeroedWhere t ⟨d, t.layout⟩ zero P := by
  have hsh' : t.layout.shape = bl ++ [nr, nc] := hsh
  have hS : t.layout.Settled := ht.fit.settled hs
  have sp := splitAs_of hsh'
  rw [dimSplitAt_of hsh' (by simp) (by simp)] at hsp
  injection hsp with hsp
  simp only [Prod.mk.injEq] at hsp
  obtain ⟨rfl, rfl⟩ := hsp
  set X := t.layout.axes.take bl.length with hX
  set Y := t.layout.axes.drop bl.length with hY
  have hfit : ∀ idx, InRange idx (bl ++ [nr, nc]) → 0 ≤ t.layout.addr idx ∧ t.layout.pos idx < t.data.length := by
    intro idx hi
    rw [← hsh'] at hi
    exact ⟨ht.fit.nonneg idx hi, ht.covers idx hi⟩
  have hcell : ∀ b, InRange b bl → ∀ i < nr, ∀ j < nc, InRange (b ++ [i, j]) (bl ++ [nr, nc]) := by
    intro b hb i hi j hj
    rw [inRange_append hb.length_eq]
    exact ⟨hb, inRange_pair.2 ⟨hi, hj⟩⟩
  have hshX : (⟨X, t.layout.offset⟩ : Layout).shape = bl := sp.dx
  have hnn : NonNegative ⟨X, t.layout.offset⟩ := fun b hb => sp.restNonneg hS (hshX ▸ hb)
  have hax : ∃ a b, Y = [⟨nr, a⟩, ⟨nc, b⟩] := by
    have h2 := sp.dy
    generalize Y = Y at h2
    match Y, h2 with
    | [⟨d, a⟩, ⟨d', b⟩], h => simp [dims] at h; obtain ⟨rfl, rfl⟩ := h; exact ⟨a, b, rfl⟩
  obtain ⟨ya, yb, hYe⟩ := hax
  have hd0 : ∀ off, ((⟨Y, t.layout.offset⟩ : Layout).setOffset off).dimAt 0 = nr := by
    intro off; simp [Layout.setOffset, Layout.dimAt, Layout.shape, hYe]
  have hloop : ∃ d, runAll st (positions .F ⟨X, t.layout.offset⟩) t.data = .ok d ∧
      Writes (fun k v => ∃ b ∈ all .F bl, (∃ i < nr, ∃ j ∈ J i, k = t.layout.pos (b ++ [i, j])) ∧ v = zero) t.data d := by
    rw [positions_eq, runAll_map, hshX]
    refine runAll_writes (n := t.data.length)
      (fun b k v => (∃ i < nr, ∃ j ∈ J i, k = t.layout.pos (b ++ [i, j])) ∧ v = zero) ?_ ?_ rfl
    · intro b hb c hc
      have hb := mem_all.1 hb
      rw [hst, hd0]
      refine zeroCols_writes zero (nc := nc) (n := t.data.length) J ?_ (fun i hi j hj => ((hJ i hi j).1 hj).1) ?_
        (fun i hi j hj => (hfit _ (hcell b hb i hi j hj)).1) (fun i hi j hj => (hfit _ (hcell b hb i hi j hj)).2) hc
      · simp [Layout.setOffset, Layout.ndim, hYe]
      · intro i hi j hj
        rw [sp.addr hb.length_eq, Layout.setOffset, addr_mk]
        have : 0 ≤ (⟨X, t.layout.offset⟩ : Layout).addr b := hnn b (hshX.symm ▸ hb)
        unfold Layout.pos
        rw [Int.toNat_of_nonneg this]
    · rintro b - b' - k v w ⟨-, rfl⟩ ⟨-, rfl⟩; rfl
  obtain ⟨d, e1, e2⟩ := hloop
  have hall : ∀ b i j, InRange (b ++ [i, j]) t.arr.shape → InRange b bl ∧ i < nr ∧ j < nc := by
    intro b i j h
    rw [hsh] at h
    have hl : b.length = bl.length := by
      have := h.length_eq
      simp at this; exact this
    rw [inRange_append hl, inRange_pair] at h
    exact h
  have hW : (⟨d, t.layout⟩ : Tensor α).WF := ht.of_data e2.len
  have hposeq : ∀ a b, InRange a t.arr.shape → InRange b t.arr.shape → t.layout.pos a = t.layout.pos b → a = b := by
    intro a b ha hb e
    apply hu a b ha hb
    have h1 := ht.fit.nonneg a ha
    have h2 := ht.fit.nonneg b hb
    show t.layout.addr a = t.layout.addr b
    unfold Layout.pos at e
    omega
  refine ⟨_, d, colItems_ok hnn, e1, hW, rfl, ?_, ?_, ?_⟩
  · intro b i j h hp
    obtain ⟨hb, hi, hj⟩ := hall b i j h
    rw [elem_pos hW.fit h]
    exact e2.set _ _ ⟨b, mem_all.2 hb, ⟨i, hi, j, (hJ i hi j).2 ⟨hj, hp⟩, rfl⟩, rfl⟩
  · intro b i j h hp
    obtain ⟨hb, hi, hj⟩ := hall b i j h
    rw [elem_pos hW.fit h, elem_pos ht.fit h]
    refine e2.keep _ ?_
    rintro v ⟨b', hb', ⟨i', hi', j', hj', e⟩, -⟩
    have hb' := mem_all.1 hb'
    have hj'' := (hJ i' hi' j').1 hj'
    have := hposeq _ _ h (hsh.symm ▸ hcell b' hb' i' hi' j' hj''.1) e
    have hl : b.length = b'.length := by rw [hb.length_eq, hb'.length_eq]
    obtain ⟨-, e⟩ := List.append_inj this hl
    simp only [List.cons.injEq, and_true] at e
    exact hp (e.1 ▸ e.2 ▸ hj''.2)
  · refine ⟨e2.len, fun k hk => e2.keep k ?_⟩
    rintro v ⟨b, hb, ⟨i, hi, j, hj, rfl⟩, -⟩
    have hj' := (hJ i hi j).1 hj
    have hr := hcell b (mem_all.1 hb) i hi j hj'.1
    refine hk ⟨b, i, j, hsh.symm ▸ hr, hj'.2, ?_⟩
    have := (hfit _ hr).1
    show t.layout.addr _ = _
    unfold Layout.pos
    omega

theorem shape_two {t : Tensor α} (h : 2 ≤ t.layout.ndim) : ∃ bl nr nc, t.arr.shape = bl ++ [nr, nc] := by
  have hl : 2 ≤ t.arr.shape.length := by
    show 2 ≤ t.layout.shape.length
    simpa [Layout.shape, Layout.ndim] using h
  refine ⟨t.arr.shape.take (t.arr.shape.length - 2), ?_⟩
  generalize hs : t.arr.shape = s at hl
  have h2 : (s.drop (s.length - 2)).length = 2 := by simp; omega
  match hd : s.drop (s.length - 2), h2 with
  | [a, b], _ => exact ⟨a, b, by rw [← hd, List.take_append_drop]⟩

/-! ## C44 -/

/-- `tril(k)` of an owned or mutably borrowed stack of matrices. -/
theorem C44_tril (zero : α) (t : Tensor α) (k : Int) (ht : t.WF) (hs : t.Settled) (hu : t.Unshared) (h2 : 2 ≤ t.layout.ndim) :
    ∃ c, Tensor.tril zero t k = .ok c ∧ ZeroedWhere t c zero (fun i j => ¬ (j : Int) ≤ i + k) := by
  obtain ⟨bl, nr, nc, hsh⟩ := shape_two h2
  have hsp := dimSplitAt_of (l := t.layout) hsh (n := -2) (by simp) (by simp)
  have hd1 : ∀ off, ((⟨t.layout.axes.drop bl.length, t.layout.offset⟩ : Layout).setOffset off).dimAt 1 = nc := by
    intro off
    have := (splitAs_of (l := t.layout) hsh).dy
    simp only [Layout.setOffset, Layout.dimAt, Layout.shape]
    unfold dims at this
    rw [this]; rfl
  obtain ⟨xs, d, h3, h4, h5⟩ := zeroed_all zero ht hs hu hsh
    (fun i => List.range' (max ((i : Int) + k + 1) 0).toNat (nc - (max ((i : Int) + k + 1) 0).toNat))
    (fun i j => ¬ (j : Int) ≤ i + k) (by intro i _ j; rw [List.mem_range'_1]; omega) hsp
    (st := fun offset raw => trilIx2 zero raw ((⟨t.layout.axes.drop bl.length, t.layout.offset⟩ : Layout).setOffset offset) k)
    (by intro off c; simp only [trilIx2, hd1])
  refine ⟨_, ?_, h5⟩
  unfold Tensor.tril trilCpu
  rw [hsp]
  simp only [ok_bind, h3, h4]

/-- `triu(k)` of an owned or mutably borrowed stack of matrices. Missing: rows `i` with `i + k` greater than the
number of columns; for those the property is false, see below. -/
theorem C44_triu_partial (zero : α) (t : Tensor α) (k : Int) (ht : t.WF) (hs : t.Settled) (hu : t.Unshared)
    (bl : List Nat) (nr nc : Nat) (hsh : t.arr.shape = bl ++ [nr, nc]) (hk : ∀ i < nr, (i : Int) + k ≤ nc) :
    ∃ c, Tensor.triu zero t k = .ok c ∧ ZeroedWhere t c zero (fun i j => ¬ (i : Int) + k ≤ j) := by
  have hsp := dimSplitAt_of (l := t.layout) hsh (n := -2) (by simp) (by simp)
  obtain ⟨xs, d, h3, h4, h5⟩ := zeroed_all zero ht hs hu hsh
    (fun i => List.range (max ((i : Int) + k) 0).toNat)
    (fun i j => ¬ (i : Int) + k ≤ j) (by
      intro i hi j; rw [List.mem_range]; have := hk i hi; omega) hsp
    (st := fun offset raw => triuIx2 zero raw ((⟨t.layout.axes.drop bl.length, t.layout.offset⟩ : Layout).setOffset offset) k)
    (fun off c => rfl)
  refine ⟨_, ?_, h5⟩
  unfold Tensor.triu triuCpu
  rw [hsp]
  simp only [ok_bind, h3, h4]

/-- Without two axes there is no matrix. -/
theorem C44_reject (zero : α) (t : Tensor α) (k : Int) (h : t.layout.ndim < 2) :
    Tensor.tril zero t k = .error .axisError ∧ Tensor.triu zero t k = .error .axisError := by
  have : t.layout.dimSplitAt (-2) = .error .axisError := by
    unfold Layout.dimSplitAt
    have e : (if (-2 : Int) < 0 then (t.layout.ndim : Int) + -2 else -2) = t.layout.ndim - 2 := by rw [if_pos (by decide)]; omega
    dsimp only
    rw [e, if_neg (by omega)]
  unfold Tensor.tril Tensor.triu trilCpu triuCpu
  rw [this]
  exact ⟨rfl, rfl⟩

/-! ### Views: the work is done on a copy -/

theorem settled_of_pos {l : Layout} (ho : 0 ≤ l.offset) (h : ∀ x ∈ l.axes, 0 ≤ x.str) : l.Settled := by
  intro idx _
  rw [addr_eq]
  have : 0 ≤ dot idx l.axes := by
    generalize l.axes = axes at h
    clear * - h
    induction axes generalizing idx with
    | nil => cases idx <;> simp [dot]
    | cons x axes ih =>
      cases idx with
      | nil => simp [dot]
      | cons i idx =>
        have h1 := ih (idx := idx) (fun y hy => h y (by simp [hy]))
        have h2 : 0 ≤ (i : Int) * x.str := Int.mul_nonneg (by omega) (h x (by simp))
        simp only [dot]; omega
  omega

theorem newF_strides_nonneg (s : List Nat) : ∀ x ∈ (Layout.newFContig s 0).axes, 0 ≤ x.str := by
  have : ∀ (acc : Int) (s : List Nat), 0 ≤ acc → ∀ x ∈ mkAxes s (fStrides acc s), 0 ≤ x.str := by
    intro acc s
    induction s generalizing acc with
    | nil => intro _ x hx; simp [mkAxes] at hx
    | cons d ds ih =>
      intro ha x hx
      rcases List.mem_cons.1 hx with rfl | hx
      · exact ha
      · exact ih _ (Int.mul_nonneg ha (by omega)) x hx
  exact this 1 s (by omega)

theorem forArrayCopy_nonneg {dflt : Order} {l m : Layout} (h : l.forArrayCopy dflt .K = .ok m) : ∀ x ∈ m.axes, 0 ≤ x.str := by
  unfold Layout.forArrayCopy at h
  simp only at h
  obtain ⟨⟨g, p⟩, -, h⟩ := bind_ok.1 h
  simp only at h
  unfold Layout.transpose at h
  split at h
  · cases h
  · obtain ⟨q, -, h⟩ := bind_ok.1 h
    injection h with h
    subst h
    intro x hx
    obtain ⟨a, -, rfl⟩ := List.mem_map.1 hx
    rw [List.getD_eq_getElem?_getD]
    cases e : (Layout.newFContig g.shape 0).axes[a]? with
    | none => show (0 : Int) ≤ 0; omega
    | some y => exact newF_strides_nonneg _ y (List.mem_of_getElem? e)

/-- The copy made for a view: same elements, none shared, in a storage of its own. -/
theorem intoContig_ok (dflt : Order) {a : Tensor α} (ha : a.WF) (o : Order) :
    ∃ c, Tensor.intoContig dflt a o = .ok c ∧ c.WF ∧ a.arr.Same c.arr ∧ c.Settled ∧ c.Unshared := by
  obtain ⟨b, b1, hb, b2, b4⟩ := changeLayout_tight dflt ha (freshLayout_tight o a.layout.shape)
    (by simp only [Layout.size, freshLayout_shape])
  have b3 : a.arr.Same b.arr := same_of_seq (by
    show b.layout.shape = _
    rw [hb, freshLayout_shape]; rfl) b4
  have b1 : Tensor.changeContig dflt a o = .ok b := by cases o <;> exact b1
  have hsb : b.layout.Settled := hb ▸ freshLayout_settled o _
  have hub : b.Unshared := by
    intro i j hi hj e
    have ht := freshLayout_tight o a.layout.shape
    rw [← hb] at ht
    exact ht.inj i j hi hj (by
      unfold Layout.pos
      have e : b.layout.addr i = b.layout.addr j := e
      rw [e])
  obtain ⟨mn, mx, hbd, -, -⟩ := WF_bounds b2
  unfold Tensor.intoContig
  rw [b1]
  simp only [ok_bind]
  unfold Tensor.intoOwned
  simp only [hbd, ok_bind]
  by_cases hc : mn = 0 ∧ mx = b.data.length ∧ mx = b.layout.size
  · simp only [if_pos hc]
    exact ⟨b, rfl, b2, b3, fun _ => hsb, hub⟩
  · simp only [if_neg hc]
    obtain ⟨c, c1, c2, c3, -⟩ := C35_asarray dflt b b2 .K (by simp)
    rw [c1]
    obtain ⟨m, h1, h2, h3, h4⟩ := forArrayCopy_spec dflt b2.fit.valid .K (by simp)
    have hm : c.layout = m := by
      unfold Tensor.asarray at c1
      simp only [h1, ok_bind] at c1
      obtain ⟨_, -, c1⟩ := bind_ok.1 c1
      obtain ⟨_, -, c1⟩ := bind_ok.1 c1
      exact newF_layout c1
    have ht := h3.tight fun hz => h4 (h2 ▸ hz)
    refine ⟨c, rfl, c2, ?_, fun _ => ?_, ?_⟩
    · refine ⟨c3.1.trans b3.1, fun idx hi => ?_⟩
      obtain ⟨x, x1, x2⟩ := b3.2 idx hi
      obtain ⟨y, y1, y2⟩ := c3.2 idx (b3.1 ▸ hi)
      rw [x2] at y1
      injection y1 with y1
      exact ⟨x, x1, y1 ▸ y2⟩
    · rw [hm]
      exact settled_of_pos (by have := h3.off; omega) (forArrayCopy_nonneg h1)
    · intro i j hi hj e
      rw [← hm] at ht
      exact ht.inj i j hi hj (by
        unfold Layout.pos
        have e : c.layout.addr i = c.layout.addr j := e
        rw [e])

/-- The result of `tril` or `triu` of a view or a reference. -/
structure CopiedWhere (A C : Arr α) (zero : α) (P : Nat → Nat → Prop) : Prop where
  shape : C.shape = A.shape
  zeroed : ∀ b i j, InRange (b ++ [i, j]) A.shape → P i j → C.elem (b ++ [i, j]) = some zero
  kept : ∀ b i j, InRange (b ++ [i, j]) A.shape → ¬ P i j → ∃ x, A.elem (b ++ [i, j]) = some x ∧ C.elem (b ++ [i, j]) = some x

theorem copied_of {a x c : Tensor α} {zero : α} {P : Nat → Nat → Prop} (h : a.arr.Same x.arr) (z : ZeroedWhere x c zero P) :
    CopiedWhere a.arr c.arr zero P := by
  have hs : c.arr.shape = a.arr.shape := by
    show c.layout.shape = _
    rw [z.layout]; exact h.1
  refine ⟨hs, fun b i j hr hp => z.zeroed b i j (h.1 ▸ hr) hp, fun b i j hr hp => ?_⟩
  rw [z.kept b i j (h.1 ▸ hr) hp]
  exact h.2 _ hr

/-- `tril(k)` of a view, reference or any shared tensor, stretched or not; the tensor itself is not written. -/
theorem C44_tril_view (dflt dev : Order) (zero : α) (t : Tensor α) (k : Int) (ht : t.WF) (h2 : 2 ≤ t.layout.ndim) :
    ∃ c, Tensor.trilView dflt dev zero t k = .ok c ∧ c.WF ∧ CopiedWhere t.arr c.arr zero (fun i j => ¬ (j : Int) ≤ i + k) := by
  obtain ⟨x, x1, x2, x3, x4, x5⟩ := intoContig_ok dflt ht dev
  have hd : 2 ≤ x.layout.ndim := by
    have := congrArg List.length x3.1
    have h : x.layout.shape.length = t.layout.shape.length := this
    simp only [Layout.shape, List.length_map] at h
    show 2 ≤ x.layout.axes.length
    rw [h]; exact h2
  obtain ⟨c, c1, c2⟩ := C44_tril zero x k x2 x4 x5 hd
  refine ⟨c, ?_, c2.wf, copied_of x3 c2⟩
  unfold Tensor.trilView
  rw [x1]; exact c1

/-- `triu(k)` of a view; the same rows are missing as above. -/
theorem C44_triu_view_partial (dflt dev : Order) (zero : α) (t : Tensor α) (k : Int) (ht : t.WF)
    (bl : List Nat) (nr nc : Nat) (hsh : t.arr.shape = bl ++ [nr, nc]) (hk : ∀ i < nr, (i : Int) + k ≤ nc) :
    ∃ c, Tensor.triuView dflt dev zero t k = .ok c ∧ c.WF ∧ CopiedWhere t.arr c.arr zero (fun i j => ¬ (i : Int) + k ≤ j) := by
  obtain ⟨x, x1, x2, x3, x4, x5⟩ := intoContig_ok dflt ht dev
  obtain ⟨c, c1, c2⟩ := C44_triu_partial zero x k x2 x4 x5 bl nr nc (x3.1.trans hsh) hk
  refine ⟨c, ?_, c2.wf, copied_of x3 c2⟩
  unfold Tensor.triuView
  rw [x1]; exact c1

/-! ### Where `triu` fails -/

/-- A single column: `triu` of a 3 by 1 matrix writes past the end of its storage and panics. -/
theorem C44_false_triu_tall : (⟨[1, 2, 3], ⟨[⟨3, 1⟩, ⟨1, 1⟩], 0⟩⟩ : Tensor Int).WF ∧
    Tensor.triu 0 (⟨[1, 2, 3], ⟨[⟨3, 1⟩, ⟨1, 1⟩], 0⟩⟩ : Tensor Int) 1 = .error .panic := ⟨⟨by decide, rfl⟩, rfl⟩

/-- A view of the left column of a 3 by 2 matrix: `triu` zeroes elements of the right column, outside the view. -/
theorem C44_false_triu_outside : (⟨[1, 2, 3, 4, 5, 6], ⟨[⟨3, 2⟩, ⟨1, 1⟩], 0⟩⟩ : Tensor Int).WF ∧
    Tensor.triu 0 (⟨[1, 2, 3, 4, 5, 6], ⟨[⟨3, 2⟩, ⟨1, 1⟩], 0⟩⟩ : Tensor Int) 0 =
      .ok ⟨[1, 2, 0, 4, 0, 0], ⟨[⟨3, 2⟩, ⟨1, 1⟩], 0⟩⟩ ∧
    ¬ Addressed [2, 1] 0 [3, 1] 5 := by
  refine ⟨⟨by decide, rfl⟩, rfl, ?_⟩
  rintro ⟨idx, hi, e⟩
  match idx, hi with
  | [i, j], hi =>
    rw [inRange_pair] at hi
    simp [position] at e
    omega

/-- An element that must be kept is lost: the column `3, 2, 1`, stored backwards, taken from a matrix with column
stride 2. Row 2 is zeroed up to column 1, which is where row 0 begins. -/
theorem C44_false_triu_lost : (⟨[1, 2, 3], ⟨[⟨3, -1⟩, ⟨1, 2⟩], 2⟩⟩ : Tensor Int).WF ∧
    (∃ c, Tensor.triu 0 (⟨[1, 2, 3], ⟨[⟨3, -1⟩, ⟨1, 2⟩], 2⟩⟩ : Tensor Int) 0 = .ok c ∧ c.arr.elem [0, 0] = some 0) :=
  ⟨⟨by decide, rfl⟩, _, rfl, rfl⟩

/-! ### The hypotheses are met -/

/-- Two 2 by 3 matrices inside a larger storage, rows stored backwards. -/
def triEx : Tensor Int := ⟨[0, 1, 2, 3, 4, 5, 6, 7, 8, 9, 10, 11, 12, 13], ⟨[⟨2, 6⟩, ⟨2, -3⟩, ⟨3, 1⟩], 4⟩⟩

theorem triEx_wf : triEx.WF := ⟨by decide, rfl⟩
theorem triEx_settled : triEx.Settled := fun h => absurd h (by decide)
theorem triEx_unshared : triEx.Unshared := by
  intro i j hi hj e
  have hi : InRange i triEx.layout.shape := hi
  have hj : InRange j triEx.layout.shape := hj
  refine triEx_wf.inj (by decide) i j hi hj ?_
  unfold Layout.pos
  have e : triEx.layout.addr i = triEx.layout.addr j := e
  rw [e]

example : ∃ c, Tensor.tril 0 triEx (-1) = .ok c ∧ ZeroedWhere triEx c 0 (fun i j => ¬ (j : Int) ≤ i + -1) :=
  C44_tril 0 triEx (-1) triEx_wf triEx_settled triEx_unshared (by decide)
example : Tensor.tril 0 triEx (-1) = .ok ⟨[0, 1, 0, 0, 0, 0, 0, 7, 0, 0, 0, 0, 0, 13], triEx.layout⟩ := rfl
example : ∃ c, Tensor.triu 0 triEx 1 = .ok c ∧ ZeroedWhere triEx c 0 (fun i j => ¬ (i : Int) + 1 ≤ j) :=
  C44_triu_partial 0 triEx 1 triEx_wf triEx_settled triEx_unshared [2] 2 3 rfl (by omega)
example : Tensor.triu 0 triEx 1 = .ok ⟨[0, 0, 0, 3, 0, 5, 6, 0, 0, 9, 0, 11, 12, 13], triEx.layout⟩ := rfl
example : ∃ c, Tensor.trilView .C .F 0 triEx 0 = .ok c ∧ c.WF ∧ CopiedWhere triEx.arr c.arr 0 (fun i j => ¬ (j : Int) ≤ i + 0) :=
  C44_tril_view .C .F 0 triEx 0 triEx_wf (by decide)
example : ∃ c, Tensor.triuView .C .F 0 triEx (-1) = .ok c ∧ c.WF ∧
    CopiedWhere triEx.arr c.arr 0 (fun i j => ¬ (i : Int) + -1 ≤ j) :=
  C44_triu_view_partial .C .F 0 triEx (-1) triEx_wf [2] 2 3 rfl (by omega)
example : (⟨[1, 2, 3], ⟨[⟨3, 1⟩], 0⟩⟩ : Tensor Int).layout.ndim < 2 := by decide

end
end Rstsr
