import Verif.Proof.Views
/-! # Lemmas about `diagonal` and squeezing -/
namespace Rstsr
open Spec

theorem dropAxes_congr {α : Type} {A B : List Nat} (h : ∀ x, x ∈ A ↔ x ∈ B) (xs : List α) :
    dropAxes A xs = dropAxes B xs := by
  unfold dropAxes
  congr 1
  apply List.filter_congr
  intro p _
  simp [h]

theorem dropAxes_pair {α : Type} {lo hi : Nat} {xs : List α} (h : lo < hi) (hh : hi < xs.length) :
    dropAxes [lo, hi] xs = (xs.eraseIdx hi).eraseIdx lo := by
  rw [dropAxes_eq, dropF_small (Nat.zero_le _) (by omega) (by simpa using h),
    dropF_small (Nat.zero_le _) (by omega) (by simp), dropF_none (by simp)]
  simp

theorem dropAxes_map {α β : Type} (A : List Nat) (f : α → β) (xs : List α) :
    dropAxes A (xs.map f) = (dropAxes A xs).map f := dropF_map 0 A f xs

theorem eraseIdx_perm {α : Type} {xs : List α} {a : Nat} (d : α) (h : a < xs.length) :
    (xs.getD a d :: xs.eraseIdx a).Perm xs := by
  rw [List.getD_eq_getElem?_getD, List.getElem?_eq_getElem h]
  exact List.getElem_cons_eraseIdx_perm h

theorem pair_perm_lt {axes : List Axis} {lo hi : Nat} (h : lo < hi) (hh : hi < axes.length) :
    (axes.getD lo default :: axes.getD hi default :: dropAxes [lo, hi] axes).Perm axes := by
  rw [dropAxes_pair h hh]
  have h1 := eraseIdx_perm (default : Axis) hh
  have h2 := eraseIdx_perm (xs := axes.eraseIdx hi) (a := lo) (default : Axis) (by
    rw [List.length_eraseIdx_of_lt hh]; omega)
  have h3 : (axes.eraseIdx hi).getD lo default = axes.getD lo default := by
    rw [List.getD_eq_getElem?_getD, List.getElem?_eraseIdx_of_lt h, List.getD_eq_getElem?_getD]
  rw [h3] at h2
  exact (List.Perm.swap _ _ _).trans ((h2.cons _).trans h1)

theorem pair_perm {axes : List Axis} {a b : Nat} (hab : a ≠ b) (ha : a < axes.length) (hb : b < axes.length) :
    (axes.getD a default :: axes.getD b default :: dropAxes [a, b] axes).Perm axes := by
  rcases Nat.lt_or_gt_of_ne hab with h | h
  · exact pair_perm_lt h hb
  · rw [dropAxes_congr (B := [b, a]) (by intro x; simp; tauto)]
    exact (List.Perm.swap _ _ _).trans (pair_perm_lt h ha)

theorem pair_index_lt {axes : List Axis} {lo hi p q : Nat} {r : List Nat} (h : lo < hi) (hh : hi < axes.length)
    (hr : InRange r (dims (dropAxes [lo, hi] axes))) (hp : p < (axes.getD lo default).dim)
    (hq : q < (axes.getD hi default).dim) :
    ∃ i, InRange i (dims axes) ∧ i[lo]? = some p ∧ i[hi]? = some q ∧ dropAxes [lo, hi] i = r ∧
      dot i axes = p * (axes.getD lo default).str + q * (axes.getD hi default).str +
        dot r (dropAxes [lo, hi] axes) := by
  rw [dropAxes_pair h hh] at hr ⊢
  have hlo : lo < (axes.eraseIdx hi).length := by rw [List.length_eraseIdx_of_lt hh]; omega
  have h3 : (axes.eraseIdx hi).getD lo default = axes.getD lo default := by
    rw [List.getD_eq_getElem?_getD, List.getElem?_eraseIdx_of_lt h, List.getD_eq_getElem?_getD]
  have hrl : r.length + 1 = (axes.eraseIdx hi).length := by
    have := hr.length_eq
    simp only [dims, List.length_map] at this
    rw [List.length_eraseIdx_of_lt hlo] at this
    omega
  have hrl2 : r.length + 2 = axes.length := by
    rw [List.length_eraseIdx_of_lt hh] at hrl; omega
  have l1 : (r.insertIdx lo p).length = r.length + 1 := List.length_insertIdx_of_le_length (by omega) _
  have hl1 : lo < (dims (axes.eraseIdx hi)).length := by simpa using hlo
  have hl2 : hi < (dims axes).length := by simpa using hh
  have r1 : InRange (r.insertIdx lo p) (dims (axes.eraseIdx hi)) := by
    refine inRange_insertIdx hl1 (by rw [← dims_eraseIdx]; exact hr) ?_
    have : (dims (axes.eraseIdx hi)).getD lo 0 = (axes.getD lo default).dim := by rw [dims_getD, h3]
    omega
  have r2 : InRange ((r.insertIdx lo p).insertIdx hi q) (dims axes) := by
    refine inRange_insertIdx hl2 (by rw [← dims_eraseIdx]; exact r1) ?_
    have : (dims axes).getD hi 0 = (axes.getD hi default).dim := dims_getD _ _
    omega
  refine ⟨(r.insertIdx lo p).insertIdx hi q, r2, ?_, ?_, ?_, ?_⟩
  · rw [List.getElem?_insertIdx_of_lt h, List.getElem?_insertIdx_self, if_pos (by omega)]
  · rw [List.getElem?_insertIdx_self, if_pos (by omega)]
  · rw [dropAxes_pair h (by rw [List.length_insertIdx_of_le_length (by omega)]; omega),
      eraseIdx_insertIdx_self', eraseIdx_insertIdx_self']
  · rw [dot_insertIdx hh (by omega), dot_insertIdx hlo (by omega), h3]; ring

theorem pair_index {axes : List Axis} {a b p q : Nat} {r : List Nat} (hab : a ≠ b) (ha : a < axes.length)
    (hb : b < axes.length) (hr : InRange r (dims (dropAxes [a, b] axes)))
    (hp : p < (axes.getD a default).dim) (hq : q < (axes.getD b default).dim) :
    ∃ i, InRange i (dims axes) ∧ i[a]? = some p ∧ i[b]? = some q ∧ dropAxes [a, b] i = r ∧
      dot i axes = p * (axes.getD a default).str + q * (axes.getD b default).str +
        dot r (dropAxes [a, b] axes) := by
  rcases Nat.lt_or_gt_of_ne hab with h | h
  · exact pair_index_lt h hb hr hp hq
  · have e : ∀ {α : Type} (xs : List α), dropAxes [a, b] xs = dropAxes [b, a] xs :=
      fun xs => dropAxes_congr (by intro x; simp; tauto) xs
    rw [e] at hr ⊢
    obtain ⟨i, h1, h2, h3, h4, h5⟩ := pair_index_lt h ha hr hq hp
    exact ⟨i, h1, h3, h2, by rw [e]; exact h4, by rw [h5]; ring⟩

/-! ## No overlap on a diagonal -/

theorem superInc_merge {c w : Nat} {B C : List Axis} {x y : Axis} (h : SuperInc (c + w) (B ++ x :: C))
    (h1 : x.str.natAbs ≤ y.str.natAbs + w)
    (h2 : (y.dim - 1) * y.str.natAbs ≤ w + (x.dim - 1) * x.str.natAbs) : SuperInc c (B ++ y :: C) := by
  induction B generalizing c with
  | nil =>
    simp only [List.nil_append, SuperInc] at h ⊢
    refine ⟨by omega, h.2.mono (by omega)⟩
  | cons b B ih =>
    simp only [List.cons_append, SuperInc] at h ⊢
    refine ⟨by omega, ih ?_⟩
    exact h.2.mono (by omega)

theorem superInc_merge2 {c : Nat} {A B C : List Axis} {x1 x2 y : Axis}
    (h : SuperInc c (A ++ x1 :: B ++ x2 :: C))
    (h1 : x2.str.natAbs ≤ y.str.natAbs + (x1.dim - 1) * x1.str.natAbs)
    (h2 : (y.dim - 1) * y.str.natAbs ≤ (x1.dim - 1) * x1.str.natAbs + (x2.dim - 1) * x2.str.natAbs) :
    SuperInc c (A ++ B ++ y :: C) := by
  induction A generalizing c with
  | nil =>
    simp only [List.nil_append, List.cons_append, SuperInc] at h ⊢
    exact superInc_merge h.2 h1 h2
  | cons a A ih =>
    simp only [List.cons_append, SuperInc] at h ⊢
    exact ⟨h.1, ih h.2⟩

theorem two_mem_split {α : Type} {L R : List α} {x y : α} (h : L.Perm (x :: y :: R)) :
    (∃ A B C, L = A ++ x :: B ++ y :: C ∧ (A ++ B ++ C).Perm R) ∨
    (∃ A B C, L = A ++ y :: B ++ x :: C ∧ (A ++ B ++ C).Perm R) := by
  obtain ⟨s, t, rfl⟩ := List.append_of_mem (h.mem_iff.2 (by simp : x ∈ x :: y :: R))
  have h2 : (s ++ t).Perm (y :: R) := (List.perm_middle.symm.trans h).cons_inv
  rcases List.mem_append.1 (h2.mem_iff.2 (by simp : y ∈ y :: R)) with hy | hy
  · obtain ⟨u, v, rfl⟩ := List.append_of_mem hy
    right
    refine ⟨u, v, t, by simp, ?_⟩
    have : (u ++ y :: v ++ t).Perm (y :: (u ++ v ++ t)) := by
      rw [List.append_assoc, List.append_assoc]; exact List.perm_middle
    exact (this.symm.trans h2).cons_inv
  · obtain ⟨u, v, rfl⟩ := List.append_of_mem hy
    left
    refine ⟨s, u, v, by simp, ?_⟩
    have : (s ++ (u ++ y :: v)).Perm (y :: (s ++ u ++ v)) := by
      rw [← List.append_assoc]; exact List.perm_middle
    exact (this.symm.trans h2).cons_inv

theorem natAbs_add_ge (a b : Int) : b.natAbs ≤ (a + b).natAbs + a.natAbs := by omega

theorem diag_noOverlap {x1 x2 : Axis} {R : List Axis} {n : Nat} (h : NoOverlap (x1 :: x2 :: R))
    (h1 : n ≤ x1.dim) (h2 : n ≤ x2.dim) : NoOverlap (⟨n, x1.str + x2.str⟩ :: R) := by
  have hsubR : NoOverlap R := h.sublist ((List.sublist_cons_self _ _).trans (List.sublist_cons_self _ _))
  by_cases hn : n ≤ 1
  · obtain ⟨L, hL, hs⟩ := hsubR
    refine ⟨L, ?_, hs⟩
    rw [List.filter_cons_of_neg (by simp [Axis.ess]; omega)]; exact hL
  by_cases e1 : x1.str = 0
  · refine NoOverlap.subAxes (A := x2 :: R) ?_ (h.sublist (List.sublist_cons_self _ _))
    refine List.Forall₂.cons ?_ (List.forall₂_same.2 fun a _ => SubAxis.refl a)
    intro he
    simp only [Axis.ess, e1, zero_add, Bool.and_eq_true, decide_eq_true_eq] at he ⊢
    exact ⟨⟨by omega, he.2⟩, le_refl _, Nat.mul_le_mul_right _ (by omega)⟩
  by_cases e2 : x2.str = 0
  · refine NoOverlap.subAxes (A := x1 :: R) ?_ (h.sublist ((List.sublist_cons_self _ _).cons_cons _))
    refine List.Forall₂.cons ?_ (List.forall₂_same.2 fun a _ => SubAxis.refl a)
    intro he
    simp only [Axis.ess, e2, add_zero, Bool.and_eq_true, decide_eq_true_eq] at he ⊢
    exact ⟨⟨by omega, he.2⟩, le_refl _, Nat.mul_le_mul_right _ (by omega)⟩
  obtain ⟨L, hL, hs⟩ := h
  rw [List.filter_cons_of_pos (by simp [Axis.ess, e1]; omega),
    List.filter_cons_of_pos (by simp [Axis.ess, e2]; omega)] at hL
  have key : ∀ (x1 x2 : Axis) (A B C : List Axis), L = A ++ x1 :: B ++ x2 :: C →
      (A ++ B ++ C).Perm (R.filter Axis.ess) → n ≤ x1.dim → n ≤ x2.dim → x1.str ≠ 0 → x2.str ≠ 0 →
      NoOverlap (⟨n, x1.str + x2.str⟩ :: R) := by
    rintro x1 x2 A B C rfl hR g1 g2 k1 k2
    have w1 : x1.str.natAbs ≤ (x1.dim - 1) * x1.str.natAbs := Nat.le_mul_of_pos_left _ (by omega)
    have hm := superInc_merge2 (y := ⟨n, x1.str + x2.str⟩) hs (by
      have := natAbs_add_ge x1.str x2.str
      simp only; omega) (by
      simp only
      have : (x1.str + x2.str).natAbs ≤ x1.str.natAbs + x2.str.natAbs := by omega
      calc (n - 1) * (x1.str + x2.str).natAbs ≤ (n - 1) * (x1.str.natAbs + x2.str.natAbs) :=
            Nat.mul_le_mul_left _ this
        _ = (n - 1) * x1.str.natAbs + (n - 1) * x2.str.natAbs := Nat.mul_add _ _ _
        _ ≤ _ := Nat.add_le_add (Nat.mul_le_mul_right _ (by omega)) (Nat.mul_le_mul_right _ (by omega)))
    have hlt : x1.str.natAbs < x2.str.natAbs := by
      have hp := hs.pairwise (by
        intro a ha
        have hmem := hL.mem_iff.1 ha
        rcases List.mem_cons.1 hmem with rfl | hmem
        · omega
        · rcases List.mem_cons.1 hmem with rfl | hmem
          · omega
          · have := List.of_mem_filter hmem
            simp [Axis.ess] at this; exact this.1)
      rw [List.append_assoc, List.cons_append, List.pairwise_append, List.pairwise_cons] at hp
      exact hp.2.1.1 x2 (by simp)
    refine ⟨_, ?_, hm⟩
    rw [List.filter_cons_of_pos (by simp [Axis.ess]; omega)]
    exact List.perm_middle.trans (hR.cons _)
  rcases two_mem_split hL with ⟨A, B, C, hLe, hR⟩ | ⟨A, B, C, hLe, hR⟩
  · exact key x1 x2 A B C hLe hR h1 h2 e1 e2
  · rw [Int.add_comm]
    exact key x2 x1 A B C hLe hR h2 h1 e2 e1

/-- A layout whose elements are elements of a good layout, and whose strides do not overlap, is good. -/
theorem good_of_sub {l m : Layout} (hl : Good l)
    (hsub : ∀ j, InRange j m.shape → ∃ i, InRange i l.shape ∧ m.addr j = l.addr i)
    (hno : 0 ∉ dims l.axes → 0 ∉ dims m.axes → NoOverlap m.axes) : Good m := by
  by_cases hz : 0 ∈ dims m.axes
  · exact Or.inl hz
  · obtain ⟨h1, h2⟩ := loIdx_spec hz
    obtain ⟨i, hi, he⟩ := hsub _ h1
    have hzl : 0 ∉ dims l.axes := fun h => by
      have := hi.pos 0 h; omega
    rcases hl with hl | ⟨hl, _⟩
    · exact absurd hl hzl
    · refine Or.inr ⟨?_, hno hzl hz⟩
      rw [addr_eq, h2, addr_eq] at he
      have := (dot_bounds hi).1
      omega

theorem diagonal_rest (l : Layout) (a b : Nat) :
    (l.axes.zipIdx.filter fun p => p.2 ≠ a ∧ p.2 ≠ b).map (·.1) = dropAxes [a, b] l.axes := by
  unfold dropAxes
  congr 1
  apply List.filter_congr
  intro p _
  simp

/-- What `diagonal` computes: the length by the code's own case split. -/
def codeDiagLen (d1 d2 : Nat) (k : Int) : Int :=
  if -(d1 : Int) + 1 ≤ k ∧ k < 0 then min (d1 - (-k)) d2
  else if 0 ≤ k ∧ k < d1 then min ((d2 : Int) - k) d1
  else 0

theorem codeDiagLen_le {d1 d2 : Nat} {k : Int} : (codeDiagLen d1 d2 k).toNat ≤ diagLen d1 d2 k := by
  unfold codeDiagLen diagLen
  split_ifs <;> omega

theorem codeDiagLen_le_min {d1 d2 : Nat} {k : Int} (t : Nat) (h : t < (codeDiagLen d1 d2 k).toNat) :
    (t + max 0 (-k)).toNat < d1 ∧ (t + max 0 k).toNat < d2 := by
  unfold codeDiagLen at h
  split_ifs at h <;> omega

theorem diagonal_sub {l : Layout} {a b n : Nat} {k off : Int} (hab : a ≠ b) (ha : a < l.ndim) (hb : b < l.ndim)
    (hn : n = (codeDiagLen (l.axes.getD a default).dim (l.axes.getD b default).dim k).toNat)
    (hoff : n ≠ 0 → off = l.offset + max 0 (-k) * (l.axes.getD a default).str +
      max 0 k * (l.axes.getD b default).str) :
    (∀ (r : List Nat) (t : Nat), InRange (r ++ [t]) (dims (dropAxes [a, b] l.axes) ++ [n]) →
      ∃ i, InRange i l.shape ∧ i[a]? = some (t + max 0 (-k)).toNat ∧ i[b]? = some (t + max 0 k).toNat ∧
        dropAxes [a, b] i = r ∧
        off + dot (r ++ [t]) (dropAxes [a, b] l.axes ++ [⟨n, (l.axes.getD a default).str + (l.axes.getD b default).str⟩])
          = l.addr i) := by
  intro r t hrt
  have hlen : r.length = (dims (dropAxes [a, b] l.axes)).length := by
    have := hrt.length_eq; simpa using this
  rw [inRange_append hlen] at hrt
  obtain ⟨hr, ht⟩ := hrt
  have ht : t < n := ht.1
  obtain ⟨g1, g2⟩ := codeDiagLen_le_min (k := k) (d1 := (l.axes.getD a default).dim)
    (d2 := (l.axes.getD b default).dim) t (by omega)
  obtain ⟨i, h1, h2, h3, h4, h5⟩ := pair_index hab ha hb hr g1 g2
  refine ⟨i, h1, h2, h3, h4, ?_⟩
  rw [dot_append (by simpa using hlen), addr_eq, h5, hoff (by omega)]
  simp only [dot_cons, dot_nil_left, add_zero]
  have e1 : (((t + max 0 (-k)).toNat : Nat) : Int) = t + max 0 (-k) := by omega
  have e2 : (((t + max 0 k).toNat : Nat) : Int) = t + max 0 k := by omega
  rw [e1, e2]
  ring

/-- Complete description of a successful `diagonal` on two different axes of a good layout. -/
theorem diagonal_ok {l : Layout} (hl : Good l) {off ax1 ax2 : Option Int}
    (hab : normAxis l.ndim (ax1.getD 0) ≠ normAxis l.ndim (ax2.getD 1)) {m : Layout} :
    l.diagonal off ax1 ax2 = .ok m ↔
      AxisOk l.ndim (ax1.getD 0) ∧ AxisOk l.ndim (ax2.getD 1) ∧
      0 ≤ codeDiagLen (l.axes.getD (normAxis l.ndim (ax1.getD 0)) default).dim
        (l.axes.getD (normAxis l.ndim (ax2.getD 1)) default).dim (off.getD 0) ∧
      m = ⟨dropAxes [normAxis l.ndim (ax1.getD 0), normAxis l.ndim (ax2.getD 1)] l.axes ++
          [⟨(codeDiagLen (l.axes.getD (normAxis l.ndim (ax1.getD 0)) default).dim
            (l.axes.getD (normAxis l.ndim (ax2.getD 1)) default).dim (off.getD 0)).toNat,
            (l.axes.getD (normAxis l.ndim (ax1.getD 0)) default).str +
            (l.axes.getD (normAxis l.ndim (ax2.getD 1)) default).str⟩],
        m.offset⟩ ∧
      m.offset = (if -((l.axes.getD (normAxis l.ndim (ax1.getD 0)) default).dim : Int) + 1 ≤ off.getD 0 ∧ off.getD 0 < 0 then
          l.offset + (l.axes.getD (normAxis l.ndim (ax1.getD 0)) default).str * (-off.getD 0)
        else if 0 ≤ off.getD 0 ∧ off.getD 0 < (l.axes.getD (normAxis l.ndim (ax1.getD 0)) default).dim then
          l.offset + (l.axes.getD (normAxis l.ndim (ax2.getD 1)) default).str * off.getD 0
        else l.offset) := by
  unfold Layout.diagonal
  generalize hA : normAxis l.ndim (ax1.getD 0) = a at *
  generalize hB : normAxis l.ndim (ax2.getD 1) = b at *
  generalize hk : off.getD 0 = k
  by_cases c1 : AxisOk l.ndim (ax1.getD 0)
  · by_cases c2 : AxisOk l.ndim (ax2.getD 1)
    · have ha : a < l.ndim := hA ▸ normAxis_lt c1
      have hb : b < l.ndim := hB ▸ normAxis_lt c2
      have h2 : ¬ l.ndim < 2 := by omega
      rw [if_neg h2, checkAxis_ok.2 ⟨c1, rfl⟩, checkAxis_ok.2 ⟨c2, rfl⟩, hA, hB]
      simp only [ok_bind, c1, c2, true_and]
      rw [diagonal_rest]
      have e : (if -((l.axes.getD a default).dim : Int) + 1 ≤ k ∧ k < 0 then
          (l.offset + (l.axes.getD a default).str * (-k), min (((l.axes.getD a default).dim : Int) - (-k)) (l.axes.getD b default).dim)
        else if 0 ≤ k ∧ k < (l.axes.getD a default).dim then
          (l.offset + (l.axes.getD b default).str * k, min (((l.axes.getD b default).dim : Int) - k) (l.axes.getD a default).dim)
        else (l.offset, 0)) =
        ((if -((l.axes.getD a default).dim : Int) + 1 ≤ k ∧ k < 0 then
            l.offset + (l.axes.getD a default).str * (-k)
          else if 0 ≤ k ∧ k < (l.axes.getD a default).dim then
            l.offset + (l.axes.getD b default).str * k
          else l.offset), codeDiagLen (l.axes.getD a default).dim (l.axes.getD b default).dim k) := by
        unfold codeDiagLen
        split_ifs <;> rfl
      rw [e]
      simp only
      generalize ho : (if -((l.axes.getD a default).dim : Int) + 1 ≤ k ∧ k < 0 then
            l.offset + (l.axes.getD a default).str * (-k)
          else if 0 ≤ k ∧ k < (l.axes.getD a default).dim then
            l.offset + (l.axes.getD b default).str * k
          else l.offset) = o
      generalize hn : codeDiagLen (l.axes.getD a default).dim (l.axes.getD b default).dim k = n
      have hG : Good ⟨dropAxes [a, b] l.axes ++ [⟨n.toNat, (l.axes.getD a default).str + (l.axes.getD b default).str⟩], o⟩ := by
        apply good_of_sub hl
        · intro j hj
          have hj' : InRange j (dims (dropAxes [a, b] l.axes) ++ [n.toNat]) := by
            simpa [Layout.shape] using hj
          have hjl : j ≠ [] := by
            rintro rfl
            have := hj'.length_eq
            simp at this
          obtain ⟨r, t, rfl⟩ : ∃ r t, j = r ++ [t] := ⟨j.dropLast, j.getLast hjl, (List.dropLast_append_getLast hjl).symm⟩
          obtain ⟨i, h1, _, _, _, h5⟩ := diagonal_sub (n := n.toNat) (k := k) (off := o) hab ha hb (by rw [hn]) (by
            intro hn0
            rw [← hn] at hn0
            unfold codeDiagLen at hn0
            rw [← ho]
            split_ifs at hn0 ⊢ with q1 q2
            · rw [show max 0 (-k) = -k by omega, show max 0 k = 0 by omega]; ring
            · rw [show max 0 (-k) = 0 by omega, show max 0 k = k by omega]; ring
            · simp at hn0) r t hj'
          exact ⟨i, h1, by rw [addr_mk]; exact h5⟩
        · intro hz1 hz2
          rcases hl with hl | ⟨_, hl⟩
          · exact absurd hl hz1
          · have hp := pair_perm hab ha hb
            have hm : n.toNat ≤ (l.axes.getD a default).dim ∧ n.toNat ≤ (l.axes.getD b default).dim := by
              rw [← hn]; unfold codeDiagLen; split_ifs <;> omega
            exact (diag_noOverlap (hl.perm hp) hm.1 hm.2).perm (List.perm_append_singleton _ _)
      constructor
      · intro h
        split at h
        · cases h
        · have := (accepted_of_newAxes h).2
          subst this
          exact ⟨by omega, rfl, rfl⟩
      · rintro ⟨h1, h2, h3⟩
        rw [if_neg (by omega), h2, h3]
        exact hG.accepted
    · constructor
      · intro h
        split at h
        · cases h
        · obtain ⟨x, _, h⟩ := bind_ok.1 h
          obtain ⟨y, hy, h⟩ := bind_ok.1 h
          exact absurd (checkAxis_ok.1 hy).1 c2
      · rintro ⟨_, h, _⟩; exact absurd h c2
  · constructor
    · intro h
      split at h
      · cases h
      · obtain ⟨x, hx, h⟩ := bind_ok.1 h
        exact absurd (checkAxis_ok.1 hx).1 c1
    · rintro ⟨h, _⟩; exact absurd h c1

theorem ok_of_ite_error {α : Type} {c : Prop} [Decidable c] {e : Err} {r : Res α} {a : α}
    (h : (if c then .error e else r) = .ok a) : r = .ok a := by
  split at h
  · cases h
  · exact h

theorem diagonal_good {l : Layout} {off ax1 ax2 : Option Int} {m : Layout}
    (h : l.diagonal off ax1 ax2 = .ok m) : Good m := by
  unfold Layout.diagonal at h
  split at h
  · cases h
  · obtain ⟨x, hx, h⟩ := bind_ok.1 h
    obtain ⟨y, hy, h⟩ := bind_ok.1 h
    dsimp only at h
    obtain ⟨h1, h2⟩ := accepted_of_newAxes (ok_of_ite_error h)
    by_cases hz : 0 ∈ dims m.axes
    · exact Or.inl hz
    · exact Or.inr (h1.cases hz (by rw [h2]; simp))

theorem diagonal_accepts {l : Layout} (hl : Good l) {off ax1 ax2 : Option Int}
    (hab : normAxis l.ndim (ax1.getD 0) ≠ normAxis l.ndim (ax2.getD 1))
    (h1 : AxisOk l.ndim (ax1.getD 0)) (h2 : AxisOk l.ndim (ax2.getD 1))
    (h3 : 0 ≤ codeDiagLen (l.axes.getD (normAxis l.ndim (ax1.getD 0)) default).dim
        (l.axes.getD (normAxis l.ndim (ax2.getD 1)) default).dim (off.getD 0)) :
    ∃ m, l.diagonal off ax1 ax2 = .ok m := by
  let m : Layout := ⟨dropAxes [normAxis l.ndim (ax1.getD 0), normAxis l.ndim (ax2.getD 1)] l.axes ++
          [⟨(codeDiagLen (l.axes.getD (normAxis l.ndim (ax1.getD 0)) default).dim
            (l.axes.getD (normAxis l.ndim (ax2.getD 1)) default).dim (off.getD 0)).toNat,
            (l.axes.getD (normAxis l.ndim (ax1.getD 0)) default).str +
            (l.axes.getD (normAxis l.ndim (ax2.getD 1)) default).str⟩],
        (if -((l.axes.getD (normAxis l.ndim (ax1.getD 0)) default).dim : Int) + 1 ≤ off.getD 0 ∧ off.getD 0 < 0 then
          l.offset + (l.axes.getD (normAxis l.ndim (ax1.getD 0)) default).str * (-off.getD 0)
        else if 0 ≤ off.getD 0 ∧ off.getD 0 < (l.axes.getD (normAxis l.ndim (ax1.getD 0)) default).dim then
          l.offset + (l.axes.getD (normAxis l.ndim (ax2.getD 1)) default).str * off.getD 0
        else l.offset)⟩
  exact ⟨m, (diagonal_ok hl hab).2 ⟨h1, h2, h3, rfl, rfl⟩⟩

/-! ## squeeze -/

theorem adjacentDupInt_iff {v : List Int} (hs : v.Pairwise (fun a b => b ≤ a)) :
    Layout.adjacentDupInt v = true ↔ ¬ v.Nodup := by
  induction v with
  | nil => simp [Layout.adjacentDupInt]
  | cons a v ih =>
    cases v with
    | nil => simp [Layout.adjacentDupInt]
    | cons b v =>
      have ih' := ih (List.pairwise_cons.1 hs).2
      unfold Layout.adjacentDupInt
      rw [Bool.or_eq_true, ih']
      constructor
      · rintro (h | h) hn
        · simp at h; subst h; simp at hn
        · exact h (List.nodup_cons.1 hn).2
      · intro h
        rw [List.nodup_cons] at h
        by_cases hab : a = b
        · left; simp [hab]
        · right
          intro hn
          apply h
          refine ⟨?_, hn⟩
          intro hmem
          rcases List.mem_cons.1 hmem with h1 | h1
          · exact hab h1
          · have h2 := (List.pairwise_cons.1 (List.pairwise_cons.1 hs).2).1 a h1
            have h3 := (List.pairwise_cons.1 hs).1 b (by simp)
            omega

instance : Std.Total (fun a b : Int => b ≤ a) := ⟨fun a b => Int.le_total b a⟩
instance : IsTrans Int (fun a b : Int => b ≤ a) := ⟨fun _ _ _ h1 h2 => Int.le_trans h2 h1⟩
instance : Std.Total (fun a b : Nat => b ≤ a) := ⟨fun a b => Nat.le_total b a⟩
instance : IsTrans Nat (fun a b : Nat => b ≤ a) := ⟨fun _ _ _ h1 h2 => Nat.le_trans h2 h1⟩

theorem squeeze_ok {l : Layout} (hl : Accepted l) {axes : List Int} (hax : ∀ a ∈ axes, AxisOk l.ndim a)
    (m : Layout) :
    l.squeeze (some axes) = .ok m ↔ (axes.map (normAxis l.ndim)).Nodup ∧
      (∀ a ∈ axes, l.shape[normAxis l.ndim a]? = some 1) ∧
      m = ⟨dropAxes (axes.map (normAxis l.ndim)) l.axes, l.offset⟩ := by
  unfold Layout.squeeze
  simp only
  have e0 : (axes.map fun (v : Int) => if v ≥ 0 then v else v + l.ndim) = (axes.map (normAxis l.ndim)).map Int.ofNat := by
    rw [List.map_map]
    apply List.map_congr_left
    intro a ha
    have := hax a ha
    unfold AxisOk at this
    simp only [Function.comp, normAxis, Int.ofNat_eq_natCast]
    split <;> split <;> omega
  rw [e0]
  have e1 : (((axes.map (normAxis l.ndim)).map Int.ofNat).insertionSort fun a b => b ≤ a)
      = ((axes.map (normAxis l.ndim)).insertionSort fun a b => b ≤ a).map Int.ofNat := by
    symm
    apply List.map_insertionSort
    intro a _ b _
    exact Int.ofNat_le.symm
  rw [e1]
  generalize hB : ((axes.map (normAxis l.ndim)).insertionSort fun a b => b ≤ a) = B
  have hperm : B.Perm (axes.map (normAxis l.ndim)) := hB ▸ List.perm_insertionSort _ _
  have hsort : B.Pairwise fun a b => b ≤ a := hB ▸ List.pairwise_insertionSort _ _
  have hsortI : (B.map Int.ofNat).Pairwise fun a b => b ≤ a := by
    rw [List.pairwise_map]
    exact hsort.imp fun h => Int.ofNat_le.2 h
  rw [if_neg (by cases B <;> simp), ]
  have hnd : Layout.adjacentDupInt (B.map Int.ofNat) = true ↔ ¬ (axes.map (normAxis l.ndim)).Nodup := by
    rw [adjacentDupInt_iff hsortI, List.nodup_map_iff (fun a b h => Int.ofNat.inj h), hperm.nodup_iff]
  by_cases hd : (axes.map (normAxis l.ndim)).Nodup
  · rw [if_neg (by rw [hnd]; exact not_not.2 hd)]
    have hstrict : B.Pairwise (· > ·) := by
      have := hperm.nodup_iff.2 hd
      exact (hsort.and this).imp fun h => by omega
    rw [squeeze_fold hstrict hl (by
      intro a ha
      obtain ⟨b, hb, rfl⟩ := List.mem_map.1 (hperm.mem_iff.1 ha)
      exact normAxis_lt (hax b hb))]
    simp only [hd, true_and]
    rw [dropAxes_congr fun x => hperm.mem_iff]
    apply and_congr_left
    intro _
    constructor
    · intro h a ha
      exact h _ (hperm.mem_iff.2 (List.mem_map_of_mem ha))
    · intro h a ha
      obtain ⟨b, hb, rfl⟩ := List.mem_map.1 (hperm.mem_iff.1 ha)
      exact h b hb
  · rw [if_pos (hnd.2 hd)]
    constructor
    · intro h; cases h
    · rintro ⟨h, _⟩; exact absurd h hd

end Rstsr
