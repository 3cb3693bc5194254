import Verif.Model.Parallel
import Verif.Proof.Concurrent
import Verif.Proof.Assign
/-! # Lemmas about the parallel kernels -/
namespace Rstsr
open Spec

section
variable {α β γ ι : Type}

/-- One update after the other. -/
def runU (U : List (Nat × (γ → γ))) (c : List γ) : Res (List γ) := runAll (fun u c => modifyAt c u.1 u.2) U c

theorem way_nodup {U : List (Nat × (γ → γ))} {c T : List γ} (hnd : (U.map Prod.fst).Nodup)
    (hin : ∀ u ∈ U, u.1 < c.length) (h : runU U c = .ok T) : Way T (fun _ => True) U c := by
  obtain ⟨T', h1, h2, h3, h4⟩ := runAll_modify (fun u : Nat × (γ → γ) => u.1) (fun u => u.2) U c hin hnd
  have e : T' = T := by
    unfold runU at h
    rw [h1] at h; cases h; rfl
  subst e
  exact ⟨h2.symm, fun i _ => List.nodup_iff_count_le_one.1 hnd i,
    fun u hu => ⟨by rw [h2]; exact hin u hu, .inl ⟨trivial, (h3 u hu).symm⟩⟩, fun k hk => (h4 k hk).symm⟩

theorem way_write {U : List (Nat × (γ → γ))} {c T : List γ} (w : Nat → γ) (hw : ∀ u ∈ U, u.2 = fun _ => w u.1)
    (hin : ∀ u ∈ U, u.1 < c.length) (h : runU U c = .ok T) : Way T (fun _ => False) U c := by
  have hc : runAll (fun (u : Nat × (γ → γ)) c => modifyAt c u.1 u.2) U c =
      runAll (fun (u : Nat × (γ → γ)) c => modifyAt c u.1 fun _ => w u.1) U c :=
    runAll_congr (fun u hu c' => by rw [hw u hu]) c
  obtain ⟨T', h1, h2, h3, h4⟩ := runAll_write (fun u : Nat × (γ → γ) => u.1) (fun u => w u.1) U c hin
    (fun u _ v _ e => by rw [e])
  have e : T' = T := by
    unfold runU at h
    rw [hc, h1] at h; cases h; rfl
  subst e
  exact ⟨h2.symm, fun i hf => hf.elim,
    fun u hu => ⟨by rw [h2]; exact hin u hu, .inr fun v => by rw [hw u hu]; exact h3 u hu⟩, fun k hk => (h4 k hk).symm⟩

theorem procLoop_ok {g : ι → Res (Proc γ)} {u : ι → List (Nat × (γ → γ))} {xs : List ι}
    (h : ∀ x ∈ xs, ∃ p, g x = .ok p ∧ updates p = u x) :
    ∃ p, procLoop g xs = .ok p ∧ updates p = xs.flatMap u := by
  induction xs with
  | nil => exact ⟨.nil, rfl, rfl⟩
  | cons x xs ih =>
    obtain ⟨p, h1, h2⟩ := h x (by simp)
    obtain ⟨q, h3, h4⟩ := ih fun y hy => h y (by simp [hy])
    refine ⟨.seq p q, ?_, by simp [updates, h2, h4]⟩
    rw [procLoop, h1]; simp only [ok_bind, h3]; rfl

theorem parRange_ok {g : Nat → Res (Proc γ)} {u : Nat → List (Nat × (γ → γ))} (plan : Plan) {xs : List Nat}
    (h : ∀ x ∈ xs, ∃ p, g x = .ok p ∧ updates p = u x) :
    ∃ p, parRange g plan xs = .ok p ∧ updates p = xs.flatMap u := by
  induction plan generalizing xs with
  | run => exact procLoop_ok h
  | split k a b iha ihb =>
    obtain ⟨p, h1, h2⟩ := iha (xs := xs.take k) fun x hx => h x (List.mem_of_mem_take hx)
    obtain ⟨q, h3, h4⟩ := ihb (xs := xs.drop k) fun x hx => h x (List.mem_of_mem_drop hx)
    refine ⟨.par p q, ?_, ?_⟩
    · rw [parRange, h1]; simp only [ok_bind, h3]; rfl
    · rw [updates, h2, h4, ← List.flatMap_append, List.take_append_drop]

theorem parBlock_ok {n : Nat} {g : Nat → Res (Proc γ)} {u : Nat → List (Nat × (γ → γ))} (inner : Plan)
    (h : ∀ x < n, ∃ p, g x = .ok p ∧ updates p = u x) :
    ∃ p, parBlock n g inner = .ok p ∧ updates p = (List.range n).flatMap u := by
  unfold parBlock
  split
  · exact procLoop_ok fun x hx => h x (List.mem_range.1 hx)
  · exact parRange_ok inner fun x hx => h x (List.mem_range.1 hx)

theorem numbered_map (t : Nat) (xs : List ι) : (numbered t xs).map Prod.snd = xs := by
  induction xs generalizing t with
  | nil => rfl
  | cons x xs ih => simp [numbered, ih]

theorem loop_numbered {g : Plan → ι → Res (Proc γ)} {u : ι → List (Nat × (γ → γ))} (inner : Nat → Plan) {xs : List ι}
    (h : ∀ pl, ∀ x ∈ xs, ∃ p, g pl x = .ok p ∧ updates p = u x) :
    ∃ p, procLoop (fun p => g (inner p.1) p.2) (numbered 0 xs) = .ok p ∧ updates p = xs.flatMap u := by
  obtain ⟨p, h1, h2⟩ := procLoop_ok (g := fun p : Nat × ι => g (inner p.1) p.2) (u := fun p => u p.2)
    (xs := numbered 0 xs) (fun x hx => h _ _ (by
      have := List.mem_map_of_mem (f := Prod.snd) hx
      rwa [numbered_map] at this))
  refine ⟨p, h1, h2.trans ?_⟩
  have : (numbered 0 xs).flatMap (fun p => u p.2) = ((numbered 0 xs).map Prod.snd).flatMap u := by
    rw [List.flatMap_map]
  rw [this, numbered_map]

theorem items_split {it a b : Iter} (h4 : a.layout = it.layout) (h5 : b.layout = it.layout)
    (h : it.idxs = a.idxs ++ b.idxs) : it.items = a.items ++ b.items := by
  simp only [Iter.items, h, h4, h5, List.map_append]

theorem parIter1_ok {g : Plan → Nat → Res (Proc γ)} {u : Nat → List (Nat × (γ → γ))} {m : Nat} (s : Sched)
    {a : Iter} (ha : a.Inv) (na : Iter.NonNeg a.layout) (sa : a.layout.size ≠ 0) (hf : s.Fits a.len m)
    (h : ∀ pl, ∀ x ∈ a.items, ∃ p, g pl x = .ok p ∧ updates p = u x) :
    ∃ p, parIter1 g s a = .ok p ∧ updates p = a.items.flatMap u := by
  induction s generalizing a with
  | run inner =>
    rw [parIter1, Iter.toList_spec ha na]
    exact loop_numbered inner h
  | split k p q ihp ihq =>
    obtain ⟨l, r, h1, h2, h3, h4, h5, h6, h7, h8, h9, h10⟩ := Iter.splitAt_spec ha sa hf.1
    have hi := items_split h4 h5 h10
    obtain ⟨p1, e1, e2⟩ := ihp h2 (h4 ▸ na) (h4 ▸ sa) (by rw [h8]; exact hf.2.1) fun pl x hx => h pl x (by simp [hi, hx])
    obtain ⟨p2, e3, e4⟩ := ihq h3 (h5 ▸ na) (h5 ▸ sa) (by rw [h9]; exact hf.2.2) fun pl x hx => h pl x (by simp [hi, hx])
    refine ⟨.par p1 p2, ?_, ?_⟩
    · rw [parIter1, h1]; simp only [ok_bind, e1, e3]; rfl
    · rw [updates, e2, e4, ← List.flatMap_append, ← hi]

theorem parIter2_ok {g : Plan → Nat × Nat → Res (Proc γ)} {u : Nat × Nat → List (Nat × (γ → γ))} {m : Nat} (s : Sched)
    {a b : Iter} (ha : a.Inv) (na : Iter.NonNeg a.layout) (sa : a.layout.size ≠ 0)
    (hb : b.Inv) (nb : Iter.NonNeg b.layout) (sb : b.layout.size ≠ 0) (hl : a.len = b.len) (hf : s.Fits a.len m)
    (h : ∀ pl, ∀ x ∈ a.items.zip b.items, ∃ p, g pl x = .ok p ∧ updates p = u x) :
    ∃ p, parIter2 g s a b = .ok p ∧ updates p = (a.items.zip b.items).flatMap u := by
  induction s generalizing a b with
  | run inner =>
    rw [parIter2, Iter.toList_spec ha na]
    simp only [ok_bind]
    rw [Iter.toList_spec hb nb]
    exact loop_numbered inner h
  | split k p q ihp ihq =>
    obtain ⟨l, r, h1, h2, h3, h4, h5, h6, h7, h8, h9, h10⟩ := Iter.splitAt_spec ha sa hf.1
    obtain ⟨l', r', g1, g2, g3, g4, g5, g6, g7, g8, g9, g10⟩ := Iter.splitAt_spec hb sb (hl ▸ hf.1)
    have hz : a.items.zip b.items = l.items.zip l'.items ++ r.items.zip r'.items := by
      rw [items_split h4 h5 h10, items_split g4 g5 g10, List.zip_append]
      rw [h2.length_items, g2.length_items, h8, g8]
    obtain ⟨p1, e1, e2⟩ := ihp h2 (h4 ▸ na) (h4 ▸ sa) g2 (g4 ▸ nb) (g4 ▸ sb) (by rw [h8, g8])
      (by rw [h8]; exact hf.2.1) fun pl x hx => h pl x (by rw [hz]; exact List.mem_append_left _ hx)
    obtain ⟨p2, e3, e4⟩ := ihq h3 (h5 ▸ na) (h5 ▸ sa) g3 (g5 ▸ nb) (g5 ▸ sb) (by rw [h9, g9, hl])
      (by rw [h9]; exact hf.2.2) fun pl x hx => h pl x (by rw [hz]; exact List.mem_append_right _ hx)
    refine ⟨.par p1 p2, ?_, ?_⟩
    · rw [parIter2, h1]; simp only [ok_bind, g1, e1, e3]; rfl
    · rw [updates, e2, e4, ← List.flatMap_append, ← hz]

theorem parIter3_ok {g : Plan → Nat × Nat × Nat → Res (Proc γ)} {u : Nat × Nat × Nat → List (Nat × (γ → γ))} {m : Nat}
    (s : Sched) {a b c : Iter} (ha : a.Inv) (na : Iter.NonNeg a.layout) (sa : a.layout.size ≠ 0)
    (hb : b.Inv) (nb : Iter.NonNeg b.layout) (sb : b.layout.size ≠ 0)
    (hc : c.Inv) (nc : Iter.NonNeg c.layout) (sc : c.layout.size ≠ 0)
    (hl : a.len = b.len) (hl' : a.len = c.len) (hf : s.Fits a.len m)
    (h : ∀ pl, ∀ x ∈ a.items.zip (b.items.zip c.items), ∃ p, g pl x = .ok p ∧ updates p = u x) :
    ∃ p, parIter3 g s a b c = .ok p ∧ updates p = (a.items.zip (b.items.zip c.items)).flatMap u := by
  induction s generalizing a b c with
  | run inner =>
    rw [parIter3, Iter.toList_spec ha na]
    simp only [ok_bind]
    rw [Iter.toList_spec hb nb]
    simp only [ok_bind]
    rw [Iter.toList_spec hc nc]
    exact loop_numbered inner h
  | split k p q ihp ihq =>
    obtain ⟨l, r, h1, h2, h3, h4, h5, h6, h7, h8, h9, h10⟩ := Iter.splitAt_spec ha sa hf.1
    obtain ⟨l', r', g1, g2, g3, g4, g5, g6, g7, g8, g9, g10⟩ := Iter.splitAt_spec hb sb (hl ▸ hf.1)
    obtain ⟨l'', r'', k1, k2, k3, k4, k5, k6, k7, k8, k9, k10⟩ := Iter.splitAt_spec hc sc (hl' ▸ hf.1)
    have hz : a.items.zip (b.items.zip c.items) =
        l.items.zip (l'.items.zip l''.items) ++ r.items.zip (r'.items.zip r''.items) := by
      rw [items_split h4 h5 h10, items_split g4 g5 g10, items_split k4 k5 k10, List.zip_append, List.zip_append]
      · rw [h2.length_items, List.length_zip, g2.length_items, k2.length_items, h8, g8, k8, Nat.min_self]
      · rw [g2.length_items, k2.length_items, g8, k8]
    obtain ⟨p1, e1, e2⟩ := ihp h2 (h4 ▸ na) (h4 ▸ sa) g2 (g4 ▸ nb) (g4 ▸ sb) k2 (k4 ▸ nc) (k4 ▸ sc)
      (by rw [h8, g8]) (by rw [h8, k8])
      (by rw [h8]; exact hf.2.1) fun pl x hx => h pl x (by rw [hz]; exact List.mem_append_left _ hx)
    obtain ⟨p2, e3, e4⟩ := ihq h3 (h5 ▸ na) (h5 ▸ sa) g3 (g5 ▸ nb) (g5 ▸ sb) k3 (k5 ▸ nc) (k5 ▸ sc)
      (by rw [h9, g9, hl]) (by rw [h9, k9, hl'])
      (by rw [h9]; exact hf.2.2) fun pl x hx => h pl x (by rw [hz]; exact List.mem_append_right _ hx)
    refine ⟨.par p1 p2, ?_, ?_⟩
    · rw [parIter3, h1]; simp only [ok_bind, g1, k1, e1, e3]; rfl
    · rw [updates, e2, e4, ← List.flatMap_append, ← hz]

/-! ## Parallel loops over layouts -/

theorem collect_nonneg {fuel : Nat} {it : Iter} (h : it.Inv) (hf : it.len < fuel) {xs : List Nat}
    (hc : Iter.collect fuel it = .ok xs) : ∀ i ∈ it.idxs, 0 ≤ it.layout.addr i := by
  induction fuel generalizing it xs with
  | zero => omega
  | succ fuel ih =>
    by_cases hlt : it.iterStart < it.iterEnd
    · obtain ⟨h1, h2⟩ := Iter.nextIterIndex_spec h hlt
      obtain ⟨-, -, ho⟩ := h.front hlt
      rw [Iter.collect, Iter.next, if_neg (by omega)] at hc
      by_cases h0 : it.offsetStart < 0
      · simp [toUsize, h0, error_bind] at hc
      · rw [Iter.toUsize_ok (by omega)] at hc
        simp only [ok_bind, pure_eq_ok] at hc
        obtain ⟨ys, hy, -⟩ := bind_ok.1 hc
        have := ih h1 (by rw [Iter.nextIterIndex_eq]; simp only [Iter.len] at *; omega) hy
        rw [Iter.nextIterIndex_layout] at this
        intro i hi
        rw [h2] at hi
        rcases List.mem_cons.1 hi with rfl | hi
        · rw [← ho]; omega
        · exact this i hi
    · rw [Iter.idxs_nil (by omega)]; simp

/-- The iterator behind a non-empty list of items. -/
theorem iter_of_items {l : Layout} {xs : List Nat} (h : colItems l = .ok xs) (hx : xs ≠ []) :
    ∃ it, Iter.new .F l = .ok it ∧ it.Inv ∧ Iter.NonNeg it.layout ∧ it.layout.size ≠ 0 ∧ it.items = xs ∧
      it.len = xs.length := by
  obtain ⟨it, h1, h2, h3, h4, h5, h6⟩ := Iter.new_spec .F l
  unfold colItems at h
  rw [h1] at h
  simp only [ok_bind] at h
  have hid : it.idxs = all .F l.shape := by
    rw [Iter.idxs, h3, h4, h5, h6, List.drop_zero, Nat.sub_zero, List.take_of_length_le]
    rw [length_all]; exact Nat.le_refl _
  have hn : Iter.NonNeg it.layout := by
    intro i hi
    refine collect_nonneg h2 (Nat.lt_succ_self _) h i ?_
    rw [hid]; exact mem_all.2 (h3 ▸ hi)
  have hi : it.items = xs := by
    rw [Iter.toList_spec h2 hn] at h; cases h; rfl
  refine ⟨it, h1, h2, hn, ?_, hi, by rw [← hi, h2.length_items]⟩
  intro h0
  apply hx
  rw [← hi, ← List.length_eq_zero_iff, h2.length_items, Iter.len, h6, ← h3]
  omega

theorem dispatchPar1_ok {la : Layout} {xs : List Nat} (ha : colItems la = .ok xs) (hx : xs ≠ [])
    {g : Plan → Nat → Res (Proc γ)} {u : Nat → List (Nat × (γ → γ))} {s : Scheduler} (hs : s.Fits) (n : Nat)
    (h : ∀ pl, ∀ x ∈ xs, ∃ p, g pl x = .ok p ∧ updates p = u x) :
    ∃ p, dispatchPar1 la g s n = .ok p ∧ updates p = xs.flatMap u := by
  obtain ⟨a, a1, a2, a3, a4, a5, a6⟩ := iter_of_items ha hx
  unfold dispatchPar1
  rw [a1]
  simp only [ok_bind]
  rw [← a5] at h ⊢
  exact parIter1_ok _ a2 a3 a4 (hs _ _) h

theorem dispatchPar2diff_ok {la lb : Layout} {xs ys : List Nat} (ha : colItems la = .ok xs) (hb : colItems lb = .ok ys)
    (hx : xs ≠ []) (hl : xs.length = ys.length)
    {g : Plan → Nat × Nat → Res (Proc γ)} {u : Nat × Nat → List (Nat × (γ → γ))} {s : Scheduler} (hs : s.Fits) (n : Nat)
    (h : ∀ pl, ∀ x ∈ xs.zip ys, ∃ p, g pl x = .ok p ∧ updates p = u x) :
    ∃ p, dispatchPar2diff la lb g s n = .ok p ∧ updates p = (xs.zip ys).flatMap u := by
  have hy : ys ≠ [] := by rintro rfl; simp at hl; exact hx hl
  obtain ⟨a, a1, a2, a3, a4, a5, a6⟩ := iter_of_items ha hx
  obtain ⟨b, b1, b2, b3, b4, b5, b6⟩ := iter_of_items hb hy
  unfold dispatchPar2diff
  rw [a1]
  simp only [ok_bind]
  rw [b1]
  simp only [ok_bind]
  rw [← a5, ← b5] at h ⊢
  have hm : min a.len b.len = a.len := by rw [a6, b6]; omega
  rw [hm]
  exact parIter2_ok _ a2 a3 a4 b2 b3 b4 (by rw [a6, b6, hl]) (hs _ _) h

theorem dispatchPar2_ok {la lb : Layout} {xs ys : List Nat} (hd : la.ndim = lb.ndim) (ha : colItems la = .ok xs)
    (hb : colItems lb = .ok ys) (hx : xs ≠ []) (hl : xs.length = ys.length)
    {g : Plan → Nat × Nat → Res (Proc γ)} {u : Nat × Nat → List (Nat × (γ → γ))} {s : Scheduler} (hs : s.Fits) (n : Nat)
    (h : ∀ pl, ∀ x ∈ xs.zip ys, ∃ p, g pl x = .ok p ∧ updates p = u x) :
    ∃ p, dispatchPar2 la lb g s n = .ok p ∧ updates p = (xs.zip ys).flatMap u := by
  obtain ⟨p, h1, h2⟩ := dispatchPar2diff_ok ha hb hx hl hs n h
  refine ⟨p, ?_, h2⟩
  unfold dispatchPar2
  rw [if_neg (by simp [hd])]
  exact h1

theorem dispatchPar3_ok {la lb lc : Layout} {xs ys zs : List Nat} (hd : la.ndim = lb.ndim) (hd' : la.ndim = lc.ndim)
    (ha : colItems la = .ok xs) (hb : colItems lb = .ok ys) (hc : colItems lc = .ok zs) (hx : xs ≠ [])
    (hl : xs.length = ys.length) (hl' : xs.length = zs.length)
    {g : Plan → Nat × Nat × Nat → Res (Proc γ)} {u : Nat × Nat × Nat → List (Nat × (γ → γ))} {s : Scheduler}
    (hs : s.Fits) (n : Nat) (h : ∀ pl, ∀ x ∈ xs.zip (ys.zip zs), ∃ p, g pl x = .ok p ∧ updates p = u x) :
    ∃ p, dispatchPar3 la lb lc g s n = .ok p ∧ updates p = (xs.zip (ys.zip zs)).flatMap u := by
  have hy : ys ≠ [] := by rintro rfl; simp at hl; exact hx hl
  have hz : zs ≠ [] := by rintro rfl; simp at hl'; exact hx hl'
  obtain ⟨a, a1, a2, a3, a4, a5, a6⟩ := iter_of_items ha hx
  obtain ⟨b, b1, b2, b3, b4, b5, b6⟩ := iter_of_items hb hy
  obtain ⟨c, c1, c2, c3, c4, c5, c6⟩ := iter_of_items hc hz
  unfold dispatchPar3
  rw [if_neg (by simp [hd]), if_neg (by simp [hd']), a1]
  simp only [ok_bind]
  rw [b1]
  simp only [ok_bind]
  rw [c1]
  simp only [ok_bind]
  rw [← a5, ← b5, ← c5] at h ⊢
  have hm : min a.len (min b.len c.len) = a.len := by rw [a6, b6, c6]; omega
  rw [hm]
  exact parIter3_ok _ a2 a3 a4 b2 b3 b4 c2 c3 c4 (by rw [a6, b6, hl]) (by rw [a6, c6, hl']) (hs _ _) h

/-! ## The updates of the kernels -/

/-- The update of one element of a two-operand kernel. -/
def u2 (a : List α) (f : γ → α → γ) (p : Nat × Nat) : List (Nat × (γ → γ)) :=
  match a[p.2]? with
  | some x => [(p.1, fun v => f v x)]
  | none => []

/-- The update of one element of a three-operand kernel. -/
def u3 (a : List α) (b : List β) (f : γ → α → β → γ) (p : Nat × Nat × Nat) : List (Nat × (γ → γ)) :=
  match a[p.2.1]?, b[p.2.2]? with
  | some x, some y => [(p.1, fun v => f v x y)]
  | _, _ => []

theorem upd2_ok {a : List α} {f : γ → α → γ} {i j : Nat} (h : j < a.length) :
    ∃ p, upd2 a f i j = .ok p ∧ updates p = u2 a f (i, j) := by
  refine ⟨.upd i fun v => f v a[j], ?_, ?_⟩
  · unfold upd2; rw [readAt_ok.2 (List.getElem?_eq_getElem h)]; rfl
  · simp [u2, h, updates]

theorem upd3_ok {a : List α} {b : List β} {f : γ → α → β → γ} {i j k : Nat} (h : j < a.length) (h' : k < b.length) :
    ∃ p, upd3 a b f i j k = .ok p ∧ updates p = u3 a b f (i, j, k) := by
  refine ⟨.upd i fun v => f v a[j] b[k], ?_, ?_⟩
  · unfold upd3; rw [readAt_ok.2 (List.getElem?_eq_getElem h), readAt_ok.2 (List.getElem?_eq_getElem h')]; rfl
  · simp [u3, h, h', updates]

theorem flatMap_blocks {κ π δ : Type} (J : List κ) (n : Nat) (q : κ × Nat → π) (u : π → List δ) :
    J.flatMap (fun j => (List.range n).flatMap fun t => u (q (j, t))) = ((blockList J n).map q).flatMap u := by
  simp only [blockList, List.map_flatMap, List.flatMap_assoc, List.map_map, List.flatMap_map, Function.comp_def]

theorem mem_blockList {κ : Type} {J : List κ} {n : Nat} {j : κ} {t : Nat} (hj : j ∈ J) (ht : t < n) :
    (j, t) ∈ blockList J n :=
  List.mem_flatMap.2 ⟨j, hj, List.mem_map.2 ⟨t, List.mem_range.2 ht, rfl⟩⟩

/-- `e` is not empty when the layout is not. -/
theorem perm_ne_nil {s : List Nat} {e : List (List Nat)} (he : e.Perm (all .C s)) {l : Layout} (hl : l.shape = s)
    (h : l.size ≠ 0) : e ≠ [] := by
  rintro rfl
  have := he.length_eq
  rw [length_all, ← hl] at this
  exact h this.symm

theorem blocks_ne_nil {κ δ : Type} {J : List κ} {n : Nat} {e : List δ} {π : Type} {f : δ → π} {g : κ × Nat → π}
    (he : e ≠ []) (h : e.map f = (blockList J n).map g) : J ≠ [] := by
  rintro rfl
  simp [blockList] at h
  exact he h

theorem opMutaRefbPar_updates (dflt : Order) {s : List Nat} {lc la : Layout} (hc : Fit s lc) (ha : Fit s la)
    (c : List γ) {a : List α} (ca : Covers s la a) (f : γ → α → γ) {sch : Scheduler} (hs : sch.Fits)
    (hsz : ¬ lc.size < opParSwitch) :
    ∃ (e : List (List Nat)) (p : Proc γ), e.Perm (all .C s) ∧ opMutaRefbPar dflt true sch c lc a la f = .ok (.threads p) ∧
      updates p = e.flatMap fun i => u2 a f (lc.pos i, la.pos i) := by
  obtain ⟨e, mc, ma, h1, h2, h3, h4, h5, h6⟩ := joint2 dflt hc ha
  have hmem : ∀ i, i ∈ e ↔ InRange i s := fun i => h1.mem_iff.trans mem_all
  have hne : e ≠ [] := perm_ne_nil h1 hc.shape (by unfold opParSwitch at hsz; omega)
  unfold opMutaRefbPar
  rw [if_neg (by simp [hsz]), h2]
  simp only [ok_bind]
  cases hw : Layout.withContig [mc, ma] with
  | mk contig n =>
    simp only
    split
    · rename_i hge
      obtain ⟨oc, oa, J, rfl, k2, k3, k4, k5⟩ := h6 contig n hw (by unfold contigSwitch at hge; omega)
      obtain ⟨p, p1, p2⟩ := dispatchPar2_ok k2 k3 k4 (by simpa using blocks_ne_nil hne k5) (by simp) hs n
        (g := fun inner p => parBlock n (fun t => upd2 a f (p.1 + t) (p.2 + t)) inner)
        (u := fun p => (List.range n).flatMap fun t => u2 a f (p.1 + t, p.2 + t))
        (fun pl x hx => by
          rw [zip_map_self] at hx
          obtain ⟨j, hj, rfl⟩ := List.mem_map.1 hx
          refine parBlock_ok pl fun t ht => upd2_ok ?_
          have := List.mem_map_of_mem (f := fun p : List Nat × Nat => (oc.pos p.1 + p.2, oa.pos p.1 + p.2)) (mem_blockList hj ht)
          rw [← k5] at this
          obtain ⟨i, hi, e1⟩ := List.mem_map.1 this
          simp only [Prod.mk.injEq] at e1
          have := ca i ((hmem i).1 hi)
          simp only
          omega)
      refine ⟨e, p, h1, by simp only [p1]; rfl, ?_⟩
      rw [p2, zip_map_self, List.flatMap_map]
      rw [flatMap_blocks J n (fun q => (oc.pos q.1 + q.2, oa.pos q.1 + q.2)) (u2 a f), ← k5, List.flatMap_map]
    · obtain ⟨p, p1, p2⟩ := dispatchPar2_ok h3 h4 h5 (by simpa using hne) (by simp) hs 1
        (g := fun _ p => upd2 a f p.1 p.2) (u := u2 a f)
        (fun pl x hx => by
          rw [zip_map_self] at hx
          obtain ⟨i, hi, rfl⟩ := List.mem_map.1 hx
          exact upd2_ok (ca i ((hmem i).1 hi)))
      refine ⟨e, p, h1, by simp only [p1]; rfl, ?_⟩
      rw [p2, zip_map_self, List.flatMap_map]

theorem opMutcRefaRefbPar_updates (dflt : Order) {s : List Nat} {lc la lb : Layout} (hc : Fit s lc) (ha : Fit s la)
    (hb : Fit s lb) (c : List γ) {a : List α} {b : List β} (ca : Covers s la a) (cb : Covers s lb b)
    (f : γ → α → β → γ) {sch : Scheduler} (hs : sch.Fits) (hsz : ¬ lc.size < opParSwitch) :
    ∃ (e : List (List Nat)) (p : Proc γ), e.Perm (all .C s) ∧ opMutcRefaRefbPar dflt true sch c lc a la b lb f = .ok (.threads p) ∧
      updates p = e.flatMap fun i => u3 a b f (lc.pos i, la.pos i, lb.pos i) := by
  obtain ⟨e, mc, ma, mb, h1, h2, h3, h3', h4, h5, h5', h6⟩ := joint3 dflt hc ha hb
  have hmem : ∀ i, i ∈ e ↔ InRange i s := fun i => h1.mem_iff.trans mem_all
  have hne : e ≠ [] := perm_ne_nil h1 hc.shape (by unfold opParSwitch at hsz; omega)
  unfold opMutcRefaRefbPar
  rw [if_neg (by simp [hsz]), h2]
  simp only [ok_bind]
  cases hw : Layout.withContig [mc, ma, mb] with
  | mk contig n =>
    simp only
    split
    · rename_i hge
      obtain ⟨oc, oa, ob, J, rfl, k2, k2', k3, k4, k4', k5⟩ := h6 contig n hw (by unfold contigSwitch at hge; omega)
      obtain ⟨p, p1, p2⟩ := dispatchPar3_ok k2 k2' k3 k4 k4' (by simpa using blocks_ne_nil hne k5) (by simp) (by simp) hs n
        (g := fun inner p => parBlock n (fun t => upd3 a b f (p.1 + t) (p.2.1 + t) (p.2.2 + t)) inner)
        (u := fun p => (List.range n).flatMap fun t => u3 a b f (p.1 + t, p.2.1 + t, p.2.2 + t))
        (fun pl x hx => by
          rw [zip_map_self, zip_map_self] at hx
          obtain ⟨j, hj, rfl⟩ := List.mem_map.1 hx
          have key : ∀ t < n, oa.pos j + t < a.length ∧ ob.pos j + t < b.length := by
            intro t ht
            have := List.mem_map_of_mem (f := fun p : List Nat × Nat =>
              (oc.pos p.1 + p.2, oa.pos p.1 + p.2, ob.pos p.1 + p.2)) (mem_blockList hj ht)
            rw [← k5] at this
            obtain ⟨i, hi, e1⟩ := List.mem_map.1 this
            simp only [Prod.mk.injEq] at e1
            have := ca i ((hmem i).1 hi)
            have := cb i ((hmem i).1 hi)
            omega
          exact parBlock_ok pl fun t ht => upd3_ok (key t ht).1 (key t ht).2)
      refine ⟨e, p, h1, by simp only [p1]; rfl, ?_⟩
      rw [p2, zip_map_self, zip_map_self, List.flatMap_map]
      rw [flatMap_blocks J n (fun q => (oc.pos q.1 + q.2, oa.pos q.1 + q.2, ob.pos q.1 + q.2)) (u3 a b f), ← k5,
        List.flatMap_map]
    · obtain ⟨p, p1, p2⟩ := dispatchPar3_ok h3 h3' h4 h5 h5' (by simpa using hne) (by simp) (by simp) hs 1
        (g := fun _ p => upd3 a b f p.1 p.2.1 p.2.2) (u := u3 a b f)
        (fun pl x hx => by
          rw [zip_map_self, zip_map_self] at hx
          obtain ⟨i, hi, rfl⟩ := List.mem_map.1 hx
          exact upd3_ok (ca i ((hmem i).1 hi)) (cb i ((hmem i).1 hi)))
      refine ⟨e, p, h1, by simp only [p1]; rfl, ?_⟩
      rw [p2, zip_map_self, zip_map_self, List.flatMap_map]

theorem assignPar_updates (dflt : Order) {s : List Nat} {lc la : Layout} (hc : Fit s lc) (ha : Fit s la)
    (c : List γ) {a : List α} (ca : Covers s la a) (w : α → γ) {sch : Scheduler} (hs : sch.Fits)
    (hsz : ¬ lc.size < assignParSwitch) :
    ∃ (e : List (List Nat)) (p : Proc γ), e.Perm (all .C s) ∧ assignPar dflt true sch c lc a la w = .ok (.threads p) ∧
      updates p = e.flatMap fun i => u2 a (fun _ x => w x) (lc.pos i, la.pos i) := by
  obtain ⟨e, mc, ma, h1, h2, h3, h4, h5, h6⟩ := joint2 dflt hc ha
  have hmem : ∀ i, i ∈ e ↔ InRange i s := fun i => h1.mem_iff.trans mem_all
  have hne : e ≠ [] := perm_ne_nil h1 hc.shape (by unfold assignParSwitch at hsz; omega)
  unfold assignPar
  rw [if_neg (by simp [hsz]), h2]
  simp only [ok_bind]
  cases hw : Layout.withContig [mc, ma] with
  | mk contig n =>
    simp only
    split
    · obtain ⟨p, p1, p2⟩ := dispatchPar2_ok h3 h4 h5 (by simpa using hne) (by simp) hs 1
        (g := fun _ p => upd2 a (fun _ x => w x) p.1 p.2) (u := u2 (γ := γ) a fun _ x => w x)
        (fun pl x hx => by
          rw [zip_map_self] at hx
          obtain ⟨i, hi, rfl⟩ := List.mem_map.1 hx
          exact upd2_ok (ca i ((hmem i).1 hi)))
      refine ⟨e, p, h1, by simp only [p1]; rfl, ?_⟩
      rw [p2, zip_map_self, List.flatMap_map]
    · rename_i hge
      obtain ⟨oc, oa, J, rfl, k2, k3, k4, k5⟩ := h6 contig n hw (by unfold contigSwitch at hge; omega)
      obtain ⟨p, p1, p2⟩ := dispatchPar2_ok k2 k3 k4 (by simpa using blocks_ne_nil hne k5) (by simp) hs n
        (g := fun _ p => procLoop (fun t => upd2 a (fun _ x => w x) (p.1 + t) (p.2 + t)) (List.range n))
        (u := fun p => (List.range n).flatMap fun t => u2 (γ := γ) a (fun _ x => w x) (p.1 + t, p.2 + t))
        (fun pl x hx => by
          rw [zip_map_self] at hx
          obtain ⟨j, hj, rfl⟩ := List.mem_map.1 hx
          refine procLoop_ok fun t ht => upd2_ok ?_
          have := List.mem_map_of_mem (f := fun p : List Nat × Nat => (oc.pos p.1 + p.2, oa.pos p.1 + p.2))
            (mem_blockList hj (List.mem_range.1 ht))
          rw [← k5] at this
          obtain ⟨i, hi, e1⟩ := List.mem_map.1 this
          simp only [Prod.mk.injEq] at e1
          have := ca i ((hmem i).1 hi)
          simp only
          omega)
      refine ⟨e, p, h1, by simp only [p1]; rfl, ?_⟩
      rw [p2, zip_map_self, List.flatMap_map]
      rw [flatMap_blocks J n (fun q => (oc.pos q.1 + q.2, oa.pos q.1 + q.2)) (u2 a fun _ x => w x), ← k5, List.flatMap_map]

theorem opMutaPar_updates (dflt : Order) {s : List Nat} {l : Layout} (h : Fit s l) (c : List γ) (f : γ → γ)
    {sch : Scheduler} (hs : sch.Fits) (hsz : ¬ l.size < opParSwitch) :
    ∃ (ps : List Nat) (p : Proc γ), ps.Nodup ∧ (∀ x, x ∈ ps ↔ ∃ idx, InRange idx s ∧ l.pos idx = x) ∧
      opMutaPar dflt true sch c l f = .ok (.threads p) ∧ updates p = ps.map fun i => (i, f) := by
  obtain ⟨ps, m, h1, h2, h3, h4, h5⟩ := joint1G dflt h
  have hne : ps ≠ [] := by
    have : all .C s ≠ [] := perm_ne_nil (List.Perm.refl _) h.shape (by unfold opParSwitch at hsz; omega)
    obtain ⟨i, hi⟩ := List.exists_mem_of_ne_nil _ this
    intro hn
    have := (h4 (l.pos i)).2 ⟨i, mem_all.1 hi, rfl⟩
    rw [hn] at this; cases this
  have hflat : ∀ xs : List Nat, xs.flatMap (fun i => [(i, f)]) = xs.map fun i => (i, f) := by
    intro xs; induction xs <;> simp_all
  unfold opMutaPar
  rw [if_neg (by simp [hsz]), h1]
  simp only [ok_bind]
  cases hw : Layout.withContig [m] with
  | mk contig n =>
    simp only
    split
    · rename_i hge
      obtain ⟨o, J, rfl, k1, k2⟩ := h5 contig n hw (by unfold contigSwitch at hge; omega)
      have hJ : J ≠ [] := by rintro rfl; simp [blockList] at k2; exact hne k2
      obtain ⟨p, p1, p2⟩ := dispatchPar1_ok k1 (by simpa using hJ) hs n
        (g := fun inner i => parBlock n (fun t => .ok (.upd (i + t) f)) inner)
        (u := fun i => (List.range n).flatMap fun t => [(i + t, f)])
        (fun pl x hx => parBlock_ok pl fun t ht => ⟨_, rfl, rfl⟩)
      refine ⟨ps, p, h3, h4, by simp only [p1]; rfl, ?_⟩
      rw [p2, List.flatMap_map, flatMap_blocks J n (fun q => o.pos q.1 + q.2) (fun i => [(i, f)]), ← k2, hflat]
    · obtain ⟨p, p1, p2⟩ := dispatchPar1_ok h2 hne hs 1 (g := fun _ i => .ok (.upd i f)) (u := fun i => [(i, f)])
        (fun pl x hx => ⟨_, rfl, rfl⟩)
      refine ⟨ps, p, h3, h4, by simp only [p1]; rfl, ?_⟩
      rw [p2, hflat]

theorem fillPar_updates (dflt : Order) {s : List Nat} {l : Layout} (h : Fit s l) (c : List γ) (v : γ)
    {sch : Scheduler} (hs : sch.Fits) (hsz : ¬ l.size < assignParSwitch) :
    ∃ (ps : List Nat) (p : Proc γ), ps.Nodup ∧ (∀ x, x ∈ ps ↔ ∃ idx, InRange idx s ∧ l.pos idx = x) ∧
      fillPar dflt true sch c l v = .ok (.threads p) ∧ updates p = ps.map fun i => (i, fun _ => v) := by
  obtain ⟨ps, m, h1, h2, h3, h4, h5⟩ := joint1G dflt h
  have hne : ps ≠ [] := by
    have : all .C s ≠ [] := perm_ne_nil (List.Perm.refl _) h.shape (by unfold assignParSwitch at hsz; omega)
    obtain ⟨i, hi⟩ := List.exists_mem_of_ne_nil _ this
    intro hn
    have := (h4 (l.pos i)).2 ⟨i, mem_all.1 hi, rfl⟩
    rw [hn] at this; cases this
  have hflat : ∀ xs : List Nat, xs.flatMap (fun i => [(i, fun _ : γ => v)]) = xs.map fun i => (i, fun _ => v) := by
    intro xs; induction xs <;> simp_all
  unfold fillPar
  rw [if_neg (by simp [hsz]), h1]
  simp only [ok_bind]
  cases hw : Layout.withContig [m] with
  | mk contig n =>
    simp only
    split
    · obtain ⟨p, p1, p2⟩ := dispatchPar1_ok h2 hne hs 1 (g := fun _ i => .ok (.upd i fun _ => v))
        (u := fun i => [(i, fun _ : γ => v)]) (fun pl x hx => ⟨_, rfl, rfl⟩)
      refine ⟨ps, p, h3, h4, by simp only [p1]; rfl, ?_⟩
      rw [p2, hflat]
    · rename_i hge
      obtain ⟨o, J, rfl, k1, k2⟩ := h5 contig n hw (by unfold contigSwitch at hge; omega)
      have hJ : J ≠ [] := by rintro rfl; simp [blockList] at k2; exact hne k2
      obtain ⟨p, p1, p2⟩ := dispatchPar1_ok k1 (by simpa using hJ) hs n
        (g := fun _ i => procLoop (fun t => .ok (.upd (i + t) fun _ => v)) (List.range n))
        (u := fun i => (List.range n).flatMap fun t => [(i + t, fun _ : γ => v)])
        (fun pl x hx => procLoop_ok fun t ht => ⟨_, rfl, rfl⟩)
      refine ⟨ps, p, h3, h4, by simp only [p1]; rfl, ?_⟩
      rw [p2, List.flatMap_map, flatMap_blocks J n (fun q => o.pos q.1 + q.2) (fun i => [(i, fun _ : γ => v)]), ← k2, hflat]

/-! ## From the serial result to the parallel one -/

theorem u2_mem {s : List Nat} {lc la : Layout} {a : List α} {f : γ → α → γ} {e : List (List Nat)}
    (he : e.Perm (all .C s)) {u : Nat × (γ → γ)} (hu : u ∈ e.flatMap fun i => u2 a f (lc.pos i, la.pos i)) :
    ∃ i x, InRange i s ∧ a[la.pos i]? = some x ∧ u = (lc.pos i, fun v => f v x) := by
  obtain ⟨i, hi, h⟩ := List.mem_flatMap.1 hu
  unfold u2 at h
  split at h
  · rename_i x hx
    exact ⟨i, x, mem_all.1 (he.mem_iff.1 hi), hx, by simpa using h⟩
  · cases h

theorem u2_fst {s : List Nat} {lc la : Layout} {a : List α} {f : γ → α → γ} (ca : Covers s la a) {e : List (List Nat)}
    (he : ∀ i ∈ e, InRange i s) : (e.flatMap fun i => u2 a f (lc.pos i, la.pos i)).map Prod.fst = e.map lc.pos := by
  induction e with
  | nil => rfl
  | cons i e ih =>
    obtain ⟨x, hx⟩ := ca.get (he i (by simp))
    simp only [List.flatMap_cons, List.map_append, List.map_cons, ih fun j hj => he j (by simp [hj])]
    simp [u2, hx]

theorem u3_mem {s : List Nat} {lc la lb : Layout} {a : List α} {b : List β} {f : γ → α → β → γ} {e : List (List Nat)}
    (he : e.Perm (all .C s)) {u : Nat × (γ → γ)} (hu : u ∈ e.flatMap fun i => u3 a b f (lc.pos i, la.pos i, lb.pos i)) :
    ∃ i x y, InRange i s ∧ a[la.pos i]? = some x ∧ b[lb.pos i]? = some y ∧ u = (lc.pos i, fun v => f v x y) := by
  obtain ⟨i, hi, h⟩ := List.mem_flatMap.1 hu
  unfold u3 at h
  split at h
  · rename_i x y hx hy
    exact ⟨i, x, y, mem_all.1 (he.mem_iff.1 hi), hx, hy, by simpa using h⟩
  · cases h

theorem u3_fst {s : List Nat} {lc la lb : Layout} {a : List α} {b : List β} {f : γ → α → β → γ} (ca : Covers s la a)
    (cb : Covers s lb b) {e : List (List Nat)} (he : ∀ i ∈ e, InRange i s) :
    (e.flatMap fun i => u3 a b f (lc.pos i, la.pos i, lb.pos i)).map Prod.fst = e.map lc.pos := by
  induction e with
  | nil => rfl
  | cons i e ih =>
    obtain ⟨x, hx⟩ := ca.get (he i (by simp))
    obtain ⟨y, hy⟩ := cb.get (he i (by simp))
    simp only [List.flatMap_cons, List.map_append, List.map_cons, ih fun j hj => he j (by simp [hj])]
    simp [u3, hx, hy]

theorem not_mem_fst {s : List Nat} {l : Layout} {e : List (List Nat)} (he : e.Perm (all .C s)) {k : Nat}
    (h : k ∉ e.map l.pos) : ∀ i, InRange i s → l.pos i ≠ k := by
  rintro i hi rfl
  exact h (List.mem_map_of_mem (he.mem_iff.2 (mem_all.2 hi)))

theorem nodup_pos {s : List Nat} {l : Layout} {e : List (List Nat)} (he : e.Perm (all .C s))
    (hinj : ∀ i j, InRange i s → InRange j s → l.pos i = l.pos j → i = j) : (e.map l.pos).Nodup := by
  have hmem : ∀ i, i ∈ e ↔ InRange i s := fun i => he.mem_iff.trans mem_all
  exact (he.nodup_iff.2 (nodup_all .C s)).map_on fun i hi j hj => hinj i j ((hmem i).1 hi) ((hmem j).1 hj)

theorem way2_modify {s : List Nat} {lc la : Layout} {c T : List γ} {a : List α} (cc : Covers s lc c)
    (ca : Covers s la a) (hinj : ∀ i j, InRange i s → InRange j s → lc.pos i = lc.pos j → i = j) {f : γ → α → γ}
    {e : List (List Nat)} (he : e.Perm (all .C s)) (h2 : T.length = c.length)
    (h3 : ∀ i, InRange i s → ∀ v x, c[lc.pos i]? = some v → a[la.pos i]? = some x → T[lc.pos i]? = some (f v x))
    (h4 : ∀ k, (∀ i, InRange i s → lc.pos i ≠ k) → T[k]? = c[k]?) :
    Way T (fun _ => True) (e.flatMap fun i => u2 a f (lc.pos i, la.pos i)) c := by
  have hmem : ∀ i ∈ e, InRange i s := fun i hi => mem_all.1 (he.mem_iff.1 hi)
  refine ⟨h2.symm, ?_, ?_, ?_⟩
  · intro i _
    rw [u2_fst ca hmem]
    exact List.nodup_iff_count_le_one.1 (nodup_pos he hinj) i
  · intro u hu
    obtain ⟨i, x, hi, hx, rfl⟩ := u2_mem he hu
    obtain ⟨v, hv⟩ := cc.get hi
    refine ⟨by rw [h2]; exact cc i hi, .inl ⟨trivial, ?_⟩⟩
    simp only [hv, Option.map_some]
    exact (h3 i hi v x hv hx).symm
  · intro k hk
    rw [u2_fst ca hmem] at hk
    exact (h4 k (not_mem_fst he hk)).symm

theorem way2_write {s : List Nat} {lc la : Layout} {c T : List γ} {a : List α} (cc : Covers s lc c)
    (ca : Covers s la a) {w : α → γ} {e : List (List Nat)} (he : e.Perm (all .C s)) (h2 : T.length = c.length)
    (h3 : ∀ i, InRange i s → ∀ x, a[la.pos i]? = some x → T[lc.pos i]? = some (w x))
    (h4 : ∀ k, (∀ i, InRange i s → lc.pos i ≠ k) → T[k]? = c[k]?) :
    Way T (fun _ => False) (e.flatMap fun i => u2 a (fun _ x => w x) (lc.pos i, la.pos i)) c := by
  have hmem : ∀ i ∈ e, InRange i s := fun i hi => mem_all.1 (he.mem_iff.1 hi)
  refine ⟨h2.symm, fun i hf => hf.elim, ?_, ?_⟩
  · intro u hu
    obtain ⟨i, x, hi, hx, rfl⟩ := u2_mem he hu
    exact ⟨by rw [h2]; exact cc i hi, .inr fun v => h3 i hi x hx⟩
  · intro k hk
    rw [u2_fst ca hmem] at hk
    exact (h4 k (not_mem_fst he hk)).symm

theorem way3_write {s : List Nat} {lc la lb : Layout} {c T : List γ} {a : List α} {b : List β} (cc : Covers s lc c)
    (ca : Covers s la a) (cb : Covers s lb b) {w : α → β → γ} {e : List (List Nat)} (he : e.Perm (all .C s))
    (h2 : T.length = c.length)
    (h3 : ∀ i, InRange i s → ∀ x y, a[la.pos i]? = some x → b[lb.pos i]? = some y → T[lc.pos i]? = some (w x y))
    (h4 : ∀ k, (∀ i, InRange i s → lc.pos i ≠ k) → T[k]? = c[k]?) :
    Way T (fun _ => False) (e.flatMap fun i => u3 a b (fun _ x y => w x y) (lc.pos i, la.pos i, lb.pos i)) c := by
  have hmem : ∀ i ∈ e, InRange i s := fun i hi => mem_all.1 (he.mem_iff.1 hi)
  refine ⟨h2.symm, fun i hf => hf.elim, ?_, ?_⟩
  · intro u hu
    obtain ⟨i, x, y, hi, hx, hy, rfl⟩ := u3_mem he hu
    exact ⟨by rw [h2]; exact cc i hi, .inr fun v => h3 i hi x y hx hy⟩
  · intro k hk
    rw [u3_fst ca cb hmem] at hk
    exact (h4 k (not_mem_fst he hk)).symm

/-- The copy between different shapes, not contiguous. -/
theorem assignArbitraryPar_updates (dflt o : Order) {s s' : List Nat} {lc la : Layout} (hc : Fit s lc) (ha : Fit s' la)
    (hsz : lc.size = la.size) (c : List γ) {a : List α} (ca : Covers s' la a) (w : α → γ) {sch : Scheduler} (hs : sch.Fits)
    (hl : ¬ lc.size < assignParSwitch) (hn : ¬ (lc.contigIn o && la.contigIn o)) :
    ∃ p : Proc γ, assignArbitraryPar dflt true sch c lc a la o w = .ok (.threads p) ∧
      updates p = ((positions o lc).zip (positions o la)).flatMap (u2 a fun _ x => w x) := by
  have hE : assignArbitraryPar dflt true sch c lc a la o w =
      if lc.size < assignParSwitch ∨ true = false then Work.done <$> assignArbitrary dflt c lc a la o w
      else if lc.contigIn o && la.contigIn o then
        if lc.offset < 0 ∨ la.offset < 0 then .error .panic
        else Work.done <$> zipBlock a (fun _ x => w x) lc.offset.toNat la.offset.toNat lc.size c
      else lc.toColMajor dflt (iterOrd o) >>= fun lc => la.toColMajor dflt (iterOrd o) >>= fun la =>
        Work.threads <$> dispatchPar2diff lc la (fun _ p => upd2 a (fun _ x => w x) p.1 p.2) sch 1 := by cases o <;> rfl
  rw [hE, if_neg (by simp [hl]), if_neg hn]
  obtain ⟨mc, e1, i1⟩ := toColMajor_items dflt o hc
  obtain ⟨ma, e2, i2⟩ := toColMajor_items dflt o ha
  rw [e1, e2]
  simp only [ok_bind]
  have l1 := positions_length o lc
  have l2 := positions_length o la
  obtain ⟨p, p1, p2⟩ := dispatchPar2diff_ok i1 i2
    (by intro h; rw [h] at l1; unfold assignParSwitch at hl; simp at l1; omega) (by omega) hs 1
    (g := fun _ p => upd2 a (fun _ x => w x) p.1 p.2) (u := u2 (γ := γ) a fun _ x => w x)
    (fun pl x hx => by
      have := (List.of_mem_zip hx).2
      rw [positions_eq] at this
      obtain ⟨i, hi, e⟩ := List.mem_map.1 this
      exact upd2_ok (by rw [← e]; exact ca i (ha.shape ▸ mem_all.1 hi)))
  exact ⟨p, by simp only [p1]; rfl, p2⟩

theorem assignArbitraryPar_contig (dflt o : Order) {lc la : Layout} (c : List γ) {a : List α} (w : α → γ)
    {sch : Scheduler} (pool : Bool) (hn : lc.contigIn o && la.contigIn o) :
    assignArbitraryPar dflt pool sch c lc a la o w = Work.done <$> assignArbitrary dflt c lc a la o w := by
  have hE : assignArbitraryPar dflt pool sch c lc a la o w =
      if lc.size < assignParSwitch ∨ pool = false then Work.done <$> assignArbitrary dflt c lc a la o w
      else if lc.contigIn o && la.contigIn o then
        if lc.offset < 0 ∨ la.offset < 0 then .error .panic
        else Work.done <$> zipBlock a (fun _ x => w x) lc.offset.toNat la.offset.toNat lc.size c
      else lc.toColMajor dflt (iterOrd o) >>= fun lc => la.toColMajor dflt (iterOrd o) >>= fun la =>
        Work.threads <$> dispatchPar2diff lc la (fun _ p => upd2 a (fun _ x => w x) p.1 p.2) sch 1 := by cases o <;> rfl
  have hS : assignArbitrary dflt c lc a la o w =
      if lc.contigIn o && la.contigIn o then
        if lc.offset < 0 ∨ la.offset < 0 then .error .panic
        else zipBlock a (fun _ x => w x) lc.offset.toNat la.offset.toNat lc.size c
      else lc.toColMajor dflt (iterOrd o) >>= fun lc => la.toColMajor dflt (iterOrd o) >>= fun la =>
        dispatch2diff lc la (fun p c => step2 a (fun _ x => w x) p.1 p.2 c) c := by cases o <;> rfl
  rw [hE, hS, if_pos hn, if_pos hn]
  split
  · rfl
  · split <;> rfl

theorem runU_zip {a : List α} {f : γ → α → γ} {ps : List (Nat × Nat)} (h : ∀ p ∈ ps, p.2 < a.length) (c : List γ) :
    runU (ps.flatMap (u2 a f)) c = runAll (fun p => step2 a f p.1 p.2) ps c := by
  unfold runU
  rw [runAll_flatMap]
  apply runAll_congr
  intro p hp c
  rw [step2_ok (List.getElem?_eq_getElem (h p hp))]
  simp only [u2, List.getElem?_eq_getElem (h p hp), runAll]
  cases modifyAt c p.1 _ <;> rfl

end
end Rstsr
