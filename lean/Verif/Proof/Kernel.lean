import Verif.Model.Kernel
import Verif.Thm.Iter
import Verif.Thm.Rearrange
/-! # Lemmas about the element-wise kernels -/
namespace Rstsr
open Spec

section
variable {ι κ σ : Type}

theorem runAll_append (f : ι → σ → Res σ) (xs ys : List ι) (s : σ) :
    runAll f (xs ++ ys) s = runAll f xs s >>= runAll f ys := by
  induction xs generalizing s with
  | nil => rfl
  | cons x xs ih =>
    simp only [List.cons_append, runAll]
    cases f x s with
    | ok s' => simp only [ok_bind, ih]
    | error e => rfl

theorem runAll_map (f : κ → σ → Res σ) (g : ι → κ) (xs : List ι) (s : σ) :
    runAll f (xs.map g) s = runAll (fun i => f (g i)) xs s := by
  induction xs generalizing s with
  | nil => rfl
  | cons x xs ih =>
    simp only [List.map_cons, runAll]
    congr 1
    funext s'
    exact ih s'

theorem runAll_flatMap (f : κ → σ → Res σ) (g : ι → List κ) (xs : List ι) (s : σ) :
    runAll f (xs.flatMap g) s = runAll (fun i => runAll f (g i)) xs s := by
  induction xs generalizing s with
  | nil => rfl
  | cons x xs ih =>
    simp only [List.flatMap_cons, runAll_append, runAll]
    congr 1
    funext s'
    exact ih s'

theorem runAll_congr {f g : ι → σ → Res σ} {xs : List ι} (h : ∀ i ∈ xs, ∀ s, f i s = g i s) (s : σ) :
    runAll f xs s = runAll g xs s := by
  induction xs generalizing s with
  | nil => rfl
  | cons x xs ih =>
    simp only [runAll, h x List.mem_cons_self]
    congr 1
    funext s'
    exact ih (fun i hi => h i (List.mem_cons_of_mem _ hi)) s'

/-- With an invariant kept by every step. -/
theorem runAll_congr_inv {f g : ι → σ → Res σ} {xs : List ι} (P : σ → Prop)
    (h : ∀ i ∈ xs, ∀ s, P s → f i s = g i s) (hP : ∀ i ∈ xs, ∀ s s', P s → g i s = .ok s' → P s') (s : σ) (hs : P s) :
    runAll f xs s = runAll g xs s := by
  induction xs generalizing s with
  | nil => rfl
  | cons x xs ih =>
    simp only [runAll, h x List.mem_cons_self s hs]
    cases hg : g x s with
    | error e => rfl
    | ok s' =>
      simp only [ok_bind]
      exact ih (fun i hi => h i (List.mem_cons_of_mem _ hi)) (fun i hi => hP i (List.mem_cons_of_mem _ hi)) s'
        (hP x List.mem_cons_self s s' hs hg)

end

section
variable {ι α β γ : Type}

theorem readAt_ok {a : List α} {i : Nat} {v : α} : readAt a i = .ok v ↔ a[i]? = some v := by
  unfold readAt
  cases a[i]? <;> simp

theorem modifyAt_of {c : List γ} {i : Nat} {v : γ} (h : c[i]? = some v) (f : γ → γ) :
    modifyAt c i f = .ok (c.set i (f v)) := by
  unfold modifyAt; rw [h]

theorem modifyAt_length {c c' : List γ} {i : Nat} {f : γ → γ} (h : modifyAt c i f = .ok c') : c'.length = c.length := by
  unfold modifyAt at h
  split at h
  · cases h; simp
  · cases h

/-- Cell updates at pairwise different positions: every listed cell gets its update, no other cell
changes, and nothing fails. -/
theorem runAll_modify (p : ι → Nat) (g : ι → γ → γ) (xs : List ι) (c : List γ)
    (hin : ∀ i ∈ xs, p i < c.length) (hnd : (xs.map p).Nodup) :
    ∃ c', runAll (fun i c => modifyAt c (p i) (g i)) xs c = .ok c' ∧ c'.length = c.length ∧
      (∀ i ∈ xs, c'[p i]? = (c[p i]?).map (g i)) ∧ (∀ k, k ∉ xs.map p → c'[k]? = c[k]?) := by
  induction xs generalizing c with
  | nil => exact ⟨c, rfl, rfl, by simp, by simp⟩
  | cons x xs ih =>
    have hx : p x < c.length := hin x List.mem_cons_self
    have hxv : c[p x]? = some c[p x] := List.getElem?_eq_getElem hx
    simp only [List.map_cons, List.nodup_cons] at hnd
    obtain ⟨c', h1, h2, h3, h4⟩ := ih (c.set (p x) (g x c[p x]))
      (by intro i hi; rw [List.length_set]; exact hin i (List.mem_cons_of_mem _ hi)) hnd.2
    refine ⟨c', ?_, by simpa using h2, ?_, ?_⟩
    · simp only [runAll, modifyAt_of hxv, ok_bind, h1]
    · intro i hi
      rcases List.mem_cons.1 hi with rfl | hi
      · rw [h4 _ hnd.1, List.getElem?_set_self hx, hxv]; rfl
      · have hne : p x ≠ p i := fun e => hnd.1 (e ▸ List.mem_map_of_mem hi)
        rw [h3 i hi, List.getElem?_set_ne hne]
    · intro k hk
      simp only [List.map_cons, List.mem_cons, not_or] at hk
      rw [h4 k hk.2, List.getElem?_set_ne (Ne.symm hk.1)]

/-- Overwriting cells: positions may repeat when the written values agree. -/
theorem runAll_write (p : ι → Nat) (w : ι → γ) (xs : List ι) (c : List γ)
    (hin : ∀ i ∈ xs, p i < c.length) (hag : ∀ i ∈ xs, ∀ j ∈ xs, p i = p j → w i = w j) :
    ∃ c', runAll (fun i c => modifyAt c (p i) (fun _ => w i)) xs c = .ok c' ∧ c'.length = c.length ∧
      (∀ i ∈ xs, c'[p i]? = some (w i)) ∧ (∀ k, k ∉ xs.map p → c'[k]? = c[k]?) := by
  induction xs generalizing c with
  | nil => exact ⟨c, rfl, rfl, by simp, by simp⟩
  | cons x xs ih =>
    have hx : p x < c.length := hin x List.mem_cons_self
    have hxv : c[p x]? = some c[p x] := List.getElem?_eq_getElem hx
    obtain ⟨c', h1, h2, h3, h4⟩ := ih (c.set (p x) (w x))
      (by intro i hi; rw [List.length_set]; exact hin i (List.mem_cons_of_mem _ hi))
      (fun i hi j hj => hag i (List.mem_cons_of_mem _ hi) j (List.mem_cons_of_mem _ hj))
    refine ⟨c', ?_, by simpa using h2, ?_, ?_⟩
    · simp only [runAll, modifyAt_of hxv, ok_bind, h1]
    · intro i hi
      by_cases hmem : p i ∈ xs.map p
      · obtain ⟨j, hj, he⟩ := List.mem_map.1 hmem
        rw [← he, h3 j hj, hag j (List.mem_cons_of_mem _ hj) i hi he]
      · rcases List.mem_cons.1 hi with rfl | hi
        · rw [h4 _ hmem, List.getElem?_set_self hx]
        · exact absurd (List.mem_map_of_mem hi) hmem
    · intro k hk
      simp only [List.map_cons, List.mem_cons, not_or] at hk
      rw [h4 k hk.2, List.getElem?_set_ne (Ne.symm hk.1)]

theorem step2_ok {a : List α} {f : γ → α → γ} {i j : Nat} {x : α} (h : a[j]? = some x) (c : List γ) :
    step2 a f i j c = modifyAt c i fun v => f v x := by
  unfold step2; rw [readAt_ok.2 h]; rfl

theorem step3_ok {a : List α} {b : List β} {f : γ → α → β → γ} {i j k : Nat} {x : α} {y : β}
    (h : a[j]? = some x) (h' : b[k]? = some y) (c : List γ) :
    step3 a b f i j k c = modifyAt c i fun v => f v x y := by
  unfold step3; rw [readAt_ok.2 h, readAt_ok.2 h']; rfl

theorem step2_length {a : List α} {f : γ → α → γ} {i j : Nat} {c c' : List γ} (h : step2 a f i j c = .ok c') :
    c'.length = c.length := by
  unfold step2 at h
  obtain ⟨x, _, h⟩ := bind_ok.1 h
  exact modifyAt_length h

theorem runAll_length {f : ι → List γ → Res (List γ)} (hf : ∀ i c c', f i c = .ok c' → c'.length = c.length)
    {xs : List ι} {c c' : List γ} (h : runAll f xs c = .ok c') : c'.length = c.length := by
  induction xs generalizing c with
  | nil => cases h; rfl
  | cons x xs ih =>
    rw [runAll] at h
    obtain ⟨d, h1, h2⟩ := bind_ok.1 h
    rw [ih h2, hf _ _ _ h1]

end

/-! ## Position lists of joint traversals -/

theorem colItems_ok {l : Layout} (hn : NonNegative l) : colItems l = .ok (positions .F l) := by
  obtain ⟨it, h1, h2, _⟩ := C22_iteration .F l hn
  unfold colItems
  rw [h1]; exact h2

/-- Storage position of an index. -/
def Layout.pos (l : Layout) (idx : List Nat) : Nat := (l.addr idx).toNat

theorem positions_eq (o : Order) (l : Layout) : positions o l = (all o l.shape).map l.pos := rfl

/-- The items of a reordered layout. -/
theorem colItems_of {l m : Layout} {e : List (List Nat)} {s : List Nat} (he : e.Perm (all .C s))
    (h : (all .F m.shape).map m.addr = e.map l.addr) (hn : ∀ i, InRange i s → 0 ≤ l.addr i) :
    colItems m = .ok (e.map l.pos) := by
  rw [colItems_ok, positions_eq]
  · congr 1
    have := congrArg (List.map Int.toNat) h
    rw [List.map_map, List.map_map] at this
    exact this
  · intro idx hi
    have : m.addr idx ∈ (all .F m.shape).map m.addr := List.mem_map_of_mem (mem_all.2 hi)
    rw [h] at this
    obtain ⟨j, hj, e2⟩ := List.mem_map.1 this
    show 0 ≤ m.addr idx
    rw [← e2]
    exact hn j (mem_all.1 (he.mem_iff.1 hj))

theorem map_pair_eq {ι κ α β : Type} {xs : List ι} {ys : List κ} {f : ι → α} {g : ι → β} {f' : κ → α} {g' : κ → β}
    (h1 : xs.map f = ys.map f') (h2 : xs.map g = ys.map g') :
    xs.map (fun i => (f i, g i)) = ys.map fun j => (f' j, g' j) := by
  induction xs generalizing ys with
  | nil =>
    cases ys with
    | nil => rfl
    | cons y ys => simp at h1
  | cons x xs ih =>
    cases ys with
    | nil => simp at h1
    | cons y ys =>
      simp only [List.map_cons, List.cons.injEq] at h1 h2
      simp [h1.1, h2.1, ih h1.2 h2.2]

/-- Blocks of `n` consecutive offsets behind every item. -/
def blockList {κ : Type} (J : List κ) (n : Nat) : List (κ × Nat) := J.flatMap fun j => (List.range n).map fun t => (j, t)

theorem runAll_blockList {κ σ : Type} (f : κ × Nat → σ → Res σ) (J : List κ) (n : Nat) (s : σ) :
    runAll f (blockList J n) s = runAll (fun j => runAll (fun t => f (j, t)) (List.range n)) J s := by
  unfold blockList
  rw [runAll_flatMap]
  apply runAll_congr
  intro j _ s
  rw [runAll_map]

theorem zip_map_self {ι α β : Type} (J : List ι) (f : ι → α) (g : ι → β) :
    (J.map f).zip (J.map g) = J.map fun j => (f j, g j) := by
  induction J with
  | nil => rfl
  | cons j J ih => simp [ih]

/-- One operand of a block traversal. -/
theorem block_pos {l m o : Layout} {e : List (List Nat)} {os s : List Nat} {n : Nat} (hn0 : n ≠ 0)
    (he : e.Perm (all .C s)) (hn : ∀ i, InRange i s → 0 ≤ l.addr i)
    (h : (all .F m.shape).map m.addr = e.map l.addr)
    (hos : o.shape = os)
    (hb : (all .F m.shape).map m.addr =
      (all .F os).flatMap fun j => (List.range n).map fun (t : Nat) => o.addr j + (t : Int)) :
    colItems o = .ok ((all .F os).map o.pos) ∧
    e.map l.pos = (blockList (all .F os) n).map fun p => o.pos p.1 + p.2 := by
  have hb' : e.map l.addr = (blockList (all .F os) n).map fun p => o.addr p.1 + (p.2 : Int) := by
    rw [← h, hb, blockList, List.map_flatMap]
    simp [List.map_map, Function.comp_def]
  have hnn : ∀ j, InRange j os → 0 ≤ o.addr j := by
    intro j hj
    have : o.addr j + ((0 : Nat) : Int) ∈ (blockList (all .F os) n).map fun p => o.addr p.1 + (p.2 : Int) := by
      refine List.mem_map.2 ⟨(j, 0), ?_, rfl⟩
      refine List.mem_flatMap.2 ⟨j, mem_all.2 hj, List.mem_map.2 ⟨0, ?_, rfl⟩⟩
      exact List.mem_range.2 (Nat.pos_of_ne_zero hn0)
    rw [← hb'] at this
    obtain ⟨i, hi, e2⟩ := List.mem_map.1 this
    have := hn i (mem_all.1 (he.mem_iff.1 hi))
    simp at e2
    omega
  constructor
  · rw [colItems_ok (by intro idx hi; exact hnn idx (hos ▸ hi)), positions_eq, hos]
  · have := congrArg (List.map Int.toNat) hb'
    simp only [List.map_map, Function.comp_def] at this
    unfold Layout.pos
    rw [this]
    apply List.map_congr_left
    rintro ⟨j, t⟩ hjt
    obtain ⟨j', hj', h2⟩ := List.mem_flatMap.1 hjt
    obtain ⟨t', ht', h3⟩ := List.mem_map.1 h2
    cases h3
    have := hnn j (mem_all.1 hj')
    simp only
    omega


theorem withContig_zero {ls outer : List Layout} {shape : List Nat} {n : Nat} (hz : 0 ∈ shape)
    (hs : ∀ l ∈ ls, l.shape = shape) (h : Layout.withContig ls = (outer, n)) : n = 0 := by
  cases ls with
  | nil =>
    simp only [Layout.withContig, Prod.mk.injEq] at h
    exact h.2.symm
  | cons l0 rest =>
    have hall : ∀ l ∈ l0 :: rest, l.ndimOfFContig = shape.length := by
      intro l hl
      have hsz : l.size = 0 := prod_eq_zero_of (by rw [hs l hl]; exact hz)
      unfold Layout.ndimOfFContig
      rw [if_pos (Or.inr hsz), ← hs l hl]
      simp [Layout.ndim, Layout.shape]
    have hmin : (rest.map Layout.ndimOfFContig).foldl min l0.ndimOfFContig = shape.length := by
      rw [hall l0 List.mem_cons_self]
      have : ∀ (xs : List Nat), (∀ x ∈ xs, x = shape.length) → xs.foldl min shape.length = shape.length := by
        intro xs
        induction xs with
        | nil => simp
        | cons x xs ih =>
          intro hx
          rw [List.foldl_cons, hx x List.mem_cons_self, Nat.min_self]
          exact ih fun y hy => hx y (List.mem_cons_of_mem _ hy)
      apply this
      intro x hx
      obtain ⟨l, hl, rfl⟩ := List.mem_map.1 hx
      exact hall l (List.mem_cons_of_mem _ hl)
    unfold Layout.withContig at h
    simp only [hmin] at h
    split at h
    · simp only [Prod.mk.injEq] at h; exact h.2.symm
    · simp only [Prod.mk.injEq] at h
      rw [← h.2, hs l0 List.mem_cons_self, List.take_of_length_le (Nat.le_refl _)]
      exact prod_eq_zero_of hz

theorem ndim_of_shape {l m : Layout} {s : List Nat} (h : l.shape = s) (h' : m.shape = s) : l.ndim = m.ndim := by
  have := congrArg List.length (h.trans h'.symm)
  simpa [Layout.shape, Layout.ndim] using this

/-- A layout fit for a kernel: accepted, offset not wrapped, of the given shape. -/
structure Fit (s : List Nat) (l : Layout) : Prop where
  valid : l.Valid
  off : 0 ≤ l.offset
  shape : l.shape = s

theorem Fit.nonneg {s : List Nat} {l : Layout} (h : Fit s l) : ∀ i, InRange i s → 0 ≤ l.addr i := by
  intro i hi
  exact C22_valid_nonNegative l h.valid h.off i (h.shape ▸ hi)

theorem forall2_one {α β : Type} {R : α → β → Prop} {a : α} {ms : List β} (h : List.Forall₂ R [a] ms) :
    ∃ x, ms = [x] ∧ R a x := by
  cases h with
  | cons h1 h => cases h with
    | nil => exact ⟨_, rfl, h1⟩

theorem forall2_two {α β : Type} {R : α → β → Prop} {a b : α} {ms : List β} (h : List.Forall₂ R [a, b] ms) :
    ∃ x y, ms = [x, y] ∧ R a x ∧ R b y := by
  cases h with
  | cons h1 h =>
    obtain ⟨y, rfl, h2⟩ := forall2_one h
    exact ⟨_, y, rfl, h1, h2⟩

theorem forall2_three {α β : Type} {R : α → β → Prop} {a b c : α} {ms : List β} (h : List.Forall₂ R [a, b, c] ms) :
    ∃ x y z, ms = [x, y, z] ∧ R a x ∧ R b y ∧ R c z := by
  cases h with
  | cons h1 h =>
    obtain ⟨y, z, rfl, h2, h3⟩ := forall2_two h
    exact ⟨_, y, z, rfl, h1, h2, h3⟩

/-- Joint traversal of two layouts in K order, full and blockwise. -/
theorem joint2 (dflt : Order) {s : List Nat} {lc la : Layout} (hc : Fit s lc) (ha : Fit s la) :
    ∃ (e : List (List Nat)) (mc ma : Layout), e.Perm (all .C s) ∧
      Layout.toColMajorMany dflt [lc, la] .K = .ok [mc, ma] ∧ mc.ndim = ma.ndim ∧
      colItems mc = .ok (e.map lc.pos) ∧ colItems ma = .ok (e.map la.pos) ∧
      ∀ contig n, Layout.withContig [mc, ma] = (contig, n) → n ≠ 0 →
        ∃ (oc oa : Layout) (J : List (List Nat)), contig = [oc, oa] ∧ oc.ndim = oa.ndim ∧
          colItems oc = .ok (J.map oc.pos) ∧ colItems oa = .ok (J.map oa.pos) ∧
          e.map (fun i => (lc.pos i, la.pos i)) =
            (blockList J n).map fun p => (oc.pos p.1 + p.2, oa.pos p.1 + p.2) := by
  have hf : ∀ l ∈ [lc, la], Fit s l := by
    intro l hl
    simp only [List.mem_cons, List.not_mem_nil, or_false] at hl
    rcases hl with rfl | rfl <;> assumption
  obtain ⟨ms, e, h1, h2, h3, s', h4⟩ := C28_joint dflt s [lc, la] (fun l hl => (hf l hl).valid)
    (fun l hl => (hf l hl).shape) .K (by simp)
  obtain ⟨mc, ma, rfl, k1, k2⟩ := forall2_two h3
  refine ⟨e, mc, ma, h2, h1, ndim_of_shape (h4 mc (by simp)) (h4 ma (by simp)), colItems_of h2 k1 hc.nonneg,
    colItems_of h2 k2 ha.nonneg, ?_⟩
  intro contig n hw hn
  have hz : 0 ∉ s' := fun hz => hn (withContig_zero hz h4 hw)
  obtain ⟨os, j1, _, j2⟩ := C29_contiguous_block s' hz [mc, ma] contig n h4 hw hn
  obtain ⟨oc, oa, rfl, b1, b2⟩ := forall2_two j2
  have o1 := j1 oc (by simp)
  have o2 := j1 oa (by simp)
  obtain ⟨c1, c2⟩ := block_pos hn h2 hc.nonneg k1 o1 b1
  obtain ⟨d1, d2⟩ := block_pos hn h2 ha.nonneg k2 o2 b2
  exact ⟨oc, oa, all .F os, rfl, ndim_of_shape o1 o2, c1, d1, map_pair_eq c2 d2⟩

/-- Joint traversal of three layouts in K order, full and blockwise. -/
theorem joint3 (dflt : Order) {s : List Nat} {lc la lb : Layout} (hc : Fit s lc) (ha : Fit s la) (hb : Fit s lb) :
    ∃ (e : List (List Nat)) (mc ma mb : Layout), e.Perm (all .C s) ∧
      Layout.toColMajorMany dflt [lc, la, lb] .K = .ok [mc, ma, mb] ∧ mc.ndim = ma.ndim ∧ mc.ndim = mb.ndim ∧
      colItems mc = .ok (e.map lc.pos) ∧ colItems ma = .ok (e.map la.pos) ∧ colItems mb = .ok (e.map lb.pos) ∧
      ∀ contig n, Layout.withContig [mc, ma, mb] = (contig, n) → n ≠ 0 →
        ∃ (oc oa ob : Layout) (J : List (List Nat)), contig = [oc, oa, ob] ∧ oc.ndim = oa.ndim ∧ oc.ndim = ob.ndim ∧
          colItems oc = .ok (J.map oc.pos) ∧ colItems oa = .ok (J.map oa.pos) ∧ colItems ob = .ok (J.map ob.pos) ∧
          e.map (fun i => (lc.pos i, la.pos i, lb.pos i)) =
            (blockList J n).map fun p => (oc.pos p.1 + p.2, oa.pos p.1 + p.2, ob.pos p.1 + p.2) := by
  have hf : ∀ l ∈ [lc, la, lb], Fit s l := by
    intro l hl
    simp only [List.mem_cons, List.not_mem_nil, or_false] at hl
    rcases hl with rfl | rfl | rfl <;> assumption
  obtain ⟨ms, e, h1, h2, h3, s', h4⟩ := C28_joint dflt s [lc, la, lb] (fun l hl => (hf l hl).valid)
    (fun l hl => (hf l hl).shape) .K (by simp)
  obtain ⟨mc, ma, mb, rfl, k1, k2, k3⟩ := forall2_three h3
  refine ⟨e, mc, ma, mb, h2, h1, ndim_of_shape (h4 mc (by simp)) (h4 ma (by simp)),
    ndim_of_shape (h4 mc (by simp)) (h4 mb (by simp)), colItems_of h2 k1 hc.nonneg,
    colItems_of h2 k2 ha.nonneg, colItems_of h2 k3 hb.nonneg, ?_⟩
  intro contig n hw hn
  have hz : 0 ∉ s' := fun hz => hn (withContig_zero hz h4 hw)
  obtain ⟨os, j1, _, j2⟩ := C29_contiguous_block s' hz [mc, ma, mb] contig n h4 hw hn
  obtain ⟨oc, oa, ob, rfl, b1, b2, b3⟩ := forall2_three j2
  have o1 := j1 oc (by simp)
  have o2 := j1 oa (by simp)
  have o3 := j1 ob (by simp)
  obtain ⟨c1, c2⟩ := block_pos hn h2 hc.nonneg k1 o1 b1
  obtain ⟨d1, d2⟩ := block_pos hn h2 ha.nonneg k2 o2 b2
  obtain ⟨f1, f2⟩ := block_pos hn h2 hb.nonneg k3 o3 b3
  exact ⟨oc, oa, ob, all .F os, rfl, ndim_of_shape o1 o2, ndim_of_shape o1 o3, c1, d1, f1,
    map_pair_eq c2 (map_pair_eq d2 f2)⟩

/-- Traversal of one layout in G order: every stored position once. -/
theorem joint1G_of (dflt : Order) {s : List Nat} {l : Layout} (hv : l.Valid) (hs : l.shape = s)
    (hn0 : ∀ i, InRange i s → 0 ≤ l.addr i) :
    ∃ (ps : List Nat) (m : Layout), l.toColMajor dflt .G = .ok m ∧ colItems m = .ok ps ∧ ps.Nodup ∧
      (∀ x, x ∈ ps ↔ ∃ idx, InRange idx s ∧ l.pos idx = x) ∧
      ∀ contig n, Layout.withContig [m] = (contig, n) → n ≠ 0 →
        ∃ (o : Layout) (J : List (List Nat)), contig = [o] ∧ colItems o = .ok (J.map o.pos) ∧
          ps = (blockList J n).map fun p => o.pos p.1 + p.2 := by
  obtain ⟨m, p, h1, h2, h3⟩ := greedy_drop_positions (valid_iff.1 hv) .F .C
  have hnn : ∀ i, InRange i m.shape → 0 ≤ m.addr i := by
    intro i hi
    obtain ⟨j, hj, e⟩ := List.mem_map.1 ((h3 _).1 (List.mem_map_of_mem (mem_all.2 hi)))
    rw [← e]
    exact hn0 j (hs ▸ mem_all.1 hj)
  have hp : (all .F m.shape).Perm (all .C m.shape) := perm_all _ _ _
  have e0 : (all .F m.shape).map m.addr = (all .F m.shape).map m.addr := rfl
  refine ⟨(all .F m.shape).map m.pos, m, ?_, colItems_of hp e0 hnn, ?_, ?_, ?_⟩
  · rw [Layout.toColMajor, h1]; rfl
  · have hmap : (all .F m.shape).map m.pos = ((all .F m.shape).map m.addr).map Int.toNat := by
      rw [List.map_map]; rfl
    rw [hmap]
    apply List.Nodup.map_on _ h2
    intro x hx y hy hxy
    obtain ⟨i, hi, rfl⟩ := List.mem_map.1 hx
    obtain ⟨j, hj, rfl⟩ := List.mem_map.1 hy
    have := hnn i (mem_all.1 hi)
    have := hnn j (mem_all.1 hj)
    omega
  · intro x
    constructor
    · intro hx
      obtain ⟨i, hi, rfl⟩ := List.mem_map.1 hx
      obtain ⟨j, hj, e⟩ := List.mem_map.1 ((h3 _).1 (List.mem_map_of_mem hi))
      exact ⟨j, hs ▸ mem_all.1 hj, by unfold Layout.pos; rw [e]⟩
    · rintro ⟨j, hj, rfl⟩
      obtain ⟨i, hi, e⟩ := List.mem_map.1 ((h3 (l.addr j)).2 (List.mem_map_of_mem (mem_all.2 (hs.symm ▸ hj))))
      exact List.mem_map.2 ⟨i, hi, by unfold Layout.pos; rw [e]⟩
  · intro contig n hw hn
    have h4 : ∀ l ∈ [m], l.shape = m.shape := by simp
    have hz : 0 ∉ m.shape := fun hz => hn (withContig_zero hz h4 hw)
    obtain ⟨os, j1, _, j2⟩ := C29_contiguous_block m.shape hz [m] contig n h4 hw hn
    obtain ⟨o, rfl, b1⟩ := forall2_one j2
    have o1 := j1 o (by simp)
    obtain ⟨c1, c2⟩ := block_pos hn hp hnn e0 o1 b1
    exact ⟨o, all .F os, rfl, c1, c2⟩

/-! ## Kernels as one loop over indices -/

section
variable {α β γ : Type}

theorem joint1G (dflt : Order) {s : List Nat} {l : Layout} (h : Fit s l) :
    ∃ (ps : List Nat) (m : Layout), l.toColMajor dflt .G = .ok m ∧ colItems m = .ok ps ∧ ps.Nodup ∧
      (∀ x, x ∈ ps ↔ ∃ idx, InRange idx s ∧ l.pos idx = x) ∧
      ∀ contig n, Layout.withContig [m] = (contig, n) → n ≠ 0 →
        ∃ (o : Layout) (J : List (List Nat)), contig = [o] ∧ colItems o = .ok (J.map o.pos) ∧
          ps = (blockList J n).map fun p => o.pos p.1 + p.2 :=
  joint1G_of dflt h.valid h.shape h.nonneg

theorem opMutaRefb_eq (dflt : Order) {s : List Nat} {lc la : Layout} (hc : Fit s lc) (ha : Fit s la)
    (c : List γ) (a : List α) (f : γ → α → γ) :
    ∃ e : List (List Nat), e.Perm (all .C s) ∧
      opMutaRefb dflt c lc a la f = runAll (fun i => step2 a f (lc.pos i) (la.pos i)) e c := by
  obtain ⟨e, mc, ma, h1, h2, h3, h4, h5, h6⟩ := joint2 dflt hc ha
  refine ⟨e, h1, ?_⟩
  unfold opMutaRefb
  rw [h2]
  simp only [ok_bind]
  cases hw : Layout.withContig [mc, ma] with
  | mk contig n =>
    simp only
    split
    · rename_i hge
      obtain ⟨oc, oa, J, rfl, k2, k3, k4, k5⟩ := h6 contig n hw (by unfold contigSwitch at hge; omega)
      simp only [dispatch2, k2, ne_eq, not_true_eq_false, if_false, k3, k4, ok_bind, zip_map_self, runAll_map]
      have := runAll_map (fun p : Nat × Nat => step2 a f p.1 p.2) (fun i => (lc.pos i, la.pos i)) e c
      rw [← this, k5, runAll_map, runAll_blockList]
    · simp only [dispatch2, h3, ne_eq, not_true_eq_false, if_false, h4, h5, ok_bind, zip_map_self, runAll_map]

theorem opMutcRefaRefb_eq (dflt : Order) {s : List Nat} {lc la lb : Layout} (hc : Fit s lc) (ha : Fit s la)
    (hb : Fit s lb) (c : List γ) (a : List α) (b : List β) (f : γ → α → β → γ) :
    ∃ e : List (List Nat), e.Perm (all .C s) ∧
      opMutcRefaRefb dflt c lc a la b lb f =
        runAll (fun i => step3 a b f (lc.pos i) (la.pos i) (lb.pos i)) e c := by
  obtain ⟨e, mc, ma, mb, h1, h2, h3, h3', h4, h5, h5', h6⟩ := joint3 dflt hc ha hb
  refine ⟨e, h1, ?_⟩
  unfold opMutcRefaRefb
  rw [h2]
  simp only [ok_bind]
  cases hw : Layout.withContig [mc, ma, mb] with
  | mk contig n =>
    simp only
    split
    · rename_i hge
      obtain ⟨oc, oa, ob, J, rfl, k2, k2', k3, k4, k4', k5⟩ := h6 contig n hw (by unfold contigSwitch at hge; omega)
      simp only [dispatch3, ← k2, ← k2', ne_eq, not_true_eq_false, if_false, k3, k4, k4', ok_bind, zip_map_self, runAll_map]
      have := runAll_map (fun p : Nat × Nat × Nat => step3 a b f p.1 p.2.1 p.2.2)
        (fun i => (lc.pos i, la.pos i, lb.pos i)) e c
      rw [← this, k5, runAll_map, runAll_blockList]
    · simp only [dispatch3, ← h3, ← h3', ne_eq, not_true_eq_false, if_false, h4, h5, h5', ok_bind, zip_map_self, runAll_map]

theorem opMuta_eq (dflt : Order) {s : List Nat} {l : Layout} (h : Fit s l) (c : List γ) (f : γ → γ) :
    ∃ ps : List Nat, ps.Nodup ∧ (∀ x, x ∈ ps ↔ ∃ idx, InRange idx s ∧ l.pos idx = x) ∧
      opMuta dflt c l f = runAll (fun i c => modifyAt c i f) ps c := by
  obtain ⟨ps, m, h1, h2, h3, h4, h5⟩ := joint1G dflt h
  refine ⟨ps, h3, h4, ?_⟩
  unfold opMuta
  rw [h1]
  simp only [ok_bind]
  cases hw : Layout.withContig [m] with
  | mk contig n =>
    simp only
    split
    · rename_i hge
      obtain ⟨o, J, rfl, k1, k2⟩ := h5 contig n hw (by unfold contigSwitch at hge; omega)
      simp only [dispatch1, k1, ok_bind, runAll_map]
      rw [k2, runAll_map, runAll_blockList]
    · simp only [dispatch1, h2, ok_bind]

theorem fill_eq_of (dflt : Order) {s : List Nat} {l : Layout} (hv : l.Valid) (hs : l.shape = s)
    (hn0 : ∀ i, InRange i s → 0 ≤ l.addr i) (c : List γ) (v : γ) :
    ∃ ps : List Nat, ps.Nodup ∧ (∀ x, x ∈ ps ↔ ∃ idx, InRange idx s ∧ l.pos idx = x) ∧
      fill dflt c l v = runAll (fun i c => modifyAt c i fun _ => v) ps c := by
  obtain ⟨ps, m, h1, h2, h3, h4, h5⟩ := joint1G_of dflt hv hs hn0
  refine ⟨ps, h3, h4, ?_⟩
  unfold fill
  rw [h1]
  simp only [ok_bind]
  cases hw : Layout.withContig [m] with
  | mk contig n =>
    simp only
    split
    · rename_i hge
      obtain ⟨o, J, rfl, k1, k2⟩ := h5 contig n hw (by unfold contigSwitch at hge; omega)
      simp only [dispatch1, k1, ok_bind, runAll_map]
      rw [k2, runAll_map, runAll_blockList]
    · simp only [dispatch1, h2, ok_bind]

theorem fill_eq (dflt : Order) {s : List Nat} {l : Layout} (h : Fit s l) (c : List γ) (v : γ) :
    ∃ ps : List Nat, ps.Nodup ∧ (∀ x, x ∈ ps ↔ ∃ idx, InRange idx s ∧ l.pos idx = x) ∧
      fill dflt c l v = runAll (fun i c => modifyAt c i fun _ => v) ps c :=
  fill_eq_of dflt h.valid h.shape h.nonneg c v

end
end Rstsr
