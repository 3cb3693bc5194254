import Verif.Model.Vecdot
import Verif.Proof.ReduceAxes
import Verif.Proof.Matmul
import Verif.Proof.Apart
import Verif.Thm.Views
/-!
# Lemmas about `vecdot`
-/
namespace Rstsr
open Spec

/-! ## Contiguous axes -/

theorem commonPrefix_prefix (as bs : List Nat) :
    (Layout.commonPrefix as bs) <+: as ∧ (Layout.commonPrefix as bs) <+: bs := by
  induction as generalizing bs with
  | nil => cases bs <;> exact ⟨List.nil_prefix, List.nil_prefix⟩
  | cons a as ih =>
    cases bs with
    | nil => exact ⟨List.nil_prefix, List.nil_prefix⟩
    | cons b bs =>
      simp only [Layout.commonPrefix]
      split
      · rename_i e; subst e
        exact ⟨List.cons_prefix_cons.2 ⟨rfl, (ih bs).1⟩, List.cons_prefix_cons.2 ⟨rfl, (ih bs).2⟩⟩
      · exact ⟨List.nil_prefix, List.nil_prefix⟩

theorem commonPrefix3_prefix (as bs cs : List Nat) :
    commonPrefix3 as bs cs <+: as ∧ commonPrefix3 as bs cs <+: bs ∧ commonPrefix3 as bs cs <+: cs := by
  induction as generalizing bs cs with
  | nil => simp [commonPrefix3]
  | cons a as ih =>
    cases bs with
    | nil => simp [commonPrefix3]
    | cons b bs =>
      cases cs with
      | nil => simp [commonPrefix3]
      | cons c cs =>
        simp only [commonPrefix3]
        split
        · rename_i e; obtain ⟨rfl, rfl⟩ := e
          obtain ⟨h1, h2, h3⟩ := ih bs cs
          exact ⟨List.cons_prefix_cons.2 ⟨rfl, h1⟩, List.cons_prefix_cons.2 ⟨rfl, h2⟩, List.cons_prefix_cons.2 ⟨rfl, h3⟩⟩
        · exact ⟨List.nil_prefix, List.nil_prefix, List.nil_prefix⟩

/-- A beginning of the contiguous axes is packed. -/
theorem contig_packed {l : Layout} (hl : l.Valid) (hz : 0 ∉ l.shape) {p : List Nat} (hp : p <+: l.axesComposition.2.2) :
    Packed 1 (pick l.axes p) ∧ p.Nodup ∧ ∀ a ∈ p, a < l.ndim := by
  obtain ⟨h1, h2⟩ := moving_superInc' hl hz
  obtain ⟨k, k1, k2⟩ := contigPart_prefix l.movingAxes 0 h1 h2
  have k1 : Layout.contigPart l.axes 1 l.movingAxes = l.movingAxes.take k := k1
  have k2 : Packed 1 (pick l.axes (l.movingAxes.take k)) := k2
  rw [composition_contig, k1] at hp
  obtain ⟨t, ht⟩ := hp
  refine ⟨?_, ?_, ?_⟩
  · rw [← ht] at k2
    have e : pick l.axes (p ++ t) = pick l.axes p ++ pick l.axes t := by simp [pick]
    rw [e] at k2
    exact packed_append k2
  · have : (l.movingAxes.take k).Nodup := (moving_nodup l).sublist (List.take_sublist _ _)
    rw [← ht] at this
    exact (List.nodup_append'.1 this).1
  · intro a ha
    have : a ∈ l.movingAxes.take k := by rw [← ht]; exact List.mem_append_left _ ha
    exact (mem_moving.1 (List.mem_of_mem_take this)).1

/-- The layout of the axes not in `p`. -/
def restOf (m : Layout) (p : List Nat) : Layout := ⟨pick m.axes (otherAxes m.ndim p), m.offset⟩

/-- The lengths of the axes not in `p`. -/
def restShape (s p : List Nat) : List Nat := (otherAxes s.length p).map fun a => s.getD a 0

theorem restOf_shape {s : List Nat} {m : Layout} (h : m.shape = s) (p : List Nat) : (restOf m p).shape = restShape s p := by
  have hn : m.ndim = s.length := by rw [← h]; simp [Layout.ndim, Layout.shape]
  show dims (pick m.axes _) = _
  rw [dims_pick, show dims m.axes = s from h, hn]; rfl

theorem splitRest_ok {s : List Nat} {l : Layout} (h : Fit s l) (hz : 0 ∉ s) {p : List Nat} (hnd : p.Nodup)
    (hlt : ∀ a ∈ p, a < s.length) : splitRest l p = .ok (restOf l p) ∧ Fit (restShape s p) (restOf l p) := by
  have hn : l.ndim = s.length := by rw [← h.shape]; simp [Layout.ndim, Layout.shape]
  have e1 : (p.map Int.ofNat).map (normAxis l.ndim) = p := by
    rw [List.map_map]
    conv_rhs => rw [← List.map_id p]
    apply List.map_congr_left
    intro a _
    exact normAxis_ofNat _ _
  obtain ⟨q, hq⟩ := (C52_split_axes_accept_iff l h.valid h.off (h.shape ▸ hz) (p.map Int.ofNat)).2
    ⟨fun a ha => by
      obtain ⟨b, hb, rfl⟩ := List.mem_map.1 ha
      exact axisOk_ofNat (hn ▸ hlt b hb), by rwa [e1]⟩
  unfold splitRest
  rw [hq]
  unfold Layout.dimSplitAxes at hq
  obtain ⟨v, hv, hq⟩ := bind_ok.1 hq
  obtain ⟨-, -, rfl⟩ := normalizeAxes_ok.1 hv
  simp only [Bool.false_eq_true, if_false, e1] at hq
  obtain ⟨x, hx, hq⟩ := bind_ok.1 hq
  obtain ⟨y, hy, hq⟩ := bind_ok.1 hq
  cases hq
  obtain ⟨hy', rfl⟩ := accepted_of_newAxes hy
  have e2 : (⟨(((List.range l.ndim).filter fun a => !p.contains a).map fun a => l.axes.getD a default), l.offset⟩ : Layout) =
      restOf l p := by
    rw [restOf, ← otherAxes_contains]; rfl
  rw [e2] at hy' ⊢
  exact ⟨rfl, valid_iff.2 hy', h.off, restOf_shape h.shape p⟩

/-- The items of a traversal in blocks along contiguous axes. -/
theorem block_index {s p : List Nat} (hnd : p.Nodup) (hlt : ∀ a ∈ p, a < s.length) :
    ∃ F : List Nat × Nat → List Nat,
      (∀ E, E.Perm (all .C (restShape s p)) →
        ((blockList E (p.map fun a => s.getD a 0).prod).map F).Perm (all .C s)) ∧
      ∀ m : Layout, m.shape = s → Packed 1 (pick m.axes p) → ∀ j, InRange j (restShape s p) →
        ∀ t < (p.map fun a => s.getD a 0).prod, m.addr (F (j, t)) = (restOf m p).addr j + (t : Int) := by
  have hp : (p ++ otherAxes s.length p).Perm (List.range s.length) := append_otherAxes_perm hnd hlt
  set q := p ++ otherAxes s.length p with hq
  have hqn : q.Nodup := hp.nodup_iff.2 List.nodup_range
  have hql : ∀ a ∈ q, a < s.length := fun a ha => List.mem_range.1 (hp.mem_iff.1 ha)
  obtain ⟨j1, j2⟩ := joint_pick hqn hql fun i hi hni => absurd (hp.mem_iff.2 (List.mem_range.2 hi)) hni
  set cd := p.map fun a => s.getD a 0 with hcd
  have hqs : (q.map fun a => s.getD a 0) = cd ++ restShape s p := by rw [hq, List.map_append]; rfl
  rw [hqs] at j1
  refine ⟨fun x => fullIdx s.length q ((allF cd).getD x.2 [] ++ x.1), ?_, ?_⟩
  · intro E hE
    refine List.Perm.trans ?_ j1
    have e : all .F (cd ++ restShape s p) = (allF (restShape s p)).flatMap fun j => (allF cd).map (· ++ j) := allF_append _ _
    have e2 : (blockList E cd.prod).map (fun x => fullIdx s.length q ((allF cd).getD x.2 [] ++ x.1)) =
        (E.flatMap fun j => (allF cd).map (· ++ j)).map (fullIdx s.length q) := by
      rw [blockList, List.map_flatMap, List.map_flatMap]
      congr 1
      funext j
      rw [List.map_map, List.map_map]
      have : (allF cd) = (List.range cd.prod).map fun t => (allF cd).getD t [] := by
        have hl : (allF cd).length = cd.prod := by
          have := congrArg List.length (map_rank_allF cd)
          simpa using this
        rw [← hl]
        exact (map_getD_range _ _).symm
      conv_rhs => rw [this, List.map_map]
      rfl
    rw [e2, e]
    apply List.Perm.map
    apply List.Perm.flatMap_right
    exact hE.trans (perm_all .C .F _)
  · intro m hm hpk j hj t ht
    have hl : (allF cd).length = cd.prod := by
      have := congrArg List.length (map_rank_allF cd)
      simpa using this
    have hmem : (allF cd).getD t [] ∈ allF cd := by
      rw [List.getD_eq_getElem?_getD, List.getElem?_eq_getElem (by omega)]; exact List.getElem_mem _
    have hin : InRange ((allF cd).getD t []) cd := (mem_all (o := .F)).1 hmem
    have hrank : rankF cd ((allF cd).getD t []) = t := by
      have := congrArg (·[t]?) (map_rank_allF cd)
      simp only [List.getElem?_map, List.getElem?_range ht] at this
      rw [List.getElem?_eq_getElem (by omega)] at this
      rw [List.getD_eq_getElem?_getD, List.getElem?_eq_getElem (by omega)]
      simpa using this
    have hd : dims (pick m.axes p) = cd := by rw [dims_pick, show dims m.axes = s from hm]
    have hn : m.ndim = s.length := by rw [← hm]; simp [Layout.ndim, Layout.shape]
    have hl2 : ((allF cd).getD t []).length = (pick m.axes p).length := by
      rw [pick_length]; simpa [hcd] using hin.length_eq
    rw [← j2 m hm _ (by rw [hqs]; exact (inRange_append hin.length_eq).2 ⟨hin, hj⟩)]
    rw [addr_eq, restOf, addr_eq, hn]
    have e2 : pick m.axes q = pick m.axes p ++ pick m.axes (otherAxes s.length p) := by rw [hq]; simp [pick]
    simp only
    rw [e2, dot_append hl2, packed_dot hpk (by rw [hd]; exact hin), hd, hrank]
    ring

/-! ## Loops of updates -/

section
variable {ι κ γ : Type}

theorem procLoop_map (g : κ → Res (Proc γ)) (f : ι → κ) (xs : List ι) :
    procLoop g (xs.map f) = procLoop (fun x => g (f x)) xs := by
  induction xs with
  | nil => rfl
  | cons x xs ih => simp only [List.map_cons, procLoop, ih]

theorem procLoop_apart {g : ι → Res (Proc γ)} {u : ι → List (Nat × (γ → γ))} {xs : List ι}
    (h : ∀ x ∈ xs, ∃ p, g x = .ok p ∧ updates p = u x ∧ Apart p) :
    ∃ p, procLoop g xs = .ok p ∧ updates p = xs.flatMap u ∧ Apart p := by
  induction xs with
  | nil => exact ⟨.nil, rfl, rfl, trivial⟩
  | cons x xs ih =>
    obtain ⟨p, h1, h2, h3⟩ := h x (by simp)
    obtain ⟨q, h4, h5, h6⟩ := ih fun y hy => h y (by simp [hy])
    refine ⟨.seq p q, ?_, ?_, h3, h6⟩
    · rw [procLoop, h1]; simp only [ok_bind, h4]; rfl
    · rw [updates, h2, h5, List.flatMap_cons]

theorem parRange_apart {g : Nat → Res (Proc γ)} {u : Nat → List (Nat × (γ → γ))} (plan : Plan) {xs : List Nat}
    (h : ∀ x ∈ xs, ∃ p, g x = .ok p ∧ updates p = u x ∧ Apart p)
    (hd : xs.Pairwise fun x y => List.Disjoint ((u x).map Prod.fst) ((u y).map Prod.fst)) :
    ∃ p, parRange g plan xs = .ok p ∧ updates p = xs.flatMap u ∧ Apart p := by
  obtain ⟨p, h1, h2⟩ := parRange_built (R := fun x p => updates p = u x ∧ Apart p) plan h
  exact ⟨p, h1, h2.updates fun _ _ hr => hr.1, h2.apart (fun _ _ hr => hr) hd⟩

/-- The serial loop over three layouts. -/
theorem dispatch3_run {mc ma mb : Layout} {E : List ι} {pc pa pb : ι → Nat} (hd : mc.ndim = ma.ndim) (hd' : mc.ndim = mb.ndim)
    (hc : colItems mc = .ok (E.map pc)) (ha : colItems ma = .ok (E.map pa)) (hb : colItems mb = .ok (E.map pb))
    {f : Nat × Nat × Nat → List γ → Res (List γ)} {U : ι → List (Nat × (γ → γ))} {n : Nat}
    (h : ∀ j ∈ E, ∀ c : List γ, c.length = n → f (pc j, pa j, pb j) c = runU (U j) c)
    (hb' : ∀ j ∈ E, ∀ u ∈ U j, u.1 < n) (c : List γ) (hn : c.length = n) :
    dispatch3 mc ma mb f c = runU (E.flatMap U) c := by
  unfold dispatch3
  rw [if_neg (by simp [hd]), if_neg (by simp [hd']), hc]
  simp only [ok_bind]
  rw [ha]
  simp only [ok_bind]
  rw [hb]
  simp only [ok_bind]
  rw [zip3_map, runAll_map, runU_flatMap]
  clear hc ha hb
  induction E generalizing c with
  | nil => rfl
  | cons j E ih =>
    simp only [runAll]
    rw [h j (by simp) c hn]
    obtain ⟨c', k1, k2, -⟩ := runU_effect (U := U j) (c := c) (by rw [hn]; exact hb' j (by simp))
    rw [k1]
    simp only [ok_bind]
    exact ih (fun i hi => h i (by simp [hi])) (fun i hi => hb' i (by simp [hi])) c' (by omega)

/-- The parallel loop over three layouts. -/
theorem dispatchPar3_apart {mc ma mb : Layout} {E : List ι} {pc pa pb : ι → Nat} (hd : mc.ndim = ma.ndim) (hd' : mc.ndim = mb.ndim)
    (hc : colItems mc = .ok (E.map pc)) (ha : colItems ma = .ok (E.map pa)) (hb : colItems mb = .ok (E.map pb)) (hE : E ≠ [])
    {g : Plan → Nat × Nat × Nat → Res (Proc γ)} {U : ι → List (Nat × (γ → γ))} {s : Scheduler} (hs : s.Fits) (n : Nat)
    (hinj : ∀ i ∈ E, ∀ j ∈ E, pc i = pc j → i = j)
    (h : ∀ pl, ∀ j ∈ E, ∃ p, g pl (pc j, pa j, pb j) = .ok p ∧ updates p = U j ∧ Apart p)
    (hdis : E.Pairwise fun x y => List.Disjoint ((U x).map Prod.fst) ((U y).map Prod.fst)) :
    ∃ p, dispatchPar3 mc ma mb g s n = .ok p ∧ updates p = E.flatMap U ∧ Apart p := by
  classical
  have hx : E.map pc ≠ [] := by simpa using hE
  have hy : E.map pa ≠ [] := by simpa using hE
  have hz : E.map pb ≠ [] := by simpa using hE
  let u : Nat × Nat × Nat → List (Nat × (γ → γ)) := fun x => ((E.find? fun j => decide (pc j = x.1)).map U).getD []
  have hu : ∀ j ∈ E, u (pc j, pa j, pb j) = U j := by
    intro j hj
    have : E.find? (fun i => decide (pc i = pc j)) = some j := by
      cases e : E.find? (fun i => decide (pc i = pc j)) with
      | none => exact absurd (List.find?_eq_none.1 e j hj) (by simp)
      | some i =>
        have h1 := List.mem_of_find?_eq_some e
        have h2 := List.find?_some e
        rw [hinj i h1 j hj (by simpa using h2)]
    show ((E.find? fun i => decide (pc i = pc j)).map U).getD [] = U j
    rw [this]; rfl
  obtain ⟨a, a1, a2, a3, a4, a5, a6⟩ := iter_of_items hc hx
  obtain ⟨b, b1, b2, b3, b4, b5, b6⟩ := iter_of_items ha hy
  obtain ⟨c, c1, c2, c3, c4, c5, c6⟩ := iter_of_items hb hz
  have hl : a.len = b.len := by rw [a6, b6]; simp
  have hl' : a.len = c.len := by rw [a6, c6]; simp
  unfold dispatchPar3
  rw [if_neg (by simp [hd]), if_neg (by simp [hd']), a1]
  simp only [ok_bind]
  rw [b1]
  simp only [ok_bind]
  rw [c1]
  simp only [ok_bind]
  have hm : min a.len (min b.len c.len) = a.len := by omega
  rw [hm]
  have hzip : a.items.zip (b.items.zip c.items) = E.map fun j => (pc j, pa j, pb j) := by
    rw [a5, b5, c5, zip3_map]
  obtain ⟨p, h1, h2⟩ := parIter3_built (R := fun x p => updates p = u x ∧ Apart p) (g := g) _ a2 a3 a4 b2 b3 b4 c2 c3 c4 hl hl' (hs a.len n) (by
    intro pl x hx
    rw [hzip] at hx
    obtain ⟨j, hj, rfl⟩ := List.mem_map.1 hx
    obtain ⟨p, q1, q2, q3⟩ := h pl j hj
    exact ⟨p, q1, by rw [hu j hj]; exact q2, q3⟩)
  rw [hzip] at h2
  refine ⟨p, h1, ?_, ?_⟩
  · rw [h2.updates (u := u) fun _ _ hr => hr.1, List.flatMap_map]
    exact List.flatMap_congr fun j hj => hu j hj
  · refine h2.apart (u := u) (fun _ _ hr => hr) ?_
    rw [List.pairwise_map]
    refine hdis.imp_of_mem ?_
    intro x y hx hy hxy
    rw [hu x hx, hu y hy]
    exact hxy

/-- Parts of the work that write the same value or leave the cell alone. -/
theorem effect_writes {k : Nat} {f : ι → List (Nat × (γ → γ))} {w : γ} {xs : List ι}
    (h : ∀ x ∈ xs, (∀ v, effect k (f x) v = v) ∨ ∀ v, effect k (f x) v = w) (hx : ∃ x ∈ xs, ∀ v, effect k (f x) v = w) (v : γ) :
    effect k (xs.flatMap f) v = w := by
  rw [effect_fold]
  have key : ∀ xs : List ι, (∀ x ∈ xs, (∀ v, effect k (f x) v = v) ∨ ∀ v, effect k (f x) v = w) →
      xs.foldl (fun v x => effect k (f x) v) w = w := by
    intro xs
    induction xs with
    | nil => intro _; rfl
    | cons x xs ih =>
      intro h
      rw [List.foldl_cons]
      have : effect k (f x) w = w := by rcases h x (by simp) with e | e <;> exact e w
      rw [this]
      exact ih fun y hy => h y (by simp [hy])
  induction xs generalizing v with
  | nil => obtain ⟨x, hx, -⟩ := hx; cases hx
  | cons x xs ih =>
    rw [List.foldl_cons]
    obtain ⟨y, hy, e⟩ := hx
    rcases List.mem_cons.1 hy with rfl | hy
    · rw [e v]; exact key xs fun z hz => h z (by simp [hz])
    · exact ih (fun z hz => h z (by simp [hz])) ⟨y, hy, e⟩ _

end

/-! ## The terms -/

section
variable {α β γ : Type}

theorem slice_reads {a : List α} {i m : Nat} {x : Nat → α} (hm : 0 < m) (h : ∀ q < m, a[i + q]? = some (x q)) :
    sliceAt a i m = .ok ((List.range m).map x) := by
  have hlen : i + m ≤ a.length := by
    have := h (m - 1) (by omega)
    have := (List.getElem?_eq_some_iff.1 this).1
    omega
  unfold sliceAt
  rw [if_neg (by omega)]
  congr 1
  have := slice_eq a i m hlen (fun v => v) (x 0)
  rw [List.map_id'] at this
  rw [this]
  apply List.map_congr_left
  intro q hq
  rw [h q (List.mem_range.1 hq)]; rfl

theorem zipIdx_range {δ : Type} (f : Nat → δ) (m : Nat) :
    ((List.range m).map f).zipIdx = (List.range m).map fun q => (f q, q) := by
  apply List.ext_getElem
  · simp
  · intro k h1 h2; simp

variable [AddCommMonoid γ]

/-- The sum and product of the elements. -/
def sumOps (mul : α → β → γ) : DotOps α β γ := ⟨0, (· + ·), mul⟩

theorem sumOps_monoidal (mul : α → β → γ) :
    Monoidal (sumOps mul).reducer.init (sumOps mul).reducer.f (sumOps mul).reducer.fSum where
  assoc := add_assoc
  comm := add_comm
  unit := zero_add
  step := fun acc x => by simp [sumOps, DotOps.reducer]

theorem total_sum (xs : List γ) : total (0 : γ) (· + ·) xs = xs.sum := by
  induction xs with
  | nil => rfl
  | cons x xs ih => rw [total, ih, List.sum_cons]

theorem foldRes_sum {ι : Type} {op : γ → ι → Res γ} {w : ι → γ} {xs : List ι} (h : ∀ x ∈ xs, ∀ acc, op acc x = .ok (acc + w x)) :
    foldRes op 0 xs = .ok (xs.map w).sum := by
  have key : ∀ acc, foldRes op acc xs = .ok (acc + (xs.map w).sum) := by
    induction xs with
    | nil => intro acc; simp [foldRes]
    | cons x xs ih =>
      intro acc
      rw [foldRes, h x (by simp)]
      simp only [ok_bind]
      rw [ih (fun y hy => h y (by simp [hy])), List.map_cons, List.sum_cons, add_assoc]
  rw [key, zero_add]

theorem foldRes_map {ι κ σ : Type} (op : σ → κ → Res σ) (f : ι → κ) (acc : σ) (xs : List ι) :
    foldRes op acc (xs.map f) = foldRes (fun acc x => op acc (f x)) acc xs := by
  induction xs generalizing acc with
  | nil => rfl
  | cons x xs ih => simp only [List.map_cons, foldRes, ih]

/-- The operands of a product, and their elements: `X j i` is the one at remaining index `j` and summed index `i`. -/
structure DotIn (a : List α) (b : List β) (offA offB : Int) (s r : List Nat) (g : DotCfg) (X : List Nat → List Nat → α)
    (Y : List Nat → List Nat → β) : Prop where
  fc : Fit s g.lc
  fam : Fit s g.lam
  fbm : Fit s g.lbm
  fas : Fit r g.las
  fbs : Fit r g.lbs
  zs : 0 ∉ s
  zr : 0 ∉ r
  eqA : g.las.offset = offA
  eqB : g.lbs.offset = offB
  readA : ∀ j i, InRange j s → InRange i r → 0 ≤ g.lam.addr j + g.las.addr i - offA ∧
    a[(g.lam.addr j + g.las.addr i - offA).toNat]? = some (X j i)
  readB : ∀ j i, InRange j s → InRange i r → 0 ≤ g.lbm.addr j + g.lbs.addr i - offB ∧
    b[(g.lbm.addr j + g.lbs.addr i - offB).toNat]? = some (Y j i)

/-- The element of the result at `j`. -/
def dotVal (mul : α → β → γ) (r : List Nat) (X : List Nat → List Nat → α) (Y : List Nat → List Nat → β) (j : List Nat) : γ :=
  ((all .C r).map fun i => mul (X j i) (Y j i)).sum

theorem pos_cast {s : List Nat} {l : Layout} (h : Fit s l) {i : List Nat} (hi : InRange i s) : (l.pos i : Int) = l.addr i :=
  Int.toNat_of_nonneg (h.nonneg i hi)

variable {a : List α} {b : List β} {offA offB : Int} {s r : List Nat} {g : DotCfg} {X : List Nat → List Nat → α}
  {Y : List Nat → List Nat → β} (D : DotIn a b offA offB s r g X Y) (mul : α → β → γ)
include D

/-- `X` and `Y` along a block. -/
theorem DotIn.slices {ia ib n : Nat} {J I : Nat → List Nat} (hn : 0 < n)
    (hJ : ∀ t < n, InRange (J t) s) (hI : ∀ t < n, InRange (I t) r)
    {za zb : Nat} (ha : ∀ t < n, (ia : Int) + za + t = g.lam.addr (J t) + g.las.addr (I t))
    (hb : ∀ t < n, (ib : Int) + zb + t = g.lbm.addr (J t) + g.lbs.addr (I t)) :
    ∃ ja jb, atOffset offA ia za = .ok ja ∧ atOffset offB ib zb = .ok jb ∧
      sliceAt a ja n = .ok ((List.range n).map fun t => X (J t) (I t)) ∧
      sliceAt b jb n = .ok ((List.range n).map fun t => Y (J t) (I t)) := by
  have a0 := ha 0 hn
  have b0 := hb 0 hn
  have ra := D.readA (J 0) (I 0) (hJ 0 hn) (hI 0 hn)
  have rb := D.readB (J 0) (I 0) (hJ 0 hn) (hI 0 hn)
  have xa : 0 ≤ (ia : Int) + za - offA := by have := ra.1; push_cast at a0; omega
  have xb : 0 ≤ (ib : Int) + zb - offB := by have := rb.1; push_cast at b0; omega
  refine ⟨_, _, atOffset_ok xa, atOffset_ok xb, slice_reads hn ?_, slice_reads hn ?_⟩
  · intro q hq
    have := (D.readA (J q) (I q) (hJ q hq) (hI q hq)).2
    rw [← ha q hq] at this
    rw [← this]; congr 1; omega
  · intro q hq
    have := (D.readB (J q) (I q) (hJ q hq) (hI q hq)).2
    rw [← hb q hq] at this
    rw [← this]; congr 1; omega

end

section
variable {ι γ : Type}

theorem sum_flatMap' [AddCommMonoid γ] (f : ι → List γ) (xs : List ι) : (xs.flatMap f).sum = (xs.map fun x => (f x).sum).sum := by
  induction xs with
  | nil => rfl
  | cons x xs ih => rw [List.flatMap_cons, List.sum_append, ih, List.map_cons, List.sum_cons]

/-- The positions of a block: the layout of the other axes gives its beginning. -/
theorem rest_pos {s : List Nat} {l : Layout} (h : Fit s l) {p : List Nat} (hr : Fit (restShape s p) (restOf l p))
    {F : List Nat × Nat → List Nat} {j : List Nat} {t : Nat} (hj : InRange j (restShape s p))
    (e : l.addr (F (j, t)) = (restOf l p).addr j + (t : Int)) : l.pos (F (j, t)) = (restOf l p).pos j + t := by
  have h1 := pos_cast hr hj
  rw [Layout.pos, e]; omega

theorem axesProduct_ok {s : List Nat} {l : Layout} (h : l.shape = s) {p : List Nat} (hlt : ∀ a ∈ p, a < s.length) :
    axesProduct l p = .ok (p.map fun a => s.getD a 0).prod := by
  unfold axesProduct
  rw [mapM_eq_map (f := fun i => readAt l.shape i) (g := fun i => s.getD i 0)]
  · rfl
  · intro a ha
    rw [h, readAt_ok, List.getD_eq_getElem?_getD, List.getElem?_eq_getElem (hlt a ha)]; rfl

theorem pairItems_ok {la lb : Layout} {E : List ι} {pa pb : ι → Nat} (hd : la.ndim = lb.ndim)
    (ha : colItems la = .ok (E.map pa)) (hb : colItems lb = .ok (E.map pb)) :
    pairItems la lb = .ok (E.map fun i => (pa i, pb i)) := by
  unfold pairItems
  rw [if_neg (by simp [hd]), ha]
  simp only [ok_bind]
  rw [hb]
  simp only [ok_bind]
  rw [zip_map_self]; rfl

/-- The updates that write the elements: every cell is one of the result, and ends with its element. -/
def DotUps (s : List Nat) (lc : Layout) (V : List Nat → γ) (Us : List (Nat × (Option γ → Option γ))) : Prop :=
  (∀ u ∈ Us, ∃ j, InRange j s ∧ u.1 = lc.pos j) ∧ ∀ j, InRange j s → ∀ v, effect (lc.pos j) Us v = some (V j)

/-- Writing every element once. -/
theorem dotUps_once {s : List Nat} {lc : Layout} {V : List Nat → γ}
    (hag : ∀ i j, InRange i s → InRange j s → lc.pos i = lc.pos j → V i = V j) {e : List (List Nat)} (he : e.Perm (all .C s)) :
    DotUps s lc V (e.flatMap fun j => [(lc.pos j, fun _ => some (V j))]) := by
  have hm : ∀ j, j ∈ e ↔ InRange j s := fun j => he.mem_iff.trans mem_all
  refine ⟨?_, ?_⟩
  · intro u hu
    obtain ⟨j, hj, hu⟩ := List.mem_flatMap.1 hu
    rw [List.mem_singleton] at hu; subst hu
    exact ⟨j, (hm j).1 hj, rfl⟩
  · intro j hj v
    refine effect_writes ?_ ⟨j, (hm j).2 hj, fun v => by simp [effect]⟩ v
    intro i hi
    by_cases h : lc.pos i = lc.pos j
    · right; intro v; simp [effect, h, hag i j ((hm i).1 hi) hj h]
    · left; intro v; simp [effect, h]

/-- What a route does, serially and in parallel. -/
def RouteOk (s : List Nat) (lc : Layout) (V : List Nat → γ) (serial : List (Option γ) → Res (List (Option γ)))
    (par : Scheduler → Res (Proc (Option γ))) : Prop :=
  ∃ Us, DotUps s lc V Us ∧ (∀ c, (∀ u ∈ Us, u.1 < c.length) → serial c = runU Us c) ∧
    ((∀ i j, InRange i s → InRange j s → lc.pos i = lc.pos j → i = j) → ∀ sch : Scheduler, sch.Fits →
      ∃ p, par sch = .ok p ∧ updates p = Us ∧ Apart p)

theorem ne_nil_of_perm {s : List Nat} {e : List (List Nat)} (hz : 0 ∉ s) (he : e.Perm (all .C s)) : e ≠ [] := by
  rintro rfl
  have := he.length_eq
  rw [length_all] at this
  exact prod_ne_zero_iff.2 (fun d hd => Nat.pos_of_ne_zero fun q => hz (q ▸ hd)) this.symm

/-- Routes that write every element once. -/
theorem route_once {s : List Nat} {lc mc ma mb : Layout} {pa pb : List Nat → Nat} {V : List Nat → γ} (hz : 0 ∉ s)
    (hag : ∀ i j, InRange i s → InRange j s → lc.pos i = lc.pos j → V i = V j) {e : List (List Nat)} (he : e.Perm (all .C s))
    (hd : mc.ndim = ma.ndim) (hd' : mc.ndim = mb.ndim)
    (hc : colItems mc = .ok (e.map lc.pos)) (ha : colItems ma = .ok (e.map pa)) (hb : colItems mb = .ok (e.map pb))
    {f : Nat → Nat → Res γ} (h : ∀ j, InRange j s → f (pa j) (pb j) = .ok (V j)) :
    RouteOk s lc V
      (fun c => dispatch3 mc ma mb (fun p c => do
        let v ← f p.2.1 p.2.2
        modifyAt c p.1 fun _ => some v) c)
      (fun sch => dispatchPar3 mc ma mb (fun _ p => do
        let v ← f p.2.1 p.2.2
        return .upd p.1 fun _ => some v) sch 0) := by
  have hm : ∀ j, j ∈ e ↔ InRange j s := fun j => he.mem_iff.trans mem_all
  refine ⟨_, dotUps_once hag he, ?_, ?_⟩
  · intro c hbound
    refine dispatch3_run hd hd' hc ha hb (n := c.length) ?_ ?_ c rfl
    · intro j hj c' _
      rw [h j ((hm j).1 hj)]
      simp only [ok_bind, runU, runAll]
      cases modifyAt c' (lc.pos j) _ <;> rfl
    · intro j hj u hu
      exact hbound u (List.mem_flatMap.2 ⟨j, hj, hu⟩)
  · intro hinj sch hs
    have hinj' : ∀ i ∈ e, ∀ j ∈ e, lc.pos i = lc.pos j → i = j := fun i hi j hj => hinj i j ((hm i).1 hi) ((hm j).1 hj)
    refine dispatchPar3_apart hd hd' hc ha hb (ne_nil_of_perm hz he) hs 0 hinj' ?_ ?_
    · intro _ j hj
      refine ⟨.upd (lc.pos j) fun _ => some (V j), ?_, rfl, trivial⟩
      rw [h j ((hm j).1 hj)]; rfl
    · have hn : e.Nodup := he.nodup_iff.2 (nodup_all _ _)
      refine List.Pairwise.imp_of_mem ?_ hn
      intro x y hx hy hne
      simp only [List.map_cons, List.map_nil, List.disjoint_singleton]
      exact fun q => hne (hinj' x hx y hy (List.mem_singleton.1 q).symm)

end

section
variable {α β γ : Type} [AddCommMonoid γ] {a : List α} {b : List β} {offA offB : Int} {s r : List Nat} {g : DotCfg}
  {X : List Nat → List Nat → α} {Y : List Nat → List Nat → β} (D : DotIn a b offA offB s r g X Y) (mul : α → β → γ)
include D

/-- One element from blocks. -/
theorem DotIn.blocks {j : List Nat} (hj : InRange j s) {p : List Nat} {F : List Nat × Nat → List Nat} {E : List (List Nat)}
    {n : Nat} (hn : 0 < n) (hE : ∀ i ∈ E, InRange i (restShape r p)) (hp : ((blockList E n).map F).Perm (all .C r))
    (ra : Fit (restShape r p) (restOf g.las p)) (rb : Fit (restShape r p) (restOf g.lbs p))
    (ha : ∀ i ∈ E, ∀ t < n, g.las.addr (F (i, t)) = (restOf g.las p).addr i + (t : Int))
    (hb : ∀ i ∈ E, ∀ t < n, g.lbs.addr (F (i, t)) = (restOf g.lbs p).addr i + (t : Int)) :
    dotBlocks (sumOps mul) a b offA offB n (E.map fun i => ((restOf g.las p).pos i, (restOf g.lbs p).pos i))
      (g.lam.pos j) (g.lbm.pos j) = .ok (dotVal mul r X Y j) := by
  have hF : ∀ i ∈ E, ∀ t < n, InRange (F (i, t)) r := by
    intro i hi t ht
    exact (mem_all (o := .C)).1 (hp.mem_iff.1 (List.mem_map_of_mem (mem_blockList hi ht)))
  unfold dotBlocks
  rw [foldRes_map, show (sumOps mul).zero = (0 : γ) from rfl,
    foldRes_sum (w := fun i => ((List.range n).map fun t => mul (X j (F (i, t))) (Y j (F (i, t)))).sum)]
  · congr 1
    have := ((hp.map fun i => mul (X j i) (Y j i)).sum_eq)
    rw [dotVal, ← this, List.map_map, blockList, List.map_flatMap, sum_flatMap']
    simp [List.map_map, Function.comp_def]
  · intro i hi acc
    have h1 := pos_cast D.fam hj
    have h2 := pos_cast D.fbm hj
    have h3 := pos_cast ra (hE i hi)
    have h4 := pos_cast rb (hE i hi)
    obtain ⟨ja, jb, k1, k2, k3, k4⟩ := D.slices (ia := g.lam.pos j) (ib := g.lbm.pos j) (J := fun _ => j)
      (I := fun t => F (i, t)) (za := (restOf g.las p).pos i) (zb := (restOf g.lbs p).pos i) hn (fun _ _ => hj) (hF i hi)
      (fun t ht => by rw [ha i hi t ht]; omega) (fun t ht => by rw [hb i hi t ht]; omega)
    simp only [k1, k2, k3, k4, ok_bind]
    rw [unrolledBinaryReduce_eq (sumOps_monoidal mul), zip_map_self]
    show Except.ok (acc + total 0 (· + ·) _) = _
    rw [total_sum, List.map_map]
    congr 3
    apply List.map_congr_left
    intro t _
    simp [DotOps.reducer, sumOps]

/-- The contiguous route over the summed axes. -/
theorem DotIn.routeS (dflt : Order)
    (hag : ∀ i j, InRange i s → InRange j s → g.lc.pos i = g.lc.pos j → dotVal mul r X Y i = dotVal mul r X Y j) :
    RouteOk s g.lc (dotVal mul r X Y) (dotRouteS dflt (sumOps mul) a b offA offB g)
      (fun sch => dotRouteSPar dflt sch (sumOps mul) a b offA offB g) := by
  obtain ⟨p1, p2⟩ : g.contigS <+: g.las.axesComposition.2.2 ∧ g.contigS <+: g.lbs.axesComposition.2.2 :=
    commonPrefix_prefix _ _
  obtain ⟨ka, hnd, hlt⟩ := contig_packed D.fas.valid (D.fas.shape ▸ D.zr) p1
  obtain ⟨kb, -, -⟩ := contig_packed D.fbs.valid (D.fbs.shape ▸ D.zr) p2
  have hnr : g.las.ndim = r.length := by rw [← D.fas.shape]; simp [Layout.ndim, Layout.shape]
  rw [hnr] at hlt
  obtain ⟨F, f1, f2⟩ := block_index hnd hlt
  obtain ⟨sa, fa⟩ := splitRest_ok D.fas D.zr hnd hlt
  obtain ⟨sb, fb⟩ := splitRest_ok D.fbs D.zr hnd hlt
  obtain ⟨E, ma, mb, hE, t1, t2, t3, t4, -⟩ := joint2 dflt fa fb
  obtain ⟨e, nc, na, nb, he, u1, u2, u3, u4, u5, u6, -⟩ := joint3 dflt D.fc D.fam D.fbm
  have hn := axesProduct_ok D.fas.shape hlt
  have hpos : 0 < ((g.contigS).map fun a => r.getD a 0).prod := by
    rw [Nat.pos_iff_ne_zero, prod_ne_zero_iff]
    intro d hd
    obtain ⟨x, hx, rfl⟩ := List.mem_map.1 hd
    have hx := hlt x hx
    rw [List.getD_eq_getElem?_getD, List.getElem?_eq_getElem hx]
    exact Nat.pos_of_ne_zero fun q => D.zr (q ▸ List.getElem_mem hx)
  have hV : ∀ j, InRange j s → dotBlocks (sumOps mul) a b offA offB ((g.contigS).map fun a => r.getD a 0).prod
      (E.map fun i => ((restOf g.las g.contigS).pos i, (restOf g.lbs g.contigS).pos i)) (g.lam.pos j) (g.lbm.pos j) =
      .ok (dotVal mul r X Y j) := by
    intro j hj
    have hEm : ∀ i ∈ E, InRange i (restShape r g.contigS) := fun i hi => mem_all.1 (hE.mem_iff.1 hi)
    exact D.blocks mul hj hpos hEm (f1 E hE) fa fb (fun i hi t ht => f2 _ D.fas.shape ka i (hEm i hi) t ht)
      (fun i hi t ht => f2 _ D.fbs.shape kb i (hEm i hi) t ht)
  have hr := route_once (V := dotVal mul r X Y) (f := fun i j => dotBlocks (sumOps mul) a b offA offB ((g.contigS).map fun a => r.getD a 0).prod
      (E.map fun i => ((restOf g.las g.contigS).pos i, (restOf g.lbs g.contigS).pos i)) i j) D.zs hag he u2 u3 u4 u5 u6 hV
  have z := pairItems_ok t2 t3 t4
  obtain ⟨Us, r1, r2, r3⟩ := hr
  refine ⟨Us, r1, fun c hc => ?_, fun hinj sch hs => ?_⟩
  · rw [← r2 c hc]
    unfold dotRouteS
    simp only [hn, sa, sb, ok_bind, t1, u1, z]
  · obtain ⟨q, q1, q2⟩ := r3 hinj sch hs
    refine ⟨q, ?_, q2⟩
    rw [← q1]
    unfold dotRouteSPar
    simp only [hn, sa, sb, ok_bind, t1, u1, z]

/-- One element without contiguous axes. -/
theorem DotIn.general {j : List Nat} (hj : InRange j s) :
    dotGeneral (sumOps mul) a b offA offB g.las g.lbs ((all .F r).map fun i => (g.las.pos i, g.lbs.pos i)) (g.lam.pos j) (g.lbm.pos j) =
      .ok (dotVal mul r X Y j) := by
  have h1 := pos_cast D.fam hj
  have h2 := pos_cast D.fbm hj
  unfold dotGeneral
  split
  · rename_i hd
    obtain ⟨x, hx⟩ := List.length_eq_one_iff.1 hd
    have hd' : g.lbs.axes.length = 1 := by
      have e1 := congrArg List.length (D.fas.shape.trans D.fbs.shape.symm)
      simp only [Layout.shape, List.length_map] at e1
      rw [← e1]; exact hd
    obtain ⟨y, hy⟩ := List.length_eq_one_iff.1 hd'
    have er : r = [x.dim] := by rw [← D.fas.shape, Layout.shape, hx]; rfl
    have e1 : g.las.dimAt 0 = x.dim := by simp [Layout.dimAt, Layout.shape, hx]
    have e2 : g.las.stride.getD 0 0 = x.str := by simp [Layout.stride, hx]
    have e3 : g.lbs.stride.getD 0 0 = y.str := by simp [Layout.stride, hy]
    rw [e1, e2, e3, dotStrided, show (sumOps mul).zero = (0 : γ) from rfl,
      foldRes_sum (w := fun k => mul (X j [k]) (Y j [k]))]
    · congr 1
      have : all .C r = (List.range x.dim).map fun k => [k] := by rw [er, List.map_eq_flatMap]; simp [all, allC]
      rw [dotVal, this, List.map_map]; rfl
    · intro k hk acc
      have hk : InRange [k] r := by rw [er]; simpa using List.mem_range.1 hk
      have ra := D.readA j [k] hj hk
      have rb := D.readB j [k] hj hk
      have ea : g.lam.addr j + g.las.addr [k] - offA = (g.lam.pos j : Int) + k * x.str := by
        rw [h1, addr_eq g.las, hx, D.eqA]; simp [dot]; ring
      have eb : g.lbm.addr j + g.lbs.addr [k] - offB = (g.lbm.pos j : Int) + k * y.str := by
        rw [h2, addr_eq g.lbs, hy, D.eqB]; simp [dot]; ring
      rw [ea] at ra
      rw [eb] at rb
      simp only [readInt_ok ra.1 ra.2, readInt_ok rb.1 rb.2, ok_bind]
      rfl
  · rw [dotPairs, foldRes_map, show (sumOps mul).zero = (0 : γ) from rfl,
      foldRes_sum (w := fun i => mul (X j i) (Y j i))]
    · congr 1
      exact ((perm_all .F .C r).map fun i => mul (X j i) (Y j i)).sum_eq
    · intro i hi acc
      have hi : InRange i r := mem_all.1 hi
      have h3 := pos_cast D.fas hi
      have h4 := pos_cast D.fbs hi
      have ra := D.readA j i hj hi
      have rb := D.readB j i hj hi
      rw [← h1, ← h3] at ra
      rw [← h2, ← h4] at rb
      simp only [atOffset_ok ra.1, atOffset_ok rb.1, readAt_ok.2 ra.2, readAt_ok.2 rb.2, ok_bind]
      rfl

theorem DotIn.routeD
    (hag : ∀ i j, InRange i s → InRange j s → g.lc.pos i = g.lc.pos j → dotVal mul r X Y i = dotVal mul r X Y j) :
    RouteOk s g.lc (dotVal mul r X Y) (dotRouteD (sumOps mul) a b offA offB g)
      (fun sch => dotRouteDPar sch (sumOps mul) a b offA offB g) := by
  have items : ∀ {s : List Nat} {l : Layout}, Fit s l → colItems l = .ok ((all .F s).map l.pos) := by
    intro s l h
    rw [colItems_ok (C22_valid_nonNegative l h.valid h.off), positions_eq, h.shape]
  have rank : ∀ {s : List Nat} {l m : Layout}, Fit s l → Fit s m → l.ndim = m.ndim := by
    intro s l m h h'; exact ndim_of_shape h.shape h'.shape
  have hr := route_once (V := dotVal mul r X Y) (f := fun i j => dotGeneral (sumOps mul) a b offA offB g.las g.lbs
      ((all .F r).map fun i => (g.las.pos i, g.lbs.pos i)) i j) D.zs hag (perm_all .F .C s) (rank D.fc D.fam) (rank D.fc D.fbm)
      (items D.fc) (items D.fam) (items D.fbm) (fun j hj => D.general mul hj)
  have z := pairItems_ok (rank D.fas D.fbs) (items D.fas) (items D.fbs)
  obtain ⟨Us, r1, r2, r3⟩ := hr
  refine ⟨Us, r1, fun c hc => ?_, fun hinj sch hs => ?_⟩
  · rw [← r2 c hc]
    unfold dotRouteD
    simp only [ok_bind, z]
  · obtain ⟨q, q1, q2⟩ := r3 hinj sch hs
    refine ⟨q, ?_, q2⟩
    rw [← q1]
    unfold dotRouteDPar
    simp only [ok_bind, z]

end

/-! ## Rows in chunks -/

section
variable {α β γ ι : Type} [AddCommMonoid γ]

/-- Adding the terms of one summed index to a row of cells. -/
def rowU (ic m : Nat) (w : Nat → γ) : List (Nat × (Option γ → Option γ)) :=
  (List.range m).map fun q => (ic + q, fun v => v.map fun v => v + w q)

/-- The updates of one chunk. -/
def chunkU (ic m : Nat) (I : List ι) (W : ι → Nat → γ) : List (Nat × (Option γ → Option γ)) := I.flatMap fun i => rowU ic m (W i)

/-- The updates of one row: it is cleared, then its chunks follow. -/
def lineU (pc n : Nat) (I : List ι) (W : ι → Nat → γ) : List (Nat × (Option γ → Option γ)) :=
  ((List.range n).map fun t => (pc + t, fun _ => some 0)) ++
    (List.range ((n + 63) / 64)).flatMap fun k => chunkU (pc + k * 64) (min 64 (n - k * 64)) I fun i q => W i (k * 64 + q)

theorem mem_chunkU {ic m : Nat} {I : List ι} {W : ι → Nat → γ} {u : Nat × (Option γ → Option γ)} (h : u ∈ chunkU ic m I W) :
    ∃ q < m, u.1 = ic + q := by
  obtain ⟨i, -, hu⟩ := List.mem_flatMap.1 h
  obtain ⟨q, hq, rfl⟩ := List.mem_map.1 hu
  exact ⟨q, List.mem_range.1 hq, rfl⟩

theorem mem_lineU {pc n : Nat} {I : List ι} {W : ι → Nat → γ} {u : Nat × (Option γ → Option γ)} (h : u ∈ lineU pc n I W) :
    ∃ t < n, u.1 = pc + t := by
  rcases List.mem_append.1 h with h | h
  · obtain ⟨t, ht, rfl⟩ := List.mem_map.1 h
    exact ⟨t, List.mem_range.1 ht, rfl⟩
  · obtain ⟨k, hk, h⟩ := List.mem_flatMap.1 h
    obtain ⟨q, hq, e⟩ := mem_chunkU h
    exact ⟨k * 64 + q, by omega, by omega⟩

theorem effect_rowU {ic m : Nat} (w : Nat → γ) {q : Nat} (hq : q < m) (v : Option γ) :
    effect (ic + q) (rowU ic m w) v = v.map fun v => v + w q :=
  effect_row (pos := fun q => ic + q) (fun q (v : Option γ) => v.map fun v => v + w q) hq (fun j _ e => by omega) v

theorem effect_lineU {pc n : Nat} (I : List ι) (W : ι → Nat → γ) {t : Nat} (ht : t < n) (v : Option γ) :
    effect (pc + t) (lineU pc n I W) v = some (I.map fun i => W i t).sum := by
  rw [lineU, effect_append, effect_row (pos := fun t => pc + t) (fun _ _ => some (0 : γ)) ht (fun j _ e => by omega)]
  rw [effect_at List.nodup_range (x := t / 64) (List.mem_range.2 (by omega))]
  · have e : pc + t = pc + t / 64 * 64 + t % 64 := by omega
    have hm : t % 64 < min 64 (n - t / 64 * 64) := by omega
    rw [e, chunkU, effect_fold]
    have key : ∀ (I : List ι) (x : γ), I.foldl (fun v i => effect (pc + t / 64 * 64 + t % 64)
        (rowU (pc + t / 64 * 64) (min 64 (n - t / 64 * 64)) fun q => W i (t / 64 * 64 + q)) v) (some x) =
        some (x + (I.map fun i => W i t).sum) := by
      intro I
      induction I with
      | nil => intro x; simp
      | cons i I ih =>
        intro x
        rw [List.foldl_cons, effect_rowU _ hm, Option.map_some, ih, List.map_cons, List.sum_cons, add_assoc,
          show t / 64 * 64 + t % 64 = t by omega]
    rw [key, zero_add]
  · intro k hk hne u hu
    obtain ⟨q, hq, e⟩ := mem_chunkU hu
    omega

theorem chunks_disjoint (pc n : Nat) (I : List ι) (W : Nat → ι → Nat → γ) :
    (List.range ((n + 63) / 64)).Pairwise fun x y =>
      List.Disjoint ((chunkU (pc + x * 64) (min 64 (n - x * 64)) I (W x)).map Prod.fst)
        ((chunkU (pc + y * 64) (min 64 (n - y * 64)) I (W y)).map Prod.fst) := by
  refine List.Pairwise.imp ?_ List.nodup_range
  intro x y hne k h1 h2
  obtain ⟨u, hu, rfl⟩ := List.mem_map.1 h1
  obtain ⟨w, hw, e⟩ := List.mem_map.1 h2
  obtain ⟨q, hq, e1⟩ := mem_chunkU hu
  obtain ⟨q', hq', e2⟩ := mem_chunkU hw
  omega

/-- One chunk, serially and by one thread. -/
theorem chunk_ok (mul : α → β → γ) {a : List α} {b : List β} {offA offB : Int} {I : List ι} {z : ι → Nat × Nat} {ic ia ib m : Nat}
    {x : ι → Nat → α} {y : ι → Nat → β}
    (h : ∀ i ∈ I, ∃ ja jb, atOffset offA ia (z i).1 = .ok ja ∧ atOffset offB ib (z i).2 = .ok jb ∧
      sliceAt a ja m = .ok ((List.range m).map (x i)) ∧ sliceAt b jb m = .ok ((List.range m).map (y i))) :
    (∀ c, dotChunk (sumOps mul) a b offA offB (I.map z) ic ia ib m c = runU (chunkU ic m I fun i q => mul (x i q) (y i q)) c) ∧
    ∃ p, dotChunkPar (sumOps mul) a b offA offB (I.map z) ic ia ib m = .ok p ∧
      updates p = chunkU ic m I (fun i q => mul (x i q) (y i q)) ∧ Apart p := by
  constructor
  · intro c
    unfold dotChunk chunkU
    rw [runAll_map, runU_flatMap]
    apply runAll_congr
    intro i hi c
    obtain ⟨ja, jb, h1, h2, h3, h4⟩ := h i hi
    simp only [h1, h2, h3, h4, ok_bind]
    rw [zip_map_self, zipIdx_range, runAll_map]
    unfold runU rowU
    rw [runAll_map]
    rfl
  · unfold dotChunkPar chunkU
    rw [procLoop_map]
    apply procLoop_apart
    intro i hi
    obtain ⟨ja, jb, h1, h2, h3, h4⟩ := h i hi
    simp only [h1, h2, h3, h4, ok_bind]
    rw [zip_map_self, zipIdx_range, procLoop_map]
    obtain ⟨p, k1, k2, k3⟩ := procLoop_apart (g := fun q => (.ok (.upd (ic + q) fun v => v.map fun v => v + mul (x i q) (y i q)) :
      Res (Proc (Option γ)))) (u := fun q => [(ic + q, fun v => v.map fun v => v + mul (x i q) (y i q))]) (xs := List.range m)
      (fun q _ => ⟨_, rfl, rfl, trivial⟩)
    refine ⟨p, k1, ?_, k3⟩
    rw [k2, rowU, List.map_eq_flatMap]

/-- One row, serially and in parallel. -/
theorem line_ok (mul : α → β → γ) {a : List α} {b : List β} {offA offB : Int} {I : List ι} {z : ι → Nat × Nat} {pc pa pb n : Nat}
    {x : ι → Nat → α} {y : ι → Nat → β}
    (h : ∀ k < (n + 63) / 64, ∀ i ∈ I, ∃ ja jb, atOffset offA (pa + k * 64) (z i).1 = .ok ja ∧
      atOffset offB (pb + k * 64) (z i).2 = .ok jb ∧
      sliceAt a ja (min 64 (n - k * 64)) = .ok ((List.range (min 64 (n - k * 64))).map fun q => x i (k * 64 + q)) ∧
      sliceAt b jb (min 64 (n - k * 64)) = .ok ((List.range (min 64 (n - k * 64))).map fun q => y i (k * 64 + q))) :
    (∀ c, (do
      let c ← runAll (fun t c => modifyAt c (pc + t) fun _ => some (sumOps mul).zero) (List.range n) c
      runAll (fun k c => dotChunk (sumOps mul) a b offA offB (I.map z) (pc + k * 64) (pa + k * 64) (pb + k * 64)
          (min 64 (n - k * 64)) c) (List.range ((n + 63) / 64)) c) = runU (lineU pc n I fun i t => mul (x i t) (y i t)) c) ∧
    ∀ inner, ∃ p, (do
      let z' ← procLoop (fun t => .ok (.upd (pc + t) fun _ => some (sumOps mul).zero)) (List.range n)
      let q ← parRange (fun k => dotChunkPar (sumOps mul) a b offA offB (I.map z) (pc + k * 64) (pa + k * 64) (pb + k * 64)
        (min 64 (n - k * 64))) inner (List.range ((n + 63) / 64))
      return .seq z' q) = Except.ok (ε := Err) p ∧ updates p = lineU pc n I (fun i t => mul (x i t) (y i t)) ∧ Apart p := by
  constructor
  · intro c
    rw [lineU, runU_append]
    have e : runAll (fun t c => modifyAt c (pc + t) fun _ => some (sumOps mul).zero) (List.range n) c =
        runU ((List.range n).map fun t => (pc + t, fun _ => some (0 : γ))) c := by
      unfold runU; rw [runAll_map]; rfl
    rw [e]
    congr 1
    funext c
    rw [runU_flatMap]
    apply runAll_congr
    intro k hk c
    exact (chunk_ok mul (x := fun i q => x i (k * 64 + q)) (y := fun i q => y i (k * 64 + q)) (h k (List.mem_range.1 hk))).1 c
  · intro inner
    obtain ⟨p, k1, k2, k3⟩ := procLoop_apart (g := fun t => (.ok (.upd (pc + t) fun _ => some (0 : γ)) :
      Res (Proc (Option γ)))) (u := fun t => [(pc + t, fun _ => some (0 : γ))]) (xs := List.range n)
      (fun q _ => ⟨_, rfl, rfl, trivial⟩)
    obtain ⟨p', l1, l2, l3⟩ := parRange_apart (u := fun k => chunkU (pc + k * 64) (min 64 (n - k * 64)) I
        fun i q => mul (x i (k * 64 + q)) (y i (k * 64 + q))) inner (xs := List.range ((n + 63) / 64))
      (fun k hk => (chunk_ok mul (ic := pc + k * 64) (x := fun i q => x i (k * 64 + q)) (y := fun i q => y i (k * 64 + q))
        (h k (List.mem_range.1 hk))).2) (chunks_disjoint pc n I fun k i q => mul (x i (k * 64 + q)) (y i (k * 64 + q)))
    refine ⟨.seq p p', ?_, ?_, k3, l3⟩
    · rw [show (sumOps mul).zero = (0 : γ) from rfl, k1]
      simp only [ok_bind, l1]; rfl
    · rw [updates, k2, l2, lineU, List.map_eq_flatMap]

end

section
variable {α β γ : Type} [AddCommMonoid γ] {a : List α} {b : List β} {offA offB : Int} {s r : List Nat} {g : DotCfg}
  {X : List Nat → List Nat → α} {Y : List Nat → List Nat → β} (D : DotIn a b offA offB s r g X Y) (mul : α → β → γ)
include D

/-- The contiguous route over the remaining axes. -/
theorem DotIn.routeM (dflt : Order)
    (hag : ∀ i j, InRange i s → InRange j s → g.lc.pos i = g.lc.pos j → dotVal mul r X Y i = dotVal mul r X Y j) :
    RouteOk s g.lc (dotVal mul r X Y) (dotRouteM dflt (sumOps mul) a b offA offB g)
      (fun sch => dotRouteMPar dflt sch (sumOps mul) a b offA offB g) := by
  obtain ⟨p1, p2, p3⟩ : g.contigM <+: g.lam.axesComposition.2.2 ∧ g.contigM <+: g.lbm.axesComposition.2.2 ∧
    g.contigM <+: g.lc.axesComposition.2.2 := commonPrefix3_prefix _ _ _
  obtain ⟨ka, hnd, hlt⟩ := contig_packed D.fam.valid (D.fam.shape ▸ D.zs) p1
  obtain ⟨kb, -, -⟩ := contig_packed D.fbm.valid (D.fbm.shape ▸ D.zs) p2
  obtain ⟨kc, -, -⟩ := contig_packed D.fc.valid (D.fc.shape ▸ D.zs) p3
  have hnr : g.lam.ndim = s.length := by rw [← D.fam.shape]; simp [Layout.ndim, Layout.shape]
  rw [hnr] at hlt
  obtain ⟨F, f1, f2⟩ := block_index hnd hlt
  obtain ⟨sa, fa⟩ := splitRest_ok D.fam D.zs hnd hlt
  obtain ⟨sb, fb⟩ := splitRest_ok D.fbm D.zs hnd hlt
  obtain ⟨sc, fc⟩ := splitRest_ok D.fc D.zs hnd hlt
  obtain ⟨I, ma, mb, hI, t1, t2, t3, t4, -⟩ := joint2 dflt D.fas D.fbs
  obtain ⟨E, nc, na, nb, hE, u1, u2, u3, u4, u5, u6, -⟩ := joint3 dflt fc fa fb
  have hn := axesProduct_ok D.fam.shape hlt
  have hpos : 0 < ((g.contigM).map fun a => s.getD a 0).prod := by
    rw [Nat.pos_iff_ne_zero, prod_ne_zero_iff]
    intro d hd
    obtain ⟨x, hx, rfl⟩ := List.mem_map.1 hd
    have hx := hlt x hx
    rw [List.getD_eq_getElem?_getD, List.getElem?_eq_getElem hx]
    exact Nat.pos_of_ne_zero fun q => D.zs (q ▸ List.getElem_mem hx)
  have hEm : ∀ j ∈ E, InRange j (restShape s g.contigM) := fun j hj => mem_all.1 (hE.mem_iff.1 hj)
  have hIm : ∀ i ∈ I, InRange i r := fun i hi => mem_all.1 (hI.mem_iff.1 hi)
  have hF := f1 E hE
  generalize hnn : ((g.contigM).map fun a => s.getD a 0).prod = n at hn hpos hF f2
  have hFm : ∀ j ∈ E, ∀ t < n, InRange (F (j, t)) s := fun j hj t ht =>
    (mem_all (o := .C)).1 (hF.mem_iff.1 (List.mem_map_of_mem (mem_blockList hj ht)))
  have hsur : ∀ k, InRange k s → ∃ j ∈ E, ∃ t < n, k = F (j, t) := by
    intro k hk
    obtain ⟨⟨j, t⟩, hx, rfl⟩ := List.mem_map.1 (hF.mem_iff.2 (mem_all.2 hk))
    obtain ⟨j', hj', hx⟩ := List.mem_flatMap.1 hx
    obtain ⟨t', ht', hx⟩ := List.mem_map.1 hx
    cases hx
    exact ⟨j, hj', t, List.mem_range.1 ht', rfl⟩
  have hFinj : ∀ j ∈ E, ∀ t < n, ∀ j' ∈ E, ∀ t' < n, F (j, t) = F (j', t') → j = j' := by
    intro j hj t ht j' hj' t' ht' e
    have := List.inj_on_of_nodup_map (hF.nodup_iff.2 (nodup_all _ _)) (mem_blockList hj ht) (mem_blockList hj' ht') e
    exact (Prod.mk.inj this).1
  have hpc : ∀ j ∈ E, ∀ t < n, g.lc.pos (F (j, t)) = (restOf g.lc g.contigM).pos j + t := fun j hj t ht =>
    rest_pos D.fc fc (hEm j hj) (f2 _ D.fc.shape kc j (hEm j hj) t ht)
  -- the work on one row
  let U : List Nat → List (Nat × (Option γ → Option γ)) := fun j =>
    lineU ((restOf g.lc g.contigM).pos j) n I fun i t => mul (X (F (j, t)) i) (Y (F (j, t)) i)
  have hline := fun j (hj : j ∈ E) => line_ok mul (a := a) (b := b) (offA := offA) (offB := offB) (I := I)
    (z := fun i => (g.las.pos i, g.lbs.pos i)) (pc := (restOf g.lc g.contigM).pos j) (pa := (restOf g.lam g.contigM).pos j)
    (pb := (restOf g.lbm g.contigM).pos j) (n := n) (x := fun i t => X (F (j, t)) i) (y := fun i t => Y (F (j, t)) i) (by
      intro k hk i hi
      have h1 := pos_cast fa (hEm j hj)
      have h2 := pos_cast fb (hEm j hj)
      have h3 := pos_cast D.fas (hIm i hi)
      have h4 := pos_cast D.fbs (hIm i hi)
      refine D.slices (J := fun q => F (j, k * 64 + q)) (I := fun _ => i) (by omega) (fun t ht => hFm j hj _ (by omega))
        (fun _ _ => hIm i hi) ?_ ?_
      · intro t ht
        rw [f2 _ D.fam.shape ka j (hEm j hj) _ (by omega)]; push_cast; omega
      · intro t ht
        rw [f2 _ D.fbm.shape kb j (hEm j hj) _ (by omega)]; push_cast; omega)
  have hUmem : ∀ j ∈ E, ∀ u ∈ U j, ∃ t < n, u.1 = g.lc.pos (F (j, t)) := by
    intro j hj u hu
    obtain ⟨t, ht, e⟩ := mem_lineU hu
    exact ⟨t, ht, by rw [hpc j hj t ht]; exact e⟩
  have hUval : ∀ j ∈ E, ∀ t < n, ∀ v, effect (g.lc.pos (F (j, t))) (U j) v = some (dotVal mul r X Y (F (j, t))) := by
    intro j hj t ht v
    rw [hpc j hj t ht, effect_lineU _ _ ht]
    congr 1
    exact (hI.map fun i => mul (X (F (j, t)) i) (Y (F (j, t)) i)).sum_eq
  have hz := pairItems_ok t2 t3 t4
  refine ⟨E.flatMap U, ⟨?_, ?_⟩, ?_, ?_⟩
  · intro u hu
    obtain ⟨j, hj, hu⟩ := List.mem_flatMap.1 hu
    obtain ⟨t, ht, e⟩ := hUmem j hj u hu
    exact ⟨_, hFm j hj t ht, e⟩
  · intro k hk v
    obtain ⟨j, hj, t, ht, rfl⟩ := hsur k hk
    refine effect_writes ?_ ⟨j, hj, hUval j hj t ht⟩ v
    intro j' hj'
    by_cases h : ∃ t' < n, g.lc.pos (F (j', t')) = g.lc.pos (F (j, t))
    · obtain ⟨t', ht', e⟩ := h
      right
      intro v
      rw [← e, hUval j' hj' t' ht', hag _ _ (hFm j' hj' t' ht') (hFm j hj t ht) e]
    · left
      intro v
      refine effect_none ?_ v
      intro u hu e
      obtain ⟨t', ht', e'⟩ := hUmem j' hj' u hu
      exact h ⟨t', ht', e' ▸ e⟩
  · intro c hc
    unfold dotRouteM
    simp only [hn, sa, sb, sc, ok_bind, t1, u1, hz]
    refine dispatch3_run u2 u3 u4 u5 u6 (n := c.length) ?_ ?_ c rfl
    · intro j hj c' hc'
      have : ¬ c'.length < (restOf g.lc g.contigM).pos j + n := by
        have h1 := hpc j hj (n - 1) (by omega)
        have : (g.lc.pos (F (j, n - 1)), fun _ : Option γ => some (0 : γ)) ∈ E.flatMap U := by
          refine List.mem_flatMap.2 ⟨j, hj, List.mem_append_left _ (List.mem_map.2 ⟨n - 1, List.mem_range.2 (by omega), ?_⟩)⟩
          rw [h1]
        have := hc _ this
        simp only at this
        omega
      rw [if_neg this]
      exact (hline j hj).1 c'
    · intro j hj u hu
      exact hc u (List.mem_flatMap.2 ⟨j, hj, hu⟩)
  · intro hinj sch hs
    unfold dotRouteMPar
    simp only [hn, sa, sb, sc, ok_bind, t1, u1, hz]
    refine dispatchPar3_apart u2 u3 u4 u5 u6 (ne_nil_of_perm (s := restShape s g.contigM) ?_ hE) hs _ ?_ (fun pl j hj => (hline j hj).2 pl) ?_
    · intro h0
      obtain ⟨x, hx, h0⟩ := List.mem_map.1 h0
      have hx := (mem_otherAxes.1 hx).1
      rw [List.getD_eq_getElem?_getD, List.getElem?_eq_getElem hx] at h0
      exact D.zs (h0 ▸ List.getElem_mem hx)
    · intro i hi j hj e
      refine hFinj i hi 0 hpos j hj 0 hpos (hinj _ _ (hFm i hi 0 hpos) (hFm j hj 0 hpos) ?_)
      rw [hpc i hi 0 hpos, hpc j hj 0 hpos, e]
    · refine List.Pairwise.imp_of_mem ?_ (hE.nodup_iff.2 (nodup_all _ _))
      intro i j hi hj hne k h1 h2
      obtain ⟨u, hu, rfl⟩ := List.mem_map.1 h1
      obtain ⟨w, hw, e⟩ := List.mem_map.1 h2
      obtain ⟨t, ht, e1⟩ := hUmem i hi u hu
      obtain ⟨t', ht', e2⟩ := hUmem j hj w hw
      exact hne (hFinj i hi t ht j hj t' ht' (hinj _ _ (hFm i hi t ht) (hFm j hj t' ht') (by rw [← e1, ← e2, e])))

end

end Rstsr
