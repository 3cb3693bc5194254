import Verif.Model.Distance
import Verif.Thm.Vecdot
import Verif.Thm.Transpose
import Verif.Proof.Blas
import Verif.Thm.Tri
/-!
# Lemmas on `cdist`
-/
namespace Rstsr
open Spec

section
variable {α ω : Type}

/-! ## Batches -/

theorem mem_batchOf {b n s j : Nat} : j ∈ batchOf b n s ↔ s ≤ j ∧ j < s + b ∧ j < n := by
  unfold batchOf
  rw [List.mem_range'_1]
  omega

theorem mem_batchStarts {b n s : Nat} (hb : 0 < b) : s ∈ batchStarts b n ↔ ∃ k, s = b * k ∧ s < n := by
  unfold batchStarts
  simp only [List.mem_map, List.mem_range]
  have key : ∀ k, k < (n + b - 1) / b ↔ b * k < n := by
    intro k
    rw [← Nat.succ_le_iff, Nat.le_div_iff_mul_le hb, Nat.succ_mul, Nat.mul_comm k b]
    omega
  constructor
  · rintro ⟨k, h, rfl⟩
    exact ⟨k, rfl, (key k).1 h⟩
  · rintro ⟨k, rfl, h⟩
    exact ⟨k, (key k).2 h, rfl⟩

theorem nodup_batchStarts {b : Nat} (hb : 0 < b) (n : Nat) : (batchStarts b n).Nodup := by
  unfold batchStarts
  exact List.nodup_range.map fun x y h => Nat.eq_of_mul_eq_mul_left hb h

/-- Two batches with a common element are the same. -/
theorem batch_eq {b k k' i : Nat} (h : b * k ≤ i) (h' : i < b * k + b) (h2 : b * k' ≤ i) (h2' : i < b * k' + b) : k = k' := by
  have hb : 0 < b := by omega
  have e : ∀ t, b * t ≤ i → i < b * t + b → t = i / b := by
    intro t h h'
    refine (Nat.div_eq_of_lt_le ?_ ?_).symm
    · rwa [Nat.mul_comm]
    · rwa [Nat.mul_comm, Nat.mul_succ]
  rw [e k h h', e k' h2 h2']

/-- The pairs of rows in the order the loops visit them. -/
def batchCells (b m n : Nat) : List (List Nat) :=
  (batchStarts b m).flatMap fun ib => (batchStarts b n).flatMap fun jb =>
    (batchOf b m ib).flatMap fun i => (batchOf b n jb).flatMap fun j => [[i, j]]

theorem mem_batchCells {b m n : Nat} (hb : 0 < b) {p : List Nat} : p ∈ batchCells b m n ↔ InRange p [m, n] := by
  unfold batchCells
  simp only [List.mem_flatMap, List.mem_singleton, mem_batchStarts hb, mem_batchOf]
  constructor
  · rintro ⟨ib, -, jb, -, i, hi, j, hj, rfl⟩
    exact inRange_pair.2 ⟨hi.2.2, hj.2.2⟩
  · intro h
    obtain ⟨i, j, rfl, hi, hj⟩ := of_inRange2 h
    have e : ∀ x, b * (x / b) ≤ x ∧ x < b * (x / b) + b := by
      intro x
      have := Nat.div_add_mod x b
      have := Nat.mod_lt x hb
      omega
    have := e i
    have := e j
    exact ⟨b * (i / b), ⟨_, rfl, by omega⟩, b * (j / b), ⟨_, rfl, by omega⟩, i, by omega, j, by omega, rfl⟩

theorem nodup_batchCells {b : Nat} (hb : 0 < b) (m n : Nat) : (batchCells b m n).Nodup := by
  unfold batchCells
  refine List.nodup_flatMap.2 ⟨fun ib hib => List.nodup_flatMap.2 ⟨fun jb hjb => List.nodup_flatMap.2 ⟨fun i _ =>
    List.nodup_flatMap.2 ⟨fun j _ => List.nodup_singleton _, ?_⟩, ?_⟩, ?_⟩, ?_⟩
  · refine List.Pairwise.imp (fun hne => ?_) List.nodup_range'
    simp [Function.onFun]; omega
  · refine List.Pairwise.imp (fun hne => ?_) List.nodup_range'
    simp only [Function.onFun]
    intro p h1 h2
    simp only [List.mem_flatMap, List.mem_singleton] at h1 h2
    obtain ⟨i, -, rfl⟩ := h1
    obtain ⟨i', -, e⟩ := h2
    simp only [List.cons.injEq, and_true] at e
    exact hne e.1
  · refine (nodup_batchStarts hb n).pairwise_of_forall_ne ?_
    intro jb hjb jb' hjb' hne
    simp only [Function.onFun]
    intro p h1 h2
    simp only [List.mem_flatMap, List.mem_singleton, mem_batchOf] at h1 h2
    obtain ⟨i, -, j, hj, rfl⟩ := h1
    obtain ⟨i', -, j', hj', e⟩ := h2
    simp only [List.cons.injEq, and_true] at e
    obtain ⟨rfl, rfl⟩ := e
    obtain ⟨k, rfl, -⟩ := (mem_batchStarts hb).1 hjb
    obtain ⟨k', rfl, -⟩ := (mem_batchStarts hb).1 hjb'
    exact hne (by rw [batch_eq hj.1 hj.2.1 hj'.1 hj'.2.1])
  · refine (nodup_batchStarts hb m).pairwise_of_forall_ne ?_
    intro ib hib ib' hib' hne
    simp only [Function.onFun]
    intro p h1 h2
    simp only [List.mem_flatMap, List.mem_singleton, mem_batchOf] at h1 h2
    obtain ⟨jb, -, i, hi, j, -, rfl⟩ := h1
    obtain ⟨jb', -, i', hi', j', -, e⟩ := h2
    simp only [List.cons.injEq, and_true] at e
    obtain ⟨rfl, rfl⟩ := e
    obtain ⟨k, rfl, -⟩ := (mem_batchStarts hb).1 hib
    obtain ⟨k', rfl, -⟩ := (mem_batchStarts hb).1 hib'
    exact hne (by rw [batch_eq hi.1 hi.2.1 hi'.1 hi'.2.1])

/-! ## The result -/

def distLayout (dev : Order) (m n : Nat) : Layout :=
  match dev with
  | .C => Layout.newCContigFixed [m, n] 0
  | .F => Layout.newFContigFixed [m, n] 0

theorem distLayout_axes (dev : Order) (m n : Nat) : (distLayout dev m n).axes =
    match dev with
    | .C => [⟨m, (max 1 n : Nat)⟩, ⟨n, 1⟩]
    | .F => [⟨m, 1⟩, ⟨n, (max 1 m : Nat)⟩] := by
  cases dev <;>
    simp [distLayout, Layout.newCContigFixed, Layout.newFContigFixed, mkAxes, strideCContigFixed, strideFContigFixed, fStrides]

theorem distLayout_shape (dev : Order) (m n : Nat) : (distLayout dev m n).shape = [m, n] := by
  have := distLayout_axes dev m n
  cases dev <;> simp [Layout.shape, this]

theorem distLayout_offset (dev : Order) (m n : Nat) : (distLayout dev m n).offset = 0 := by cases dev <;> rfl

theorem distLayout_pos (dev : Order) {m n i j : Nat} (hi : i < m) (hj : j < n) :
    (distLayout dev m n).pos [i, j] = distPos dev m n i j := by
  have h := distLayout_axes dev m n
  have ho := distLayout_offset dev m n
  generalize distLayout dev m n = l at h ho
  obtain ⟨ax, off⟩ := l
  simp only at h ho
  subst ho
  cases dev
  · simp only at h
    subst h
    have e : max 1 n = n := by omega
    unfold Layout.pos
    rw [r2c_addr, e]
    simp only [distPos]
    push_cast
    omega
  · simp only at h
    subst h
    have e : max 1 m = m := by omega
    unfold Layout.pos
    rw [r2c_addr, e]
    simp only [distPos]
    push_cast
    omega

theorem distLayout_tight (dev : Order) (m n : Nat) : Tight (distLayout dev m n) (m * n) := by
  have hs := distLayout_shape dev m n
  have hsz : (distLayout dev m n).size = m * n := by simp [Layout.size, hs]
  by_cases hz : 0 ∉ [m, n]
  · have e : distLayout dev m n = freshLayout dev [m, n] := by
      cases dev
      · exact (C05_fixed_eq_dynamic [m, n] 0 hz).1
      · exact (C05_fixed_eq_dynamic [m, n] 0 hz).2
    have h := freshLayout_tight dev [m, n]
    rw [← e, hsz] at h
    exact h
  · rw [not_not] at hz
    have h0 : m * n = 0 := by simpa using prod_eq_zero_of hz
    have hno : ∀ i, ¬ InRange i [m, n] := fun i hi => by
      obtain ⟨a, b, rfl, ha, hb⟩ := of_inRange2 hi
      simp at hz
      omega
    have hv : (distLayout dev m n).Valid := valid_iff.2 (accepted_iff.2 (.inr (.inl (by rw [← hs] at hz; exact hz))))
    refine ⟨hv, by rw [distLayout_offset], ⟨0, ?_⟩, ?_, ?_, ?_⟩
    · rw [boundsIndex_of_zero (by rw [hs]; exact hz), distLayout_offset, h0]; rfl
    · intro i hi; rw [hs] at hi; exact absurd hi (hno i)
    · intro k hk; omega
    · intro i j hi; rw [hs] at hi; exact absurd hi (hno i)

/-- The value that goes to a cell. -/
def valueAt (dist : Nat → Nat → Res ω) : List Nat → Option ω
  | [i, j] => match dist i j with
    | .ok x => some x
    | .error _ => none
  | _ => none

/-- One write for every pair of rows. -/
def distUpdates (dev : Order) (b m n : Nat) (dist : Nat → Nat → Res ω) : List (Nat × (Option ω → Option ω)) :=
  (batchCells b m n).map fun p => ((distLayout dev m n).pos p, fun _ => valueAt dist p)

theorem distUpdates_ok (dev : Order) {b m n : Nat} (hb : 0 < b) {dist : Nat → Nat → Res ω} {Q : Nat → Nat → ω → Prop}
    (h : ∀ i < m, ∀ j < n, ∃ x, dist i j = .ok x ∧ Q i j x) :
    ∃ d r, runU (distUpdates dev b m n dist) (uninit (m * n : Nat)) = .ok d ∧ distTensor dev m n d = .ok r ∧
      ((distUpdates dev b m n dist).map Prod.fst).Nodup ∧ (∀ u ∈ distUpdates dev b m n dist, u.1 < (uninit (γ := ω) (m * n : Nat)).length) ∧
      r.WF ∧ r.arr.shape = [m, n] ∧ ∀ i < m, ∀ j < n, ∃ x, r.arr.elem [i, j] = some x ∧ Q i j x := by
  have T := distLayout_tight dev m n
  have hs := distLayout_shape dev m n
  have hlen : (uninit (γ := ω) (m * n : Nat)).length = m * n := by
    unfold uninit
    rw [Int.toNat_natCast, List.length_replicate]
  have hnd : ((batchCells b m n).map (distLayout dev m n).pos).Nodup :=
    (nodup_batchCells hb m n).map_on fun p hp q hq e =>
      T.inj p q (hs ▸ (mem_batchCells hb).1 hp) (hs ▸ (mem_batchCells hb).1 hq) e
  have hlt : ∀ p ∈ batchCells b m n, (distLayout dev m n).pos p < (uninit (γ := ω) (m * n : Nat)).length := fun p hp => by
    rw [hlen]; exact T.lt p (hs ▸ (mem_batchCells hb).1 hp)
  obtain ⟨c, c1, c2, c3, -⟩ := runAll_modify (distLayout dev m n).pos (fun p (_ : Option ω) => valueAt dist p) (batchCells b m n)
    (uninit (m * n : Nat)) hlt hnd
  have hc : ∀ p, InRange p [m, n] → c[(distLayout dev m n).pos p]? = some (valueAt dist p) := fun p hp => by
    have hp' := (mem_batchCells hb).2 hp
    rw [c3 p hp', List.getElem?_eq_getElem (hlt p hp')]
    rfl
  have hv : ∀ p, InRange p [m, n] → ∃ i j x, p = [i, j] ∧ i < m ∧ j < n ∧ valueAt dist p = some x ∧ Q i j x := fun p hp => by
    obtain ⟨i, j, rfl, hi, hj⟩ := of_inRange2 hp
    obtain ⟨x, hx, hq⟩ := h i hi j hj
    exact ⟨i, j, x, rfl, hi, hj, by simp only [valueAt, hx], hq⟩
  obtain ⟨d, d1, d2, d3⟩ := assumeInit_ok (c := c) (by
    intro k hk
    rw [c2, hlen] at hk
    obtain ⟨p, hp, rfl⟩ := T.sur k hk
    rw [hs] at hp
    obtain ⟨i, j, x, -, -, -, hx, -⟩ := hv p hp
    exact ⟨x, by rw [hc p hp, hx]⟩)
  have hdl : d.length = m * n := by rw [d2, c2, hlen]
  obtain ⟨mn, hbd⟩ := T.bounds
  refine ⟨c, ⟨d, distLayout dev m n⟩, ?_, ?_, ?_, ?_, T.wf hdl, hs, ?_⟩
  · unfold runU distUpdates
    rw [runAll_map]
    exact c1
  · have hnew : Tensor.newF d (distLayout dev m n) = .ok ⟨d, distLayout dev m n⟩ := newF_ok T.valid hbd (by omega)
    unfold distTensor
    rw [d1, ok_bind]
    exact hnew
  · simpa [distUpdates, Function.comp_def] using hnd
  · intro u hu
    obtain ⟨p, hp, rfl⟩ := List.mem_map.1 hu
    exact hlt p hp
  · intro i hi j hj
    have hr : InRange [i, j] [m, n] := inRange_pair.2 ⟨hi, hj⟩
    obtain ⟨i', j', x, e, -, -, hx, hq⟩ := hv _ hr
    simp only [List.cons.injEq, and_true] at e
    obtain ⟨rfl, rfl⟩ := e
    refine ⟨x, ?_, hq⟩
    rw [elem_pos T.fit (hs ▸ hr)]
    exact d3 _ _ (by rw [hc _ hr, hx])

/-- The loops deliver the distances, without a pool and with every division of the work. -/
theorem distLoops_ok (dev : Order) (par : Option BlockPlan) {b m n : Nat} (hb : 0 < b) {dist : Nat → Nat → Res ω}
    {Q : Nat → Nat → ω → Prop} (h : ∀ i < m, ∀ j < n, ∃ x, dist i j = .ok x ∧ Q i j x) :
    ∃ r, Delivers (distLoops dev par b m n dist) r ∧ r.WF ∧ r.arr.shape = [m, n] ∧
      ∀ i < m, ∀ j < n, ∃ x, r.arr.elem [i, j] = some x ∧ Q i j x := by
  obtain ⟨d, r, h1, h2, h3, h4, h5, h6, h7⟩ := distUpdates_ok dev hb h
  refine ⟨r, ?_, h5, h6, h7⟩
  have hval : ∀ ib jb, ∀ i ∈ batchOf b m ib, ∀ j ∈ batchOf b n jb, ∃ x, dist i j = .ok x ∧ valueAt dist [i, j] = some x ∧
      distPos dev m n i j = (distLayout dev m n).pos [i, j] := fun ib jb i hi j hj => by
    have hi := (mem_batchOf.1 hi).2.2
    have hj := (mem_batchOf.1 hj).2.2
    obtain ⟨x, hx, -⟩ := h i hi j hj
    exact ⟨x, hx, by simp only [valueAt, hx], (distLayout_pos dev hi hj).symm⟩
  cases par with
  | none =>
    left
    unfold distLoops
    have e : ∀ c : List (Option ω), runAll (fun ib d => runAll (fun jb d => runAll (fun i d => runAll (fun j d => do
      let x ← dist i j
      modifyAt d (distPos dev m n i j) fun _ => some x) (batchOf b n jb) d) (batchOf b m ib) d) (batchStarts b n) d)
      (batchStarts b m) c = runU (distUpdates dev b m n dist) c := fun c => by
      unfold runU distUpdates
      rw [runAll_map]
      unfold batchCells
      rw [runAll_flatMap]
      refine runAll_congr (fun ib _ s => ?_) c
      rw [runAll_flatMap]
      refine runAll_congr (fun jb _ s => ?_) s
      rw [runAll_flatMap]
      refine runAll_congr (fun i hi s => ?_) s
      rw [runAll_flatMap]
      refine runAll_congr (fun j hj s => ?_) s
      obtain ⟨x, hx, hy, hz⟩ := hval ib jb i hi j hj
      rw [hx, ok_bind, hz]
      simp only [runAll, hy]
      exact (bind_pure _).symm
    simp only [e, h1, ok_bind, h2]
    rfl
  | some s =>
    right
    unfold distLoops
    obtain ⟨p, p1, p2⟩ : ∃ p, parRange (fun ib => parRange (fun jb => procLoop (fun i => procLoop (fun j => do
      let x ← dist i j
      return Proc.upd (distPos dev m n i j) fun _ => some x) (batchOf b n jb)) (batchOf b m ib)) (s.inner ib) (batchStarts b n))
      s.outer (batchStarts b m) = .ok p ∧ updates p = distUpdates dev b m n dist := by
      have e : distUpdates dev b m n dist = (batchStarts b m).flatMap fun ib => (batchStarts b n).flatMap fun jb =>
          (batchOf b m ib).flatMap fun i => (batchOf b n jb).flatMap fun j =>
            [((distLayout dev m n).pos [i, j], fun _ => valueAt dist [i, j])] := by
        unfold distUpdates batchCells
        simp only [List.map_flatMap, List.map_cons, List.map_nil]
      rw [e]
      refine parRange_ok s.outer fun ib _ => parRange_ok (s.inner ib) fun jb _ => procLoop_ok fun i hi => procLoop_ok fun j hj => ?_
      obtain ⟨x, hx, hy, hz⟩ := hval ib jb i hi j hj
      exact ⟨.upd (distPos dev m n i j) fun _ => some x, by rw [hx]; rfl, by rw [hy, hz]; rfl⟩
    have hn : ((updates p).map Prod.fst).Nodup := by rw [p2]; exact h3
    exact ⟨p, m * n, _, d, by simp only [p1]; rfl,
      computes_of_way (one := fun _ => True) (way_nodup hn (by rw [p2]; exact h4) (by rw [p2]; exact h1)),
      raceFree_of_nodup hn, h2⟩

/-! ## Rows -/

/-- The cells from `o` in steps of `s` have the elements `u`. -/
structure RowAt (x : List α) (o s : Int) (k : Nat) (u : List α) : Prop where
  len : u.length = k
  nonneg : ∀ j < k, 0 ≤ o + j * s
  get : ∀ j < k, x[(o + j * s).toNat]? = u[j]?

theorem RowAt.read {x : List α} {o s : Int} {k : Nat} {u : List α} (h : RowAt x o s k u) {j : Nat} (hj : j < k) :
    readInt x (o + j * s) = .ok (u[j]'(by rw [h.len]; exact hj)) :=
  readInt_ok (h.nonneg j hj) (by rw [h.get j hj, List.getElem?_eq_getElem])

theorem RowAt.slice {x : List α} {o : Int} {k : Nat} {u : List α} (hk : 0 < k) (h : RowAt x o 1 k u) : sliceOf x o k = .ok u := by
  have h0 := h.nonneg 0 hk
  have hl : (o + ((k - 1 : Nat) : Int) * 1).toNat < x.length := by
    by_contra hc
    have := h.get (k - 1) (by omega)
    rw [List.getElem?_eq_none (by omega), List.getElem?_eq_getElem (by rw [h.len]; omega)] at this
    cases this
  unfold sliceOf
  rw [if_neg (by omega)]
  congr 1
  apply List.ext_getElem?
  intro j
  by_cases hj : j < k
  · rw [List.getElem?_take_of_lt hj, List.getElem?_drop, ← h.get j hj]
    congr 1
    omega
  · rw [List.getElem?_eq_none (by simp; omega), List.getElem?_eq_none (by rw [h.len]; omega)]

theorem mapM_range_ok {β : Type} {f : Nat → Res β} {k : Nat} {u : List β} (hl : u.length = k)
    (h : ∀ j (hj : j < k), f j = .ok (u[j]'(by omega))) : (List.range k).mapM f = .ok u := by
  rw [mapM_ok, List.forall₂_iff_get]
  refine ⟨by simp [hl], fun i h1 h2 => ?_⟩
  simp only [List.get_eq_getElem, List.getElem_range]
  exact h i (by omega)

theorem pairsOf_ok {strided : Bool} {xa xb : List α} {oa ob sa sb : Int} {k : Nat} {u v : List α} (hk : 0 < k)
    (hs : strided = false → sa = 1 ∧ sb = 1) (ha : RowAt xa oa sa k u) (hb : RowAt xb ob sb k v) :
    pairsOf strided xa xb oa ob sa sb k = .ok (u.zip v) := by
  unfold pairsOf
  cases strided with
  | true =>
    rw [if_pos rfl]
    refine mapM_range_ok (by simp [ha.len, hb.len]) fun j hj => ?_
    rw [ha.read hj, ok_bind, hb.read hj, ok_bind, List.getElem_zip]
    rfl
  | false =>
    obtain ⟨rfl, rfl⟩ := hs rfl
    rw [if_neg (by simp), ha.slice hk, ok_bind, hb.slice hk]
    rfl

theorem triplesOf_ok {strided : Bool} {xa xb : List α} {w : List ω} {oa ob sa sb : Int} {k : Nat} {u v : List α} (hk : 0 < k)
    (hs : strided = false → sa = 1 ∧ sb = 1) (ha : RowAt xa oa sa k u) (hb : RowAt xb ob sb k v) (hw : w.length = k) :
    triplesOf strided xa xb w oa ob sa sb k = .ok ((u.zip v).zip w) := by
  unfold triplesOf
  cases strided with
  | true =>
    rw [if_pos rfl]
    refine mapM_range_ok (by simp [ha.len, hb.len, hw]) fun j hj => ?_
    rw [ha.read hj, ok_bind, hb.read hj, ok_bind, readAt_ok.2 (List.getElem?_eq_getElem (by rw [hw]; exact hj)), ok_bind,
      List.getElem_zip, List.getElem_zip]
    rfl
  | false =>
    obtain ⟨rfl, rfl⟩ := hs rfl
    rw [if_neg (by simp), ha.slice hk, ok_bind, hb.slice hk]
    rfl

/-- A two-dimensional tensor, with its rows. -/
theorem rows_of {a : Tensor α} (ha : a.WF) {m k : Nat} (hs : a.arr.shape = [m, k]) :
    a.layout.ndim = 2 ∧ a.layout.dimAt 0 = m ∧ a.layout.dimAt 1 = k ∧
    ∀ i < m, ∃ u, IsRow a.arr i k u ∧ RowAt a.data (a.layout.offset + i * a.layout.stride.getD 0 0) (a.layout.stride.getD 1 0) k u ∧
      readRow a.data a.layout i = .ok u := by
  have hs' : a.layout.shape = [m, k] := hs
  obtain ⟨data, axes, off⟩ := a
  match axes, hs' with
  | [x, y], hs' =>
    simp only [Layout.shape, List.map_cons, List.map_nil, List.cons.injEq, and_true] at hs'
    obtain ⟨rfl, rfl⟩ := hs'
    refine ⟨rfl, rfl, rfl, fun i hi => ?_⟩
    have key : ∀ j : Fin y.dim, ∃ v, data[(off + i * x.str + j * y.str).toNat]? = some v ∧
        (⟨data, ⟨[x, y], off⟩⟩ : Tensor α).arr.elem [i, j] = some v ∧ 0 ≤ off + i * x.str + j * y.str := fun j => by
      have hr : InRange [i, (j : Nat)] (⟨[x, y], off⟩ : Layout).shape := inRange_pair.2 ⟨hi, j.2⟩
      obtain ⟨v, h1, h2⟩ := ha.get hr
      have h0 := ha.fit.nonneg _ hr
      have ea : (⟨[x, y], off⟩ : Layout).addr [i, (j : Nat)] = off + i * x.str + j * y.str := by rw [r2c_addr]; ring
      refine ⟨v, ?_, h2, by rw [← ea]; exact h0⟩
      rw [← ea]; exact h1
    choose val h1 h2 h3 using key
    refine ⟨List.ofFn val, ⟨by simp, fun j hj => ?_⟩, ⟨by simp, fun j hj => h3 ⟨j, hj⟩, fun j hj => ?_⟩, ?_⟩
    · rw [h2 ⟨j, hj⟩, List.getElem?_eq_getElem (by simpa using hj)]; simp
    · have := h1 ⟨j, hj⟩
      simp only [Layout.stride, List.map_cons, List.map_nil, List.getD_cons_zero, List.getD_cons_succ]
      rw [this, List.getElem?_eq_getElem (by simpa using hj)]; simp
    · unfold readRow
      refine mapM_range_ok (by rw [List.length_ofFn]; rfl) fun j hj => ?_
      have hj : j < y.dim := hj
      rw [indexUncheck2 (m := x.dim) (n := y.dim) rfl, ok_bind, r2c_addr, ← add_assoc, readInt_ok (h3 ⟨j, hj⟩) (h1 ⟨j, hj⟩)]
      simp

/-- What `initialize` keeps. -/
theorem keptRows_ok {κ : Type} {a : Tensor α} {m k : Nat} (hd : a.layout.dimAt 0 = m) (reads : Bool) (row : List α → κ)
    (hr : ∀ i < m, ∃ u, IsRow a.arr i k u ∧ readRow a.data a.layout i = .ok u) (hrow : reads = false → ∀ u, row u = row []) :
    ∃ K, keptRows reads row a.data a.layout = .ok K ∧ ∀ i < m, ∀ u, IsRow a.arr i k u → K[i]? = some (row u) := by
  have huniq : ∀ i u u', IsRow a.arr i k u → IsRow a.arr i k u' → u = u' := fun i u u' h h' => by
    apply List.ext_getElem?
    intro j
    by_cases hj : j < k
    · rw [← h.2 j hj, ← h'.2 j hj]
    · rw [List.getElem?_eq_none (by rw [h.1]; omega), List.getElem?_eq_none (by rw [h'.1]; omega)]
  have hstep : ∀ i < m, ∀ u, IsRow a.arr i k u → (do
      if reads then return row (← readRow a.data a.layout i) else return row [] : Res κ) = .ok (row u) := fun i hi u hu => by
    obtain ⟨u', h1, h2⟩ := hr i hi
    obtain rfl := huniq i u u' hu h1
    cases reads with
    | true => simp only [if_true, h2]; rfl
    | false => rw [hrow rfl u]; rfl
  choose! U hU using fun i (hi : i < m) => (hr i hi).imp fun _ h => h.1
  refine ⟨(List.range m).map fun i => row (U i), ?_, fun i hi u hu => ?_⟩
  · unfold keptRows
    rw [hd]
    exact mapM_eq_map fun i hi => hstep i (List.mem_range.1 hi) _ (hU i (List.mem_range.1 hi))
  · rw [List.getElem?_map, List.getElem?_range hi, huniq i u _ hu (hU i hi)]
    rfl

/-- Distance of two rows by a metric. -/
def Metric.between (M : Metric α ω) (u v : List α) : ω :=
  M.finish (M.row u) (M.row v) u.length ((u.zip v).foldl (fun s p => M.step (M.row u) (M.row v) s p.1 p.2) M.start)

def Metric.betweenW (R : Reals ω) (M : Metric α ω) (w : List ω) (u v : List α) : ω :=
  M.finishW (M.rowW w u) (M.rowW w v) (w.foldl R.plus R.zero)
    (((u.zip v).zip w).foldl (fun s p => M.stepW (M.rowW w u) (M.rowW w v) s p.1.1 p.1.2 p.2) M.start)

theorem batchSize_ok {size k : Nat} (hs : 0 < size) (hk : 0 < k) : ∃ b, 0 < b ∧ batchSize size k = .ok b := by
  have : size * k ≠ 0 := by positivity
  exact ⟨max 8 (min 64 (256 * 1024 / (size * k) / 2)), by omega, by unfold batchSize; rw [if_neg this]⟩

theorem cdist_ok (dev : Order) (par : Option BlockPlan) {size : Nat} (hsize : 0 < size) (M : Metric α ω)
    (hM : M.reads = false → ∀ u, M.row u = M.row []) {a b : Tensor α}
    (ha : a.WF) (hb : b.WF) {m n k : Nat} (hk : 0 < k) (sa : a.arr.shape = [m, k]) (sb : b.arr.shape = [n, k]) :
    ∃ r, Delivers (a.cdist dev par size M b) r ∧ r.WF ∧ IsDistances M.between a.arr b.arr r.arr := by
  obtain ⟨a1, a2, a3, a4⟩ := rows_of ha sa
  obtain ⟨b1, b2, b3, b4⟩ := rows_of hb sb
  obtain ⟨ka, ka1, ka2⟩ := keptRows_ok a2 M.reads M.row (fun i hi => (a4 i hi).imp fun u h => ⟨h.1, h.2.2⟩) hM
  obtain ⟨kb, kb1, kb2⟩ := keptRows_ok b2 M.reads M.row (fun i hi => (b4 i hi).imp fun u h => ⟨h.1, h.2.2⟩) hM
  obtain ⟨bs, bs0, bs1⟩ := batchSize_ok hsize hk
  obtain ⟨r, r1, r2, r3, r4⟩ := distLoops_ok dev par bs0 (m := m) (n := n)
    (dist := distanceAt M ka kb a.data b.data a.layout b.layout)
    (Q := fun i j x => ∃ u v, IsRow a.arr i k u ∧ IsRow b.arr j k v ∧ x = M.between u v) (by
      intro i hi j hj
      obtain ⟨u, u1, u2, -⟩ := a4 i hi
      obtain ⟨v, v1, v2, -⟩ := b4 j hj
      refine ⟨M.between u v, ?_, u, v, u1, v1, rfl⟩
      unfold distanceAt
      rw [readAt_ok.2 (ka2 i hi u u1), ok_bind, readAt_ok.2 (kb2 j hj v v1), ok_bind]
      simp only [a3]
      rw [pairsOf_ok hk (by simp) u2 v2, ok_bind]
      unfold Metric.between
      rw [u1.1]
      rfl)
  refine ⟨r, ?_, r2, m, n, k, sa, sb, r3, fun i hi j hj => ?_⟩
  · unfold Tensor.cdist
    rw [if_neg (by rw [a1]; simp), if_neg (by rw [b1]; simp), if_neg (by rw [a3, b3]; simp), ka1, ok_bind, kb1, ok_bind, a3, bs1,
      ok_bind, a2, b2]
    exact r1
  · obtain ⟨x, h1, u, v, h2, h3, h4⟩ := r4 i hi j hj
    exact ⟨u, v, h2, h3, by rw [h1, h4]⟩

/-! ## Weights -/

theorem line_data {c : Tensor ω} {w : List ω} (hw : IsVector c.arr w) (hl : c.data.length = w.length)
    (ht : Tight c.layout w.length) (ho : c.layout.offset = 0) (hp : ∀ x ∈ c.layout.axes, 0 ≤ x.str) : c.data = w := by
  have hs : c.layout.shape = [w.length] := hw.1
  obtain ⟨data, axes, off⟩ := c
  simp only at ho hl ht hp
  subst ho
  obtain ⟨x, rfl⟩ : ∃ x, axes = [x] := by
    have := congrArg List.length hs
    exact List.length_eq_one_iff.1 (by simpa [Layout.shape] using this)
  · simp only [Layout.shape, List.map_cons, List.map_nil, List.cons.injEq, and_true] at hs
    have hx := hp x (by simp)
    have hpos : ∀ j : Nat, (⟨[x], 0⟩ : Layout).addr [j] = j * x.str := fun j => by rw [addr_mk]; simp [dot]
    have hr : ∀ j, j < w.length → InRange [j] (⟨[x], 0⟩ : Layout).shape := fun j hj => by
      simp [Layout.shape, InRange, hs, hj]
    have hstr : 2 ≤ w.length → x.str = 1 := fun h2 => by
      have h0 : x.str ≠ 0 := fun h0 => by
        have := ht.inj [0] [1] (hr 0 (by omega)) (hr 1 (by omega)) (by unfold Layout.pos; rw [hpos, hpos, h0]; simp)
        simp at this
      have hlt := ht.lt [w.length - 1] (hr _ (by omega))
      unfold Layout.pos at hlt
      rw [hpos] at hlt
      by_contra h1
      have h3 : 2 ≤ x.str := by omega
      have : ((w.length - 1 : Nat) : Int) * 2 ≤ ((w.length - 1 : Nat) : Int) * x.str :=
        mul_le_mul_of_nonneg_left h3 (by omega)
      omega
    apply List.ext_getElem?
    intro j
    by_cases hj : j < w.length
    · have := hw.2 j hj
      rw [← this, elem_pos ht.fit (hr j hj)]
      congr 1
      unfold Layout.pos
      rw [hpos]
      by_cases h2 : 2 ≤ w.length
      · rw [hstr h2]; omega
      · obtain rfl : j = 0 := by omega
        simp
    · have hd : data.length ≤ j := by rw [hl]; omega
      show data[j]? = _
      rw [List.getElem?_eq_none hd, List.getElem?_eq_none (by omega)]

theorem isVector_same {A B : Arr ω} (h : A.Same B) {w : List ω} (hw : IsVector A w) : IsVector B w := by
  refine ⟨h.1.trans hw.1, fun j hj => ?_⟩
  obtain ⟨x, h1, h2⟩ := h.2 [j] (by rw [hw.1]; simp [InRange, hj])
  rw [h2, ← h1, hw.2 j hj]

/-- The copy of the weights is the list of their elements. -/
theorem weights_contig (dflt : Order) {a : Tensor ω} (ha : a.WF) {w : List ω} (hw : IsVector a.arr w) :
    ∃ c, Tensor.intoContig dflt a .C = .ok c ∧ c.data = w := by
  have hs : a.layout.shape = [w.length] := hw.1
  have hz : a.layout.size = w.length := by simp [Layout.size, hs]
  obtain ⟨b, b1, hb, b2, b4⟩ := changeLayout_tight dflt ha (freshLayout_tight .C a.layout.shape)
    (by simp only [Layout.size, freshLayout_shape])
  have b3 : a.arr.Same b.arr := same_of_seq (by
    show b.layout.shape = _
    rw [hb, freshLayout_shape]; rfl) b4
  have b1 : Tensor.changeContig dflt a .C = .ok b := b1
  have htb := freshLayout_tight .C a.layout.shape
  rw [← hb] at htb
  have hsb : b.layout.shape = [w.length] := by rw [hb, freshLayout_shape, hs]
  have hzb : b.layout.size = w.length := by simp [Layout.size, hsb]
  obtain ⟨mn, mx, hbd, -, -⟩ := WF_bounds b2
  unfold Tensor.intoContig
  rw [b1]
  simp only [ok_bind]
  unfold Tensor.intoOwned
  simp only [hbd, ok_bind]
  by_cases hc : mn = 0 ∧ mx = b.data.length ∧ mx = b.layout.size
  · simp only [if_pos hc]
    rw [hzb] at htb
    refine ⟨b, rfl, line_data (isVector_same b3 hw) (by omega) htb (by rw [hb]; rfl) ?_⟩
    rw [hb, hs]
    intro x hx
    have : x = ⟨w.length, 1⟩ := by simpa [freshLayout, Layout.newCContig, mkAxes, strideCContig, fStrides] using hx
    rw [this]; show (0 : Int) ≤ 1; decide
  · simp only [if_neg hc]
    obtain ⟨c, c1, c2, c3, c4, -⟩ := C35_asarray dflt b b2 .K (by simp)
    rw [c1]
    obtain ⟨m, h1, h2, h3, h4⟩ := forArrayCopy_spec dflt b2.fit.valid .K (by simp)
    have hm : c.layout = m := by
      unfold Tensor.asarray at c1
      simp only [h1, ok_bind] at c1
      obtain ⟨_, -, c1⟩ := bind_ok.1 c1
      obtain ⟨_, -, c1⟩ := bind_ok.1 c1
      exact newF_layout c1
    have ht := h3.tight fun hz => h4 (h2 ▸ hz)
    have hzm : m.size = w.length := by simp [Layout.size, h2, hsb]
    rw [← hm] at ht
    rw [hm, hzm, ← hm] at ht
    refine ⟨c, rfl, line_data (isVector_same c3 (isVector_same b3 hw)) ?_ ht (by rw [hm, h3.off]) (by rw [hm]; exact forArrayCopy_nonneg h1)⟩
    rw [c4]
    show b.layout.shape.prod = _
    rw [hsb]; simp

theorem vector_ndim {a : Tensor ω} {w : List ω} (hw : IsVector a.arr w) : a.layout.ndim = 1 := by
  have : a.layout.shape = [w.length] := hw.1
  have := congrArg List.length this
  simpa [Layout.shape, Layout.ndim] using this

theorem cdistW_ok (dflt dev : Order) (par : Option BlockPlan) {size : Nat} (hsize : 0 < size) (R : Reals ω) (M : Metric α ω)
    (hM : M.reads = false → ∀ w u, M.rowW w u = M.rowW w []) {a b : Tensor α} {wt : Tensor ω} {w : List ω}
    (ha : a.WF) (hb : b.WF) (hwt : wt.WF) {m n k : Nat} (hk : 0 < k) (sa : a.arr.shape = [m, k]) (sb : b.arr.shape = [n, k])
    (hw : IsVector wt.arr w) (hwk : w.length = k) :
    ∃ r, Delivers (a.cdistW dflt dev par size R M b wt) r ∧ r.WF ∧ IsDistances (M.betweenW R w) a.arr b.arr r.arr := by
  obtain ⟨c, c1, c2⟩ := weights_contig dflt hwt hw
  obtain ⟨a1, a2, a3, a4⟩ := rows_of ha sa
  obtain ⟨b1, b2, b3, b4⟩ := rows_of hb sb
  obtain ⟨ka, ka1, ka2⟩ := keptRows_ok a2 M.reads (M.rowW w) (fun i hi => (a4 i hi).imp fun u h => ⟨h.1, h.2.2⟩) fun h => hM h w
  obtain ⟨kb, kb1, kb2⟩ := keptRows_ok b2 M.reads (M.rowW w) (fun i hi => (b4 i hi).imp fun u h => ⟨h.1, h.2.2⟩) fun h => hM h w
  obtain ⟨bs, bs0, bs1⟩ := batchSize_ok hsize hk
  obtain ⟨r, r1, r2, r3, r4⟩ := distLoops_ok dev par bs0 (m := m) (n := n)
    (dist := distanceAtW R M w ka kb a.data b.data a.layout b.layout)
    (Q := fun i j x => ∃ u v, IsRow a.arr i k u ∧ IsRow b.arr j k v ∧ x = M.betweenW R w u v) (by
      intro i hi j hj
      obtain ⟨u, u1, u2, -⟩ := a4 i hi
      obtain ⟨v, v1, v2, -⟩ := b4 j hj
      refine ⟨M.betweenW R w u v, ?_, u, v, u1, v1, rfl⟩
      unfold distanceAtW
      rw [readAt_ok.2 (ka2 i hi u u1), ok_bind, readAt_ok.2 (kb2 j hj v v1), ok_bind]
      simp only [a3]
      rw [triplesOf_ok hk (by simp) u2 v2 hwk, ok_bind]
      rfl)
  refine ⟨r, ?_, r2, m, n, k, sa, sb, r3, fun i hi j hj => ?_⟩
  · unfold Tensor.cdistW
    rw [if_neg (by rw [a1]; simp), if_neg (by rw [b1]; simp), if_neg (by rw [vector_ndim hw]; simp), c1, ok_bind,
      if_neg (by rw [a3, b3]; simp), c2, if_neg (by rw [a3, hwk]; simp), ka1, ok_bind, kb1, ok_bind, a3, bs1, ok_bind, a2, b2]
    exact r1
  · obtain ⟨x, h1, u, v, h2, h3, h4⟩ := r4 i hi j hj
    exact ⟨u, v, h2, h3, by rw [h1, h4]⟩

end
end Rstsr
