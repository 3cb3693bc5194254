import Verif.Spec.Vecdot
import Verif.Proof.VecdotKernel
import Verif.Thm.ReduceAxes
import Verif.Thm.Copy
import Verif.Thm.Parallel
/-!
# C43: `vecdot`

`mul x y` stands for `conj(x) * y`; it need not be commutative, and addition need only be a commutative monoid.
-/
namespace Rstsr
open Spec

section
variable {α β γ : Type}

/-- The axes named by the axis argument of `vecdot`, for operands with `na` and `nb` axes: without an argument the last
axis of each, an integer names the same axis of both (from the end if negative), and two lists are paired. -/
def DotAxes (na nb : Nat) : AxesPair → List Nat → List Nat → Prop
  | .none, SA, SB => 0 < na ∧ 0 < nb ∧ SA = [na - 1] ∧ SB = [nb - 1]
  | .val k, SA, SB => AxisOk na k ∧ AxisOk nb k ∧ SA = [normAxis na k] ∧ SB = [normAxis nb k]
  | .pair (some A) (some B), SA, SB => (∀ k ∈ A, AxisOk na k) ∧ (∀ k ∈ B, AxisOk nb k) ∧ A.length = B.length ∧
      SA = A.map (normAxis na) ∧ SB = B.map (normAxis nb) ∧ SA.Nodup ∧ SB.Nodup
  | _, _, _ => False

theorem vecdotAxes_iff {na nb : Nat} {axes : AxesPair} {A B : List Int} :
    vecdotAxes na nb axes = .ok (A, B) ↔ ∃ SA SB, DotAxes na nb axes SA SB ∧ A = SA.map Int.ofNat ∧ B = SB.map Int.ofNat := by
  have one : ∀ k : Int, (if k < 0 then
      if -(min na nb : Nat) ≤ k then (.ok ([k + na], [k + nb]) : Res (List Int × List Int)) else .error .invalidValue
    else if k < (min na nb : Nat) then .ok ([k], [k]) else .error .invalidValue) = .ok (A, B) ↔
      ∃ SA SB, DotAxes na nb (.val k) SA SB ∧ A = SA.map Int.ofNat ∧ B = SB.map Int.ofNat := by
    intro k
    constructor
    · intro h
      split at h
      · split at h
        · cases h
          refine ⟨_, _, ⟨?_, ?_, rfl, rfl⟩, ?_, ?_⟩
          · simp only [AxisOk]; omega
          · simp only [AxisOk]; omega
          · simp only [List.map_cons, List.map_nil, normAxis]; rw [if_pos (by assumption)]; congr 1
            simp only [Int.ofNat_eq_natCast]; omega
          · simp only [List.map_cons, List.map_nil, normAxis]; rw [if_pos (by assumption)]; congr 1
            simp only [Int.ofNat_eq_natCast]; omega
        · cases h
      · split at h
        · cases h
          refine ⟨_, _, ⟨?_, ?_, rfl, rfl⟩, ?_, ?_⟩
          · simp only [AxisOk]; omega
          · simp only [AxisOk]; omega
          · simp only [List.map_cons, List.map_nil, normAxis]; rw [if_neg (by assumption)]; congr 1
            simp only [Int.ofNat_eq_natCast]; omega
          · simp only [List.map_cons, List.map_nil, normAxis]; rw [if_neg (by assumption)]; congr 1
            simp only [Int.ofNat_eq_natCast]; omega
        · cases h
    · rintro ⟨SA, SB, ⟨h1, h2, rfl, rfl⟩, rfl, rfl⟩
      simp only [AxisOk] at h1 h2
      simp only [List.map_cons, List.map_nil, normAxis, Int.ofNat_eq_natCast]
      split
      · rw [if_pos (by omega)]
        congr 3 <;> omega
      · rw [if_pos (by omega)]
        congr 3 <;> omega
  cases axes with
  | none =>
    refine (one (-1)).trans ?_
    constructor
    · rintro ⟨SA, SB, ⟨h1, h2, rfl, rfl⟩, rfl, rfl⟩
      simp only [AxisOk] at h1 h2
      refine ⟨_, _, ⟨by omega, by omega, rfl, rfl⟩, ?_, ?_⟩ <;> simp [normAxis] <;> omega
    · rintro ⟨SA, SB, ⟨h1, h2, rfl, rfl⟩, rfl, rfl⟩
      refine ⟨_, _, ⟨by simp only [AxisOk]; omega, by simp only [AxisOk]; omega, rfl, rfl⟩, ?_, ?_⟩ <;> simp [normAxis] <;> omega
  | val k => exact one k
  | pair x y =>
    unfold vecdotAxes
    simp only
    cases x with
    | none =>
      simp only [normalizeAxes, error_bind, DotAxes, false_and, exists_const, iff_false]
      exact fun h => by cases h
    | some x =>
      cases y with
      | none =>
        simp only [DotAxes, false_and, exists_const, iff_false]
        intro h
        obtain ⟨_, -, h⟩ := bind_ok.1 h
        obtain ⟨_, h', -⟩ := bind_ok.1 h
        cases h'
      | some y =>
        constructor
        · intro h
          obtain ⟨u, hu, h⟩ := bind_ok.1 h
          obtain ⟨v, hv, h⟩ := bind_ok.1 h
          obtain ⟨u1, u2, u3⟩ := normalizeAxes_ok.1 hu
          obtain ⟨v1, v2, v3⟩ := normalizeAxes_ok.1 hv
          simp only [Bool.false_eq_true, if_false] at u3 v3
          subst u3 v3
          split at h
          · cases h
          · rename_i hl
            cases h
            exact ⟨_, _, ⟨u1, v1, by simpa using hl, rfl, rfl, u2 rfl, v2 rfl⟩, rfl, rfl⟩
        · rintro ⟨SA, SB, ⟨h1, h2, h3, rfl, rfl, h4, h5⟩, rfl, rfl⟩
          have e1 : normalizeAxes (some x) na false false = .ok (x.map (normAxis na)) :=
            normalizeAxes_ok.2 ⟨h1, fun _ => h4, by simp⟩
          have e2 : normalizeAxes (some y) nb false false = .ok (y.map (normAxis nb)) :=
            normalizeAxes_ok.2 ⟨h2, fun _ => h5, by simp⟩
          rw [e1, e2]
          simp [ok_bind, h3]

theorem dotAxes_lt {na nb : Nat} {axes : AxesPair} {SA SB : List Nat} (h : DotAxes na nb axes SA SB) :
    SA.Nodup ∧ (∀ k ∈ SA, k < na) ∧ SB.Nodup ∧ ∀ k ∈ SB, k < nb := by
  match axes, SA, SB, h with
  | .none, _, _, ⟨h1, h2, rfl, rfl⟩ => simp; omega
  | .val k, _, _, ⟨h1, h2, rfl, rfl⟩ => simp [normAxis_lt h1, normAxis_lt h2]
  | .pair (some A) (some B), _, _, ⟨h1, h2, _, rfl, rfl, h4, h5⟩ =>
    refine ⟨h4, ?_, h5, ?_⟩
    · intro k hk
      obtain ⟨q, hq, rfl⟩ := List.mem_map.1 hk
      exact normAxis_lt (h1 q hq)
    · intro k hk
      obtain ⟨q, hq, rfl⟩ := List.mem_map.1 hk
      exact normAxis_lt (h2 q hq)

theorem map_norm_ofNat (n : Nat) (S : List Nat) : (S.map Int.ofNat).map (normAxis n) = S := by
  rw [List.map_map]
  conv_rhs => rw [← List.map_id S]
  apply List.map_congr_left
  intro k _
  exact normAxis_ofNat n k

/-- Splitting off distinct existing axes. -/
theorem split_of_axes {t : Tensor α} (h : t.WF) (hz : 0 ∉ t.arr.shape) {S : List Nat} (hnd : S.Nodup)
    (hlt : ∀ k ∈ S, k < t.arr.shape.length) :
    ∃ lax lrest, t.layout.dimSplitAxes (S.map Int.ofNat) = .ok (lax, lrest) ∧ lax.shape = takeAxes S t.arr.shape ∧
      lrest.shape = takeAxes (otherAxes t.arr.shape.length S) t.arr.shape := by
  obtain ⟨⟨x, y⟩, e⟩ := (C52_split_axes_accept_iff t.layout h.fit.valid h.1 hz (S.map Int.ofNat)).2 ⟨by
      intro a ha
      obtain ⟨k, hk, rfl⟩ := List.mem_map.1 ha
      rw [ndim_arr]
      exact axisOk_ofNat (hlt k hk), by rw [map_norm_ofNat]; exact hnd⟩
  obtain ⟨f1, -, -, f4, -⟩ := split_facts h e
  rw [map_norm_ofNat] at f1 f4
  exact ⟨x, y, e, f4, f1⟩

theorem broadcastOfAll_pair {o : Order} {x y s : List Nat} (h : BroadcastOf o x y s) : BroadcastOfAll o [x, y] s := by
  have hl := h.1
  have big : ∀ k, ¬ k < s.length → ∀ l : List Nat, l.length ≤ s.length → axisAt o l k = 1 := by
    intro k hk l hl
    rw [axisAt_eq, List.getD_eq_getElem?_getD, List.getElem?_eq_none (by rw [alignL_length]; omega)]; rfl
  refine ⟨?_, ?_, ?_⟩
  · simp only [List.mem_cons, List.not_mem_nil, or_false, forall_eq_or_imp, forall_eq]
    refine ⟨⟨by omega, fun k => ?_⟩, by omega, fun k => ?_⟩
    · by_cases hk : k < s.length
      · exact (h.2 k hk).1
      · exact .inr (big k hk x (by omega))
    · by_cases hk : k < s.length
      · exact (h.2 k hk).2.1
      · exact .inr (big k hk y (by omega))
  · simp only [List.mem_cons, List.not_mem_nil, or_false, exists_eq_or_imp, exists_eq_left]; omega
  · intro k
    simp only [List.mem_cons, List.not_mem_nil, or_false, exists_eq_or_imp, exists_eq_left]
    by_cases hk : k < s.length
    · exact (h.2 k hk).2.2
    · left; rw [big k hk s (by omega), big k hk x (by omega)]

variable [AddCommMonoid γ]

/-- The serial device, or the parallel one with a scheduler that splits within the ranges. -/
def DotDevice (par : Option (Bool × Scheduler)) : Prop := ∀ q ∈ par, q.2.Fits

/-- `vecdot`: for every pair of tensors, every choice of axes and every device, the result is the sum of products along
the paired axes, and threads do not race.
Missing: operands with an axis of length 0; on the parallel device, operands with elements that share a cell
(see `C43_false_shared`). -/
theorem C43_vecdot_partial (mul : α → β → γ) (dflt dev : Order) (par : Option (Bool × Scheduler)) (hp : DotDevice par)
    (a : Tensor α) (b : Tensor β) (ha : a.WF) (hb : b.WF) (za : 0 ∉ a.arr.shape) (zb : 0 ∉ b.arr.shape)
    (hu : par ≠ none → a.Unshared ∧ b.Unshared) (axes : AxesPair) (SA SB : List Nat)
    (hax : DotAxes a.arr.shape.length b.arr.shape.length axes SA SB)
    (hk : takeAxes SA a.arr.shape = takeAxes SB b.arr.shape)
    (hc : Compatible dev (takeAxes (otherAxes a.arr.shape.length SA) a.arr.shape)
      (takeAxes (otherAxes b.arr.shape.length SB) b.arr.shape)) :
    ∃ r, Delivers (a.vecdot dflt dev par (sumOps mul) b axes) r ∧ r.WF ∧ IsVecdot dev mul a.arr SA b.arr SB r.arr := by
  obtain ⟨n1, n2, n3, n4⟩ := dotAxes_lt hax
  obtain ⟨las, lam, p1, p2, p3⟩ := split_of_axes ha za n1 n2
  obtain ⟨lbs, lbm, q1, q2, q3⟩ := split_of_axes hb zb n3 n4
  have hs : las.shape = lbs.shape := by rw [p2, q2, hk]
  obtain ⟨⟨ma, mb⟩, hbr⟩ := (C17_accept_iff lam lbm dev).2 (by rw [p3, q3]; exact hc)
  obtain ⟨B1, B2, B3⟩ := C17_broadcast_layout lam lbm ma mb dev hbr
  obtain ⟨lc, c1, c2, c3, c4⟩ := forBinaryOp_spec B2.symm dev
  obtain ⟨hv, n, hb1, hlt, hsur⟩ := c3.spec
  have hoff : 0 ≤ lc.offset := by rw [c3.off]
  obtain ⟨g, X, Y, g1, g2, D, g4, g5⟩ := dot_prepare (lc := lc) (o := dev) ha hb za zb p1 q1 hs hv hoff (by rw [c2]; exact B1)
  have same : ∀ i j, InRange i lc.shape → InRange j lc.shape → lc.pos i = lc.pos j →
      g.lam.addr i = g.lam.addr j ∧ g.lbm.addr i = g.lbm.addr j := by
    intro i j hi hj e
    obtain ⟨x1, x2⟩ := c4 i j (c2 ▸ hi) (c2 ▸ hj) e
    obtain ⟨⟨_, i1⟩, _, i2⟩ := B3 i (c2 ▸ hi)
    obtain ⟨⟨_, j1⟩, _, j2⟩ := B3 j (c2 ▸ hj)
    obtain ⟨-, -, k1, k2⟩ := g4 i hi
    obtain ⟨-, -, l1, l2⟩ := g4 j hj
    have a1 := pos_cast D.fam hi
    have a2 := pos_cast D.fam hj
    have a3 := pos_cast D.fbm hi
    have a4 := pos_cast D.fbm hj
    have u1 : ma.pos i = g.lam.pos i := by unfold Layout.pos; rw [i1, k1]
    have u2 : ma.pos j = g.lam.pos j := by unfold Layout.pos; rw [j1, l1]
    have u3 : mb.pos i = g.lbm.pos i := by unfold Layout.pos; rw [i2, k2]
    have u4 : mb.pos j = g.lbm.pos j := by unfold Layout.pos; rw [j2, l2]
    rw [← a1, ← a2, ← a3, ← a4]
    omega
  have hag : ∀ i j, InRange i lc.shape → InRange j lc.shape → lc.pos i = lc.pos j →
      dotVal mul las.shape X Y i = dotVal mul las.shape X Y j := by
    intro i j hi hj e
    obtain ⟨x1, x2⟩ := same i j hi hj e
    unfold dotVal
    congr 1
    apply List.map_congr_left
    intro k hk
    have hk := (mem_all (o := .C)).1 hk
    have r1 := (D.readA i k hi hk).2
    have r2 := (D.readA j k hj hk).2
    have r3 := (D.readB i k hi hk).2
    have r4 := (D.readB j k hj hk).2
    rw [x1] at r1
    rw [x2] at r3
    have e1 : X i k = X j k := by simpa [r1] using r2
    have e2 : Y i k = Y j k := by simpa [r3] using r4
    rw [e1, e2]
  obtain ⟨w, c', w1, w2, w3, w4, -⟩ := D.device mul dflt dev g1 g2 hag (c := uninit ((n : Int).toNat : Int))
    (fun j hj => by simp only [uninit, List.length_replicate]; simpa using hlt j hj) hp (by
      intro hne i j hi hj e
      obtain ⟨x1, x2⟩ := same i j hi hj e
      obtain ⟨ua, ub⟩ := hu hne
      obtain ⟨i1, i2, i3, i4⟩ := g4 i hi
      obtain ⟨j1, j2, j3, j4⟩ := g4 j hj
      refine stretch_inj (c2 ▸ B1) hi hj ?_ ?_
      · exact rest_inj ha ua p1 D.zr i1 j1 (by rw [← i3, ← j3, x1])
      · exact rest_inj hb ub q1 (hs ▸ D.zr) i2 j2 (by rw [← i4, ← j4, x2]))
  have hlen : c'.length = n := by rw [w3]; simp [uninit]
  obtain ⟨d, d1, d2, d3⟩ := init_ok (l := lc) hlen hsur (fun i hi => ⟨_, w4 i hi⟩)
  have hnew : Tensor.newF d lc = .ok ⟨d, lc⟩ := newF_ok hv hb1 (by rw [d2])
  have fin : (do Tensor.newF (← assumeInit c') lc) = Except.ok ⟨d, lc⟩ := by
    rw [d1]; exact hnew
  have hax' := (vecdotAxes_iff.2 ⟨SA, SB, hax, rfl, rfl⟩)
  have run : a.vecdot dflt dev par (sumOps mul) b axes =
      match w with
      | .done c => (do return .done (← Tensor.newF (← assumeInit c) lc))
      | .threads p => .ok (.threads p (n : Int).toNat fun c => do Tensor.newF (← assumeInit c) lc) := by
    unfold Tensor.vecdot
    rw [ndim_arr a, ndim_arr b, hax']
    simp only [ok_bind, p1, q1]
    rw [if_neg (by simp [hs])]
    simp only [hbr, ok_bind, c1, hb1, w1]
    cases w <;> rfl
  refine ⟨⟨d, lc⟩, ?_, ⟨hoff, hnew⟩, ?_, ?_⟩
  · cases w with
    | done c =>
      have : c = c' := w2
      subst this
      left
      rw [run]
      simp only [d1, ok_bind, hnew]; rfl
    | threads p =>
      obtain ⟨w2, w5⟩ := w2
      exact .inr ⟨p, _, _, c', run, w2, w5, fin⟩
  · show BroadcastOf dev _ _ lc.shape
    rw [c2, ← p3, ← q3]; exact B1
  · intro j hj
    have hj : InRange j lc.shape := hj
    refine ⟨X j, Y j, fun i hi => ?_, ?_⟩
    · have := g5 j i hj (p2 ▸ hi)
      rw [map_norm_ofNat, map_norm_ofNat, p3, q3] at this
      exact this
    · show element _ _ _ _ = _
      rw [element_eq (C22_valid_nonNegative lc hv hoff j hj), ← p2]
      exact d3 j hj _ (w4 j hj)

/-- `vecdot_from`: the same sums are written to the elements of `c`, and no other cell of its storage changes. The cells
are handled as possibly uninitialised ones; all of them are initialised when the work is done.
Missing: operands with an axis of length 0, and outputs with elements that share a cell. -/
theorem C43_vecdot_from_partial (mul : α → β → γ) (dflt dev : Order) (par : Option (Bool × Scheduler)) (hp : DotDevice par)
    (c : Tensor γ) (a : Tensor α) (b : Tensor β) (hc : c.WF) (ha : a.WF) (hb : b.WF) (za : 0 ∉ a.arr.shape)
    (zb : 0 ∉ b.arr.shape) (hu : c.Unshared) (axes : AxesPair) (SA SB : List Nat)
    (hax : DotAxes a.arr.shape.length b.arr.shape.length axes SA SB)
    (hk : takeAxes SA a.arr.shape = takeAxes SB b.arr.shape)
    (hbc : BroadcastOf dev (takeAxes (otherAxes a.arr.shape.length SA) a.arr.shape)
      (takeAxes (otherAxes b.arr.shape.length SB) b.arr.shape) c.arr.shape) :
    ∃ w d, c.vecdotFrom dflt dev par (sumOps mul) a b axes = .ok w ∧ w.Leaves (c.data.map some) (d.map some) ∧
      (⟨d, c.layout⟩ : Tensor γ).WF ∧ IsVecdot dev mul a.arr SA b.arr SB (⟨d, c.layout⟩ : Tensor γ).arr ∧
      ChangedOnly (Addressed c.layout.stride c.layout.offset c.layout.shape) c.data d := by
  obtain ⟨n1, n2, n3, n4⟩ := dotAxes_lt hax
  obtain ⟨las, lam, p1, p2, p3⟩ := split_of_axes ha za n1 n2
  obtain ⟨lbs, lbm, q1, q2, q3⟩ := split_of_axes hb zb n3 n4
  have hs : las.shape = lbs.shape := by rw [p2, q2, hk]
  obtain ⟨g, X, Y, g1, g2, D, g4, g5⟩ := dot_prepare (lc := c.layout) (o := dev) ha hb za zb p1 q1 hs hc.fit.valid hc.1
    (by rw [p3, q3]; exact hbc)
  have inj : ∀ i j, InRange i c.layout.shape → InRange j c.layout.shape → c.layout.pos i = c.layout.pos j → i = j := by
    intro i j hi hj e
    refine hu i j hi hj ?_
    show c.layout.addr i = c.layout.addr j
    rw [← pos_cast hc.fit hi, ← pos_cast hc.fit hj, e]
  have hcov := hc.covers
  obtain ⟨w, c', w1, w2, w3, w4, w5⟩ := D.device mul dflt dev g1 g2 (fun i j hi hj e => by rw [inj i j hi hj e])
    (c := c.data.map some) (fun j hj => by simpa using hcov j hj) hp (fun _ => inj)
  have hw : ∀ k < c'.length, ∃ v, c'[k]? = some (some v) := by
    intro k hk
    by_cases h : ∃ j, InRange j c.layout.shape ∧ c.layout.pos j = k
    · obtain ⟨j, hj, rfl⟩ := h
      exact ⟨_, w4 j hj⟩
    · rw [w5 k fun j hj e => h ⟨j, hj, e⟩]
      rw [w3, List.length_map] at hk
      exact ⟨c.data[k], by simp [hk]⟩
  obtain ⟨d, -, d2, d3⟩ := assumeInit_ok hw
  have hd : c' = d.map some := by
    apply List.ext_getElem?
    intro k
    by_cases hk : k < c'.length
    · obtain ⟨v, hv⟩ := hw k hk
      rw [hv, List.getElem?_map, d3 k v hv]; rfl
    · rw [List.getElem?_eq_none (by omega), List.getElem?_eq_none (by rw [List.length_map]; omega)]
  have hlen : d.length = c.data.length := by rw [d2, w3, List.length_map]
  refine ⟨w, d, ?_, hd ▸ w2, hc.of_data hlen, ⟨hbc, ?_⟩, ?_⟩
  · have hax' := (vecdotAxes_iff.2 ⟨SA, SB, hax, rfl, rfl⟩)
    unfold Tensor.vecdotFrom
    rw [ndim_arr a, ndim_arr b, hax']
    simp only [ok_bind, p1, q1]
    rw [if_neg (by simp [hs])]
    have e : broadcastShapes [lam.shape, lbm.shape] dev = .ok c.layout.shape :=
      (C16_shapes_iff dev _ (by simp) _).2 (broadcastOfAll_pair (by rw [p3, q3]; exact hbc))
    simp only [e, ok_bind]
    rw [if_neg (by simp)]
    exact w1
  · intro j hj
    have hj : InRange j c.layout.shape := hj
    refine ⟨X j, Y j, fun i hi => ?_, ?_⟩
    · have := g5 j i hj (p2 ▸ hi)
      rw [map_norm_ofNat, map_norm_ofNat, p3, q3] at this
      exact this
    · show element _ _ _ _ = _
      rw [element_eq (hc.fit.nonneg j hj), ← p2]
      exact d3 _ _ (w4 j hj)
  · refine changed_of hc.fit hlen fun k hk => ?_
    have := w5 k hk
    rw [hd, List.getElem?_map, List.getElem?_map] at this
    exact Option.map_injective (Option.some_injective _) this

/-- `vecdot` accepts an axis argument exactly when it names axes of the operands, the paired axes have equal lengths and
the remaining axes have a common shape. -/
theorem C43_accept_iff (mul : α → β → γ) (dflt dev : Order) (a : Tensor α) (b : Tensor β) (ha : a.WF) (hb : b.WF)
    (za : 0 ∉ a.arr.shape) (zb : 0 ∉ b.arr.shape) (axes : AxesPair) :
    (∃ r, a.vecdot dflt dev none (sumOps mul) b axes = .ok r) ↔
      ∃ SA SB, DotAxes a.arr.shape.length b.arr.shape.length axes SA SB ∧
        takeAxes SA a.arr.shape = takeAxes SB b.arr.shape ∧
        Compatible dev (takeAxes (otherAxes a.arr.shape.length SA) a.arr.shape)
          (takeAxes (otherAxes b.arr.shape.length SB) b.arr.shape) := by
  constructor
  · rintro ⟨r, h⟩
    unfold Tensor.vecdot at h
    obtain ⟨⟨A, B⟩, h1, h⟩ := bind_ok.1 h
    obtain ⟨⟨las, lam⟩, h2, h⟩ := bind_ok.1 h
    obtain ⟨⟨lbs, lbm⟩, h3, h⟩ := bind_ok.1 h
    rw [ndim_arr a, ndim_arr b] at h1
    obtain ⟨SA, SB, hax, rfl, rfl⟩ := vecdotAxes_iff.1 h1
    obtain ⟨a1, -, -, a4, -⟩ := split_facts ha h2
    obtain ⟨b1, -, -, b4, -⟩ := split_facts hb h3
    rw [map_norm_ofNat] at a1 a4 b1 b4
    simp only at h
    split at h
    · cases h
    · rename_i hs
      obtain ⟨p, h4, -⟩ := bind_ok.1 h
      refine ⟨SA, SB, hax, ?_, ?_⟩
      · rw [← a4, ← b4]; simpa using hs
      · rw [← a1, ← b1]; exact (C17_accept_iff lam lbm dev).1 ⟨p, h4⟩
  · rintro ⟨SA, SB, hax, hk, hc⟩
    obtain ⟨r, h, -⟩ := C43_vecdot_partial mul dflt dev none (by simp [DotDevice]) a b ha hb za zb (by simp) axes SA SB hax hk hc
    rcases h with h | ⟨p, n, fin, c, h, -⟩
    · exact ⟨_, h⟩
    · exact ⟨_, h⟩

end

/-! ## Cases -/

/-- A tensor without strides of 0 has no shared cells. -/
theorem unshared_of {t : Tensor α} (h : t.WF) (hz : (0 : Int) ∉ t.layout.stride) : t.Unshared := by
  intro i j hi hj e
  refine h.inj hz i j hi hj ?_
  have e : t.layout.addr i = t.layout.addr j := e
  unfold Layout.pos
  rw [e]

/-- A 2 × 3 × 2 tensor with its axes stored in reverse order. -/
def dotA : Tensor Int := ⟨[1, 2, 3, 4, 5, 6, 7, 8, 9, 10, 11, 12], ⟨[⟨2, 1⟩, ⟨3, 2⟩, ⟨2, 6⟩], 0⟩⟩
/-- A 3 × 1 tensor stored backwards. -/
def dotB : Tensor Int := ⟨[30, 20, 10], ⟨[⟨3, -1⟩, ⟨1, 1⟩], 2⟩⟩
/-- A 2 × 2 output in the middle of a larger storage. -/
def dotC : Tensor Int := ⟨[0, 0, 0, 0, 0, 0], ⟨[⟨2, 2⟩, ⟨2, 1⟩], 1⟩⟩

theorem dot_wf : dotA.WF ∧ dotB.WF ∧ dotC.WF := ⟨⟨by decide, rfl⟩, ⟨by decide, rfl⟩, ⟨by decide, rfl⟩⟩

/-- Axis 1 of one and axis 0 of the other, which is axis -2 of both; the last axis of `dotB` is stretched. -/
example : 0 ∉ dotA.arr.shape ∧ 0 ∉ dotB.arr.shape ∧ DotAxes 3 2 (.val (-2)) [1] [0] ∧
    DotAxes 3 2 (.pair (some [1]) (some [-2])) [1] [0] ∧
    takeAxes [1] dotA.arr.shape = takeAxes [0] dotB.arr.shape ∧ dotC.Unshared ∧
    BroadcastOf .C (takeAxes (otherAxes 3 [1]) dotA.arr.shape) (takeAxes (otherAxes 2 [0]) dotB.arr.shape) dotC.arr.shape :=
  ⟨by decide, by decide, ⟨by simp [AxisOk], by simp [AxisOk], rfl, rfl⟩,
    ⟨by simp [AxisOk], by simp [AxisOk], rfl, rfl, rfl, by decide, by decide⟩, rfl, unshared_of dot_wf.2.2 (by decide), rfl, by decide⟩

/-- A product that is not commutative, in place of `conj(x) * y`. -/
example : dotA.vecdot .C .C none (sumOps fun x y : Int => (x - 1) * y) dotB (.val (-2)) =
    .ok (.done ⟨[160, 520, 220, 580], ⟨[⟨2, 2⟩, ⟨2, 1⟩], 0⟩⟩) := by rfl
example : dotC.vecdotFrom .C .C none (sumOps fun x y : Int => (x - 1) * y) dotA dotB (.val (-2)) =
    .ok (.done [some 0, some 160, some 520, some 220, some 580, some 0]) := by rfl

/-- Large operands on a parallel device: along the contiguous axis, along the other one, and along both. -/
example : bigA.WF ∧ bigC.WF ∧ 0 ∉ bigA.arr.shape ∧ 0 ∉ bigC.arr.shape ∧ DotDevice (some (true, halving)) ∧ bigA.Unshared ∧
    bigC.Unshared ∧ DotAxes 2 2 .none [1] [1] ∧ DotAxes 2 2 (.val 0) [0] [0] ∧ DotAxes 2 2 (.pair (some [0, 1]) (some [0, 1])) [0, 1] [0, 1] ∧
    Compatible .C (takeAxes (otherAxes 2 [1]) bigA.arr.shape) (takeAxes (otherAxes 2 [1]) bigC.arr.shape) :=
  ⟨big_wf.2, big_wf.1, by decide, by decide, by intro q hq; cases hq; exact halving_fits, unshared_of big_wf.2 (by decide),
    unshared_of big_wf.1 (by decide), ⟨by decide, by decide, rfl, rfl⟩, ⟨by simp [AxisOk], by simp [AxisOk], rfl, rfl⟩,
    ⟨by simp [AxisOk], by simp [AxisOk], rfl, rfl, rfl, by decide, by decide⟩, compatible_of (s := [64]) ⟨rfl, by decide⟩⟩

/-! ## Threads that share cells of the result -/

section
variable {γ : Type}

theorem steps_trans {s t u : Proc γ × List γ} (h1 : Steps s t) (h2 : Steps t u) : Steps s u := by
  induction h2 with
  | refl => exact h1
  | tail _ h ih => exact ih.tail h

theorem steps_lift (F : Proc γ → Proc γ) (hF : ∀ p c p' c', Step (p, c) (p', c') → Step (F p, c) (F p', c')) {p q : Proc γ}
    {c d : List γ} (h : Steps (p, c) (q, d)) : Steps (F p, c) (F q, d) := by
  generalize hs : (p, c) = s at h
  generalize ht : (q, d) = t at h
  induction h generalizing q d with
  | refl => subst hs; cases ht; exact .refl _
  | @tail t' u h1 h2 ih =>
    subst ht
    exact (ih (q := t'.1) (d := t'.2) rfl).tail (hF _ _ _ _ h2)

/-- A process can run to its end without interruption. -/
theorem steps_run (p : Proc γ) : ∀ {c d : List γ}, runU (updates p) c = .ok d → Steps (p, c) (.nil, d) := by
  have one : ∀ {i : Nat} {f : γ → γ} {c d : List γ}, runU [(i, f)] c = .ok d → ∃ v, c[i]? = some v ∧ i < c.length ∧ d = c.set i (f v) := by
    intro i f c d h
    by_cases hi : i < c.length
    · refine ⟨c[i], List.getElem?_eq_getElem hi, hi, ?_⟩
      simp only [runU, runAll, modifyAt] at h
      simp_all
    · simp only [runU, runAll, modifyAt] at h
      simp_all
  have app : ∀ {U V : List (Nat × (γ → γ))} {c d : List γ}, runU (U ++ V) c = .ok d → ∃ m, runU U c = .ok m ∧ runU V m = .ok d := by
    intro U V c d h
    rw [runU_append] at h
    obtain ⟨m, h1, h2⟩ := bind_ok.1 h
    exact ⟨m, h1, h2⟩
  induction p with
  | nil => intro c d h; cases h; exact .refl _
  | upd i f =>
    intro c d h
    obtain ⟨v, h1, h2, rfl⟩ := one h
    exact ((Steps.refl _).tail (.read h1)).tail (.write h2)
  | mid i w =>
    intro c d h
    obtain ⟨v, h1, h2, rfl⟩ := one h
    exact (Steps.refl _).tail (.write h2)
  | seq p q ihp ihq =>
    intro c d h
    obtain ⟨m, h1, h2⟩ := app h
    exact steps_trans ((steps_lift (fun x => .seq x q) (fun _ _ _ _ h => .seq h) (ihp h1)).tail .next) (ihq h2)
  | par p q ihp ihq =>
    intro c d h
    obtain ⟨m, h1, h2⟩ := app h
    exact steps_trans (steps_lift (fun x => .par x q) (fun _ _ _ _ h => .left h) (ihp h1))
      ((steps_lift (fun x => .par .nil x) (fun _ _ _ _ h => .right h) (ihq h2)).tail .join)

/-- The first thread is stopped after `Z`, the second one runs, and the first one finishes. -/
theorem steps_interrupted {Z Q R : Proc γ} {c d : List γ} (h : runU (updates Z ++ updates R ++ updates Q) c = .ok d) :
    Steps (.par (.seq (.seq Z Q) .nil) R, c) (.nil, d) := by
  rw [runU_append] at h
  obtain ⟨m, h, h3⟩ := bind_ok.1 h
  rw [runU_append] at h
  obtain ⟨m', h1, h2⟩ := bind_ok.1 h
  refine steps_trans ((steps_lift (fun x => .par (.seq (.seq x Q) .nil) R) (fun _ _ _ _ h => .left (.seq (.seq h)))
    (steps_run Z h1)).tail (.left (.seq .next))) ?_
  refine steps_trans (steps_lift (fun x => .par (.seq Q .nil) x) (fun _ _ _ _ h => .right h) (steps_run R h2)) ?_
  exact ((steps_lift (fun x => .par (.seq x .nil) .nil) (fun _ _ _ _ h => .left (.seq h)) (steps_run Q h3)).tail
    (.left .next)).tail .join

end

/-- One stretched axis of length 2, then a 2 × 128 matrix of ones stored column by column. -/
def stretchedOnes : Tensor Nat := ⟨List.replicate 256 1, ⟨[⟨2, 0⟩, ⟨2, 1⟩, ⟨128, 2⟩], 0⟩⟩

/-- A scheduler that divides an outer loop between two threads and runs inner loops in one. -/
def twoThreads : Scheduler := fun m _ => .split (m / 2) (.run fun _ => .run) (.run fun _ => .run)

def badRun : Bool :=
  match stretchedOnes.vecdot .C .C (some (true, twoThreads)) (sumOps fun x y : Nat => x * y) stretchedOnes .none with
  | .ok (.threads (.par (.seq (.seq Z Q) .nil) R) n fin) =>
    (match runU (updates Z ++ updates R ++ updates Q) (uninit n) with
      | .ok c => (match fin c with | .ok r => r == ⟨[256, 256], ⟨[⟨2, 0⟩, ⟨2, 1⟩], 0⟩⟩ | _ => false)
      | _ => false) && (Z.touching == [0] && R.touching == [0])
  | _ => false

theorem badRun_true : badRun = true := by decide +kernel

/-- On the parallel device two threads can write the same element of the result of operands with shared cells, and the
result can be wrong: here the sum of 128 ones comes out as 256. -/
theorem C43_false_shared :
    ∃ (a : Tensor Nat) (s : Scheduler) (p : Proc (Option Nat)) (n : Nat) (fin : List (Option Nat) → Res (Tensor Nat)),
      a.WF ∧ 0 ∉ a.arr.shape ∧ s.Fits ∧ DotAxes a.arr.shape.length a.arr.shape.length .none [2] [2] ∧
      a.vecdot .C .C (some (true, s)) (sumOps fun x y : Nat => x * y) a .none = .ok (.threads p n fin) ∧
      ¬ RaceFree p (uninit n) ∧
      ∃ c r, Steps (p, uninit n) (.nil, c) ∧ fin c = .ok r ∧
        ¬ IsVecdot .C (fun x y : Nat => x * y) a.arr [2] a.arr [2] r.arr := by
  have h := badRun_true
  unfold badRun at h
  split at h
  · rename_i Z Q R n fin hrun
    rw [Bool.and_eq_true] at h
    obtain ⟨h1, h2⟩ := h
    split at h1
    · rename_i c hc
      split at h1
      · rename_i r hr
        have hr' : r = ⟨[256, 256], ⟨[⟨2, 0⟩, ⟨2, 1⟩], 0⟩⟩ := by simpa using h1
        simp only [Bool.and_eq_true, beq_iff_eq] at h2
        refine ⟨stretchedOnes, twoThreads, _, n, fin, ⟨by decide, ?_⟩, by decide, ?_, ⟨by decide, by decide, rfl, rfl⟩, hrun,
          ?_, c, r, steps_interrupted hc, hr, ?_⟩
        · exact newF_ok (mn := 0) (mx := 256) (by decide) (by decide)
            (by rw [show stretchedOnes.data.length = 256 from List.length_replicate ..]; decide)
        · intro m n
          exact ⟨Nat.div_le_self m 2, fun _ => trivial, fun _ => trivial⟩
        · intro hrf
          have := hrf _ _ (.refl _)
          simp [Proc.touching, h2] at this
        · subst hr'
          rintro ⟨-, h⟩
          obtain ⟨x, y, h1, h2⟩ := h [0, 0] (by decide)
          have ones : ∀ idx v, stretchedOnes.arr.elem idx = some v → v = 1 := by
            intro idx v h
            have h : element stretchedOnes.data _ _ idx = some v := h
            unfold element at h
            split at h
            · cases h
            · exact List.eq_of_mem_replicate (List.mem_of_getElem? h)
          have e : ((all .C (takeAxes [2] stretchedOnes.arr.shape)).map fun i => x i * y i) =
              (all .C (takeAxes [2] stretchedOnes.arr.shape)).map fun _ => 1 := by
            apply List.map_congr_left
            intro i hi
            obtain ⟨k1, k2⟩ := h1 i (mem_all.1 hi)
            rw [ones _ _ k1, ones _ _ k2]
          rw [e] at h2
          revert h2
          decide +kernel
      · cases h1
    · cases h1
  · cases h

/-- Two rows without elements, three cells apart, in a storage without cells. -/
def emptyRows : Tensor Int := ⟨[], ⟨[⟨2, 3⟩, ⟨0, 1⟩], 0⟩⟩

/-- Vectors without elements: the sums are all zero, but the code takes empty slices of the storage at positions
beyond its end, and panics. -/
theorem C43_false_empty :
    emptyRows.WF ∧ DotAxes 2 2 .none [1] [1] ∧
    emptyRows.vecdot .C .C none (sumOps fun x y : Int => x * y) emptyRows .none = .error .panic ∧
    ∃ r : Tensor Int, r.WF ∧ IsVecdot .C (fun x y : Int => x * y) emptyRows.arr [1] emptyRows.arr [1] r.arr := by
  refine ⟨⟨by decide, rfl⟩, ⟨by decide, by decide, rfl, rfl⟩, by rfl, ⟨[0, 0], ⟨[⟨2, 1⟩], 0⟩⟩, ⟨by decide, rfl⟩,
    ⟨rfl, by decide⟩, fun j hj => ⟨fun _ => 0, fun _ => 0, fun i hi => ?_, ?_⟩⟩
  · have h : i ∈ all .C [0] := mem_all.2 hi
    cases h
  · exact (by decide : ∀ j ∈ all .C [2], (⟨[0, 0], ⟨[⟨2, 1⟩], 0⟩⟩ : Tensor Int).arr.elem j = some 0) j (mem_all.2 hj)

end Rstsr
