import Verif.Proof.Vecdot
import Verif.Proof.BroadcastSame
import Verif.Proof.BinaryLayout
import Verif.Thm.AxesIter
import Verif.Thm.Tri
/-!
# The kernels of `vecdot` on their routes
-/
namespace Rstsr
open Spec

section
variable {α β γ : Type} [AddCommMonoid γ]
variable {a : List α} {b : List β} {s r : List Nat} {g : DotCfg} {X : List Nat → List Nat → α}
  {Y : List Nat → List Nat → β} {la lb : Layout}

theorem DotIn.device (D : DotIn a b la.offset lb.offset s r g X Y) (mul : α → β → γ) (dflt order : Order) {lc : Layout}
    {axesA axesB : List Int} (hp : dotPrepare order lc la lb axesA axesB = .ok g) (hg : g.lc = lc)
    (hag : ∀ i j, InRange i s → InRange j s → lc.pos i = lc.pos j → dotVal mul r X Y i = dotVal mul r X Y j)
    {c : List (Option γ)} (hc : ∀ j, InRange j s → lc.pos j < c.length) {par : Option (Bool × Scheduler)}
    (hf : ∀ q ∈ par, q.2.Fits) (hinj : par ≠ none → ∀ i j, InRange i s → InRange j s → lc.pos i = lc.pos j → i = j) :
    ∃ w c', vecdotDevice dflt order par (sumOps mul) c lc a la b lb axesA axesB = .ok w ∧ w.Leaves c c' ∧
      c'.length = c.length ∧ (∀ j, InRange j s → c'[lc.pos j]? = some (some (dotVal mul r X Y j))) ∧
      ∀ k, (∀ j, InRange j s → lc.pos j ≠ k) → c'[k]? = c[k]? := by
  subst hg
  obtain ⟨serial, pr, e1, e2, R⟩ : ∃ serial pr,
      (∀ c, vecdotKernel dflt order (sumOps mul) c g.lc a la b lb axesA axesB = serial c) ∧
      (∀ sch : Scheduler, (if !g.contigS.isEmpty then dotRouteSPar dflt sch (sumOps mul) a b la.offset lb.offset g
      else if !g.contigM.isEmpty then dotRouteMPar dflt sch (sumOps mul) a b la.offset lb.offset g
      else dotRouteDPar sch (sumOps mul) a b la.offset lb.offset g) = pr sch) ∧
      RouteOk s g.lc (dotVal mul r X Y) serial pr := by
    by_cases h1 : g.contigS.isEmpty = true
    · by_cases h2 : g.contigM.isEmpty = true
      · refine ⟨_, _, fun c => ?_, fun sch => ?_, D.routeD mul hag⟩
        · simp only [vecdotKernel, hp, ok_bind]
          rw [if_neg (by simp [h1]), if_neg (by simp [h2])]
        · rw [if_neg (by simp [h1]), if_neg (by simp [h2])]
      · refine ⟨_, _, fun c => ?_, fun sch => ?_, D.routeM mul dflt hag⟩
        · simp only [vecdotKernel, hp, ok_bind]
          rw [if_neg (by simp [h1]), if_pos (by simp [h2])]
        · rw [if_neg (by simp [h1]), if_pos (by simp [h2])]
    · refine ⟨_, _, fun c => ?_, fun sch => ?_, D.routeS mul dflt hag⟩
      · simp only [vecdotKernel, hp, ok_bind]
        rw [if_pos (by simp [h1])]
      · rw [if_pos (by simp [h1])]
  obtain ⟨Us, ⟨u1, u2⟩, r1, r2⟩ := R
  have hlt : ∀ u ∈ Us, u.1 < c.length := by
    intro u hu
    obtain ⟨j, hj, e⟩ := u1 u hu
    rw [e]; exact hc j hj
  obtain ⟨c', k1, k2, k3⟩ := runU_effect hlt
  have f1 : ∀ j, InRange j s → c'[g.lc.pos j]? = some (some (dotVal mul r X Y j)) := by
    intro j hj
    rw [k3, List.getElem?_eq_getElem (hc j hj)]
    simp [u2 j hj]
  have f2 : ∀ k, (∀ j, InRange j s → g.lc.pos j ≠ k) → c'[k]? = c[k]? := by
    intro k hk
    rw [k3]
    cases c[k]? with
    | none => rfl
    | some v =>
      rw [Option.map_some, effect_none]
      intro u hu
      obtain ⟨j, hj, e⟩ := u1 u hu
      rw [e]; exact hk j hj
  have ser : vecdotKernel dflt order (sumOps mul) c g.lc a la b lb axesA axesB = .ok c' := by
    rw [e1, r1 c hlt, k1]
  cases par with
  | none => exact ⟨.done c', c', by simp only [vecdotDevice, ser]; rfl, rfl, k2, f1, f2⟩
  | some q =>
    obtain ⟨pool, sch⟩ := q
    simp only [vecdotDevice]
    unfold vecdotKernelPar
    split
    · exact ⟨.done c', c', by rw [ser]; rfl, rfl, k2, f1, f2⟩
    · obtain ⟨p, p1, p2, p3⟩ := r2 (hinj (by simp)) sch (hf (pool, sch) rfl)
      refine ⟨.threads p, c', ?_, ⟨computes_of_apart p3 ?_ k2 (by rw [p2]; exact k3), raceFree_of_apart p3⟩, k2, f1, f2⟩
      · simp only [hp, ok_bind, e2, p1]; rfl
      · intro k hk
        obtain ⟨u, hu, rfl⟩ := List.mem_map.1 hk
        exact hlt u (p2 ▸ hu)

end

/-! ## The layouts -/

theorem broadcastOf_first {o : Order} {x y s : List Nat} (h : BroadcastOf o x y s) : BroadcastOf o s x s :=
  ⟨by have := h.1; omega, fun k hk => ⟨.inl rfl, (h.2 k hk).1, .inl rfl⟩⟩

theorem broadcastOf_second {o : Order} {x y s : List Nat} (h : BroadcastOf o x y s) : BroadcastOf o s y s :=
  ⟨by have := h.1; omega, fun k hk => ⟨.inl rfl, (h.2 k hk).2.1, .inl rfl⟩⟩

theorem broadcastOf_pos {o : Order} {x y s : List Nat} (h : BroadcastOf o x y s) (hx : 0 ∉ x) (hy : 0 ∉ y) : 0 ∉ s := by
  have mem : ∀ (l : List Nat) (k : Nat), axisAt o l k = 0 → 0 ∈ l := by
    intro l k e
    rw [axisAt_eq, List.getD_eq_getElem?_getD] at e
    rcases hk : (alignL o l)[k]? with - | v
    · rw [hk] at e; simp at e
    · rw [hk] at e
      have := List.mem_of_getElem? hk
      cases o <;> simp_all [alignL]
  intro hm
  have hm' : 0 ∈ alignL o s := by cases o <;> simpa [alignL] using hm
  obtain ⟨k, hk, e⟩ := List.getElem_of_mem hm'
  have e0 : axisAt o s k = 0 := by rw [axisAt_eq, List.getD_eq_getElem?_getD, List.getElem?_eq_getElem hk, e]; rfl
  rcases (h.2 k (by simpa using hk)).2.2 with q | q
  · exact hx (mem x k (q ▸ e0))
  · exact hy (mem y k (q ▸ e0))

/-- Where both operands are read at the same place, so is the result. -/
theorem stretch_inj {o : Order} {x y s i j : List Nat} (h : BroadcastOf o x y s) (hi : InRange i s) (hj : InRange j s)
    (e1 : stretchIndex o x i = stretchIndex o x j) (e2 : stretchIndex o y i = stretchIndex o y j) : i = j := by
  have hli := hi.length_eq
  have hlj := hj.length_eq
  have hs := h.1
  apply alignL_inj (o := o)
  apply List.ext_getElem (by simp [hli, hlj])
  intro k k1 k2
  simp only [alignL_length] at k1 k2
  have hk : k < s.length := by omega
  have bnd : ∀ {i : List Nat} (hi : InRange i s) (q : k < (alignL o i).length), (alignL o i)[k] < axisAt o s k := by
    intro i hi q
    have hi' : InRange (alignL o i) (alignL o s) := by
      cases o
      · exact hi.reverse
      · exact hi
    rw [axisAt_eq, List.getD_eq_getElem?_getD, List.getElem?_eq_getElem (by simpa using hk)]
    exact (inRange_iff_get.1 hi').2 k q (by simpa using hk)
  have main : ∀ x : List Nat, x.length ≤ s.length → stretchIndex o x i = stretchIndex o x j → axisAt o s k = axisAt o x k →
      (alignL o i)[k]'(by simpa using k1) = (alignL o j)[k]'(by simpa using k2) := by
    intro x hx e q
    have b1 := bnd hi (by simpa using k1)
    have b2 := bnd hj (by simpa using k2)
    by_cases q1 : axisAt o x k = 1
    · omega
    · have hkx : k < x.length := by
        by_contra hk'
        apply q1
        rw [axisAt_eq, List.getD_eq_getElem?_getD, List.getElem?_eq_none (by simpa using hk')]; rfl
      have e' := congrArg (alignL o) e
      rw [stretchIndex_eq (by omega), stretchIndex_eq (by omega)] at e'
      have e'' := congrArg (fun l => l[k]?) e'
      simp only [stretchF, List.getElem?_zipWith] at e''
      rw [List.getElem?_eq_getElem (l := alignL o x) (by simpa using hkx),
        List.getElem?_eq_getElem (l := alignL o i) (by simpa using k1),
        List.getElem?_eq_getElem (l := alignL o j) (by simpa using k2)] at e''
      have q2 : (alignL o x)[k]'(by simpa using hkx) ≠ 1 := by
        intro q2
        apply q1
        rw [axisAt_eq, List.getD_eq_getElem?_getD, List.getElem?_eq_getElem (by simpa using hkx), q2]; rfl
      simpa [q2] using e''
  rcases (h.2 k hk).2.2 with q | q
  · exact main x (by omega) e1 q
  · exact main y (by omega) e2 q

theorem toFirst_facts {lc l m : Layout} {o : Order} (h : lc.broadcastToFirst l o = .ok (lc, m)) (hc : 0 ≤ lc.offset)
    (vc : lc.Valid) (hl : 0 ≤ l.offset) (vl : l.Valid) :
    Fit lc.shape m ∧ ∀ j, InRange j lc.shape → InRange (stretchIndex o l.shape j) l.shape ∧
      m.addr j = l.addr (stretchIndex o l.shape j) := by
  have h : lc.broadcast l o = .ok (lc, m) := h
  obtain ⟨h1, h2, h3⟩ := C17_broadcast_layout lc l lc m o h
  obtain ⟨-, v2⟩ := C17_valid lc l lc m o h vc vl hc hl
  have ho : m.offset = l.offset := by
    unfold Layout.broadcast at h
    obtain ⟨⟨s, t1, t2⟩, hs, h⟩ := bind_ok.1 h
    obtain ⟨k1, e1, o1, -⟩ := updateByShape_first hs
    obtain ⟨k2, e2, o2, -⟩ := updateByShape_first (broadcastShape_swap hs)
    simp only [e1, e2, ok_bind] at h
    cases h
    exact o2
  exact ⟨⟨v2, by rw [ho]; exact hl, h2⟩, fun j hj => (h3 j hj).2⟩

section
variable {α β γ : Type}

theorem split_axes_fit {t : Tensor α} (h : t.WF) {axes : List Int} {lax lrest : Layout}
    (hs : t.layout.dimSplitAxes axes = .ok (lax, lrest)) : Fit lax.shape lax ∧ lax.offset = t.layout.offset := by
  obtain ⟨-, -, h3, -⟩ := C52_split_axes t.layout lax lrest axes hs
  refine ⟨⟨?_, by rw [h3]; exact h.1, rfl⟩, h3⟩
  unfold Layout.dimSplitAxes at hs
  obtain ⟨v, hv, hs⟩ := bind_ok.1 hs
  obtain ⟨a', ha', hs⟩ := bind_ok.1 hs
  obtain ⟨b', hb', hs⟩ := bind_ok.1 hs
  obtain ⟨k, rfl⟩ := accepted_of_newAxes ha'
  cases hs
  exact valid_iff.2 k

theorem zeros_in {s : List Nat} (h : 0 ∉ s) : InRange (s.map fun _ => 0) s := by
  induction s with
  | nil => trivial
  | cons d s ih =>
    simp only [List.mem_cons, not_or] at h
    exact inRange_cons.2 ⟨Nat.pos_of_ne_zero fun q => h.1 q.symm, ih h.2⟩

/-- Without shared cells the remaining axes have none either. -/
theorem rest_inj {t : Tensor α} (h : t.WF) (hu : t.Unshared) {axes : List Int} {lax lrest : Layout}
    (hs : t.layout.dimSplitAxes axes = .ok (lax, lrest)) (hz : 0 ∉ lax.shape) {i j : List Nat} (hi : InRange i lrest.shape)
    (hj : InRange j lrest.shape) (e : lrest.addr i = lrest.addr j) : i = j := by
  obtain ⟨-, -, -, -, -, f6⟩ := split_facts h hs
  obtain ⟨-, -, -, -, -, g6⟩ := C52_split_axes t.layout lax lrest axes hs
  have z := zeros_in hz
  obtain ⟨-, p⟩ := f6 i hi
  obtain ⟨-, q⟩ := f6 j hj
  obtain ⟨p1, p2⟩ := p _ z
  obtain ⟨q1, q2⟩ := q _ z
  have m := hu _ _ p1 q1 (by show t.layout.addr _ = t.layout.addr _; rw [← p2, ← q2, e])
  have hS : ∀ a ∈ axes.map (normAxis t.arr.shape.length), a < t.arr.shape.length := by
    unfold Layout.dimSplitAxes at hs
    obtain ⟨v, hv, hs⟩ := bind_ok.1 hs
    obtain ⟨g1, -, -⟩ := normalizeAxes_ok.1 hv
    intro a ha
    obtain ⟨b, hb, rfl⟩ := List.mem_map.1 ha
    rw [← ndim_arr]
    exact normAxis_lt (by exact g1 b hb)
  rw [ndim_arr] at g6
  obtain ⟨k, k1, k2, k3⟩ := g6 _ i z hi
  obtain ⟨k', k1', k2', k3'⟩ := g6 _ j z hj
  have m1 := mergeIndex_take hS (k := k) k1.length_eq
  have m2 := mergeIndex_take hS (k := k') k1'.length_eq
  rw [k2, k3] at m1
  rw [k2', k3'] at m2
  have : k = k' := by rw [← m1, ← m2, m]
  rw [← k3, ← k3', this]

/-- The layouts of a product of two tensors, and what they read. -/
theorem dot_prepare {a : Tensor α} {b : Tensor β} (ha : a.WF) (hb : b.WF) (za : 0 ∉ a.arr.shape) (zb : 0 ∉ b.arr.shape)
    {axesA axesB : List Int} {las lam lbs lbm lc : Layout} {o : Order} (h1 : a.layout.dimSplitAxes axesA = .ok (las, lam))
    (h2 : b.layout.dimSplitAxes axesB = .ok (lbs, lbm)) (hs : las.shape = lbs.shape) (hcv : lc.Valid) (hco : 0 ≤ lc.offset)
    (hbc : BroadcastOf o lam.shape lbm.shape lc.shape) :
    ∃ g X Y, dotPrepare o lc a.layout b.layout axesA axesB = .ok g ∧ g.lc = lc ∧
      DotIn a.data b.data a.layout.offset b.layout.offset lc.shape las.shape g X Y ∧
      (∀ j, InRange j lc.shape → InRange (stretchIndex o lam.shape j) lam.shape ∧
        InRange (stretchIndex o lbm.shape j) lbm.shape ∧
        g.lam.addr j = lam.addr (stretchIndex o lam.shape j) ∧ g.lbm.addr j = lbm.addr (stretchIndex o lbm.shape j)) ∧
      ∀ j i, InRange j lc.shape → InRange i las.shape →
        a.arr.elem (mergeIndex a.arr.shape.length (axesA.map (normAxis a.arr.shape.length)) i (stretchIndex o lam.shape j)) =
          some (X j i) ∧
        b.arr.elem (mergeIndex b.arr.shape.length (axesB.map (normAxis b.arr.shape.length)) i (stretchIndex o lbm.shape j)) =
          some (Y j i) := by
  obtain ⟨a1, a2, a3, a4, a5, a6⟩ := split_facts ha h1
  obtain ⟨b1, b2, b3, b4, b5, b6⟩ := split_facts hb h2
  obtain ⟨fa, oa⟩ := split_axes_fit ha h1
  obtain ⟨fb, ob⟩ := split_axes_fit hb h2
  obtain ⟨ma, e1⟩ := toFirst_ok (broadcastOf_first hbc)
  obtain ⟨mb, e2⟩ := toFirst_ok (broadcastOf_second hbc)
  obtain ⟨ga, ka⟩ := toFirst_facts e1 hco hcv a3 a2
  obtain ⟨gb, kb⟩ := toFirst_facts e2 hco hcv b3 b2
  have zr := (a5 za).2
  have zs : 0 ∉ lc.shape := broadcastOf_pos hbc (a5 za).1 (b5 zb).1
  have eA : ∀ j i, InRange j lc.shape → InRange i las.shape → ∃ x,
      0 ≤ ma.addr j + las.addr i - a.layout.offset ∧ a.data[(ma.addr j + las.addr i - a.layout.offset).toNat]? = some x ∧
      a.arr.elem (mergeIndex a.arr.shape.length (axesA.map (normAxis a.arr.shape.length)) i (stretchIndex o lam.shape j)) = some x := by
    intro j i hj hi
    obtain ⟨k1, k2⟩ := ka j hj
    obtain ⟨-, k3⟩ := a6 _ k1
    obtain ⟨k3, k4⟩ := k3 i hi
    obtain ⟨x, x1, x2⟩ := ha.get k3
    have e : ma.addr j + las.addr i - a.layout.offset = a.layout.addr (mergeIndex a.arr.shape.length (axesA.map (normAxis a.arr.shape.length)) i (stretchIndex o lam.shape j)) := by
      rw [← k4, k2]; omega
    refine ⟨x, ?_, ?_, x2⟩
    · rw [e]; exact ha.fit.nonneg _ k3
    · rw [e]; exact x1
  have eB : ∀ j i, InRange j lc.shape → InRange i las.shape → ∃ x,
      0 ≤ mb.addr j + lbs.addr i - b.layout.offset ∧ b.data[(mb.addr j + lbs.addr i - b.layout.offset).toNat]? = some x ∧
      b.arr.elem (mergeIndex b.arr.shape.length (axesB.map (normAxis b.arr.shape.length)) i (stretchIndex o lbm.shape j)) = some x := by
    intro j i hj hi
    obtain ⟨k1, k2⟩ := kb j hj
    obtain ⟨-, k3⟩ := b6 _ k1
    obtain ⟨k3, k4⟩ := k3 i (hs ▸ hi)
    obtain ⟨x, x1, x2⟩ := hb.get k3
    have e : mb.addr j + lbs.addr i - b.layout.offset = b.layout.addr (mergeIndex b.arr.shape.length (axesB.map (normAxis b.arr.shape.length)) i (stretchIndex o lbm.shape j)) := by
      rw [← k4, k2]; omega
    refine ⟨x, ?_, ?_, x2⟩
    · rw [e]; exact hb.fit.nonneg _ k3
    · rw [e]; exact x1
  have na : Nonempty α := by
    obtain ⟨x, -⟩ := eA _ _ (zeros_in zs) (zeros_in zr)
    exact ⟨x⟩
  have nb : Nonempty β := by
    obtain ⟨x, -⟩ := eB _ _ (zeros_in zs) (zeros_in zr)
    exact ⟨x⟩
  refine ⟨⟨las, lbs, lc, ma, mb⟩,
    fun j i => (a.data[(ma.addr j + las.addr i - a.layout.offset).toNat]?).getD (Classical.choice na),
    fun j i => (b.data[(mb.addr j + lbs.addr i - b.layout.offset).toNat]?).getD (Classical.choice nb), ?_, rfl,
    ⟨⟨hcv, hco, rfl⟩, ga, gb, fa, hs ▸ fb, zs, zr, oa, ob, ?_, ?_⟩, ?_, ?_⟩
  · unfold dotPrepare
    simp only [h1, h2, ok_bind]
    rw [if_neg (by simp [hs])]
    simp only [e1, e2, ok_bind]
    rw [if_neg]
    · rfl
    · have : lc.beqLayout lc = true := C53_eq_complete lc lc zs rfl fun _ _ => rfl
      simp [this]
  · intro j i hj hi
    obtain ⟨x, x1, x2, -⟩ := eA j i hj hi
    exact ⟨x1, by simp only [x2]; rfl⟩
  · intro j i hj hi
    obtain ⟨x, x1, x2, -⟩ := eB j i hj hi
    exact ⟨x1, by simp only [x2]; rfl⟩
  · intro j hj
    exact ⟨(ka j hj).1, (kb j hj).1, (ka j hj).2, (kb j hj).2⟩
  · intro j i hj hi
    obtain ⟨x, -, x2, x3⟩ := eA j i hj hi
    obtain ⟨y, -, y2, y3⟩ := eB j i hj hi
    exact ⟨by simp only [x2]; exact x3, by simp only [y2]; exact y3⟩

end
end Rstsr
