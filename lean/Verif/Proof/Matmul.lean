import Verif.Proof.MatKernel
import Verif.Spec.FloatDot
import Verif.Proof.BroadcastSame
import Verif.Thm.Broadcast
import Verif.Thm.Views
import Verif.Spec.Matmul
/-! # Lemmas about the batches of matrix products -/
namespace Rstsr
open Spec

/-- Positions stay non-negative even if empty axes had an element. -/
def Layout.Settled (l : Layout) : Prop := ∀ idx, InRange idx (l.shape.map (max 1)) → 0 ≤ l.addr idx

theorem Fit.settled {s : List Nat} {l : Layout} (h : Fit s l) (hs : 0 ∈ s → l.Settled) : l.Settled := by
  by_cases hz : 0 ∈ s
  · exact hs hz
  · intro idx hi
    rw [h.shape, map_max_one hz] at hi
    exact h.nonneg idx hi

/-! ## Splitting off the matrix axes -/

structure SplitAs (l : Layout) (bl core : List Nat) (X Y : List Axis) : Prop where
  axes : l.axes = X ++ Y
  dx : dims X = bl
  dy : dims Y = core

theorem splitAs_of {l : Layout} {bl core : List Nat} (h : l.shape = bl ++ core) :
    SplitAs l bl core (l.axes.take bl.length) (l.axes.drop bl.length) := by
  have h : dims l.axes = bl ++ core := h
  refine ⟨(List.take_append_drop _ _).symm, ?_, ?_⟩
  · unfold dims at h ⊢
    rw [List.map_take, h, List.take_left]
  · unfold dims at h ⊢
    rw [List.map_drop, h, List.drop_left]

theorem dimSplitAt_of {l : Layout} {bl core : List Nat} (h : l.shape = bl ++ core) {n : Int}
    (hn : n = -(core.length : Int)) (h0 : 0 < core.length) :
    l.dimSplitAt n = .ok (⟨l.axes.take bl.length, l.offset⟩, ⟨l.axes.drop bl.length, l.offset⟩) := by
  have hl : l.ndim = bl.length + core.length := by
    have := congrArg List.length h
    simpa [Layout.shape, Layout.ndim] using this
  unfold Layout.dimSplitAt
  have e : (if n < 0 then (l.ndim : Int) + n else n) = (bl.length : Int) := by rw [if_pos (by omega)]; omega
  dsimp only
  rw [e, if_pos ⟨by omega, by omega⟩]
  rfl

theorem SplitAs.addr {l : Layout} {bl core : List Nat} {X Y : List Axis} (h : SplitAs l bl core X Y) {t j : List Nat}
    (ht : t.length = bl.length) : l.addr (t ++ j) = (⟨X, l.offset⟩ : Layout).addr t + dot j Y := by
  have hx : t.length = X.length := by rw [ht, ← h.dx]; simp [dims]
  rw [addr_eq, addr_mk, h.axes, dot_append hx]
  omega

theorem SplitAs.nonneg {l : Layout} {bl core : List Nat} {X Y : List Axis} (h : SplitAs l bl core X Y) (hs : l.Settled)
    {t j : List Nat} (ht : InRange t bl) (hj : InRange j (core.map (max 1))) :
    0 ≤ (⟨X, l.offset⟩ : Layout).addr t + dot j Y := by
  rw [← h.addr ht.length_eq]
  apply hs
  have hb : 0 ∉ bl := fun hz => by have := ht.pos 0 hz; omega
  have : l.shape = bl ++ core := by
    rw [← h.dx, ← h.dy]
    show dims l.axes = _
    rw [h.axes]; simp [dims]
  rw [this, List.map_append, map_max_one hb, inRange_append ht.length_eq]
  exact ⟨ht, hj⟩

theorem inRange_zeros_max (s : List Nat) : InRange (List.replicate s.length 0) (s.map (max 1)) := by
  have := inRange_zeros (shape := s.map (max 1)) (by
    intro d hd
    obtain ⟨e, -, rfl⟩ := List.mem_map.1 hd
    omega)
  simpa using this

theorem SplitAs.restNonneg {l : Layout} {bl core : List Nat} {X Y : List Axis} (h : SplitAs l bl core X Y) (hs : l.Settled)
    {t : List Nat} (ht : InRange t bl) : 0 ≤ (⟨X, l.offset⟩ : Layout).addr t := by
  have := h.nonneg hs ht (inRange_zeros_max core)
  rw [dot_zeros] at this
  omega

theorem SplitAs.coreNonneg {l : Layout} {bl core : List Nat} {X Y : List Axis} (h : SplitAs l bl core X Y) (hs : l.Settled)
    {j : List Nat} (hj : InRange j (core.map (max 1))) : 0 ≤ l.offset + dot j Y := by
  have := hs (List.replicate bl.length 0 ++ j) (by
    have e : l.shape = bl ++ core := by
      rw [← h.dx, ← h.dy]
      show dims l.axes = _
      rw [h.axes]; simp [dims]
    rw [e, List.map_append, inRange_append (by simp)]
    exact ⟨inRange_zeros_max bl, hj⟩)
  rw [h.addr (by simp), addr_mk, dot_zeros] at this
  omega

/-! ## The batch layouts -/

/-- `r` numbers the batches of shape `bc` by positions of the operand with batch axes `X`. -/
structure RestAs (X : List Axis) (off : Int) (bl bc : List Nat) (r : Layout) : Prop where
  shape : r.shape = bc
  addr : ∀ t, InRange t bc → InRange (stretchIndex .C bl t) bl ∧
    r.addr t = (⟨X, off⟩ : Layout).addr (stretchIndex .C bl t)

theorem restAs_self {X : List Axis} {off : Int} {bl : List Nat} (h : dims X = bl) : RestAs X off bl bl ⟨X, off⟩ := by
  refine ⟨h, fun t ht => ?_⟩
  rw [stretchIndex_self ht]
  exact ⟨ht, rfl⟩

theorem broadcastOf_left {o : Order} {a b s : List Nat} (h : BroadcastOf o a b s) : BroadcastOf o s a s :=
  ⟨by have := h.1; omega, fun k _ => ⟨.inl rfl, (h.at k).1, .inl rfl⟩⟩

theorem broadcastOf_right {o : Order} {a b s : List Nat} (h : BroadcastOf o a b s) : BroadcastOf o s b s :=
  ⟨by have := h.1; omega, fun k _ => ⟨.inl rfl, (h.at k).2.1, .inl rfl⟩⟩

theorem broadcastOf_nil_left {o : Order} {b s : List Nat} (h : BroadcastOf o [] b s) : s = b :=
  broadcastOf_unique h ((C16_shape_iff _ _ _ _).1 (C16_unit o b).1)

theorem broadcastOf_nil_right {o : Order} {a s : List Nat} (h : BroadcastOf o a [] s) : s = a :=
  broadcastOf_unique h ((C16_shape_iff _ _ _ _).1 (C16_unit o a).2)

theorem compatible_of_broadcastOf {o : Order} {a b s : List Nat} (h : BroadcastOf o a b s) : Compatible o a b := by
  rw [← C16_accept_iff]
  exact ⟨s, (C16_shape_iff _ _ _ _).2 h⟩

theorem restAs_broadcast {X Z : List Axis} {off off' : Int} {bl bc : List Nat} (hX : dims X = bl) (hZ : dims Z = bc)
    (h : BroadcastOf .C bc bl bc) :
    ∃ m r, (⟨Z, off'⟩ : Layout).broadcastToFirst ⟨X, off⟩ .C = .ok (m, r) ∧ RestAs X off bl bc r := by
  have hX : (⟨X, off⟩ : Layout).shape = bl := hX
  have hZ : (⟨Z, off'⟩ : Layout).shape = bc := hZ
  obtain ⟨⟨m, r⟩, hr⟩ := (C17_accept_iff ⟨Z, off'⟩ ⟨X, off⟩ .C).2 (by rw [hX, hZ]; exact compatible_of_broadcastOf h)
  obtain ⟨h1, h2, h3⟩ := C17_broadcast_layout _ _ _ _ _ hr
  rw [hX, hZ] at h1
  have hm := broadcastOf_unique h1 h
  refine ⟨m, r, hr, h2.trans hm, fun t ht => ?_⟩
  have := (h3 t (hm.symm ▸ ht)).2
  rw [hX] at this
  exact this

/-! ## One operand -/

/-- `r` and `m` are the batch and matrix layouts of an operand `l`. -/
structure PartAs (l : Layout) (bl bc : List Nat) (d0 d1 : Nat) (ix : Nat → Nat → List Nat) (r m : Layout) : Prop where
  rshape : r.shape = bc
  rnn : NonNegative r
  mshape : ∀ p, (m.setOffset p).shape = [d0, d1]
  addr : ∀ t, InRange t bc → ∀ i < d0, ∀ j < d1, (m.setOffset (r.pos t)).addr [i, j] = l.addr (stretchIndex .C bl t ++ ix i j)
  long : m.axes.filter (fun a => a.dim ≠ 1) = (l.axes.drop bl.length).filter fun a => a.dim ≠ 1

theorem partAs_of {l : Layout} {bl bc core : List Nat} {X Y : List Axis} (h : SplitAs l bl core X Y) (hs : l.Settled) {r m : Layout}
    (hr : RestAs X l.offset bl bc r) {d0 d1 : Nat} {ix : Nat → Nat → List Nat} (hm : m.shape = [d0, d1])
    (hl : m.axes.filter (fun a => a.dim ≠ 1) = Y.filter fun a => a.dim ≠ 1)
    (hd : ∀ i < d0, ∀ j < d1, dot [i, j] m.axes = dot (ix i j) Y) : PartAs l bl bc d0 d1 ix r m := by
  have hnn : ∀ t, InRange t bc → 0 ≤ r.addr t := by
    intro t ht
    rw [(hr.addr t ht).2]
    exact h.restNonneg hs (hr.addr t ht).1
  have hlen : X.length = bl.length := by rw [← h.dx]; simp [dims]
  refine ⟨hr.shape, fun t ht => hnn t (hr.shape ▸ ht), fun p => hm, fun t ht i hi j hj => ?_,
    by rw [hl, h.axes, ← hlen, List.drop_left]⟩
  obtain ⟨h1, h2⟩ := hr.addr t ht
  rw [h.addr h1.length_eq, ← h2, Layout.setOffset, addr_mk, hd i hi j hj, Layout.pos, Int.toNat_of_nonneg (hnn t ht)]

theorem good_one {d : Nat} {s off : Int} (h : ∀ j < d, 0 ≤ off + (j : Int) * s) : Good ⟨[⟨d, s⟩], off⟩ := by
  by_cases hz : 0 ∈ dims [(⟨d, s⟩ : Axis)]
  · exact Or.inl hz
  · right
    obtain ⟨h1, h2⟩ := loIdx_spec hz
    refine ⟨?_, ?_⟩
    · show 0 ≤ off + loSum [(⟨d, s⟩ : Axis)]
      rw [← h2]
      simp only [dims, List.map_cons, List.map_nil] at h1
      have hl := h1.length_eq
      obtain ⟨j, hj⟩ := List.length_eq_one_iff.1 hl
      rw [hj] at h1 ⊢
      rw [inRange_cons] at h1
      have := h j h1.1
      simpa [dot] using this
    · refine ⟨_, List.Perm.refl _, ?_⟩
      by_cases he : (⟨d, s⟩ : Axis).ess = true
      · simp only [List.filter_cons, he, if_true, List.filter_nil, SuperInc, and_true]
        simp only [Axis.ess, Bool.and_eq_true, decide_eq_true_eq] at he
        omega
      · simp [List.filter_cons, he, SuperInc]

theorem dimInsert0 {d : Nat} {s off : Int} (h : ∀ j < d, 0 ≤ off + (j : Int) * s) :
    ∃ s', (⟨[⟨d, s⟩], off⟩ : Layout).dimInsert 0 = .ok ⟨[⟨1, s'⟩, ⟨d, s⟩], off⟩ :=
  ⟨_, (dimInsert_ok (good_one h)).2 ⟨by constructor <;> simp [Layout.ndim], _, rfl, rfl⟩⟩

theorem dimInsert1 {d : Nat} {s off : Int} (h : ∀ j < d, 0 ≤ off + (j : Int) * s) :
    ∃ s', (⟨[⟨d, s⟩], off⟩ : Layout).dimInsert 1 = .ok ⟨[⟨d, s⟩, ⟨1, s'⟩], off⟩ :=
  ⟨_, (dimInsert_ok (good_one h)).2 ⟨by constructor <;> simp [Layout.ndim], _, rfl, rfl⟩⟩

theorem dims_one {Y : List Axis} {d : Nat} (h : dims Y = [d]) : ∃ s, Y = [⟨d, s⟩] := by
  match Y, h with
  | [⟨d', s⟩], h =>
    simp only [dims, List.map_cons, List.map_nil, List.cons.injEq, and_true] at h
    subst h
    exact ⟨s, rfl⟩

/-! ## The plan for a product into `c` -/

/-- The plan of `layout_matmul_dyn_row_major_with_lc` for compatible shapes. -/
structure PlanAs (la lb lc : Layout) (ba bb bc rows cols : List Nat) (K : Nat) (cfg : MatMulCfg) (ra rb rc : Layout) : Prop where
  plan : la.matmulWithLc lb lc = .ok cfg
  ea : cfg.laRest = some ra
  eb : cfg.lbRest = some rb
  ec : cfg.lcRest = some rc
  pa : PartAs la ba bc (rows.headD 1) K (fun i p => rows.map (fun _ => i) ++ [p]) ra cfg.laM
  pb : PartAs lb bb bc K (cols.headD 1) (fun p j => p :: cols.map fun _ => j) rb cfg.lbM
  pc : PartAs lc bc bc (rows.headD 1) (cols.headD 1) (fun i j => rows.map (fun _ => i) ++ cols.map fun _ => j) rc cfg.lcM

theorem ndim_eq {l : Layout} {s : List Nat} (h : l.shape = s) : l.ndim = s.length := by
  rw [← h]; simp [Layout.shape, Layout.ndim]

theorem one_nonneg {d : Nat} {s off : Int} (h : ∀ j, InRange [j] ([d].map (max 1)) → 0 ≤ off + dot [j] [(⟨d, s⟩ : Axis)]) :
    ∀ j < d, 0 ≤ off + (j : Int) * s := by
  intro j hj
  have := h j (by simp; omega)
  simpa [dot] using this

theorem plan_gemmXX {la lb lc : Layout} {ba bb bc : List Nat} {M N K : Nat} (sa : la.Settled) (sb : lb.Settled)
    (sc : lc.Settled) (ha : la.shape = ba ++ [M, K]) (hb : lb.shape = bb ++ [K, N]) (hc : lc.shape = bc ++ [M, N])
    (hbc : BroadcastOf .C ba bb bc) (na : ba ≠ []) (nb : bb ≠ []) (hr : ba.length = bb.length) :
    ∃ cfg ra rb rc, PlanAs la lb lc ba bb bc [M] [N] K cfg ra rb rc := by
  obtain ⟨a0, ba', rfl⟩ := List.exists_cons_of_ne_nil na
  obtain ⟨b0, bb', rfl⟩ := List.exists_cons_of_ne_nil nb
  have hl := hbc.1
  have da : la.ndim = ba'.length + 3 := by rw [ndim_eq ha]; simp
  have db : lb.ndim = bb'.length + 3 := by rw [ndim_eq hb]; simp
  have dc : lc.ndim = bc.length + 2 := by rw [ndim_eq hc]; simp
  simp only [List.length_cons] at hl hr
  have Sa := splitAs_of ha
  have Sb := splitAs_of hb
  have Sc := splitAs_of hc
  obtain ⟨m1, ra, e1, Ra⟩ := restAs_broadcast (off := la.offset) (off' := lc.offset) Sa.dx Sc.dx (broadcastOf_left hbc)
  obtain ⟨m2, rb, e2, Rb⟩ := restAs_broadcast (off := lb.offset) (off' := lc.offset) Sb.dx Sc.dx (broadcastOf_right hbc)
  refine ⟨⟨.gemmXX, lc, some ra, some rb, some ⟨lc.axes.take bc.length, lc.offset⟩,
    ⟨la.axes.drop (a0 :: ba').length, la.offset⟩, ⟨lb.axes.drop (b0 :: bb').length, lb.offset⟩,
    ⟨lc.axes.drop bc.length, lc.offset⟩⟩, ra, rb, _, ?_, rfl, rfl, rfl, partAs_of Sa sa Ra Sa.dy rfl ?_,
    partAs_of Sb sb Rb Sb.dy rfl ?_, partAs_of Sc sc (restAs_self Sc.dx) Sc.dy rfl ?_⟩
  · unfold Layout.matmulWithLc
    simp only [da, db]
    rw [if_neg (by omega), if_neg (by omega), dimSplitAt_of ha (by simp) (by simp), ok_bind,
      dimSplitAt_of hb (by simp) (by simp), ok_bind, dimSplitAt_of hc (by simp) (by simp), ok_bind]
    simp only [e1, e2, ok_bind]
    rfl
  all_goals
    intro i _ j _
    rfl

theorem plan_gemm2X {la lb lc : Layout} {bb : List Nat} {M N K : Nat} (sa : la.Settled) (sb : lb.Settled)
    (sc : lc.Settled) (ha : la.shape = [] ++ [M, K]) (hb : lb.shape = bb ++ [K, N]) (hc : lc.shape = bb ++ [M, N])
    (nb : bb ≠ []) : ∃ cfg ra rb rc, PlanAs la lb lc [] bb bb [M] [N] K cfg ra rb rc := by
  obtain ⟨b0, bb', rfl⟩ := List.exists_cons_of_ne_nil nb
  have da : la.ndim = 2 := by rw [ndim_eq ha]; simp
  have db : lb.ndim = bb'.length + 3 := by rw [ndim_eq hb]; simp
  have dc : lc.ndim = bb'.length + 3 := by rw [ndim_eq hc]; simp
  have Sa := splitAs_of ha
  have Sb := splitAs_of hb
  have Sc := splitAs_of hc
  have hbc : BroadcastOf .C [] (b0 :: bb') (b0 :: bb') := (C16_shape_iff _ _ _ _).1 (C16_unit .C _).1
  obtain ⟨m1, ra, e1, Ra⟩ := restAs_broadcast (off := la.offset) (off' := lc.offset) Sa.dx Sc.dx (broadcastOf_left hbc)
  refine ⟨⟨.gemm2X, lc, some ra, some ⟨lb.axes.take (b0 :: bb').length, lb.offset⟩,
    some ⟨lc.axes.take (b0 :: bb').length, lc.offset⟩, ⟨la.axes.drop ([] : List Nat).length, la.offset⟩,
    ⟨lb.axes.drop (b0 :: bb').length, lb.offset⟩, ⟨lc.axes.drop (b0 :: bb').length, lc.offset⟩⟩, ra, _, _, ?_, rfl, rfl, rfl,
    partAs_of Sa sa Ra Sa.dy rfl ?_, partAs_of Sb sb (restAs_self Sb.dx) Sb.dy rfl ?_, partAs_of Sc sc (restAs_self Sc.dx) Sc.dy rfl ?_⟩
  · unfold Layout.matmulWithLc
    simp only [da, db]
    rw [if_neg (by omega), dimSplitAt_of ha (by simp) (by simp), ok_bind,
      dimSplitAt_of hb (by simp) (by simp), ok_bind, dimSplitAt_of hc (by simp) (by simp), ok_bind]
    simp only [e1, ok_bind]
    rfl
  all_goals
    intro i _ j _
    rfl

theorem plan_gemmX2 {la lb lc : Layout} {ba : List Nat} {M N K : Nat} (sa : la.Settled) (sb : lb.Settled)
    (sc : lc.Settled) (ha : la.shape = ba ++ [M, K]) (hb : lb.shape = [] ++ [K, N]) (hc : lc.shape = ba ++ [M, N])
    (na : ba ≠ []) : ∃ cfg ra rb rc, PlanAs la lb lc ba [] ba [M] [N] K cfg ra rb rc := by
  obtain ⟨a0, ba', rfl⟩ := List.exists_cons_of_ne_nil na
  have da : la.ndim = ba'.length + 3 := by rw [ndim_eq ha]; simp
  have db : lb.ndim = 2 := by rw [ndim_eq hb]; simp
  have dc : lc.ndim = ba'.length + 3 := by rw [ndim_eq hc]; simp
  have Sa := splitAs_of ha
  have Sb := splitAs_of hb
  have Sc := splitAs_of hc
  have hbc : BroadcastOf .C [] (a0 :: ba') (a0 :: ba') := (C16_shape_iff _ _ _ _).1 (C16_unit .C _).1
  obtain ⟨m1, rb, e1, Rb⟩ := restAs_broadcast (off := lb.offset) (off' := lc.offset) Sb.dx Sc.dx (broadcastOf_left hbc)
  refine ⟨⟨.gemmX2, lc, some ⟨la.axes.take (a0 :: ba').length, la.offset⟩, some rb,
    some ⟨lc.axes.take (a0 :: ba').length, lc.offset⟩, ⟨la.axes.drop (a0 :: ba').length, la.offset⟩,
    ⟨lb.axes.drop ([] : List Nat).length, lb.offset⟩, ⟨lc.axes.drop (a0 :: ba').length, lc.offset⟩⟩, _, rb, _, ?_, rfl, rfl, rfl,
    partAs_of Sa sa (restAs_self Sa.dx) Sa.dy rfl ?_, partAs_of Sb sb Rb Sb.dy rfl ?_, partAs_of Sc sc (restAs_self Sc.dx) Sc.dy rfl ?_⟩
  · unfold Layout.matmulWithLc
    simp only [da, db]
    rw [if_neg (by omega), dimSplitAt_of ha (by simp) (by simp), ok_bind,
      dimSplitAt_of hb (by simp) (by simp), ok_bind, dimSplitAt_of hc (by simp) (by simp), ok_bind]
    simp only [e1, ok_bind]
    rfl
  all_goals
    intro i _ j _
    rfl

theorem plan_gevm {la lb lc : Layout} {bb : List Nat} {N K : Nat} (sa : la.Settled) (sb : lb.Settled)
    (sc : lc.Settled) (ha : la.shape = [] ++ [K]) (hb : lb.shape = bb ++ [K, N]) (hc : lc.shape = bb ++ [N]) :
    ∃ cfg ra rb rc, PlanAs la lb lc [] bb bb [] [N] K cfg ra rb rc := by
  have da : la.ndim = 1 := by rw [ndim_eq ha]; simp
  have db : lb.ndim = bb.length + 2 := by rw [ndim_eq hb]; simp
  have dc : lc.ndim = bb.length + 1 := by rw [ndim_eq hc]; simp
  have Sa := splitAs_of ha
  have Sb := splitAs_of hb
  have Sc := splitAs_of hc
  have hbc : BroadcastOf .C [] bb bb := (C16_shape_iff _ _ _ _).1 (C16_unit .C _).1
  obtain ⟨m1, ra, e1, Ra⟩ := restAs_broadcast (off := la.offset) (off' := lc.offset) Sa.dx Sc.dx (broadcastOf_left hbc)
  obtain ⟨s1, y1⟩ := dims_one Sa.dy
  obtain ⟨s2, y2⟩ := dims_one Sc.dy
  obtain ⟨t1, z1⟩ := dimInsert0 (one_nonneg fun j hj => y1 ▸ Sa.coreNonneg sa hj)
  obtain ⟨t2, z2⟩ := dimInsert0 (one_nonneg fun j hj => y2 ▸ Sc.coreNonneg sc hj)
  refine ⟨⟨.gevm, lc, some ra, some ⟨lb.axes.take bb.length, lb.offset⟩, some ⟨lc.axes.take bb.length, lc.offset⟩,
    ⟨[⟨1, t1⟩, ⟨K, s1⟩], la.offset⟩, ⟨lb.axes.drop bb.length, lb.offset⟩, ⟨[⟨1, t2⟩, ⟨N, s2⟩], lc.offset⟩⟩, ra, _, _, ?_,
    rfl, rfl, rfl, partAs_of Sa sa Ra rfl (by rw [y1]; simp) ?_, partAs_of Sb sb (restAs_self Sb.dx) Sb.dy rfl ?_,
    partAs_of Sc sc (restAs_self Sc.dx) rfl (by rw [y2]; simp) ?_⟩
  · unfold Layout.matmulWithLc
    simp only [da, db]
    rw [if_neg (by omega), dimSplitAt_of ha (by simp) (by simp), ok_bind,
      dimSplitAt_of hb (by simp) (by simp), ok_bind, dimSplitAt_of hc (by simp) (by simp), ok_bind]
    simp only [e1, ok_bind, y1, y2, z1, z2]
    rfl
  · intro i hi j _
    have hi : i = 0 := by simp only [List.headD_nil] at hi; omega
    rw [y1, hi]
    simp [dot]
  · intro i _ j _
    rfl
  · intro i hi j _
    have hi : i = 0 := by simp only [List.headD_nil] at hi; omega
    rw [y2, hi]
    simp [dot]

theorem plan_gemv {la lb lc : Layout} {ba : List Nat} {M K : Nat} (sa : la.Settled) (sb : lb.Settled)
    (sc : lc.Settled) (ha : la.shape = ba ++ [M, K]) (hb : lb.shape = [] ++ [K]) (hc : lc.shape = ba ++ [M]) :
    ∃ cfg ra rb rc, PlanAs la lb lc ba [] ba [M] [] K cfg ra rb rc := by
  have da : la.ndim = ba.length + 2 := by rw [ndim_eq ha]; simp
  have db : lb.ndim = 1 := by rw [ndim_eq hb]; simp
  have dc : lc.ndim = ba.length + 1 := by rw [ndim_eq hc]; simp
  have Sa := splitAs_of ha
  have Sb := splitAs_of hb
  have Sc := splitAs_of hc
  have hbc : BroadcastOf .C [] ba ba := (C16_shape_iff _ _ _ _).1 (C16_unit .C _).1
  obtain ⟨m1, rb, e1, Rb⟩ := restAs_broadcast (off := lb.offset) (off' := lc.offset) Sb.dx Sc.dx (broadcastOf_left hbc)
  obtain ⟨s1, y1⟩ := dims_one Sb.dy
  obtain ⟨s2, y2⟩ := dims_one Sc.dy
  obtain ⟨t1, z1⟩ := dimInsert1 (one_nonneg fun j hj => y1 ▸ Sb.coreNonneg sb hj)
  obtain ⟨t2, z2⟩ := dimInsert1 (one_nonneg fun j hj => y2 ▸ Sc.coreNonneg sc hj)
  refine ⟨⟨.gemv, lc, some ⟨la.axes.take ba.length, la.offset⟩, some rb, some ⟨lc.axes.take ba.length, lc.offset⟩,
    ⟨la.axes.drop ba.length, la.offset⟩, ⟨[⟨K, s1⟩, ⟨1, t1⟩], lb.offset⟩, ⟨[⟨M, s2⟩, ⟨1, t2⟩], lc.offset⟩⟩, _, rb, _, ?_,
    rfl, rfl, rfl, partAs_of Sa sa (restAs_self Sa.dx) Sa.dy rfl ?_, partAs_of Sb sb Rb rfl (by rw [y1]; simp [List.filter_cons]) ?_,
    partAs_of Sc sc (restAs_self Sc.dx) rfl (by rw [y2]; simp [List.filter_cons]) ?_⟩
  · unfold Layout.matmulWithLc
    simp only [da, db]
    rw [if_neg (by omega), dimSplitAt_of ha (by simp) (by simp), ok_bind,
      dimSplitAt_of hb (by simp) (by simp), ok_bind, dimSplitAt_of hc (by simp) (by simp), ok_bind]
    simp only [e1, ok_bind, y1, y2, z1, z2]
    rfl
  · intro i _ j _
    rfl
  · intro i _ j hj
    have hj : j = 0 := by simp only [List.headD_nil] at hj; omega
    rw [y1, hj]
    simp [dot]
  · intro i _ j hj
    have hj : j = 0 := by simp only [List.headD_nil] at hj; omega
    rw [y2, hj]
    simp [dot]

theorem plan_ok {la lb lc : Layout} {ba bb bc rows cols : List Nat} {K : Nat} (sa : la.Settled) (sb : lb.Settled)
    (sc : lc.Settled) (h : MatShapes .C la.shape lb.shape lc.shape ba bb bc rows cols K)
    (hr : ba ≠ [] → bb ≠ [] → ba.length = bb.length) (h1 : ¬ (rows = [] ∧ cols = []))
    (h2 : ¬ (rows ≠ [] ∧ cols ≠ [] ∧ ba = [] ∧ bb = [])) :
    ∃ cfg ra rb rc, PlanAs la lb lc ba bb bc rows cols K cfg ra rb rc := by
  obtain ⟨ha, hb, hc, lr, ll, vr, vc, hbc⟩ := h
  simp only [glue] at ha hb hc
  match rows, cols, lr, ll with
  | [], [], _, _ => exact absurd ⟨rfl, rfl⟩ h1
  | [], [N], _, _ =>
    have := vr rfl
    subst this
    have := broadcastOf_nil_left hbc
    subst this
    exact plan_gevm sa sb sc ha hb hc
  | [M], [], _, _ =>
    have := vc rfl
    subst this
    have := broadcastOf_nil_right hbc
    subst this
    exact plan_gemv sa sb sc ha hb hc
  | [M], [N], _, _ =>
    by_cases na : ba = []
    · subst na
      have := broadcastOf_nil_left hbc
      subst this
      exact plan_gemm2X sa sb sc ha hb hc fun e => h2 (by simp [e])
    · by_cases nb : bb = []
      · subst nb
        have := broadcastOf_nil_right hbc
        subst this
        exact plan_gemmX2 sa sb sc ha hb hc na
      · exact plan_gemmXX sa sb sc ha hb hc hbc na nb (hr na nb)

/-! ## Cells of the product -/

/-- Index of the product for a batch, a row and a column. -/
def cellIx (rows cols t : List Nat) (i j : Nat) : List Nat := t ++ (rows.map (fun _ => i) ++ cols.map fun _ => j)

theorem opt_cases {rows : List Nat} (h : rows.length ≤ 1) : rows = [] ∨ ∃ M, rows = [M] := by
  match rows, h with
  | [], _ => exact .inl rfl
  | [M], _ => exact .inr ⟨M, rfl⟩

theorem inRange_opt {rows : List Nat} (h : rows.length ≤ 1) {i : Nat} (hi : i < rows.headD 1) :
    InRange (rows.map fun _ => i) rows := by
  rcases opt_cases h with rfl | ⟨M, rfl⟩
  · simp
  · simpa using hi

theorem of_inRange_opt {rows idx : List Nat} (h : rows.length ≤ 1) (hi : InRange idx rows) :
    ∃ i < rows.headD 1, idx = rows.map fun _ => i := by
  rcases opt_cases h with rfl | ⟨M, rfl⟩
  · refine ⟨0, by simp, ?_⟩
    have := hi.length_eq
    simpa using this
  · obtain ⟨j, rfl⟩ := List.length_eq_one_iff.1 hi.length_eq
    rw [inRange_cons] at hi
    exact ⟨j, hi.1, rfl⟩

theorem inRange_cell {rows cols bc t : List Nat} {i j : Nat} (hr : rows.length ≤ 1) (hc : cols.length ≤ 1) (ht : InRange t bc)
    (hi : i < rows.headD 1) (hj : j < cols.headD 1) : InRange (cellIx rows cols t i j) (bc ++ (rows ++ cols)) := by
  unfold cellIx
  rw [inRange_append ht.length_eq, inRange_append (by simp)]
  exact ⟨ht, inRange_opt hr hi, inRange_opt hc hj⟩

theorem of_inRange_cell {rows cols bc idx : List Nat} (hr : rows.length ≤ 1) (hc : cols.length ≤ 1)
    (h : InRange idx (bc ++ (rows ++ cols))) :
    ∃ t, InRange t bc ∧ ∃ i < rows.headD 1, ∃ j < cols.headD 1, idx = cellIx rows cols t i j := by
  have hl := h.length_eq
  simp only [List.length_append] at hl
  have e : idx = idx.take bc.length ++ ((idx.drop bc.length).take rows.length ++ (idx.drop bc.length).drop rows.length) := by
    rw [List.take_append_drop, List.take_append_drop]
  rw [e, inRange_append (by simp; omega), inRange_append (by simp; omega)] at h
  obtain ⟨i, hi, e1⟩ := of_inRange_opt hr h.2.1
  obtain ⟨j, hj, e2⟩ := of_inRange_opt hc h.2.2
  refine ⟨_, h.1, i, hi, j, hj, ?_⟩
  rw [e1, e2] at e
  exact e

theorem cell_inj {rows cols bc t t' : List Nat} {i j i' j' : Nat} (hr : rows.length ≤ 1) (hc : cols.length ≤ 1)
    (ht : InRange t bc) (ht' : InRange t' bc) (hi : i < rows.headD 1) (hj : j < cols.headD 1) (hi' : i' < rows.headD 1)
    (hj' : j' < cols.headD 1) (e : cellIx rows cols t i j = cellIx rows cols t' i' j') : t = t' ∧ i = i' ∧ j = j' := by
  unfold cellIx at e
  obtain ⟨e1, e2⟩ := List.append_inj e (ht.length_eq.trans ht'.length_eq.symm)
  obtain ⟨e3, e4⟩ := List.append_inj e2 (by simp)
  refine ⟨e1, ?_, ?_⟩
  · rcases opt_cases hr with rfl | ⟨M, rfl⟩
    · simp only [List.headD_nil] at hi hi'; omega
    · simpa using e3
  · rcases opt_cases hc with rfl | ⟨N, rfl⟩
    · simp only [List.headD_nil] at hj hj'; omega
    · simpa using e4

section
variable {α β γ : Type}

/-- What a product does to the storage of `c`: the cell of each element is changed by `f`, other cells keep
their content. -/
structure Filled (bc rows cols : List Nat) (lc : Layout) (f : List Nat → Nat → Nat → γ → γ) (c c' : List γ) : Prop where
  len : c'.length = c.length
  cell : ∀ t, InRange t bc → ∀ i < rows.headD 1, ∀ j < cols.headD 1,
    c'[lc.pos (cellIx rows cols t i j)]? = c[lc.pos (cellIx rows cols t i j)]?.map (f t i j)
  keep : ∀ k, (∀ idx, InRange idx lc.shape → lc.pos idx ≠ k) → c'[k]? = c[k]?

/-- The destination. -/
structure Dest (bc rows cols : List Nat) (lc : Layout) (c : List γ) : Prop where
  rl : rows.length ≤ 1
  cl : cols.length ≤ 1
  fit : Fit (bc ++ (rows ++ cols)) lc
  covers : Covers (bc ++ (rows ++ cols)) lc c
  inj : ∀ i j, InRange i (bc ++ (rows ++ cols)) → InRange j (bc ++ (rows ++ cols)) → lc.pos i = lc.pos j → i = j

theorem Dest.cell_inj {bc rows cols : List Nat} {lc : Layout} {c : List γ} (h : Dest bc rows cols lc c) {t t' : List Nat}
    {i j i' j' : Nat} (ht : InRange t bc) (hi : i < rows.headD 1) (hj : j < cols.headD 1) (ht' : InRange t' bc)
    (hi' : i' < rows.headD 1) (hj' : j' < cols.headD 1)
    (e : lc.pos (cellIx rows cols t i j) = lc.pos (cellIx rows cols t' i' j')) : t = t' ∧ i = i' ∧ j = j' :=
  Rstsr.cell_inj h.rl h.cl ht ht' hi hj hi' hj'
    (h.inj _ _ (inRange_cell h.rl h.cl ht hi hj) (inRange_cell h.rl h.cl ht' hi' hj') e)

/-- Update lists per batch that touch the cells of the batch only. -/
theorem filled_of {bc rows cols : List Nat} {lc : Layout} {c : List γ} (h : Dest bc rows cols lc c)
    {T : List (List Nat)} (hT : T.Perm (all .C bc)) {U : List Nat → List (Nat × (γ → γ))} {f : List Nat → Nat → Nat → γ → γ}
    (hU : ∀ t, InRange t bc → ∀ u ∈ U t, ∃ i < rows.headD 1, ∃ j < cols.headD 1, u.1 = lc.pos (cellIx rows cols t i j))
    (he : ∀ t, InRange t bc → ∀ i < rows.headD 1, ∀ j < cols.headD 1, ∀ v,
      effect (lc.pos (cellIx rows cols t i j)) (U t) v = f t i j v) :
    ∃ c', runU (T.flatMap U) c = .ok c' ∧ Filled bc rows cols lc f c c' := by
  have hm : ∀ t, t ∈ T ↔ InRange t bc := fun t => hT.mem_iff.trans mem_all
  obtain ⟨c', h1, h2, h3⟩ := runU_effect (U := T.flatMap U) (c := c) (by
    intro u hu
    obtain ⟨t, ht, hu⟩ := List.mem_flatMap.1 hu
    obtain ⟨i, hi, j, hj, e⟩ := hU t ((hm t).1 ht) u hu
    rw [e]
    exact h.covers _ (inRange_cell h.rl h.cl ((hm t).1 ht) hi hj))
  refine ⟨c', h1, h2, ?_, ?_⟩
  · intro t ht i hi j hj
    rw [h3]
    congr 1
    funext v
    rw [effect_at (hT.nodup_iff.2 (nodup_all .C bc)) ((hm t).2 ht), he t ht i hi j hj]
    intro t' ht' hne u hu
    obtain ⟨i', hi', j', hj', e⟩ := hU t' ((hm t').1 ht') u hu
    rw [e]
    exact fun e => hne (h.cell_inj ((hm t').1 ht') hi' hj' ht hi hj e).1
  · intro k hk
    rw [h3]
    have : ∀ v, effect k (T.flatMap U) v = v := by
      intro v
      refine effect_none ?_ v
      intro u hu
      obtain ⟨t, ht, hu⟩ := List.mem_flatMap.1 hu
      obtain ⟨i, hi, j, hj, e⟩ := hU t ((hm t).1 ht) u hu
      rw [e]
      exact hk _ (h.fit.shape ▸ inRange_cell h.rl h.cl ((hm t).1 ht) hi hj)
    cases c[k]? with
    | none => rfl
    | some v => simp [this]

theorem broadcastOf_inRange {bl bc t : List Nat} (h : BroadcastOf .C bc bl bc) (ht : InRange t bc) :
    InRange (stretchIndex .C bl t) bl := by
  obtain ⟨m, r, -, h⟩ := restAs_broadcast (X := bl.map fun d => ⟨d, 0⟩) (Z := bc.map fun d => ⟨d, 0⟩) (off := 0) (off' := 0)
    (bl := bl) (bc := bc) (by simp [dims, Function.comp_def]) (by simp [dims, Function.comp_def]) h
  exact (h.addr t ht).1

theorem pos_of_addr {l m : Layout} {i j : List Nat} (h : l.addr i = m.addr j) : l.pos i = m.pos j := by
  rw [Layout.pos, h]; rfl

/-- Elements of an operand, by batch and matrix index. -/
def ElemsAre (a : List α) (la : Layout) (bl bc : List Nat) (d0 d1 : Nat) (ix : Nat → Nat → List Nat)
    (X : List Nat → Nat → Nat → α) : Prop :=
  ∀ t, InRange t bc → ∀ i < d0, ∀ j < d1, 0 ≤ la.addr (stretchIndex .C bl t ++ ix i j) ∧
    a[la.pos (stretchIndex .C bl t ++ ix i j)]? = some (X t i j)

structure Job (a : List α) (b : List β) (c : List γ) (la lb lc : Layout) (ba bb bc rows cols : List Nat) (K : Nat)
    (X : List Nat → Nat → Nat → α) (Y : List Nat → Nat → Nat → β) : Prop where
  shapes : MatShapes .C la.shape lb.shape lc.shape ba bb bc rows cols K
  xs : ElemsAre a la ba bc (rows.headD 1) K (fun i p => rows.map (fun _ => i) ++ [p]) X
  ys : ElemsAre b lb bb bc K (cols.headD 1) (fun p j => p :: cols.map fun _ => j) Y
  dest : Dest bc rows cols lc c

/-- The batches as single products. -/
structure Batches (a : List α) (b : List β) (lc : Layout) (bc rows cols : List Nat) (K : Nat)
    (X : List Nat → Nat → Nat → α) (Y : List Nat → Nat → Nat → β) (La Lb Lc : List Nat → Layout) : Prop where
  mats : ∀ t, InRange t bc → MatIn a b (rows.headD 1) (cols.headD 1) K (La t) (Lb t) (Lc t) (X t) (Y t)
  cells : ∀ t, InRange t bc → ∀ i < rows.headD 1, ∀ j < cols.headD 1, (Lc t).pos [i, j] = lc.pos (cellIx rows cols t i j)

theorem PlanAs.batches {a : List α} {b : List β} {c : List γ} {la lb lc : Layout} {ba bb bc rows cols : List Nat} {K : Nat}
    {X : List Nat → Nat → Nat → α} {Y : List Nat → Nat → Nat → β} {cfg : MatMulCfg} {ra rb rc : Layout}
    (P : PlanAs la lb lc ba bb bc rows cols K cfg ra rb rc) (J : Job a b c la lb lc ba bb bc rows cols K X Y) :
    Batches a b lc bc rows cols K X Y (fun t => cfg.laM.setOffset (ra.pos t)) (fun t => cfg.lbM.setOffset (rb.pos t))
      (fun t => cfg.lcM.setOffset (rc.pos t)) := by
  have hcell : ∀ t, InRange t bc → ∀ i < rows.headD 1, ∀ j < cols.headD 1,
      (cfg.lcM.setOffset (rc.pos t)).addr [i, j] = lc.addr (cellIx rows cols t i j) := by
    intro t ht i hi j hj
    rw [P.pc.addr t ht i hi j hj, stretchIndex_self ht]
    rfl
  refine ⟨fun t ht => ⟨P.pa.mshape _, P.pb.mshape _, P.pc.mshape _, ?_, ?_, ?_⟩, ?_⟩
  · intro i hi p hp
    have := J.xs t ht i hi p hp
    rw [pos_of_addr (P.pa.addr t ht i hi p hp), P.pa.addr t ht i hi p hp]
    exact this
  · intro p hp j hj
    have := J.ys t ht p hp j hj
    rw [pos_of_addr (P.pb.addr t ht p hp j hj), P.pb.addr t ht p hp j hj]
    exact this
  · intro i hi j hj
    rw [hcell t ht i hi j hj]
    exact J.dest.fit.nonneg _ (inRange_cell J.dest.rl J.dest.cl ht hi hj)
  · intro t ht i hi j hj
    exact pos_of_addr (hcell t ht i hi j hj)

theorem serial_filled (O : MatOps α β γ) {a : List α} {b : List β} {c : List γ} {lc : Layout} {bc rows cols : List Nat} {K : Nat}
    {X : List Nat → Nat → Nat → α} {Y : List Nat → Nat → Nat → β} {La Lb Lc : List Nat → Layout}
    (B : Batches a b lc bc rows cols K X Y La Lb Lc) (D : Dest bc rows cols lc c) {T : List (List Nat)}
    (hT : T.Perm (all .C bc)) (alpha beta : γ) :
    ∃ c', runAll (fun t c => gemmNaive O c (Lc t) a (La t) b (Lb t) alpha beta) T c = .ok c' ∧
      Filled bc rows cols lc (fun t i j => serialCell O K (X t i) (fun p => Y t p j) alpha beta) c c' := by
  have hm : ∀ t, t ∈ T ↔ InRange t bc := fun t => hT.mem_iff.trans mem_all
  obtain ⟨c', h1, h2⟩ := filled_of D hT
    (U := fun t => gemmU O (rows.headD 1) (cols.headD 1) K (Lc t) (X t) (Y t) alpha beta)
    (f := fun t i j => serialCell O K (X t i) (fun p => Y t p j) alpha beta)
    (fun t ht u hu => by
      obtain ⟨i, hi, j, hj, e⟩ := mem_gemmU hu
      exact ⟨i, hi, j, hj, by rw [e, B.cells t ht i hi j hj]⟩)
    (fun t ht i hi j hj v => by
      rw [← B.cells t ht i hi j hj]
      refine effect_gemmU O (X t) (Y t) alpha beta ?_ hi hj v
      intro i hi j hj i' hi' j' hj' e
      rw [B.cells t ht i hi j hj, B.cells t ht i' hi' j' hj'] at e
      exact (D.cell_inj ht hi hj ht hi' hj' e).2)
  refine ⟨c', ?_, h2⟩
  rw [← h1, runU_flatMap]
  refine runAll_congr (fun t ht c => ?_) c
  exact gemmNaive_eq O (B.mats t ((hm t).1 ht)) alpha beta c

theorem mem_gemmParU {O : MatOps α β γ} {m n k : Nat} {lc : Layout} {X : Nat → Nat → α} {Y : Nat → Nat → β} {alpha beta : γ}
    {u : Nat × (γ → γ)} (h : u ∈ gemmParU O m n k lc X Y alpha beta) : ∃ i < m, ∃ j < n, u.1 = lc.pos [i, j] := by
  obtain ⟨j, hj, h⟩ := List.mem_flatMap.1 h
  obtain ⟨i, hi, h⟩ := List.mem_flatMap.1 h
  simp only [List.mem_singleton] at h
  subst h
  exact ⟨i, List.mem_range.1 hi, j, List.mem_range.1 hj, rfl⟩

theorem nodup_flatMap_cells {ι δ κ : Type} {xs : List ι} (hn : xs.Nodup) {f : ι → List (δ × κ)}
    (h1 : ∀ x ∈ xs, ((f x).map Prod.fst).Nodup)
    (h2 : ∀ x ∈ xs, ∀ y ∈ xs, x ≠ y → ∀ u ∈ f x, ∀ v ∈ f y, u.1 ≠ v.1) : ((xs.flatMap f).map Prod.fst).Nodup := by
  induction xs with
  | nil => simp
  | cons x xs ih =>
    rw [List.nodup_cons] at hn
    rw [List.flatMap_cons, List.map_append, List.nodup_append]
    refine ⟨h1 x (by simp), ih hn.2 (fun y hy => h1 y (by simp [hy])) (fun y hy z hz => h2 y (by simp [hy]) z (by simp [hz])), ?_⟩
    intro a ha b hb
    obtain ⟨u, hu, rfl⟩ := List.mem_map.1 ha
    obtain ⟨v, hv, rfl⟩ := List.mem_map.1 hb
    obtain ⟨y, hy, hv⟩ := List.mem_flatMap.1 hv
    exact h2 x (by simp) y (by simp [hy]) (fun e => hn.1 (e ▸ hy)) u hu v hv

theorem nodup_gemmParU {O : MatOps α β γ} {m n k : Nat} {lc : Layout} {X : Nat → Nat → α} {Y : Nat → Nat → β} {alpha beta : γ}
    (hinj : ∀ i < m, ∀ j < n, ∀ i' < m, ∀ j' < n, lc.pos [i, j] = lc.pos [i', j'] → i = i' ∧ j = j') :
    ((gemmParU O m n k lc X Y alpha beta).map Prod.fst).Nodup := by
  unfold gemmParU
  refine nodup_flatMap_cells List.nodup_range ?_ ?_
  · intro j hj
    rw [List.mem_range] at hj
    refine nodup_flatMap_cells List.nodup_range (fun _ _ => by simp) ?_
    intro i hi i' hi' hne u hu v hv
    rw [List.mem_range] at hi hi'
    simp only [List.mem_singleton] at hu hv
    subst hu hv
    exact fun e => hne (hinj i hi j hj i' hi' j hj e).1
  · intro j hj j' hj' hne u hu v hv
    rw [List.mem_range] at hj hj'
    obtain ⟨i, hi, hu⟩ := List.mem_flatMap.1 hu
    obtain ⟨i', hi', hv⟩ := List.mem_flatMap.1 hv
    rw [List.mem_range] at hi hi'
    simp only [List.mem_singleton] at hu hv
    subst hu hv
    exact fun e => hne (hinj i hi j hj i' hi' j' hj' e).2

theorem effect_gemmParU (O : MatOps α β γ) {m n k : Nat} {lc : Layout} (X : Nat → Nat → α) (Y : Nat → Nat → β) (alpha beta : γ)
    (hinj : ∀ i < m, ∀ j < n, ∀ i' < m, ∀ j' < n, lc.pos [i, j] = lc.pos [i', j'] → i = i' ∧ j = j')
    {i j : Nat} (hi : i < m) (hj : j < n) (v : γ) :
    effect (lc.pos [i, j]) (gemmParU O m n k lc X Y alpha beta) v = parCell O k (X i) (fun p => Y p j) alpha beta v := by
  rw [gemmParU, effect_at List.nodup_range (List.mem_range.2 hj), effect_at List.nodup_range (List.mem_range.2 hi)]
  · simp [effect]
  · intro i' hi' hne u hu
    rw [List.mem_range] at hi'
    simp only [List.mem_singleton] at hu
    subst hu
    exact fun e => hne (hinj i' hi' j hj i hi j hj e).1
  · intro j' hj' hne u hu
    rw [List.mem_range] at hj'
    obtain ⟨i', hi', hu⟩ := List.mem_flatMap.1 hu
    rw [List.mem_range] at hi'
    simp only [List.mem_singleton] at hu
    subst hu
    exact fun e => hne (hinj i' hi' j' hj' i hi j hj e).2

/-- Any process made of the updates of all batches. -/
theorem par_filled (O : MatOps α β γ) {a : List α} {b : List β} {c : List γ} {lc : Layout} {bc rows cols : List Nat} {K : Nat}
    {X : List Nat → Nat → Nat → α} {Y : List Nat → Nat → Nat → β} {La Lb Lc : List Nat → Layout}
    (B : Batches a b lc bc rows cols K X Y La Lb Lc) (D : Dest bc rows cols lc c) {T : List (List Nat)}
    (hT : T.Perm (all .C bc)) (alpha beta : γ) {p : Proc γ}
    (hp : updates p = T.flatMap fun t => gemmParU O (rows.headD 1) (cols.headD 1) K (Lc t) (X t) (Y t) alpha beta) :
    ∃ c', Computes p c c' ∧ RaceFree p c ∧
      Filled bc rows cols lc (fun t i j => parCell O K (X t i) (fun p => Y t p j) alpha beta) c c' := by
  have hm : ∀ t, t ∈ T ↔ InRange t bc := fun t => hT.mem_iff.trans mem_all
  have hinj : ∀ t, InRange t bc → ∀ i < rows.headD 1, ∀ j < cols.headD 1, ∀ i' < rows.headD 1, ∀ j' < cols.headD 1,
      (Lc t).pos [i, j] = (Lc t).pos [i', j'] → i = i' ∧ j = j' := by
    intro t ht i hi j hj i' hi' j' hj' e
    rw [B.cells t ht i hi j hj, B.cells t ht i' hi' j' hj'] at e
    exact (D.cell_inj ht hi hj ht hi' hj' e).2
  have hmem : ∀ t, InRange t bc → ∀ u ∈ gemmParU O (rows.headD 1) (cols.headD 1) K (Lc t) (X t) (Y t) alpha beta,
      ∃ i < rows.headD 1, ∃ j < cols.headD 1, u.1 = lc.pos (cellIx rows cols t i j) := by
    intro t ht u hu
    obtain ⟨i, hi, j, hj, e⟩ := mem_gemmParU hu
    exact ⟨i, hi, j, hj, by rw [e, B.cells t ht i hi j hj]⟩
  obtain ⟨c', h1, h2⟩ := filled_of D hT
    (U := fun t => gemmParU O (rows.headD 1) (cols.headD 1) K (Lc t) (X t) (Y t) alpha beta)
    (f := fun t i j => parCell O K (X t i) (fun p => Y t p j) alpha beta) hmem
    (fun t ht i hi j hj v => by
      rw [← B.cells t ht i hi j hj]
      exact effect_gemmParU O (X t) (Y t) alpha beta (hinj t ht) hi hj v)
  have hnd : ((updates p).map Prod.fst).Nodup := by
    rw [hp]
    refine nodup_flatMap_cells (hT.nodup_iff.2 (nodup_all .C bc)) (fun t ht => nodup_gemmParU (hinj t ((hm t).1 ht))) ?_
    intro t ht t' ht' hne u hu v hv
    obtain ⟨i, hi, j, hj, e1⟩ := hmem t ((hm t).1 ht) u hu
    obtain ⟨i', hi', j', hj', e2⟩ := hmem t' ((hm t').1 ht') v hv
    rw [e1, e2]
    exact fun e => hne (D.cell_inj ((hm t).1 ht) hi hj ((hm t').1 ht') hi' hj' e).1
  refine ⟨c', computes_of_way (one := fun _ => True) (way_nodup hnd ?_ (by rw [hp]; exact h1)), raceFree_of_nodup hnd, h2⟩
  intro u hu
  rw [hp] at hu
  obtain ⟨t, ht, hu⟩ := List.mem_flatMap.1 hu
  obtain ⟨i, hi, j, hj, e⟩ := hmem t ((hm t).1 ht) u hu
  rw [e]
  exact D.covers _ (inRange_cell D.rl D.cl ((hm t).1 ht) hi hj)

/-! ## The drivers -/

theorem batch_items {la lb lc : Layout} {ba bb bc rows cols : List Nat} {K : Nat} {cfg : MatMulCfg} {ra rb rc : Layout}
    (P : PlanAs la lb lc ba bb bc rows cols K cfg ra rb rc) :
    colItems ra = .ok ((all .F bc).map ra.pos) ∧ colItems rb = .ok ((all .F bc).map rb.pos) ∧
    colItems rc = .ok ((all .F bc).map rc.pos) := by
  refine ⟨?_, ?_, ?_⟩
  · rw [colItems_ok P.pa.rnn, positions_eq, P.pa.rshape]
  · rw [colItems_ok P.pb.rnn, positions_eq, P.pb.rshape]
  · rw [colItems_ok P.pc.rnn, positions_eq, P.pc.rshape]

theorem zip3_map {ι κ κ' κ'' : Type} (T : List ι) (f : ι → κ) (g : ι → κ') (h : ι → κ'') :
    (T.map f).zip ((T.map g).zip (T.map h)) = T.map fun t => (f t, g t, h t) := by
  rw [zip_map_self, zip_map_self]

theorem naive_batch (O : MatOps α β γ) {a : List α} {b : List β} {c : List γ} {la lb lc : Layout}
    {ba bb bc rows cols : List Nat} {K : Nat} {X : List Nat → Nat → Nat → α} {Y : List Nat → Nat → Nat → β}
    {cfg : MatMulCfg} {ra rb rc : Layout} (P : PlanAs la lb lc ba bb bc rows cols K cfg ra rb rc)
    (J : Job a b c la lb lc ba bb bc rows cols K X Y) (h1 : ¬ (la.ndim = 1 ∧ lb.ndim = 1)) (h2 : ¬ (la.ndim = 2 ∧ lb.ndim = 2))
    (alpha beta : γ) :
    ∃ c', matmulNaive O c lc a la b lb alpha beta = .ok c' ∧
      Filled bc rows cols lc (fun t i j => serialCell O K (X t i) (fun p => Y t p j) alpha beta) c c' := by
  obtain ⟨c', e, h⟩ := serial_filled O (P.batches J) J.dest (perm_all .F .C bc) alpha beta
  refine ⟨c', ?_, h⟩
  obtain ⟨i1, i2, i3⟩ := batch_items P
  unfold matmulNaive
  split
  · rename_i e1 e2 _; exact absurd ⟨e1, e2⟩ h1
  · rename_i e1 e2 _; exact absurd ⟨e1, e2⟩ h2
  · rw [P.plan, ok_bind]
    simp only [P.ea, P.eb, P.ec, i1, i2, i3, ok_bind]
    rw [zip3_map, runAll_map]
    exact e

theorem toList_of_items {l : Layout} {xs : List Nat} (h : colItems l = .ok xs) :
    ∃ it, Iter.new .F l = .ok it ∧ it.toList = .ok xs := by
  obtain ⟨it, h1, -⟩ := Iter.new_spec .F l
  unfold colItems at h
  rw [h1] at h
  exact ⟨it, h1, h⟩

theorem par_batch (O : MatOps α β γ) (par : MatPar) (hs : (par.sched 0).Fits) {a : List α} {b : List β} {c : List γ}
    {la lb lc : Layout} {ba bb bc rows cols : List Nat} {K : Nat} {X : List Nat → Nat → Nat → α}
    {Y : List Nat → Nat → Nat → β} {cfg : MatMulCfg} {ra rb rc : Layout}
    (P : PlanAs la lb lc ba bb bc rows cols K cfg ra rb rc) (J : Job a b c la lb lc ba bb bc rows cols K X Y)
    (h1 : ¬ (la.ndim = 1 ∧ lb.ndim = 1)) (h2 : ¬ (la.ndim = 2 ∧ lb.ndim = 2)) (alpha beta : γ) :
    ∃ p c', matmulPar O par c lc a la b lb alpha beta = .ok (.threads p) ∧ Computes p c c' ∧ RaceFree p c ∧
      Filled bc rows cols lc (fun t i j => parCell O K (X t i) (fun p => Y t p j) alpha beta) c c' := by
  have B := P.batches J
  obtain ⟨i1, i2, i3⟩ := batch_items P
  have key : ∃ p, matmulPar O par c lc a la b lb alpha beta = .ok (.threads p) ∧ updates p = (all .F bc).flatMap fun t =>
      gemmParU O (rows.headD 1) (cols.headD 1) K (cfg.lcM.setOffset (rc.pos t)) (X t) (Y t) alpha beta := by
    have hg : ∀ s : Nat → Scheduler, ∀ t, InRange t bc → ∃ p, gemmNaivePar O (s (rc.pos t + 1)) (cfg.lcM.setOffset (rc.pos t)) a
        (cfg.laM.setOffset (ra.pos t)) b (cfg.lbM.setOffset (rb.pos t)) alpha beta = .ok p ∧ updates p =
        gemmParU O (rows.headD 1) (cols.headD 1) K (cfg.lcM.setOffset (rc.pos t)) (X t) (Y t) alpha beta :=
      fun s t ht => gemmNaivePar_ok O _ (B.mats t ht) alpha beta
    -- the process of one batch, by positions
    let g := fun (p : Nat × Nat × Nat) => gemmNaivePar O (par.sched (p.2.2 + 1)) (cfg.lcM.setOffset p.2.2) a
        (cfg.laM.setOffset p.1) b (cfg.lbM.setOffset p.2.1) alpha beta
    let u := fun (p : Nat × Nat × Nat) => match g p with
      | .ok p => updates p
      | .error _ => []
    have hu : ∀ p ∈ (all .F bc).map fun t => (ra.pos t, rb.pos t, rc.pos t), ∃ q, g p = .ok q ∧ updates q = u p := by
      intro p hp
      obtain ⟨t, ht, rfl⟩ := List.mem_map.1 hp
      obtain ⟨q, q1, q2⟩ := hg par.sched t (mem_all.1 ht)
      refine ⟨q, q1, ?_⟩
      show updates q = match g _ with | .ok p => updates p | .error _ => []
      rw [show g (ra.pos t, rb.pos t, rc.pos t) = .ok q from q1]
    have hU : ((all .F bc).map fun t => (ra.pos t, rb.pos t, rc.pos t)).flatMap u = (all .F bc).flatMap fun t =>
        gemmParU O (rows.headD 1) (cols.headD 1) K (cfg.lcM.setOffset (rc.pos t)) (X t) (Y t) alpha beta := by
      rw [List.flatMap_map]
      refine List.flatMap_congr fun t ht => ?_
      obtain ⟨q, q1, q2⟩ := hg par.sched t (mem_all.1 ht)
      rw [← q2]
      show (match g _ with | .ok p => updates p | .error _ => []) = _
      rw [show g (ra.pos t, rb.pos t, rc.pos t) = .ok q from q1]
    unfold matmulPar
    split
    · rename_i e1 e2 _; exact absurd ⟨e1, e2⟩ h1
    · rename_i e1 e2 _; exact absurd ⟨e1, e2⟩ h2
    · rw [P.plan, ok_bind]
      simp only [P.ea, P.eb, P.ec]
      by_cases hbig : ra.size > 4 * par.threads
      · have hne : (all .F bc) ≠ [] := by
          intro e
          have := length_all .F bc
          rw [e] at this
          have hz : ra.size = bc.prod := by rw [Layout.size, P.pa.rshape]
          simp only [List.length_nil] at this
          omega
        obtain ⟨x, x1, x2, x3, x4, x5, x6⟩ := iter_of_items i1 (by simpa using hne)
        obtain ⟨y, y1, y2, y3, y4, y5, y6⟩ := iter_of_items i2 (by simpa using hne)
        obtain ⟨z, z1, z2, z3, z4, z5, z6⟩ := iter_of_items i3 (by simpa using hne)
        simp only [x1, y1, z1, ok_bind, if_pos hbig]
        simp only [List.length_map] at x6 y6 z6
        have hm : min x.len (min y.len z.len) = x.len := by omega
        rw [hm]
        obtain ⟨p, p1, p2⟩ := parIter3_ok (g := fun _ p => g p) (u := u) (m := 0) (par.sched 0 x.len 0) x2 x3 x4 y2 y3 y4 z2 z3 z4
          (by omega) (by omega) (hs _ _) (fun _ => by rw [x5, y5, z5, zip3_map]; exact hu)
        refine ⟨p, ?_, ?_⟩
        · rw [show (fun _ p => gemmNaivePar O (par.sched (p.2.2 + 1)) (cfg.lcM.setOffset p.2.2) a
            (cfg.laM.setOffset p.1) b (cfg.lbM.setOffset p.2.1) alpha beta) = (fun (_ : Plan) p => g p) from rfl, p1]
          rfl
        · rw [p2, x5, y5, z5, zip3_map, hU]
      · obtain ⟨x, x1, x2⟩ := toList_of_items i1
        obtain ⟨y, y1, y2⟩ := toList_of_items i2
        obtain ⟨z, z1, z2⟩ := toList_of_items i3
        simp only [x1, y1, z1, ok_bind, if_neg hbig, x2, y2, z2]
        rw [zip3_map]
        obtain ⟨p, p1, p2⟩ := procLoop_ok hu
        refine ⟨p, ?_, by rw [p2, hU]⟩
        rw [show (fun p => gemmNaivePar O (par.sched (p.2.2 + 1)) (cfg.lcM.setOffset p.2.2) a
            (cfg.laM.setOffset p.1) b (cfg.lbM.setOffset p.2.1) alpha beta) = g from rfl, p1]
        rfl
  obtain ⟨p, p1, p2⟩ := key
  obtain ⟨c', k1, k2, k3⟩ := par_filled O B J.dest (perm_all .F .C bc) alpha beta p2
  exact ⟨p, c', p1, k1, k2, k3⟩

/-! ## Values -/

/-- Operations of a commutative semiring. -/
def ringOps [CommSemiring γ] (mul : α → β → γ) : MatOps α β γ := ⟨mul, (· * ·), (· + ·), 0⟩

/-- `beta * v + alpha * sum of products`. -/
def entry [CommSemiring γ] (mul : α → β → γ) (K : Nat) (x : Nat → α) (y : Nat → β) (alpha beta v : γ) : γ :=
  beta * v + alpha * ((List.range K).map fun p => mul (x p) (y p)).sum

theorem foldl_add_sum {ι : Type} [AddCommMonoid γ] (f : ι → γ) (xs : List ι) (v : γ) :
    xs.foldl (fun acc p => acc + f p) v = v + (xs.map f).sum := by
  induction xs generalizing v with
  | nil => simp
  | cons x xs ih => rw [List.foldl_cons, ih, List.map_cons, List.sum_cons, add_assoc]

theorem sum_mul_left {ι : Type} [CommSemiring γ] (alpha : γ) (f : ι → γ) (xs : List ι) :
    (xs.map fun p => alpha * f p).sum = alpha * (xs.map f).sum := by
  induction xs with
  | nil => simp
  | cons x xs ih => rw [List.map_cons, List.sum_cons, ih, List.map_cons, List.sum_cons, mul_add]

theorem serialCell_ring [CommSemiring γ] (mul : α → β → γ) (K : Nat) (x : Nat → α) (y : Nat → β) (alpha beta v : γ) :
    serialCell (ringOps mul) K x y alpha beta v = entry mul K x y alpha beta v := by
  unfold serialCell entry ringOps
  simp only
  rw [show (fun (v : γ) p => alpha * mul (x p) (y p) + v) = fun v p => v + alpha * mul (x p) (y p) from by
    funext v p; rw [add_comm], foldl_add_sum, sum_mul_left]

theorem parCell_ring [CommSemiring γ] (mul : α → β → γ) (K : Nat) (x : Nat → α) (y : Nat → β) (alpha beta v : γ) :
    parCell (ringOps mul) K x y alpha beta v = entry mul K x y alpha beta v := by
  unfold parCell entry ringOps
  simp only
  rw [foldl_add_sum, zero_add, mul_comm v, mul_comm alpha]

/-! ## Inner products -/

theorem dotLoop_ok (O : MatOps α β γ) {a : List α} {b : List β} {la lb : Layout} {k : Nat} (ha : la.shape = [k])
    (hb : lb.shape = [k]) (alpha : γ) {x : Nat → α} {y : Nat → β} {ks : List Nat}
    (h : ∀ p ∈ ks, 0 ≤ la.addr [p] ∧ 0 ≤ lb.addr [p] ∧ a[la.pos [p]]? = some (x p) ∧ b[lb.pos [p]]? = some (y p)) (v : γ) :
    dotLoop O a la b lb alpha ks v = .ok (ks.foldl (fun acc p => O.plus acc (O.times alpha (O.mul (x p) (y p)))) v) := by
  induction ks generalizing v with
  | nil => rfl
  | cons p ks ih =>
    obtain ⟨h1, h2, h3, h4⟩ := h p List.mem_cons_self
    rw [dotLoop, indexUncheck1 ha, ok_bind, indexUncheck1 hb, ok_bind, readInt_ok h1 h3, ok_bind, readInt_ok h2 h4, ok_bind,
      ih fun p hp => h p (List.mem_cons_of_mem _ hp)]
    rfl

theorem bracketOf_foldl {σ ι : Type} {start : σ} {step : σ → ι → σ} {combine : σ → σ → σ} {xs : List ι} {v : σ}
    (h : BracketOf start step combine xs v) (ys : List ι) : BracketOf start step combine (xs ++ ys) (ys.foldl step v) := by
  induction ys generalizing xs v with
  | nil => simpa using h
  | cons y ys ih =>
    obtain ⟨b, h1, rfl⟩ := h
    have := ih (xs := xs ++ [y]) (v := step (b.value start step combine) y) ⟨.feed b y, h1.append (List.Perm.refl _), rfl⟩
    simpa using this

theorem bracketOf_both {σ ι : Type} {start : σ} {step : σ → ι → σ} {combine : σ → σ → σ} {xs ys : List ι} {v w : σ}
    (h : BracketOf start step combine xs v) (h' : BracketOf start step combine ys w) :
    BracketOf start step combine (xs ++ ys) (combine v w) := by
  obtain ⟨b, h1, rfl⟩ := h
  obtain ⟨c, h2, rfl⟩ := h'
  exact ⟨.both b c, h1.append h2, rfl⟩

theorem bracketOf_nil {σ ι : Type} (start : σ) (step : σ → ι → σ) (combine : σ → σ → σ) : BracketOf start step combine [] start :=
  ⟨.start, List.Perm.refl _, rfl⟩

theorem adds_foldl_before {ι : Type} {plus : γ → γ → γ} {start v : γ} {ts : List γ} (h : Adds plus start ts v) (f : ι → γ) (xs : List ι) :
    Adds plus start (ts ++ xs.map f) (xs.foldl (fun v p => plus (f p) v) v) := by
  induction xs generalizing ts v with
  | nil => simpa using h
  | cons x xs ih => simpa using ih (h.before (f x))

theorem adds_foldl_after {ι : Type} {plus : γ → γ → γ} {start v : γ} {ts : List γ} (h : Adds plus start ts v) (f : ι → γ) (xs : List ι) :
    Adds plus start (ts ++ xs.map f) (xs.foldl (fun v p => plus v (f p)) v) := by
  induction xs generalizing ts v with
  | nil => simpa using h
  | cons x xs ih => simpa using ih (h.after (f x))

/-- One of the ways to compute a cell. -/
def CellWay (O : MatOps α β γ) (K : Nat) (x : Nat → α) (y : Nat → β) (alpha beta v r : γ) : Prop :=
  MatWay O.mul O.times O.plus O.zero alpha beta v ((List.range K).map fun k => (x k, y k)) r

theorem serialCell_way (O : MatOps α β γ) (K : Nat) (x : Nat → α) (y : Nat → β) (alpha beta v : γ) :
    CellWay O K x y alpha beta v (serialCell O K x y alpha beta v) := by
  refine .spread ?_
  rw [List.map_map]
  exact adds_foldl_before (.none (plus := O.plus)) _ _

theorem foldl_pairs (O : MatOps α β γ) (x : Nat → α) (y : Nat → β) (ks : List Nat) :
    BracketOf O.zero (fun acc (p : α × β) => O.plus acc (O.mul p.1 p.2)) O.plus (ks.map fun k => (x k, y k))
      (ks.foldl (fun acc p => O.plus acc (O.mul (x p) (y p))) O.zero) := by
  have := bracketOf_foldl (bracketOf_nil O.zero (fun acc (p : α × β) => O.plus acc (O.mul p.1 p.2)) O.plus)
    (ks.map fun k => (x k, y k))
  rw [List.foldl_map] at this
  exact this

theorem parCell_way (O : MatOps α β γ) (K : Nat) (x : Nat → α) (y : Nat → β) (alpha beta v : γ) :
    CellWay O K x y alpha beta v (parCell O K x y alpha beta v) :=
  .gathered (foldl_pairs O x y _) (.inr rfl)

theorem parDot_ok (O : MatOps α β γ) {a : List α} {b : List β} {ia ib : Nat → Res Int} {x : Nat → α} {y : Nat → β}
    (plan : Plan) {ks : List Nat} (h : ∀ p ∈ ks, ∃ i j, ia p = .ok i ∧ ib p = .ok j ∧ 0 ≤ i ∧ 0 ≤ j ∧
      a[i.toNat]? = some (x p) ∧ b[j.toNat]? = some (y p)) :
    ∃ s, parDot O (dotFold O a b ia ib) plan ks = .ok s ∧
      BracketOf O.zero (fun acc (p : α × β) => O.plus acc (O.mul p.1 p.2)) O.plus (ks.map fun k => (x k, y k)) s := by
  induction plan generalizing ks with
  | run => exact ⟨_, by rw [parDot, foldRes_dot _ h], foldl_pairs O x y ks⟩
  | split k p q ihp ihq =>
    obtain ⟨s, h1, h2⟩ := ihp fun p hp => h p (List.mem_of_mem_take hp)
    obtain ⟨s', h3, h4⟩ := ihq fun p hp => h p (List.mem_of_mem_drop hp)
    refine ⟨O.plus s s', by rw [parDot, h1, ok_bind, h3]; rfl, ?_⟩
    have := bracketOf_both h2 h4
    rwa [← List.map_append, List.take_append_drop] at this

theorem bracket_sum [AddCommMonoid γ] (f : α × β → γ) {ps : List (α × β)} {s : γ}
    (h : BracketOf 0 (fun acc p => acc + f p) (· + ·) ps s) : s = (ps.map f).sum := by
  obtain ⟨b, h1, rfl⟩ := h
  rw [← (h1.map f).sum_eq]
  clear h1
  induction b with
  | start => rfl
  | feed b x ih => simp only [Bracket.value, Bracket.items, ih]; simp
  | both b c ihb ihc => simp only [Bracket.value, Bracket.items, ihb, ihc]; simp

theorem adds_sum [AddCommMonoid γ] {start : γ} {ts : List γ} {v : γ} (h : Adds (· + ·) start ts v) : v = start + ts.sum := by
  induction h with
  | none => simp
  | before t _ ih => simp only [ih, List.sum_append, List.sum_cons, List.sum_nil]; abel
  | after t _ ih => simp only [ih, List.sum_append, List.sum_cons, List.sum_nil]; abel

/-- In a commutative semiring all ways agree. -/
theorem cellWay_ring [CommSemiring γ] {mul : α → β → γ} {K : Nat} {x : Nat → α} {y : Nat → β} {alpha beta v r : γ}
    (h : CellWay (ringOps mul) K x y alpha beta v r) : r = entry mul K x y alpha beta v := by
  cases h with
  | spread h =>
    rw [adds_sum h, List.map_map]
    unfold entry
    rw [← sum_mul_left]
    rfl
  | gathered h hr =>
    have hs := bracket_sum (fun p : α × β => mul p.1 p.2) h
    rw [List.map_map] at hs
    unfold entry
    have e : ((List.range K).map fun p => mul (x p) (y p)).sum = _ := hs.symm
    rw [e]
    rcases hr with rfl | rfl
    · show _ * alpha + v * beta = _
      rw [add_comm, mul_comm v, mul_comm alpha]
    · show v * beta + _ * alpha = _
      rw [mul_comm v, mul_comm alpha]

/-! ## All ranks, row-major -/

/-- What work on the storage `c` leaves: a serial kernel has left it, threads compute it under every
interleaving without a race. -/
def Work.Leaves (w : Work γ) (c d : List γ) : Prop :=
  match w with
  | .done d' => d' = d
  | .threads p => Computes p c d ∧ RaceFree p c

def MatDevice (par : Option MatPar) : Prop := ∀ p ∈ par, (p.sched 0).Fits

theorem filled_congr {bc rows cols : List Nat} {lc : Layout} {f g : List Nat → Nat → Nat → γ → γ} {c c' : List γ}
    (h : Filled bc rows cols lc f c c') (e : ∀ t i j v, f t i j v = g t i j v) : Filled bc rows cols lc g c c' := by
  have : f = g := by funext t i j v; exact e t i j v
  exact this ▸ h

theorem rowMajor_inner (O : MatOps α β γ) (par : Option MatPar) {a : List α} {b : List β} {c : List γ}
    {la lb lc : Layout} {ba bb bc : List Nat} {K : Nat} {X : List Nat → Nat → Nat → α} {Y : List Nat → Nat → Nat → β}
    (J : Job a b c la lb lc ba bb bc [] [] K X Y) (h0 : par = none → lc.offset = 0) (alpha beta : γ) :
    ∃ w c' cell, matmulDevice O par c lc a la b lb alpha beta = .ok w ∧ w.Leaves c c' ∧
      (∀ t i j v, CellWay O K (X t i) (fun p => Y t p j) alpha beta v (cell t i j v)) ∧
      Filled bc [] [] lc cell c c' := by
  obtain ⟨ha, hb, hc, -, -, vr, vc, hbc⟩ := J.shapes
  have := vr rfl
  subst this
  have := vc rfl
  subst this
  have := broadcastOf_nil_left hbc
  subst this
  simp only [glue, List.nil_append, List.append_nil] at ha hb hc
  have na : la.ndim = 1 := by rw [ndim_eq ha]; rfl
  have nb : lb.ndim = 1 := by rw [ndim_eq hb]; rfl
  have nc : lc.ndim = 0 := by rw [ndim_eq hc]; rfl
  have hd : ∀ p < K, 0 ≤ la.addr [p] ∧ 0 ≤ lb.addr [p] ∧ a[la.pos [p]]? = some (X [] 0 p) ∧ b[lb.pos [p]]? = some (Y [] p 0) := by
    intro p hp
    obtain ⟨x1, x2⟩ := J.xs [] (by simp) 0 (by simp) p hp
    obtain ⟨y1, y2⟩ := J.ys [] (by simp) p hp 0 (by simp)
    exact ⟨x1, y1, x2, y2⟩
  have ho : lc.addr [] = lc.offset := by
    have : lc.axes = [] := List.length_eq_zero_iff.1 nc
    rw [addr_eq, this]
    simp [dot]
  have hpos : lc.pos [] = lc.offset.toNat := by rw [Layout.pos, ho]
  have hoff := J.dest.fit.off
  have hlt : lc.offset.toNat < c.length := by rw [← hpos]; exact J.dest.covers [] (by simp)
  have key : ∀ (g : List Nat → Nat → Nat → γ → γ) c', (∃ v, c[lc.offset.toNat]? = some v ∧ c' = c.set lc.offset.toNat
      (g [] 0 0 v)) → Filled [] [] [] lc g c c' := by
    rintro g c' ⟨v, hv, rfl⟩
    refine ⟨by simp, ?_, ?_⟩
    · intro t ht i hi j hj
      have ht : t = [] := by simpa using ht.length_eq
      simp only [List.headD_nil, Nat.lt_one_iff] at hi hj
      subst ht hi hj
      simp only [cellIx, List.map_nil, List.append_nil, hpos]
      rw [hv]
      simp [hlt]
    · intro k hk
      have := hk [] (by rw [hc]; simp)
      rw [hpos] at this
      rw [List.getElem?_set_ne this]
  obtain ⟨v, hv⟩ : ∃ v, c[lc.offset.toNat]? = some v := ⟨_, List.getElem?_eq_getElem hlt⟩
  cases par with
  | none =>
    let g : List Nat → Nat → Nat → γ → γ := fun t i j v =>
      (List.range K).foldl (fun acc p => O.plus acc (O.times alpha (O.mul (X t i p) (Y t p j)))) (O.times beta v)
    refine ⟨.done _, _, g, ?_, rfl, ?_, key g (c.set lc.offset.toNat (g [] 0 0 v)) ⟨v, hv, rfl⟩⟩
    · unfold matmulDevice matmulNaive
      simp only [na, nb, nc]
      unfold innerDotNaive
      simp only [Layout.dimAt, ha, hb, ne_eq, not_true_eq_false, if_false, List.getD_cons_zero]
      rw [indexUncheck_eq (by simp [nc]), ok_bind, ho, readInt_ok hoff hv, ok_bind,
        dotLoop_ok _ ha hb alpha (x := X [] 0) (y := fun p => Y [] p 0) fun p hp => hd p (List.mem_range.1 hp), ok_bind]
      have hz : lc.offset.toNat = 0 := by rw [h0 rfl]; rfl
      rw [hz] at hv ⊢
      rw [modifyAt_of hv]
      rfl
    · intro t i j v
      refine .spread ?_
      rw [List.map_map]
      exact adds_foldl_after (.none (plus := O.plus)) _ _
  | some par =>
    obtain ⟨s, hs1, hs2⟩ := parDot_ok O (ia := fun p => la.indexUncheck [p]) (ib := fun p => lb.indexUncheck [p]) (x := X [] 0)
      (y := fun p => Y [] p 0) (a := a) (b := b) (par.plan K) (ks := List.range K) (by
        intro p hp
        obtain ⟨h1, h2, h3, h4⟩ := hd p (List.mem_range.1 hp)
        exact ⟨_, _, indexUncheck1 ha p, indexUncheck1 hb p, h1, h2, h3, h4⟩)
    let g : List Nat → Nat → Nat → γ → γ := fun t i j v =>
      if t = [] ∧ i = 0 ∧ j = 0 then O.plus (O.times s alpha) (O.times v beta) else serialCell O K (X t i) (fun p => Y t p j) alpha beta v
    refine ⟨.done _, _, g, ?_, rfl, ?_, key g (c.set lc.offset.toNat (g [] 0 0 v)) ⟨v, hv, rfl⟩⟩
    · unfold matmulDevice matmulPar
      simp only [na, nb, nc]
      unfold innerDotNaivePar
      simp only [Layout.dimAt, ha, hb, ne_eq, not_true_eq_false, if_false, List.getD_cons_zero]
      rw [if_neg (by omega), hs1, ok_bind, modifyAt_of hv]
      simp only [g, and_self, if_true]
      rfl
    · intro t i j v
      simp only [g]
      split
      · rename_i h
        obtain ⟨rfl, rfl, rfl⟩ := h
        exact .gathered hs2 (.inl rfl)
      · exact serialCell_way O _ _ _ _ _ _

theorem Job.batches22 {a : List α} {b : List β} {c : List γ} {la lb lc : Layout} {M N K : Nat}
    {X : List Nat → Nat → Nat → α} {Y : List Nat → Nat → Nat → β} (J : Job a b c la lb lc [] [] [] [M] [N] K X Y) :
    Batches a b lc [] [M] [N] K X Y (fun _ => la) (fun _ => lb) fun _ => lc := by
  refine ⟨fun t ht => ?_, fun t ht i hi j hj => ?_⟩
  · have e : t = [] := by simpa using ht.length_eq
    subst e
    refine ⟨J.shapes.left, J.shapes.right, J.shapes.out, fun i hi p hp => J.xs [] ht i hi p hp,
      fun p hp j hj => J.ys [] ht p hp j hj, fun i hi j hj => ?_⟩
    exact J.dest.fit.nonneg _ (inRange_cell (t := []) J.dest.rl J.dest.cl ht hi hj)
  · have e : t = [] := by simpa using ht.length_eq
    subst e
    rfl

theorem rowMajor_22 (O : MatOps α β γ) (par : Option MatPar) {a : List α} {b : List β} {c : List γ}
    {la lb lc : Layout} {M N K : Nat} {X : List Nat → Nat → Nat → α} {Y : List Nat → Nat → Nat → β}
    (J : Job a b c la lb lc [] [] [] [M] [N] K X Y) (alpha beta : γ) :
    ∃ w c' cell, matmulDevice O par c lc a la b lb alpha beta = .ok w ∧ w.Leaves c c' ∧
      (∀ t i j v, CellWay O K (X t i) (fun p => Y t p j) alpha beta v (cell t i j v)) ∧
      Filled [] [M] [N] lc cell c c' := by
  have B := J.batches22
  have na : la.ndim = 2 := by rw [ndim_eq J.shapes.left]; rfl
  have nb : lb.ndim = 2 := by rw [ndim_eq J.shapes.right]; rfl
  have nc : lc.ndim = 2 := by rw [ndim_eq J.shapes.out]; rfl
  have hT : [([] : List Nat)].Perm (all .C []) := List.Perm.refl _
  cases par with
  | none =>
    obtain ⟨c', h1, h2⟩ := serial_filled O B J.dest hT alpha beta
    refine ⟨.done c', c', _, ?_, rfl, fun t i j v => serialCell_way O _ _ _ _ _ _, h2⟩
    unfold matmulDevice matmulNaive
    simp only [na, nb, nc]
    have : gemmNaive O c lc a la b lb alpha beta = .ok c' := by
      simp only [runAll] at h1
      cases hg : gemmNaive O c lc a la b lb alpha beta with
      | ok d => rw [hg] at h1; exact h1
      | error e => rw [hg] at h1; cases h1
    rw [this]
    rfl
  | some par =>
    obtain ⟨p, p1, p2⟩ := gemmNaivePar_ok O (par.sched 1) (B.mats [] (by simp)) alpha beta
    obtain ⟨c', h1, h2, h3⟩ := par_filled O B J.dest hT alpha beta (p := p) (by rw [p2]; simp)
    refine ⟨.threads p, c', _, ?_, ⟨h1, h2⟩, fun t i j v => parCell_way O _ _ _ _ _ _, h3⟩
    unfold matmulDevice matmulPar
    simp only [na, nb, nc, p1]
    rfl

/-- The row-major driver for all ranks. -/
theorem rowMajorWay (O : MatOps α β γ) (par : Option MatPar) (hp : MatDevice par) {a : List α} {b : List β}
    {c : List γ} {la lb lc : Layout} {ba bb bc rows cols : List Nat} {K : Nat} {X : List Nat → Nat → Nat → α}
    {Y : List Nat → Nat → Nat → β} (J : Job a b c la lb lc ba bb bc rows cols K X Y) (sa : la.Settled) (sb : lb.Settled)
    (sc : lc.Settled) (hr : ba ≠ [] → bb ≠ [] → ba.length = bb.length)
    (h0 : par = none → rows = [] → cols = [] → lc.offset = 0) (alpha beta : γ) :
    ∃ w c' cell, matmulDevice O par c lc a la b lb alpha beta = .ok w ∧ w.Leaves c c' ∧
      (∀ t i j v, CellWay O K (X t i) (fun p => Y t p j) alpha beta v (cell t i j v)) ∧
      Filled bc rows cols lc cell c c' := by
  have hS := J.shapes
  by_cases h1 : rows = [] ∧ cols = []
  · obtain ⟨rfl, rfl⟩ := h1
    exact rowMajor_inner O par J (fun e => h0 e rfl rfl) alpha beta
  · by_cases h2 : rows ≠ [] ∧ cols ≠ [] ∧ ba = [] ∧ bb = []
    · obtain ⟨e1, e2, rfl, rfl⟩ := h2
      have := broadcastOf_nil_left J.shapes.common
      subst this
      rcases opt_cases J.shapes.rowsLen with rfl | ⟨M, rfl⟩
      · exact absurd rfl e1
      · rcases opt_cases J.shapes.colsLen with rfl | ⟨N, rfl⟩
        · exact absurd rfl e2
        · exact rowMajor_22 O par J alpha beta
    · obtain ⟨cfg, ra, rb, rc, P⟩ := plan_ok sa sb sc J.shapes hr h1 h2
      have da : la.ndim = ba.length + (rows.length + 1) := by rw [ndim_eq hS.left]; simp [glue]
      have db : lb.ndim = bb.length + (cols.length + 1) := by rw [ndim_eq hS.right]; simp [glue]
      have hn1 : ¬ (la.ndim = 1 ∧ lb.ndim = 1) := by
        rintro ⟨e1, e2⟩
        exact h1 ⟨List.length_eq_zero_iff.1 (by omega), List.length_eq_zero_iff.1 (by omega)⟩
      have hn2 : ¬ (la.ndim = 2 ∧ lb.ndim = 2) := by
        rintro ⟨e1, e2⟩
        rcases opt_cases hS.rowsLen with hrw | ⟨M, hrw⟩
        · have := hS.rowVec hrw
          rw [hrw, this] at da
          simp only [List.length_nil] at da
          omega
        · rcases opt_cases hS.colsLen with hcl | ⟨N, hcl⟩
          · have := hS.colVec hcl
            rw [hcl, this] at db
            simp only [List.length_nil] at db
            omega
          · refine h2 ⟨by simp [hrw], by simp [hcl], ?_, ?_⟩
            · rw [hrw] at da
              simp only [List.length_cons, List.length_nil] at da
              exact List.length_eq_zero_iff.1 (by omega)
            · rw [hcl] at db
              simp only [List.length_cons, List.length_nil] at db
              exact List.length_eq_zero_iff.1 (by omega)
      cases par with
      | none =>
        obtain ⟨c', k1, k2⟩ := naive_batch O P J hn1 hn2 alpha beta
        refine ⟨.done c', c', _, ?_, rfl, fun t i j v => serialCell_way O _ _ _ _ _ _, k2⟩
        unfold matmulDevice
        rw [k1]
        rfl
      | some par =>
        obtain ⟨p, c', k1, k2, k3, k4⟩ := par_batch O par (hp par rfl) P J hn1 hn2 alpha beta
        exact ⟨.threads p, c', _, k1, ⟨k2, k3⟩, fun t i j v => parCell_way O _ _ _ _ _ _, k4⟩

/-- The same over a commutative semiring. -/
theorem rowMajor [CommSemiring γ] (mul : α → β → γ) (par : Option MatPar) (hp : MatDevice par) {a : List α} {b : List β}
    {c : List γ} {la lb lc : Layout} {ba bb bc rows cols : List Nat} {K : Nat} {X : List Nat → Nat → Nat → α}
    {Y : List Nat → Nat → Nat → β} (J : Job a b c la lb lc ba bb bc rows cols K X Y) (sa : la.Settled) (sb : lb.Settled)
    (sc : lc.Settled) (hr : ba ≠ [] → bb ≠ [] → ba.length = bb.length)
    (h0 : par = none → rows = [] → cols = [] → lc.offset = 0) (alpha beta : γ) :
    ∃ w c', matmulDevice (ringOps mul) par c lc a la b lb alpha beta = .ok w ∧ w.Leaves c c' ∧
      Filled bc rows cols lc (fun t i j => entry mul K (X t i) (fun p => Y t p j) alpha beta) c c' := by
  obtain ⟨w, c', cell, h1, h2, h3, h4⟩ := rowMajorWay (ringOps mul) par hp J sa sb sc hr h0 alpha beta
  exact ⟨w, c', h1, h2, filled_congr h4 fun t i j v => cellWay_ring (h3 t i j v)⟩

end
end Rstsr
