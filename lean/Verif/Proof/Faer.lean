import Verif.Model.Faer
import Verif.Proof.Blas
/-!
# Lemmas for the device of `faer`
-/
namespace Rstsr
open Spec

section
variable {α β γ : Type}

/-- What a kernel for two matrices has to do, whatever the layouts and sizes. -/
def AnyKernel [CommSemiring γ] (mul : α → β → γ) (gemm : Nat → Layout → Layout → Layout → Res (Proc γ)) (c : List γ) (a : List α)
    (b : List β) (M N K : Nat) (alpha beta : γ) : Prop :=
  ∀ s La Lb Lc (X : Nat → Nat → α) (Y : Nat → Nat → β), Fit [M, K] La → Fit [K, N] Lb → Fit [M, N] Lc → Covers [M, N] Lc c →
    (∀ i < M, ∀ p < K, a[La.pos [i, p]]? = some (X i p)) → (∀ p < K, ∀ j < N, b[Lb.pos [p, j]]? = some (Y p j)) →
    ∃ p, gemm s Lc La Lb = .ok p ∧ Cells [M, N] Lc
      (fun idx => entry mul K (X (idx.getD 0 0)) (fun p => Y p (idx.getD 1 0)) alpha beta) (updates p)

/-- The driver for batches, with any kernel. -/
theorem faer_batch (O : MatOps α β γ) (par : MatPar) (hs : (par.sched 0).Fits) {a : List α} {b : List β} {c : List γ}
    {la lb lc : Layout} {ba bb bc rows cols : List Nat} {K : Nat} {cfg : MatMulCfg} {ra rb rc : Layout}
    (P : PlanAs la lb lc ba bb bc rows cols K cfg ra rb rc) (D : Dest bc rows cols lc c)
    (h1 : ¬ (la.ndim = 1 ∧ lb.ndim = 1)) (h2 : ¬ (la.ndim = 2 ∧ lb.ndim = 2)) (alpha beta : γ)
    {gemm : Nat → Layout → Layout → Layout → Res (Proc γ)} {F : List Nat → List Nat → γ → γ}
    (hg : ∀ t, InRange t bc → ∃ p, gemm (rc.pos t + 1) (cfg.lcM.setOffset (rc.pos t)) (cfg.laM.setOffset (ra.pos t))
      (cfg.lbM.setOffset (rb.pos t)) = .ok p ∧
      Cells [rows.headD 1, cols.headD 1] (cfg.lcM.setOffset (rc.pos t)) (F t) (updates p)) :
    ∃ p c', matmulRowFaer O par gemm c lc a la b lb alpha beta = .ok (.threads p) ∧ Computes p c c' ∧ RaceFree p c ∧
      Filled bc rows cols lc (fun t i j => F t [i, j]) c c' := by
  obtain ⟨i1, i2, i3⟩ := batch_items P
  have hcell : ∀ t, InRange t bc → ∀ i < rows.headD 1, ∀ j < cols.headD 1,
      (cfg.lcM.setOffset (rc.pos t)).pos [i, j] = lc.pos (cellIx rows cols t i j) := by
    intro t ht i hi j hj
    refine pos_of_addr ?_
    rw [P.pc.addr t ht i hi j hj, stretchIndex_self ht]
    rfl
  let g := fun (p : Nat × Nat × Nat) => gemm (p.2.2 + 1) (cfg.lcM.setOffset p.2.2) (cfg.laM.setOffset p.1) (cfg.lbM.setOffset p.2.1)
  let u := fun (p : Nat × Nat × Nat) => match g p with
    | .ok p => updates p
    | .error _ => []
  have hu : ∀ p ∈ (all .F bc).map fun t => (ra.pos t, rb.pos t, rc.pos t), ∃ q, g p = .ok q ∧ updates q = u p := by
    intro p hp
    obtain ⟨t, ht, rfl⟩ := List.mem_map.1 hp
    obtain ⟨q, q1, q2⟩ := hg t (mem_all.1 ht)
    refine ⟨q, q1, ?_⟩
    show updates q = match g _ with | .ok p => updates p | .error _ => []
    rw [show g (ra.pos t, rb.pos t, rc.pos t) = .ok q from q1]
  have key : ∃ p, matmulRowFaer O par gemm c lc a la b lb alpha beta = .ok (.threads p) ∧
      updates p = (all .F bc).flatMap fun t => u (ra.pos t, rb.pos t, rc.pos t) := by
    unfold matmulRowFaer
    split
    · rename_i e1 e2 _; exact absurd ⟨e1, e2⟩ h1
    · rename_i e1 e2 _; exact absurd ⟨e1, e2⟩ h2
    · rw [P.plan, ok_bind]
      simp only [P.ea, P.eb, P.ec]
      by_cases hbig : ra.size > 4 * par.threads
      · have hne : (all .F bc) ≠ [] := by
          intro e
          have := length_all .F bc
          rw [e, ← P.pa.rshape] at this
          simp only [List.length_nil] at this
          rw [Layout.size, ← this] at hbig
          omega
        obtain ⟨x, x1, x2, x3, x4, x5, x6⟩ := iter_of_items i1 (by simpa using hne)
        obtain ⟨y, y1, y2, y3, y4, y5, y6⟩ := iter_of_items i2 (by simpa using hne)
        obtain ⟨z, z1, z2, z3, z4, z5, z6⟩ := iter_of_items i3 (by simpa using hne)
        simp only [x1, y1, z1, ok_bind, if_pos hbig]
        simp only [List.length_map] at x6 y6 z6
        have hm : min x.len (min y.len z.len) = x.len := by omega
        rw [hm]
        obtain ⟨p, p1, p2⟩ := parIter3_ok (g := fun _ p => g p) (u := u) (m := 0) (par.sched 0 x.len 0) x2 x3 x4 y2 y3 y4 z2 z3 z4
          (by omega) (by omega) (hs _ _) (fun _ => by rw [x5, y5, z5, zip3_map]; exact hu)
        refine ⟨p, ?_, ?_⟩
        · rw [show (fun (_ : Plan) (p : Nat × Nat × Nat) => gemm (p.2.2 + 1) (cfg.lcM.setOffset p.2.2) (cfg.laM.setOffset p.1)
            (cfg.lbM.setOffset p.2.1)) = (fun (_ : Plan) p => g p) from rfl, p1]
          rfl
        · rw [p2, x5, y5, z5, zip3_map, List.flatMap_map]
      · obtain ⟨x, x1, x2⟩ := toList_of_items i1
        obtain ⟨y, y1, y2⟩ := toList_of_items i2
        obtain ⟨z, z1, z2⟩ := toList_of_items i3
        simp only [x1, y1, z1, ok_bind, if_neg hbig, x2, y2, z2]
        rw [zip3_map]
        obtain ⟨p, p1, p2⟩ := procLoop_ok hu
        refine ⟨p, ?_, by rw [p2, List.flatMap_map]⟩
        rw [show (fun (p : Nat × Nat × Nat) => gemm (p.2.2 + 1) (cfg.lcM.setOffset p.2.2) (cfg.laM.setOffset p.1)
            (cfg.lbM.setOffset p.2.1)) = g from rfl, p1]
        rfl
  obtain ⟨p, p1, p2⟩ := key
  obtain ⟨c', k1, k2, k3⟩ := cells_filled hcell D (perm_all .F .C bc) (F := F) (fun t ht => by
    obtain ⟨q, q1, q2⟩ := hg t ht
    show Cells _ _ _ (match g _ with | .ok p => updates p | .error _ => [])
    rw [show g (ra.pos t, rb.pos t, rc.pos t) = .ok q from q1]
    exact q2) p2
  exact ⟨p, c', p1, k1, k2, k3⟩

theorem rowFaer [CommSemiring γ] (mul : α → β → γ) (par : MatPar) (hp : (par.sched 0).Fits) {a : List α} {b : List β}
    {c : List γ} {la lb lc : Layout} {ba bb bc rows cols : List Nat} {K : Nat} {X : List Nat → Nat → Nat → α}
    {Y : List Nat → Nat → Nat → β} (J : Job a b c la lb lc ba bb bc rows cols K X Y) (va : la.Valid) (vb : lb.Valid)
    (oa : 0 ≤ la.offset) (ob : 0 ≤ lb.offset) (sa : la.Settled) (sb : lb.Settled)
    (sc : lc.Settled) (hr : ba ≠ [] → bb ≠ [] → ba.length = bb.length) (alpha beta : γ)
    {gemm : Nat → Layout → Layout → Layout → Res (Proc γ)}
    (hK : AnyKernel mul gemm c a b (rows.headD 1) (cols.headD 1) K alpha beta) :
    ∃ w c', matmulRowFaer (ringOps mul) par gemm c lc a la b lb alpha beta = .ok w ∧ w.Leaves c c' ∧
      Filled bc rows cols lc (fun t i j => entry mul K (X t i) (fun p => Y t p j) alpha beta) c c' := by
  have hS := J.shapes
  have ha : la.shape = ba ++ (rows ++ [K]) := hS.left
  have hb : lb.shape = bb ++ (K :: cols) := hS.right
  have hsc : lc.shape = bc ++ (rows ++ cols) := J.dest.fit.shape
  by_cases h1 : rows = [] ∧ cols = []
  · obtain ⟨rfl, rfl⟩ := h1
    obtain ⟨w, c', cell, e1, e2, e0, e3⟩ := rowMajor_inner (ringOps mul) (some par) J (by simp) alpha beta
    refine ⟨w, c', ?_, e2, filled_congr e3 fun t i j v => cellWay_ring (e0 t i j v)⟩
    have e4 := hS.rowVec rfl
    have e5 := hS.colVec rfl
    have e6 := hS.common
    rw [e4, e5] at e6
    have e6 := broadcastOf_nil_left e6
    subst e4 e5 e6
    have na : la.ndim = 1 := by rw [ndim_eq ha]; rfl
    have nb : lb.ndim = 1 := by rw [ndim_eq hb]; rfl
    have nc : lc.ndim = 0 := by rw [ndim_eq hsc]; rfl
    rw [← e1]
    unfold matmulRowFaer matmulDevice matmulPar
    simp only [na, nb, nc]
  · by_cases h2 : rows ≠ [] ∧ cols ≠ [] ∧ ba = [] ∧ bb = []
    · obtain ⟨e1, e2, rfl, rfl⟩ := h2
      have := broadcastOf_nil_left J.shapes.common
      subst this
      rcases opt_cases J.shapes.rowsLen with rfl | ⟨M, rfl⟩
      · exact absurd rfl e1
      · rcases opt_cases J.shapes.colsLen with rfl | ⟨N, rfl⟩
        · exact absurd rfl e2
        · have B := J.batches22
          have na : la.ndim = 2 := by rw [ndim_eq J.shapes.left]; rfl
          have nb : lb.ndim = 2 := by rw [ndim_eq J.shapes.right]; rfl
          have nc : lc.ndim = 2 := by rw [ndim_eq J.shapes.out]; rfl
          obtain ⟨p, p1, p2⟩ := hK 1 la lb lc (X []) (Y []) ⟨va, oa, ha⟩ ⟨vb, ob, hb⟩ J.dest.fit J.dest.covers
            (fun i hi p hp => ((B.mats [] (by simp)).xa i hi p hp).2) (fun p hp j hj => ((B.mats [] (by simp)).yb p hp j hj).2)
          obtain ⟨c', k1, k2, k3⟩ := cells_filled (T := [[]]) (Lc := fun _ => lc) (U := fun _ => updates p) B.cells J.dest
            (List.Perm.refl _)
            (F := fun t idx => entry mul K (X t (idx.getD 0 0)) (fun p => Y t p (idx.getD 1 0)) alpha beta)
            (fun t ht => by
              have e : t = [] := by simpa using ht.length_eq
              subst e; exact p2) (p := p) (by simp)
          refine ⟨.threads p, c', ?_, ⟨k1, k2⟩, k3⟩
          unfold matmulRowFaer
          simp only [na, nb, nc, p1]
          rfl
    · obtain ⟨cfg, ra, rb, rc, P⟩ := plan_ok sa sb sc J.shapes hr h1 h2
      have da : la.ndim = ba.length + (rows.length + 1) := by rw [ndim_eq hS.left]; simp [glue]
      have db : lb.ndim = bb.length + (cols.length + 1) := by rw [ndim_eq hS.right]; simp [glue]
      have hn1 : ¬ (la.ndim = 1 ∧ lb.ndim = 1) := by
        rintro ⟨e1, e2⟩
        exact h1 ⟨List.length_eq_zero_iff.1 (by omega), List.length_eq_zero_iff.1 (by omega)⟩
      have hn2 : ¬ (la.ndim = 2 ∧ lb.ndim = 2) := by
        rintro ⟨e1, e2⟩
        rcases opt_cases hS.rowsLen with hrw | ⟨M, hrw⟩
        · have := hS.rowVec hrw
          rw [hrw, this] at da
          simp only [List.length_nil] at da
          omega
        · rcases opt_cases hS.colsLen with hcl | ⟨N, hcl⟩
          · have := hS.colVec hcl
            rw [hcl, this] at db
            simp only [List.length_nil] at db
            omega
          · refine h2 ⟨by simp [hrw], by simp [hcl], ?_, ?_⟩
            · rw [hrw] at da
              simp only [List.length_cons, List.length_nil] at da
              exact List.length_eq_zero_iff.1 (by omega)
            · rw [hcl] at db
              simp only [List.length_cons, List.length_nil] at db
              exact List.length_eq_zero_iff.1 (by omega)
      have B := P.batches J
      obtain ⟨p, c', k1, k2, k3, k4⟩ := faer_batch (ringOps mul) par hp (a := a) (b := b) P J.dest hn1 hn2 alpha beta (gemm := gemm)
        (F := fun t idx => entry mul K (X t (idx.getD 0 0)) (fun p => Y t p (idx.getD 1 0)) alpha beta) (fun t ht => by
          refine hK _ _ _ _ (X t) (Y t) ?_ ?_ ?_ ?_ (fun i hi p hp => ((B.mats t ht).xa i hi p hp).2)
            (fun p hp j hj => ((B.mats t ht).yb p hp j hj).2)
          · exact P.pa.fit ht va (fun e1 e2 => by rw [ha]; exact zero_not_mem_left hS.common ht hS.rowsLen e1 e2)
              fun i hi p hp => (J.xs t ht i hi p hp).1
          · exact P.pb.fit ht vb (fun e1 e2 => by rw [hb]; exact zero_not_mem_right hS.common ht hS.colsLen e2 e1)
              fun p hp j hj => (J.ys t ht p hp j hj).1
          · refine P.pc.fit ht J.dest.fit.valid (fun e1 e2 => ?_) fun i hi j hj => ?_
            · rw [hsc]
              have hi := inRange_cell J.dest.rl J.dest.cl ht (Nat.pos_of_ne_zero e1) (Nat.pos_of_ne_zero e2)
              exact fun hz => absurd (hi.pos 0 hz) (by omega)
            · rw [stretchIndex_self ht]
              exact J.dest.fit.nonneg _ (inRange_cell J.dest.rl J.dest.cl ht hi hj)
          · intro idx hi
            obtain ⟨i, j, rfl, hi, hj⟩ := of_inRange2 hi
            rw [B.cells t ht i hi j hj]
            exact J.dest.covers _ (inRange_cell J.dest.rl J.dest.cl ht hi hj))
      exact ⟨.threads p, c', k1, ⟨k2, k3⟩, k4⟩

/-! ## Kernels -/

theorem naive_any [CommSemiring γ] (mul : α → β → γ) (sched : Nat → Scheduler) (c : List γ) (a : List α) (b : List β) (M N K : Nat)
    (alpha beta : γ) :
    AnyKernel mul (fun s lc la lb => gemmNaivePar (ringOps mul) (sched s) lc a la b lb alpha beta) c a b M N K alpha beta := by
  intro s La Lb Lc X Y fa fb fc _ hX hY
  obtain ⟨p, p1, p2⟩ := gemmNaivePar_ok (ringOps mul) (sched s) (a := a) (b := b) (m := M) (n := N) (k := K) (la := La) (lb := Lb)
    (lc := Lc) (X := X) (Y := Y) ⟨fa.shape, fb.shape, fc.shape, fun i hi p hp => ⟨fa.nonneg _ (inRange2.2 ⟨hi, hp⟩), hX i hi p hp⟩,
      fun p hp j hj => ⟨fb.nonneg _ (inRange2.2 ⟨hp, hj⟩), hY p hp j hj⟩, fun i hi j hj => fc.nonneg _ (inRange2.2 ⟨hi, hj⟩)⟩ alpha beta
  refine ⟨p, p1, colPairs N fun _ => List.range M, nodup_colPairs fun _ _ => List.nodup_range, ?_, ?_⟩
  · intro idx
    rw [mem_colPairs]
    constructor
    · rintro ⟨i, j, rfl, hj, hi⟩
      exact inRange2.2 ⟨List.mem_range.1 hi, hj⟩
    · intro hi
      obtain ⟨i, j, rfl, h1, h2⟩ := of_inRange2 hi
      exact ⟨i, j, rfl, h2, List.mem_range.2 h1⟩
  · rw [p2]
    unfold gemmParU colPairs
    rw [List.map_flatMap]
    refine List.flatMap_congr fun j _ => ?_
    rw [List.map_map, List.map_eq_flatMap]
    refine List.flatMap_congr fun i _ => ?_
    simp only [Function.comp_apply, List.getD_cons_zero, List.getD_cons_succ]
    congr 2
    funext v
    exact parCell_ring mul K _ _ _ _ v

section
variable (O : MatOps γ γ γ) {a b : List γ} {m n k : Nat} {la lb lc : Layout} {X Y : Nat → Nat → γ}

theorem faerSum_ok (h : OneProduct a b m n k la lb lc X Y) {i j : Nat} (hi : i < m) (hj : j < n) :
    faerSum O k a la b lb i j = .ok (dotOf O k X Y i j) := by
  unfold faerSum
  refine foldRes_dot O (x := X i) (y := fun p => Y p j) (fun p hp => ?_) _
  rw [List.mem_range] at hp
  exact ⟨_, _, rfl, rfl, h.fa.nonneg _ (inRange2.2 ⟨hi, hp⟩), h.fb.nonneg _ (inRange2.2 ⟨hp, hj⟩), h.xa i hi p hp, h.yb p hp j hj⟩

theorem faerUpd_ok (hf : Fit [m, n] lc) {i j : Nat} (hi : i < m) (hj : j < n) (f : γ → γ) : faerUpd lc i j f = .ok (lc.pos [i, j], f) := by
  unfold faerUpd
  rw [if_neg (by have := hf.nonneg _ (inRange2.2 ⟨hi, hj⟩); omega)]
  rfl

theorem faerMatmul_ok (h : OneProduct a b m n k la lb lc X Y) (acc : Accum) (alpha : γ) :
    faerMatmul O acc lc a la b lb alpha = .ok ((colPairs n fun _ => List.range m).map fun idx =>
      (lc.pos idx, faerCell O acc alpha (dotOf O k X Y (idx.getD 0 0) (idx.getD 1 0)))) := by
  unfold faerMatmul
  simp only [Layout.dimAt, h.fa.shape, h.fc.shape, List.getD_cons_zero, List.getD_cons_succ]
  refine loops_ok (g := fun i j => do
    let sum ← faerSum O k a la b lb i j
    faerUpd lc i j (faerCell O acc alpha sum)) fun j hj i hi => ?_
  rw [List.mem_range] at hi
  rw [faerSum_ok O h hi hj, ok_bind, faerUpd_ok h.fc hi hj]
  rfl

theorem cells_full (F : List Nat → γ → γ) : Cells [m, n] lc F ((colPairs n fun _ => List.range m).map fun idx => (lc.pos idx, F idx)) := by
  refine ⟨_, nodup_colPairs fun _ _ => List.nodup_range, fun idx => ?_, rfl⟩
  rw [mem_colPairs]
  constructor
  · rintro ⟨i, j, rfl, hj, hi⟩
    exact inRange2.2 ⟨List.mem_range.1 hi, hj⟩
  · intro hi
    obtain ⟨i, j, rfl, h1, h2⟩ := of_inRange2 hi
    exact ⟨i, j, rfl, h2, List.mem_range.2 h1⟩

/-- What `gemm_faer` does to the entry `idx`. -/
def faerEntry [DecidableEq γ] (O : MatOps γ γ γ) (one : γ) (alpha beta sum v : γ) : γ :=
  if beta = O.zero then O.times alpha sum
  else if beta = one then O.plus v (O.times alpha sum)
  else O.plus (O.times v beta) (O.times alpha sum)

theorem gemmFaer_ok [DecidableEq γ] (one : γ) (dflt : Order) {c : List γ} (h : OneProduct a b m n k la lb lc X Y) (hcov : Covers [m, n] lc c)
    (alpha beta : γ) : ∃ U, gemmFaer O one dflt c lc a la b lb alpha beta = .ok U ∧
      Cells [m, n] lc (fun idx => faerEntry O one alpha beta (dotOf O k X Y (idx.getD 0 0) (idx.getD 1 0))) U := by
  unfold gemmFaer
  have e1 : lc.dimAt 0 = la.dimAt 0 := by simp only [Layout.dimAt, h.fa.shape, h.fc.shape, List.getD_cons_zero]
  have e2 : la.dimAt 1 = lb.dimAt 0 := by simp only [Layout.dimAt, h.fa.shape, h.fb.shape, List.getD_cons_zero, List.getD_cons_succ]
  have e3 : lc.dimAt 1 = lb.dimAt 1 := by simp only [Layout.dimAt, h.fb.shape, h.fc.shape, List.getD_cons_zero, List.getD_cons_succ]
  rw [if_neg (not_not.2 e1), if_neg (not_not.2 e2), if_neg (not_not.2 e3)]
  by_cases b0 : beta = O.zero
  · rw [if_pos b0]
    refine ⟨_, faerMatmul_ok O h .replace alpha, (cells_full _).congr fun idx _ => ?_⟩
    funext v
    rw [faerEntry, if_pos b0]; rfl
  · rw [if_neg b0]
    by_cases b1 : beta = one
    · rw [if_pos b1]
      refine ⟨_, faerMatmul_ok O h .add alpha, (cells_full _).congr fun idx _ => ?_⟩
      funext v
      rw [faerEntry, if_neg b0, if_pos b1]; rfl
    · rw [if_neg b1]
      obtain ⟨ps, p1, p2, p3⟩ := opMuta_eq dflt h.fc c fun v => O.times v beta
      obtain ⟨c', r1, -⟩ := runAll_modify (fun i : Nat => i) (fun _ v => O.times v beta) ps c (fun i hi => by
        obtain ⟨idx, hidx, rfl⟩ := (p2 i).1 hi
        exact hcov idx hidx) (by simpa using p1)
      refine ⟨_, ?_, cells_full _⟩
      simp only [p3, r1, ok_bind, faerMatmul_ok O h .add alpha]
      rw [show ∀ x : List (Nat × (γ → γ)), (pure x : Res _) = .ok x from fun _ => rfl, List.map_map]
      congr 1
      refine List.map_congr_left fun idx _ => ?_
      simp only [Function.comp_apply]
      congr 1
      funext v
      rw [faerEntry, if_neg b0, if_neg b1]; rfl

theorem gemmWithSyrkFaer_ok (hc : ∀ x y, O.mul x y = O.mul y x) (h : OwnProduct a n k la lc X) (alpha : γ) :
    ∃ U, gemmWithSyrkFaer O lc a la alpha = .ok U ∧
      Cells [n, n] lc (fun idx _ => O.times alpha (dotOf O k X (fun p j => X j p) (idx.getD 0 0) (idx.getD 1 0))) U := by
  have h' : OneProduct a a n n k la la.reverseAxes lc X fun p j => X j p := by
    refine ⟨h.fa, h.fa.rev, h.fc, h.xa, fun p hp j hj => ?_⟩
    rw [rev_pos (by rw [ndim_eq h.fa.shape]; rfl)]
    exact h.xa j hj p hp
  have hlow : syrkFaer O lc a la alpha = .ok ((colPairs n fun j => (List.range n).filter fun i => j ≤ i).map fun idx =>
      (lc.pos idx, fun _ => O.times alpha (dotOf O k X (fun p j => X j p) (idx.getD 0 0) (idx.getD 1 0)))) := by
    unfold syrkFaer faerTriangular
    simp only [Layout.dimAt, h.fa.shape, h.fc.shape, List.getD_cons_zero, List.getD_cons_succ, ne_eq, not_true_eq_false, if_false]
    refine loops_ok (g := fun i j => do
      let sum ← faerSum O k a la a la.reverseAxes i j
      faerUpd lc i j (faerCell O .replace alpha sum)) fun j hj i hi => ?_
    simp only [List.mem_filter, List.mem_range, decide_eq_true_eq] at hi
    rw [faerSum_ok O h' hi.1 hj, ok_bind, faerUpd_ok h.fc hi.1 hj]
    rfl
  have hup : (List.flatten <$> (List.range (lc.dimAt 0)).mapM fun i => (List.range i).mapM fun j => do
      let sum ← faerSum O (la.dimAt 1) a la a la.reverseAxes i j
      faerUpd lc j i fun _ => O.times alpha sum) = .ok ((colPairs n fun j => List.range j).map fun idx =>
      (lc.pos idx, fun _ => O.times alpha (dotOf O k X (fun p j => X j p) (idx.getD 0 0) (idx.getD 1 0)))) := by
    simp only [Layout.dimAt, h.fa.shape, h.fc.shape, List.getD_cons_zero, List.getD_cons_succ]
    refine loops_ok (g := fun j i => do
      let sum ← faerSum O k a la a la.reverseAxes i j
      faerUpd lc j i fun _ => O.times alpha sum) fun i hi j hj => ?_
    rw [List.mem_range] at hj
    rw [faerSum_ok O h' hi (by omega), ok_bind, faerUpd_ok h.fc (by omega) hi]
    congr 2
    funext v
    show O.times alpha (dotOf O k X (fun p j => X j p) i j) = O.times alpha (dotOf O k X (fun p j => X j p) j i)
    unfold dotOf
    simp only [hc]
  unfold gemmWithSyrkFaer
  simp only [hlow, ok_bind, hup]
  refine ⟨_, rfl, _ ++ _, ?_, ?_, (List.map_append ..).symm⟩
  · refine (nodup_colPairs fun _ _ => List.nodup_range.filter _).append (nodup_colPairs fun _ _ => List.nodup_range) ?_
    intro idx h1 h2
    obtain ⟨i, j, rfl, -, hi⟩ := mem_colPairs.1 h1
    obtain ⟨i', j', e, -, hi'⟩ := mem_colPairs.1 h2
    simp only [List.cons.injEq, and_true] at e
    simp only [List.mem_filter, List.mem_range, decide_eq_true_eq] at hi hi'
    omega
  · intro idx
    rw [List.mem_append, mem_colPairs, mem_colPairs]
    constructor
    · rintro (⟨i, j, rfl, hj, hi⟩ | ⟨i, j, rfl, hj, hi⟩) <;>
        simp only [List.mem_filter, List.mem_range, decide_eq_true_eq] at hi <;> exact inRange2.2 (by omega)
    · intro hi
      obtain ⟨i, j, rfl, h1, h2⟩ := of_inRange2 hi
      by_cases e : j ≤ i
      · exact .inl ⟨i, j, rfl, h2, by simp only [List.mem_filter, List.mem_range, decide_eq_true_eq]; omega⟩
      · exact .inr ⟨i, j, rfl, h2, List.mem_range.2 (by omega)⟩

end

theorem faer_any [CommSemiring γ] [DecidableEq γ] (dflt : Order) {same : Bool} {c a b : List γ} (hab : same = true → a = b) (M N K : Nat)
    (alpha beta : γ) :
    AnyKernel (· * ·) (fun _ lc la lb => faerDispatch (ringOps (· * ·)) 1 dflt same c lc a la b lb alpha beta) c a b M N K alpha beta := by
  intro s la lb lc X Y fa fb fc hcov hX hY
  have h : OneProduct a b M N K la lb lc X Y := ⟨fa, fb, fc, hX, hY⟩
  have hd : ∀ (Y : Nat → Nat → γ) i j, dotOf (ringOps (γ := γ) (· * ·)) K X Y i j = ((List.range K).map fun p => X i p * Y p j).sum := by
    intro Y i j
    show (List.range K).foldl (fun (acc : γ) p => acc + X i p * Y p j) 0 = _
    rw [foldl_add_sum, zero_add]
  have run : ∀ U : List (Nat × (γ → γ)), ∃ p : Proc γ, procLoop (fun u => .ok (.upd u.1 u.2)) U = .ok p ∧ updates p = U := by
    intro U
    obtain ⟨p, p1, p2⟩ := procLoop_ok (g := fun u : Nat × (γ → γ) => .ok (.upd u.1 u.2)) (u := fun u => [u])
      (xs := U) (fun u _ => ⟨_, rfl, rfl⟩)
    exact ⟨p, p1, by rw [p2]; simp⟩
  show ∃ p, faerDispatch (ringOps (· * ·)) 1 dflt same c lc a la b lb alpha beta = .ok p ∧ _
  unfold faerDispatch
  by_cases hs : (decide (beta = (ringOps (γ := γ) (· * ·)).zero) && same && decide (la.offset = lb.offset) &&
    decide (la.shape = lb.reverseAxes.shape) && decide (la.stride = lb.reverseAxes.stride)) = true
  · simp only [hs, if_true]
    simp only [Bool.and_eq_true, decide_eq_true_eq] at hs
    obtain ⟨⟨⟨⟨hb, hsame⟩, ho⟩, hsh⟩, hst⟩ := hs
    have hb : beta = 0 := hb
    obtain rfl := hab hsame
    have hl : la = lb.reverseAxes := layout_ext hsh hst ho
    have hmn : M = N := by
      have := h.fa.shape
      rw [hl, rev_shape, h.fb.shape] at this
      simpa [eq_comm] using this
    subst hmn
    have hXY : ∀ i < M, ∀ p < K, Y p i = X i p := by
      intro i hi p hp
      have h1 := h.xa i hi p hp
      have h2 := h.yb p hp i hi
      rw [hl, rev_pos (by rw [ndim_eq h.fb.shape]; rfl)] at h1
      simp only [List.reverse_cons, List.reverse_nil, List.nil_append, List.cons_append] at h1
      rw [h1] at h2
      exact (Option.some_inj.1 h2).symm
    obtain ⟨U, h1, h2⟩ := gemmWithSyrkFaer_ok (ringOps (γ := γ) (· * ·)) (fun x y => mul_comm x y) ⟨h.fa, h.fc, h.xa⟩ alpha
    obtain ⟨p, p1, rfl⟩ := run U
    refine ⟨p, by rw [h1, ok_bind, p1], h2.congr fun idx hi => ?_⟩
    obtain ⟨i, j, rfl, e1, e2⟩ := of_inRange2 hi
    funext v
    rw [hd]
    simp only [List.getD_cons_zero, List.getD_cons_succ]
    rw [entry, hb, zero_mul, zero_add]
    show alpha * _ = alpha * _
    congr 2
    refine List.map_congr_left fun p hp => ?_
    rw [hXY j e2 p (List.mem_range.1 hp)]
  · simp only [hs, Bool.false_eq_true, if_false]
    obtain ⟨U, h1, h2⟩ := gemmFaer_ok (ringOps (γ := γ) (· * ·)) 1 dflt h hcov alpha beta
    obtain ⟨p, p1, rfl⟩ := run U
    refine ⟨p, by rw [h1, ok_bind, p1], h2.congr fun idx _ => ?_⟩
    funext v
    rw [hd, faerEntry, entry]
    split
    · rename_i e
      have e : beta = 0 := e
      rw [e, zero_mul, zero_add]; rfl
    · split
      · rename_i e
        rw [e, one_mul]; rfl
      · rw [mul_comm beta v]; rfl

end
end Rstsr
