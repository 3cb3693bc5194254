import Verif.Model.ProgramPar
import Verif.Thm.Program
import Verif.Thm.Parallel
import Verif.Thm.GatherPar
/-!
# C106: programs on the parallel device
-/
namespace Rstsr
open Spec

/-- What is asked of a parallel device: its schedules divide loops within their ranges and do not divide empty
loops, and threads that never race and always end with the same storage leave that storage. -/
structure ParDev.Sound (d : ParDev) : Prop where
  fits : ∀ k, (d.sched k).Fits
  empty : ∀ k, (d.sched k).Lazy
  mat : (d.mat.sched 0).Fits
  runs : ∀ γ : Type, RunsThreads (d.exec γ)

section
variable {α β γ : Type}

theorem SameAsSerial.finish {large safe : Prop} {c : List γ} {serial : Res (List γ)} {par : Res (Work γ)}
    (h : SameAsSerial large safe c serial par) (hs : safe) {d : ParDev} (hd : d.Sound) : d.finish c par = serial := by
  obtain ⟨T, h1, h2, h3⟩ := h
  unfold ParDev.finish
  by_cases hl : large
  · obtain ⟨p, p1, p2, p3⟩ := h3 hl
    rw [p1, ok_bind, h1]
    exact hd.runs γ p c T p2 (p3 hs)
  · rw [h2 hl, ok_bind, h1]
    rfl

/-- The two-operand kernel on a destination without shared cells. -/
theorem update_same (dflt : Order) {d : ParDev} (hd : d.Sound) {s : List Nat} {lc la : Layout} (fc : Fit s lc)
    (fa : Fit s la) {c : List γ} {a : List α} (cc : Covers s lc c) (ca : Covers s la a)
    (hinj : ∀ i j, InRange i s → InRange j s → lc.pos i = lc.pos j → i = j) (f : γ → α → γ) :
    d.finish c (opMutaRefbPar dflt d.pool (d.sched 0) c lc a la f) = opMutaRefb dflt c lc a la f := by
  refine SameAsSerial.finish (large := 4096 ≤ lc.size ∧ d.pool = true) (safe := True) ?_ trivial hd
  obtain ⟨T, h1, h2, h3, h4⟩ := modify2 dflt fc fa cc ca hinj f
  refine ⟨T, h1, ?_, ?_⟩
  · intro hn
    unfold opMutaRefbPar
    rw [if_pos (by unfold opParSwitch; by_cases h : d.pool = true <;> simp_all), h1]
    rfl
  · rintro ⟨hl, hp⟩
    rw [hp]
    obtain ⟨e, p, he, p1, p2⟩ := opMutaRefbPar_updates dflt fc fa c ca f (hd.fits 0) (by unfold opParSwitch; omega)
    refine ⟨p, p1, computes_of_way (one := fun _ => True) (by
      rw [p2]; exact way2_modify cc ca hinj he h2 h3 h4), fun _ => raceFree_of_nodup ?_⟩
    rw [p2, u2_fst ca fun i hi => mem_all.1 (he.mem_iff.1 hi)]
    exact nodup_pos he hinj

/-- The three-operand kernel on a destination without shared cells. -/
theorem combine_same (dflt : Order) {d : ParDev} (hd : d.Sound) {s : List Nat} {lc la lb : Layout} (fc : Fit s lc)
    (fa : Fit s la) (fb : Fit s lb) {c : List γ} {a : List α} {b : List β} (cc : Covers s lc c) (ca : Covers s la a)
    (cb : Covers s lb b) (hinj : ∀ i j, InRange i s → InRange j s → lc.pos i = lc.pos j → i = j) (w : α → β → γ) :
    d.finish c (opMutcRefaRefbPar dflt d.pool (d.sched 0) c lc a la b lb fun _ x y => w x y) =
      opMutcRefaRefb dflt c lc a la b lb fun _ x y => w x y := by
  refine SameAsSerial.finish (large := 4096 ≤ lc.size ∧ d.pool = true) (safe := True) ?_ trivial hd
  obtain ⟨T, h1, h2, h3, h4⟩ := write3 dflt fc fa fb cc ca cb
    (fun i j hi hj e => by rw [hinj i j hi hj e]; exact ⟨rfl, rfl⟩) w
  refine ⟨T, h1, ?_, ?_⟩
  · intro hn
    unfold opMutcRefaRefbPar
    rw [if_pos (by unfold opParSwitch; by_cases h : d.pool = true <;> simp_all), h1]
    rfl
  · rintro ⟨hl, hp⟩
    rw [hp]
    obtain ⟨e, p, he, p1, p2⟩ := opMutcRefaRefbPar_updates dflt fc fa fb c ca cb (fun (_ : γ) x y => w x y) (hd.fits 0)
      (by unfold opParSwitch; omega)
    refine ⟨p, p1, computes_of_way (one := fun _ => False) (by rw [p2]; exact way3_write cc ca cb he h2 h3 h4),
      fun _ => raceFree_of_nodup ?_⟩
    rw [p2, u3_fst ca cb fun i hi => mem_all.1 (he.mem_iff.1 hi)]
    exact nodup_pos he hinj

end

section
variable {α : Type} {d : ParDev} (hd : d.Sound)
include hd

theorem fillF_same (o : Order) (a : Tensor α) (ha : a.WF) (x : α) : d.fillF o a x = Tensor.fillF o a x := by
  unfold ParDev.fillF Tensor.fillF
  split
  · rfl
  · rw [(C37_fill o d.pool (d.sched 0) (hd.fits 0) a ha x).finish trivial hd]

theorem mapInplace_same (o : Order) (a : Tensor α) (ha : a.WF) (f : α → α) :
    d.mapInplace o a f = Tensor.mapInplace o a f := by
  obtain ⟨g, p, hg, -, hmem⟩ := greedy_drop_positions (valid_iff.1 ha.fit.valid) .C .C
  have hsub : ∀ j, InRange j g.shape → ∃ i, InRange i a.layout.shape ∧ g.addr j = a.layout.addr i := by
    intro j hj
    obtain ⟨i, hi, e⟩ := List.mem_map.1 ((hmem _).1 (List.mem_map_of_mem (mem_all.2 hj)))
    exact ⟨i, mem_all.1 hi, e.symm⟩
  have hoff : g.offset = a.layout.offset := by
    by_cases hs : a.layout.size = 0
    · rw [greedy_zero _ hs] at hg; cases hg; rfl
    · obtain ⟨p', -, h⟩ := greedy_drop hs
      rw [h] at hg; cases hg; rfl
  have hgood : Good g := by
    by_cases hs : a.layout.size = 0
    · rw [greedy_zero _ hs] at hg; cases hg; exact ha.good
    · refine good_of_sub ha.good hsub fun hz _ => ?_
      obtain ⟨p', hp, h⟩ := greedy_drop hs
      rw [h] at hg; cases hg
      exact noOverlap_dropStill ((ha.good.resolve_left hz).2.perm (pick_perm hp))
  obtain ⟨_, _, _, _, hao⟩ := WF_bounds ha
  have hw : (⟨a.data, g⟩ : Tensor α).WF := wf_of_sub ha hgood hsub (hoff ▸ ha.1) (fun _ => hoff ▸ hao)
  unfold ParDev.mapInplace Tensor.mapInplace
  have := (C37_map_inplace o d.pool (d.sched 0) (hd.fits 0) _ hw f).finish trivial hd
  simp only at this
  simp only [hg, ok_bind, this]

theorem assignNum_same (o : Order) (a : Tensor α) (ha : a.WF) (x : α) (f : α → α → α) :
    d.assignNum o a x f = Tensor.assignNum o a x f := by
  unfold ParDev.assignNum Tensor.assignNum opMutaNumb
  rw [(C37_map_inplace o d.pool (d.sched 0) (hd.fits 0) a ha fun v => f v x).finish trivial hd]

theorem assignF_same (o : Order) (fixed : Bool) (a b : Tensor α) (ha : a.WF) (hb : b.WF)
    (h : BroadcastOf o a.arr.shape b.arr.shape a.arr.shape) : d.assignF o fixed a b = Tensor.assignF o fixed a b id := by
  unfold ParDev.assignF Tensor.assignF
  split
  · rfl
  · rename_i hbr
    obtain ⟨lb, g⟩ := toFirst_ok (l1 := a.layout) (l2 := b.layout) h
    obtain ⟨-, fa, fb, ca, cb, -, -⟩ := bc_facts ha hb g
    simp only [g, ok_bind]
    rw [assignRun_eq o d.pool (hd.fits 0) (hd.runs α) fa.fits fb.fits ca cb (fun i j hi hj e =>
      pos_inj ha.fit (by simpa using hbr) hi hj e) id]

theorem assignOp_same (o : Order) (a b : Tensor α) (ha : a.WF) (hb : b.WF) (hi : a.Distinct) (f : α → α → α)
    (h : BroadcastOf o a.arr.shape b.arr.shape a.arr.shape) : d.assignOp o a b f = Tensor.assignOp o a b f := by
  unfold ParDev.assignOp Tensor.assignOp
  obtain ⟨lb, g⟩ := toFirst_ok (l1 := a.layout) (l2 := b.layout) h
  obtain ⟨-, fa, fb, ca, cb, -, -⟩ := bc_facts ha hb g
  simp only [g, ok_bind]
  rw [update_same o hd fa fb ca cb (fun i j h1 h2 e => hi.pos_inj ha h1 h2 e) f]

omit hd in
theorem build_congr {γ : Type} {lc : Layout} (hl : Dense lc) {k k' : List (Option γ) → Res (List (Option γ))}
    (h : ∀ c, Covers lc.shape lc c → k c = k' c) : Tensor.build lc k = Tensor.build lc k' := by
  obtain ⟨-, n, hb, hlt, -⟩ := hl.spec
  unfold Tensor.build
  simp only [hb, ok_bind]
  rw [h _ fun i hi => by simpa [uninit] using hlt i hi]

theorem map_same (o : Order) (a : Tensor α) (ha : a.WF) (f : α → α) : d.map o a f = Tensor.map o a f := by
  obtain ⟨m, e1, e2, e3, e4⟩ := forArrayCopy_spec o ha.fit.valid .K (by simp)
  unfold ParDev.map Tensor.map
  rw [e1, ok_bind, ok_bind]
  refine build_congr e3 fun c hc => ?_
  rw [e2] at hc
  exact update_same o hd (e3.fit e2) ha.fit hc ha.covers
    (fun i j hi hj e => dense_inj e3 (fun hz => e4 (e2 ▸ hz)) (e2 ▸ hi) (e2 ▸ hj) e) _

theorem binary_same (o : Order) (a b : Tensor α) (ha : a.WF) (hb : b.WF) (da : a.Distinct) (db : b.Distinct)
    (f : α → α → α) (hc : Compatible o a.arr.shape b.arr.shape) : d.binary o a b f = Tensor.binary o a b f := by
  obtain ⟨⟨la, lb⟩, h⟩ := (C17_accept_iff a.layout b.layout o).2 hc
  obtain ⟨-, fa, fb, ca, cb, -, -⟩ := bc_facts ha hb h
  obtain ⟨g1, g2, g3⟩ := C17_broadcast_layout _ _ _ _ _ h
  obtain ⟨m, q1, q2, q3, q4⟩ := forBinaryOp_spec (fa.shape.trans fb.shape.symm) o
  unfold ParDev.binary Tensor.binary
  simp only [h, ok_bind, q1]
  refine build_congr q3 fun c hc => ?_
  rw [q2] at hc
  refine combine_same o hd (q3.fit q2) fa fb hc ca cb (fun i j hi hj e => ?_) _
  obtain ⟨e1, e2⟩ := q4 i j hi hj e
  obtain ⟨⟨a1, a2⟩, b1, b2⟩ := g3 i hi
  obtain ⟨⟨a3, a4⟩, b3, b4⟩ := g3 j hj
  refine stretch_both g1 hi hj (da.pos_inj ha a1 a3 ?_) (db.pos_inj hb b1 b3 ?_)
  · unfold Layout.pos at e1 ⊢; rw [← a2, ← a4]; exact e1
  · unfold Layout.pos at e2 ⊢; rw [← b2, ← b4]; exact e2

theorem changeShape_same (o : Order) (a : Tensor α) (ha : a.WF) (shape : List Nat) :
    d.changeShape a (shape.map Int.ofNat) o = a.changeShape (shape.map Int.ofNat) o none := by
  unfold ParDev.changeShape Tensor.changeShape
  rw [subst_self shape a.layout.size, ok_bind, ok_bind, if_neg (by simp)]
  cases hr : a.layout.reshapeable shape o with
  | error e => rfl
  | ok q =>
    cases q with
    | some m => rfl
    | none =>
      simp only [ok_bind]
      rw [if_neg (by simp)]
      have hq : a.layout.size = shape.prod ∧ a.layout.size ≠ 0 := by
        unfold Layout.reshapeable at hr
        obtain ⟨q, h1, h2⟩ := bind_ok.1 hr
        unfold Layout.quickCheck at h1
        split at h1
        · cases h1
        · rename_i h3
          split at h1
          · cases hn : Layout.new shape (shape.map fun _ => 1) a.layout.offset with
            | error e => rw [hn] at h1; cases h1
            | ok l => rw [hn] at h1; cases h1; cases h2
          · rename_i h4
            push Not at h3 h4
            exact ⟨h3, h4.1⟩
      have hz : 0 ∉ shape := fun h0 => hq.2 (hq.1.trans (prod_eq_zero_of h0))
      have key : ∀ l : Layout, l.shape = shape → Tight l l.size → (∀ x ∈ l.axes, x.str ≠ 0) →
          d.finish (uninit l.size) (assignArbitraryPar o d.pool (d.sched 0) (uninit l.size) l a.data a.layout o some) =
            assignArbitrary o (uninit l.size) l a.data a.layout o (some : α → Option α) := by
        intro l hs ht hn
        obtain ⟨large, -, hS⟩ := C37_copy o o d.pool (d.sched 0) (hd.fits 0) (⟨uninit l.size, l⟩ : Tensor (Option α)) a
          (ht.wf (by simp [uninit])) ha (by
            show l.size = a.layout.size
            rw [hq.1, ← hs]; rfl) (fun h0 => by
              obtain ⟨x, hx, e⟩ := List.mem_map.1 h0
              exact hn x hx e) some
        exact hS.finish trivial hd
      cases o with
      | C =>
        simp only
        rw [key _ (shape_newCContig _ _) (tight_newC shape) (newCContig_nonzero shape hz)]
      | F =>
        simp only
        rw [key _ (shape_newFContig _ _) (tight_newF shape) (newFContig_nonzero shape hz)]

theorem intoOwned_same (o : Order) (a : Tensor α) (ha : a.WF) : d.intoOwned o a = Tensor.intoOwned o a := by
  unfold ParDev.intoOwned Tensor.intoOwned
  cases a.layout.boundsIndex with
  | error e => rfl
  | ok b =>
    simp only [ok_bind]
    split
    · rfl
    · obtain ⟨m, e1, e2, e3, e4⟩ := forArrayCopy_spec o ha.fit.valid .K (by simp)
      have ht := e3.tight fun hz => e4 (e2 ▸ hz)
      unfold Tensor.asarray
      rw [e1, ok_bind, ok_bind, assignRun_eq o d.pool (hd.fits 0) (hd.runs (Option α)) (s := a.layout.shape) (e3.fit e2).fits ha.fit.fits
        (fun i hi => by simpa [uninit] using ht.lt i (e2 ▸ hi)) ha.covers
        (fun i j hi hj e => ht.inj i j (e2 ▸ hi) (e2 ▸ hj) e) some]

omit hd in
/-- Tensors that fill their storage and hold the same elements are the same. -/
theorem tight_data {l : Layout} {n : Nat} (h : Tight l n) {a b : List α} (ha : a.length = n) (hb : b.length = n)
    (he : ∀ i, InRange i l.shape → (⟨a, l⟩ : Tensor α).arr.elem i = (⟨b, l⟩ : Tensor α).arr.elem i) : a = b := by
  refine List.ext_getElem? fun k => ?_
  by_cases hk : k < n
  · obtain ⟨i, hi, e⟩ := h.sur k hk
    have := he i hi
    rw [elem_pos ((h.wf ha).fit) hi, elem_pos ((h.wf hb).fit) hi, e] at this
    exact this
  · rw [List.getElem?_eq_none (by omega), List.getElem?_eq_none (by omega)]

omit hd in
theorem step_length {s t : Proc γ × List γ} (h : Step s t) : t.2.length = s.2.length := by
  induction h with
  | read _ => rfl
  | write _ => simp
  | seq _ ih => exact ih
  | next => rfl
  | left _ ih => exact ih
  | right _ ih => exact ih
  | join => rfl

omit hd in
theorem computes_length {p : Proc γ} {c e : List γ} (h : Computes p c e) : e.length = c.length := by
  have key : ∀ s t : Proc γ × List γ, Steps s t → t.2.length = s.2.length := fun s t h => by
    induction h with
    | refl => rfl
    | tail _ h2 ih => exact (step_length h2).trans ih
  exact key _ _ (computes_reaches h)

omit hd in
theorem assumeInit_length {c : List (Option γ)} {e : List γ} (h : assumeInit c = .ok e) : e.length = c.length := by
  induction c generalizing e with
  | nil => cases h; rfl
  | cons x c ih =>
    cases x with
    | none => cases h
    | some v =>
      obtain ⟨y, h1, h2⟩ := bind_ok.1 h
      cases h2
      simp [ih h1]

/-- Sums along axes. -/
theorem sumAxes_same (o : Order) (t : Tensor α) (h : t.WF) (hu : Unstretched t) (axes : List Int)
    (hax : LegalAxes t.arr.shape.length axes) (zero : α) (add : α → α → α)
    (m1 : ∀ x y z, add (add x y) z = add x (add y z)) (m2 : ∀ x y, add x y = add y x) (m3 : ∀ x, add zero x = x) :
    ∃ r, t.sumAxes o none zero add (some axes) = .ok (.done r) ∧ d.sumAxes o zero add t axes = .ok r := by
  have hn : t.arr.shape.length = t.layout.ndim := by simp [Tensor.arr, Layout.shape, Layout.ndim]
  have M : Monoidal (sumR zero add).init (sumR zero add).f (sumR zero add).fSum := ⟨m1, m2, m3, fun a x => by
    show add a x = add a (add zero x)
    rw [m3]⟩
  by_cases hsz : t.layout.size < reduceParSwitch
  · obtain ⟨r, h1, -⟩ := sumAxes_distinct o t h hu axes hax zero add m1 m2 m3
    refine ⟨r, h1, ?_⟩
    have : t.sumAxes o (some d.sched) zero add (some axes) = .ok (.done r) := by
      rw [← h1]
      simp only [Tensor.sumAxes, Tensor.axesApi, Tensor.axesKernel, reduceAxesPar, if_pos hsz]
      cases reduceAxes o (sumR zero add) t.data t.layout axes with
      | error e => rfl
      | ok q => rfl
    unfold ParDev.sumAxes
    rw [this]
    rfl
  · obtain ⟨⟨ls, lm⟩, hs⟩ := (C52_split_axes_accept_iff t.layout h.fit.valid h.1 hu.1 axes).2 (by rw [← hn]; exact hax)
    obtain ⟨p, n, f, c, e, lo, h1, h2, h3, h4, h5, h6, h7⟩ := reduceAxesPar_ok M hd.fits o h ⟨hu.1, hu.2⟩ hs hsz
    obtain ⟨e', lo2, g1, g2, g3, g4⟩ := reduceAxes_ok o h ⟨hu.1, hu.2⟩ hs M
    obtain ⟨lo', o1, st, -⟩ := split_setup o h ⟨hu.1, hu.2⟩ hs M
    obtain ⟨n1, a1, -⟩ := st.ws.size_contig
    obtain ⟨n2, b1, -⟩ := st.wm.size_contig
    have hsizes : reduceSizes ls lm = .ok (1, n1, 1, n2) := by
      unfold reduceSizes
      simp only [st.ws.size_broadcast, st.wm.size_broadcast, a1, b1, ok_bind]
      rfl
    obtain ⟨out, r1, r2, r3⟩ := reduceRoutes_ok M st hsizes
    have hlo2 : lo2 = lo' ∧ e'.length = lo'.size := by
      unfold reduceAxes at g1
      simp only [hs, o1, hsizes, r1, r2, ok_bind] at g1
      obtain ⟨x, q1, g1⟩ := bind_ok.1 g1
      cases g1
      exact ⟨rfl, (assumeInit_length q1).trans r3.1⟩
    have hlo : lo = lo' ∧ e.length = lo'.size := by
      unfold reduceAxesPar at h1
      rw [if_neg hsz] at h1
      simp only [hs, o1, hsizes, ok_bind] at h1
      obtain ⟨_, -, h1⟩ := bind_ok.1 h1
      cases h1
      simp only [reduceSpread_one, ok_bind] at h4
      obtain ⟨x, q1, h4⟩ := bind_ok.1 h4
      cases h4
      exact ⟨rfl, (assumeInit_length q1).trans ((computes_length h2).trans (by simp [uninit]))⟩
    obtain ⟨rfl, l1⟩ := hlo
    obtain ⟨rfl, l2⟩ := hlo2
    have hee : e' = e := tight_data st.tight l2 l1 fun i hi => by
      rw [g4 i (st.sh ▸ hi), h7 i (st.sh ▸ hi)]
    subst hee
    refine ⟨⟨e', lo2⟩, ?_, ?_⟩
    · simp only [Tensor.sumAxes, Tensor.axesApi, Tensor.axesKernel, g1, ok_bind, g3.2]
      rfl
    · have hx := hd.runs (Option α) p (uninit n) c h2 h3
      simp only [ParDev.sumAxes, Tensor.sumAxes, Tensor.axesApi, Tensor.axesKernel, h1, ok_bind, AxesRun.andThen, hx, h4, h6.2]

omit hd in
/-- A product fills the storage of its result. -/
theorem matmul_filled [CommSemiring α] (dev : Order) (par : Option MatPar) (hp : MatDevice par) (fresh : Nat → α)
    (a b : Tensor α) (ha : a.WF) (hb : b.WF)
    (s ba bb bc rows cols : List Nat) (K : Nat) (S : MatShapes dev a.arr.shape b.arr.shape s ba bb bc rows cols K)
    (hr : ba ≠ [] → bb ≠ [] → ba.length = bb.length) (sa : a.Settled) (sb : b.Settled) (alpha : α) :
    ∃ c w e, a.matmul (ringOps (· * ·)) (fun y x => x * y) dev par fresh b alpha = .ok (c, w) ∧ w.Leaves c.data e ∧
      e.length = (freshLayout dev s).size ∧ c.layout = freshLayout dev s ∧ ∀ t i j, InRange t bc → InRange i rows → InRange j cols →
        ∃ v, IsMatEntry dev (· * ·) a.arr b.arr ba bb K t i j v ∧
        (⟨e, c.layout⟩ : Tensor α).arr.elem (glue dev t (i ++ j)) = some (alpha * v) := by
  have : Nonempty α := ⟨0⟩
  obtain ⟨cfg, e1, e2⟩ := (C41_accept_iff a.layout b.layout (freshLayout dev s) dev).2 ⟨s, ba, bb, bc, rows, cols, K, S, rfl⟩
  have T := freshLayout_tight dev s
  obtain ⟨mn, hbd⟩ := T.bounds
  have hc : (⟨(List.range (freshLayout dev s).size).map fresh, freshLayout dev s⟩ : Tensor α).WF := T.wf (by simp)
  have hs := freshLayout_shape dev s
  have h0 : (freshLayout dev s).offset = 0 := by cases dev <;> rfl
  obtain ⟨w, e, k1, k2, k3, k4, k5⟩ := C42_matmul_from_partial (· * ·) (fun y x => x * y) (fun _ _ => rfl) dev par hp a b _ ha hb hc
    ba bb bc rows cols K (by show MatShapes dev _ _ (freshLayout dev s).shape _ _ _ _ _ _; rw [hs]; exact S) hr (fun _ _ _ => h0)
    (fun hz => freshLayout_nonzero dev s (by rw [← hs]; exact hz)) sa sb (fun _ => freshLayout_settled dev s) alpha 0
  refine ⟨_, w, e, ?_, k2, by simpa using k5.1, rfl, ?_⟩
  · unfold Tensor.matmul
    rw [e1, ok_bind, e2, hbd, ok_bind]
    simp only [Int.toNat_natCast]
    have : (ringOps (α := α) (β := α) (γ := α) (· * ·)).zero = 0 := rfl
    rw [this, k1]
    rfl
  · intro t i j ht hi hj
    obtain ⟨v, x, -, h2, h3⟩ := k4.2 t i j ht hi hj
    exact ⟨x, h2, by rw [h3]; simp⟩

omit hd in
theorem exec_leaves {exec : Proc α → List α → Res (List α)} (he : RunsThreads exec) {w : Work α} {c e : List α}
    (h : w.Leaves c e) : w.finish exec c = .ok e := by
  cases w with
  | done x => exact congrArg Except.ok h
  | threads p => exact he p c e h.1 h.2

/-- A product on the parallel device is the one on the serial device. -/
theorem matmul_same (S : CommSemiring α) (o : Order) (fresh : Nat → α) (a b : Tensor α) (ha : a.WF) (hb : b.WF)
    (s ba bb bc rows cols : List Nat) (K : Nat) (H : MatShapes o a.arr.shape b.arr.shape s ba bb bc rows cols K)
    (hr : ba ≠ [] → bb ≠ [] → ba.length = bb.length) (sa : a.Settled) (sb : b.Settled) :
    ∃ c x, a.matmul ⟨S.mul, S.mul, S.add, S.zero⟩ (fun y x => S.mul x y) o none fresh b S.one = .ok (c, .done x) ∧
      d.matmul S fresh o a b = .ok ⟨x, c.layout⟩ := by
  obtain ⟨c, w, e, f1, f2, f3, f4, f5⟩ := matmul_filled o (some d.mat) (fun _ h => by cases h; exact hd.mat) fresh a b ha hb s ba bb bc
    rows cols K H hr sa sb 1
  obtain ⟨c', w', e', g1, g2, g3, g4, g5⟩ := matmul_filled o none (fun _ h => by cases h) fresh a b ha hb s ba bb bc
    rows cols K H hr sa sb 1
  obtain ⟨x, rfl⟩ := matmul_serial g1
  obtain rfl : x = e' := g2
  have T := freshLayout_tight o s
  have hee : e = x := by
    refine tight_data T f3 g3 fun i hi => ?_
    rw [freshLayout_shape, H.out] at hi
    obtain ⟨t, ij, rfl, ht, hij⟩ := glue_split hi
    obtain ⟨i, j, rfl, hi, hj⟩ := inRange_split hij
    obtain ⟨v, p1, p2⟩ := f5 t i j ht hi hj
    obtain ⟨v', q1, q2⟩ := g5 t i j ht hi hj
    rw [f4] at p2; rw [g4] at q2
    rw [p2, q2, isDot_unique (fun _ _ => rfl) (fun _ _ => rfl) p1 q1]
  subst hee
  refine ⟨c', e, g1, ?_⟩
  unfold ParDev.matmul
  erw [f1]
  rw [ok_bind]
  simp only [exec_leaves (hd.runs α) f2, ok_bind, f4, g4]
  rfl

/-- One statement on the parallel device does exactly what it does on the serial device, under any schedule and any
interleaving. -/
theorem step_same (o : Order) (fixed : Bool) {s : Stmt α} {σ σ' : List (Arr α)} {ts : List (Tensor α)}
    (h : List.Forall₂ HoldsArr ts σ) (hs : StmtDoes o s σ σ') : runStmtPar d o fixed s ts = runStmt o fixed s ts := by
  cases hs with
  | @fill k v x _ A A' s' R hA hp hw =>
    obtain ⟨t, e1, -, ht⟩ := holds_at h hA
    obtain ⟨m, e2, wm, pm⟩ := viewed_ok ht hp
    exact (by simp only [runStmtPar, runStmt, e1, e2, ok_bind, fillF_same hd o _ wm])
  | @mapInplace f k v _ A A' s' R hA hp hw =>
    obtain ⟨t, e1, -, ht⟩ := holds_at h hA
    obtain ⟨m, e2, wm, pm⟩ := viewed_ok ht hp
    exact (by simp only [runStmtPar, runStmt, e1, e2, ok_bind, mapInplace_same hd o _ wm])
  | @opNumber f k v b _ A A' s' R hA hp hw =>
    obtain ⟨t, e1, -, ht⟩ := holds_at h hA
    obtain ⟨m, e2, wm, pm⟩ := viewed_ok ht hp
    exact (by simp only [runStmtPar, runStmt, e1, e2, ok_bind, assignNum_same hd o _ wm])
  | @assign k v u w _ A A' s' R U B r' Q hne hA hp hU hq hB hbc hw =>
    obtain ⟨t, e1, -, ht⟩ := holds_at h hA
    obtain ⟨m, e2, wm, pm⟩ := viewed_ok ht hp
    obtain ⟨t2, d1, -, ht2⟩ := holds_at h hU
    obtain ⟨n, d2, wn, pn⟩ := viewed_ok ht2 hq
    exact (by simp only [runStmtPar, runStmt, e1, e2, d1, d2, ok_bind, assignF_same hd o fixed _ _ wm wn
      (by show BroadcastOf o m.shape n.shape m.shape; rw [pm.shape, pn.shape]; exact hbc)])
  | @opAssign f k v u w _ A A' s' R U B r' Q hne hA hp h1 hU hq hB hbc hw =>
    obtain ⟨t, e1, -, ht⟩ := holds_at h hA
    obtain ⟨m, e2, wm, pm⟩ := viewed_ok ht hp
    obtain ⟨t2, d1, -, ht2⟩ := holds_at h hU
    obtain ⟨n, d2, wn, pn⟩ := viewed_ok ht2 hq
    exact (by simp only [runStmtPar, runStmt, e1, e2, d1, d2, ok_bind, assignOp_same hd o _ _ wm wn (view_distinct ht pm h1) f
      (by show BroadcastOf o m.shape n.shape m.shape; rw [pm.shape, pn.shape]; exact hbc)])
  | @map f k v _ A B C s' R hA hp hB hm =>
    obtain ⟨t, e1, -, ht⟩ := holds_at h hA
    obtain ⟨m, e2, wm, pm⟩ := viewed_ok ht hp
    exact (by simp only [runStmtPar, runStmt, e1, e2, ok_bind, map_same hd o _ wm])
  | @binary f k v u w _ A B s' R U D r' Q C hA hp h1 hB hU hq h2 hD hm =>
    obtain ⟨t, e1, -, ht⟩ := holds_at h hA
    obtain ⟨m, e2, wm, pm⟩ := viewed_ok ht hp
    obtain ⟨t2, d1, -, ht2⟩ := holds_at h hU
    obtain ⟨n, d2, wn, pn⟩ := viewed_ok ht2 hq
    have sB := seen_same ht pm wm hB
    have sD := seen_same ht2 pn wn hD
    exact (by simp only [runStmtPar, runStmt, e1, e2, d1, d2, ok_bind, binary_same hd o _ _ wm wn (view_distinct ht pm h1)
      (view_distinct ht2 pn h2) f (by rw [← sB.1, ← sD.1]; exact compatible_of hm.1)])
  | @intoShape k shape _ A C hA hC hq =>
    obtain ⟨t, e1, -, ht⟩ := holds_at h hA
    exact (by simp only [runStmtPar, runStmt, e1, ok_bind, changeShape_same hd o t ht.wf])
  | @toShape k v shape _ A B C s' R hA hp h1 hB hC hq =>
    obtain ⟨t, e1, -, ht⟩ := holds_at h hA
    obtain ⟨m, e2, wm, pm⟩ := viewed_ok ht hp
    have sB := seen_same ht pm wm hB
    obtain ⟨c, e3, e4, -, -⟩ := C21_reshape ⟨t.data, m⟩ wm shape o none (by simp) (by
      rw [← hC, ← hq.1]; exact congrArg List.prod sB.1.symm)
    exact (by simp only [runStmtPar, runStmt, e1, e2, ok_bind, changeShape_same hd o _ wm, e3, intoOwned_same hd o c e4])
  | @select k v axis indices _ A B C s' R hA hp hB hC =>
    obtain ⟨t, e1, -, ht⟩ := holds_at h hA
    obtain ⟨m, e2, wm, pm⟩ := viewed_ok ht hp
    exact (by simp only [runStmtPar, runStmt, e1, e2, ok_bind, C93_index_select_same o o d.pool (d.sched 0) (hd.fits 0)
      (hd.empty 0) (d.exec (Option α)) (hd.runs _) _ axis indices wm])
  | @concat parts axis _ Bs C shape hp hC =>
    obtain ⟨as, e1, e2⟩ := parts_ok h hp
    exact (by simp only [runStmtPar, runStmt, e1, ok_bind, C93_concat_same o o d.pool (d.sched 0) (hd.fits 0)
      (d.exec (Option α)) (hd.runs _) as axis (fun t ht => by
        obtain ⟨k, hk⟩ := List.mem_iff_getElem?.1 ht
        obtain ⟨B, -, hP⟩ := forall₂_get e2 hk
        exact hP.1)])
  | @sum zero add k v _ A B C s' R m1 m2 m3 hA hp hB hC hx =>
    obtain ⟨t, e1, -, ht⟩ := holds_at h hA
    obtain ⟨m, e2, wm, pm⟩ := viewed_ok ht hp
    have M : Monoidal (sumR zero add).init (sumR zero add).f (sumR zero add).fSum := ⟨m1, m2, m3, fun a x => by
      show add a x = add a (add zero x)
      rw [m3]⟩
    have hS : (⟨t.data, m⟩ : Tensor α).sumAll o (some (d.sched 0)) zero add = (⟨t.data, m⟩ : Tensor α).sumAll o none zero add := by
      unfold Tensor.sumAll
      rw [C38_reduce o none (fun _ h => by cases h) _ wm _ M,
        C38_reduce o (some (d.sched 0)) (fun s h => by cases h; exact hd.fits 0) _ wm _ M]
    exact (by simp only [runStmtPar, runStmt, e1, e2, ok_bind, hS])
  | @sumAxes zero add k v axes _ A B C s' R m1 m2 m3 hA hp h1 hz hB hax hnd hC =>
    obtain ⟨t, e1, -, ht⟩ := holds_at h hA
    obtain ⟨m, e2, wm, pm⟩ := viewed_ok ht hp
    have hsh : (⟨t.data, m⟩ : Tensor α).arr.shape = s' := pm.shape
    have hl : LegalAxes (⟨t.data, m⟩ : Tensor α).arr.shape.length axes := by rw [hsh]; exact ⟨hax, hnd⟩
    have hz' : 0 ∉ (⟨t.data, m⟩ : Tensor α).arr.shape := by rw [hsh]; exact hz
    obtain ⟨r, e3, e4⟩ := sumAxes_same hd o ⟨t.data, m⟩ wm (distinct_unstretched (view_distinct ht pm h1) hz')
      axes hl zero add m1 m2 m3
    simp only [runStmtPar, runStmt, e1, e2, e3, e4, ok_bind]
  | @matmul S fresh k v u w _ A B s' R U D r' Q C bB bD bC rows cols K hA hp hz hB hU hq hz2 hD hS hr hC =>
    obtain ⟨t, e1, -, ht⟩ := holds_at h hA
    obtain ⟨m, e2, wm, pm⟩ := viewed_ok ht hp
    obtain ⟨t2, d1, -, ht2⟩ := holds_at h hU
    obtain ⟨n, d2, wn, pn⟩ := viewed_ok ht2 hq
    have hs1 : (⟨t.data, m⟩ : Tensor α).arr.shape = s' := pm.shape
    have hs2 : (⟨t2.data, n⟩ : Tensor α).arr.shape = r' := pn.shape
    obtain ⟨c, x, f1, f2⟩ := matmul_same hd S o fresh ⟨t.data, m⟩ ⟨t2.data, n⟩ wm wn C.shape bB bD bC rows cols K
      (by rw [hs1, hs2]; exact hS) hr
      (fun h0 => absurd h0 (by rw [hs1]; exact hz)) (fun h0 => absurd h0 (by rw [hs2]; exact hz2))
    simp only [runStmtPar, runStmt, e1, e2, d1, d2, f1, f2, ok_bind]

end

/-! ## C106 -/

section
variable {α : Type}

/-- Programs of any length on the parallel device. `dev n` is the device during statement `n`, with any schedules, inside
or outside of a pool. Started on tensors that hold the given arrays, a program that the array program takes to `σ'` ends on
the parallel device exactly as on the serial device, with the same layouts and the same value in every cell of every
storage, or with the same error. The devices are only known to run threads that neither race nor depend on their
interleaving (`RunsThreads`), so none else are started. Missing for the full claim: programs outside of `Exec`, such as
those with views without elements. -/
theorem C106_same_as_serial_partial (o : Order) (fixed : Bool) (dev : Nat → ParDev) (hd : ∀ n, (dev n).Sound) (p : List (Stmt α))
    (σ σ' : List (Arr α)) (ts : List (Tensor α)) (h : List.Forall₂ HoldsArr ts σ) (hp : Exec o p σ σ') :
    runProgramPar o fixed dev p ts = runProgram o fixed p ts := by
  induction hp generalizing ts dev with
  | nil σ => rfl
  | @cons s p σ τ ρ hs hp ih =>
    simp only [runProgramPar, runProgram, step_same (hd 0) o fixed h hs]
    rcases step_ok o fixed h hs with ⟨ts1, e1, h1⟩ | ⟨e1, -⟩
    · simp only [e1, ok_bind, ih (fun n => dev (n + 1)) (fun n => hd (n + 1)) ts1 h1]
    · simp only [e1]; rfl

/-- In terms of arrays: the parallel program ends with tensors that hold `σ'`, or it stops at a `fill` or `assign` that
refuses its destination. -/
theorem C106_program_partial (o : Order) (fixed : Bool) (dev : Nat → ParDev) (hd : ∀ n, (dev n).Sound) (p : List (Stmt α))
    (σ σ' : List (Arr α)) (ts : List (Tensor α)) (h : List.Forall₂ HoldsArr ts σ) (hp : Exec o p σ σ') :
    (∃ ts', runProgramPar o fixed dev p ts = .ok ts' ∧ List.Forall₂ HoldsArr ts' σ') ∨
      (runProgramPar o fixed dev p ts = .error .invalidLayout ∧ ∃ s ∈ p, s.Refuses) := by
  rw [C106_same_as_serial_partial o fixed dev hd p σ σ' ts h hp]
  exact C99_program_partial o fixed p σ σ' ts h hp

/-! ### A device -/

/-- A device as required: it divides every loop with iterations after the first one, and runs threads that end alike. -/
noncomputable def exParDev : ParDev where
  pool := true
  sched _ m _ := if m = 0 then .run fun _ => .run else .split 1 (.run fun _ => .run) (.run fun _ => .run)
  mat := ⟨2, fun _ => halving, fun _ => .split 1 .run .run⟩
  exec _ p c := open Classical in if h : ∃ d, Computes p c d then .ok h.choose else .error .panic

theorem exParDev_sound : exParDev.Sound where
  fits := fun _ m n => by
    simp only [exParDev]
    by_cases h : m = 0
    · simp only [h, if_true]; exact fun _ => trivial
    · simp only [h, if_false]; exact ⟨by omega, fun _ => trivial, fun _ => trivial⟩
  empty := fun _ n => ⟨fun _ => .run, rfl⟩
  mat := halving_fits
  runs := fun γ p c d hd _ => by
    have h : ∃ d, Computes p c d := ⟨d, hd⟩
    simp only [exParDev, dif_pos h]
    rw [hd.result _ (computes_reaches h.choose_spec)]

/-- `t0 += t1`, `t2 = t0.sum()` on two tensors of 6400 elements: large enough for threads. -/
def exBig : List (Stmt Nat) := [.opAssign (· + ·) 0 [] 1 [], .sum 0 (· + ·) 0 []]

theorem exBig_holds : List.Forall₂ HoldsArr [bigC, bigA] [bigC.arr, bigA.arr] := by
  have self : ∀ t : Tensor Nat, t.WF → t.arr.Same t.arr := fun t hw => ⟨rfl, fun i hi => by
    obtain ⟨x, -, hx⟩ := hw.get (idx := i) hi
    exact ⟨x, hx, hx⟩⟩
  exact .cons ⟨big_wf.1, distinct_of_pos fun i j hi hj e => big_wf.1.inj (by decide) i j hi hj e, self _ big_wf.1⟩
    (.cons ⟨big_wf.2, distinct_of_pos fun i j hi hj e => big_wf.2.inj (by decide) i j hi hj e, self _ big_wf.2⟩ .nil)

/-- The hypotheses of C106 hold for it, with a device that divides its loops. -/
example : exParDev.Sound ∧ ∃ σ', Exec .C exBig [bigC.arr, bigA.arr] σ' := by
  refine ⟨exParDev_sound, ?_⟩
  have hh := exBig_holds
  have sA : bigC.arr.shape = [64, 100] := by decide
  have sB : bigA.arr.shape = [64, 100] := by decide
  generalize bigC.arr = A at hh sA ⊢
  generalize bigA.arr = B at hh sB ⊢
  cases hh with
  | cons h1 h2 =>
  cases h2 with
  | cons h2 _ =>
  have fA : A.Full := h1.full
  have fB : B.Full := h2.full
  have one : OneToOne A.shape fun j i => i = j := by
    rintro j j' i - - rfl rfl
    rfl
  have bc : BroadcastOf .C A.shape B.shape A.shape := by
    rw [sA, sB]
    refine ⟨rfl, fun k hk => ?_⟩
    have hk : k = 0 ∨ k = 1 := by simp at hk; omega
    rcases hk with rfl | rfl <;> decide
  obtain ⟨A1, s1, f1, w1⟩ := written_exists (s' := A.shape) (W := fun j x y => ∃ b, B.elem (stretchIndex .C B.shape j) = some b ∧ y = x + b) fA
    (fun j hj x => by
      obtain ⟨b, hb⟩ := fB _ (stretch_inRange (broadcastOf_comm bc) hj)
      exact ⟨x + b, b, hb, rfl⟩)
    (fun j j' i x y hj hj' hr hr' hw => by rw [← one j j' i hj hj' hr hr']; exact hw)
  exact ⟨_, .cons (.opAssign (by decide) rfl (Path.nil A.shape) one rfl (Path.nil B.shape)
    (B := B) ⟨rfl, fun j i _ _ e => by rw [e]⟩ bc w1)
    (.cons (.sum (A := A1) (B := A1) (C := ⟨[], fun _ => some (A1.elements.foldl (· + ·) 0)⟩) Nat.add_assoc Nat.add_comm
      Nat.zero_add rfl (Path.nil A1.shape) ⟨rfl, fun j i _ _ e => by rw [e]⟩ rfl rfl) (.nil _))⟩

/-- What C106 says of it: exactly the serial result, whose first tensor holds the sums. -/
example (σ' : List (Arr Nat)) (hp : Exec .C exBig [bigC.arr, bigA.arr] σ') :
    runProgramPar .C true (fun _ => exParDev) exBig [bigC, bigA] = runProgram .C true exBig [bigC, bigA] ∧
      ∃ ts', runProgramPar .C true (fun _ => exParDev) exBig [bigC, bigA] = .ok ts' ∧ List.Forall₂ HoldsArr ts' σ' := by
  refine ⟨C106_same_as_serial_partial .C true _ (fun _ => exParDev_sound) _ _ _ _ exBig_holds hp, ?_⟩
  rcases C106_program_partial .C true _ (fun _ => exParDev_sound) _ _ _ _ exBig_holds hp with h | ⟨-, s, h1, h2⟩
  · exact h
  · simp only [exBig, List.mem_cons, List.not_mem_nil, or_false] at h1
    rcases h1 with rfl | rfl <;> exact absurd h2 (by simp [Stmt.Refuses])

end
end Rstsr
