import Verif.Model.GatherPar
import Verif.Proof.Parallel
import Verif.Proof.Concat
/-! # Lemmas about the gathering functions on the parallel device -/
namespace Rstsr
open Spec

/-- No loop without iterations is divided (`rayon` splits a producer only while each part keeps an item). -/
def Scheduler.Lazy (s : Scheduler) : Prop := ∀ n, ∃ inner, s 0 n = .run inner

section
variable {α γ ι σ : Type}

theorem assignRun_eq (dflt : Order) (pool : Bool) {sch : Scheduler} (hs : sch.Fits)
    {exec : Proc γ → List γ → Res (List γ)} (he : RunsThreads exec) {s : List Nat} {lc la : Layout} (hc : Fits s lc)
    (ha : Fits s la) {c : List γ} {a : List α} (cc : Covers s lc c) (ca : Covers s la a)
    (hinj : ∀ i j, InRange i s → InRange j s → lc.pos i = lc.pos j → i = j) (w : α → γ) :
    assignRun dflt pool sch exec c lc a la w = assign dflt c lc a la w := by
  by_cases hsm : lc.size < assignParSwitch ∨ pool = false
  · unfold assignRun assignPar
    rw [if_pos hsm]
    cases assign dflt c lc a la w with
    | error e => rfl
    | ok d => rfl
  · push Not at hsm
    obtain ⟨hsz, hp⟩ := hsm
    have hp : pool = true := by simpa using hp
    subst hp
    have hz : 0 ∉ s := by
      intro h0
      have : lc.size = 0 := by
        unfold Layout.size
        rw [hc.shape]
        exact prod_eq_zero_of h0
      unfold assignParSwitch at hsz
      omega
    have fc : Fit s lc := ⟨hc.valid, hc.off hz, hc.shape⟩
    have fa : Fit s la := ⟨ha.valid, ha.off hz, ha.shape⟩
    obtain ⟨T, h1, h2, h3, h4⟩ := assign2 dflt fc fa cc ca (fun i j hi hj e => by rw [hinj i j hi hj e]) w
    obtain ⟨e, p, hperm, p1, p2⟩ := assignPar_updates dflt fc fa c ca w hs (by omega)
    unfold assignRun
    rw [p1, ok_bind, h1]
    refine he p c T (computes_of_way (one := fun _ => False) (by
      rw [p2]; exact way2_write cc ca hperm h2 h3 h4)) (raceFree_of_nodup ?_)
    rw [p2, u2_fst ca fun i hi => mem_all.1 (hperm.mem_iff.1 hi)]
    exact nodup_pos hperm hinj

theorem iter_len {l : Layout} (h : colItems l = .ok []) : ∃ it, Iter.new .F l = .ok it ∧ it.len = 0 ∧ it.toList = .ok [] := by
  obtain ⟨it, h1, h2, h3, h4, h5, h6⟩ := Iter.new_spec .F l
  unfold colItems at h
  rw [h1] at h
  simp only [ok_bind] at h
  have hid : it.idxs = all .F l.shape := by
    rw [Iter.idxs, h3, h4, h5, h6, List.drop_zero, Nat.sub_zero, List.take_of_length_le]
    rw [length_all]; exact Nat.le_refl _
  have hn : Iter.NonNeg it.layout := by
    intro i hi
    refine collect_nonneg h2 (Nat.lt_succ_self _) h i ?_
    rw [hid]; exact mem_all.2 (h3 ▸ hi)
  have hi : it.items = [] := by
    rw [Iter.toList_spec h2 hn] at h; exact Except.ok.inj h
  exact ⟨it, h1, by rw [← h2.length_items, hi]; rfl, h⟩

theorem dispatchPar2_empty {la lb : Layout} (hd : la.ndim = lb.ndim) (ha : colItems la = .ok [])
    (hb : colItems lb = .ok []) {g : Plan → Nat × Nat → Res (Proc γ)} {s : Scheduler} (hs : s.Lazy) (n : Nat) :
    dispatchPar2 la lb g s n = .ok .nil := by
  obtain ⟨ia, a1, a2, a3⟩ := iter_len ha
  obtain ⟨ib, b1, -, b3⟩ := iter_len hb
  unfold dispatchPar2
  rw [if_neg (by simp [hd]), a1, ok_bind, b1, ok_bind, a2, Nat.zero_min]
  obtain ⟨inner, hi⟩ := hs n
  rw [hi]
  simp only [parIter2, a3, b3, ok_bind]
  rfl

theorem select_par (dflt dev : Order) (pool : Bool) {sch : Scheduler} (hs : sch.Fits) (hz : sch.Lazy)
    {exec : Proc γ → List γ → Res (List γ)} (he : RunsThreads exec) {la : Layout} {a : List α} {s : List Nat} {ax : Nat}
    {ids : List Nat} (hax : ax < s.length) (hla : Fit s la) (ca : Covers s la a) (hids : ∀ i ∈ ids, i < s.getD ax 0)
    (hd : s.getD ax 0 ≠ 0) {c : List γ} (hc : c.length = (Layout.newContig dev (s.set ax ids.length)).size) (w : α → γ) :
    indexSelectKernelPar dflt pool sch exec c (Layout.newContig dev (s.set ax ids.length)) a la ax ids w =
      indexSelectKernel dflt c (Layout.newContig dev (s.set ax ids.length)) a la ax ids w := by
  cases pool with
  | false => unfold indexSelectKernelPar; rw [if_pos rfl]
  | true =>
  obtain ⟨T', hT, hW⟩ := select_writes dflt dev hax hla ca hids hd hc w
  have T := tight_newContig dev (s.set ax ids.length)
  have hof : (Layout.newContig dev (s.set ax ids.length)).offset = 0 := by cases dev <;> rfl
  have hsh := shape_newContig dev (s.set ax ids.length)
  have hax' : ax < (s.set ax ids.length).length := by simpa using hax
  generalize hlc : Layout.newContig dev (s.set ax ids.length) = lc at *
  have lenc : lc.axes.length = s.length := by
    have := congrArg List.length hsh
    simpa [Layout.shape] using this
  have lena : la.axes.length = s.length := by
    have := congrArg List.length hla.shape
    simpa [Layout.shape] using this
  have dimc : (lc.axes.getD ax default).dim = ids.length := by
    rw [getD_dim, hsh, List.getD_eq_getElem?_getD, List.getElem?_set_self hax]; rfl
  have dima : (la.axes.getD ax default).dim = s.getD ax 0 := by rw [getD_dim, hla.shape]
  have hmax : ∀ (l : List Nat) (m : Nat), m < s.getD ax 0 → (∀ i ∈ l, i < s.getD ax 0) → l.foldl max m < s.getD ax 0 := by
    intro l
    induction l with
    | nil => intro m hm _; exact hm
    | cons i l ih =>
      intro m hm h
      exact ih (max m i) (by have := h i List.mem_cons_self; omega) fun j hj => h j (List.mem_cons_of_mem _ hj)
  have hidg : ∀ q, q < ids.length → ids.getD q 0 < s.getD ax 0 := by
    intro q hq
    rw [List.getD_eq_getElem?_getD, List.getElem?_eq_getElem hq]
    exact hids _ (List.getElem_mem _)
  have hce : lc.shape.eraseIdx ax = s.eraseIdx ax := by rw [hsh, List.eraseIdx_set_eq]
  have jlen : ∀ j, InRange j (s.eraseIdx ax) → j.length + 1 = s.length := by
    intro j hj
    have := hj.length_eq
    rw [List.length_eraseIdx_of_lt hax] at this
    omega
  have inC : ∀ j q, InRange j (s.eraseIdx ax) → q < ids.length → InRange (j.insertIdx ax q) lc.shape := by
    intro j q hj hq
    rw [hsh]
    exact (inRange_set_split hax).2 ⟨j, q, hj, hq, rfl⟩
  have inA : ∀ j q, InRange j (s.eraseIdx ax) → q < ids.length → InRange (j.insertIdx ax (ids.getD q 0)) s := by
    intro j q hj hq
    exact inRange_insertIdx hax hj (hidg q hq)
  have uniq : ∀ j q j' q', InRange j (s.eraseIdx ax) → q < ids.length → InRange j' (s.eraseIdx ax) → q' < ids.length →
      lc.pos (j.insertIdx ax q) = lc.pos (j'.insertIdx ax q') → j = j' ∧ q = q' := by
    intro j q j' q' h1 h2 h3 h4 e
    have := T.inj _ _ (inC j q h1 h2) (inC j' q' h3 h4) e
    exact insertIdx_inj (by have := jlen j h1; omega) (by have := jlen j' h3; omega) this
  unfold indexSelectKernelPar
  rw [if_neg (by simp)]
  by_cases hstr : (lc.axes.getD ax default).str = 1
  · rw [hT]
    rw [if_neg (by simp [Layout.ndim, lenc, lena]), if_neg (by unfold Layout.ndim; omega), if_neg (by rw [dimc]; simp),
      if_neg (by rw [dima]; have := hmax ids 0 (by omega) hids; omega), if_pos hstr]
    obtain ⟨k1, k2⟩ : lc.dimChop ax = .ok ⟨lc.axes.eraseIdx ax, 0⟩ ∧ Accepted ⟨lc.axes.eraseIdx ax, 0⟩ := by
      subst hlc
      exact chop_contig dev hax' hstr
    obtain ⟨k3, k4⟩ := chop_ok hla.valid (a := ax) (by omega) (by rw [dima]; exact hd)
    have fc : Fit (s.eraseIdx ax) ⟨lc.axes.eraseIdx ax, 0⟩ := ⟨valid_iff.2 k2, Int.le_refl _, by
      rw [← hce]; exact dims_eraseIdx _ _⟩
    have fa : Fit (s.eraseIdx ax) ⟨la.axes.eraseIdx ax, la.offset⟩ := ⟨valid_iff.2 k4, hla.off, by
      rw [← hla.shape]; exact dims_eraseIdx _ _⟩
    obtain ⟨e, mc, ma, h1, h2, h3, h4, h5, -⟩ := joint2 dflt fc fa
    rw [k1, k3]
    simp only [ok_bind, h2]
    have hmem : ∀ i, i ∈ e ↔ InRange i (s.eraseIdx ax) := fun i => h1.mem_iff.trans mem_all
    have posC : ∀ j q, InRange j (s.eraseIdx ax) →
        lc.pos (j.insertIdx ax q) = (⟨lc.axes.eraseIdx ax, 0⟩ : Layout).pos j + q := by
      intro j q hj
      have h0 := fc.nonneg j hj
      have := chop_addr (l := lc) (q := q) (j := j) (ax := ax) (by omega) (by have := jlen j hj; omega)
      rw [hstr, hof] at this
      unfold Layout.pos
      rw [this]
      omega
    have posA : ∀ j q, InRange j (s.eraseIdx ax) → q < ids.length →
        (((⟨la.axes.eraseIdx ax, la.offset⟩ : Layout).pos j : Nat) : Int) +
          (la.axes.getD ax default).str * ((ids.getD q 0 : Nat) : Int) = la.pos (j.insertIdx ax (ids.getD q 0)) := by
      intro j q hj hq
      have ad := chop_addr (l := la) (q := ids.getD q 0) (j := j) (ax := ax) (by omega)
        (by have := jlen j hj; omega)
      have h0 := fa.nonneg j hj
      have h1 := hla.nonneg _ (inA j q hj hq)
      unfold Layout.pos at *
      omega
    by_cases hne : e = []
    · subst hne
      rw [dispatchPar2_empty h3 h4 h5 hz, ok_bind]
      have hT' : T' = c := by
        apply List.ext_getElem?
        intro k
        refine hW.keep k ?_
        rintro v ⟨j, q, hj, -⟩
        exact absurd ((hmem j).2 hj) (by simp)
      rw [hT']
      exact he .nil c c (computes_of_way (one := fun _ => True) ⟨rfl, by simp [updates], by simp [updates], fun _ _ => rfl⟩)
        (raceFree_of_nodup (by simp [updates]))
    · obtain ⟨p, p1, p2⟩ := dispatchPar2_ok h3 h4 h5 (by simpa using hne) (by simp) hs ids.length
        (g := fun _ p => selectRowPar a (la.axes.getD ax default).str ids w p)
        (u := fun p => (List.range ids.length).flatMap fun q => u2 (γ := γ) a (fun _ x => w x)
          (p.1 + q, ((p.2 : Int) + (la.axes.getD ax default).str * ((ids.getD q 0 : Nat) : Int)).toNat))
        (fun pl x hx => by
          rw [zip_map_self] at hx
          obtain ⟨j, hj, rfl⟩ := List.mem_map.1 hx
          have hj := (hmem j).1 hj
          refine procLoop_ok fun q hq => ?_
          have hq := List.mem_range.1 hq
          simp only [posA j q hj hq]
          rw [if_neg (by omega), Int.toNat_natCast]
          exact upd2_ok (ca _ (inA j q hj hq)))
      rw [p1, ok_bind]
      have hU : updates p = e.flatMap fun j => (List.range ids.length).flatMap fun q => u2 (γ := γ) a (fun _ x => w x)
          (lc.pos (j.insertIdx ax q), la.pos (j.insertIdx ax (ids.getD q 0))) := by
        rw [p2, zip_map_self, List.flatMap_map]
        refine List.flatMap_congr fun j hj => List.flatMap_congr fun q hq => ?_
        have e1 := posA j q ((hmem j).1 hj) (List.mem_range.1 hq)
        have e2 := posC j q ((hmem j).1 hj)
        simp only at *
        rw [e1, e2, Int.toNat_natCast]
      have hu : ∀ u ∈ updates p, ∃ j q x, InRange j (s.eraseIdx ax) ∧ q < ids.length ∧
          a[la.pos (j.insertIdx ax (ids.getD q 0))]? = some x ∧ u = (lc.pos (j.insertIdx ax q), fun _ => w x) := by
        intro u hu
        rw [hU] at hu
        obtain ⟨j, hj, hu⟩ := List.mem_flatMap.1 hu
        obtain ⟨q, hq, hu⟩ := List.mem_flatMap.1 hu
        obtain ⟨x, hx⟩ := ca.get (inA j q ((hmem j).1 hj) (List.mem_range.1 hq))
        simp only [u2, hx, List.mem_singleton] at hu
        exact ⟨j, q, x, (hmem j).1 hj, List.mem_range.1 hq, hx, hu⟩
      have hfst : (updates p).map Prod.fst =
          e.flatMap fun j => (List.range ids.length).map fun q => lc.pos (j.insertIdx ax q) := by
        rw [hU, List.map_flatMap]
        refine List.flatMap_congr fun j hj => ?_
        rw [List.map_flatMap, List.map_eq_flatMap]
        refine List.flatMap_congr fun q hq => ?_
        obtain ⟨x, hx⟩ := ca.get (inA j q ((hmem j).1 hj) (List.mem_range.1 hq))
        simp only [u2, hx, List.map_cons, List.map_nil]
      refine he p c T' (computes_of_way (one := fun _ => False) ⟨hW.len.symm, fun i hf => hf.elim, ?_, ?_⟩)
        (raceFree_of_nodup ?_)
      · intro u hu'
        obtain ⟨j, q, x, hj, hq, hx, rfl⟩ := hu u hu'
        refine ⟨?_, .inr fun v => hW.set _ _ ⟨j, q, hj, hq, rfl, x, hx, rfl⟩⟩
        rw [hW.len, hc]
        exact T.lt _ (inC j q hj hq)
      · intro k hk
        refine (hW.keep k ?_).symm
        rintro v ⟨j, q, hj, hq, rfl, -⟩
        apply hk
        rw [hfst]
        exact List.mem_flatMap.2 ⟨j, (hmem j).2 hj, List.mem_map.2 ⟨q, List.mem_range.2 hq, rfl⟩⟩
      · rw [hfst, List.nodup_flatMap]
        refine ⟨?_, ?_⟩
        · intro j hj
          refine List.nodup_range.map_on ?_
          intro q hq q' hq' e1
          exact (uniq j q j q' ((hmem j).1 hj) (List.mem_range.1 hq) ((hmem j).1 hj) (List.mem_range.1 hq') e1).2
        · refine (h1.nodup_iff.2 (nodup_all .C _)).imp_of_mem ?_
          intro j j' hj hj' hne k hk hk'
          obtain ⟨q, hq, e1⟩ := List.mem_map.1 hk
          obtain ⟨q', hq', e2⟩ := List.mem_map.1 hk'
          exact hne (uniq j q j' q' ((hmem j).1 hj) (List.mem_range.1 hq) ((hmem j').1 hj') (List.mem_range.1 hq')
            (e1.trans e2.symm)).1
  · unfold indexSelectKernel
    rw [if_neg hstr, if_neg hstr]
    have : ∀ k1 k2 : Res (List γ), k1 = k2 → ∀ (p1 p2 p3 p4 : Prop) [Decidable p1] [Decidable p2] [Decidable p3] [Decidable p4]
      (e1 e2 e3 e4 : Res (List γ)), (if p1 then e1 else if p2 then e2 else if p3 then e3 else if p4 then e4 else k1) =
        (if p1 then e1 else if p2 then e2 else if p3 then e3 else if p4 then e4 else k2) := by
      rintro k1 k2 rfl; intros; rfl
    refine this _ _ ?_ _ _ _ _ _ _ _ _
    have step : ∀ q ∈ List.range ids.length, ∀ c : List γ, c.length = lc.size →
        (do
          let lcSel ← lc.dimSelect ax q
          let laSel ← la.dimSelect ax (ids.getD q 0 : Nat)
          assignRun dflt true sch exec c lcSel a laSel w) = (do
          let lcSel ← lc.dimSelect ax q
          let laSel ← la.dimSelect ax (ids.getD q 0 : Nat)
          assign dflt c lcSel a laSel w) ∧ ∀ d, (do
          let lcSel ← lc.dimSelect ax q
          let laSel ← la.dimSelect ax (ids.getD q 0 : Nat)
          assign dflt c lcSel a laSel w) = .ok d → d.length = lc.size := ?_
    · exact runAll_congr_inv (fun c => c.length = lc.size) (fun q hq c h => (step q hq c h).1)
        (fun q hq c d h => (step q hq c h).2 d) c hc
    intro q hq c hcl
    have hq := List.mem_range.1 hq
    have nc : normAxis lc.ndim (ax : Int) = ax := normAxis_ofNat _ _
    have na : normAxis la.ndim (ax : Int) = ax := normAxis_ofNat _ _
    have a1 : AxisOk lc.ndim (ax : Int) := ⟨by omega, by unfold Layout.ndim; omega⟩
    have a2 : AxisOk la.ndim (ax : Int) := ⟨by omega, by unfold Layout.ndim; omega⟩
    obtain ⟨m1, g1⟩ := (C10_accept_iff lc T.valid ax q).2 ⟨a1, by
      rw [nc, ← getD_dim, dimc]; exact ⟨by omega, by omega⟩⟩
    obtain ⟨m2, g2⟩ := (C10_accept_iff la hla.valid ax (ids.getD q 0 : Nat)).2 ⟨a2, by
      rw [na, ← getD_dim, dima]; exact ⟨by omega, by have := hidg q hq; omega⟩⟩
    have f1 := fits_select T.valid T.off g1
    have f2 := fits_select hla.valid hla.off g2
    obtain ⟨s1, p1⟩ := C10_select_element lc m1 T.valid _ _ g1
    obtain ⟨s2, p2⟩ := C10_select_element la m2 hla.valid _ _ g2
    simp only [nc, na, normAxis_ofNat] at f1 f2 s1 p1 s2 p2
    rw [hce] at f1 s1
    rw [hla.shape] at f2 s2
    have pos1 : ∀ j, InRange j (s.eraseIdx ax) → m1.pos j = lc.pos (j.insertIdx ax q) := fun j hj =>
      congrArg Int.toNat (p1 j (s1 ▸ hj)).2
    have pos2 : ∀ j, InRange j (s.eraseIdx ax) → m2.pos j = la.pos (j.insertIdx ax (ids.getD q 0)) := fun j hj =>
      congrArg Int.toNat (p2 j (s2 ▸ hj)).2
    have cc : Covers (s.eraseIdx ax) m1 c := fun j hj => by
      rw [pos1 j hj, hcl]; exact T.lt _ (inC j q hj hq)
    have ca' : Covers (s.eraseIdx ax) m2 a := fun j hj => by rw [pos2 j hj]; exact ca _ (inA j q hj hq)
    have inj : ∀ i j, InRange i (s.eraseIdx ax) → InRange j (s.eraseIdx ax) → m1.pos i = m1.pos j → i = j := by
      intro i j hi hj e
      rw [pos1 i hi, pos1 j hj] at e
      exact (uniq i q j q hi hq hj hq e).1
    simp only [g1, g2, ok_bind]
    refine ⟨assignRun_eq dflt true hs he f1 f2 cc ca' inj w, ?_⟩
    intro d hd'
    obtain ⟨c', w1, w2⟩ := assign_writes dflt f1 f2 cc ca' inj w
    rw [w1] at hd'; cases hd'
    exact w2.len.trans hcl

theorem concatLoop_par (dflt : Order) (pool : Bool) {sch : Scheduler} (hsch : sch.Fits)
    {exec : Proc (Option α) → List (Option α) → Res (List (Option α))} (he : RunsThreads exec)
    {lc : Layout} {rest : List Nat} {ax n N : Nat} (hax : ax ≤ rest.length)
    (T : Tight lc N) (hs : lc.shape = rest.insertIdx ax n) (ts : List (Tensor α)) (off : Nat)
    (hts : ∀ t ∈ ts, t.WF ∧ t.layout.shape = rest.insertIdx ax (axLen ax t))
    (hsum : off + (ts.map (axLen ax)).sum ≤ n) {c : List (Option α)} (hc : c.length = N) :
    Tensor.concatLoopPar dflt pool sch exec lc ax ts off c = Tensor.concatLoop dflt lc ax ts off c := by
  have lenlc : lc.axes.length = rest.length + 1 := by
    have := congrArg List.length hs
    rw [List.length_insertIdx_of_le_length hax] at this
    simpa [Layout.shape] using this
  have inC : ∀ j q, InRange j rest → q < n → InRange (j.insertIdx ax q) lc.shape := by
    intro j q hj hq
    rw [hs]
    exact inRange_insertIdx' hj hax hq
  have uniq : ∀ j q j' q', InRange j rest → q < n → InRange j' rest → q' < n →
      lc.pos (j.insertIdx ax q) = lc.pos (j'.insertIdx ax q') → j = j' ∧ q = q' := by
    intro j q j' q' h1 h2 h3 h4 e
    have := T.inj _ _ (inC j q h1 h2) (inC j' q' h3 h4) e
    exact insertIdx_inj (by have := h1.length_eq; omega) (by have := h3.length_eq; omega) this
  induction ts generalizing off c with
  | nil => rfl
  | cons t ts ih =>
    simp only [List.map_cons, List.sum_cons] at hsum
    obtain ⟨hW, hsh⟩ := hts t List.mem_cons_self
    obtain ⟨m, k1, k2, k3⟩ := narrow_stretch T.valid T.off (ax := ax) (off := off) (d := axLen ax t) (by omega) (by
      rw [hs, List.getD_eq_getElem?_getD, List.getElem?_insertIdx_self, if_pos hax]
      simp only [Option.getD_some]; omega)
    have hset : lc.shape.set ax (axLen ax t) = t.layout.shape := by
      rw [hs, hsh, set_insertIdx hax]
    rw [hset] at k2 k3
    have hdim : (t.layout.axes.getD ax default).dim = axLen ax t := getD_dim _ _
    have split : ∀ i, InRange i t.layout.shape → ∃ j q, InRange j rest ∧ q < axLen ax t ∧ i = j.insertIdx ax q := by
      intro i hi
      rw [← hset] at hi
      obtain ⟨j, q, h1, h2, h3⟩ := (inRange_set_split (by simp [Layout.shape]; omega)).1 hi
      rw [hs, List.eraseIdx_insertIdx_self] at h1
      exact ⟨j, q, h1, h2, h3⟩
    have join : ∀ j q, InRange j rest → q < axLen ax t → InRange (j.insertIdx ax q) t.layout.shape := by
      intro j q h1 h2
      rw [hsh]
      exact inRange_insertIdx' h1 hax h2
    have posM : ∀ j q, InRange j rest → q < axLen ax t → m.pos (j.insertIdx ax q) = lc.pos (j.insertIdx ax (off + q)) := by
      intro j q h1 h2
      have hj : ax ≤ j.length := by have := h1.length_eq; omega
      have := (k3 _ (join j q h1 h2)).2
      rw [getD_insertIdx hj, set_insertIdx hj] at this
      exact congrArg Int.toNat this
    have cc : Covers t.layout.shape m c := by
      intro i hi
      obtain ⟨j, q, h1, h2, rfl⟩ := split i hi
      rw [posM j q h1 h2, hc]
      exact T.lt _ (inC j _ h1 (by omega))
    have inj : ∀ i i', InRange i t.layout.shape → InRange i' t.layout.shape → m.pos i = m.pos i' → i = i' := by
      intro i i' hi hi' e
      obtain ⟨j, q, h1, h2, rfl⟩ := split i hi
      obtain ⟨j', q', h3, h4, rfl⟩ := split i' hi'
      rw [posM j q h1 h2, posM j' q' h3 h4] at e
      obtain ⟨rfl, e2⟩ := uniq j _ j' _ h1 (by omega) h3 (by omega) e
      rw [show q = q' by omega]
    obtain ⟨c1, g1, g2⟩ := assign_writes dflt k2 hW.fit.fits cc hW.covers inj some
    simp only [Tensor.concatLoopPar, Tensor.concatLoop, hdim, k1, ok_bind,
      assignRun_eq dflt pool hsch he k2 hW.fit.fits cc hW.covers inj some, g1]
    exact ih (off + axLen ax t) (fun u hu => hts u (List.mem_cons_of_mem _ hu)) (by omega) (g2.len.trans hc)

end
end Rstsr
