import Verif.Proof.ReduceAxes
/-! # Lemmas about the parallel axis reduction -/
namespace Rstsr
open Spec

section
variable {α σ ω : Type} {R : Reducer α σ ω} {a : List α} {off : Int} {ls lm lo : Layout}

/-- One update per index, to the result of that index. -/
def outUpdates (R : Reducer α σ ω) (a : List α) (off : Int) (ls lm lo : Layout) (e : List (List Nat)) :
    List (Nat × (Option ω → Option ω)) :=
  e.map fun j => (lo.pos j, fun _ => some (R.fOut (cellSum R a off ls (lm.pos j))))

/-- Threads with these updates leave the results, without a race. -/
theorem outUpdates_computes (h : Setup a off ls lm lo) {e : List (List Nat)} (he : e.Perm (all .C lm.shape))
    {p : Proc (Option ω)} (hp : updates p = outUpdates R a off ls lm lo e) :
    ∃ c, Computes p (uninit lo.size) c ∧ RaceFree p (uninit lo.size) ∧ Out R a off ls lm lo c := by
  have hm : ∀ j ∈ e, InRange j lm.shape := fun j hj => mem_all.1 (he.mem_iff.1 hj)
  have hu : (uninit (γ := ω) lo.size).length = lo.size := by simp [uninit]
  obtain ⟨c, h1, h2⟩ := write_each (R := R) h he (st := fun q c => modifyAt c q.2 fun _ =>
    some (R.fOut (cellSum R a off ls q.1))) (fun j hj c => rfl) hu
  have hfst : (outUpdates R a off ls lm lo e).map Prod.fst = e.map lo.pos := by
    simp [outUpdates, Function.comp_def]
  have hnd : ((updates p).map Prod.fst).Nodup := by
    rw [hp, hfst]
    exact nodup_pos he fun i j hi hj e => h.inj hi hj e
  refine ⟨c, computes_of_way (one := fun _ => True) (way_nodup hnd ?_ ?_), raceFree_of_nodup hnd, h2⟩
  · intro u hu'
    rw [hp] at hu'
    obtain ⟨j, hj, rfl⟩ := List.mem_map.1 hu'
    rw [hu]
    exact h.lt (hm j hj)
  · rw [hp, ← h1, zip_map_self, runAll_map]
    unfold runU outUpdates
    rw [runAll_map]

theorem setup_ne (h : Setup a off ls lm lo) {e : List (List Nat)} (he : e.Perm (all .C lm.shape)) : e ≠ [] := by
  apply perm_ne_nil he (l := lm) rfl
  exact prod_ne_zero_iff.2 fun x hx => Nat.pos_of_ne_zero fun h0 => h.wm.plain.pos (h0 ▸ hx)

theorem flatMap_single {ι δ : Type} (xs : List ι) (f : ι → δ) : xs.flatMap (fun x => [f x]) = xs.map f := by
  induction xs with
  | nil => rfl
  | cons x xs ih => simp [ih]

variable (M : Monoidal R.init R.f R.fSum) {s : Nat → Scheduler} (hs : ∀ k, (s k).Fits)
include M hs

theorem routeSPar_ok (h : Setup a off ls lm lo) {n : Nat} (hn : axesProduct ls ls.axesComposition.2.2 = .ok n) :
    ∃ e p, e.Perm (all .C lm.shape) ∧ reduceRouteSPar s R a off 1 n ls lm lo = .ok p ∧
      updates p = outUpdates R a off ls lm lo e := by
  obtain ⟨e, J, he, hm⟩ := h.wm.steps
  obtain ⟨e', J', he', hm'⟩ := h.ws.steps
  obtain ⟨a1, a2, -⟩ := hm lm (.inl h.wm) rfl
  obtain ⟨b1, b2, -⟩ := hm lo (.inr ⟨h.tight.valid, h.tight.off⟩) h.sh
  obtain ⟨-, -, c3, -, c5⟩ := hm' ls (.inl h.ws) rfl
  obtain ⟨c5, c6⟩ := c5 h.ws.packed
  have c6 := c6 n hn
  have hn0 : n ≠ 0 := by
    obtain ⟨n', h1, -, h3, -⟩ := h.ws.size_contig
    rw [hn] at h1; cases h1; exact h3
  have hne' : e' ≠ [] := by
    apply perm_ne_nil he' (l := ls) rfl
    exact prod_ne_zero_iff.2 fun x hx => Nat.pos_of_ne_zero fun h0 => h.ws.plain.pos (h0 ▸ hx)
  have hJ : J' ≠ [] := blocks_ne_nil hne' c6
  obtain ⟨it, i1, i2, i3, i4, i5, i6⟩ := iter_of_items c5 (by simpa using hJ)
  have hval : ∀ j, InRange j lm.shape → ∀ sch : Sched, sch.Fits it.len 0 →
      parFold1 R.init R.fSum (fun _ acc z => do stepBlock R a n acc (← atOffset off (lm.pos j) z)) sch it =
        .ok (cellSum R a off ls (lm.pos j)) := by
    intro j hj sch hf
    rw [parFold1_total M (m := 0) (w := fun y => total R.init R.fSum ((List.range n).map fun t => cellAt R a off (lm.pos j) (y + t)))
      sch i2 i3 i4 hf, i5, value_blocks M he' c6]
    intro _ z hz acc
    rw [i5] at hz
    obtain ⟨k, hk, rfl⟩ := List.mem_map.1 hz
    exact step_block M he' hn0 c6 (h.reads j hj) hk acc
  obtain ⟨p, p1, p2⟩ := dispatchPar2diff_ok a2 b2 (by simpa using setup_ne h he) (by simp) (hs 0) 0
    (g := fun _ p => do
      let acc ← parFold1 R.init R.fSum (fun _ acc z => do stepBlock R a n acc (← atOffset off p.1 z))
        (s (p.2 + 1) it.len 0) it
      return .upd p.2 fun _ => some (R.fOut (repeatAcc R 1 acc)))
    (u := fun p => [(p.2, fun _ => some (R.fOut (cellSum R a off ls p.1)))])
    (fun pl x hx => by
      rw [zip_map_self] at hx
      obtain ⟨j, hj, rfl⟩ := List.mem_map.1 hx
      refine ⟨.upd (lo.pos j) fun _ => some (R.fOut (cellSum R a off ls (lm.pos j))), ?_, rfl⟩
      simp only [hval j (mem_all.1 (he.mem_iff.1 hj)) _ (hs _ _ _), ok_bind]
      rfl)
  refine ⟨e, p, he, ?_, ?_⟩
  · unfold reduceRouteSPar
    simp only [a1, b1, c3, ok_bind, i1]
    exact p1
  · rw [p2, zip_map_self, flatMap_single, List.map_map]
    rfl

theorem routeDPar_ok (h : Setup a off ls lm lo) (hs0 : ls.axesComposition.2.2 = []) (hm0 : lm.axesComposition.2.2 = []) :
    ∃ e p, e.Perm (all .C lm.shape) ∧ reduceRouteDPar s R a off 1 ls lm lo = .ok p ∧
      updates p = outUpdates R a off ls lm lo e := by
  obtain ⟨e, J, he, hm⟩ := h.wm.steps
  obtain ⟨e', J', he', hm'⟩ := h.ws.steps
  obtain ⟨a1, a2, -⟩ := hm lm (.inl h.wm) rfl
  obtain ⟨b1, b2, -⟩ := hm lo (.inr ⟨h.tight.valid, h.tight.off⟩) h.sh
  obtain ⟨c1, c2, -⟩ := hm' ls (.inl h.ws) rfl
  rw [hm0, List.nil_append] at a1 b1
  rw [hs0, List.nil_append] at c1
  have hne' : e' ≠ [] := by
    apply perm_ne_nil he' (l := ls) rfl
    exact prod_ne_zero_iff.2 fun x hx => Nat.pos_of_ne_zero fun h0 => h.ws.plain.pos (h0 ▸ hx)
  obtain ⟨it, i1, i2, i3, i4, i5, i6⟩ := iter_of_items c2 (by simpa using hne')
  have hval : ∀ j, InRange j lm.shape → ∀ sch : Sched, sch.Fits it.len 0 →
      parFold1 R.init R.fSum (fun _ acc z => do stepAt R a acc (← atOffset off (lm.pos j) z)) sch it =
        .ok (cellSum R a off ls (lm.pos j)) := by
    intro j hj sch hf
    rw [parFold1_total M (m := 0) (w := cellAt R a off (lm.pos j)) sch i2 i3 i4 hf, i5, cellSum_perm M he']
    intro _ z hz acc
    rw [i5] at hz
    obtain ⟨k, hk, rfl⟩ := List.mem_map.1 hz
    exact step_cell M (h.reads j hj) (mem_all.1 (he'.mem_iff.1 hk)) acc
  obtain ⟨p, p1, p2⟩ := dispatchPar2diff_ok a2 b2 (by simpa using setup_ne h he) (by simp) (hs 0) 0
    (g := fun _ p => do
      let acc ← parFold1 R.init R.fSum (fun _ acc z => do stepAt R a acc (← atOffset off p.1 z))
        (s (p.2 + 1) it.len 0) it
      return .upd p.2 fun _ => some (R.fOut (repeatAcc R 1 acc)))
    (u := fun p => [(p.2, fun _ => some (R.fOut (cellSum R a off ls p.1)))])
    (fun pl x hx => by
      rw [zip_map_self] at hx
      obtain ⟨j, hj, rfl⟩ := List.mem_map.1 hx
      refine ⟨.upd (lo.pos j) fun _ => some (R.fOut (cellSum R a off ls (lm.pos j))), ?_, rfl⟩
      simp only [hval j (mem_all.1 (he.mem_iff.1 hj)) _ (hs _ _ _), ok_bind]
      rfl)
  refine ⟨e, p, he, ?_, ?_⟩
  · unfold reduceRouteDPar
    simp only [a1, b1, c1, ok_bind, i1]
    exact p1
  · rw [p2, zip_map_self, flatMap_single, List.map_map]
    rfl

theorem routeMPar_ok (h : Setup a off ls lm lo) {n : Nat} (hn : axesProduct lm lm.axesComposition.2.2 = .ok n) :
    ∃ e p, e.Perm (all .C lm.shape) ∧ reduceRouteMPar s R a off 1 n ls lm lo = .ok p ∧
      updates p = outUpdates R a off ls lm lo e := by
  obtain ⟨e, J, he, hm⟩ := h.wm.steps
  obtain ⟨e', J', he', hm'⟩ := h.ws.steps
  obtain ⟨-, -, a3, -, a5⟩ := hm lm (.inl h.wm) rfl
  obtain ⟨a5, a6⟩ := a5 h.wm.packed
  obtain ⟨-, -, b3, b4, b5⟩ := hm lo (.inr ⟨h.tight.valid, h.tight.off⟩) h.sh
  obtain ⟨b5, b6⟩ := b5 h.packed
  obtain ⟨c1, c2, -⟩ := hm' ls (.inl h.ws) rfl
  have hn0 : n ≠ 0 := by
    obtain ⟨n', h1, -, h3, -⟩ := h.wm.size_contig
    rw [hn] at h1; cases h1; exact h3
  have a6 := a6 n hn
  have b6 := b6 n hn
  obtain ⟨r1, r2⟩ := row_pairs M h he a6 b6
  have hJ : J ≠ [] := blocks_ne_nil (setup_ne h he) a6
  obtain ⟨p, p1, p2⟩ := dispatchPar2diff_ok a5 b5 (by simpa using hJ) (by simp) (hs 0) n
    (g := fun inner p => do
      let vacc ← rowAcc R a 64 off p.1 n (e'.map ls.pos)
      parRange (fun t => do
        let acc ← readAt vacc t
        return .upd (p.2 + t) fun _ => some (R.fOut (repeatAcc R 1 acc))) inner (List.range n))
    (u := fun p => (List.range n).flatMap fun t => [(p.2 + t, fun _ => some (R.fOut (cellSum R a off ls (p.1 + t))))])
    (fun pl x hx => by
      rw [zip_map_self] at hx
      obtain ⟨j, hj, rfl⟩ := List.mem_map.1 hx
      simp only
      rw [routeM_row M h he' (by decide) (fun t ht => by
          obtain ⟨i, hi, e1, -⟩ := r1 j hj t ht
          rw [← e1]; exact h.reads i hi) hn0, ok_bind]
      refine parRange_ok pl fun t ht => ⟨.upd _ fun _ => some (R.fOut (cellSum R a off ls (_ + t))), ?_, rfl⟩
      rw [readAt_ok.2 (show _ = some (cellSum R a off ls (_ + t)) by
        rw [List.getElem?_map, List.getElem?_range (List.mem_range.1 ht)]; rfl)]
      rfl)
  refine ⟨e, p, he, ?_, ?_⟩
  · unfold reduceRouteMPar
    simp only [c1, c2, a3, b3, b4, ok_bind, packed_fContig h.packed, Bool.not_true, Bool.false_eq_true, if_false]
    exact p1
  · rw [p2, zip_map_self, List.flatMap_map]
    simp only
    rw [flatMap_blocks J n (fun r => ((⟨pick lm.axes lm.axesDiscontig, lm.offset⟩ : Layout).pos r.1 + r.2,
      (⟨pick lo.axes lm.axesDiscontig, lo.offset⟩ : Layout).pos r.1 + r.2))
      (fun q => [(q.2, fun _ => some (R.fOut (cellSum R a off ls q.1)))]), ← map_pair_eq a6 b6, flatMap_single, List.map_map]
    rfl

theorem reduceAxesPar_ok (dflt : Order) {t : Tensor α} (h : t.WF) (hp : Plain t.layout) {axes : List Int}
    (hd : t.layout.dimSplitAxes axes = .ok (ls, lm)) (hsz : ¬ t.layout.size < reduceParSwitch) :
    ∃ p n fin c d lo', reduceAxesPar dflt s R t.data t.layout axes = .ok (.threads p n fin) ∧
      Computes p (uninit n) c ∧ RaceFree p (uninit n) ∧ fin c = .ok (d, lo') ∧ lo'.shape = lm.shape ∧
      (⟨d, lo'⟩ : Tensor ω).WF ∧
      ∀ j, InRange j lm.shape → (⟨d, lo'⟩ : Tensor ω).arr.elem j =
        some (R.fOut ((t.arr.slice (axes.map (normAxis t.arr.shape.length)) j).elements.foldl R.f R.init)) := by
  obtain ⟨lo, o1, st, o3⟩ := split_setup dflt h hp hd M
  obtain ⟨n1, a1, -, -, a4⟩ := st.ws.size_contig
  obtain ⟨n2, b1, -, -, b4⟩ := st.wm.size_contig
  have hsizes : reduceSizes ls lm = .ok (1, n1, 1, n2) := by
    unfold reduceSizes
    simp only [st.ws.size_broadcast, st.wm.size_broadcast, a1, b1, ok_bind]
    rfl
  have hroute : ∃ e p, e.Perm (all .C lm.shape) ∧ (if n1 > 1 then reduceRouteSPar s R t.data t.layout.offset 1 n1 ls lm lo
      else if n2 > 1 then reduceRouteMPar s R t.data t.layout.offset 1 n2 ls lm lo
      else reduceRouteDPar s R t.data t.layout.offset 1 ls lm lo) = .ok p ∧
      updates p = outUpdates R t.data t.layout.offset ls lm lo e := by
    split
    · exact routeSPar_ok M hs st a1
    · split
      · exact routeMPar_ok M hs st b1
      · exact routeDPar_ok M hs st (a4 (by omega)) (b4 (by omega))
  obtain ⟨e, p, he, p1, p2⟩ := hroute
  obtain ⟨c, c1, c2, c3⟩ := outUpdates_computes st he p2
  obtain ⟨d, f1, f2, f3, f4, f5⟩ := fresh_finish st.tight c3.1
    (fun j v => v = R.fOut ((t.arr.slice (axes.map (normAxis t.arr.shape.length)) j).elements.foldl R.f R.init))
    (fun j hj => by
      rw [st.sh] at hj
      exact ⟨_, rfl, by rw [c3.2 j hj, o3 j hj]⟩)
  refine ⟨p, lo.size, fun c => do
      let out ← reduceSpread t.layout.offset 1 lm lo c
      return (← assumeInit out, lo), c, d, lo, ?_, c1, c2, ?_, st.sh, f4, fun j hj => ?_⟩
  · unfold reduceAxesPar
    rw [if_neg hsz]
    simp only [hd, o1, hsizes, ok_bind, p1]
    rfl
  · simp only [reduceSpread_one, ok_bind, f1]
    rfl
  · obtain ⟨v, e1, e2⟩ := f5 j (by rw [st.sh]; exact hj)
    rw [e2, e1]

end
end Rstsr
