import Verif.Proof.Parallel
import Verif.Proof.Copy
/-!
# Theorems on parallel execution (C37)

`Spec/Concurrent.lean` says what threads do: an update of a cell is a read step and a write step, the steps of
parallel parts interleave in any way. `Computes p c T`: every execution of `p` on the storage `c` terminates,
none gets stuck, and all end with the storage `T`. `RaceFree p c`: in no reachable state two threads are about
to access the same cell. A scheduler is any function that says how a loop is split; `Fits` says that it splits
within the range.
-/
namespace Rstsr
open Spec

section
variable {α β γ : Type}

/-- The parallel kernel leaves what the serial one does: the serial kernel succeeds with some storage `T`;
on small inputs or without a thread pool the parallel kernel is the serial one; on large ones it starts
threads that compute `T` under every interleaving, without a race if `safe` holds. -/
def SameAsSerial (large safe : Prop) (c : List γ) (serial : Res (List γ)) (par : Res (Work γ)) : Prop :=
  ∃ T, serial = .ok T ∧ (¬ large → par = .ok (.done T)) ∧
    (large → ∃ p, par = .ok (.threads p) ∧ Computes p c T ∧ (safe → RaceFree p c))

theorem Tensor.WF.inj {c : Tensor γ} (h : c.WF) (hz : (0 : Int) ∉ c.layout.stride) :
    ∀ i j, InRange i c.layout.shape → InRange j c.layout.shape → c.layout.pos i = c.layout.pos j → i = j := by
  have hb : c.layout.isBroadcasted = false := by
    unfold Layout.isBroadcasted
    rw [Bool.eq_false_iff]
    simpa using hz
  exact fun i j hi hj e => pos_inj h.fit hb hi hj e

/-- `a op= b`, `map` into a new buffer, scalar operands: the two-operand kernel on any destination that
does not share cells. Missing: destinations with shared cells, for which the claim is false
(`C37_shared_cell_lost_update`). -/
theorem C37_update_partial (dflt : Order) (pool : Bool) (s : Scheduler) (hs : s.Fits) (c : Tensor γ) (a : Tensor α)
    (hc : c.WF) (ha : a.WF) (hsh : c.arr.shape = a.arr.shape) (hz : (0 : Int) ∉ c.layout.stride) (f : γ → α → γ) :
    SameAsSerial (4096 ≤ c.layout.size ∧ pool = true) True c.data
      (opMutaRefb dflt c.data c.layout a.data a.layout f)
      (opMutaRefbPar dflt pool s c.data c.layout a.data a.layout f) := by
  have hsh : c.layout.shape = a.layout.shape := hsh
  have fa : Fit c.layout.shape a.layout := hsh ▸ ha.fit
  have ca : Covers c.layout.shape a.layout a.data := hsh ▸ ha.covers
  obtain ⟨T, h1, h2, h3, h4⟩ := modify2 dflt hc.fit fa hc.covers ca (hc.inj hz) f
  refine ⟨T, h1, ?_, ?_⟩
  · intro hn
    unfold opMutaRefbPar
    rw [if_pos (by unfold opParSwitch; by_cases h : pool = true <;> simp_all), h1]
    rfl
  · rintro ⟨hl, rfl⟩
    obtain ⟨e, p, he, p1, p2⟩ := opMutaRefbPar_updates dflt hc.fit fa c.data ca f hs (by unfold opParSwitch; omega)
    refine ⟨p, p1, computes_of_way (one := fun _ => True) (by
      rw [p2]; exact way2_modify hc.covers ca (hc.inj hz) he h2 h3 h4), fun _ => raceFree_of_nodup ?_⟩
    rw [p2, u2_fst ca fun i hi => mem_all.1 (he.mem_iff.1 hi)]
    exact nodup_pos he (hc.inj hz)

/-- `a op b` on two tensors: the three-operand kernel on the output buffer that the operation allocates.
Where both operands are stretched along an axis the output shares cells, and then several threads write the
same value to a cell; the result is still that of the serial kernel. -/
theorem C37_binary (dflt : Order) (pool : Bool) (s : Scheduler) (hs : s.Fits) (a : Tensor α) (b : Tensor β)
    (ha : a.WF) (hb : b.WF) (f : α → β → γ) (la lb : Layout) (h : a.layout.broadcast b.layout dflt = .ok (la, lb)) :
    ∃ lc n, Layout.forBinaryOp la lb dflt = .ok lc ∧ lc.boundsIndex = .ok (0, (n : Nat)) ∧
      SameAsSerial (4096 ≤ lc.size ∧ pool = true) ((0 : Int) ∉ lc.stride) (uninit (n : Nat))
        (opMutcRefaRefb dflt (uninit (n : Nat)) lc a.data la b.data lb fun _ x y => some (f x y))
        (opMutcRefaRefbPar dflt pool s (uninit (n : Nat)) lc a.data la b.data lb fun _ x y => some (f x y)) := by
  obtain ⟨-, fa, fb, ca, cb, -, -⟩ := bc_facts ha hb h
  obtain ⟨m, g1, g2, g3, g4⟩ := forBinaryOp_spec (fa.shape.trans fb.shape.symm) dflt
  obtain ⟨hv, n, hbn, hlt, hsur⟩ := g3.spec
  have fm := g3.fit g2
  have hlen : (uninit (n : Nat) : List (Option γ)).length = n := by simp [uninit]
  have hcov : Covers la.shape m (uninit (n : Nat) : List (Option γ)) := fun i hi => by
    rw [hlen]; exact hlt i (g2 ▸ hi)
  obtain ⟨T, h1, h2, h3, h4⟩ := write3 dflt fm fa fb hcov ca cb g4 fun x y => some (f x y)
  refine ⟨m, n, g1, hbn, T, h1, ?_, ?_⟩
  · intro hn
    unfold opMutcRefaRefbPar
    rw [if_pos (by unfold opParSwitch; by_cases h : pool = true <;> simp_all), h1]
    rfl
  · rintro ⟨hl, rfl⟩
    obtain ⟨e, p, he, p1, p2⟩ := opMutcRefaRefbPar_updates dflt fm fa fb (uninit (n : Nat)) ca cb
      (fun (_ : Option γ) x y => some (f x y)) hs (by unfold opParSwitch; omega)
    refine ⟨p, p1, computes_of_way (one := fun _ => False) (by rw [p2]; exact way3_write hcov ca cb he h2 h3 h4), ?_⟩
    intro hz
    apply raceFree_of_nodup
    rw [p2, u3_fst ca cb fun i hi => mem_all.1 (he.mem_iff.1 hi)]
    refine nodup_pos he fun i j hi hj e => pos_inj fm ?_ hi hj e
    unfold Layout.isBroadcasted
    rw [Bool.eq_false_iff]
    simpa using hz

/-- In-place map: any destination, shared cells are visited once. -/
theorem C37_map_inplace (dflt : Order) (pool : Bool) (s : Scheduler) (hs : s.Fits) (c : Tensor γ) (hc : c.WF)
    (f : γ → γ) :
    SameAsSerial (4096 ≤ c.layout.size ∧ pool = true) True c.data (opMuta dflt c.data c.layout f)
      (opMutaPar dflt pool s c.data c.layout f) := by
  obtain ⟨T, h1, h2, h3, h4⟩ := modify1 dflt hc.fit hc.covers f
  refine ⟨T, h1, ?_, ?_⟩
  · intro hn
    unfold opMutaPar
    rw [if_pos (by unfold opParSwitch; by_cases h : pool = true <;> simp_all), h1]
    rfl
  · rintro ⟨hl, rfl⟩
    obtain ⟨ps, p, hnd, hm, p1, p2⟩ := opMutaPar_updates dflt hc.fit c.data f hs (by unfold opParSwitch; omega)
    have hfst : (ps.map fun i => (i, f)).map Prod.fst = ps := by simp [Function.comp_def]
    refine ⟨p, p1, computes_of_way (one := fun _ => True) ?_, fun _ => raceFree_of_nodup (by rw [p2, hfst]; exact hnd)⟩
    rw [p2]
    refine ⟨h2.symm, ?_, ?_, ?_⟩
    · intro i _
      rw [hfst]
      exact List.nodup_iff_count_le_one.1 hnd i
    · intro u hu
      obtain ⟨x, hx, rfl⟩ := List.mem_map.1 hu
      obtain ⟨i, hi, rfl⟩ := (hm x).1 hx
      exact ⟨by rw [h2]; exact hc.covers i hi, .inl ⟨trivial, (h3 i hi).symm⟩⟩
    · intro k hk
      rw [hfst] at hk
      exact (h4 k fun i hi e => hk ((hm k).2 ⟨i, hi, e⟩)).symm

/-- `fill`: any destination. -/
theorem C37_fill (dflt : Order) (pool : Bool) (s : Scheduler) (hs : s.Fits) (c : Tensor γ) (hc : c.WF) (v : γ) :
    SameAsSerial (16384 ≤ c.layout.size ∧ pool = true) True c.data (fill dflt c.data c.layout v)
      (fillPar dflt pool s c.data c.layout v) := by
  obtain ⟨T, h1, h2, h3, h4⟩ := fill1 dflt hc.fit hc.covers v
  refine ⟨T, h1, ?_, ?_⟩
  · intro hn
    unfold fillPar
    rw [if_pos (by unfold assignParSwitch; by_cases h : pool = true <;> simp_all), h1]
    rfl
  · rintro ⟨hl, rfl⟩
    obtain ⟨ps, p, hnd, hm, p1, p2⟩ := fillPar_updates dflt hc.fit c.data v hs (by unfold assignParSwitch; omega)
    have hfst : (ps.map fun i => (i, fun _ : γ => v)).map Prod.fst = ps := by simp [Function.comp_def]
    refine ⟨p, p1, computes_of_way (one := fun _ => False) ?_, fun _ => raceFree_of_nodup (by rw [p2, hfst]; exact hnd)⟩
    rw [p2]
    refine ⟨h2.symm, fun i hf => hf.elim, ?_, ?_⟩
    · intro u hu
      obtain ⟨x, hx, rfl⟩ := List.mem_map.1 hu
      obtain ⟨i, hi, rfl⟩ := (hm x).1 hx
      exact ⟨by rw [h2]; exact hc.covers i hi, .inr fun _ => h3 i hi⟩
    · intro k hk
      rw [hfst] at hk
      exact (h4 k fun i hi e => hk ((hm k).2 ⟨i, hi, e⟩)).symm

/-- Assignment from a tensor of the same shape, with or without a cast. -/
theorem C37_assign (dflt : Order) (pool : Bool) (s : Scheduler) (hs : s.Fits) (c : Tensor γ) (a : Tensor α)
    (hc : c.WF) (ha : a.WF) (hsh : c.arr.shape = a.arr.shape) (hz : (0 : Int) ∉ c.layout.stride) (w : α → γ) :
    SameAsSerial (16384 ≤ c.layout.size ∧ pool = true) True c.data
      (assign dflt c.data c.layout a.data a.layout w) (assignPar dflt pool s c.data c.layout a.data a.layout w) := by
  have hsh : c.layout.shape = a.layout.shape := hsh
  have fa : Fit c.layout.shape a.layout := hsh ▸ ha.fit
  have ca : Covers c.layout.shape a.layout a.data := hsh ▸ ha.covers
  obtain ⟨T, h1, h2, h3, h4⟩ := assign2 dflt hc.fit fa hc.covers ca
    (fun i j hi hj e => by rw [hc.inj hz i j hi hj e]) w
  refine ⟨T, h1, ?_, ?_⟩
  · intro hn
    unfold assignPar
    rw [if_pos (by unfold assignParSwitch; by_cases h : pool = true <;> simp_all), h1]
    rfl
  · rintro ⟨hl, rfl⟩
    obtain ⟨e, p, he, p1, p2⟩ := assignPar_updates dflt hc.fit fa c.data ca w hs (by unfold assignParSwitch; omega)
    refine ⟨p, p1, computes_of_way (one := fun _ => False) (by
      rw [p2]; exact way2_write hc.covers ca he h2 h3 h4), fun _ => raceFree_of_nodup ?_⟩
    rw [p2, u2_fst ca fun i hi => mem_all.1 (he.mem_iff.1 hi)]
    exact nodup_pos he (hc.inj hz)

/-- Copy between tensors of the same size and any shapes, in row-major or column-major sequence. Between two
contiguous tensors no threads are started. -/
theorem C37_copy (dflt o : Order) (pool : Bool) (s : Scheduler) (hs : s.Fits) (c : Tensor γ) (a : Tensor α)
    (hc : c.WF) (ha : a.WF) (hsz : c.layout.size = a.layout.size) (hz : (0 : Int) ∉ c.layout.stride) (w : α → γ) :
    ∃ large : Prop, (large → 16384 ≤ c.layout.size ∧ pool = true) ∧
    SameAsSerial large True c.data (assignArbitrary dflt c.data c.layout a.data a.layout o w)
      (assignArbitraryPar dflt pool s c.data c.layout a.data a.layout o w) := by
  obtain ⟨-, -, -, -, bc⟩ := WF_bounds hc
  obtain ⟨-, -, -, -, ba⟩ := WF_bounds ha
  have hinj := hc.inj hz
  obtain ⟨T, h1, -⟩ := assignArbitrary2 dflt o hc.fit ha.fit hsz hc.covers ha.covers bc ba hinj w
  refine ⟨(16384 ≤ c.layout.size ∧ pool = true) ∧ ¬ (c.layout.contigIn o && a.layout.contigIn o), fun h => h.1, T, h1, ?_, ?_⟩
  · intro hn
    by_cases hk : c.layout.contigIn o && a.layout.contigIn o
    · rw [assignArbitraryPar_contig dflt o c.data w pool hk, h1]; rfl
    · unfold assignArbitraryPar
      rw [if_pos (by unfold assignParSwitch; by_cases h : pool = true <;> simp_all), h1]
      rfl
  · rintro ⟨⟨hl, rfl⟩, hk⟩
    obtain ⟨p, p1, p2⟩ := assignArbitraryPar_updates dflt o hc.fit ha.fit hsz c.data ha.covers w hs
      (by unfold assignParSwitch; omega) hk
    have hfst : ((((positions o c.layout).zip (positions o a.layout)).flatMap (u2 a.data fun (_ : γ) x => w x))).map Prod.fst
        = positions o c.layout := by
      have key : ∀ ps : List (Nat × Nat), (∀ q ∈ ps, q.2 < a.data.length) →
          (ps.flatMap (u2 a.data fun (_ : γ) x => w x)).map Prod.fst = ps.map Prod.fst := by
        intro ps
        induction ps with
        | nil => simp
        | cons q ps ih =>
          intro h
          simp only [List.flatMap_cons, List.map_append, List.map_cons, ih fun r hr => h r (by simp [hr])]
          simp [u2, h q (by simp)]
      rw [key, List.map_fst_zip]
      · rw [positions_length, positions_length, hsz]
      · intro q hq
        have := (List.of_mem_zip hq).2
        rw [positions_eq] at this
        obtain ⟨i, hi, e⟩ := List.mem_map.1 this
        rw [← e]; exact ha.covers i (mem_all.1 hi)
    have hnd : (positions o c.layout).Nodup := by
      rw [positions_eq]
      exact (nodup_all o _).map_on fun i hi j hj => hinj i j (mem_all.1 hi) (mem_all.1 hj)
    refine ⟨p, p1, computes_of_way (one := fun _ => True) ?_, fun _ => raceFree_of_nodup (by rw [p2, hfst]; exact hnd)⟩
    rw [p2]
    refine way_nodup (by rw [hfst]; exact hnd) ?_ ?_
    · intro u hu
      have := List.mem_map_of_mem (f := Prod.fst) hu
      rw [hfst, positions_eq] at this
      obtain ⟨i, hi, e⟩ := List.mem_map.1 this
      rw [← e]; exact hc.covers i (mem_all.1 hi)
    · rw [runU_zip, ← assignArbitrary_eq dflt o hc.fit ha.fit hsz hc.covers ha.covers bc ba w, h1]
      intro q hq
      have := (List.of_mem_zip hq).2
      rw [positions_eq] at this
      obtain ⟨i, hi, e⟩ := List.mem_map.1 this
      rw [← e]; exact ha.covers i (mem_all.1 hi)

/-- The condition on shared cells is needed: two threads that both update the one cell of a stretched
destination can lose an update. The loop below is the parallel loop of `a += b` over two elements. -/
theorem C37_shared_cell_lost_update :
    ∃ (s : Scheduler) (p : Proc Nat), s.Fits ∧
      dispatchPar2 ⟨[⟨2, 0⟩], 0⟩ ⟨[⟨2, 1⟩], 0⟩ (fun _ q => upd2 [1, 1] (fun v x => v + x) q.1 q.2) s 1 = .ok p ∧
      Steps (p, [0]) (.nil, [2]) ∧ Steps (p, [0]) (.nil, [1]) := by
  refine ⟨fun m n => if m = 2 then .split 1 (.run fun _ => .run) (.run fun _ => .run) else .run fun _ => .run,
    .par (.seq (.upd 0 fun v => v + 1) .nil) (.seq (.upd 0 fun v => v + 1) .nil), ?_, rfl, ?_, ?_⟩
  · intro m n
    simp only
    split
    · exact ⟨by omega, fun _ => trivial, fun _ => trivial⟩
    · exact fun _ => trivial
  · have h0 := Steps.refl (Proc.par (.seq (.upd 0 fun v => v + 1) .nil) (.seq (.upd 0 fun v => v + 1) .nil), [0])
    have h1 := h0.tail (.left (.seq (.read (v := 0) rfl)))
    have h2 := h1.tail (.left (.seq (.write (by decide))))
    have h3 := h2.tail (.left .next)
    have h4 := h3.tail (.right (.seq (.read (v := 1) rfl)))
    have h5 := h4.tail (.right (.seq (.write (by decide))))
    have h6 := h5.tail (.right .next)
    exact h6.tail .join
  · have h0 := Steps.refl (Proc.par (.seq (.upd 0 fun v => v + 1) .nil) (.seq (.upd 0 fun v => v + 1) .nil), [0])
    have h1 := h0.tail (.left (.seq (.read (v := 0) rfl)))
    have h2 := h1.tail (.right (.seq (.read (v := 0) rfl)))
    have h3 := h2.tail (.left (.seq (.write (by decide))))
    have h4 := h3.tail (.left .next)
    have h5 := h4.tail (.right (.seq (.write (by decide))))
    have h6 := h5.tail (.right .next)
    exact h6.tail .join

/-! ## Concrete cases -/

/-- The scheduler that halves every loop three times. -/
def halving : Scheduler :=
  let plan (n : Nat) : Plan := .split (n / 2) .run .run
  let sched (d : Nat) : Nat → Nat → Sched := d.rec (fun _ n => .run fun _ => plan n)
    (fun _ ih m n => .split (m / 2) (ih (m / 2) n) (ih (m - m / 2) n))
  sched 3

theorem halving_fits : halving.Fits := by
  intro m n
  simp only [halving, Sched.Fits, Plan.Fits]
  refine ⟨by omega, ⟨by omega, ⟨by omega, ?_, ?_⟩, ⟨by omega, ?_, ?_⟩⟩, ⟨by omega, ⟨by omega, ?_, ?_⟩, ⟨by omega, ?_, ?_⟩⟩⟩ <;>
    exact fun _ => ⟨by omega, trivial, trivial⟩

/-- A tensor of 64 × 100 zeros, transposed in storage. -/
def bigC : Tensor Nat := ⟨List.replicate 6400 0, ⟨[⟨64, 1⟩, ⟨100, 64⟩], 0⟩⟩
/-- A row-major tensor of the same shape. -/
def bigA : Tensor Nat := ⟨List.replicate 6400 7, ⟨[⟨64, 100⟩, ⟨100, 1⟩], 0⟩⟩

theorem big_wf : bigC.WF ∧ bigA.WF := by
  constructor
  · refine ⟨by decide, ?_⟩
    unfold Tensor.newF
    rw [show bigC.data.length = 6400 from List.length_replicate ..]
    rfl
  · refine ⟨by decide, ?_⟩
    unfold Tensor.newF
    rw [show bigA.data.length = 6400 from List.length_replicate ..]
    rfl

example : bigC.WF ∧ bigA.WF ∧ bigC.arr.shape = bigA.arr.shape ∧ (0 : Int) ∉ bigC.layout.stride ∧
    (4096 ≤ bigC.layout.size ∧ true = true) ∧ halving.Fits :=
  ⟨big_wf.1, big_wf.2, by decide, by decide, by decide, halving_fits⟩

/-- The threads of this case exist and add 7 everywhere. -/
example : ∃ p T, opMutaRefbPar .C true halving bigC.data bigC.layout bigA.data bigA.layout (· + ·) = .ok (.threads p) ∧
    Computes p bigC.data T ∧ RaceFree p bigC.data ∧ T[123]? = some 7 := by
  obtain ⟨T, h1, -, h3⟩ := C37_update_partial .C true halving halving_fits bigC bigA big_wf.1 big_wf.2 (by decide) (by decide) (· + ·)
  obtain ⟨p, p1, p2, p3⟩ := h3 (by decide)
  refine ⟨p, T, p1, p2, p3 trivial, ?_⟩
  obtain ⟨T', k1, -, k3, -⟩ := modify2 .C big_wf.1.fit big_wf.2.fit big_wf.1.covers big_wf.2.covers
    (big_wf.1.inj (by decide)) (f := (· + ·))
  have k1 : opMutaRefb .C bigC.data bigC.layout bigA.data bigA.layout (· + ·) = .ok T' := k1
  rw [h1] at k1
  cases k1
  have e1 : bigC.data[bigC.layout.pos [59, 1]]? = some 0 := by
    rw [show bigC.layout.pos [59, 1] = 123 by decide]
    show (List.replicate 6400 0)[123]? = some 0
    rw [List.getElem?_replicate]; rfl
  have e2 : bigA.data[bigA.layout.pos [59, 1]]? = some 7 := by
    rw [show bigA.layout.pos [59, 1] = 5901 by decide]
    show (List.replicate 6400 7)[5901]? = some 7
    rw [List.getElem?_replicate]; rfl
  exact k3 [59, 1] (by decide) 0 7 e1 e2

example : ∃ la lb, bigC.layout.broadcast bigA.layout .C = .ok (la, lb) := ⟨_, _, rfl⟩

end
end Rstsr
