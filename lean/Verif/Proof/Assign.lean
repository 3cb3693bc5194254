import Verif.Proof.BroadcastSame
/-! # Lemmas about the assignment kernels -/
namespace Rstsr
open Spec

section
variable {α β γ : Type}

theorem zipBlock_eq {a : List α} {f : γ → α → γ} {i j n : Nat} {c : List γ} (h1 : i + n ≤ c.length)
    (h2 : j + n ≤ a.length) :
    zipBlock a f i j n c = runAll (fun t c => step2 a f (i + t) (j + t) c) (List.range n) c := by
  unfold zipBlock
  rw [if_neg (by omega)]

theorem assign_eq (dflt : Order) {s : List Nat} {lc la : Layout} (hc : Fit s lc) (ha : Fit s la)
    {c : List γ} {a : List α} (cc : Covers s lc c) (ca : Covers s la a) (cast : α → γ) :
    ∃ e : List (List Nat), e.Perm (all .C s) ∧
      assign dflt c lc a la cast = runAll (fun i => step2 a (fun _ x => cast x) (lc.pos i) (la.pos i)) e c := by
  obtain ⟨e, mc, ma, h1, h2, h3, h4, h5, h6⟩ := joint2 dflt hc ha
  refine ⟨e, h1, ?_⟩
  have hmem : ∀ i, i ∈ e ↔ InRange i s := fun i => h1.mem_iff.trans mem_all
  unfold assign
  rw [h2]
  simp only [ok_bind]
  cases hw : Layout.withContig [mc, ma] with
  | mk contig n =>
    simp only
    split
    · rename_i hge
      have hn : n ≠ 0 := by unfold contigSwitch at hge; omega
      obtain ⟨oc, oa, J, rfl, k2, k3, k4, k5⟩ := h6 contig n hw hn
      simp only [dispatch2, k2, ne_eq, not_true_eq_false, if_false, k3, k4, ok_bind, zip_map_self, runAll_map]
      have := runAll_map (fun p : Nat × Nat => step2 a (fun _ x => cast x) p.1 p.2) (fun i => (lc.pos i, la.pos i)) e c
      rw [← this, k5, runAll_map, runAll_blockList]
      refine runAll_congr_inv (fun d => d.length = c.length) ?_ ?_ c rfl
      · intro j hj d hd
        have : (oc.pos j + (n - 1), oa.pos j + (n - 1)) ∈ e.map fun i => (lc.pos i, la.pos i) := by
          rw [k5]
          refine List.mem_map.2 ⟨(j, n - 1), ?_, rfl⟩
          exact List.mem_flatMap.2 ⟨j, hj, List.mem_map.2 ⟨n - 1, List.mem_range.2 (by omega), rfl⟩⟩
        obtain ⟨i, hi, e1⟩ := List.mem_map.1 this
        have b1 := cc i ((hmem i).1 hi)
        have b2 := ca i ((hmem i).1 hi)
        simp only [Prod.mk.injEq] at e1
        rw [zipBlock_eq (by omega) (by omega)]
      · intro j hj d d' hd h
        rw [← hd]
        exact runAll_length (fun _ _ _ h => step2_length h) h
    · simp only [dispatch2, h3, ne_eq, not_true_eq_false, if_false, h4, h5, ok_bind, zip_map_self, runAll_map]

theorem assign2 (dflt : Order) {s : List Nat} {lc la : Layout} (hc : Fit s lc) (ha : Fit s la)
    {c : List γ} {a : List α} (cc : Covers s lc c) (ca : Covers s la a)
    (hag : ∀ i j, InRange i s → InRange j s → lc.pos i = lc.pos j → la.pos i = la.pos j) (w : α → γ) :
    ∃ c', assign dflt c lc a la w = .ok c' ∧ c'.length = c.length ∧
      (∀ i, InRange i s → ∀ x, a[la.pos i]? = some x → c'[lc.pos i]? = some (w x)) ∧
      ∀ k, (∀ i, InRange i s → lc.pos i ≠ k) → c'[k]? = c[k]? := by
  obtain ⟨e, he, hk⟩ := assign_eq dflt hc ha cc ca w
  have hmem : ∀ i, i ∈ e ↔ InRange i s := fun i => he.mem_iff.trans mem_all
  obtain ⟨c', h1, h2, h3, h4⟩ := runAll_write' (p := lc.pos) (xs := e) (c := c)
    (st := fun i => step2 a (fun _ x => w x) (lc.pos i) (la.pos i))
    (fun i hi => cc i ((hmem i).1 hi))
    (fun i v => ∃ x, a[la.pos i]? = some x ∧ v = w x)
    (fun i hi => by
      obtain ⟨x, hx⟩ := ca.get ((hmem i).1 hi)
      exact ⟨w x, ⟨x, hx, rfl⟩, fun c => step2_ok hx c⟩)
    (by
      rintro i hi j hj hp v v' ⟨x, hx, rfl⟩ ⟨x', hx', rfl⟩
      have e1 := hag i j ((hmem i).1 hi) ((hmem j).1 hj) hp
      rw [e1, hx'] at hx
      cases hx; rfl)
  exact ⟨c', by rw [hk]; exact h1, h2, fun i hi x hx => h3 i ((hmem i).2 hi) _ ⟨x, hx, rfl⟩, frame_of he h4⟩

/-! ## Copies between different shapes -/

/-- Contiguous in the given order. -/
def Layout.contigIn (o : Order) (l : Layout) : Bool := match o with
  | .C => l.cContig
  | .F => l.fContig

theorem contigIn_addr {o : Order} {l : Layout} (hz : 0 ∉ l.shape) (h : l.contigIn o = true) {idx : List Nat}
    (hi : InRange idx l.shape) : l.addr idx = l.offset + rank o l.shape idx := by
  cases o
  · exact (C06_c_contig_iff l hz).1 h idx hi
  · exact (C06_f_contig_iff l hz).1 h idx hi

theorem contigIn_positions {o : Order} {s : List Nat} {l : Layout} (hl : Fit s l) (h : l.contigIn o = true) :
    positions o l = (List.range l.size).map fun t => l.offset.toNat + t := by
  rw [positions_eq]
  have hlen : (all o l.shape).length = l.size := length_all _ _
  apply List.ext_getElem
  · simp [hlen]
  · intro k h1 h2
    simp only [List.getElem_map, List.getElem_range]
    have hk : k < (all o l.shape).length := by simpa using h1
    have hi : InRange (all o l.shape)[k] l.shape := mem_all.1 (List.getElem_mem hk)
    have hz : 0 ∉ l.shape := fun hz => absurd (hi.pos 0 hz) (by simp)
    have := contigIn_addr hz h hi
    rw [rank_all_getElem] at this
    unfold Layout.pos
    have h0 := hl.off
    omega

theorem positions_length (o : Order) (l : Layout) : (positions o l).length = l.size := by
  rw [positions_eq, List.length_map]; exact length_all _ _

def iterOrd : Order → IterOrder
  | .C => .C
  | .F => .F

theorem toColMajor_items (dflt o : Order) {s : List Nat} {l : Layout} (hl : Fit s l) :
    ∃ m, l.toColMajor dflt (iterOrd o) = .ok m ∧
      colItems m = .ok (positions o l) := by
  have hn := hl.nonneg
  rw [← hl.shape] at hn
  cases o
  · refine ⟨l.reverseAxes, rfl, ?_⟩
    exact colItems_of (s := l.shape) (List.Perm.refl _) (reverse_positions l) hn
  · refine ⟨l, rfl, ?_⟩
    exact colItems_of (s := l.shape) (perm_all .F .C _) rfl hn

/-- Both paths of the copy kernel run over the pairs of positions in the given order. -/
theorem assignArbitrary_eq (dflt o : Order) {s s' : List Nat} {lc la : Layout} (hc : Fit s lc) (ha : Fit s' la)
    (hsz : lc.size = la.size) {c : List γ} {a : List α} (cc : Covers s lc c) (ca : Covers s' la a)
    (bc : lc.offset ≤ c.length) (ba : la.offset ≤ a.length) (cast : α → γ) :
    assignArbitrary dflt c lc a la o cast =
      runAll (fun p => step2 a (fun _ x => cast x) p.1 p.2) ((positions o lc).zip (positions o la)) c := by
  have hE : assignArbitrary dflt c lc a la o cast =
      if lc.contigIn o && la.contigIn o then
        if lc.offset < 0 ∨ la.offset < 0 then .error .panic
        else zipBlock a (fun _ x => cast x) lc.offset.toNat la.offset.toNat lc.size c
      else lc.toColMajor dflt (iterOrd o) >>= fun lc => la.toColMajor dflt (iterOrd o) >>= fun la =>
        dispatch2diff lc la (fun p c => step2 a (fun _ x => cast x) p.1 p.2 c) c := by cases o <;> rfl
  rw [hE]
  by_cases h : lc.contigIn o && la.contigIn o
  · rw [if_pos h]
    simp only [Bool.and_eq_true] at h
    have h1 := hc.off
    have h2 := ha.off
    rw [if_neg (by omega)]
    have p1 := contigIn_positions hc h.1
    have p2 := contigIn_positions ha h.2
    have key : ∀ {s : List Nat} {l : Layout} {δ : Type} {d : List δ}, Fit s l → Covers s l d → l.offset ≤ d.length →
        l.contigIn o = true → l.offset.toNat + l.size ≤ d.length := by
      intro s l δ d hl cd bd hq
      by_cases h0 : l.size = 0
      · have := hl.off; omega
      · have hlast : l.offset.toNat + (l.size - 1) ∈ positions o l := by
          rw [contigIn_positions hl hq]
          exact List.mem_map.2 ⟨l.size - 1, List.mem_range.2 (by omega), rfl⟩
        rw [positions_eq] at hlast
        obtain ⟨i, hi, e⟩ := List.mem_map.1 hlast
        have := cd i (hl.shape ▸ mem_all.1 hi)
        omega
    rw [zipBlock_eq (key hc cc bc h.1) (by rw [hsz]; exact key ha ca ba h.2), p1, p2, ← hsz, zip_map_self, runAll_map]
  · rw [if_neg h]
    obtain ⟨mc, e1, i1⟩ := toColMajor_items dflt o hc
    obtain ⟨ma, e2, i2⟩ := toColMajor_items dflt o ha
    rw [e1, e2]
    simp only [ok_bind, dispatch2diff, i1, i2]

/-- The k-th element of the source goes to the k-th place of the destination. -/
theorem assignArbitrary2 (dflt o : Order) {s s' : List Nat} {lc la : Layout} (hc : Fit s lc) (ha : Fit s' la)
    (hsz : lc.size = la.size) {c : List γ} {a : List α} (cc : Covers s lc c) (ca : Covers s' la a)
    (bc : lc.offset ≤ c.length) (ba : la.offset ≤ a.length)
    (hinj : ∀ i j, InRange i s → InRange j s → lc.pos i = lc.pos j → i = j) (w : α → γ) :
    ∃ c', assignArbitrary dflt c lc a la o w = .ok c' ∧ c'.length = c.length ∧
      (∀ i j, InRange i s → InRange j s' → rank o s i = rank o s' j →
        ∀ x, a[la.pos j]? = some x → c'[lc.pos i]? = some (w x)) ∧
      ∀ k, (∀ i, InRange i s → lc.pos i ≠ k) → c'[k]? = c[k]? := by
  have hlen : (positions o lc).length = (positions o la).length := by rw [positions_length, positions_length, hsz]
  have hfst : ((positions o lc).zip (positions o la)).map Prod.fst = positions o lc :=
    List.map_fst_zip (by omega)
  have hnd : (positions o lc).Nodup := by
    rw [positions_eq, hc.shape]
    exact (nodup_all o s).map_on fun i hi j hj => hinj i j (mem_all.1 hi) (mem_all.1 hj)
  have mem1 : ∀ x ∈ positions o lc, ∃ i, InRange i s ∧ lc.pos i = x := fun x hx => by
    rw [positions_eq] at hx
    obtain ⟨i, hi, e⟩ := List.mem_map.1 hx
    exact ⟨i, hc.shape ▸ mem_all.1 hi, e⟩
  have mem2 : ∀ x ∈ positions o la, ∃ i, InRange i s' ∧ la.pos i = x := fun x hx => by
    rw [positions_eq] at hx
    obtain ⟨i, hi, e⟩ := List.mem_map.1 hx
    exact ⟨i, ha.shape ▸ mem_all.1 hi, e⟩
  obtain ⟨c', h1, h2, h3, h4⟩ := runAll_modify' (p := Prod.fst) (xs := (positions o lc).zip (positions o la)) (c := c)
    (st := fun p => step2 a (fun _ x => w x) p.1 p.2)
    (fun p hp => by
      obtain ⟨i, hi, e⟩ := mem1 p.1 (List.of_mem_zip hp).1
      rw [← e]; exact cc i hi)
    (fun p g => ∃ x, a[p.2]? = some x ∧ g = fun _ => w x)
    (fun p hp => by
      obtain ⟨i, hi, e⟩ := mem2 p.2 (List.of_mem_zip hp).2
      obtain ⟨x, hx⟩ := ca.get hi
      rw [e] at hx
      exact ⟨_, ⟨x, hx, rfl⟩, fun c => step2_ok hx c⟩)
    (by rw [hfst]; exact hnd)
  refine ⟨c', by rw [assignArbitrary_eq dflt o hc ha hsz cc ca bc ba w]; exact h1, h2, ?_, ?_⟩
  · intro i j hi hj hr x hx
    have hk : rank o s i < (all o s).length := by rw [length_all]; exact rank_lt hi
    have hk' : rank o s i < (all o s').length := by rw [hr, length_all]; exact rank_lt hj
    have e1 : (all o s)[rank o s i] = i := by
      refine rank_inj (o := o) (mem_all.1 (List.getElem_mem hk)) hi ?_
      rw [rank_all_getElem]
    have e2 : (all o s')[rank o s i] = j := by
      refine rank_inj (o := o) (mem_all.1 (List.getElem_mem hk')) hj ?_
      rw [rank_all_getElem, hr]
    have hp : (lc.pos i, la.pos j) ∈ (positions o lc).zip (positions o la) := by
      rw [List.mem_iff_getElem]
      refine ⟨rank o s i, ?_, ?_⟩
      · simp only [List.length_zip, positions_eq, List.length_map, hc.shape, ha.shape]; omega
      · simp [List.getElem_zip, positions_eq, hc.shape, ha.shape, e1, e2]
    obtain ⟨g, ⟨x', hx', rfl⟩, hg⟩ := h3 _ hp
    rw [show (lc.pos i, la.pos j).2 = la.pos j from rfl, hx] at hx'
    cases hx'
    rw [show (lc.pos i, la.pos j).1 = lc.pos i from rfl] at hg
    rw [hg]
    obtain ⟨v, hv⟩ := cc.get hi
    rw [hv]; rfl
  · intro k hk
    apply h4
    rw [hfst]
    intro hm
    obtain ⟨i, hi, e⟩ := mem1 k hm
    exact hk i hi e

end
end Rstsr
