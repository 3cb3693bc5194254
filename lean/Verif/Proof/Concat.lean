import Verif.Proof.Gather
/-! # Concatenation: lemmas -/
namespace Rstsr
open Spec

section
variable {α γ : Type}

theorem Writes.seq {P Q : Nat → γ → Prop} {c c1 c2 : List γ} (h1 : Writes P c c1) (h2 : Writes Q c1 c2)
    (hag : ∀ k v w, P k v → Q k w → v = w) : Writes (fun k v => P k v ∨ Q k v) c c2 := by
  refine ⟨h2.len.trans h1.len, ?_, ?_⟩
  · rintro k v (hp | hq)
    · by_cases hex : ∃ w, Q k w
      · obtain ⟨w, hw⟩ := hex
        rw [hag k v w hp hw]
        exact h2.set k w hw
      · rw [h2.keep k fun w hw => hex ⟨w, hw⟩]
        exact h1.set k v hp
    · exact h2.set k v hq
  · intro k hk
    rw [h2.keep k fun v hq => hk v (.inr hq)]
    exact h1.keep k fun v hp => hk v (.inl hp)

/-- Narrowing an axis to a stretch of positions. -/
theorem narrow_stretch {l : Layout} (hl : l.Valid) (ho : 0 ≤ l.offset) {ax off d : Nat} (hax : ax < l.axes.length)
    (hle : off + d ≤ l.shape.getD ax 0) :
    ∃ m, l.dimNarrow ax ⟨some (off : Int), some ((off + d : Nat) : Int), none⟩ = .ok m ∧ Fits (l.shape.set ax d) m ∧
      ∀ j, InRange j (l.shape.set ax d) →
        InRange (j.set ax (off + j.getD ax 0)) l.shape ∧ m.addr j = l.addr (j.set ax (off + j.getD ax 0)) := by
  have hA := valid_iff.1 hl
  have hn : normAxis l.ndim (ax : Int) = ax := normAxis_ofNat _ _
  obtain ⟨m, n, start, h1, h2, h3⟩ := dimNarrow_spec hA (axis := (ax : Int))
    (s := ⟨some (off : Int), some ((off + d : Nat) : Int), none⟩) ⟨by omega, by unfold Layout.ndim; omega⟩ (by simp)
  rw [hn] at h2 h3
  obtain ⟨h4, h5⟩ := h3 (by simp)
  simp only [Option.getD_none] at h2 h4 h5
  have hlen : (l.axes.getD ax default).dim = l.shape.getD ax 0 := getD_dim _ _
  have cl : ∀ v : Nat, v ≤ l.shape.getD ax 0 →
      pyClamp (l.axes.getD ax default).dim 0 ((l.axes.getD ax default).dim : Int) (v : Int) = v := by
    intro v hv
    unfold pyClamp
    rw [hlen]
    split <;> omega
  have hnd : n = d := by
    have key : ∀ k, k < n ↔ k < d := by
      intro k
      rw [h4 k]
      unfold PyHas pyStart pyStop
      simp only [show (1 : Int) > 0 by omega, if_true]
      rw [cl off (by omega), cl (off + d) hle]
      push_cast
      omega
    have h6 := key n
    have h7 := key d
    omega
  subst hnd
  have hst : n ≠ 0 → start = off := by
    intro h
    rw [h5 h]
    unfold pyStart
    simp only [show (1 : Int) > 0 by omega, if_true]
    exact cl off (by omega)
  have hel : ∀ j, InRange j (l.shape.set ax n) →
      InRange (j.set ax (off + j.getD ax 0)) l.shape ∧ m.addr j = l.addr (j.set ax (off + j.getD ax 0)) := by
    intro j hj
    have hj0 : n ≠ 0 := by
      have := (inRange_set (p := 0) (by simpa [Layout.shape] using hax) hj).1
      omega
    have := h2.elem (j := j) (by rw [h2.shape]; exact hj)
    rw [hst hj0] at this
    have e : ((off : Int) + ((j.getD ax 0 : Nat) : Int) * 1).toNat = off + j.getD ax 0 := by omega
    rw [e] at this
    exact ⟨this.1, this.2.1⟩
  refine ⟨m, h1, ⟨valid_iff.2 (h2.good hA).accepted, ?_, h2.shape⟩, hel⟩
  intro hz
  have hi := inRange_zeros (shape := m.shape) fun d hd => Nat.pos_of_ne_zero fun e => hz (h2.shape ▸ e ▸ hd)
  rw [h2.shape] at hi
  obtain ⟨g1, g2⟩ := hel _ hi
  have h5 := C22_valid_nonNegative l hl ho _ g1
  change 0 ≤ l.addr _ at h5
  rw [← g2, addr_eq] at h5
  have h6 := dot_zeros (l.shape.set ax n).length m.axes
  omega

/-- Length of a tensor on an axis. -/
def axLen (ax : Nat) (t : Tensor α) : Nat := t.layout.shape.getD ax 0

/-- The cells that the concatenation loop sets: tensor number `p` goes behind the tensors before it. -/
def CatWrites (rest : List Nat) (ax : Nat) (lc : Layout) (ts : List (Tensor α)) (off : Nat) (k : Nat) (v : Option α) : Prop :=
  ∃ p t, ts[p]? = some t ∧ ∃ j q, InRange j rest ∧ q < axLen ax t ∧
    lc.pos (j.insertIdx ax (off + ((ts.take p).map (axLen ax)).sum + q)) = k ∧
    ∃ x, t.data[t.layout.pos (j.insertIdx ax q)]? = some x ∧ v = some x

theorem sum_take_lt {L : List Nat} {p : Nat} {d : Nat} (h : L[p]? = some d) : (L.take p).sum + d ≤ L.sum := by
  induction L generalizing p with
  | nil => simp at h
  | cons x xs ih =>
    cases p with
    | zero => simp at h; subst h; simp
    | succ p =>
      simp only [List.getElem?_cons_succ] at h
      simp only [List.take_succ_cons, List.sum_cons]
      have := ih h
      omega

theorem concatLoop_writes (dflt : Order) {lc : Layout} {rest : List Nat} {ax n N : Nat} (hax : ax ≤ rest.length)
    (T : Tight lc N) (hs : lc.shape = rest.insertIdx ax n) (ts : List (Tensor α)) (off : Nat)
    (hts : ∀ t ∈ ts, t.WF ∧ t.layout.shape = rest.insertIdx ax (axLen ax t))
    (hsum : off + (ts.map (axLen ax)).sum ≤ n) {c : List (Option α)} (hc : c.length = N) :
    ∃ c', Tensor.concatLoop dflt lc ax ts off c = .ok c' ∧ Writes (CatWrites rest ax lc ts off) c c' := by
  have lenlc : lc.axes.length = rest.length + 1 := by
    have := congrArg List.length hs
    rw [List.length_insertIdx_of_le_length hax] at this
    simpa [Layout.shape] using this
  have inC : ∀ j q, InRange j rest → q < n → InRange (j.insertIdx ax q) lc.shape := by
    intro j q hj hq
    rw [hs]
    exact inRange_insertIdx' hj hax hq
  have uniq : ∀ j q j' q', InRange j rest → q < n → InRange j' rest → q' < n →
      lc.pos (j.insertIdx ax q) = lc.pos (j'.insertIdx ax q') → j = j' ∧ q = q' := by
    intro j q j' q' h1 h2 h3 h4 e
    have := T.inj _ _ (inC j q h1 h2) (inC j' q' h3 h4) e
    exact insertIdx_inj (by have := h1.length_eq; omega) (by have := h3.length_eq; omega) this
  induction ts generalizing off c with
  | nil => exact ⟨c, rfl, (writes_nil c).congr (by simp [CatWrites])⟩
  | cons t ts ih =>
    simp only [List.map_cons, List.sum_cons] at hsum
    obtain ⟨hW, hsh⟩ := hts t List.mem_cons_self
    obtain ⟨m, k1, k2, k3⟩ := narrow_stretch T.valid T.off (ax := ax) (off := off) (d := axLen ax t) (by omega) (by
      rw [hs, List.getD_eq_getElem?_getD, List.getElem?_insertIdx_self, if_pos hax]
      simp only [Option.getD_some]; omega)
    have hset : lc.shape.set ax (axLen ax t) = t.layout.shape := by
      rw [hs, hsh, set_insertIdx hax]
    rw [hset] at k2 k3
    have hdim : (t.layout.axes.getD ax default).dim = axLen ax t := getD_dim _ _
    have split : ∀ i, InRange i t.layout.shape → ∃ j q, InRange j rest ∧ q < axLen ax t ∧ i = j.insertIdx ax q := by
      intro i hi
      rw [← hset] at hi
      obtain ⟨j, q, h1, h2, h3⟩ := (inRange_set_split (by simp [Layout.shape]; omega)).1 hi
      rw [hs, List.eraseIdx_insertIdx_self] at h1
      exact ⟨j, q, h1, h2, h3⟩
    have join : ∀ j q, InRange j rest → q < axLen ax t → InRange (j.insertIdx ax q) t.layout.shape := by
      intro j q h1 h2
      rw [hsh]
      exact inRange_insertIdx' h1 hax h2
    have posM : ∀ j q, InRange j rest → q < axLen ax t → m.pos (j.insertIdx ax q) = lc.pos (j.insertIdx ax (off + q)) := by
      intro j q h1 h2
      have hj : ax ≤ j.length := by have := h1.length_eq; omega
      have := (k3 _ (join j q h1 h2)).2
      rw [getD_insertIdx hj, set_insertIdx hj] at this
      exact congrArg Int.toNat this
    obtain ⟨c1, g1, g2⟩ := assign_writes dflt k2 hW.fit.fits (c := c) (a := t.data) (by
        intro i hi
        obtain ⟨j, q, h1, h2, rfl⟩ := split i hi
        rw [posM j q h1 h2, hc]
        exact T.lt _ (inC j _ h1 (by omega))) hW.covers (by
        intro i i' hi hi' e
        obtain ⟨j, q, h1, h2, rfl⟩ := split i hi
        obtain ⟨j', q', h3, h4, rfl⟩ := split i' hi'
        rw [posM j q h1 h2, posM j' q' h3 h4] at e
        obtain ⟨rfl, e2⟩ := uniq j _ j' _ h1 (by omega) h3 (by omega) e
        rw [show q = q' by omega]) some
    obtain ⟨c2, r1, r2⟩ := ih (off + axLen ax t) (fun u hu => hts u (List.mem_cons_of_mem _ hu)) (by omega)
      (c := c1) (g2.len.trans hc)
    refine ⟨c2, ?_, ?_⟩
    · simp only [Tensor.concatLoop, hdim, k1, ok_bind, g1, r1]
    · have hb : ∀ p u q, ts[p]? = some u → q < axLen ax u →
          off + axLen ax t + ((ts.take p).map (axLen ax)).sum + q < n := by
        intro p u q h1 h2
        have := sum_take_lt (L := ts.map (axLen ax)) (p := p) (d := axLen ax u) (by simp [h1])
        rw [← List.map_take] at this
        omega
      refine (g2.seq r2 ?_).congr ?_
      · rintro k v w ⟨i, hi, e1, x, hx, rfl⟩ ⟨p, u, hu, j, q, hj, hq, e2, y, hy, rfl⟩
        obtain ⟨j', q', h1, h2, rfl⟩ := split i hi
        rw [posM j' q' h1 h2] at e1
        have := (uniq _ _ _ _ h1 (by omega) hj (hb p u q hu hq) (e1.trans e2.symm)).2
        omega
      · intro k v
        constructor
        · rintro (⟨i, hi, e1, x, hx, rfl⟩ | ⟨p, u, hu, j, q, hj, hq, e2, h⟩)
          · obtain ⟨j', q', h1, h2, rfl⟩ := split i hi
            rw [posM j' q' h1 h2] at e1
            exact ⟨0, t, rfl, j', q', h1, h2, by simpa using e1, x, hx, rfl⟩
          · refine ⟨p + 1, u, by simpa using hu, j, q, hj, hq, ?_, h⟩
            rw [← e2]
            simp only [List.take_succ_cons, List.map_cons, List.sum_cons]
            rw [show off + (axLen ax t + ((ts.take p).map (axLen ax)).sum) + q =
              off + axLen ax t + ((ts.take p).map (axLen ax)).sum + q by omega]
        · rintro ⟨p, u, hu, j, q, hj, hq, e2, x, hx, rfl⟩
          cases p with
          | zero =>
            simp at hu; subst hu
            refine .inl ⟨j.insertIdx ax q, join j q hj hq, ?_, x, hx, rfl⟩
            rw [posM j q hj hq]
            simpa using e2
          | succ p =>
            refine .inr ⟨p, u, by simpa using hu, j, q, hj, hq, ?_, x, hx, rfl⟩
            rw [← e2]
            simp only [List.take_succ_cons, List.map_cons, List.sum_cons]
            rw [show off + (axLen ax t + ((ts.take p).map (axLen ax)).sum) + q =
              off + axLen ax t + ((ts.take p).map (axLen ax)).sum + q by omega]

/-- Every coordinate belongs to one of the stretches. -/
theorem locate {L : List Nat} {q : Nat} (h : q < L.sum) :
    ∃ p d r, L[p]? = some d ∧ r < d ∧ q = (L.take p).sum + r := by
  induction L generalizing q with
  | nil => simp at h
  | cons x xs ih =>
    by_cases hx : q < x
    · exact ⟨0, x, q, rfl, hx, by simp⟩
    · obtain ⟨p, d, r, h1, h2, h3⟩ := ih (q := q - x) (by simp at h; omega)
      exact ⟨p + 1, d, r, by simpa using h1, h2, by simp; omega⟩

theorem concat_ok (dflt dev : Order) {t0 : Tensor α} {ts : List (Tensor α)} {axis : Int} {ax : Nat} {rest : List Nat}
    (hax : AxisOk (rest.length + 1) axis) (hn : ax = normAxis (rest.length + 1) axis)
    (hts : ∀ t ∈ t0 :: ts, t.WF ∧ t.layout.shape = rest.insertIdx ax (axLen ax t)) :
    ∃ r, Tensor.concat dflt dev (t0 :: ts) axis = .ok r ∧ r.WF ∧
      r.layout.shape = rest.insertIdx ax (((t0 :: ts).map (axLen ax)).sum) ∧ r.layout.offset = 0 ∧
      ∀ (p : Nat) (t : Tensor α), (t0 :: ts)[p]? = some t → ∀ j q, InRange j rest → q < axLen ax t →
        ∃ x, t.arr.elem (j.insertIdx ax q) = some x ∧
          r.arr.elem (j.insertIdx ax ((((t0 :: ts).take p).map (axLen ax)).sum + q)) = some x := by
  have hle : ax ≤ rest.length := by
    have := normAxis_lt hax
    omega
  have hnd : ∀ t ∈ t0 :: ts, t.layout.ndim = rest.length + 1 := by
    intro t ht
    have := congrArg List.length (hts t ht).2
    rw [List.length_insertIdx_of_le_length hle] at this
    simpa [Layout.shape, Layout.ndim] using this
  have her : ∀ t ∈ t0 :: ts, t.layout.shape.eraseIdx ax = rest := by
    intro t ht
    rw [(hts t ht).2, List.eraseIdx_insertIdx_self]
  have hd : ((t0 :: ts).map fun t => (t.layout.axes.getD ax default).dim) = (t0 :: ts).map (axLen ax) :=
    List.map_congr_left fun t _ => getD_dim _ _
  have T := tight_newContig dev (rest.insertIdx ax (((t0 :: ts).map (axLen ax)).sum))
  have hsh := shape_newContig dev (rest.insertIdx ax (((t0 :: ts).map (axLen ax)).sum))
  have hof : (Layout.newContig dev (rest.insertIdx ax (((t0 :: ts).map (axLen ax)).sum))).offset = 0 := by cases dev <;> rfl
  generalize hlc : Layout.newContig dev (rest.insertIdx ax (((t0 :: ts).map (axLen ax)).sum)) = lc at *
  obtain ⟨c', k1, k2⟩ := concatLoop_writes dflt hle T hsh (t0 :: ts) 0 hts (by omega) (c := uninit lc.size) (by simp [uninit])
  have cell : ∀ (p : Nat) (t : Tensor α), (t0 :: ts)[p]? = some t → ∀ j q, InRange j rest → q < axLen ax t →
      ∃ x, t.arr.elem (j.insertIdx ax q) = some x ∧
        c'[lc.pos (j.insertIdx ax ((((t0 :: ts).take p).map (axLen ax)).sum + q))]? = some (some x) := by
    intro p t hp j q hj hq
    have hm : t ∈ t0 :: ts := List.mem_of_getElem? hp
    obtain ⟨hW, hs⟩ := hts t hm
    obtain ⟨x, h1, h2⟩ := hW.get (idx := j.insertIdx ax q) (by rw [hs]; exact inRange_insertIdx' hj hle hq)
    refine ⟨x, h2, k2.set _ _ ⟨p, t, hp, j, q, hj, hq, ?_, x, h1, rfl⟩⟩
    rw [Nat.zero_add]
  have loc : ∀ i, InRange i lc.shape → ∃ (p : Nat) (t : Tensor α) (j : List Nat) (q : Nat), (t0 :: ts)[p]? = some t ∧
      InRange j rest ∧ q < axLen ax t ∧ i = j.insertIdx ax ((((t0 :: ts).take p).map (axLen ax)).sum + q) := by
    intro i hi
    rw [hsh] at hi
    have hi' : InRange i ((rest.insertIdx ax 0).set ax (((t0 :: ts).map (axLen ax)).sum)) := by
      rw [set_insertIdx hle]; exact hi
    obtain ⟨j, q, h1, h2, rfl⟩ := (inRange_set_split (by rw [List.length_insertIdx_of_le_length hle]; omega)).1 hi'
    rw [List.eraseIdx_insertIdx_self] at h1
    obtain ⟨p, d, r, g1, g2, g3⟩ := locate h2
    rw [List.getElem?_map] at g1
    cases g4 : (t0 :: ts)[p]? with
    | none => rw [g4] at g1; cases g1
    | some t =>
      rw [g4] at g1
      cases g1
      exact ⟨p, t, j, r, g4, h1, g2, by rw [g3, List.map_take]⟩
  obtain ⟨data, d1, d2, -, d4, d5⟩ := fresh_finish T (c := c') (by rw [k2.len]; simp [uninit])
    (fun i x => c'[lc.pos i]? = some (some x)) (by
      intro i hi
      obtain ⟨p, t, j, q, h1, h2, h3, rfl⟩ := loc i hi
      obtain ⟨x, -, h4⟩ := cell p t h1 j q h2 h3
      exact ⟨x, h4, h4⟩)
  refine ⟨⟨data, lc⟩, ?_, d4, hsh, hof, ?_⟩
  · simp only [Tensor.concat]
    rw [if_neg (by rw [hnd t0 List.mem_cons_self]; omega), if_neg, hnd t0 List.mem_cons_self, checkAxis_ok.2 ⟨hax, hn⟩, ok_bind]
    · rw [if_neg]
      · simp only [hd, her t0 List.mem_cons_self, hlc, k1, ok_bind, d1]
      · simp only [List.any_eq_true, not_exists, not_and, decide_eq_true_eq, not_not]
        intro t ht
        rw [her t ht, her t0 List.mem_cons_self]
    · simp only [List.any_eq_true, not_exists, not_and, decide_eq_true_eq, not_not]
      intro t ht
      rw [hnd t ht, hnd t0 List.mem_cons_self]
  · intro p t hp j q hj hq
    obtain ⟨x, h1, h2⟩ := cell p t hp j q hj hq
    refine ⟨x, h1, ?_⟩
    obtain ⟨y, h3, h4⟩ := d5 (j.insertIdx ax ((((t0 :: ts).take p).map (axLen ax)).sum + q)) (by
      rw [hsh]
      refine inRange_insertIdx' hj hle ?_
      have := sum_take_lt (L := (t0 :: ts).map (axLen ax)) (p := p) (d := axLen ax t) (by rw [List.getElem?_map, hp]; rfl)
      rw [← List.map_take] at this
      omega)
    have h3 : c'[_]? = some (some y) := h3
    rw [h2] at h3
    cases h3
    exact h4

end
end Rstsr
