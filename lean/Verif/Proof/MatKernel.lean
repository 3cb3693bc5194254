import Verif.Model.Matmul
import Verif.Proof.Parallel
import Verif.Proof.Reduce
/-! # Matrix kernels as lists of cell updates -/
namespace Rstsr
open Spec

section
variable {α β γ ι : Type}

/-- What a list of updates does to the content of cell `k`. -/
def effect (k : Nat) : List (Nat × (γ → γ)) → γ → γ
  | [], v => v
  | u :: U, v => effect k U (if u.1 = k then u.2 v else v)

theorem effect_append (k : Nat) (U V : List (Nat × (γ → γ))) (v : γ) : effect k (U ++ V) v = effect k V (effect k U v) := by
  induction U generalizing v with
  | nil => rfl
  | cons u U ih => simp only [List.cons_append, effect, ih]

theorem effect_none {k : Nat} {U : List (Nat × (γ → γ))} (h : ∀ u ∈ U, u.1 ≠ k) (v : γ) : effect k U v = v := by
  induction U with
  | nil => rfl
  | cons u U ih =>
    rw [effect, if_neg (h u List.mem_cons_self), ih fun u hu => h u (List.mem_cons_of_mem _ hu)]

theorem effect_fold (k : Nat) (f : ι → List (Nat × (γ → γ))) (xs : List ι) (v : γ) :
    effect k (xs.flatMap f) v = xs.foldl (fun v x => effect k (f x) v) v := by
  induction xs generalizing v with
  | nil => rfl
  | cons x xs ih => simp only [List.flatMap_cons, effect_append, List.foldl_cons, ih]

/-- Only one part of the list touches the cell. -/
theorem effect_at {k : Nat} {f : ι → List (Nat × (γ → γ))} {xs : List ι} (hn : xs.Nodup) {x : ι} (hx : x ∈ xs)
    (h : ∀ y ∈ xs, y ≠ x → ∀ u ∈ f y, u.1 ≠ k) (v : γ) : effect k (xs.flatMap f) v = effect k (f x) v := by
  induction xs generalizing v with
  | nil => cases hx
  | cons y xs ih =>
    rw [List.flatMap_cons, effect_append]
    rw [List.nodup_cons] at hn
    rcases List.mem_cons.1 hx with rfl | hx
    · refine effect_none ?_ _
      intro u hu
      obtain ⟨z, hz, hu⟩ := List.mem_flatMap.1 hu
      exact h z (List.mem_cons_of_mem _ hz) (fun e => hn.1 (e ▸ hz)) u hu
    · rw [ih hn.2 hx fun z hz => h z (List.mem_cons_of_mem _ hz),
        effect_none (U := f y) (h y List.mem_cons_self fun e => hn.1 (e ▸ hx))]

theorem runU_effect {U : List (Nat × (γ → γ))} {c : List γ} (h : ∀ u ∈ U, u.1 < c.length) :
    ∃ c', runU U c = .ok c' ∧ c'.length = c.length ∧ ∀ k, c'[k]? = c[k]?.map (effect k U) := by
  induction U generalizing c with
  | nil => exact ⟨c, rfl, rfl, fun k => by cases c[k]? <;> rfl⟩
  | cons u U ih =>
    have hu := h u List.mem_cons_self
    obtain ⟨c', h1, h2, h3⟩ := ih (c := c.set u.1 (u.2 c[u.1])) fun w hw => by
      simpa using h w (List.mem_cons_of_mem _ hw)
    refine ⟨c', ?_, by simpa using h2, ?_⟩
    · show (modifyAt c u.1 u.2 >>= fun c => runU U c) = _
      rw [modifyAt_of (List.getElem?_eq_getElem hu)]
      exact h1
    · intro k
      rw [h3, List.getElem?_set]
      split
      · rename_i e
        subst e
        simp [effect, hu]
      · rename_i e
        cases c[k]? <;> simp [effect, e]

theorem indexUncheck2 {l : Layout} {m n : Nat} (h : l.shape = [m, n]) (i j : Nat) :
    l.indexUncheck [i, j] = .ok (l.addr [i, j]) := by
  refine indexUncheck_eq ?_
  have := congrArg List.length h
  simpa [Layout.shape, Layout.ndim] using this.symm

theorem indexUncheck1 {l : Layout} {m : Nat} (h : l.shape = [m]) (i : Nat) :
    l.indexUncheck [i] = .ok (l.addr [i]) := by
  refine indexUncheck_eq ?_
  have := congrArg List.length h
  simpa [Layout.shape, Layout.ndim] using this.symm

theorem readInt_ok {a : List α} {i : Int} {x : α} (h0 : 0 ≤ i) (h : a[i.toNat]? = some x) : readInt a i = .ok x := by
  rw [readInt, if_neg (by omega), readAt_ok.2 h]

theorem modifyInt_ok {c : List γ} {i : Int} (h0 : 0 ≤ i) (f : γ → γ) : modifyInt c i f = modifyAt c i.toNat f := by
  rw [modifyInt, if_neg (by omega)]

/-- The matrices of one product: shapes, and the elements at the positions. -/
structure MatIn (a : List α) (b : List β) (m n k : Nat) (la lb lc : Layout) (X : Nat → Nat → α) (Y : Nat → Nat → β) :
    Prop where
  sa : la.shape = [m, k]
  sb : lb.shape = [k, n]
  sc : lc.shape = [m, n]
  xa : ∀ i < m, ∀ p < k, 0 ≤ la.addr [i, p] ∧ a[la.pos [i, p]]? = some (X i p)
  yb : ∀ p < k, ∀ j < n, 0 ≤ lb.addr [p, j] ∧ b[lb.pos [p, j]]? = some (Y p j)
  zc : ∀ i < m, ∀ j < n, 0 ≤ lc.addr [i, j]

/-- The updates of the serial kernel. -/
def gemmU (O : MatOps α β γ) (m n k : Nat) (lc : Layout) (X : Nat → Nat → α) (Y : Nat → Nat → β) (alpha beta : γ) :
    List (Nat × (γ → γ)) :=
  (List.range m).flatMap fun i => ((List.range n).map fun j => (lc.pos [i, j], fun v => O.times beta v)) ++
    (List.range k).flatMap fun p => (List.range n).map fun j =>
      (lc.pos [i, j], fun v => O.plus (O.times alpha (O.mul (X i p) (Y p j))) v)

theorem runU_flatMap (f : ι → List (Nat × (γ → γ))) (xs : List ι) (c : List γ) :
    runU (xs.flatMap f) c = runAll (fun x c => runU (f x) c) xs c := by
  unfold runU
  rw [runAll_flatMap]

theorem runU_append (U V : List (Nat × (γ → γ))) (c : List γ) : runU (U ++ V) c = (do runU V (← runU U c)) := by
  unfold runU
  rw [runAll_append]

theorem gemmNaive_eq (O : MatOps α β γ) {a : List α} {b : List β} {m n k : Nat} {la lb lc : Layout} {X : Nat → Nat → α}
    {Y : Nat → Nat → β} (h : MatIn a b m n k la lb lc X Y) (alpha beta : γ) (c : List γ) :
    gemmNaive O c lc a la b lb alpha beta = runU (gemmU O m n k lc X Y alpha beta) c := by
  unfold gemmNaive
  simp only [Layout.dimAt, h.sa, h.sb, h.sc, List.getD_cons_zero, List.getD_cons_succ, ne_eq, not_true_eq_false, if_false]
  rw [gemmU, runU_flatMap]
  refine runAll_congr ?_ c
  intro i hi c
  rw [List.mem_range] at hi
  rw [runU_append]
  have e1 : ∀ c, runAll (fun j c => do modifyInt c (← lc.indexUncheck [i, j]) fun v => O.times beta v) (List.range n) c =
      runU ((List.range n).map fun j => (lc.pos [i, j], fun v => O.times beta v)) c := by
    intro c
    rw [runU, runAll_map]
    refine runAll_congr ?_ c
    intro j hj c
    rw [List.mem_range] at hj
    rw [indexUncheck2 h.sc, ok_bind, modifyInt_ok (h.zc i hi j hj)]
    rfl
  rw [e1]
  congr 1
  funext c
  rw [runU_flatMap]
  refine runAll_congr ?_ c
  intro p hp c
  rw [List.mem_range] at hp
  rw [indexUncheck2 h.sa, ok_bind, runU, runAll_map]
  refine runAll_congr ?_ c
  intro j hj c
  rw [List.mem_range] at hj
  rw [indexUncheck2 h.sc, ok_bind, indexUncheck2 h.sb, ok_bind, readInt_ok (h.xa i hi p hp).1 (h.xa i hi p hp).2, ok_bind,
    readInt_ok (h.yb p hp j hj).1 (h.yb p hp j hj).2, ok_bind, modifyInt_ok (h.zc i hi j hj)]
  rfl

/-- What the serial kernel computes for one cell, in this order. -/
def serialCell (O : MatOps α β γ) (k : Nat) (x : Nat → α) (y : Nat → β) (alpha beta v : γ) : γ :=
  (List.range k).foldl (fun v p => O.plus (O.times alpha (O.mul (x p) (y p))) v) (O.times beta v)

theorem mem_gemmU {O : MatOps α β γ} {m n k : Nat} {lc : Layout} {X : Nat → Nat → α} {Y : Nat → Nat → β} {alpha beta : γ}
    {u : Nat × (γ → γ)} (h : u ∈ gemmU O m n k lc X Y alpha beta) : ∃ i < m, ∃ j < n, u.1 = lc.pos [i, j] := by
  obtain ⟨i, hi, h⟩ := List.mem_flatMap.1 h
  rw [List.mem_range] at hi
  rcases List.mem_append.1 h with h | h
  · obtain ⟨j, hj, rfl⟩ := List.mem_map.1 h
    exact ⟨i, hi, j, List.mem_range.1 hj, rfl⟩
  · obtain ⟨p, -, h⟩ := List.mem_flatMap.1 h
    obtain ⟨j, hj, rfl⟩ := List.mem_map.1 h
    exact ⟨i, hi, j, List.mem_range.1 hj, rfl⟩

theorem effect_row {n : Nat} {pos : Nat → Nat} (g : Nat → γ → γ) {j : Nat} (hj : j < n)
    (hinj : ∀ j' < n, pos j' = pos j → j' = j) (v : γ) :
    effect (pos j) ((List.range n).map fun j => (pos j, g j)) v = g j v := by
  have : ((List.range n).map fun j => (pos j, g j)) = (List.range n).flatMap fun j => [(pos j, g j)] := by
    induction (List.range n) with
    | nil => rfl
    | cons x xs ih => simp [List.flatMap_cons, ih]
  rw [this, effect_at List.nodup_range (List.mem_range.2 hj)]
  · simp [effect]
  · intro j' hj' hne u hu
    simp only [List.mem_singleton] at hu
    subst hu
    exact fun e => hne (hinj j' (List.mem_range.1 hj') e)

theorem effect_gemmU (O : MatOps α β γ) {m n k : Nat} {lc : Layout} (X : Nat → Nat → α) (Y : Nat → Nat → β) (alpha beta : γ)
    (hinj : ∀ i < m, ∀ j < n, ∀ i' < m, ∀ j' < n, lc.pos [i, j] = lc.pos [i', j'] → i = i' ∧ j = j')
    {i j : Nat} (hi : i < m) (hj : j < n) (v : γ) :
    effect (lc.pos [i, j]) (gemmU O m n k lc X Y alpha beta) v = serialCell O k (X i) (fun p => Y p j) alpha beta v := by
  rw [gemmU, effect_at List.nodup_range (List.mem_range.2 hi)]
  · have hin : ∀ j' < n, lc.pos [i, j'] = lc.pos [i, j] → j' = j := fun j' hj' e => (hinj i hi j' hj' i hi j hj e).2
    rw [effect_append, effect_row (pos := fun j => lc.pos [i, j]) (fun _ v => O.times beta v) hj hin, effect_fold]
    unfold serialCell
    congr 1
    funext v p
    exact effect_row (pos := fun j => lc.pos [i, j]) (fun j v => O.plus (O.times alpha (O.mul (X i p) (Y p j))) v) hj hin v
  · intro i' hi' hne u hu
    rw [List.mem_range] at hi'
    have : ∃ j' < n, u.1 = lc.pos [i', j'] := by
      rcases List.mem_append.1 hu with h | h
      · obtain ⟨j', hj', rfl⟩ := List.mem_map.1 h
        exact ⟨j', List.mem_range.1 hj', rfl⟩
      · obtain ⟨p, -, h⟩ := List.mem_flatMap.1 h
        obtain ⟨j', hj', rfl⟩ := List.mem_map.1 h
        exact ⟨j', List.mem_range.1 hj', rfl⟩
    obtain ⟨j', hj', e⟩ := this
    rw [e]
    exact fun e => hne (hinj i' hi' j' hj' i hi j hj e).1

/-! ## Parallel -/

/-- What the parallel kernel computes for one cell. -/
def parCell (O : MatOps α β γ) (k : Nat) (x : Nat → α) (y : Nat → β) (alpha beta v : γ) : γ :=
  O.plus (O.times v beta) (O.times ((List.range k).foldl (fun acc p => O.plus acc (O.mul (x p) (y p))) O.zero) alpha)

def gemmParU (O : MatOps α β γ) (m n k : Nat) (lc : Layout) (X : Nat → Nat → α) (Y : Nat → Nat → β) (alpha beta : γ) :
    List (Nat × (γ → γ)) :=
  (List.range n).flatMap fun j => (List.range m).flatMap fun i =>
    [(lc.pos [i, j], parCell O k (X i) (fun p => Y p j) alpha beta)]

theorem foldRes_dot (O : MatOps α β γ) {a : List α} {b : List β} {ia ib : Nat → Res Int} {x : Nat → α} {y : Nat → β}
    {ks : List Nat} (h : ∀ p ∈ ks, ∃ i j, ia p = .ok i ∧ ib p = .ok j ∧ 0 ≤ i ∧ 0 ≤ j ∧ a[i.toNat]? = some (x p) ∧
      b[j.toNat]? = some (y p)) (acc : γ) :
    foldRes (dotFold O a b ia ib) acc ks = .ok (ks.foldl (fun acc p => O.plus acc (O.mul (x p) (y p))) acc) := by
  induction ks generalizing acc with
  | nil => rfl
  | cons p ks ih =>
    obtain ⟨i, j, h1, h2, h3, h4, h5, h6⟩ := h p List.mem_cons_self
    have : dotFold O a b ia ib acc p = .ok (O.plus acc (O.mul (x p) (y p))) := by
      unfold dotFold
      rw [h1, h2, ok_bind, readInt_ok h3 h5, ok_bind, ok_bind, readInt_ok h4 h6]
      rfl
    rw [foldRes, this, ok_bind, ih fun p hp => h p (List.mem_cons_of_mem _ hp)]
    rfl

theorem parRange2_ok {g : Plan → Nat → Res (Proc γ)} {u : Nat → List (Nat × (γ → γ))} (s : Sched) {xs : List Nat}
    (h : ∀ inner, ∀ x ∈ xs, ∃ p, g inner x = .ok p ∧ updates p = u x) :
    ∃ p, parRange2 g s xs = .ok p ∧ updates p = xs.flatMap u := by
  induction s generalizing xs with
  | run inner => exact loop_numbered inner h
  | split k a b iha ihb =>
    obtain ⟨p, h1, h2⟩ := iha (xs := xs.take k) fun i x hx => h i x (List.mem_of_mem_take hx)
    obtain ⟨q, h3, h4⟩ := ihb (xs := xs.drop k) fun i x hx => h i x (List.mem_of_mem_drop hx)
    refine ⟨.par p q, ?_, ?_⟩
    · rw [parRange2, h1, h3]; rfl
    · rw [updates, h2, h4, ← List.flatMap_append, List.take_append_drop]

theorem gemmNaivePar_ok (O : MatOps α β γ) (s : Scheduler) {a : List α} {b : List β} {m n k : Nat} {la lb lc : Layout}
    {X : Nat → Nat → α} {Y : Nat → Nat → β} (h : MatIn a b m n k la lb lc X Y) (alpha beta : γ) :
    ∃ p, gemmNaivePar O s lc a la b lb alpha beta = .ok p ∧ updates p = gemmParU O m n k lc X Y alpha beta := by
  unfold gemmNaivePar
  simp only [Layout.dimAt, h.sa, h.sb, h.sc, List.getD_cons_zero, List.getD_cons_succ, ne_eq, not_true_eq_false, if_false]
  refine parRange2_ok _ ?_
  intro inner j hj
  rw [List.mem_range] at hj
  refine parRange_ok inner ?_
  intro i hi
  rw [List.mem_range] at hi
  refine ⟨.upd (lc.pos [i, j]) (parCell O k (X i) (fun p => Y p j) alpha beta), ?_, rfl⟩
  rw [indexUncheck2 h.sc, ok_bind, foldRes_dot O (x := X i) (y := fun p => Y p j), ok_bind, if_neg]
  · rfl
  · have := h.zc i hi j hj; omega
  · intro p hp
    rw [List.mem_range] at hp
    exact ⟨_, _, indexUncheck2 h.sa _ _, indexUncheck2 h.sb _ _, (h.xa i hi p hp).1, (h.yb p hp j hj).1,
      (h.xa i hi p hp).2, (h.yb p hp j hj).2⟩

end
end Rstsr
