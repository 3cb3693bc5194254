import Verif.Model.Fnmut
import Verif.Spec.Calls
import Verif.Proof.Elementwise
/-! # Lemmas about the maps with a state -/
namespace Rstsr
open Spec

section
variable {σ α β γ ι A : Type}

/-- A loop that calls `F` once per item and stores the value in the cell of the item. -/
theorem runAll_calls (p : ι → Nat) (arg : ι → Option A) (F : σ → A → σ × γ) (st : ι → σ × List γ → Res (σ × List γ))
    (e : List ι) (xs : List A) (hx : e.map arg = xs.map some) (s : σ) (c : List γ) (hin : ∀ i ∈ e, p i < c.length)
    (hnd : (e.map p).Nodup)
    (hst : ∀ i ∈ e, ∀ x, arg i = some x → ∀ s d, d.length = c.length → d[p i]? = c[p i]? →
      st i (s, d) = .ok ((F s x).1, d.set (p i) (F s x).2)) :
    ∃ c', runAll st e (s, c) = .ok ((callAll F s xs).1, c') ∧ c'.length = c.length ∧
      (e.map fun i => c'[p i]?) = (callAll F s xs).2.map some ∧
      ∀ k, k ∉ e.map p → c'[k]? = c[k]? := by
  induction e generalizing xs s c with
  | nil =>
    cases xs with
    | nil => exact ⟨c, rfl, rfl, rfl, fun _ _ => rfl⟩
    | cons x xs => cases hx
  | cons i e ih =>
    cases xs with
    | nil => cases hx
    | cons x xs =>
    simp only [List.map_cons, List.cons.injEq] at hx
    have hi : p i < c.length := hin i List.mem_cons_self
    simp only [List.map_cons, List.nodup_cons] at hnd
    obtain ⟨c', h1, h2, h3, h4⟩ := ih xs hx.2 (F s x).1 (c.set (p i) (F s x).2)
      (by intro i hi; rw [List.length_set]; exact hin i (List.mem_cons_of_mem _ hi)) hnd.2 (by
        intro j hj y hy s d hd hv
        have hne : p i ≠ p j := fun e => hnd.1 (e ▸ List.mem_map_of_mem hj)
        rw [List.getElem?_set_ne hne] at hv
        exact hst j (List.mem_cons_of_mem _ hj) y hy s d (by simpa using hd) hv)
    refine ⟨c', ?_, by simpa using h2, ?_, ?_⟩
    · rw [runAll, hst i List.mem_cons_self x hx.1 s c rfl rfl, ok_bind, h1]
      rfl
    · simp only [List.map_cons, callAll, h3]
      rw [h4 _ hnd.1, List.getElem?_set_self hi]
    · intro k hk
      simp only [List.map_cons, List.mem_cons, not_or] at hk
      rw [h4 k hk.2, List.getElem?_set_ne (Ne.symm hk.1)]

theorem map_some_of {f : ι → Option A} {e : List ι} (h : ∀ i ∈ e, ∃ x, f i = some x) :
    ∃ xs : List A, e.map f = xs.map some := by
  induction e with
  | nil => exact ⟨[], rfl⟩
  | cons i e ih =>
    obtain ⟨x, hx⟩ := h i List.mem_cons_self
    obtain ⟨xs, hxs⟩ := ih fun i hi => h i (List.mem_cons_of_mem _ hi)
    exact ⟨x :: xs, by simp [hx, hxs]⟩

theorem callMutaRefb_eq (dflt : Order) {s : List Nat} {lc la : Layout} (hc : Fit s lc) (ha : Fit s la)
    (st : σ × List γ) (a : List α) (f : σ → γ → α → σ × γ) :
    ∃ e : List (List Nat), e.Perm (all .C s) ∧
      callMutaRefb dflt st lc a la f = runAll (fun i => callStep2 a f (lc.pos i) (la.pos i)) e st := by
  obtain ⟨e, mc, ma, h1, h2, h3, h4, h5, h6⟩ := joint2 dflt hc ha
  refine ⟨e, h1, ?_⟩
  unfold callMutaRefb
  rw [h2]
  simp only [ok_bind]
  cases hw : Layout.withContig [mc, ma] with
  | mk contig n =>
    simp only
    split
    · rename_i hge
      obtain ⟨oc, oa, J, rfl, k2, k3, k4, k5⟩ := h6 contig n hw (by unfold contigSwitch at hge; omega)
      simp only [dispatch2, k2, ne_eq, not_true_eq_false, if_false, k3, k4, ok_bind, zip_map_self, runAll_map]
      have := runAll_map (fun p : Nat × Nat => callStep2 a f p.1 p.2) (fun i => (lc.pos i, la.pos i)) e st
      rw [← this, k5, runAll_map, runAll_blockList]
    · simp only [dispatch2, h3, ne_eq, not_true_eq_false, if_false, h4, h5, ok_bind, zip_map_self, runAll_map]

theorem callMutcRefaRefb_eq (dflt : Order) {s : List Nat} {lc la lb : Layout} (hc : Fit s lc) (ha : Fit s la)
    (hb : Fit s lb) (st : σ × List γ) (a : List α) (b : List β) (f : σ → γ → α → β → σ × γ) :
    ∃ e : List (List Nat), e.Perm (all .C s) ∧
      callMutcRefaRefb dflt st lc a la b lb f =
        runAll (fun i => callStep3 a b f (lc.pos i) (la.pos i) (lb.pos i)) e st := by
  obtain ⟨e, mc, ma, mb, h1, h2, h3, h3', h4, h5, h5', h6⟩ := joint3 dflt hc ha hb
  refine ⟨e, h1, ?_⟩
  unfold callMutcRefaRefb
  rw [h2]
  simp only [ok_bind]
  cases hw : Layout.withContig [mc, ma, mb] with
  | mk contig n =>
    simp only
    split
    · rename_i hge
      obtain ⟨oc, oa, ob, J, rfl, k2, k2', k3, k4, k4', k5⟩ := h6 contig n hw (by unfold contigSwitch at hge; omega)
      simp only [dispatch3, ← k2, ← k2', ne_eq, not_true_eq_false, if_false, k3, k4, k4', ok_bind, zip_map_self, runAll_map]
      have := runAll_map (fun p : Nat × Nat × Nat => callStep3 a b f p.1 p.2.1 p.2.2)
        (fun i => (lc.pos i, la.pos i, lb.pos i)) e st
      rw [← this, k5, runAll_map, runAll_blockList]
    · simp only [dispatch3, ← h3, ← h3', ne_eq, not_true_eq_false, if_false, h4, h5, h5', ok_bind, zip_map_self, runAll_map]

theorem callMuta_eq (dflt : Order) {s : List Nat} {l : Layout} (h : Fit s l) (st : σ × List γ) (f : σ → γ → σ × γ) :
    ∃ ps : List Nat, ps.Nodup ∧ (∀ x, x ∈ ps ↔ ∃ idx, InRange idx s ∧ l.pos idx = x) ∧
      callMuta dflt st l f = runAll (fun i => callStep1 f i) ps st := by
  obtain ⟨ps, m, h1, h2, h3, h4, h5⟩ := joint1G dflt h
  refine ⟨ps, h3, h4, ?_⟩
  unfold callMuta
  rw [h1]
  simp only [ok_bind]
  cases hw : Layout.withContig [m] with
  | mk contig n =>
    simp only
    split
    · rename_i hge
      obtain ⟨o, J, rfl, k1, k2⟩ := h5 contig n hw (by unfold contigSwitch at hge; omega)
      simp only [dispatch1, k1, ok_bind, runAll_map]
      rw [k2, runAll_map, runAll_blockList]
    · simp only [dispatch1, h2, ok_bind]

/-- Allocate, fill by calls, build the tensor. -/
theorem calls_build {lc : Layout} (hd : Dense lc) {e : List (List Nat)} (he : e.Perm (all .C lc.shape))
    (hinj : ∀ i j, InRange i lc.shape → InRange j lc.shape → lc.pos i = lc.pos j → i = j)
    (arg : List Nat → Option A) (xs : List A) (hx : e.map arg = xs.map some) (f : σ → A → σ × γ) (s : σ)
    (st : List Nat → σ × List (Option γ) → Res (σ × List (Option γ)))
    (hst : ∀ i, InRange i lc.shape → ∀ x, arg i = some x → ∀ s (d : List (Option γ)), lc.pos i < d.length →
      st i (s, d) = .ok ((f s x).1, d.set (lc.pos i) (some (f s x).2))) :
    ∃ (n : Int) (c : List (Option γ)) (d : List γ), lc.boundsIndex = .ok (0, n) ∧
      runAll st e (s, uninit n) = .ok ((callAll f s xs).1, c) ∧ assumeInit c = .ok d ∧
      Tensor.newF d lc = .ok ⟨d, lc⟩ ∧ (⟨d, lc⟩ : Tensor γ).WF ∧
      (e.map (⟨d, lc⟩ : Tensor γ).arr.elem) = (callAll f s xs).2.map some := by
  obtain ⟨hv, n, hb, hlt, hsur⟩ := hd.spec
  have hlen : (uninit (n : Int) : List (Option γ)).length = n := by simp [uninit]
  have hmem : ∀ i, i ∈ e ↔ InRange i lc.shape := fun i => he.mem_iff.trans mem_all
  obtain ⟨c, e1, e2, e3, e4⟩ := runAll_calls lc.pos arg (fun s x => ((f s x).1, some (f s x).2)) st e xs hx s
    (uninit (n : Int)) (fun i hi => by rw [hlen]; exact hlt i ((hmem i).1 hi))
    ((he.nodup_iff.2 (nodup_all .C _)).map_on fun i hi j hj => hinj i j ((hmem i).1 hi) ((hmem j).1 hj))
    (fun i hi x hx s d hdl _ => hst i ((hmem i).1 hi) x hx s d (by rw [hdl, hlen]; exact hlt i ((hmem i).1 hi)))
  have hca : ∀ (xs : List A) (s : σ), callAll (fun s x => ((f s x).1, some (f s x).2)) s xs =
      ((callAll f s xs).1, (callAll f s xs).2.map some) := by
    intro xs
    induction xs with
    | nil => intro s; rfl
    | cons x xs ih => intro s; simp only [callAll, ih, List.map_cons]
  rw [hca] at e1 e3
  have cell : ∀ i, InRange i lc.shape → ∃ v, c[lc.pos i]? = some (some v) := by
    intro i hi
    have h1 : c[lc.pos i]? ∈ e.map fun i => c[lc.pos i]? := List.mem_map.2 ⟨i, (hmem i).2 hi, rfl⟩
    rw [e3] at h1
    obtain ⟨y, hy, e5⟩ := List.mem_map.1 h1
    obtain ⟨v, -, rfl⟩ := List.mem_map.1 hy
    exact ⟨v, e5.symm⟩
  obtain ⟨d, d1, d2, d3⟩ := assumeInit_ok (c := c) (fun k hk => by
    rw [e2, hlen] at hk
    obtain ⟨i, hi, rfl⟩ := hsur k hk
    exact cell i hi)
  have hoff : 0 ≤ lc.offset := by rw [hd.off]
  have hnew : Tensor.newF d lc = .ok ⟨d, lc⟩ := newF_ok hv hb (by rw [d2, e2, hlen])
  refine ⟨n, c, d, hb, e1, d1, hnew, ⟨hoff, hnew⟩, ?_⟩
  have h5 : (e.map fun i => c[lc.pos i]?) = (e.map (⟨d, lc⟩ : Tensor γ).arr.elem).map (Option.map some) := by
    rw [List.map_map]
    refine List.map_congr_left fun i hi => ?_
    obtain ⟨v, hv'⟩ := cell i ((hmem i).1 hi)
    show c[lc.pos i]? = Option.map some (element _ _ _ _)
    rw [element_eq (C22_valid_nonNegative lc hv hoff i ((hmem i).1 hi)), hv']
    have := d3 _ _ hv'
    rw [this]; rfl
  rw [h5] at e3
  have hinj' : Function.Injective (Option.map (some : γ → Option γ)) := Option.map_injective (Option.some_injective _)
  refine hinj'.list_map ?_
  rw [e3, List.map_map, List.map_map]
  rfl

end
end Rstsr
