import Verif.Proof.Copy
/-! # Writes to a buffer: what a kernel sets and what it leaves alone -/
namespace Rstsr
open Spec

section
variable {α γ ι : Type}

/-- `c'` is `c` with the cells described by `P` set and all others unchanged. -/
structure Writes (P : Nat → γ → Prop) (c c' : List γ) : Prop where
  len : c'.length = c.length
  set : ∀ k v, P k v → c'[k]? = some v
  keep : ∀ k, (∀ v, ¬ P k v) → c'[k]? = c[k]?

theorem Writes.congr {P Q : Nat → γ → Prop} {c c' : List γ} (h : Writes P c c') (e : ∀ k v, P k v ↔ Q k v) :
    Writes Q c c' := by
  have : P = Q := funext fun k => funext fun v => propext (e k v)
  exact this ▸ h

theorem writes_nil (c : List γ) : Writes (fun _ _ => False) c c := ⟨rfl, fun _ _ h => h.elim, fun _ _ => rfl⟩

theorem writes_one {c : List γ} {k : Nat} (v : γ) (hk : k < c.length) :
    ∃ c', modifyAt c k (fun _ => v) = .ok c' ∧ Writes (fun j w => j = k ∧ w = v) c c' := by
  refine ⟨c.set k v, ?_, by simp, ?_, ?_⟩
  · unfold modifyAt
    rw [List.getElem?_eq_getElem hk]
  · rintro _ _ ⟨rfl, rfl⟩
    simp [hk]
  · intro j hj
    have : k ≠ j := fun e => hj v ⟨e.symm, rfl⟩
    simp [List.getElem?_set, this]

/-- A loop of writes whose iterations agree where they overlap. -/
theorem runAll_writes {st : ι → List γ → Res (List γ)} {n : Nat} (P : ι → Nat → γ → Prop) {xs : List ι}
    (h : ∀ i ∈ xs, ∀ c : List γ, c.length = n → ∃ c', st i c = .ok c' ∧ Writes (P i) c c')
    (hag : ∀ i ∈ xs, ∀ j ∈ xs, ∀ k v w, P i k v → P j k w → v = w) {c : List γ} (hc : c.length = n) :
    ∃ c', runAll st xs c = .ok c' ∧ Writes (fun k v => ∃ i ∈ xs, P i k v) c c' := by
  induction xs generalizing c with
  | nil => exact ⟨c, rfl, (writes_nil c).congr (by simp)⟩
  | cons x xs ih =>
    obtain ⟨c1, h1, w1⟩ := h x List.mem_cons_self c hc
    obtain ⟨c2, h2, w2⟩ := ih (fun i hi => h i (List.mem_cons_of_mem _ hi))
      (fun i hi j hj => hag i (List.mem_cons_of_mem _ hi) j (List.mem_cons_of_mem _ hj)) (c := c1) (w1.len.trans hc)
    refine ⟨c2, ?_, w2.len.trans w1.len, ?_, ?_⟩
    · show (st x c >>= runAll st xs) = _
      rw [h1]; exact h2
    · rintro k v ⟨i, hi, hp⟩
      rcases List.mem_cons.1 hi with rfl | hi
      · by_cases hex : ∃ w, ∃ j ∈ xs, P j k w
        · obtain ⟨w, j, hj, hq⟩ := hex
          have := hag i hi j (List.mem_cons_of_mem _ hj) k v w hp hq
          subst this
          exact w2.set k v ⟨j, hj, hq⟩
        · rw [w2.keep k fun w hw => hex ⟨w, hw⟩]
          exact w1.set k v hp
      · exact w2.set k v ⟨i, hi, hp⟩
    · intro k hk
      rw [w2.keep k fun v ⟨i, hi, hp⟩ => hk v ⟨i, List.mem_cons_of_mem _ hi, hp⟩]
      exact w1.keep k fun v hp => hk v ⟨x, List.mem_cons_self, hp⟩

theorem zero_mem_of_prod {l : List Nat} (h : l.prod = 0) : 0 ∈ l := by
  by_contra hz
  exact prod_ne_zero_iff.2 (fun d hd => Nat.pos_of_ne_zero fun e => hz (e ▸ hd)) h

/-- One write of a copied element. -/
theorem step2_writes {a : List α} {i j : Nat} {x : α} {c : List γ} (hx : a[j]? = some x) (hi : i < c.length) (w : α → γ) :
    ∃ c', step2 a (fun _ x => w x) i j c = .ok c' ∧ Writes (fun k v => k = i ∧ v = w x) c c' := by
  obtain ⟨c', h1, h2⟩ := writes_one (w x) hi
  refine ⟨c', ?_, h2⟩
  unfold step2 readAt
  rw [hx]
  exact h1

/-- The cells that copying from `la` to `lc` sets. -/
def CopyWrites (s : List Nat) (lc la : Layout) (a : List α) (w : α → γ) (k : Nat) (v : γ) : Prop :=
  ∃ i, InRange i s ∧ lc.pos i = k ∧ ∃ x, a[la.pos i]? = some x ∧ v = w x

/-- A layout of the shape whose elements, if any, have positions. -/
structure Fits (s : List Nat) (l : Layout) : Prop where
  valid : l.Valid
  off : 0 ∉ s → 0 ≤ l.offset
  shape : l.shape = s

theorem Fit.fits {s : List Nat} {l : Layout} (h : Fit s l) : Fits s l := ⟨h.valid, fun _ => h.off, h.shape⟩

theorem Fits.nonneg {s : List Nat} {l : Layout} (h : Fits s l) : ∀ i, InRange i s → 0 ≤ l.addr i := by
  intro i hi
  exact C22_valid_nonNegative l h.valid (h.off fun hz => absurd (hi.pos 0 hz) (by simp)) i (h.shape ▸ hi)

theorem assign_zero (dflt : Order) {s : List Nat} {lc la : Layout} (hc : Fits s lc) (ha : Fits s la) (hz : 0 ∈ s)
    (c : List γ) (a : List α) (w : α → γ) : assign dflt c lc a la w = .ok c := by
  have hf : ∀ l ∈ [lc, la], Fits s l := by
    intro l hl
    simp only [List.mem_cons, List.not_mem_nil, or_false] at hl
    rcases hl with rfl | rfl <;> assumption
  obtain ⟨ms, e, h1, h2, h3, s', h4⟩ := C28_joint dflt s [lc, la] (fun l hl => (hf l hl).valid)
    (fun l hl => (hf l hl).shape) .K (by simp)
  obtain ⟨mc, ma, rfl, k1, k2⟩ := forall2_two h3
  have he : e = [] := by
    have := h2.length_eq
    rw [length_all, prod_eq_zero_of hz] at this
    exact List.length_eq_zero_iff.1 this
  subst he
  have c1 := colItems_of h2 k1 hc.nonneg
  have c2 := colItems_of h2 k2 ha.nonneg
  have hz' : 0 ∈ s' := by
    have : (all .F mc.shape).length = 0 := by
      have := congrArg List.length k1
      simpa using this
    rw [length_all, h4 mc (by simp)] at this
    exact zero_mem_of_prod this
  unfold assign
  rw [h1]
  simp only [ok_bind]
  cases hw : Layout.withContig [mc, ma] with
  | mk contig n =>
    have hn := withContig_zero hz' h4 hw
    subst hn
    simp only [contigSwitch, ge_iff_le, show ¬ (16 ≤ 0) by omega, if_false]
    simp only [dispatch2, ndim_of_shape (h4 mc (by simp)) (h4 ma (by simp)), ne_eq, not_true_eq_false, if_false, c1, c2, ok_bind]
    rfl

/-- The assignment kernel as writes. -/
theorem assign_writes (dflt : Order) {s : List Nat} {lc la : Layout} (hc : Fits s lc) (ha : Fits s la)
    {c : List γ} {a : List α} (cc : Covers s lc c) (ca : Covers s la a)
    (hag : ∀ i j, InRange i s → InRange j s → lc.pos i = lc.pos j → i = j) (w : α → γ) :
    ∃ c', assign dflt c lc a la w = .ok c' ∧ Writes (CopyWrites s lc la a w) c c' := by
  by_cases hz : 0 ∈ s
  · refine ⟨c, assign_zero dflt hc ha hz c a w, (writes_nil c).congr ?_⟩
    intro k v
    refine ⟨False.elim, ?_⟩
    rintro ⟨i, hi, -⟩
    exact absurd (hi.pos 0 hz) (by simp)
  · obtain ⟨c', h1, h2, h3, h4⟩ := assign2 dflt ⟨hc.valid, hc.off hz, hc.shape⟩ ⟨ha.valid, ha.off hz, ha.shape⟩ cc ca
      (fun i j hi hj e => by rw [hag i j hi hj e]) w
    refine ⟨c', h1, h2, ?_, ?_⟩
    · rintro k v ⟨i, hi, rfl, x, hx, rfl⟩
      exact h3 i hi x hx
    · intro k hk
      refine h4 k fun i hi e => ?_
      obtain ⟨x, hx⟩ := ca.get hi
      exact hk _ ⟨i, hi, e, x, hx, rfl⟩

/-- A fresh buffer written completely becomes a tensor. -/
theorem fresh_finish {l : Layout} {n : Nat} (h : Tight l n) {c : List (Option γ)} (hc : c.length = n)
    (W : List Nat → γ → Prop) (hw : ∀ i, InRange i l.shape → ∃ v, W i v ∧ c[l.pos i]? = some (some v)) :
    ∃ d, assumeInit c = .ok d ∧ d.length = n ∧ Tensor.newF d l = .ok ⟨d, l⟩ ∧ (⟨d, l⟩ : Tensor γ).WF ∧
      ∀ i, InRange i l.shape → ∃ v, W i v ∧ (⟨d, l⟩ : Tensor γ).arr.elem i = some v := by
  obtain ⟨d, d1, d2, d3⟩ := init_ok (l := l) (c := c) hc h.sur (fun i hi => by
    obtain ⟨v, -, hv⟩ := hw i hi
    exact ⟨v, hv⟩)
  have hW := h.wf d2
  refine ⟨d, d1, d2, hW.2, hW, ?_⟩
  intro i hi
  obtain ⟨v, h1, h2⟩ := hw i hi
  exact ⟨v, h1, by rw [elem_pos h.fit hi]; exact d3 i hi v h2⟩

end
end Rstsr
