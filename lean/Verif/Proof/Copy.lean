import Verif.Model.Copy
import Verif.Proof.Assign
import Verif.Thm.Elementwise
import Verif.Thm.Reshape
import Verif.Thm.Chain
/-! # Lemmas about the copying conversions -/
namespace Rstsr
open Spec

section
variable {α β γ : Type}

/-- Taking a completely written buffer as initialised. -/
theorem init_ok {l : Layout} {n : Nat} {c : List (Option γ)} (hlen : c.length = n)
    (hsur : ∀ k < n, ∃ i, InRange i l.shape ∧ l.pos i = k)
    (hW : ∀ i, InRange i l.shape → ∃ v, c[l.pos i]? = some (some v)) :
    ∃ d, assumeInit c = .ok d ∧ d.length = n ∧
      ∀ i, InRange i l.shape → ∀ v, c[l.pos i]? = some (some v) → d[l.pos i]? = some v := by
  obtain ⟨d, d1, d2, d3⟩ := assumeInit_ok (c := c) (fun k hk => by
    rw [hlen] at hk
    obtain ⟨i, hi, rfl⟩ := hsur k hk
    exact hW i hi)
  exact ⟨d, d1, by rw [d2, hlen], fun i _ v hv => d3 _ v hv⟩

/-- A dense layout without zero strides has as many cells as elements. -/
theorem dense_size {l : Layout} {n : Nat} (hlt : ∀ idx, InRange idx l.shape → l.pos idx < n)
    (hsur : ∀ k < n, ∃ idx, InRange idx l.shape ∧ l.pos idx = k)
    (hinj : ∀ i j, InRange i l.shape → InRange j l.shape → l.pos i = l.pos j → i = j) : n = l.size := by
  have hnd : (positions .C l).Nodup := by
    rw [positions_eq]
    exact (nodup_all .C l.shape).map_on fun i hi j hj => hinj i j (mem_all.1 hi) (mem_all.1 hj)
  have hp : (positions .C l).Perm (List.range n) := by
    rw [List.perm_ext_iff_of_nodup hnd List.nodup_range]
    intro k
    rw [positions_eq, List.mem_map, List.mem_range]
    constructor
    · rintro ⟨i, hi, rfl⟩; exact hlt i (mem_all.1 hi)
    · intro hk
      obtain ⟨i, hi, e⟩ := hsur k hk
      exact ⟨i, mem_all.2 hi, e⟩
  have := hp.length_eq
  rw [positions_length, List.length_range] at this
  exact this.symm

theorem offset_le {l : Layout} (ho : 0 ≤ l.offset) {mn mx : Int} (h : l.boundsIndex = .ok (mn, mx)) :
    l.offset ≤ mx := by
  by_cases hz : 0 ∈ l.shape
  · rw [boundsIndex_of_zero hz] at h
    cases h
    exact le_refl _
  · rw [boundsIndex_of_pos hz ho] at h
    have : 0 ≤ hiSum l.axes := by
      have hb := dot_bounds (axes := l.axes) (inRange_zeros fun d hd => Nat.pos_of_ne_zero fun e => hz (e ▸ hd))
      have e : dot (List.replicate (dims l.axes).length 0) l.axes = 0 := by
        generalize l.axes = axes
        induction axes with
        | nil => rfl
        | cons a as ih => simpa [List.replicate_succ] using ih
      omega
    split at h
    · cases h; omega
    · cases h

theorem WF_bounds {t : Tensor α} (h : t.WF) :
    ∃ mn mx, t.layout.boundsIndex = .ok (mn, mx) ∧ mx ≤ t.data.length ∧ t.layout.offset ≤ t.data.length := by
  have h2 := h.2
  unfold Tensor.newF at h2
  obtain ⟨_, e1, h2⟩ := bind_ok.1 h2
  obtain ⟨⟨mn, mx⟩, e2, h2⟩ := bind_ok.1 h2
  have hle : mx ≤ t.data.length := by
    by_contra hle
    simp only [if_neg hle] at h2
    cases h2
  exact ⟨mn, mx, e2, hle, (offset_le h.1 e2).trans hle⟩

/-- A layout that only shows elements of a well-formed tensor makes a well-formed tensor. -/
theorem wf_of_sub {a : Tensor α} (ha : a.WF) {m : Layout} (hm : Good m) (hs : AddrSub m a.layout) (ho : 0 ≤ m.offset)
    (hz : 0 ∈ m.shape → m.offset ≤ a.data.length) : (⟨a.data, m⟩ : Tensor α).WF := by
  refine ⟨ho, ?_⟩
  by_cases h0 : 0 ∈ m.shape
  · exact newF_ok (valid_iff.2 hm.accepted) (boundsIndex_of_zero h0) (hz h0)
  · have hb := boundsIndex_of_pos h0 ho
    have hlo := (hm.resolve_left h0).1
    rw [if_pos hlo] at hb
    refine newF_ok (valid_iff.2 hm.accepted) hb ?_
    obtain ⟨h1, h2⟩ := hiIdx_spec (axes := m.axes) h0
    obtain ⟨i, hi, e⟩ := hs _ h1
    have := (C03_in_bounds a.data a.layout a ha.1 ha.2 i hi).2
    rw [← e, addr_eq, h2] at this
    show _ ≤ (a.data.length : Int)
    omega

theorem reshapeable_offset {l m : Layout} {s : List Nat} {o : Order} (h : l.reshapeable s o = .ok (some m)) :
    m.offset = l.offset := by
  unfold Layout.reshapeable at h
  obtain ⟨q, hq, h⟩ := bind_ok.1 h
  cases q with
  | some m' =>
    cases h
    unfold Layout.quickCheck at hq
    split at hq
    · cases hq
    split at hq
    · obtain ⟨k, h1, h2⟩ := map_eq_ok.1 hq
      cases h2
      unfold Layout.new at h1
      rw [if_pos (by simp)] at h1
      unfold Layout.newAxes at h1
      obtain ⟨_, _, h1⟩ := bind_ok.1 h1
      obtain ⟨_, _, h1⟩ := bind_ok.1 h1
      cases h1; rfl
    split at hq
    · cases hq; rfl
    · cases o <;> dsimp only at hq <;> split at hq <;> cases hq <;> rfl
  | none =>
    simp only at h
    split at h
    · cases h; rfl
    · cases h

/-- The cells of the layout are exactly `0 … n-1`, one for each index. -/
structure Tight (l : Layout) (n : Nat) : Prop where
  valid : l.Valid
  off : 0 ≤ l.offset
  bounds : ∃ mn, l.boundsIndex = .ok (mn, (n : Int))
  lt : ∀ i, InRange i l.shape → l.pos i < n
  sur : ∀ k < n, ∃ i, InRange i l.shape ∧ l.pos i = k
  inj : ∀ i j, InRange i l.shape → InRange j l.shape → l.pos i = l.pos j → i = j

theorem Tight.fit {l : Layout} {n : Nat} (h : Tight l n) : Fit l.shape l := ⟨h.valid, h.off, rfl⟩

theorem Tight.size {l : Layout} {n : Nat} (h : Tight l n) : n = l.size := dense_size h.lt h.sur h.inj

theorem Dense.tight {l : Layout} (h : Dense l) (hs : 0 ∉ l.shape → ∀ x ∈ l.axes, x.str ≠ 0) : Tight l l.size := by
  obtain ⟨hv, n, hb, hlt, hsur⟩ := h.spec
  have : Tight l n := ⟨hv, by rw [h.off], ⟨0, hb⟩, hlt, hsur, fun i j hi hj e => dense_inj h hs hi hj e⟩
  exact this.size ▸ this

theorem tight_newC (s : List Nat) : Tight (Layout.newCContig s 0) (Layout.newCContig s 0).size :=
  (dense_newCContig s).tight fun hz x hx => newCContig_nonzero s (by rwa [shape_newCContig] at hz) x hx

theorem tight_newF (s : List Nat) : Tight (Layout.newFContig s 0) (Layout.newFContig s 0).size :=
  (dense_newFContig s).tight fun hz x hx => newFContig_nonzero s (by rwa [shape_newFContig] at hz) x hx

theorem Tight.wf {l : Layout} {n : Nat} (h : Tight l n) {d : List α} (hd : d.length = n) :
    (⟨d, l⟩ : Tensor α).WF := by
  obtain ⟨mn, hb⟩ := h.bounds
  exact ⟨h.off, newF_ok h.valid hb (by show (n : Int) ≤ (d.length : Int); omega)⟩

theorem elem_pos {d : List α} {l : Layout} {s : List Nat} (h : Fit s l) {i : List Nat} (hi : InRange i s) :
    (⟨d, l⟩ : Tensor α).arr.elem i = d[l.pos i]? := element_eq (h.nonneg i hi)

/-- Copy into a fresh buffer, in the order of elements. -/
theorem fresh_arbitrary (dflt o : Order) {l : Layout} {n : Nat} (h : Tight l n) {a : Tensor α} (ha : a.WF)
    (hsz : l.size = a.layout.size) (w : α → γ) :
    ∃ c d, assignArbitrary dflt (uninit (n : Int)) l a.data a.layout o (fun x => some (w x)) = .ok c ∧
      assumeInit c = .ok d ∧ d.length = n ∧
      ∀ i j, InRange i l.shape → InRange j a.layout.shape → rank o l.shape i = rank o a.layout.shape j →
        ∀ x, a.data[a.layout.pos j]? = some x → d[l.pos i]? = some (w x) := by
  have hlen : (uninit (n : Int) : List (Option γ)).length = n := by simp [uninit]
  obtain ⟨mn, hb⟩ := h.bounds
  obtain ⟨_, _, _, _, hao⟩ := WF_bounds ha
  obtain ⟨c, h1, h2, h3, -⟩ := assignArbitrary2 dflt o h.fit ha.fit hsz (c := uninit (n : Int)) (a := a.data)
    (fun i hi => by rw [hlen]; exact h.lt i hi) ha.covers (by rw [hlen]; exact offset_le h.off hb) hao h.inj
    (fun x => some (w x))
  have hrank : ∀ i, InRange i l.shape → ∃ j, InRange j a.layout.shape ∧ rank o l.shape i = rank o a.layout.shape j := by
    intro i hi
    obtain ⟨j, hj, ej⟩ := exists_rank (o := o) (shape := a.layout.shape) (k := rank o l.shape i)
      (by have := rank_lt (o := o) hi; simp only [Layout.size] at hsz; omega)
    exact ⟨j, hj, ej.symm⟩
  obtain ⟨d, d1, d2, d3⟩ := init_ok (l := l) (c := c) (h2.trans hlen) h.sur (fun i hi => by
    obtain ⟨j, hj, ej⟩ := hrank i hi
    obtain ⟨x, hx, -⟩ := ha.get hj
    exact ⟨w x, h3 i j hi hj ej x hx⟩)
  exact ⟨c, d, h1, d1, d2, fun i j hi hj e x hx => d3 i hi _ (h3 i j hi hj e x hx)⟩

/-- Copy into a fresh buffer of the same shape. -/
theorem fresh_same (dflt : Order) {l : Layout} {n : Nat} (h : Tight l n) {a : Tensor α} (ha : a.WF)
    (hs : l.shape = a.layout.shape) (w : α → γ) :
    ∃ c d, assign dflt (uninit (n : Int)) l a.data a.layout (fun x => some (w x)) = .ok c ∧
      assumeInit c = .ok d ∧ d.length = n ∧
      ∀ i, InRange i l.shape → ∀ x, a.data[a.layout.pos i]? = some x → d[l.pos i]? = some (w x) := by
  have hlen : (uninit (n : Int) : List (Option γ)).length = n := by simp [uninit]
  obtain ⟨c, h1, h2, h3, -⟩ := assign2 dflt h.fit (la := a.layout) ⟨ha.fit.valid, ha.1, hs.symm⟩ (c := uninit (n : Int))
    (a := a.data) (fun i hi => by rw [hlen]; exact h.lt i hi) (hs ▸ ha.covers)
    (fun i j hi hj e => by rw [h.inj i j hi hj e]) (fun x => some (w x))
  obtain ⟨d, d1, d2, d3⟩ := init_ok (l := l) (c := c) (h2.trans hlen) h.sur (fun i hi => by
    obtain ⟨x, hx, -⟩ := ha.get (hs ▸ hi)
    exact ⟨w x, h3 i hi x hx⟩)
  exact ⟨c, d, h1, d1, d2, fun i hi x hx => d3 i hi _ (h3 i hi x hx)⟩

theorem same_of {a : Tensor α} (ha : a.WF) {l : Layout} {d : List α} (hl : Fit a.layout.shape l)
    (h : ∀ i, InRange i l.shape → ∀ x, a.data[a.layout.pos i]? = some x → d[l.pos i]? = some x) :
    a.arr.Same (⟨d, l⟩ : Tensor α).arr := by
  refine ⟨hl.shape, fun i hi => ?_⟩
  obtain ⟨x, h1, h2⟩ := ha.get hi
  refine ⟨x, h2, ?_⟩
  rw [elem_pos hl hi]
  exact h i (by rw [hl.shape]; exact hi) x h1

theorem same_of_seq {o : Order} {a : Tensor α} {b : Tensor α} (hs : b.arr.shape = a.arr.shape)
    (h : a.arr.SameSequence o b.arr) : a.arr.Same b.arr :=
  ⟨hs, fun i hi => h.2 i i hi (hs ▸ hi) (by rw [hs])⟩

end
end Rstsr
