import Verif.Proof.Kernel
/-! # Layouts that fill their storage range -/
namespace Rstsr
open Spec

/-- The position contribution `v` is attained by an index. -/
def Attains (A : List Axis) (v : Int) : Prop := ∃ idx, InRange idx (dims A) ∧ dot idx A = v

theorem attains_perm {A B : List Axis} (h : A.Perm B) {v : Int} (hr : Attains A v) : Attains B v := by
  induction h generalizing v with
  | nil => exact hr
  | cons x _ ih =>
    obtain ⟨idx, h1, h2⟩ := hr
    cases idx with
    | nil => simp at h1
    | cons i is =>
      simp only [List.map_cons, inRange_cons] at h1
      obtain ⟨js, h3, h4⟩ := ih ⟨is, h1.2, rfl⟩
      exact ⟨i :: js, ⟨h1.1, h3⟩, by rw [← h2]; simp [h4]⟩
  | swap x y A =>
    obtain ⟨idx, h1, h2⟩ := hr
    match idx, h1 with
    | [], h1 => simp at h1
    | [i], h1 => simp at h1
    | i :: j :: is, h1 =>
      simp only [List.map_cons, inRange_cons] at h1
      refine ⟨j :: i :: is, ⟨h1.2.1, h1.1, h1.2.2⟩, ?_⟩
      rw [← h2]; simp only [dot_cons]; ring
  | trans _ _ ih1 ih2 => exact ih2 (ih1 hr)

theorem attains_ess {A : List Axis} (hz : 0 ∉ dims A) {v : Int} : Attains (A.filter Axis.ess) v ↔ Attains A v := by
  induction A generalizing v with
  | nil => exact Iff.rfl
  | cons x A ih =>
    simp only [List.map_cons, List.mem_cons, not_or] at hz
    by_cases he : x.ess = true
    · rw [List.filter_cons_of_pos he]
      constructor <;>
      · rintro ⟨idx, h1, h2⟩
        cases idx with
        | nil => simp at h1
        | cons i is =>
          simp only [List.map_cons, inRange_cons] at h1
          first
          | obtain ⟨js, h3, h4⟩ := (ih hz.2).1 ⟨is, h1.2, rfl⟩
            exact ⟨i :: js, ⟨h1.1, h3⟩, by rw [← h2]; simp [h4]⟩
          | obtain ⟨js, h3, h4⟩ := (ih hz.2).2 ⟨is, h1.2, rfl⟩
            exact ⟨i :: js, ⟨h1.1, h3⟩, by rw [← h2]; simp [h4]⟩
    · rw [List.filter_cons_of_neg he, ih hz.2]
      have hx : x.dim = 1 ∨ x.str = 0 := by
        simp only [Axis.ess, Bool.and_eq_true, decide_eq_true_eq, not_and, not_not] at he
        by_cases h : 1 < x.dim
        · exact Or.inr (he h)
        · exact Or.inl (by omega)
      constructor
      · rintro ⟨is, h1, h2⟩
        exact ⟨0 :: is, ⟨Nat.pos_of_ne_zero fun e => hz.1 e.symm, h1⟩, by rw [← h2]; simp⟩
      · rintro ⟨idx, h1, h2⟩
        cases idx with
        | nil => simp at h1
        | cons i is =>
          simp only [List.map_cons, inRange_cons] at h1
          refine ⟨is, h1.2, ?_⟩
          rw [← h2, dot_cons]
          rcases hx with hx | hx
          · have : i = 0 := by omega
            simp [this]
          · simp [hx]

/-- Strides growing by exactly the lengths. -/
def Packed : Int → List Axis → Prop
  | _, [] => True
  | cur, x :: xs => x.str = cur ∧ Packed (cur * (x.dim : Int)) xs

theorem packed_dot {cur : Int} {L : List Axis} (h : Packed cur L) {idx : List Nat} (hi : InRange idx (dims L)) :
    dot idx L = cur * (rankF (dims L) idx : Int) := by
  induction L generalizing cur idx with
  | nil => cases idx <;> simp_all
  | cons x L ih =>
    cases idx with
    | nil => simp at hi
    | cons i is =>
      simp only [List.map_cons, inRange_cons] at hi
      rw [dot_cons, ih h.2 hi.2, h.1]
      simp only [dims, List.map_cons, rankF]
      push_cast; ring

theorem packed_attains {cur : Int} {L : List Axis} (h : Packed cur L) {k : Nat} (hk : k < (dims L).prod) :
    Attains L (cur * (k : Int)) := by
  have hl : k < (all .F (dims L)).length := by rw [length_all]; exact hk
  refine ⟨(all .F (dims L))[k], mem_all.1 (List.getElem_mem hl), ?_⟩
  rw [packed_dot h (mem_all.1 (List.getElem_mem hl))]
  have := rank_all_getElem (o := .F) hl
  simp only [rank] at this
  rw [this]

theorem packed_superInc {cur : Int} {c : Nat} {L : List Axis} (h : Packed cur L) (hc : (c : Int) < cur)
    (hd : ∀ x ∈ L, 0 < x.dim) : SuperInc c L := by
  induction L generalizing cur c with
  | nil => trivial
  | cons x L ih =>
    have hx := hd x List.mem_cons_self
    refine ⟨by rw [h.1]; omega, ih h.2 ?_ fun y hy => hd y (List.mem_cons_of_mem _ hy)⟩
    rw [h.1]
    obtain ⟨d, hd⟩ : ∃ d, x.dim = d + 1 := ⟨x.dim - 1, by omega⟩
    have : (cur.natAbs : Int) = cur := by omega
    rw [hd, Nat.add_sub_cancel]
    push_cast [this]
    nlinarith

/-- A layout that starts at 0 and whose moving axes are packed in some order. -/
structure Dense (l : Layout) : Prop where
  off : l.offset = 0
  packed : 0 ∈ dims l.axes ∨ ∃ L : List Axis, L.Perm (l.axes.filter Axis.ess) ∧ Packed 1 L

/-- A dense layout is accepted, its positions are exactly `0 … n-1`. -/
theorem Dense.spec {l : Layout} (h : Dense l) :
    l.Valid ∧ ∃ n : Nat, l.boundsIndex = .ok (0, (n : Int)) ∧
      (∀ idx, InRange idx l.shape → l.pos idx < n) ∧ (∀ k < n, ∃ idx, InRange idx l.shape ∧ l.pos idx = k) := by
  by_cases hz : 0 ∈ dims l.axes
  · refine ⟨valid_iff.2 (Good.accepted (Or.inl hz)), 0, ?_, ?_, by simp⟩
    · rw [boundsIndex_of_zero hz, h.off]; rfl
    · intro idx hi
      exact absurd (hi.pos 0 hz) (by simp)
  · obtain ⟨L, h1, h2⟩ := h.packed.resolve_left hz
    have hdL : ∀ x ∈ L, 0 < x.dim := by
      intro x hx
      have := (List.mem_filter.1 (h1.mem_iff.1 hx)).2
      simp [Axis.ess] at this
      omega
    have hpos : 0 < (dims L).prod := prod_pos_of fun d hd => by
      obtain ⟨x, hx, rfl⟩ := List.mem_map.1 hd
      exact hdL x hx
    have hR : ∀ v, Attains l.axes v ↔ ∃ k : Nat, k < (dims L).prod ∧ v = k := by
      intro v
      rw [← attains_ess hz]
      constructor
      · intro hr
        obtain ⟨idx, hi, e⟩ := attains_perm h1.symm hr
        refine ⟨rankF (dims L) idx, rank_lt (o := .F) hi, ?_⟩
        rw [← e, packed_dot h2 hi, one_mul]
      · rintro ⟨k, hk, rfl⟩
        have := packed_attains h2 hk
        rw [one_mul] at this
        exact attains_perm h1 this
    have hlo : loSum l.axes = 0 := by
      obtain ⟨k, hk, e⟩ := (hR _).1 ⟨_, loIdx_spec hz⟩
      have := loSum_nonpos hz
      omega
    have hhi : hiSum l.axes = ((dims L).prod : Int) - 1 := by
      obtain ⟨k, hk, e⟩ := (hR _).1 ⟨_, hiIdx_spec hz⟩
      obtain ⟨idx, hi, e2⟩ := (hR (((dims L).prod - 1 : Nat) : Int)).2 ⟨_, by omega, rfl⟩
      have := (dot_bounds hi).2
      omega
    refine ⟨valid_iff.2 (Good.accepted (Or.inr ⟨by rw [hlo, h.off]; simp, L, h1, ?_⟩)), (dims L).prod, ?_, ?_, ?_⟩
    · exact packed_superInc h2 (by simp) hdL
    · rw [boundsIndex_of_pos hz (by rw [h.off]), hlo, hhi, h.off, if_pos (by simp)]
      simp
    · intro idx hi
      obtain ⟨k, hk, e⟩ := (hR (dot idx l.axes)).1 ⟨idx, hi, rfl⟩
      unfold Layout.pos
      rw [addr_eq, h.off, e]
      simpa using hk
    · intro k hk
      obtain ⟨idx, hi, e⟩ := (hR k).2 ⟨k, hk, rfl⟩
      refine ⟨idx, hi, ?_⟩
      unfold Layout.pos
      rw [addr_eq, h.off, e]; simp


/-! ## Copy layouts -/

theorem packed_fStrides (acc : Int) (s : List Nat) : Packed acc (mkAxes s (fStrides acc s)) := by
  induction s generalizing acc with
  | nil => trivial
  | cons d ds ih => exact ⟨rfl, ih _⟩

theorem packed_ess {cur : Int} {L : List Axis} (h : Packed cur L) (hc : 0 < cur) (hz : 0 ∉ dims L) :
    Packed cur (L.filter Axis.ess) := by
  induction L generalizing cur with
  | nil => trivial
  | cons x L ih =>
    simp only [List.map_cons, List.mem_cons, not_or] at hz
    have hd : 0 < x.dim := Nat.pos_of_ne_zero fun e => hz.1 e.symm
    have hc' : 0 < cur * (x.dim : Int) := Int.mul_pos hc (by omega)
    by_cases he : x.ess = true
    · rw [List.filter_cons_of_pos he]
      exact ⟨h.1, ih h.2 hc' hz.2⟩
    · rw [List.filter_cons_of_neg he]
      have h1 : x.dim = 1 := by
        simp only [Axis.ess, Bool.and_eq_true, decide_eq_true_eq, not_and, not_not, h.1] at he
        by_contra hne
        have := he (by omega)
        omega
      have := ih h.2 hc' hz.2
      rw [h1] at this
      simpa using this

theorem dense_of_perm {l : Layout} {s : List Nat} (ho : l.offset = 0)
    (hp : (Layout.newFContig s 0).axes.Perm l.axes) : Dense l := by
  refine ⟨ho, ?_⟩
  by_cases hz : 0 ∈ dims l.axes
  · exact Or.inl hz
  · right
    have hz' : 0 ∉ dims (Layout.newFContig s 0).axes := fun h => hz ((hp.map _).mem_iff.1 h)
    exact ⟨_, hp.filter _, packed_ess (packed_fStrides 1 s) (by decide) hz'⟩

theorem dense_newFContig (s : List Nat) : Dense (Layout.newFContig s 0) := dense_of_perm rfl (List.Perm.refl _)

theorem dense_newCContig (s : List Nat) : Dense (Layout.newCContig s 0) := by
  refine dense_of_perm (s := s.reverse) rfl ?_
  rw [newCContig_axes]
  exact (List.reverse_perm _).symm

theorem foldl_set_not_mem {ps : List (Nat × Nat)} {acc : List Nat} {k : Nat} (h : k ∉ ps.map (·.1)) :
    (ps.foldl (fun acc p => acc.set p.1 p.2) acc)[k]? = acc[k]? := by
  induction ps generalizing acc with
  | nil => rfl
  | cons p ps ih =>
    simp only [List.map_cons, List.mem_cons, not_or] at h
    rw [List.foldl_cons, ih h.2, List.getElem?_set_ne (Ne.symm h.1)]

theorem foldl_set_mem {ps : List (Nat × Nat)} {acc : List Nat} {k v : Nat} (hnd : (ps.map (·.1)).Nodup)
    (h : (k, v) ∈ ps) (hk : k < acc.length) :
    (ps.foldl (fun acc p => acc.set p.1 p.2) acc)[k]? = some v := by
  induction ps generalizing acc with
  | nil => simp at h
  | cons p ps ih =>
    simp only [List.map_cons, List.nodup_cons] at hnd
    rw [List.foldl_cons]
    rcases List.mem_cons.1 h with rfl | h
    · rw [foldl_set_not_mem hnd.1, List.getElem?_set_self hk]
    · exact ih hnd.2 h (by simpa using hk)

theorem foldl_set_length {ps : List (Nat × Nat)} {acc : List Nat} :
    (ps.foldl (fun acc p => acc.set p.1 p.2) acc).length = acc.length := by
  induction ps generalizing acc with
  | nil => rfl
  | cons p ps ih => rw [List.foldl_cons, ih, List.length_set]

theorem reversedPermute_eq {n : Nat} {p : List Nat} (hp : p.Perm (List.range n)) :
    Layout.reversedPermute p = (List.range n).map fun a => p.idxOf a := by
  have hpl : p.length = n := by simpa using hp.length_eq
  have hnd : p.Nodup := hp.nodup_iff.2 List.nodup_range
  unfold Layout.reversedPermute
  apply List.ext_getElem?
  intro k
  by_cases hk : k < n
  · have hmem : k ∈ p := hp.mem_iff.2 (List.mem_range.2 hk)
    have hidx : p.idxOf k < p.length := List.idxOf_lt_length_of_mem hmem
    rw [foldl_set_mem (v := p.idxOf k) ?_ ?_ (by simpa [hpl] using hk)]
    · simp [hk]
    · simpa using hnd
    · rw [List.mem_iff_getElem]
      exact ⟨p.idxOf k, by simpa using hidx, by simp⟩
  · rw [List.getElem?_eq_none (by rw [foldl_set_length]; simp; omega), List.getElem?_eq_none (by simp; omega)]

theorem idxOf_perm {n : Nat} {p : List Nat} (hp : p.Perm (List.range n)) :
    ((List.range n).map fun a => p.idxOf a).Perm (List.range n) := by
  have hpl : p.length = n := by simpa using hp.length_eq
  have hnd : p.Nodup := hp.nodup_iff.2 List.nodup_range
  have hp2 : ((List.range n).map fun a => p.idxOf a).Perm (p.map fun a => p.idxOf a) := hp.symm.map _
  refine hp2.trans (List.Perm.of_eq ?_)
  apply List.ext_getElem
  · simp [hpl]
  · intro k h1 h2
    simp only [List.length_map] at h1
    simp only [List.getElem_map, List.getElem_range]
    exact hnd.idxOf_getElem k h1

/-- The copy layouts for the orders C, F, A and K: same shape, dense. -/
theorem forArrayCopy_spec (dflt : Order) {l : Layout} (hl : l.Valid) (o : IterOrder)
    (ho : o = .C ∨ o = .F ∨ o = .A ∨ o = .K) :
    ∃ m, l.forArrayCopy dflt o = .ok m ∧ m.shape = l.shape ∧ Dense m ∧ (0 ∉ l.shape → ∀ x ∈ m.axes, x.str ≠ 0) := by
  have hC : ∀ s, 0 ∉ s → ∀ x ∈ (Layout.newFContig s 0).axes, x.str ≠ 0 := by
    intro s
    have : ∀ (acc : Int) (s : List Nat), 0 < acc → 0 ∉ s → ∀ x ∈ mkAxes s (fStrides acc s), x.str ≠ 0 := by
      intro acc s
      induction s generalizing acc with
      | nil => intro _ _ x hx; simp [mkAxes] at hx
      | cons d ds ih =>
        intro ha hz x hx
        simp only [List.mem_cons, not_or] at hz
        rcases List.mem_cons.1 hx with rfl | hx
        · simp only; omega
        · exact ih _ (Int.mul_pos ha (by have := hz.1; omega)) hz.2 x hx
    exact this 1 s (by decide)
  have hc : (Layout.newCContig l.shape 0).shape = l.shape ∧ Dense (Layout.newCContig l.shape 0) ∧
      (0 ∉ l.shape → ∀ x ∈ (Layout.newCContig l.shape 0).axes, x.str ≠ 0) := by
    refine ⟨shape_newCContig _ _, dense_newCContig _, fun hz x hx => ?_⟩
    rw [newCContig_axes] at hx
    exact hC _ (by simpa using hz) x (List.mem_reverse.1 hx)
  have hf : (Layout.newFContig l.shape 0).shape = l.shape ∧ Dense (Layout.newFContig l.shape 0) ∧
      (0 ∉ l.shape → ∀ x ∈ (Layout.newFContig l.shape 0).axes, x.str ≠ 0) :=
    ⟨shape_newFContig _ _, dense_newFContig _, hC _⟩
  rcases ho with rfl | rfl | rfl | rfl
  · exact ⟨_, rfl, hc⟩
  · exact ⟨_, rfl, hf⟩
  · unfold Layout.forArrayCopy
    simp only
    split
    · exact ⟨_, rfl, hc⟩
    · split
      · exact ⟨_, rfl, hf⟩
      · cases dflt
        · exact ⟨_, rfl, hc⟩
        · exact ⟨_, rfl, hf⟩
  · have key : ∃ g p, l.greedy true = .ok (g, p) ∧ p.Perm (List.range l.ndim) ∧
        g.shape = p.map fun a => l.shape.getD a 0 := by
      by_cases hs : l.size = 0
      · refine ⟨_, _, greedy_zero _ hs, List.Perm.refl _, ?_⟩
        have := map_getD_range l.axes
        apply List.ext_getElem
        · simp [Layout.shape, Layout.ndim]
        · intro k h1 h2
          simp [List.getD_eq_getElem?_getD, List.getElem?_eq_getElem h1]
      · refine ⟨_, _, greedy_keep (valid_iff.1 hl) hs, greedyIndex_perm l, ?_⟩
        show dims _ = _
        rw [dims_pick, dims_absAxis]
        rfl
    obtain ⟨g, p, h1, h2, h3⟩ := key
    have hgl : (Layout.newFContig g.shape 0).ndim = l.ndim := by
      have e := congrArg List.length (shape_newFContig g.shape 0)
      have e2 := congrArg List.length h3
      have e3 := h2.length_eq
      simp only [Layout.shape, List.length_map, List.length_range] at e e2 e3
      exact e.trans (e2.trans e3)
    have hrev : (Layout.reversedPermute p).Perm (List.range l.ndim) := by
      rw [reversedPermute_eq h2]; exact idxOf_perm h2
    refine ⟨⟨pick (Layout.newFContig g.shape 0).axes (Layout.reversedPermute p), 0⟩, ?_, ?_, ?_, ?_⟩
    · simp only [Layout.forArrayCopy, h1, ok_bind]
      exact transpose_perm (by rw [hgl]; exact hrev)
    · show dims _ = _
      rw [dims_pick]
      have e : dims (Layout.newFContig g.shape 0).axes = p.map fun a => l.shape.getD a 0 := by
        rw [← h3]; exact shape_newFContig _ _
      rw [e, reversedPermute_eq h2, List.map_map]
      apply List.ext_getElem
      · simp [Layout.shape, Layout.ndim]
      · intro k k1 k2
        have hk : k < l.ndim := by simpa using k1
        have hmem : k ∈ p := h2.mem_iff.2 (List.mem_range.2 hk)
        have hidx := List.idxOf_lt_length_of_mem hmem
        simp [List.getD_eq_getElem?_getD, List.getElem?_eq_getElem hidx, List.getElem?_eq_getElem k2]
    · exact dense_of_perm rfl (pick_perm (by
        have : (Layout.newFContig g.shape 0).axes.length = l.ndim := hgl
        rw [this]; exact hrev)).symm
    · intro hz x hx
      have hp2 := pick_perm (axes := (Layout.newFContig g.shape 0).axes) (p := Layout.reversedPermute p) (by
        have : (Layout.newFContig g.shape 0).axes.length = l.ndim := hgl
        rw [this]; exact hrev)
      refine hC g.shape ?_ x (hp2.mem_iff.1 hx)
      intro h0
      rw [h3] at h0
      obtain ⟨a, ha, e⟩ := List.mem_map.1 h0
      have ha' : a < l.shape.length := by
        have := List.mem_range.1 (h2.mem_iff.1 ha)
        simpa [Layout.shape, Layout.ndim] using this
      apply hz
      rw [← e, List.getD_eq_getElem?_getD, List.getElem?_eq_getElem ha']
      exact List.getElem_mem ha'

end Rstsr
