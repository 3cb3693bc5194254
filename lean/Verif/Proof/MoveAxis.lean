import Verif.Proof.Axes
/-! # Lemmas about `moveaxis` -/
namespace Rstsr
open Spec

theorem otherAxes_split {n d : Nat} {S : List Nat} (hd : d < n) (hS : ∀ x ∈ S, d < x) :
    ∃ X, otherAxes n S = List.range d ++ d :: X ∧ otherAxes n (d :: S) = List.range d ++ X := by
  have hr : List.range n = List.range d ++ d :: List.range' (d + 1) (n - d - 1) := by
    rw [List.range_eq_range', List.range_eq_range']
    have h1 : n = d + ((n - d - 1) + 1) := by omega
    conv_lhs => rw [h1]
    rw [← List.range'_append_1, List.range'_succ]; simp
  refine ⟨(List.range' (d + 1) (n - d - 1)).filter fun a => a ∉ S, ?_, ?_⟩
  · unfold otherAxes
    rw [hr, List.filter_append, List.filter_cons_of_pos]
    · congr 1
      rw [List.filter_eq_self]
      intro a ha
      simp at ha ⊢
      intro h; have := hS a h; omega
    · simp; intro h; have := hS d h; omega
  · unfold otherAxes
    rw [hr, List.filter_append, List.filter_cons_of_neg (by simp)]
    congr 1
    · rw [List.filter_eq_self]
      intro a ha
      simp at ha ⊢
      exact ⟨by omega, fun h => by have := hS a h; omega⟩
    · apply List.filter_congr
      intro a ha
      rw [List.mem_range'_1] at ha
      simp
      intro h; omega

theorem sorted_head_bound {d n : Nat} {L : List Nat} (h : (d :: L).Pairwise (· < ·))
    (hn : ∀ x ∈ d :: L, x < n) : d + L.length < n := by
  induction L generalizing d with
  | nil => simpa using hn d (by simp)
  | cons e L ih =>
    have h1 := List.pairwise_cons.1 h
    have := ih h1.2 fun x hx => hn x (List.mem_cons_of_mem _ hx)
    have := h1.1 e (by simp)
    simp; omega

theorem insertPairs_spec {pairs : List (Nat × Nat)} {order : List Nat} {n : Nat}
    (hs : (pairs.map (·.1)).Pairwise (· < ·)) (hn : pairs.length + order.length = n)
    (hlt : ∀ p ∈ pairs, p.1 < n) :
    ∃ F, Layout.insertPairs pairs order = .ok F ∧ F.Perm (pairs.map (·.2) ++ order) ∧
      (∀ p ∈ pairs, F[p.1]? = some p.2) ∧
      (otherAxes n (pairs.map (·.1))).map (fun k => F[k]?) = order.map some := by
  induction pairs generalizing order with
  | nil =>
    refine ⟨order, rfl, by simp, by simp, ?_⟩
    simp only [List.length_nil, Nat.zero_add] at hn
    subst hn
    simp only [otherAxes, List.map_nil, List.not_mem_nil, not_false_eq_true, decide_true,
      List.filter_true]
    apply List.ext_getElem
    · simp
    · intro i h1 h2; simp at h1 ⊢
  | cons p rest ih =>
    obtain ⟨d, s⟩ := p
    simp only [List.map_cons] at hs
    have hb := sorted_head_bound (n := n) hs (by
      intro x hx
      rcases List.mem_cons.1 hx with rfl | hx
      · exact hlt _ (List.mem_cons_self ..)
      · obtain ⟨q, hq, rfl⟩ := List.mem_map.1 hx
        exact hlt q (List.mem_cons_of_mem _ hq))
    simp only [List.length_map] at hb
    simp only [List.length_cons] at hn
    have hd : d ≤ order.length := by omega
    have hgt := (List.pairwise_cons.1 hs).1
    obtain ⟨F, h1, h2, h3, h4⟩ := ih (order := order.insertIdx d s) (List.pairwise_cons.1 hs).2
      (by rw [List.length_insertIdx_of_le_length hd]; omega)
      (fun q hq => hlt q (List.mem_cons_of_mem _ hq))
    obtain ⟨X, hX1, hX2⟩ := otherAxes_split (n := n) (d := d) (S := rest.map (·.1)) (by omega) hgt
    refine ⟨F, ?_, ?_, ?_, ?_⟩
    · simp only [Layout.insertPairs, hd, if_true, h1]
    · refine h2.trans ?_
      refine ((List.perm_insertIdx s order hd).append_left _).trans ?_
      simp
    · intro q hq
      rcases List.mem_cons.1 hq with rfl | hq
      · have := congrArg (fun l => l[d]?) h4
        rw [hX1] at this
        simp [List.getElem?_insertIdx, hd] at this
        exact this
      · exact h3 q hq
    · have := congrArg (fun l => l.eraseIdx d) h4
      simp only [List.map_cons]
      rw [hX2]
      rw [hX1] at this
      simp only [List.eraseIdx_map] at this
      rw [List.eraseIdx_insertIdx_self] at this
      rw [← this]
      congr 1
      rw [List.eraseIdx_append_of_length_le (by simp)]
      simp

/-- `F` lists, for each new axis, the old axis put there. -/
structure MovePerm (n : Nat) (s d F : List Nat) : Prop where
  perm : F.Perm (List.range n)
  moved : ∀ t a b : Nat, s[t]? = some a → d[t]? = some b → F[b]? = some a
  kept : (otherAxes n d).map (fun k => F[k]?) = (otherAxes n s).map some

theorem append_otherAxes_perm {n : Nat} {s : List Nat} (hnd : s.Nodup) (hlt : ∀ a ∈ s, a < n) :
    (s ++ otherAxes n s).Perm (List.range n) := by
  apply perm_range_of
  · have h1 : ((List.range n).filter fun a => a ∈ s).length = s.length := by
      apply List.Perm.length_eq
      rw [List.perm_ext_iff_of_nodup (List.nodup_range.filter _) hnd]
      intro a; simp; exact hlt a
    have h2 := List.length_eq_length_filter_add (l := List.range n) (fun a => decide (a ∈ s))
    simp only [List.length_range] at h2
    rw [List.length_append, ← h1]
    have : otherAxes n s = (List.range n).filter fun a => !decide (a ∈ s) := by
      unfold otherAxes; congr 1; funext a; simp
    rw [this]; omega
  · intro a ha
    rcases List.mem_append.1 ha with h | h
    · exact hlt a h
    · simp [otherAxes] at h; exact h.1
  · rw [List.nodup_append]
    refine ⟨hnd, List.nodup_range.filter _, ?_⟩
    intro a ha b hb
    simp [otherAxes] at hb
    rintro rfl; exact hb.2 ha

theorem movePerm_exists {n : Nat} {s d : List Nat} (hs : s.Nodup) (hd : d.Nodup)
    (hsn : ∀ a ∈ s, a < n) (hdn : ∀ a ∈ d, a < n) (hlen : s.length = d.length) :
    ∃ F, Layout.insertPairs ((d.zip s).insertionSort fun p q => p.1 ≤ q.1) (otherAxes n s) = .ok F ∧
      MovePerm n s d F := by
  have hp := List.perm_insertionSort (fun p q : Nat × Nat => p.1 ≤ q.1) (d.zip s)
  have hfst : (d.zip s).map (·.1) = d := by simp [List.map_fst_zip, hlen]
  have hsnd : (d.zip s).map (·.2) = s := by simp [List.map_snd_zip, hlen]
  have hkeys : (((d.zip s).insertionSort fun p q => p.1 ≤ q.1).map (·.1)).Pairwise (· < ·) := by
    have h1 : (((d.zip s).insertionSort fun p q => p.1 ≤ q.1).map (·.1)).Pairwise (· ≤ ·) := by
      rw [List.pairwise_map]
      have : Std.Total (fun p q : Nat × Nat => p.1 ≤ q.1) := ⟨fun _ _ => Nat.le_total _ _⟩
      have : IsTrans (Nat × Nat) (fun p q : Nat × Nat => p.1 ≤ q.1) := ⟨fun _ _ _ => Nat.le_trans⟩
      exact List.pairwise_insertionSort _ _
    have h2 : (((d.zip s).insertionSort fun p q => p.1 ≤ q.1).map (·.1)).Nodup := by
      rw [(hp.map _).nodup_iff, hfst]; exact hd
    refine (h1.and h2).imp ?_
    rintro a b ⟨h3, h4⟩; omega
  have hperm0 := append_otherAxes_perm hs hsn
  have hl0 := hperm0.length_eq
  simp only [List.length_append, List.length_range] at hl0
  obtain ⟨F, h1, h2, h3, h4⟩ := insertPairs_spec (order := otherAxes n s) (n := n) hkeys
    (by rw [hp.length_eq]; simp; omega)
    (fun p hpm => hdn p.1 (by
      have := hp.mem_iff.1 hpm
      rw [← hfst]; exact List.mem_map_of_mem this))
  refine ⟨F, h1, ⟨?_, ?_, ?_⟩⟩
  · refine h2.trans (((hp.map (·.2)).append_right _).trans ?_)
    rw [hsnd]; exact hperm0
  · intro t a b ha hb
    refine h3 (b, a) (hp.mem_iff.2 ?_)
    rw [List.mem_iff_getElem?]
    exact ⟨t, by rw [List.getElem?_zip_eq_some]; exact ⟨hb, ha⟩⟩
  · rw [← h4]
    congr 1
    unfold otherAxes
    apply List.filter_congr
    intro a _
    have : a ∈ ((d.zip s).insertionSort fun p q => p.1 ≤ q.1).map (·.1) ↔ a ∈ d := by
      rw [(hp.map _).mem_iff, hfst]
    simp only [this]

theorem otherAxes_contains (n : Nat) (s : List Nat) :
    ((List.range n).filter fun i => !s.contains i) = otherAxes n s := by
  unfold otherAxes; congr 1; funext a; simp

theorem moveaxis_ok {l m : Layout} {src dst : List Int} :
    l.moveaxis (some src) (some dst) = .ok m ↔
      (∀ a ∈ src, AxisOk l.ndim a) ∧ (src.map (normAxis l.ndim)).Nodup ∧
      (∀ a ∈ dst, AxisOk l.ndim a) ∧ (dst.map (normAxis l.ndim)).Nodup ∧ src.length = dst.length ∧
      ∃ F, Layout.insertPairs (((dst.map (normAxis l.ndim)).zip (src.map (normAxis l.ndim))).insertionSort
          fun p q => p.1 ≤ q.1) (otherAxes l.ndim (src.map (normAxis l.ndim))) = .ok F ∧
        MovePerm l.ndim (src.map (normAxis l.ndim)) (dst.map (normAxis l.ndim)) F ∧
        m = ⟨pick l.axes F, l.offset⟩ := by
  unfold Layout.moveaxis
  have hltn : ∀ (v : List Int), (∀ a ∈ v, AxisOk l.ndim a) → ∀ a ∈ v.map (normAxis l.ndim), a < l.ndim := by
    intro v hv a ha
    obtain ⟨b, hb, rfl⟩ := List.mem_map.1 ha
    exact normAxis_lt (hv b hb)
  have hmap : ∀ F : List Nat, F.Perm (List.range l.ndim) →
      (F.map Int.ofNat).map (normAxis l.ndim) = F := by
    intro F _
    rw [List.map_map]
    conv_rhs => rw [← List.map_id F]
    apply List.map_congr_left
    intro a _
    exact normAxis_ofNat _ a
  constructor
  · intro h
    obtain ⟨s, hs, h⟩ := bind_ok.1 h
    obtain ⟨d, hd, h⟩ := bind_ok.1 h
    obtain ⟨s1, s2, rfl⟩ := normalizeAxes_ok.1 hs
    obtain ⟨d1, d2, rfl⟩ := normalizeAxes_ok.1 hd
    simp only [Bool.false_eq_true, if_false] at h
    split at h
    · cases h
    · rename_i hl
      have hl : src.length = dst.length := by simpa using hl
      obtain ⟨F, hF, h⟩ := bind_ok.1 h
      rw [otherAxes_contains] at hF
      obtain ⟨F', hF', hM⟩ := movePerm_exists (n := l.ndim) (s2 rfl) (d2 rfl) (hltn _ s1) (hltn _ d1)
        (by simpa using hl)
      rw [hF] at hF'
      cases hF'
      obtain ⟨_, _, hm⟩ := transpose_ok.1 h
      rw [hmap F hM.perm] at hm
      exact ⟨s1, s2 rfl, d1, d2 rfl, hl, F, hF, hM, hm⟩
  · rintro ⟨s1, s2, d1, d2, hl, F, hF, hM, rfl⟩
    refine bind_ok.2 ⟨_, normalizeAxes_ok.2 ⟨s1, fun _ => s2, rfl⟩, ?_⟩
    refine bind_ok.2 ⟨_, normalizeAxes_ok.2 ⟨d1, fun _ => d2, rfl⟩, ?_⟩
    simp only [Bool.false_eq_true, if_false]
    rw [if_neg (by simpa using hl)]
    refine bind_ok.2 ⟨F, by rw [otherAxes_contains]; exact hF, ?_⟩
    refine transpose_ok.2 ⟨?_, ?_, by rw [hmap F hM.perm]⟩
    · intro a ha
      obtain ⟨b, hb, rfl⟩ := List.mem_map.1 ha
      exact axisOk_ofNat (by simpa using hM.perm.mem_iff.1 hb)
    · rw [hmap F hM.perm]; exact hM.perm

/-- Moving forth and back composes to the identity. -/
theorem movePerm_comp {n : Nat} {s d F G : List Nat} (hF : MovePerm n s d F) (hG : MovePerm n d s G)
    (hlen : s.length = d.length) {i : Nat} (hi : i < n) :
    ∃ k, G[i]? = some k ∧ F[k]? = some i := by
  by_cases his : i ∈ s
  · obtain ⟨t, ht, rfl⟩ := List.getElem_of_mem his
    have h1 : s[t]? = some s[t] := List.getElem?_eq_getElem ht
    have h2 : d[t]? = some d[t] := List.getElem?_eq_getElem (hlen ▸ ht)
    exact ⟨d[t], hG.moved t _ _ h2 h1, hF.moved t _ _ h1 h2⟩
  · have hmem : i ∈ otherAxes n s := by simp [otherAxes, hi, his]
    obtain ⟨r, hr, hri⟩ := List.getElem_of_mem hmem
    have e1 := congrArg (fun l => l[r]?) hG.kept
    have e2 := congrArg (fun l => l[r]?) hF.kept
    simp only [List.getElem?_map, List.getElem?_eq_getElem hr, Option.map_some, hri] at e1 e2
    cases hk : (otherAxes n d)[r]? with
    | none => rw [hk] at e1; simp at e1
    | some k =>
      rw [hk] at e1 e2
      simp at e1 e2
      exact ⟨k, e1, e2⟩

end Rstsr
