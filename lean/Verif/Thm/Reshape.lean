import Verif.Proof.Order
import Verif.Proof.ReshapeValid
import Verif.Thm.Core
/-!
# Theorems C19, C20: reshape without copy, inference of `-1`

`Spec.rank o shape idx` is the rank of an index among all indices of the shape in row-major (`C`) or
column-major (`F`) order, `Spec.all o shape` lists them in that order.
-/
namespace Rstsr
open Spec

/-! ## C19: reshape without copy -/

theorem loSum_ones (s : List Nat) : loSum (mkAxes s (s.map fun _ => 1)) = 0 := by
  induction s with
  | nil => rfl
  | cons d s ih =>
    simp only [mkAxes, List.map_cons, List.zipWith_cons_cons, loSum] at ih ⊢
    rw [ih]; simp

theorem new_ones_ok {s : List Nat} {off : Int} (h : s.prod = 0 ∨ s.prod = 1) (hoff : 0 ≤ off) :
    Layout.new s (s.map fun _ => 1) off = .ok ⟨mkAxes s (s.map fun _ => 1), off⟩ := by
  have hd : dims (mkAxes s (s.map fun _ => (1 : Int))) = s := mkAxes_dims (by simp)
  have ht : (mkAxes s (s.map fun _ => (1 : Int))).map Axis.str = s.map fun _ => 1 := mkAxes_str (by simp)
  have hg : Good ⟨mkAxes s (s.map fun _ => 1), off⟩ := by
    unfold Good
    rw [hd]
    rcases h with h | h
    · left
      by_contra hc
      exact prod_ne_zero_iff.2 (fun d hd => Nat.pos_of_ne_zero fun e => hc (e ▸ hd)) h
    · right
      refine ⟨by rw [loSum_ones]; simpa using hoff, [], ?_, trivial⟩
      rw [List.filter_eq_nil_iff.2]
      intro a ha
      have := eq_one_of_prod h a.dim (hd ▸ List.mem_map.2 ⟨a, ha, rfl⟩)
      simp [Axis.ess, this]
  have := valid_iff.2 hg.accepted
  unfold Layout.Valid at this
  have e1 : (⟨mkAxes s (s.map fun _ => 1), off⟩ : Layout).shape = s := hd
  have e2 : (⟨mkAxes s (s.map fun _ => 1), off⟩ : Layout).stride = s.map fun _ => 1 := ht
  rw [e1, e2] at this
  exact this

/-- Elements of equal rank lie at equal positions. -/
def SameL (o : Order) (l m : Layout) : Prop :=
  l.size = m.size ∧ ∀ i j, InRange i l.shape → InRange j m.shape →
    rank o l.shape i = rank o m.shape j → m.addr j = l.addr i

theorem quickCheck_some {l m : Layout} {s : List Nat} {o : Order} (h : l.quickCheck s o = .ok (some m)) :
    m.shape = s ∧ SameL o l m := by
  unfold Layout.quickCheck at h
  split at h
  · cases h
  rename_i hsz
  have hsz : l.size = s.prod := by simpa using hsz
  split at h
  · rename_i h01
    obtain ⟨m', h1, h2⟩ := map_eq_ok.1 h
    cases h2
    obtain ⟨_, e1, _, e3, _, _⟩ := new_ok.1 h1
    have hm : m.size = s.prod := by rw [← e1]; rfl
    refine ⟨e1, by rw [hm, hsz], fun i j hi hj _ => ?_⟩
    rcases h01 with h0 | h0
    · exact absurd hi.prod_pos (by simpa [Layout.size] using h0)
    · rw [inRange_ones (eq_one_of_prod h0) hi, inRange_ones (eq_one_of_prod (hm.trans (hsz.symm.trans h0))) hj,
        addr_eq, addr_eq, dot_zeros, dot_zeros, e3]
  · rename_i h01
    split at h
    · rename_i he
      cases h
      refine ⟨he.symm, rfl, fun i j hi hj e => by rw [rank_inj hi hj e]⟩
    · have hz : 0 ∉ l.shape := fun hz => h01 (Or.inl (prod_eq_zero_of hz))
      cases o with
      | C =>
        simp only at h
        split at h
        · rename_i hc
          cases h
          have hsh := shape_newCContig s l.offset
          refine ⟨hsh, by rw [hsz, Layout.size, hsh], fun i j hi hj e => ?_⟩
          rw [hsh] at hj e
          rw [addr_newCContig hj.length_eq, (C06_c_contig_iff l hz).1 hc i hi]
          simp only [rank] at e
          rw [e]
        · cases h
      | F =>
        simp only at h
        split at h
        · rename_i hc
          cases h
          have hsh := shape_newFContig s l.offset
          refine ⟨hsh, by rw [hsz, Layout.size, hsh], fun i j hi hj e => ?_⟩
          rw [hsh] at hj e
          rw [addr_newFContig hj.length_eq, (C06_f_contig_iff l hz).1 hc i hi]
          simp only [rank] at e
          rw [e]
        · cases h

theorem quickCheck_none {l : Layout} {s : List Nat} {o : Order} (h : l.quickCheck s o = .ok none) :
    s.prod = l.shape.prod ∧ s.prod ≠ 0 := by
  unfold Layout.quickCheck at h
  split at h
  · cases h
  rename_i hsz
  have hsz : l.size = s.prod := by simpa using hsz
  split at h
  · obtain ⟨m', _, h2⟩ := map_eq_ok.1 h
    cases h2
  · rename_i h01
    exact ⟨hsz.symm, by rw [← hsz]; exact fun e => h01 (Or.inl e)⟩

theorem reshapeable_some {l m : Layout} {s : List Nat} {o : Order} (h : l.reshapeable s o = .ok (some m)) :
    m.shape = s ∧ SameL o l m := by
  unfold Layout.reshapeable at h
  obtain ⟨q, hq, h⟩ := bind_ok.1 h
  cases q with
  | some m' =>
    cases h
    exact quickCheck_some hq
  | none =>
    simp only at h
    split at h
    · rename_i strs hs
      cases h
      obtain ⟨h1, h2⟩ := quickCheck_none hq
      obtain ⟨h3, h4⟩ := attemptNocopy_sound hs h1 h2
      have hsh : (⟨mkAxes s strs, l.offset⟩ : Layout).shape = s := mkAxes_dims h3.symm
      refine ⟨hsh, by rw [Layout.size, Layout.size, hsh, h1], fun i j hi hj e => ?_⟩
      rw [addr_eq, addr_eq, ← h4.2 i j hi hj e]
    · cases h

/-- The new view has the requested shape, and an element of the old view has the same position as the
element of the new view with the same rank. -/
theorem C19_reshape_order (l m : Layout) (s : List Nat) (o : Order) (h : l.reshapeable s o = .ok (some m)) :
    m.shape = s ∧ ∀ i j, InRange i l.shape → InRange j s →
      rank o l.shape i = rank o s j → m.addr j = l.addr i := by
  obtain ⟨h1, h2⟩ := reshapeable_some h
  exact ⟨h1, fun i j hi hj e => h2.2 i j hi (h1 ▸ hj) (by rw [h1]; exact e)⟩

/-- The positions met when walking the new view in the order are those met when walking the old view. -/
theorem C19_same_sequence (l m : Layout) (s : List Nat) (o : Order) (h : l.reshapeable s o = .ok (some m)) :
    (all o s).map m.addr = (all o l.shape).map l.addr := by
  obtain ⟨h1, h2⟩ := reshapeable_some h
  subst h1
  exact all_map_congr h2.1.symm fun i j hi hj e => h2.2 j i hj hi e.symm

/-- Distinct elements stay distinct. -/
theorem C19_no_alias (l m : Layout) (s : List Nat) (o : Order) (h : l.reshapeable s o = .ok (some m))
    (hl : ∀ i j, InRange i l.shape → InRange j l.shape → l.addr i = l.addr j → i = j) (i j : List Nat)
    (hi : InRange i s) (hj : InRange j s) (he : m.addr i = m.addr j) : i = j := by
  obtain ⟨rfl, h2⟩ := reshapeable_some h
  obtain ⟨i', hi', ei⟩ := exists_rank (o := o) (shape := l.shape) (k := rank o m.shape i) (by have := rank_lt (o := o) hi; have := h2.1; simp only [Layout.size] at this; omega)
  obtain ⟨j', hj', ej⟩ := exists_rank (o := o) (shape := l.shape) (k := rank o m.shape j) (by have := rank_lt (o := o) hj; have := h2.1; simp only [Layout.size] at this; omega)
  have := hl i' j' hi' hj' (by rw [← h2.2 i' i hi' hi ei, ← h2.2 j' j hj' hj ej, he])
  exact rank_inj hi hj (by rw [← ei, ← ej, this])

/-- An error is raised exactly when the number of elements differs. -/
theorem C19_error_iff (l : Layout) (hoff : 0 ≤ l.offset) (s : List Nat) (o : Order) (e : Err) :
    l.reshapeable s o = .error e ↔ e = .invalidValue ∧ l.shape.prod ≠ s.prod := by
  unfold Layout.reshapeable
  by_cases hsz : l.size = s.prod
  · have hq : ∃ q, l.quickCheck s o = .ok q := by
      unfold Layout.quickCheck
      rw [if_neg (by simpa using hsz)]
      split
      · rename_i h01
        rw [new_ones_ok (by rw [← hsz]; exact h01) hoff]
        exact ⟨_, rfl⟩
      · split
        · exact ⟨_, rfl⟩
        · cases o <;> exact ⟨_, rfl⟩
    obtain ⟨q, hq⟩ := hq
    rw [hq, ok_bind]
    constructor
    · intro h
      cases q with
      | some _ => cases h
      | none =>
        simp only at h
        split at h <;> cases h
    · rintro ⟨_, h⟩
      exact absurd hsz h
  · have hq : l.quickCheck s o = .error .invalidValue := by
      unfold Layout.quickCheck
      rw [if_pos hsz]
    rw [hq, error_bind]
    exact ⟨fun h => by cases h; exact ⟨rfl, hsz⟩, fun h => by rw [h.1]⟩

/-- `None` is only answered when no choice of strides shows the elements in the requested shape. -/
theorem C19_none_needs_copy (l : Layout) (s : List Nat) (o : Order) (h : l.reshapeable s o = .ok none)
    (stride : List Int) (hlen : stride.length = s.length) :
    ¬ ∀ i j, InRange i l.shape → InRange j s → rank o l.shape i = rank o s j →
      position stride l.offset j = l.addr i := by
  intro hall
  unfold Layout.reshapeable at h
  obtain ⟨q, hq, h⟩ := bind_ok.1 h
  cases q with
  | some m' => cases h
  | none =>
    simp only at h
    split at h
    · cases h
    · rename_i hn
      obtain ⟨h1, h2⟩ := quickCheck_none hq
      have hd : dims (mkAxes s stride) = s := mkAxes_dims hlen.symm
      have hs : SameE o l.axes (mkAxes s stride) := by
        refine ⟨by rw [hd, h1]; rfl, fun i j hi hj e => ?_⟩
        rw [hd] at hj e
        have := hall i j hi hj e
        have h3 : position stride l.offset j = l.offset + dot j (mkAxes s stride) := by
          rw [← addr_mk]
          show _ = position ((mkAxes s stride).map Axis.str) l.offset j
          rw [mkAxes_str hlen.symm]
        rw [h3, addr_eq] at this
        omega
      obtain ⟨strs, hx⟩ := attemptNocopy_complete h2 hlen.symm hs
      rw [hx] at hn
      cases hn

/-- A contiguous layout can always be reshaped without a copy. -/
theorem C19_contig_never_copies (l : Layout) (s : List Nat) (hoff : 0 ≤ l.offset) (hp : l.shape.prod = s.prod) :
    (l.cContig = true → ∃ m, l.reshapeable s .C = .ok (some m)) ∧
    (l.fContig = true → ∃ m, l.reshapeable s .F = .ok (some m)) := by
  have key : ∀ o, (match o with | .C => l.cContig | .F => l.fContig) = true →
      ∃ m, l.quickCheck s o = .ok (some m) := by
    intro o hc
    unfold Layout.quickCheck
    rw [if_neg (by simpa [Layout.size] using hp)]
    split
    · rename_i h01
      rw [new_ones_ok (by rw [← hp]; exact h01) hoff]
      exact ⟨_, rfl⟩
    · split
      · exact ⟨_, rfl⟩
      · cases o <;> simp only at hc ⊢ <;> rw [if_pos hc] <;> exact ⟨_, rfl⟩
  constructor
  · intro hc
    obtain ⟨m, hm⟩ := key .C hc
    exact ⟨m, by unfold Layout.reshapeable; rw [hm]; rfl⟩
  · intro hc
    obtain ⟨m, hm⟩ := key .F hc
    exact ⟨m, by unfold Layout.reshapeable; rw [hm]; rfl⟩

theorem noOverlap_single (n : Nat) : NoOverlap [⟨n, 1⟩] := by
  by_cases h : 1 < n
  · exact ⟨[⟨n, 1⟩], by rw [List.filter_cons_of_pos (by simp [Axis.ess, h])]; simp, by simp [SuperInc]⟩
  · exact ⟨[], by rw [List.filter_cons_of_neg (by simp [Axis.ess, h])]; simp, trivial⟩

theorem noOverlap_fContig {s : List Nat} (h : ∀ d ∈ s, 0 < d) : NoOverlap (mkAxes s (fStrides 1 s)) := by
  simpa using noOverlap_fStrides (Z := []) h (noOverlap_single s.prod)

theorem noOverlap_newC {s : List Nat} (off : Int) (h : ∀ d ∈ s, 0 < d) :
    NoOverlap (Layout.newCContig s off).axes := by
  rw [newCContig_axes]
  exact NoOverlap.perm (List.reverse_perm _) (noOverlap_fContig fun d hd => h d (by simpa using hd))

theorem noOverlap_newF {s : List Nat} (off : Int) (h : ∀ d ∈ s, 0 < d) :
    NoOverlap (Layout.newFContig s off).axes := noOverlap_fContig h

theorem SameL.sub {o : Order} {l m : Layout} (h : SameL o l m) :
    ∀ j, InRange j m.shape → ∃ i, InRange i l.shape ∧ m.addr j = l.addr i := by
  intro j hj
  obtain ⟨i, hi, ei⟩ := exists_rank (o := o) (shape := l.shape) (k := rank o m.shape j)
    (by have := rank_lt (o := o) hj; have := h.1; simp only [Layout.size] at this; omega)
  exact ⟨i, hi, h.2 i j hi hj ei⟩

theorem pos_of_not_mem {s : List Nat} (h : 0 ∉ s) : ∀ d ∈ s, 0 < d := fun d hd =>
  Nat.pos_of_ne_zero fun e => h (e ▸ hd)

theorem quickCheck_good {l m : Layout} {s : List Nat} {o : Order} (hl : Good l)
    (h : l.quickCheck s o = .ok (some m)) : Good m := by
  have hs := quickCheck_some h
  refine good_of_sub hl hs.2.sub fun hz hzm => ?_
  unfold Layout.quickCheck at h
  split at h
  · cases h
  split at h
  · obtain ⟨m', h1, h2⟩ := map_eq_ok.1 h
    cases h2
    exact (accepted_new h1).noOverlap hzm
  split at h
  · cases h
    rcases hl with hl | hl
    · exact absurd hl hz
    · exact hl.2
  · have hsz : ∀ d ∈ s, 0 < d := pos_of_not_mem (hs.1 ▸ hzm)
    cases o with
    | C =>
      simp only at h
      split at h
      · cases h; exact noOverlap_newC _ hsz
      · cases h
    | F =>
      simp only at h
      split at h
      · cases h; exact noOverlap_newF _ hsz
      · cases h

theorem reshapeable_good {l m : Layout} {s : List Nat} {o : Order} (hl : Good l)
    (h : l.reshapeable s o = .ok (some m)) : Good m := by
  have hs := reshapeable_some h
  unfold Layout.reshapeable at h
  obtain ⟨q, hq, h⟩ := bind_ok.1 h
  cases q with
  | some m' => cases h; exact quickCheck_good hl hq
  | none =>
    simp only at h
    split at h
    · rename_i strs hstr
      cases h
      refine good_of_sub hl hs.2.sub fun hz _ => ?_
      obtain ⟨h1, h2⟩ := quickCheck_none hq
      rcases hl with hl | hl
      · exact absurd hl hz
      · exact attemptNocopy_noOverlap hstr h1 h2 hl.2
    · cases h

/-- The reshaped layout, built without any check, would be accepted by `Layout::new`. -/
theorem C19_result_valid (l m : Layout) (s : List Nat) (o : Order) (hl : l.Valid) (ho : 0 ≤ l.offset)
    (h : l.reshapeable s o = .ok (some m)) : m.Valid :=
  valid_iff.2 (reshapeable_good ((valid_iff.1 hl).good ho) h).accepted

-- a sliced, partly mergeable layout: shape [4, 6, 5], every second row
example : (⟨[⟨4, 60⟩, ⟨6, 5⟩, ⟨5, 1⟩], 3⟩ : Layout).reshapeable [2, 1, 2, 10, 3] .C =
    .ok (some ⟨[⟨2, 120⟩, ⟨1, 120⟩, ⟨2, 60⟩, ⟨10, 3⟩, ⟨3, 1⟩], 3⟩) := by decide
example : (⟨[⟨3, 1⟩, ⟨4, 3⟩, ⟨5, 20⟩], 0⟩ : Layout).reshapeable [6, 2, 5, 1] .F =
    .ok (some ⟨[⟨6, 1⟩, ⟨2, 6⟩, ⟨5, 20⟩, ⟨1, 100⟩], 0⟩) := by decide
example : (⟨[⟨4, 60⟩, ⟨6, 5⟩, ⟨5, 1⟩], 3⟩ : Layout).reshapeable [8, 15] .C = .ok none := by decide
example : (⟨[⟨4, 60⟩, ⟨6, 5⟩, ⟨5, 1⟩], 3⟩ : Layout).reshapeable [8, 14] .C = .error .invalidValue := by decide

/-! ## C20: inference of the `-1` dimension -/

theorem findNeg_nonneg {shape : List Int} (h : ∀ v ∈ shape, 0 ≤ v) (i : Nat) (seen : Option Nat) :
    findNeg i seen shape = .ok seen := by
  induction shape generalizing i with
  | nil => rfl
  | cons v vs ih =>
    have := h v (by simp)
    simp only [findNeg]
    rw [if_neg (by omega), if_neg (by omega)]
    exact ih (fun x hx => h x (by simp [hx])) _

theorem findNeg_one {a b : List Int} (ha : ∀ v ∈ a, 0 ≤ v) (hb : ∀ v ∈ b, 0 ≤ v) (i : Nat) :
    findNeg i none (a ++ -1 :: b) = .ok (some (i + a.length)) := by
  induction a generalizing i with
  | nil => simp [findNeg, findNeg_nonneg hb]
  | cons v vs ih =>
    have := ha v (by simp)
    rw [List.cons_append]
    simp only [findNeg]
    rw [if_neg (by omega), if_neg (by omega),
      ih (fun x hx => ha x (by simp [hx])), List.length_cons]
    congr 2; omega

theorem findNeg_bad {shape : List Int} {seen : Option Nat} (i : Nat)
    (h : (∃ v ∈ shape, v < -1) ∨ 2 ≤ shape.count (-1) + (if seen.isSome then 1 else 0)) (hs : seen.isSome → (-1) ∈ shape ∨ ∃ v ∈ shape, v < -1) :
    findNeg i seen shape = .error .invalidValue := by
  induction shape generalizing i seen with
  | nil =>
    rcases h with ⟨v, hv, _⟩ | h
    · simp at hv
    · cases seen <;> simp at h
  | cons v vs ih =>
    simp only [findNeg]
    by_cases h1 : v = -1
    · rw [if_pos h1]
      cases seen with
      | some k => rfl
      | none =>
        subst h1
        have h' : (∃ v ∈ vs, v < -1) ∨ (-1) ∈ vs := by
          rcases h with ⟨w, hw, hlt⟩ | h
          · rcases List.mem_cons.1 hw with rfl | hw
            · omega
            · exact Or.inl ⟨w, hw, hlt⟩
          · right
            rw [List.count_cons_self] at h
            have : 0 < vs.count (-1) := by simp only [Option.isSome_none] at h; simpa using h
            exact List.count_pos_iff.1 this
        apply ih
        · rcases h' with h' | h'
          · exact Or.inl h'
          · right
            have := List.count_pos_iff.2 h'
            simp only [Option.isSome_some, if_true]; omega
        · intro _; exact h'.symm
    · rw [if_neg h1]
      by_cases h2 : v < -1
      · rw [if_pos h2]
      · rw [if_neg h2]
        apply ih
        · rcases h with ⟨w, hw, hlt⟩ | h
          · rcases List.mem_cons.1 hw with rfl | hw
            · omega
            · exact Or.inl ⟨w, hw, hlt⟩
          · right
            rwa [List.count_cons_of_ne (fun e => h1 e)] at h
        · intro hsome
          rcases hs hsome with hm | ⟨w, hw, hlt⟩
          · rcases List.mem_cons.1 hm with e | hm
            · exact absurd e.symm h1
            · exact Or.inl hm
          · rcases List.mem_cons.1 hw with rfl | hw
            · omega
            · exact Or.inr ⟨w, hw, hlt⟩

/-- Without negative entries the shape is returned as it is. -/
theorem C20_no_negative (shape : List Int) (size : Nat) (h : ∀ v ∈ shape, 0 ≤ v) :
    substituteNegatives shape size = .ok (shape.map Int.toNat) := by
  unfold substituteNegatives
  rw [findNeg_nonneg h]
  rfl

/-- A second `-1` or any entry below `-1` is rejected. -/
theorem C20_reject (shape : List Int) (size : Nat) (h : (∃ v ∈ shape, v < -1) ∨ 2 ≤ shape.count (-1)) :
    substituteNegatives shape size = .error .invalidValue := by
  unfold substituteNegatives
  rw [findNeg_bad 0 (by simpa using h) (by simp)]
  rfl

theorem foldl_skip (l : List Int) (acc : Int) (h : ∀ v ∈ l, 0 ≤ v) :
    l.foldl (fun acc v => if v = -1 then acc else acc * v) acc = acc * l.prod := by
  induction l generalizing acc with
  | nil => simp
  | cons v vs ih =>
    have := h v (by simp)
    rw [List.foldl_cons, if_neg (by omega), ih _ (fun x hx => h x (by simp [hx])), List.prod_cons]
    ring

theorem prod_toNat {l : List Int} (h : ∀ v ∈ l, 0 ≤ v) : ((l.map Int.toNat).prod : Int) = l.prod := by
  induction l with
  | nil => rfl
  | cons v vs ih =>
    have := h v (by simp)
    rw [List.map_cons, List.prod_cons, List.prod_cons, Nat.cast_mul, ih fun x hx => h x (by simp [hx])]
    congr 1
    omega

theorem subst_one {a b : List Int} (size : Nat) (ha : ∀ v ∈ a, 0 ≤ v) (hb : ∀ v ∈ b, 0 ≤ v) :
    substituteNegatives (a ++ -1 :: b) size =
      (let p := ((a ++ b).map Int.toNat).prod
       if p = 0 then .error .panic
       else if p ∣ size then .ok (a.map Int.toNat ++ (size / p) :: b.map Int.toNat)
       else .error .invalidValue) := by
  have hab : ∀ v ∈ a ++ b, 0 ≤ v := by
    intro v hv
    rcases List.mem_append.1 hv with h | h
    · exact ha v h
    · exact hb v h
  have hfold : (a ++ -1 :: b).foldl (fun (acc v : Int) => if v = -1 then acc else acc * v) 1 =
      ((((a ++ b).map Int.toNat).prod : Nat) : Int) := by
    rw [prod_toNat hab, List.foldl_append, foldl_skip a 1 ha, List.foldl_cons, if_pos rfl, foldl_skip b _ hb,
      List.prod_append]
    ring
  unfold substituteNegatives
  rw [findNeg_one ha hb, ok_bind]
  simp only [hfold, Nat.zero_add]
  generalize ((a ++ b).map Int.toNat).prod = p
  by_cases hp : p = 0
  · simp [hp]
  · rw [if_neg (by exact_mod_cast hp), if_neg hp]
    have hmod : ((size : Int).tmod p = 0) ↔ p ∣ size := by
      rw [← Int.dvd_iff_tmod_eq_zero]
      exact Int.natCast_dvd_natCast
    by_cases hd : p ∣ size
    · rw [if_neg (by simpa using hmod.2 hd), if_pos hd]
      simp only [pure_eq_ok, List.set_append_right _ _ (le_refl a.length), Nat.sub_self, List.set_cons_zero,
        List.map_append, List.map_cons]
      congr 3
    · rw [if_pos (by simpa using fun h => hd (hmod.1 h)), if_neg hd]

/-- With one `-1`, the other entries non-negative and their product not 0: the call succeeds exactly
when the product divides the size, and the `-1` becomes the quotient. -/
theorem C20_infer (a b : List Int) (size : Nat) (out : List Nat) (ha : ∀ v ∈ a, 0 ≤ v) (hb : ∀ v ∈ b, 0 ≤ v)
    (hp : ((a ++ b).map Int.toNat).prod ≠ 0) :
    substituteNegatives (a ++ -1 :: b) size = .ok out ↔
      ((a ++ b).map Int.toNat).prod ∣ size ∧
        out = a.map Int.toNat ++ (size / ((a ++ b).map Int.toNat).prod) :: b.map Int.toNat := by
  rw [subst_one size ha hb]
  simp only [if_neg hp]
  split
  · rename_i hd
    exact ⟨fun h => by cases h; exact ⟨hd, rfl⟩, fun h => by rw [h.2]⟩
  · rename_i hd
    exact ⟨fun h => (nomatch h), fun h => absurd h.1 hd⟩

/-- The inferred shape has the requested number of elements. -/
theorem C20_total_size (shape : List Int) (size : Nat) (out : List Nat) (hneg : -1 ∈ shape)
    (h : substituteNegatives shape size = .ok out) : out.prod = size ∧ out.length = shape.length ∧
      ∀ (k : Nat) (v : Int), shape[k]? = some v → 0 ≤ v → out[k]? = some v.toNat := by
  by_cases hbad : (∃ v ∈ shape, v < -1) ∨ 2 ≤ shape.count (-1)
  · rw [C20_reject shape size hbad] at h; cases h
  · push Not at hbad
    obtain ⟨hb1, hb2⟩ := hbad
    obtain ⟨a, b, rfl⟩ := List.append_of_mem hneg
    have hc : a.count (-1) = 0 ∧ b.count (-1) = 0 := by
      rw [List.count_append, List.count_cons_self] at hb2
      omega
    have ha : ∀ v ∈ a, 0 ≤ v := by
      intro v hv
      have h1 := hb1 v (by simp [hv])
      have h2 : v ≠ -1 := fun e => List.count_eq_zero.1 hc.1 (e ▸ hv)
      omega
    have hb : ∀ v ∈ b, 0 ≤ v := by
      intro v hv
      have h1 := hb1 v (by simp [hv])
      have h2 : v ≠ -1 := fun e => List.count_eq_zero.1 hc.2 (e ▸ hv)
      omega
    rw [subst_one size ha hb] at h
    simp only at h
    split at h
    · cases h
    split at h
    · rename_i hd
      cases h
      refine ⟨?_, by simp, ?_⟩
      · rw [List.prod_append, List.prod_cons, Nat.mul_left_comm, ← List.prod_append, ← List.map_append]
        exact Nat.div_mul_cancel hd
      · intro k v hk hv
        rcases Nat.lt_trichotomy k a.length with hlt | heq | hgt
        · rw [List.getElem?_append_left hlt] at hk
          rw [List.getElem?_append_left (by simpa using hlt), List.getElem?_map, hk]; rfl
        · subst heq
          rw [List.getElem?_append_right (le_refl _)] at hk
          simp at hk
          omega
        · obtain ⟨j, rfl⟩ : ∃ j, k = a.length + (j + 1) := ⟨k - a.length - 1, by omega⟩
          rw [List.getElem?_append_right (by omega)] at hk
          rw [List.getElem?_append_right (by simp)]
          simp only [List.length_map, Nat.add_sub_cancel_left, List.getElem?_cons_succ] at hk ⊢
          rw [List.getElem?_map, hk]; rfl
    · cases h

/-- A size not divisible by the product of the given lengths is rejected. -/
theorem C20_not_divisible (a b : List Int) (size : Nat) (ha : ∀ v ∈ a, 0 ≤ v) (hb : ∀ v ∈ b, 0 ≤ v)
    (hp : ((a ++ b).map Int.toNat).prod ≠ 0) (hd : ¬ ((a ++ b).map Int.toNat).prod ∣ size) :
    substituteNegatives (a ++ -1 :: b) size = .error .invalidValue := by
  rw [subst_one size ha hb]
  simp only [if_neg hp, if_neg hd]

/-- Disagreement with the property: a `-1` beside a zero length divides by zero instead of being
rejected. -/
theorem C20_zero_product_panics (a b : List Int) (size : Nat) (ha : ∀ v ∈ a, 0 ≤ v) (hb : ∀ v ∈ b, 0 ≤ v)
    (hz : 0 ∈ a ++ b) : substituteNegatives (a ++ -1 :: b) size = .error .panic := by
  rw [subst_one size ha hb]
  have h0 : ((a ++ b).map Int.toNat).prod = 0 := prod_eq_zero_of (List.mem_map.2 ⟨(0 : Int), hz, rfl⟩)
  simp only [if_pos h0]

example : substituteNegatives [2, -1, 5] 60 = .ok [2, 6, 5] := by decide
example : substituteNegatives [2, -1, 7] 60 = .error .invalidValue := by decide
example : substituteNegatives [2, -1, -1] 60 = .error .invalidValue := by decide
example : substituteNegatives [0, -1] 0 = .error .panic := by decide
example : substituteNegatives [2, 7] 60 = .ok [2, 7] := by decide

end Rstsr
