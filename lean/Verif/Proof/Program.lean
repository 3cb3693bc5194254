import Verif.Model.Program
import Verif.Thm.Chain
import Verif.Thm.Copy
import Verif.Thm.Elementwise
/-!
# Lemmas for programs: one view call, a chain of calls, reads and writes
-/
namespace Rstsr
open Spec

/-! ## Lists without some axes -/

theorem dropFrom_ext (A : List Nat) {β : Type} : ∀ (k : Nat) (x y : List β), x.length = y.length →
    ((x.zipIdx k).filter fun p => p.2 ∉ A).map (·.1) = ((y.zipIdx k).filter fun p => p.2 ∉ A).map (·.1) →
    (∀ n, k + n ∈ A → x[n]? = y[n]?) → x = y
  | _, [], [], _, _, _ => rfl
  | _, [], _ :: _, h, _, _ => by simp at h
  | _, _ :: _, [], h, _, _ => by simp at h
  | k, a :: x, b :: y, hl, h, hA => by
    have ht : ∀ n, (k + 1) + n ∈ A → x[n]? = y[n]? := fun n hn => by
      have := hA (n + 1) (by rwa [show k + (n + 1) = k + 1 + n by omega])
      simpa using this
    by_cases hk : k ∈ A
    · have h0 := hA 0 (by simpa using hk)
      simp only [List.getElem?_cons_zero, Option.some.injEq] at h0
      subst h0
      congr 1
      refine dropFrom_ext A (k + 1) x y (by simpa using hl) ?_ ht
      simpa [List.zipIdx_cons, hk] using h
    · simp only [List.zipIdx_cons, List.filter_cons, hk, not_false_eq_true, decide_true, if_true, List.map_cons,
        List.cons.injEq] at h
      rw [h.1, dropFrom_ext A (k + 1) x y (by simpa using hl) h.2 ht]

theorem dropAxes_ext {A : List Nat} {β : Type} {x y : List β} (hl : x.length = y.length)
    (h : dropAxes A x = dropAxes A y) (hA : ∀ n ∈ A, x[n]? = y[n]?) : x = y :=
  dropFrom_ext A 0 x y hl h fun n hn => hA n (by simpa using hn)

theorem dropFrom_lift (A : List Nat) : ∀ (k : Nat) (s j : List Nat), 
    InRange j (((s.zipIdx k).filter fun p => p.2 ∉ A).map (·.1)) → (∀ n, k + n ∈ A → ∀ d, s[n]? = some d → 0 < d) →
    ∃ i, InRange i s ∧ ((i.zipIdx k).filter fun p => p.2 ∉ A).map (·.1) = j
  | _, [], j, hj, _ => by
    cases j with
    | nil => exact ⟨[], trivial, rfl⟩
    | cons _ _ => exact absurd hj id
  | k, d :: s, j, hj, hA => by
    have ht : ∀ n, (k + 1) + n ∈ A → ∀ e, s[n]? = some e → 0 < e := fun n hn e he =>
      hA (n + 1) (by rwa [show k + (n + 1) = k + 1 + n by omega]) e (by simpa using he)
    by_cases hk : k ∈ A
    · simp only [List.zipIdx_cons, List.filter_cons, hk, not_true_eq_false, decide_false] at hj
      obtain ⟨i, h1, h2⟩ := dropFrom_lift A (k + 1) s j hj ht
      exact ⟨0 :: i, ⟨hA 0 (by simpa using hk) d (by simp), h1⟩, by simpa [List.zipIdx_cons, hk] using h2⟩
    · simp only [List.zipIdx_cons, List.filter_cons, hk, not_false_eq_true, decide_true, if_true, List.map_cons] at hj
      cases j with
      | nil => exact absurd hj id
      | cons a j =>
        obtain ⟨i, h1, h2⟩ := dropFrom_lift A (k + 1) s j hj.2 ht
        refine ⟨a :: i, ⟨hj.1, h1⟩, ?_⟩
        simp only [List.zipIdx_cons, List.filter_cons, hk, not_false_eq_true, decide_true, if_true, List.map_cons, h2]

theorem dropAxes_lift {A s j : List Nat} (hj : InRange j (dropAxes A s)) (hA : ∀ n ∈ A, s[n]? = some 1) :
    ∃ i, InRange i s ∧ dropAxes A i = j :=
  dropFrom_lift A 0 s j hj fun n hn d hd => by
    have := hA n (by simpa using hn)
    rw [this] at hd; cases hd; exact Nat.one_pos

/-! ## Shapes of slices are determined -/

theorem pyCount_unique {len : Nat} {start stop : Option Int} {step : Int} {n m : Nat}
    (h1 : PyCount len start stop step n) (h2 : PyCount len start stop step m) : n = m := by
  by_contra hne
  rcases Nat.lt_or_gt_of_ne hne with h | h
  · exact absurd ((h1 n).2 ((h2 n).1 h)) (Nat.lt_irrefl _)
  · exact absurd ((h2 m).2 ((h1 m).1 h)) (Nat.lt_irrefl _)

theorem outShape_unique : ∀ (e : List Indexer) (s a b : List Nat), OutShape e s a → OutShape e s b → a = b
  | [], [], [], [], _, _ => rfl
  | [], [], [], _ :: _, _, h => by simp [OutShape] at h
  | [], [], _ :: _, _, h, _ => by simp [OutShape] at h
  | [], _ :: _, _, _, h, _ => by simp [OutShape] at h
  | .slice _ :: _, [], _, _, h, _ => by simp [OutShape] at h
  | .slice _ :: _, _ :: _, [], _, h, _ => by simp [OutShape] at h
  | .slice _ :: _, _ :: _, _ :: _, [], _, h => by simp [OutShape] at h
  | .slice _ :: e, _ :: s, _ :: a, _ :: b, h1, h2 => by
    rw [pyCount_unique h1.1 h2.1, outShape_unique e s a b h1.2 h2.2]
  | .select _ :: _, [], _, _, h, _ => by simp [OutShape] at h
  | .select _ :: e, _ :: s, a, b, h1, h2 => by
    simp only [OutShape] at h1 h2
    exact outShape_unique e s a b h1 h2
  | .insert :: _, _, [], _, h, _ => by simp [OutShape] at h
  | .insert :: _, _, _ :: _, [], _, h => by simp [OutShape] at h
  | .insert :: e, s, _ :: a, _ :: b, h1, h2 => by
    simp only [OutShape] at h1 h2
    rw [h1.1, h2.1, outShape_unique e s a b h1.2 h2.2]
  | .ellipsis :: _, _, _, _, h, _ => by simp [OutShape] at h

/-! ## One view call -/

theorem shape_len (l : Layout) : l.shape.length = l.ndim := by simp [Layout.shape, Layout.ndim]

/-- What a legal call does to a layout. -/
structure CallOk (o : Order) (c : ViewCall) (l m : Layout) (s' : List Nat) : Prop where
  shape : m.shape = s'
  good : Good m
  sub : AddrSub m l
  back : ∀ j, InRange j s' → ∃ i, InRange i l.shape ∧ c.At o l.shape s' j i
  addr : ∀ j i, InRange j s' → InRange i l.shape → c.At o l.shape s' j i → m.addr j = l.addr i

theorem transpose_call {o : Order} {l : Layout} {axes : List Int} {s' : List Nat} (hl : Good l)
    (h : (ViewCall.transpose axes).Gives o l.shape s') :
    ∃ m, l.transpose axes = .ok m ∧ CallOk o (.transpose axes) l m s' := by
  simp only [ViewCall.Gives, shape_len] at h
  obtain ⟨h1, h2, h3, h4⟩ := h
  obtain ⟨m, hm⟩ := (C07_transpose_accept_iff l axes).2 ⟨h1, h2⟩
  have hk := keeps_transpose axes l m hl hm
  have hlen : axes.length = l.ndim := by simpa using h2.length_eq
  obtain ⟨q1, q2⟩ := C07_transpose_shape l m axes hm
  have ext : ∀ {x y z : List Nat}, x.length = l.ndim → y.length = l.ndim →
      (∀ (k : Nat) (a : Int), axes[k]? = some a → x[k]? = z[normAxis l.ndim a]?) →
      (∀ (k : Nat) (a : Int), axes[k]? = some a → y[k]? = z[normAxis l.ndim a]?) → x = y := by
    intro x y z hx hy h1 h2
    apply List.ext_getElem?
    intro k
    by_cases hk : k < l.ndim
    · have ha : axes[k]? = some (axes[k]'(by omega)) := List.getElem?_eq_getElem _
      rw [h1 k _ ha, h2 k _ ha]
    · rw [List.getElem?_eq_none (by omega), List.getElem?_eq_none (by omega)]
  have hs : m.shape = s' := ext (by rw [q1, shape_len]) h3 q2 h4
  subst hs
  refine ⟨m, hm, rfl, hk.1, hk.2, ?_, ?_⟩
  · intro j hj
    obtain ⟨i, g1, g2, g3⟩ := C07_transpose_element l m axes hm j hj
    refine ⟨i, g1, ?_⟩
    simpa only [ViewCall.At, shape_len] using g3
  · intro j i hj hi hat
    simp only [ViewCall.At, shape_len] at hat
    obtain ⟨j', g1, g2, g3⟩ := C07_transpose_covers l m axes hm i hi
    have : j' = j := ext (by rw [g1.length_eq, q1, shape_len]) (by rw [hj.length_eq, q1, shape_len]) g3 hat
    rw [← this, g2]

theorem reverse_call {o : Order} {l : Layout} {s' : List Nat} (hl : Good l)
    (h : ViewCall.reverseAxes.Gives o l.shape s') : CallOk o .reverseAxes l l.reverseAxes s' := by
  simp only [ViewCall.Gives] at h
  subst h
  have hs : l.reverseAxes.shape = l.shape.reverse := by simp [Layout.reverseAxes, Layout.shape]
  have hk := keeps_reverse l _ hl rfl
  have ht := C08_reverse_axes_eq_transpose l
  have hadd : ∀ i, InRange i l.shape → InRange i.reverse l.shape.reverse ∧ l.reverseAxes.addr i.reverse = l.addr i := by
    intro i hi
    obtain ⟨j, g1, g2, g3⟩ := C07_transpose_covers l _ _ ht i hi
    have : j = i.reverse := by
      apply List.ext_getElem?
      intro k
      have hlj : j.length = l.ndim := by rw [g1.length_eq, hs]; simp [shape_len]
      have hli : i.length = l.ndim := by rw [hi.length_eq, shape_len]
      by_cases hk : k < l.ndim
      · rw [g3 k ((l.ndim - 1 - k : Nat) : Int) (by simp [List.getElem?_reverse, hk]), List.getElem?_reverse (by omega), hli]
        congr 1
      · rw [List.getElem?_eq_none (by omega), List.getElem?_eq_none (by simp; omega)]
    rw [← this, ← hs]
    exact ⟨g1, g2⟩
  refine ⟨hs, hk.1, hk.2, ?_, ?_⟩
  · intro j hj
    refine ⟨j.reverse, ?_, rfl⟩
    have := C07_transpose_element l _ _ ht j (hs ▸ hj)
    obtain ⟨i, g1, g2, g3⟩ := this
    have : i = j.reverse := by
      apply List.ext_getElem?
      intro k
      have hlj : j.length = l.ndim := by rw [hj.length_eq]; simp [shape_len]
      have hli : i.length = l.ndim := by rw [g1.length_eq, shape_len]
      by_cases hk : k < l.ndim
      · have e := g3 (l.ndim - 1 - k) ((k : Nat) : Int) (by
          rw [List.getElem?_map, List.getElem?_reverse (by simp; omega), List.length_range,
            List.getElem?_range (by omega)]
          simp only [Option.map_some, Int.ofNat_eq_natCast, Option.some.injEq, Nat.cast_inj]
          omega)
        rw [List.getElem?_reverse (by omega), hlj, e]
        congr 1
      · rw [List.getElem?_eq_none (by omega), List.getElem?_eq_none (by simp; omega)]
    rw [← this]; exact g1
  · intro j i hj hi hat
    simp only [ViewCall.At] at hat
    have := (hadd i hi).2
    rw [hat, List.reverse_reverse] at this
    rw [this, hat]

theorem swap_call {o : Order} {l : Layout} {a b : Int} {s' : List Nat} (hl : Good l)
    (h : (ViewCall.swapaxes a b).Gives o l.shape s') :
    ∃ m, l.swapaxes a b = .ok m ∧ CallOk o (.swapaxes a b) l m s' := by
  simp only [ViewCall.Gives, shape_len] at h
  obtain ⟨h1, h2, h3, h4⟩ := h
  have he := C08_swapaxes_eq_transpose l a b h1 h2
  have na := normAxis_lt h1
  have nb := normAxis_lt h2
  generalize hax : ((List.range l.ndim).map fun k => ((if k = normAxis l.ndim a then normAxis l.ndim b
      else if k = normAxis l.ndim b then normAxis l.ndim a else k : Nat) : Int)) = axes at he
  have hget : ∀ (k : Nat) (x : Int), axes[k]? = some x → k < l.ndim ∧ normAxis l.ndim x =
      (if k = normAxis l.ndim a then normAxis l.ndim b else if k = normAxis l.ndim b then normAxis l.ndim a else k) := by
    intro k x hx
    have hk : k < l.ndim := by
      have := (List.getElem?_eq_some_iff.1 hx).1
      rw [← hax] at this; simpa using this
    refine ⟨hk, ?_⟩
    rw [← hax] at hx
    simp only [List.getElem?_map, List.getElem?_range hk, Option.map_some, Option.some.injEq] at hx
    rw [← hx]
    unfold normAxis
    rw [if_neg (by omega)]
    rfl
  have hget' : ∀ k < l.ndim, ∃ x, axes[k]? = some x := fun k hk => by
    rw [← hax]; simp [hk]
  have hm : ∃ m, l.swapaxes a b = .ok m := (C08_swapaxes_axes l a b).2 ⟨h1, h2⟩
  obtain ⟨m, hm⟩ := hm
  have hm' := he ▸ hm
  have hall := (C07_transpose_accept_iff l axes).1 ⟨m, hm'⟩
  obtain ⟨m', e1, e2⟩ := transpose_call (o := o) (axes := axes) (s' := s') hl (by
    simp only [ViewCall.Gives, shape_len]
    refine ⟨hall.1, hall.2, h3, fun k x hx => ?_⟩
    obtain ⟨g1, g2⟩ := hget k x hx
    rw [g2]; exact h4 k g1)
  rw [hm'] at e1
  cases e1
  have hat : ∀ j i, (ViewCall.swapaxes a b).At o l.shape s' j i ↔ (ViewCall.transpose axes).At o l.shape s' j i := by
    intro j i
    simp only [ViewCall.At, shape_len]
    constructor
    · intro h k x hx
      obtain ⟨g1, g2⟩ := hget k x hx
      rw [g2]; exact h k g1
    · intro h k hk
      obtain ⟨x, hx⟩ := hget' k hk
      have := h k x hx
      rwa [(hget k x hx).2] at this
  refine ⟨m, hm, e2.shape, e2.good, e2.sub, fun j hj => ?_, fun j i hj hi h => e2.addr j i hj hi ((hat j i).1 h)⟩
  obtain ⟨i, g1, g2⟩ := e2.back j hj
  exact ⟨i, g1, (hat j i).2 g2⟩

theorem slice_call {o : Order} {l : Layout} {ix : List Indexer} {s' : List Nat} (hl : Good l) (ho : 0 ≤ l.offset)
    (h : (ViewCall.slice ix).Gives o l.shape s') :
    ∃ m, l.dimSlice ix = .ok m ∧ CallOk o (.slice ix) l m s' := by
  simp only [ViewCall.Gives, shape_len] at h
  obtain ⟨h1, h2, h3, h4, h5⟩ := h
  have hv := valid_iff.2 hl.accepted
  obtain ⟨m, hm⟩ := (C12_accept_iff l hv ho ix).2 ⟨h1, h2, h3⟩
  obtain ⟨g1, g2⟩ := C12_slice_partial l m hv ho ix hm h4
  have hs := outShape_unique _ _ _ _ g1 h5
  have hk := keeps_slice ix l m hl hm
  refine ⟨m, hm, hs, hk.1, hk.2, ?_, ?_⟩
  · intro j hj
    simp only [ViewCall.At, shape_len]
    exact ⟨_, (g2 j (hs ▸ hj)).1, rfl⟩
  · intro j i hj hi hat
    simp only [ViewCall.At, shape_len] at hat
    rw [hat]
    exact (g2 j (hs ▸ hj)).2

theorem flip_call {o : Order} {l : Layout} {axes : List Int} {s' : List Nat} (hl : Good l)
    (h : (ViewCall.flip axes).Gives o l.shape s') :
    ∃ m, l.flip (some axes) = .ok m ∧ CallOk o (.flip axes) l m s' := by
  simp only [ViewCall.Gives, shape_len] at h
  obtain ⟨h1, h2, rfl⟩ := h
  have hv := valid_iff.2 hl.accepted
  obtain ⟨m, hm⟩ := (C14_flip_accept_iff l hv axes).2 ⟨h1, h2⟩
  obtain ⟨-, g2, g3⟩ := C14_flip_element l m hv axes hm
  have hk := keeps_flip (some axes) l m hl hm
  refine ⟨m, hm, g2, hk.1, hk.2, ?_, ?_⟩
  · intro j hj
    simp only [ViewCall.At, shape_len]
    exact ⟨_, (g3 j hj).1, rfl⟩
  · intro j i hj hi hat
    simp only [ViewCall.At, shape_len] at hat
    rw [hat]
    exact (g3 j hj).2

theorem expand_call {o : Order} {l : Layout} {axes : List Int} {s' : List Nat} (hl : Good l) (ho : 0 ≤ l.offset)
    (h : (ViewCall.expandDims axes).Gives o l.shape s') :
    ∃ m, l.expandDims (some axes) = .ok m ∧ CallOk o (.expandDims axes) l m s' := by
  simp only [ViewCall.Gives, shape_len] at h
  obtain ⟨h1, h2, h3, h4, h5⟩ := h
  have hv := valid_iff.2 hl.accepted
  rw [h1] at h2 h3 h4 h5
  obtain ⟨m, hm⟩ := (C11_expand_accept_iff l hv ho axes).2 ⟨h2, h3⟩
  obtain ⟨-, g2, g3, g4, -, -, g5⟩ := C11_expand_element l m hv ho axes hm
  have hk := keeps_expandDims (some axes) l m hl hm
  have hs : m.shape = s' := by
    refine dropAxes_ext (A := axes.map (normAxis (l.ndim + axes.length))) (by rw [shape_len, g2, h1]) ?_ ?_
    · rw [h5, ← g2]; exact g4
    · intro n hn
      obtain ⟨a, ha, rfl⟩ := List.mem_map.1 hn
      rw [h4 a ha, ← g3 a ha, g2]
  refine ⟨m, hm, hs, hk.1, hk.2, ?_, ?_⟩
  · intro j hj
    simp only [ViewCall.At, h1]
    have := (g5 j (hs ▸ hj)).1
    rw [g2] at this
    exact ⟨_, this, rfl⟩
  · intro j i hj hi hat
    simp only [ViewCall.At, h1] at hat
    rw [hat, ← g2]
    exact (g5 j (hs ▸ hj)).2

theorem squeeze_call {o : Order} {l : Layout} {axes : List Int} {s' : List Nat} (hl : Good l)
    (h : (ViewCall.squeeze axes).Gives o l.shape s') :
    ∃ m, l.squeeze (some axes) = .ok m ∧ CallOk o (.squeeze axes) l m s' := by
  simp only [ViewCall.Gives, shape_len] at h
  obtain ⟨h1, h2, h3, h4⟩ := h
  have hv := valid_iff.2 hl.accepted
  obtain ⟨m, hm⟩ := (C11_squeeze_accept_iff l hv axes h1).2 ⟨h2, h3⟩
  obtain ⟨g1, -, -, g4⟩ := C11_squeeze_element l m hv axes h1 hm
  have hk := keeps_squeeze (some axes) l m hl hm
  refine ⟨m, hm, g1.trans h4.symm, hk.1, hk.2, ?_, ?_⟩
  · intro j hj
    simp only [ViewCall.At, shape_len]
    obtain ⟨i, e1, e2⟩ := dropAxes_lift (h4 ▸ hj) (by
      intro n hn
      obtain ⟨a, ha, rfl⟩ := List.mem_map.1 hn
      exact h3 a ha)
    exact ⟨i, e1, e2.symm⟩
  · intro j i hj hi hat
    simp only [ViewCall.At, shape_len] at hat
    rw [hat]
    exact (g4 i hi).2

theorem broadcast_call {o : Order} {l : Layout} {t s' : List Nat} (hl : Good l)
    (h : (ViewCall.broadcastTo t).Gives o l.shape s') :
    ∃ m, l.broadcastTo t o = .ok m ∧ CallOk o (.broadcastTo t) l m s' := by
  simp only [ViewCall.Gives] at h
  obtain ⟨h1, rfl⟩ := h
  obtain ⟨m, hm⟩ := (C17_broadcast_to_iff l s' o).2 h1
  obtain ⟨g1, g2⟩ := C17_broadcast_to l m s' o hm
  have hk := keeps_broadcastTo s' o l m hl hm
  refine ⟨m, hm, g1, hk.1, hk.2, fun j hj => ⟨_, (g2 j hj).1, rfl⟩, ?_⟩
  intro j i hj hi hat
  simp only [ViewCall.At] at hat
  rw [hat]
  exact (g2 j hj).2

theorem diagonal_call {o : Order} {l : Layout} {k a b : Int} {s' : List Nat} (hl : Good l) (ho : 0 ≤ l.offset)
    (h : (ViewCall.diagonal k a b).Gives o l.shape s') (hz : 0 ∉ s') :
    ∃ m, l.diagonal (some k) (some a) (some b) = .ok m ∧ CallOk o (.diagonal k a b) l m s' := by
  simp only [ViewCall.Gives, shape_len] at h
  obtain ⟨h1, h2, h3, h4, rfl⟩ := h
  have hv := valid_iff.2 hl.accepted
  have na := normAxis_lt h1
  have nb := normAxis_lt h2
  obtain ⟨d1, e1⟩ : ∃ d, l.shape[normAxis l.ndim a]? = some d := ⟨_, List.getElem?_eq_getElem (by rw [shape_len]; exact na)⟩
  obtain ⟨d2, e2⟩ : ∃ d, l.shape[normAxis l.ndim b]? = some d := ⟨_, List.getElem?_eq_getElem (by rw [shape_len]; exact nb)⟩
  have f1 : l.shape.getD (normAxis l.ndim a) 0 = d1 := by rw [List.getD_eq_getElem?_getD, e1]; rfl
  have f2 : l.shape.getD (normAxis l.ndim b) 0 = d2 := by rw [List.getD_eq_getElem?_getD, e2]; rfl
  rw [f1, f2] at hz ⊢
  rw [f1] at h4
  have hpos : diagLen d1 d2 k ≠ 0 := fun h => hz (by rw [h]; simp)
  obtain ⟨m, hm, hs⟩ := C15_diagonal_length_partial l hv ho (some k) (some a) (some b) h1 h2 h3 d1 d2 e1 e2 (by
    simp only [Option.getD_some]
    unfold diagLen at hpos
    split at hpos <;> omega)
  obtain ⟨-, n, -, g2, g3⟩ := C15_diagonal_element l m hv ho (some k) (some a) (some b) h3 hm
  simp only [Option.getD_some] at hs g2 g3
  have hk := diagonal_keeps (k := some k) (a := some a) (b := some b) hl h3 hm
  refine ⟨m, hm, hs, hk.1, hk.2, ?_, ?_⟩
  · intro j hj
    obtain ⟨r, t, rfl⟩ : ∃ (r : List Nat) (t : Nat), j = r ++ [t] := by
      rcases List.eq_nil_or_concat j with e | ⟨r, t, e⟩
      · subst e
        have := hj.length_eq
        simp at this
      · exact ⟨r, t, by simpa using e⟩
    obtain ⟨i, q1, -, q3, q4, q5⟩ := g3 r t (hs ▸ hj)
    simp only [ViewCall.At, shape_len]
    exact ⟨i, q1, r, t, rfl, q3, q4, q5⟩
  · intro j i hj hi hat
    simp only [ViewCall.At, shape_len] at hat
    obtain ⟨r, t, rfl, p1, p2, p3⟩ := hat
    obtain ⟨i', q1, q2, q3, q4, q5⟩ := g3 r t (hs ▸ hj)
    have : i' = i := dropAxes_ext (by rw [q1.length_eq, hi.length_eq]) (q5.trans p3.symm) (by
      intro n hn
      simp only [List.mem_cons, List.not_mem_nil, or_false] at hn
      rcases hn with rfl | rfl
      · rw [q3, p1]
      · rw [q4, p2])
    rw [q2, this]

/-- Every legal call is accepted and means what it should. -/
theorem call_ok {o : Order} {c : ViewCall} {l : Layout} {s' : List Nat} (hl : Good l) (ho : 0 ≤ l.offset)
    (h : c.Gives o l.shape s') (hz : 0 ∉ s') :
    ∃ m, (callOp o c).apply l = .ok m ∧ CallOk o c l m s' := by
  cases c with
  | transpose axes => exact transpose_call hl h
  | reverseAxes => exact ⟨_, rfl, reverse_call hl h⟩
  | swapaxes a b => exact swap_call hl h
  | slice ix => exact slice_call hl ho h
  | flip axes => exact flip_call hl h
  | expandDims axes => exact expand_call hl ho h
  | squeeze axes => exact squeeze_call hl h
  | broadcastTo t => exact broadcast_call hl h
  | diagonal k a b => exact diagonal_call hl ho h hz

/-! ## A chain of calls -/

/-- What a legal chain of calls does to a layout. -/
structure PathOk (R : List Nat → List Nat → Prop) (l m : Layout) (s' : List Nat) : Prop where
  shape : m.shape = s'
  good : Good m
  sub : AddrSub m l
  off : 0 ≤ m.offset
  back : ∀ j, InRange j s' → ∃ i, InRange i l.shape ∧ R j i
  addr : ∀ j i, InRange j s' → InRange i l.shape → R j i → m.addr j = l.addr i
  same : m = l ∨ 0 ∉ s'

theorem zeros_inRange : ∀ {s : List Nat}, 0 ∉ s → InRange (s.map fun _ => 0) s
  | [], _ => trivial
  | d :: s, h => by
    simp only [List.mem_cons, not_or] at h
    exact ⟨by show 0 < d; omega, zeros_inRange h.2⟩

theorem offset_nonneg_of_sub {l m : Layout} (h : AddrSub m l) (hl : ∀ i, InRange i l.shape → 0 ≤ l.addr i)
    (hz : 0 ∉ m.shape) : 0 ≤ m.offset := by
  have h0 := zeros_inRange hz
  obtain ⟨i, hi, e⟩ := h _ h0
  have h1 := hl i hi
  rw [← e, addr_eq] at h1
  have : dot (m.shape.map fun _ => 0) m.axes = 0 := by
    rw [List.map_const']; exact dot_zeros _ _
  omega

theorem Good.nonneg {l : Layout} (h : Good l) (ho : 0 ≤ l.offset) : ∀ i, InRange i l.shape → 0 ≤ l.addr i :=
  C22_valid_nonNegative l (valid_iff.2 h.accepted) ho

theorem path_ok {o : Order} {cs : List ViewCall} {s s' : List Nat} {R : List Nat → List Nat → Prop}
    (h : Path o cs s s' R) : ∀ {l : Layout}, Good l → 0 ≤ l.offset → l.shape = s →
    ∃ m, runViews l (cs.map (callOp o)) = .ok m ∧ PathOk R l m s' := by
  induction h with
  | nil s =>
    intro l hl ho hs
    subst hs
    exact ⟨l, rfl, rfl, hl, AddrSub.refl l, ho, fun j hj => ⟨j, hj, rfl⟩, fun j i _ _ e => by rw [e], Or.inl rfl⟩
  | @cons c cs s m s' R hg hz hp ih =>
    intro l hl ho hs
    subst hs
    obtain ⟨k, hk, ck⟩ := call_ok hl ho hg hz
    have hko : 0 ≤ k.offset := offset_nonneg_of_sub ck.sub (hl.nonneg ho) (ck.shape ▸ hz)
    obtain ⟨n, hn, pn⟩ := ih ck.good hko ck.shape
    refine ⟨n, ?_, pn.shape, pn.good, pn.sub.trans ck.sub, pn.off, ?_, ?_, ?_⟩
    · simp only [List.map_cons, runViews, hk, ok_bind, hn]
    · intro j hj
      obtain ⟨x, hx, hr⟩ := pn.back j hj
      rw [ck.shape] at hx
      obtain ⟨i, hi, ha⟩ := ck.back x hx
      exact ⟨i, hi, x, hx, hr, ha⟩
    · rintro j i hj hi ⟨x, hx, hr, ha⟩
      rw [pn.addr j x hj (ck.shape ▸ hx) hr, ck.addr x i hx hi ha]
    · rcases pn.same with e | e
      · right; rw [← pn.shape, e, ck.shape]; exact hz
      · exact Or.inr e

/-! ## Reading through a view -/

variable {α : Type}

/-- Different indices are different cells. -/
def Tensor.Distinct (t : Tensor α) : Prop :=
  ∀ i j, InRange i t.layout.shape → InRange j t.layout.shape →
    position t.layout.stride t.layout.offset i = position t.layout.stride t.layout.offset j → i = j

/-- The tensor holds the array, with its own cell for every element. -/
structure HoldsArr (t : Tensor α) (A : Arr α) : Prop where
  wf : t.WF
  distinct : t.Distinct
  same : t.arr.Same A

theorem HoldsArr.shape {t : Tensor α} {A : Arr α} (h : HoldsArr t A) : A.shape = t.layout.shape := h.same.1

theorem HoldsArr.elem {t : Tensor α} {A : Arr α} (h : HoldsArr t A) {i : List Nat} (hi : InRange i t.layout.shape) :
    A.elem i = t.arr.elem i := by
  obtain ⟨x, h1, h2⟩ := h.same.2 i hi
  rw [h1, h2]

/-- A view of a tensor is a tensor; its elements are the old ones. -/
theorem viewed_ok {o : Order} {v : List ViewCall} {t : Tensor α} {A : Arr α} {s' : List Nat}
    {R : List Nat → List Nat → Prop} (h : HoldsArr t A) (hp : Path o v A.shape s' R) :
    ∃ m, t.viewed o v = .ok ⟨t.data, m⟩ ∧ (⟨t.data, m⟩ : Tensor α).WF ∧ PathOk R t.layout m s' := by
  obtain ⟨m, hm, pm⟩ := path_ok hp h.wf.good h.wf.1 h.shape.symm
  refine ⟨m, by unfold Tensor.viewed; rw [hm]; rfl, ?_, pm⟩
  rcases pm.same with e | e
  · rw [e]; exact h.wf
  · exact wf_of_sub h.wf pm.good pm.sub pm.off fun hz => absurd (pm.shape ▸ hz) e

theorem view_elem {t : Tensor α} {m : Layout} {s' : List Nat} {R : List Nat → List Nat → Prop}
    (pm : PathOk R t.layout m s') {i j : List Nat} (d : List α) (hj : InRange j s') (hi : InRange i t.layout.shape)
    (hr : R j i) : (⟨d, m⟩ : Tensor α).arr.elem j = (⟨d, t.layout⟩ : Tensor α).arr.elem i := by
  have e : position m.stride m.offset j = position t.layout.stride t.layout.offset i := pm.addr j i hj hi hr
  show element _ _ _ _ = element _ _ _ _
  unfold element
  rw [e]

theorem seen_same {t : Tensor α} {A B : Arr α} {m : Layout} {s' : List Nat} {R : List Nat → List Nat → Prop}
    (h : HoldsArr t A) (pm : PathOk R t.layout m s') (hm : (⟨t.data, m⟩ : Tensor α).WF) (hB : SeenThrough A s' R B) :
    (⟨t.data, m⟩ : Tensor α).arr.Same B := by
  refine ⟨hB.1.trans pm.shape.symm, fun j hj => ?_⟩
  have hj' : InRange j s' := pm.shape ▸ hj
  obtain ⟨x, -, hx⟩ := hm.get (idx := j) hj
  obtain ⟨i, hi, hr⟩ := pm.back j hj'
  refine ⟨x, hx, ?_⟩
  rw [hB.2 j i hj' (h.shape ▸ hi) hr, h.elem hi, ← hx]
  exact (view_elem pm t.data hj' hi hr).symm

theorem view_distinct {t : Tensor α} {A : Arr α} {m : Layout} {s' : List Nat} {R : List Nat → List Nat → Prop}
    (h : HoldsArr t A) (pm : PathOk R t.layout m s') (h1 : OneToOne s' R) : (⟨t.data, m⟩ : Tensor α).Distinct := by
  intro j j' hj hj' e
  have gj : InRange j s' := pm.shape ▸ hj
  have gj' : InRange j' s' := pm.shape ▸ hj'
  obtain ⟨i, hi, hr⟩ := pm.back j gj
  obtain ⟨i', hi', hr'⟩ := pm.back j' gj'
  have ei : i = i' := h.distinct i i' hi hi' (by
    have e1 := pm.addr j i gj hi hr
    have e2 := pm.addr j' i' gj' hi' hr'
    exact e1.symm.trans (Eq.trans e e2))
  subst ei
  exact h1 j j' i gj gj' hr hr'

/-! ## Writing through a view -/

theorem written {t : Tensor α} {A A' : Arr α} {m : Layout} {s' : List Nat} {R : List Nat → List Nat → Prop}
    {W : List Nat → α → α → Prop} (h : HoldsArr t A) (pm : PathOk R t.layout m s') {c : Tensor α}
    (hc : c.layout = m)
    (hch : ChangedOnly (Addressed m.stride m.offset m.shape) t.data c.data)
    (hw : ∀ j, InRange j s' → ∃ x y, (⟨t.data, m⟩ : Tensor α).arr.elem j = some x ∧ c.arr.elem j = some y ∧
      ∀ y', W j x y' → y' = y)
    (hA : WrittenThrough A A' s' R W) : HoldsArr ⟨c.data, t.layout⟩ A' := by
  have wf := h.wf.of_data (data := c.data) hch.1
  obtain ⟨a1, a2, a3⟩ := hA
  refine ⟨wf, h.distinct, a1.trans h.shape, fun i hi => ?_⟩
  have hi : InRange i t.layout.shape := hi
  obtain ⟨z, hz, hz'⟩ := wf.get (idx := i) hi
  refine ⟨z, hz', ?_⟩
  by_cases hr : ∃ j, InRange j s' ∧ R j i
  · obtain ⟨j, hj, hr⟩ := hr
    obtain ⟨x, y, e1, e2, e3⟩ := hw j hj
    obtain ⟨x', y', f1, f2, f3⟩ := a2 j i hj (h.shape ▸ hi) hr
    have g1 := view_elem pm t.data hj hi hr
    have g2 := view_elem pm c.data hj hi hr
    have e2' : (⟨c.data, m⟩ : Tensor α).arr.elem j = some y := by rw [← hc]; exact e2
    rw [e1] at g1
    rw [h.elem hi] at f1
    have hx : x = x' := Option.some.inj (g1.trans f1)
    subst hx
    rw [f2, e3 y' f3, ← hz', ← e2', g2]
  · rw [a3 i (h.shape ▸ hi) fun j hj hq => hr ⟨j, hj, hq⟩, h.elem hi]
    obtain ⟨x, hx, hx'⟩ := h.wf.get hi
    rw [hx', ← hx, ← hz]
    symm
    apply hch.2
    rintro ⟨j, hj, e⟩
    have hj' : InRange j s' := pm.shape ▸ hj
    obtain ⟨i', hi', hr'⟩ := pm.back j hj'
    have e1 : position m.stride m.offset j = position t.layout.stride t.layout.offset i' := pm.addr j i' hj' hi' hr'
    have hn := h.wf.fit.nonneg i hi
    have e2 : i' = i := h.distinct i' i hi' hi (by
      rw [← e1, e]
      change ((t.layout.addr i).toNat : Int) = t.layout.addr i
      omega)
    subst e2
    exact hr ⟨j, hj', hr'⟩

end Rstsr
