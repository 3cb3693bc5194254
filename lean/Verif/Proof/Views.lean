import Verif.Spec.Views
import Verif.Proof.MultiSlice
import Verif.Proof.MoveAxis
/-! # Lemmas about flip, expand_dims and squeeze -/
namespace Rstsr
open Spec

/-! ## Dropping places of a list -/

/-- `dropAxes` with the places counted from `n`. -/
def dropF {α : Type} (n : Nat) (A : List Nat) (xs : List α) : List α :=
  ((xs.zipIdx n).filter fun p => p.2 ∉ A).map (·.1)

theorem dropAxes_eq {α : Type} (A : List Nat) (xs : List α) : dropAxes A xs = dropF 0 A xs := rfl

@[simp] theorem dropF_nil {α : Type} (n : Nat) (A : List Nat) : dropF n A ([] : List α) = [] := rfl

theorem dropF_cons {α : Type} (n : Nat) (A : List Nat) (x : α) (xs : List α) :
    dropF n A (x :: xs) = if n ∈ A then dropF (n + 1) A xs else x :: dropF (n + 1) A xs := by
  unfold dropF
  rw [List.zipIdx_cons, List.filter_cons]
  by_cases h : n ∈ A <;> simp [h]

theorem dropF_none {α : Type} {n : Nat} {A : List Nat} {xs : List α} (h : ∀ a ∈ A, a < n) :
    dropF n A xs = xs := by
  induction xs generalizing n with
  | nil => rfl
  | cons x xs ih =>
    rw [dropF_cons, if_neg fun hm => by have := h n hm; omega, ih fun a ha => by have := h a ha; omega]

theorem dropAxes_nil {α : Type} (xs : List α) : dropAxes [] xs = xs := dropF_none (by simp)

theorem dropF_map {α β : Type} (n : Nat) (A : List Nat) (f : α → β) (xs : List α) :
    dropF n A (xs.map f) = (dropF n A xs).map f := by
  induction xs generalizing n with
  | nil => rfl
  | cons x xs ih => rw [List.map_cons, dropF_cons, dropF_cons]; split <;> simp [ih]

theorem dropF_small {α : Type} {n a : Nat} {A : List Nat} {xs : List α} (hn : n ≤ a)
    (ha : a < n + xs.length) (hA : ∀ x ∈ A, a < x) :
    dropF n (a :: A) xs = (dropF n A xs).eraseIdx (a - n) := by
  induction xs generalizing n with
  | nil => simp at ha; omega
  | cons x xs ih =>
    rw [dropF_cons, dropF_cons]
    have hnA : n ∉ A := fun h => by have := hA n h; omega
    by_cases h : n = a
    · subst h
      simp only [List.mem_cons, true_or, if_true, hnA, if_false, Nat.sub_self, List.eraseIdx_cons_zero]
      have : ∀ (m : Nat) (ys : List α), n < m → dropF m (n :: A) ys = dropF m A ys := by
        intro m ys
        induction ys generalizing m with
        | nil => intro _; rfl
        | cons y ys ih2 =>
          intro hm
          rw [dropF_cons, dropF_cons, ih2 (m + 1) (by omega)]
          have : m ∈ n :: A ↔ m ∈ A := by simp; omega
          simp [this]
      exact this _ _ (by omega)
    · rw [if_neg (by simp [hnA, h]), if_neg hnA]
      rw [ih (by omega) (by simp at ha; omega)]
      have e : a - n = (a - (n + 1)) + 1 := by omega
      rw [e, List.eraseIdx_cons_succ]

theorem dropF_large {α : Type} {n a : Nat} {A : List Nat} {xs : List α} (hn : n ≤ a)
    (hA : ∀ x ∈ A, x < a) : dropF n (a :: A) xs = dropF n A (xs.eraseIdx (a - n)) := by
  induction xs generalizing n with
  | nil => simp
  | cons x xs ih =>
    by_cases h : n = a
    · subst h
      rw [Nat.sub_self, List.eraseIdx_cons_zero, dropF_cons, if_pos (by simp)]
      rw [dropF_none (n := n) hA, dropF_none]
      intro y hy
      rcases List.mem_cons.1 hy with rfl | hy
      · omega
      · have := hA y hy; omega
    · have e : a - n = (a - (n + 1)) + 1 := by omega
      rw [e, List.eraseIdx_cons_succ, dropF_cons, dropF_cons, ih (by omega)]
      have : n ∈ a :: A ↔ n ∈ A := by simp [h]
      simp [this]

/-- Strictly increasing. -/
theorem foldAxes_cons (f : Layout → Int → Res Layout) (l : Layout) (a : Int) (rest : List Int) :
    Layout.foldAxes f l (a :: rest) = (f l a >>= fun l => Layout.foldAxes f l rest) := rfl

theorem eraseIdx_insertIdx_self' {α : Type} (xs : List α) (a : Nat) (y : α) :
    (xs.insertIdx a y).eraseIdx a = xs := List.eraseIdx_insertIdx_self y

/-! ## expand_dims -/

theorem expand_fold {A : List Nat} (hs : A.Pairwise (· < ·)) {l : Layout} (hl : Good l)
    (hA : ∀ a ∈ A, a < l.ndim + A.length) :
    ∃ m, Layout.foldAxes Layout.dimInsert l (A.map Int.ofNat) = .ok m ∧ Good m ∧ m.offset = l.offset ∧
      m.ndim = l.ndim + A.length ∧ dropAxes A m.axes = l.axes ∧
      (∀ a ∈ A, (m.axes[a]?).map (·.dim) = some 1) ∧
      ∀ j, InRange j m.shape → InRange (dropAxes A j) l.shape ∧ m.addr j = l.addr (dropAxes A j) := by
  induction A generalizing l with
  | nil =>
    refine ⟨l, rfl, hl, rfl, rfl, dropAxes_nil _, by simp, ?_⟩
    intro j hj; rw [dropAxes_nil]; exact ⟨hj, rfl⟩
  | cons a A ih =>
    obtain ⟨hgt, hs'⟩ := List.pairwise_cons.1 hs
    have hb := sorted_head_bound (n := l.ndim + (A.length + 1)) hs hA
    have ha : a ≤ l.ndim := by omega
    obtain ⟨m1, hm1⟩ : ∃ m1, l.dimInsert (a : Int) = .ok m1 :=
      ⟨_, (dimInsert_ok hl).2 ⟨axisOk_ofNat (by omega), _, rfl, rfl⟩⟩
    obtain ⟨-, s, rfl, -⟩ := (dimInsert_ok hl).1 hm1
    rw [normAxis_ofNat] at hm1
    have hla : a ≤ l.axes.length := ha
    have hn1 : (⟨l.axes.insertIdx a ⟨1, s⟩, l.offset⟩ : Layout).ndim = l.ndim + 1 := by
      simp [Layout.ndim, List.length_insertIdx_of_le_length hla]
    obtain ⟨m, h1, h2, h3, h4, h5, h6, h7⟩ := ih hs' (insert_good hl hla (s := s)) (by
      intro x hx
      have := hA x (List.mem_cons_of_mem _ hx)
      rw [hn1]; simp at this; omega)
    have hml : m.axes.length = l.axes.length + 1 + A.length := by
      rw [hn1] at h4; exact h4
    have hdrop : ∀ {α : Type} (xs : List α), xs.length = m.axes.length →
        dropAxes (a :: A) xs = (dropAxes A xs).eraseIdx a := by
      intro α xs hx
      exact dropF_small (Nat.zero_le _) (by omega) hgt
    refine ⟨m, ?_, h2, h3, by rw [h4, hn1]; simp; omega, ?_, ?_, ?_⟩
    · rw [List.map_cons, foldAxes_cons]
      show (l.dimInsert (a : Int) >>= _) = _
      rw [hm1]; exact h1
    · rw [hdrop _ rfl, h5, eraseIdx_insertIdx_self']
    · intro x hx
      rcases List.mem_cons.1 hx with rfl | hx
      · -- position `x` survives in the tail of the insertions
        have key : ∀ (A : List Nat) (ys : List Axis), (∀ y ∈ A, x < y) → ∀ n, n ≤ x →
            (dropF n A ys)[x - n]? = ys[x - n]? := by
          intro A ys hA
          induction ys with
          | nil => intro n _; simp
          | cons y ys ihy =>
            intro n hn
            rw [dropF_cons, if_neg fun h => by have := hA n h; omega]
            by_cases hxn : n = x
            · subst hxn; simp
            · have e : x - n = (x - (n + 1)) + 1 := by omega
              rw [e, List.getElem?_cons_succ, List.getElem?_cons_succ]
              exact ihy (n + 1) (by omega)
        have := key A m.axes hgt 0 (Nat.zero_le _)
        rw [← dropAxes_eq, h5] at this
        simp only [Nat.sub_zero] at this
        rw [← this, List.getElem?_insertIdx]
        simp [hla]
      · exact h6 x hx
    · intro j hj
      obtain ⟨g1, g2⟩ := h7 j hj
      have hjl : j.length = m.axes.length := by simpa [Layout.shape] using hj.length_eq
      rw [hdrop j hjl]
      have hdl : (dropAxes A j).length = l.axes.length + 1 := by
        have := g1.length_eq
        simpa [Layout.shape, List.length_insertIdx_of_le_length hla] using this
      have g1' : InRange (dropAxes A j) ((dims l.axes).insertIdx a 1) := by
        have := g1; unfold Layout.shape at this; simp only at this
        rw [← dims_insertIdx l.axes a ⟨1, s⟩]; exact this
      have hdims : ((dims l.axes).insertIdx a 1).eraseIdx a = dims l.axes := eraseIdx_insertIdx_self' _ _ _
      refine ⟨?_, ?_⟩
      · have := inRange_eraseIdx (a := a) g1'
        rw [hdims] at this; exact this
      · rw [g2, addr_eq, addr_eq]
        simp only
        have ha' : a < (l.axes.insertIdx a ⟨1, s⟩).length := by
          rw [List.length_insertIdx_of_le_length hla]; omega
        have hz : (dropAxes A j).getD a 0 = 0 := by
          have := g1'.getD (a := a) (by rw [List.length_insertIdx_of_le_length (by simpa using hla)]; simp; omega)
          simpa [List.getD_eq_getElem?_getD, List.getElem?_insertIdx, hla] using this
        have hins : ((dropAxes A j).eraseIdx a).insertIdx a ((dropAxes A j).getD a 0) = dropAxes A j := by
          rw [List.getD_eq_getElem?_getD, List.getElem?_eq_getElem (by omega)]
          simp only [Option.getD_some]
          exact List.insertIdx_eraseIdx_getElem (by omega)
        have := dot_insertIdx (j := (dropAxes A j).eraseIdx a) (p := (dropAxes A j).getD a 0) ha' (by
          rw [List.length_eraseIdx_of_lt (by omega), List.length_insertIdx_of_le_length hla]; omega)
        rw [hins, hz, eraseIdx_insertIdx_self'] at this
        rw [this]; simp

/-! ## squeeze -/

theorem squeeze_fold {A : List Nat} (hs : A.Pairwise (· > ·)) {l : Layout} (hl : Accepted l)
    (hA : ∀ a ∈ A, a < l.ndim) (m : Layout) :
    Layout.foldAxes Layout.dimEliminate l (A.map Int.ofNat) = .ok m ↔
      (∀ a ∈ A, l.shape[a]? = some 1) ∧ m = ⟨dropAxes A l.axes, l.offset⟩ := by
  induction A generalizing l with
  | nil =>
    rw [dropAxes_nil]
    simp only [List.map_nil, Layout.foldAxes, List.not_mem_nil, false_implies, implies_true, true_and]
    exact ⟨fun h => by cases h; rfl, fun h => by rw [h]⟩
  | cons a A ih =>
    obtain ⟨hgt, hs'⟩ := List.pairwise_cons.1 hs
    have ha : a < l.ndim := hA a (by simp)
    have hla : a < l.axes.length := ha
    have hdim : l.shape[a]? = some (l.axes.getD a default).dim := by
      simp [Layout.shape, List.getD_eq_getElem?_getD, hla]
    have hdrop : dropAxes (a :: A) l.axes = dropAxes A (l.axes.eraseIdx a) :=
      dropF_large (Nat.zero_le _) hgt
    rw [List.map_cons, foldAxes_cons, bind_ok]
    have hshape : (⟨l.axes.eraseIdx a, l.offset⟩ : Layout).shape = l.shape.eraseIdx a := dims_eraseIdx l.axes a
    have hnd : (⟨l.axes.eraseIdx a, l.offset⟩ : Layout).ndim = l.ndim - 1 := by
      simp [Layout.ndim, List.length_eraseIdx_of_lt hla]
    have hiff : Accepted ⟨l.axes.eraseIdx a, l.offset⟩ → (
        Layout.foldAxes Layout.dimEliminate ⟨l.axes.eraseIdx a, l.offset⟩ (A.map Int.ofNat) = .ok m ↔
        (∀ x ∈ A, l.shape[x]? = some 1) ∧ m = ⟨dropAxes (a :: A) l.axes, l.offset⟩) := by
      intro hacc
      rw [ih hs' hacc (by
        intro x hx; rw [hnd]; have := hgt x hx; omega), hdrop, hshape]
      have : (∀ x ∈ A, (l.shape.eraseIdx a)[x]? = some 1) ↔ ∀ x ∈ A, l.shape[x]? = some 1 := by
        apply forall₂_congr
        intro x hx
        rw [List.getElem?_eraseIdx_of_lt (hgt x hx)]
      rw [this]
    constructor
    · rintro ⟨m1, h1, h2⟩
      obtain ⟨-, h3, rfl⟩ := (dimEliminate_ok hl).1 h1
      rw [show Int.ofNat a = (a : Int) from rfl, normAxis_ofNat] at h3 h2
      have hacc := erase_good hl (a := a) (p := 0) hla (by omega) (by rw [h3]; simp)
      simp only [mul_zero, add_zero] at hacc
      obtain ⟨h4, h5⟩ := (hiff hacc.accepted).1 h2
      refine ⟨?_, h5⟩
      intro x hx
      rcases List.mem_cons.1 hx with rfl | hx
      · rw [hdim, h3]
      · exact h4 x hx
    · rintro ⟨h1, h2⟩
      have h3 : (l.axes.getD a default).dim = 1 := by
        have := h1 a (by simp); rw [hdim] at this; exact Option.some.inj this
      have hacc := erase_good hl (a := a) (p := 0) hla (by omega) (by rw [h3]; simp)
      simp only [mul_zero, add_zero] at hacc
      refine ⟨⟨l.axes.eraseIdx a, l.offset⟩, ?_, (hiff hacc.accepted).2 ⟨fun x hx => h1 x (by simp [hx]), h2⟩⟩
      refine (dimEliminate_ok hl).2 ⟨axisOk_ofNat ha, ?_, ?_⟩
      · rw [show Int.ofNat a = (a : Int) from rfl, normAxis_ofNat]; exact h3
      · rw [show Int.ofNat a = (a : Int) from rfl, normAxis_ofNat]

/-- Dropping unit axes does not move elements. -/
theorem dropF_dot {n : Nat} {A : List Nat} {axes : List Axis} {i : List Nat}
    (h1 : ∀ a ∈ A, n ≤ a → ∀ x, axes[a - n]? = some x → x.dim = 1) (hi : InRange i (dims axes)) :
    InRange (dropF n A i) (dims (dropF n A axes)) ∧ dot (dropF n A i) (dropF n A axes) = dot i axes := by
  induction axes generalizing n i with
  | nil => have : i = [] := inRange_nil_right.1 hi; subst this; simp
  | cons x xs ih =>
    cases i with
    | nil => simp at hi
    | cons k ks =>
      have hi' : k < x.dim ∧ InRange ks (dims xs) := hi
      have ih' := ih (n := n + 1) (i := ks) (by
        intro a ha hle y hy
        refine h1 a ha (by omega) y ?_
        have e : a - n = (a - (n + 1)) + 1 := by omega
        rw [e, List.getElem?_cons_succ]; exact hy) hi'.2
      rw [dropF_cons, dropF_cons]
      by_cases hn : n ∈ A
      · simp only [hn, if_true]
        have hx : x.dim = 1 := h1 n hn (le_refl _) x (by simp)
        have hk : k = 0 := by omega
        subst hk
        exact ⟨ih'.1, by rw [ih'.2]; simp⟩
      · simp only [hn, if_false]
        refine ⟨?_, by simp [ih'.2]⟩
        simp only [dims, List.map_cons, inRange_cons]
        exact ⟨hi'.1, ih'.1⟩

/-! ## flip -/

theorem flipIndex_length (A shape idx : List Nat) : (flipIndex A shape idx).length = idx.length := by
  simp [flipIndex]

theorem flipIndex_getD (A shape idx : List Nat) {k : Nat} (hk : k < idx.length) :
    (flipIndex A shape idx).getD k 0 =
      if k ∈ A then shape.getD k 0 - 1 - idx.getD k 0 else idx.getD k 0 := by
  simp [flipIndex, List.getD_eq_getElem?_getD, hk]

theorem ext_getD {xs ys : List Nat} (hl : xs.length = ys.length)
    (h : ∀ k, k < xs.length → xs.getD k 0 = ys.getD k 0) : xs = ys := by
  apply List.ext_getElem hl
  intro k h1 h2
  have := h k h1
  simpa [List.getD_eq_getElem?_getD, h1, h2] using this

theorem inRange_of_getD {idx shape : List Nat} (hl : idx.length = shape.length)
    (h : ∀ k, k < shape.length → idx.getD k 0 < shape.getD k 0) : InRange idx shape := by
  rw [inRange_iff_get]
  refine ⟨hl, fun k h1 h2 => ?_⟩
  have := h k h2
  simpa [List.getD_eq_getElem?_getD, h1, h2] using this

theorem flipIndex_inRange {A shape idx : List Nat} (h : InRange idx shape) :
    InRange (flipIndex A shape idx) shape := by
  have hl := h.length_eq
  apply inRange_of_getD (by rw [flipIndex_length, hl])
  intro k hk
  rw [flipIndex_getD _ _ _ (by omega)]
  have := h.getD hk
  split <;> omega

theorem flipIndex_flipIndex {A shape idx : List Nat} (h : InRange idx shape) :
    flipIndex A shape (flipIndex A shape idx) = idx := by
  have hl := h.length_eq
  apply ext_getD (by simp [flipIndex_length])
  intro k hk
  simp only [flipIndex_length] at hk
  rw [flipIndex_getD _ _ _ (by rw [flipIndex_length]; exact hk), flipIndex_getD _ _ _ hk]
  have := h.getD (a := k) (by omega)
  split <;> omega

theorem flip_fold {A : List Nat} (hnd : A.Nodup) {l : Layout} (hl : Accepted l) (hA : ∀ a ∈ A, a < l.ndim) :
    ∃ m, Layout.foldAxes (fun l a => l.dimNarrow a ⟨none, none, some (-1)⟩) l (A.map Int.ofNat) = .ok m ∧
      Accepted m ∧ m.shape = l.shape ∧
      ∀ j, InRange j l.shape → m.addr j = l.addr (flipIndex A l.shape j) := by
  induction A generalizing l with
  | nil =>
    refine ⟨l, rfl, hl, rfl, ?_⟩
    intro j hj
    congr 1
    apply ext_getD (by simp [flipIndex_length])
    intro k hk
    rw [flipIndex_getD _ _ _ hk]; simp
  | cons a A ih =>
    obtain ⟨hna, hnd'⟩ := List.nodup_cons.1 hnd
    have ha : a < l.ndim := hA a (by simp)
    have hla : a < l.shape.length := by simpa [Layout.shape, Layout.ndim] using ha
    obtain ⟨m1, n, start, h1, h2, h3⟩ := dimNarrow_spec hl (axis := (a : Int))
      (s := ⟨none, none, some (-1)⟩) (axisOk_ofNat ha) (by simp)
    rw [normAxis_ofNat] at h2 h3
    simp only [Option.getD_some] at h2 h3
    obtain ⟨h4, h5⟩ := h3 (fun _ => ⟨by simp, by simp⟩)
    have hd : l.shape.getD a 0 = (l.axes.getD a default).dim := dims_getD l.axes a
    rw [← hd] at h4 h5
    have hn : n = l.shape.getD a 0 := by
      unfold PyCount PyHas pyStart pyStop at h4
      simp at h4
      have e1 := h4 n
      have e2 := h4 (l.shape[a]?.getD 0)
      simp at e1 e2
      simp only [List.getD_eq_getElem?_getD]
      omega
    have hsh : m1.shape = l.shape := by
      rw [h2.shape, hn]; exact set_getD_self
    obtain ⟨m, g1, g2, g3, g4⟩ := ih hnd' (h2.good hl).accepted (by
      intro x hx
      have : m1.ndim = l.ndim := by
        have := congrArg List.length hsh; simpa [Layout.shape, Layout.ndim] using this
      rw [this]; exact hA x (by simp [hx]))
    refine ⟨m, ?_, g2, by rw [g3, hsh], ?_⟩
    · rw [List.map_cons, foldAxes_cons]
      show (l.dimNarrow (a : Int) _ >>= _) = _
      rw [h1]; exact g1
    · intro j hj
      rw [g4 j (by rw [hsh]; exact hj), hsh]
      have hf := flipIndex_inRange (A := A) hj
      obtain ⟨-, k2, k3, k4⟩ := h2.elem (j := flipIndex A l.shape j) (by rw [hsh]; exact hf)
      rw [k2]
      congr 1
      have hjl := hj.length_eq
      apply ext_getD (by simp [flipIndex_length])
      intro k hk
      simp only [List.length_set, flipIndex_length] at hk
      have hkd := hj.getD (a := k) (by omega)
      have hfa : (flipIndex A l.shape j).getD a 0 = j.getD a 0 := by
        rw [flipIndex_getD _ _ _ (by omega), if_neg hna]
      rw [flipIndex_getD _ _ _ hk]
      by_cases hka : k = a
      · subst hka
        have hs0 : start = (l.shape.getD k 0 : Int) - 1 := by
          rw [h5 (by omega)]; simp [pyStart]
        have e : ((flipIndex A l.shape j).set k
            (start + ((flipIndex A l.shape j).getD k 0 : Nat) * (-1)).toNat).getD k 0
            = (start + ((flipIndex A l.shape j).getD k 0 : Nat) * (-1)).toNat := by
          simp [List.getD_eq_getElem?_getD, flipIndex_length, hk]
        rw [e, hfa, hs0, if_pos (by simp)]
        omega
      · have e : ((flipIndex A l.shape j).set a
            (start + ((flipIndex A l.shape j).getD a 0 : Nat) * (-1)).toNat).getD k 0
            = (flipIndex A l.shape j).getD k 0 := by
          simp [List.getD_eq_getElem?_getD, List.getElem?_set_ne (Ne.symm hka)]
        rw [e, flipIndex_getD _ _ _ hk]
        have : k ∈ a :: A ↔ k ∈ A := by simp [hka]
        simp [this]

end Rstsr
