import Verif.Proof.Index
import Verif.Proof.Res
/-! # Ranks, contiguous strides and unravelling -/
namespace Spec

@[simp] theorem rankF_nil (is) : rankF [] is = 0 := by cases is <;> rfl
@[simp] theorem rankF_cons (d ds i is) : rankF (d :: ds) (i :: is) = i + d * rankF ds is := rfl
@[simp] theorem rankC_nil (is) : rankC [] is = 0 := by cases is <;> rfl
@[simp] theorem rankC_cons (d ds i is) : rankC (d :: ds) (i :: is) = i * ds.prod + rankC ds is := rfl

theorem rankF_lt {shape idx : List Nat} (h : InRange idx shape) : rankF shape idx < shape.prod := by
  induction shape generalizing idx with
  | nil => simp
  | cons d ds ih =>
    cases idx with
    | nil => simp at h
    | cons i is =>
      have := ih h.2
      rw [rankF_cons, List.prod_cons]
      have h1 := h.1
      calc i + d * rankF ds is < d + d * rankF ds is := by omega
        _ = d * (rankF ds is + 1) := by ring
        _ ≤ d * ds.prod := Nat.mul_le_mul_left _ this

theorem rankF_inj {shape i j : List Nat} (hi : InRange i shape) (hj : InRange j shape)
    (h : rankF shape i = rankF shape j) : i = j := by
  induction shape generalizing i j with
  | nil => rw [inRange_nil_right] at hi hj; rw [hi, hj]
  | cons d ds ih =>
    cases i with
    | nil => simp at hi
    | cons a is =>
      cases j with
      | nil => simp at hj
      | cons b js =>
        simp only [rankF_cons] at h
        have ha := hi.1
        have hb := hj.1
        have h1 : a = b := by
          have := congrArg (· % d) h
          simpa [Nat.add_mul_mod_self_left, Nat.mod_eq_of_lt ha, Nat.mod_eq_of_lt hb] using this
        subst h1
        have h2 : rankF ds is = rankF ds js :=
          Nat.eq_of_mul_eq_mul_left (Nat.lt_of_le_of_lt (Nat.zero_le _) ha) (by omega)
        rw [ih hi.2 hj.2 h2]

theorem rankF_append {s t i j : List Nat} (h : i.length = s.length) :
    rankF (s ++ t) (i ++ j) = rankF s i + s.prod * rankF t j := by
  induction s generalizing i with
  | nil => cases i <;> simp_all
  | cons d ds ih =>
    cases i with
    | nil => simp at h
    | cons a is =>
      simp only [List.cons_append, rankF_cons, ih (by simpa using h), List.prod_cons]; ring

theorem rankC_eq {shape idx : List Nat} (h : idx.length = shape.length) :
    rankC shape idx = rankF shape.reverse idx.reverse := by
  induction shape generalizing idx with
  | nil => simp
  | cons d ds ih =>
    cases idx with
    | nil => simp at h
    | cons i is =>
      simp only [List.reverse_cons, rankC_cons]
      rw [rankF_append (by simpa using h), ← ih (by simpa using h)]
      simp; ring

theorem rankC_lt {shape idx : List Nat} (h : InRange idx shape) : rankC shape idx < shape.prod := by
  rw [rankC_eq h.length_eq]
  simpa using rankF_lt h.reverse

theorem rankC_inj {shape i j : List Nat} (hi : InRange i shape) (hj : InRange j shape)
    (h : rankC shape i = rankC shape j) : i = j := by
  rw [rankC_eq hi.length_eq, rankC_eq hj.length_eq] at h
  simpa using rankF_inj hi.reverse hj.reverse h

theorem rankF_zeros {shape : List Nat} (n : Nat) : rankF shape (List.replicate n 0) = 0 := by
  induction shape generalizing n with
  | nil => simp
  | cons d ds ih => cases n <;> simp [List.replicate_succ, ih]; rfl

end Spec

namespace Rstsr
open Spec

theorem unravelLoop_spec {shape : List Nat} {k : Nat} (h : k < shape.prod) :
    ∃ idx, unravelLoop shape k = .ok idx ∧ InRange idx shape ∧ rankF shape idx = k := by
  induction shape generalizing k with
  | nil => simp at h; exact ⟨[], rfl, trivial, by simp [h]⟩
  | cons d ds ih =>
    rw [List.prod_cons] at h
    cases ds with
    | nil => exact ⟨[k], rfl, by simpa using h, by simp⟩
    | cons e es =>
      have hd : d ≠ 0 := by rintro rfl; simp at h
      obtain ⟨idx, h1, h2, h3⟩ := ih (k := k / d) (Nat.div_lt_of_lt_mul h)
      refine ⟨k % d :: idx, ?_, ⟨Nat.mod_lt _ (by omega), h2⟩, ?_⟩
      · unfold unravelLoop; simp [hd, h1]
      · rw [rankF_cons, h3]; exact Nat.mod_add_div k d

theorem exists_rankF {shape : List Nat} {k : Nat} (h : k < shape.prod) :
    ∃ idx, InRange idx shape ∧ rankF shape idx = k :=
  let ⟨idx, _, h⟩ := unravelLoop_spec h
  ⟨idx, h⟩

theorem exists_rankC {shape : List Nat} {k : Nat} (h : k < shape.prod) :
    ∃ idx, InRange idx shape ∧ rankC shape idx = k := by
  obtain ⟨idx, h1, h2⟩ := exists_rankF (shape := shape.reverse) (by simpa using h)
  refine ⟨idx.reverse, by simpa using h1.reverse, ?_⟩
  rw [rankC_eq (by simpa using h1.length_eq)]
  simpa using h2

/-! ## Contiguous strides -/

@[simp] theorem fStrides_length (acc : Int) (s : List Nat) : (fStrides acc s).length = s.length := by
  induction s generalizing acc <;> simp [fStrides, *]

theorem mkAxes_dims {s : List Nat} {t : List Int} (h : s.length = t.length) :
    dims (mkAxes s t) = s := by
  induction s generalizing t with
  | nil => simp [mkAxes]
  | cons d ds ih =>
    cases t with
    | nil => simp at h
    | cons a as =>
      simp only [mkAxes, List.zipWith_cons_cons, dims, List.map_cons]
      exact congrArg _ (ih (by simpa using h))

theorem mkAxes_str {s : List Nat} {t : List Int} (h : s.length = t.length) :
    (mkAxes s t).map (·.str) = t := by
  induction s generalizing t with
  | nil => cases t <;> simp_all [mkAxes]
  | cons d ds ih =>
    cases t with
    | nil => simp at h
    | cons a as =>
      simp only [mkAxes, List.zipWith_cons_cons, List.map_cons]
      exact congrArg _ (ih (by simpa using h))

theorem mkAxes_reverse {s : List Nat} {t : List Int} (h : s.length = t.length) :
    mkAxes s.reverse t.reverse = (mkAxes s t).reverse := by
  unfold mkAxes
  rw [List.reverse_zipWith h]

theorem mkAxes_shape_stride (axes : List Axis) :
    mkAxes (axes.map (·.dim)) (axes.map (·.str)) = axes := by
  induction axes with
  | nil => rfl
  | cons a as ih =>
    simp only [mkAxes, List.map_cons, List.zipWith_cons_cons] at *
    rw [ih]

theorem dot_fStrides {acc : Int} {shape idx : List Nat} (h : idx.length = shape.length) :
    dot idx (mkAxes shape (fStrides acc shape)) = acc * rankF shape idx := by
  induction shape generalizing acc idx with
  | nil => simp [mkAxes]
  | cons d ds ih =>
    cases idx with
    | nil => simp at h
    | cons i is =>
      have := ih (acc := acc * d) (idx := is) (by simpa using h)
      simp only [mkAxes] at this
      simp only [mkAxes, fStrides, List.zipWith_cons_cons, dot_cons, this, rankF_cons]
      push_cast; ring

theorem shape_newFContig (s : List Nat) (o : Int) : (Layout.newFContig s o).shape = s :=
  mkAxes_dims (by simp [strideFContig])

theorem shape_newCContig (s : List Nat) (o : Int) : (Layout.newCContig s o).shape = s :=
  mkAxes_dims (by simp [strideCContig])

theorem addr_newFContig {s : List Nat} {o : Int} {idx : List Nat} (h : idx.length = s.length) :
    (Layout.newFContig s o).addr idx = o + rankF s idx := by
  unfold Layout.newFContig strideFContig
  rw [addr_mk, dot_fStrides h, one_mul]

theorem newCContig_axes (s : List Nat) (o : Int) :
    (Layout.newCContig s o).axes = (Layout.newFContig s.reverse o).axes.reverse := by
  simp only [Layout.newCContig, strideCContig, Layout.newFContig, strideFContig]
  rw [← mkAxes_reverse (by simp), List.reverse_reverse]

theorem addr_newCContig {s : List Nat} {o : Int} {idx : List Nat} (h : idx.length = s.length) :
    (Layout.newCContig s o).addr idx = o + rankC s idx := by
  rw [rankC_eq h, addr_eq, newCContig_axes]
  have h2 := addr_newFContig (s := s.reverse) (o := o) (idx := idx.reverse) (by simpa using h)
  rw [addr_eq] at h2
  have h3 : dot idx (Layout.newFContig s.reverse o).axes.reverse
      = dot idx.reverse (Layout.newFContig s.reverse o).axes := by
    conv_lhs => rw [← List.reverse_reverse idx]
    apply dot_reverse
    simp [Layout.newFContig, mkAxes, strideFContig, h]
  rw [h3]; exact h2

/-! ## Contiguity tests -/

theorem contigLoop_le (acc : Int) (axes : List Axis) : Layout.contigLoop acc axes ≤ axes.length := by
  induction axes generalizing acc with
  | nil => simp [Layout.contigLoop]
  | cons a as ih =>
    unfold Layout.contigLoop
    split
    · simp
    · have := ih (acc * a.dim); simp; exact this

/-- The accepted leading axes are exactly the contiguous ones. -/
theorem contigLoop_iff {acc : Int} {axes : List Axis} {m : Nat} (hm : m ≤ axes.length)
    (hpos : ∀ d ∈ dims axes, 0 < d) :
    m ≤ Layout.contigLoop acc axes ↔ ∀ idx, InRange idx (dims (axes.take m)) →
      dot idx (axes.take m) = acc * rankF (dims (axes.take m)) idx := by
  induction axes generalizing acc m with
  | nil =>
    have : m = 0 := by simpa using hm
    subst this; simp
  | cons a as ih =>
    cases m with
    | zero => simp
    | succ m =>
      have hp' : ∀ d ∈ dims as, 0 < d := fun d hd => hpos d (by simp at hd ⊢; exact Or.inr hd)
      have ha : 0 < a.dim := hpos a.dim (by simp)
      have hm' : m ≤ as.length := by simpa using hm
      have ih' := ih (acc := acc * a.dim) hm' hp'
      unfold Layout.contigLoop
      simp only [List.take_succ_cons, List.map_cons]
      have hpt : ∀ d ∈ dims (as.take m), 0 < d := fun d hd => by
        simp only [dims, List.map_take] at hd
        exact hp' d (List.mem_of_mem_take hd)
      split
      · rename_i hc
        constructor
        · intro h; omega
        · intro h
          exfalso
          apply hc.2
          have := h (1 :: List.replicate (dims (as.take m)).length 0)
            ⟨by omega, inRange_zeros hpt⟩
          simpa [dot_zeros, rankF_zeros] using this
      · rename_i hc
        rw [Nat.add_le_add_iff_right, ih']
        constructor
        · rintro h (_ | ⟨i, is⟩) hin
          · simp at hin
          · rw [dot_cons, h is hin.2, rankF_cons]
            have : (i : Int) * a.str = i * acc := by
              by_cases h1 : a.dim = 1
              · have : i = 0 := by have := hin.1; omega
                simp [this]
              · have : a.str = acc := by by_contra h2; exact hc ⟨h1, h2⟩
                rw [this]
            rw [this]; push_cast; ring
        · intro h idx hin
          have := h (0 :: idx) ⟨ha, hin⟩
          rw [dot_cons, rankF_cons] at this
          push_cast at this
          linarith

end Rstsr
