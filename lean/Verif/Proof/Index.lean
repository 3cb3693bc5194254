import Mathlib.Tactic.Ring
import Mathlib.Tactic.Linarith
import Mathlib.Algebra.BigOperators.Group.List.Basic
import Verif.Model.Layout
/-!
# Basic lemmas about multi-indices and strided positions
-/
namespace Spec

@[simp] theorem inRange_nil : InRange [] [] := trivial
@[simp] theorem inRange_cons {i d is ds} :
    InRange (i :: is) (d :: ds) ↔ i < d ∧ InRange is ds := Iff.rfl
@[simp] theorem not_inRange_nil_cons {d ds} : ¬ InRange [] (d :: ds) := id
@[simp] theorem not_inRange_cons_nil {i is} : ¬ InRange (i :: is) [] := id
theorem inRange_nil_right {is} : InRange is [] ↔ is = [] := by cases is <;> simp

theorem InRange.length_eq : ∀ {idx shape}, InRange idx shape → idx.length = shape.length
  | [], [], _ => rfl
  | _ :: _, _ :: _, h => by simpa using InRange.length_eq h.2

theorem inRange_iff_get {idx shape : List Nat} :
    InRange idx shape ↔ idx.length = shape.length ∧
      ∀ k (h₁ : k < idx.length) (h₂ : k < shape.length), idx[k] < shape[k] := by
  induction idx generalizing shape with
  | nil => cases shape <;> simp
  | cons i is ih =>
    cases shape with
    | nil => simp
    | cons d ds =>
      simp only [inRange_cons, ih, List.length_cons, Nat.add_right_cancel_iff]
      constructor
      · rintro ⟨h0, hl, h⟩
        refine ⟨hl, fun k h₁ h₂ => ?_⟩
        cases k with
        | zero => simpa using h0
        | succ k => simpa using h k (by omega) (by omega)
      · rintro ⟨hl, h⟩
        exact ⟨by simpa using h 0 (by simp) (by simp), hl,
          fun k h₁ h₂ => h (k + 1) (by simp; omega) (by simp; omega)⟩

theorem inRange_append {i₁ i₂ s₁ s₂ : List Nat} (h : i₁.length = s₁.length) :
    InRange (i₁ ++ i₂) (s₁ ++ s₂) ↔ InRange i₁ s₁ ∧ InRange i₂ s₂ := by
  induction i₁ generalizing s₁ with
  | nil => cases s₁ <;> simp_all
  | cons i is ih =>
    cases s₁ with
    | nil => simp at h
    | cons d ds => simp only [List.cons_append, inRange_cons, ih (by simpa using h), and_assoc]

theorem InRange.reverse {idx shape : List Nat} (h : InRange idx shape) :
    InRange idx.reverse shape.reverse := by
  rw [inRange_iff_get] at *
  refine ⟨by simp [h.1], fun k h₁ h₂ => ?_⟩
  simp only [List.getElem_reverse]
  simp only [List.length_reverse] at h₁ h₂
  have := h.2 (idx.length - 1 - k) (by omega) (by omega)
  simpa [h.1] using this

theorem inRange_reverse {idx shape : List Nat} :
    InRange idx.reverse shape.reverse ↔ InRange idx shape :=
  ⟨fun h => by simpa using h.reverse, InRange.reverse⟩

theorem InRange.pos {idx shape : List Nat} (h : InRange idx shape) : ∀ d ∈ shape, 0 < d := by
  induction idx generalizing shape with
  | nil => cases shape <;> simp_all
  | cons i is ih =>
    cases shape with
    | nil => simp
    | cons d ds =>
      intro x hx
      rcases List.mem_cons.1 hx with rfl | hx
      · exact Nat.lt_of_le_of_lt (Nat.zero_le _) h.1
      · exact ih h.2 x hx

theorem prod_pos_of {l : List Nat} (h : ∀ d ∈ l, 0 < d) : 0 < l.prod := by
  induction l with
  | nil => simp
  | cons d ds ih =>
    rw [List.prod_cons]
    exact Nat.mul_pos (h d (by simp)) (ih fun x hx => h x (by simp [hx]))

theorem prod_eq_zero_of {l : List Nat} (h : 0 ∈ l) : l.prod = 0 := by
  induction l with
  | nil => simp at h
  | cons d ds ih =>
    rw [List.prod_cons]
    rcases List.mem_cons.1 h with h | h
    · rw [← h]; simp
    · rw [ih h]; simp

theorem InRange.prod_pos {idx shape : List Nat} (h : InRange idx shape) : 0 < shape.prod :=
  prod_pos_of h.pos

theorem inRange_zeros {shape : List Nat} (h : ∀ d ∈ shape, 0 < d) :
    InRange (List.replicate shape.length 0) shape := by
  induction shape with
  | nil => simp
  | cons d ds ih =>
    simp only [List.length_cons, List.replicate_succ, inRange_cons]
    exact ⟨h d (by simp), ih fun x hx => h x (by simp [hx])⟩

theorem exists_inRange_iff {shape : List Nat} :
    (∃ idx, InRange idx shape) ↔ shape.prod ≠ 0 := by
  constructor
  · rintro ⟨idx, h⟩; exact h.prod_pos.ne'
  · intro h
    refine ⟨_, inRange_zeros fun d hd => Nat.pos_of_ne_zero ?_⟩
    rintro rfl
    exact h (prod_eq_zero_of hd)

theorem prod_ne_zero_iff {shape : List Nat} : shape.prod ≠ 0 ↔ ∀ d ∈ shape, 0 < d := by
  constructor
  · intro h d hd
    refine Nat.pos_of_ne_zero ?_
    rintro rfl; exact h (prod_eq_zero_of hd)
  · intro h; exact (prod_pos_of h).ne'

end Spec

namespace Rstsr
open Spec

/-- Sum of coordinate times stride, by recursion (equal to `Spec.position` with offset 0). -/
def dot : List Nat → List Axis → Int
  | i :: is, a :: as => (i : Int) * a.str + dot is as
  | _, _ => 0

@[simp] theorem dot_nil_left (as) : dot [] as = 0 := by cases as <;> rfl
@[simp] theorem dot_nil_right (is) : dot is [] = 0 := by cases is <;> rfl
@[simp] theorem dot_cons (i is a as) : dot (i :: is) (a :: as) = (i : Int) * a.str + dot is as := rfl

theorem dot_eq_sum (idx : List Nat) (axes : List Axis) :
    dot idx axes = (List.zipWith (fun (i : Nat) (a : Axis) => (i : Int) * a.str) idx axes).sum := by
  induction idx generalizing axes with
  | nil => simp
  | cons i is ih => cases axes <;> simp [ih]

theorem addr_eq (l : Layout) (idx : List Nat) : l.addr idx = l.offset + dot idx l.axes := by
  unfold Layout.addr Spec.position Layout.stride
  rw [dot_eq_sum, List.zipWith_map_right]

theorem addr_mk (axes : List Axis) (off : Int) (idx : List Nat) :
    (⟨axes, off⟩ : Layout).addr idx = off + dot idx axes := addr_eq _ _

theorem dot_append {i₁ i₂ : List Nat} {a₁ a₂ : List Axis} (h : i₁.length = a₁.length) :
    dot (i₁ ++ i₂) (a₁ ++ a₂) = dot i₁ a₁ + dot i₂ a₂ := by
  induction i₁ generalizing a₁ with
  | nil => cases a₁ <;> simp_all
  | cons i is ih =>
    cases a₁ with
    | nil => simp at h
    | cons a as => simp [ih (by simpa using h)]; ring

theorem dot_reverse {idx : List Nat} {axes : List Axis} (h : idx.length = axes.length) :
    dot idx.reverse axes.reverse = dot idx axes := by
  induction idx generalizing axes with
  | nil => cases axes <;> simp_all
  | cons i is ih =>
    cases axes with
    | nil => simp at h
    | cons a as =>
      simp only [List.reverse_cons]
      rw [dot_append (by simpa using h), ih (by simpa using h)]
      simp; ring

theorem dot_zeros (n : Nat) (axes : List Axis) : dot (List.replicate n 0) axes = 0 := by
  induction n generalizing axes with
  | zero => simp
  | succ n ih => cases axes <;> simp [List.replicate_succ, ih]

/-- Axis lengths of a list of axes. -/
abbrev dims (axes : List Axis) : List Nat := axes.map (·.dim)

/-- `dot` as a sum over axis numbers. -/
theorem dot_eq_sum_range {idx : List Nat} {axes : List Axis} (h : idx.length = axes.length) :
    dot idx axes = ((List.range axes.length).map
      fun k => ((idx.getD k 0 : Nat) : Int) * (axes.getD k default).str).sum := by
  induction idx generalizing axes with
  | nil => cases axes <;> simp_all
  | cons i is ih =>
    cases axes with
    | nil => simp at h
    | cons a as =>
      rw [dot_cons, ih (by simpa using h), List.length_cons, List.range_succ_eq_map]
      simp [Function.comp_def]

theorem dot_map_map (p : List Nat) (f : Nat → Nat) (g : Nat → Axis) :
    dot (p.map f) (p.map g) = (p.map fun k => ((f k : Nat) : Int) * (g k).str).sum := by
  induction p with
  | nil => simp
  | cons a p ih => simp [ih]

/-- Reordering coordinates and axes by the same permutation does not change the position. -/
theorem dot_perm {p : List Nat} {idx : List Nat} {axes : List Axis}
    (hp : p.Perm (List.range axes.length)) (h : idx.length = axes.length) :
    dot (p.map fun k => idx.getD k 0) (p.map fun k => axes.getD k default) = dot idx axes := by
  rw [dot_map_map, dot_eq_sum_range h]
  exact (hp.map _).sum_eq

theorem inRange_map_map {p : List Nat} {f g : Nat → Nat} :
    InRange (p.map f) (p.map g) ↔ ∀ k ∈ p, f k < g k := by
  induction p with
  | nil => simp
  | cons a p ih => simp [ih]

theorem inRange_perm {p : List Nat} {idx shape : List Nat}
    (hp : p.Perm (List.range shape.length)) (h : idx.length = shape.length) :
    InRange (p.map fun k => idx.getD k 0) (p.map fun k => shape.getD k 0) ↔ InRange idx shape := by
  rw [inRange_map_map, inRange_iff_get]
  constructor
  · intro hk
    refine ⟨h, fun k h₁ h₂ => ?_⟩
    have := hk k (hp.mem_iff.2 (by simpa using h₂))
    simpa [List.getD_eq_getElem?_getD, h₁, h₂] using this
  · rintro ⟨_, hk⟩ k hmem
    have h₂ : k < shape.length := by simpa using hp.mem_iff.1 hmem
    have h₁ : k < idx.length := by omega
    simpa [List.getD_eq_getElem?_getD, h₁, h₂] using hk k h₁ h₂

end Rstsr
