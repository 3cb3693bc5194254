import Mathlib.Data.List.Forall2
import Verif.Model.Basic
/-! # Lemmas about the result monad -/
namespace Rstsr

theorem bind_ok {α β : Type} {x : Res α} {f : α → Res β} {b : β} :
    (x >>= f) = .ok b ↔ ∃ a, x = .ok a ∧ f a = .ok b := by
  cases x with
  | error e => exact ⟨fun h => (nomatch h), fun ⟨a, h, _⟩ => (nomatch h)⟩
  | ok a => exact ⟨fun h => ⟨a, rfl, h⟩, fun ⟨a', h, h'⟩ => by cases h; exact h'⟩

theorem bind_error {α β : Type} {x : Res α} {f : α → Res β} {e : Err} :
    (x >>= f) = .error e ↔ x = .error e ∨ ∃ a, x = .ok a ∧ f a = .error e := by
  cases x with
  | error e' =>
    exact ⟨fun h => Or.inl (by cases h; rfl), fun h => by
      rcases h with h | ⟨a, h, _⟩
      · cases h; rfl
      · cases h⟩
  | ok a =>
    exact ⟨fun h => Or.inr ⟨a, rfl, h⟩, fun h => by
      rcases h with h | ⟨a', h, h'⟩
      · cases h
      · cases h; exact h'⟩

@[simp] theorem ok_bind {α β : Type} (a : α) (f : α → Res β) : ((Except.ok a : Res α) >>= f) = f a := rfl
@[simp] theorem error_bind {α β : Type} (e : Err) (f : α → Res β) :
    ((Except.error e : Res α) >>= f) = .error e := rfl
@[simp] theorem pure_eq_ok {α : Type} (a : α) : (pure a : Res α) = .ok a := rfl
@[simp] theorem map_ok {α β : Type} (a : α) (f : α → β) : (f <$> (Except.ok a : Res α)) = .ok (f a) := rfl
@[simp] theorem map_error {α β : Type} (e : Err) (f : α → β) :
    (f <$> (Except.error e : Res α)) = .error e := rfl

theorem map_eq_ok {α β : Type} {x : Res α} {f : α → β} {b : β} :
    (f <$> x) = .ok b ↔ ∃ a, x = .ok a ∧ f a = b := by
  cases x with
  | error e => exact ⟨fun h => (nomatch h), fun ⟨a, h, _⟩ => (nomatch h)⟩
  | ok a => exact ⟨fun h => ⟨a, rfl, by cases h; rfl⟩, fun ⟨a', h, h'⟩ => by cases h; rw [← h']; rfl⟩

theorem mapM_ok {α β : Type} {f : α → Res β} {l : List α} {r : List β} :
    l.mapM f = .ok r ↔ List.Forall₂ (fun a b => f a = .ok b) l r := by
  induction l generalizing r with
  | nil => simp [eq_comm]
  | cons a l ih =>
    rw [List.mapM_cons]
    constructor
    · intro h
      obtain ⟨b, hb, h⟩ := bind_ok.1 h
      obtain ⟨bs, hbs, h⟩ := bind_ok.1 h
      cases h
      exact .cons hb (ih.1 hbs)
    · intro h
      cases h with
      | cons hb hbs => rw [hb]; simp [ih.2 hbs]

theorem mapM_error_iff {α β : Type} {f : α → Res β} {l : List α} :
    (∃ e, l.mapM f = .error e) ↔ ∃ a ∈ l, ∃ e, f a = .error e := by
  induction l with
  | nil => simp
  | cons a l ih =>
    rw [List.mapM_cons]
    cases h : f a with
    | error e => simp [h]
    | ok b =>
      simp only [ok_bind, List.mem_cons, exists_eq_or_imp, h, reduceCtorEq, exists_false, false_or, ← ih]
      cases l.mapM f <;> simp

end Rstsr
