/- Helper lemmas: exceptions as values. -/
import Verif.Model.Holidays
import Mathlib.Data.List.Forall2

namespace Verif

theorem bind_ok {α β : Type} {x : Except PyErr α} {f : α → Except PyErr β} {b : β} :
    (x >>= f) = .ok b ↔ ∃ a, x = .ok a ∧ f a = .ok b := by
  cases x with
  | error e => constructor
               · intro h; cases h
               · rintro ⟨a, h, _⟩; cases h
  | ok a => constructor
            · intro h; exact ⟨a, rfl, h⟩
            · rintro ⟨a', h, h'⟩; cases h; exact h'

theorem bind_error {α β : Type} {x : Except PyErr α} {f : α → Except PyErr β} {e : PyErr} :
    (x >>= f) = .error e ↔ x = .error e ∨ ∃ a, x = .ok a ∧ f a = .error e := by
  cases x with
  | error e' => constructor
                · intro h; cases h; exact Or.inl rfl
                · rintro (h | ⟨a, h, _⟩)
                  · cases h; rfl
                  · cases h
  | ok a => constructor
            · intro h; exact Or.inr ⟨a, rfl, h⟩
            · rintro (h | ⟨a', h, h'⟩)
              · cases h
              · cases h; exact h'

@[simp] theorem ok_bind {α β : Type} (a : α) (f : α → Except PyErr β) : (Except.ok a >>= f) = f a := rfl
@[simp] theorem error_bind {α β : Type} (e : PyErr) (f : α → Except PyErr β) :
    ((Except.error e : Except PyErr α) >>= f) = .error e := rfl

theorem collect_ok {α β : Type} {f : α → Except PyErr β} {l : List α} {r : List β} :
    collect f l = .ok r ↔ List.Forall₂ (fun a b => f a = .ok b) l r := by
  induction l generalizing r with
  | nil =>
    constructor
    · intro h; cases h; exact .nil
    · intro h; cases h; rfl
  | cons a as ih =>
    simp only [collect, bind_ok]
    constructor
    · rintro ⟨b, hb, bs, hbs, h⟩; cases h; exact .cons hb (ih.1 hbs)
    · intro h
      cases h with
      | cons hb hbs => exact ⟨_, hb, _, ih.2 hbs, rfl⟩

/-- A comprehension over `l` succeeds when every element does. -/
theorem collect_total {α β : Type} {f : α → Except PyErr β} {l : List α} (h : ∀ a ∈ l, ∃ b, f a = .ok b) :
    ∃ r, collect f l = .ok r := by
  induction l with
  | nil => exact ⟨[], rfl⟩
  | cons a as ih =>
    obtain ⟨b, hb⟩ := h a (by simp)
    obtain ⟨bs, hbs⟩ := ih (fun x hx => h x (by simp [hx]))
    exact ⟨b :: bs, by simp [collect, hb, hbs]⟩

theorem collect_mem {α β : Type} {f : α → Except PyErr β} {l : List α} {r : List β} (h : collect f l = .ok r) (b : β) :
    b ∈ r ↔ ∃ a ∈ l, f a = .ok b := by
  rw [collect_ok] at h
  induction h with
  | nil => simp
  | cons hab _ ih =>
    simp only [List.mem_cons, ih]
    constructor
    · rintro (rfl | ⟨a, ha, hb⟩)
      · exact ⟨_, Or.inl rfl, hab⟩
      · exact ⟨a, Or.inr ha, hb⟩
    · rintro ⟨a, rfl | ha, hb⟩
      · rw [hab] at hb; cases hb; exact Or.inl rfl
      · exact Or.inr ⟨a, ha, hb⟩

theorem collect_ok_of_mem {α β : Type} {f : α → Except PyErr β} {l : List α} {r : List β} (h : collect f l = .ok r)
    (a : α) (ha : a ∈ l) : ∃ b, f a = .ok b := by
  rw [collect_ok] at h
  induction h with
  | nil => simp at ha
  | cons hab _ ih =>
    rcases List.mem_cons.1 ha with rfl | ha
    · exact ⟨_, hab⟩
    · exact ih ha

theorem collect_length {α β : Type} {f : α → Except PyErr β} {l : List α} {r : List β} (h : collect f l = .ok r) :
    r.length = l.length := (collect_ok.1 h).length_eq.symm

theorem yearRange_mem (a b y : Int) : y ∈ yearRange a b ↔ a ≤ y ∧ y ≤ b := by
  unfold yearRange
  simp only [List.mem_map, List.mem_range]
  constructor
  · rintro ⟨i, hi, rfl⟩; omega
  · intro h; exact ⟨(y - a).toNat, by omega, by omega⟩

end Verif
