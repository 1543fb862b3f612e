import Verif.Model.Numeric

/-! Auxiliary facts about outcomes. -/

namespace Verif.Outcome

variable {α : Type u} {β : Type v}

@[simp] theorem bind_ok (a : α) (f : α → Outcome β) : (ok a).bind f = f a := rfl
@[simp] theorem bind_diverges (f : α → Outcome β) : (diverges : Outcome α).bind f = diverges := rfl
@[simp] theorem bind_throws (f : α → Outcome β) : (throws : Outcome α).bind f = throws := rfl
@[simp] theorem bind_ub (f : α → Outcome β) : (ub : Outcome α).bind f = ub := rfl
@[simp] theorem bind_nonfinite (f : α → Outcome β) : (nonfinite : Outcome α).bind f = nonfinite := rfl

theorem bind_eq_ok {x : Outcome α} {f : α → Outcome β} {b : β} :
    x.bind f = ok b ↔ ∃ a, x = ok a ∧ f a = ok b := by
  cases x <;> simp

theorem bind_eq_ub {x : Outcome α} {f : α → Outcome β} :
    x.bind f = ub ↔ x = ub ∨ ∃ a, x = ok a ∧ f a = ub := by
  cases x <;> simp

theorem bind_eq_throws {x : Outcome α} {f : α → Outcome β} :
    x.bind f = throws ↔ x = throws ∨ ∃ a, x = ok a ∧ f a = throws := by
  cases x <;> simp

theorem bind_eq_nonfinite {x : Outcome α} {f : α → Outcome β} :
    x.bind f = nonfinite ↔ x = nonfinite ∨ ∃ a, x = ok a ∧ f a = nonfinite := by
  cases x <;> simp

theorem bind_eq_diverges {x : Outcome α} {f : α → Outcome β} :
    x.bind f = diverges ↔ x = diverges ∨ ∃ a, x = ok a ∧ f a = diverges := by
  cases x <;> simp

end Verif.Outcome
