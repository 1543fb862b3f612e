import Verif.Lemmas.Process

/-! # Programs that differ only in what nothing reads -/

namespace Verif.Process

open Wobbly

/-- A model without its stored copies of the settings and of the counter. -/
noncomputable def blank (x : ℕ × State) : ℕ × State := (x.1, { x.2 with settings := ⟨0, 0, 0⟩, lastId := 0 })

/-- Two programs that agree in everything but the stored copies of settings and counter. -/
structure Alike (P Q : Proc) : Prop where
  settings : P.settings = Q.settings
  counter : P.counter = Q.counter
  vars : P.vars = Q.vars
  models : P.models.map (Option.map blank) = Q.models.map (Option.map blank)

theorem Alike.get {P Q : Proc} (h : Alike P Q) (m : ℕ) :
    P.models[m]?.map (Option.map blank) = Q.models[m]?.map (Option.map blank) := by
  rw [← List.getElem?_map, h.models, List.getElem?_map]

theorem blank_inj {a b : State} {r r' : ℕ} (h : blank (r, a) = blank (r', b)) :
    r = r' ∧ ∀ x n, ({ a with settings := x, lastId := n } : State) = { b with settings := x, lastId := n } := by
  unfold blank at h
  simp only [Prod.mk.injEq, State.mk.injEq] at h
  obtain ⟨h1, h2⟩ := h
  refine ⟨h1, fun x n => ?_⟩
  simp only [State.mk.injEq]
  simp_all

/-- What a model number is in both programs. -/
theorem Alike.cases {P Q : Proc} (h : Alike P Q) (m : ℕ) :
    ((∀ x, P.models[m]? ≠ some (some x)) ∧ ∀ x, Q.models[m]? ≠ some (some x)) ∨
    ∃ r a b, P.models[m]? = some (some (r, a)) ∧ Q.models[m]? = some (some (r, b)) ∧
      ∀ x n, ({ a with settings := x, lastId := n } : State) = { b with settings := x, lastId := n } := by
  have hg := h.get m
  cases hp : P.models[m]? with
  | none =>
    rw [hp] at hg
    cases hq : Q.models[m]? with
    | none => exact .inl ⟨by simp, by simp⟩
    | some b => rw [hq] at hg; simp at hg
  | some a =>
    cases hq : Q.models[m]? with
    | none => rw [hp, hq] at hg; simp at hg
    | some b =>
      rw [hp, hq] at hg
      simp only [Option.map_some, Option.some.injEq] at hg
      cases a with
      | none =>
        cases b with
        | none => exact .inl ⟨by simp, by simp⟩
        | some b => simp at hg
      | some a =>
        cases b with
        | none => simp at hg
        | some b =>
          simp only [Option.map_some, Option.some.injEq] at hg
          obtain ⟨h1, h2⟩ := blank_inj (a := a.2) (b := b.2) (r := a.1) (r' := b.1) hg
          exact .inr ⟨a.1, a.2, b.2, rfl, by rw [h1], h2⟩

theorem Alike.model {P Q : Proc} (h : Alike P Q) (m : ℕ) : P.model m = Q.model m := by
  unfold Proc.model
  obtain ⟨h1, h2⟩ | ⟨r, a, b, h1, h2, h3⟩ := h.cases m
  · split
    · rename_i e; exact absurd e (h1 _)
    · split
      · rename_i e; exact absurd e (h2 _)
      · rfl
  · simp only [h1, h2, h.settings, h.counter, h3]

/-- Two executions fail the same way, or both return, giving the same results. -/
inductive Agree {α : Type} : Outcome (Proc × α) → Outcome (Proc × α) → Prop
  | ok {P Q : Proc} {x : α} (h : Alike P Q) : Agree (.ok (P, x)) (.ok (Q, x))
  | diverges : Agree .diverges .diverges
  | throws : Agree .throws .throws
  | ub : Agree .ub .ub
  | nonfinite : Agree .nonfinite .nonfinite

theorem Agree.bind {α β : Type} {o o' : Outcome (Proc × α)} (h : Agree o o') {f g : Proc × α → Outcome (Proc × β)}
    (hfg : ∀ P Q x, Alike P Q → Agree (f (P, x)) (g (Q, x))) : Agree (o.bind f) (o'.bind g) := by
  cases h with
  | ok h => exact hfg _ _ _ h
  | diverges => exact .diverges
  | throws => exact .throws
  | ub => exact .ub
  | nonfinite => exact .nonfinite

theorem alike_call {P Q : Proc} (h : Alike P Q) (m : ℕ) (op : Op) : Agree (P.call m op) (Q.call m op) := by
  unfold Proc.call
  obtain ⟨h1, h2⟩ | ⟨r, a, b, h1, h2, h3⟩ := h.cases m
  · split
    · rename_i e; exact absurd e (h1 _)
    · split
      · rename_i e; exact absurd e (h2 _)
      · exact .ub
  · simp only [h1, h2, h.settings, h.counter, h3]
    cases ({ b with settings := Q.settings r, lastId := Q.counter } : State).exec op with
    | ok y => exact .ok ⟨rfl, rfl, h.vars, by simp only [List.map_set, h.models]⟩
    | diverges => exact .diverges
    | throws => exact .throws
    | ub => exact .ub
    | nonfinite => exact .nonfinite

theorem alike_vars {P Q : Proc} (h : Alike P Q) (f : ℕ → Option (ℕ × ℕ)) : Alike { P with vars := f } { Q with vars := f } :=
  ⟨h.settings, h.counter, rfl, h.models⟩

theorem alike_put {P Q : Proc} (h : Alike P Q) (v : ℕ) (a : Option (ℕ × ℕ)) : Agree (P.put v a) (Q.put v a) := by
  unfold Proc.put
  rw [h.vars]
  have h' := alike_vars h (Function.update Q.vars v a)
  cases hv : Q.vars v with
  | none => exact .ok h'
  | some mh => exact (alike_call h' _ _).bind fun _ _ _ h => .ok h

theorem alike_store {P Q : Proc} (h : Alike P Q) (v m : ℕ) (x : Res) : Agree (P.store v m x) (Q.store v m x) := by
  unfold Proc.store
  split
  · exact alike_put h _ _
  · exact .ok h

theorem alike_exec {P Q : Proc} (h : Alike P Q) (st : Stmt) : Agree (P.exec st) (Q.exec st) := by
  cases st with
  | make p w hh r =>
    simp only [Proc.exec]
    rw [h.settings, h.counter]
    exact .ok ⟨rfl, rfl, h.vars, by simp only [List.map_append, h.models]⟩
  | destroy m =>
    simp only [Proc.exec]
    obtain ⟨h1, h2⟩ | ⟨r, a, b, h1, h2, h3⟩ := h.cases m
    · split
      · rename_i e; exact absurd e (h1 _)
      · exact .ub
    · simp only [h1, h2]
      exact .ok ⟨h.settings, h.counter, h.vars, by simp only [List.map_set, h.models]⟩
  | write r x =>
    simp only [Proc.exec]
    rw [h.settings]
    exact .ok ⟨rfl, h.counter, h.vars, h.models⟩
  | grab v m p => exact (alike_call h _ _).bind fun _ _ _ h => alike_store h _ _ _
  | insert v m p => exact (alike_call h _ _).bind fun _ _ _ h => alike_store h _ _ _
  | drag v d =>
    simp only [Proc.exec]
    rw [h.vars]
    cases Q.vars v with
    | none => exact .ub
    | some mh => exact alike_call h _ _
  | assign v u =>
    simp only [Proc.exec]
    rw [h.vars]
    split_ifs
    · exact .ok h
    · exact alike_put (alike_vars h _) _ _
  | clear v => exact alike_put h _ _
  | step m t => exact alike_call h _ _
  | moveBy m d => exact alike_call h _ _
  | moveTo m p => exact alike_call h _ _
  | resize m w h' => exact alike_call h _ _

theorem alike_run (sts : List Stmt) : ∀ {P Q : Proc}, Alike P Q → Agree (P.run sts) (Q.run sts) := by
  induction sts with
  | nil => exact fun h => .ok h
  | cons st sts ih => exact fun h => (alike_exec h st).bind fun _ _ _ h => (ih h).bind fun _ _ _ h => .ok h

end Verif.Process
