import Verif.Lemmas.ProcessAlike
import Verif.Lemmas.ProcessRounded

/-! # Programs that differ only in what nothing reads, with rounding -/

namespace Verif.Process.Rounded

open Wobbly

variable {rd : ℝ → ℝ}

theorem alike_call {P Q : Proc} (h : Alike P Q) (m : ℕ) (op : Op) : Agree (Process.Rounded.call rd P m op) (Process.Rounded.call rd Q m op) := by
  unfold Process.Rounded.call
  obtain ⟨h1, h2⟩ | ⟨r, a, b, h1, h2, h3⟩ := h.cases m
  · split
    · rename_i e; exact absurd e (h1 _)
    · split
      · rename_i e; exact absurd e (h2 _)
      · exact .ub
  · simp only [h1, h2, h.settings, h.counter, h3]
    cases Wobbly.Rounded.exec rd { b with settings := Q.settings r, lastId := Q.counter } op with
    | ok y => exact .ok ⟨rfl, rfl, h.vars, by simp only [List.map_set, h.models]⟩
    | diverges => exact .diverges
    | throws => exact .throws
    | ub => exact .ub
    | nonfinite => exact .nonfinite

theorem alike_put {P Q : Proc} (h : Alike P Q) (v : ℕ) (a : Option (ℕ × ℕ)) : Agree (Process.Rounded.put rd P v a) (Process.Rounded.put rd Q v a) := by
  unfold Process.Rounded.put
  rw [h.vars]
  have h' := alike_vars h (Function.update Q.vars v a)
  cases hv : Q.vars v with
  | none => exact .ok h'
  | some mh => exact (alike_call h' _ _).bind fun _ _ _ h => .ok h

theorem alike_store {P Q : Proc} (h : Alike P Q) (v m : ℕ) (x : Res) : Agree (Process.Rounded.store rd P v m x) (Process.Rounded.store rd Q v m x) := by
  unfold Process.Rounded.store
  split
  · exact alike_put h _ _
  · exact .ok h

theorem alike_exec {P Q : Proc} (h : Alike P Q) (st : Stmt) : Agree (Process.Rounded.exec rd P st) (Process.Rounded.exec rd Q st) := by
  cases st with
  | make p w hh r =>
    simp only [Process.Rounded.exec]
    rw [h.settings, h.counter]
    exact .ok ⟨rfl, rfl, h.vars, by simp only [List.map_append, h.models]⟩
  | destroy m =>
    simp only [Process.Rounded.exec]
    obtain ⟨h1, h2⟩ | ⟨r, a, b, h1, h2, h3⟩ := h.cases m
    · split
      · rename_i e; exact absurd e (h1 _)
      · exact .ub
    · simp only [h1, h2]
      exact .ok ⟨h.settings, h.counter, h.vars, by simp only [List.map_set, h.models]⟩
  | write r x =>
    simp only [Process.Rounded.exec]
    rw [h.settings]
    exact .ok ⟨rfl, h.counter, h.vars, h.models⟩
  | grab v m p => exact (alike_call h _ _).bind fun _ _ _ h => alike_store h _ _ _
  | insert v m p => exact (alike_call h _ _).bind fun _ _ _ h => alike_store h _ _ _
  | drag v d =>
    simp only [Process.Rounded.exec]
    rw [h.vars]
    cases Q.vars v with
    | none => exact .ub
    | some mh => exact alike_call h _ _
  | assign v u =>
    simp only [Process.Rounded.exec]
    rw [h.vars]
    split_ifs
    · exact .ok h
    · exact alike_put (alike_vars h _) _ _
  | clear v => exact alike_put h _ _
  | step m t => exact alike_call h _ _
  | moveBy m d => exact alike_call h _ _
  | moveTo m p => exact alike_call h _ _
  | resize m w h' => exact alike_call h _ _

theorem alike_run (sts : List Stmt) : ∀ {P Q : Proc}, Alike P Q → Agree (Process.Rounded.run rd P sts) (Process.Rounded.run rd Q sts) := by
  induction sts with
  | nil => exact fun h => .ok h
  | cons st sts ih => exact fun h => (alike_exec h st).bind fun _ _ _ h => (ih h).bind fun _ _ _ h => .ok h

end Verif.Process.Rounded
