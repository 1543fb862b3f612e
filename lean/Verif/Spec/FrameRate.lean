import Verif.Spec.Animation

/-!
# Words for histories that differ in their frames only
-/

namespace Verif.Spec

noncomputable section

/-- What the stepper answers depends on the total of the time deltas alone, not on how that total
was cut into calls. -/
def Timed (s : Stepper) : Prop :=
  ∀ (ms ms' : List ℕ) (m m' : ℕ), ms.sum + m = ms'.sum + m' →
    (advance s ms).value m = (advance s ms').value m'

/-- The time that passes in a history: the sum of the deltas of its `Step`s. -/
def elapsed {S : Type} : List (AnimOp S) → ℕ
  | [] => 0
  | .step ms :: ops => ms + elapsed ops
  | _ :: ops => elapsed ops

/-- No call in the history exchanges the stepper. -/
def KeepsStepper {S : Type} (ops : List (AnimOp S)) : Prop := ∀ s, AnimOp.setStepper s ∉ ops

end

end Verif.Spec
