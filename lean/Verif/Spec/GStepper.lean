import Verif.Model.GStepper
import Verif.Spec.Animation

/-!
# Specification vocabulary for GObject steppers

Talks about the calls a program makes, and about which objects exist.
-/

namespace Verif.Spec

open GStep

noncomputable section

/-- The times passed to `animation_stepper_step` on stepper `r`, in order. -/
def stepTimes {P S : Type} (r : SRef) : List (GStep.Op P S) → List ℕ
  | [] => []
  | .step r' ms :: ops => if r' = r then ms :: stepTimes r ops else stepTimes r ops
  | _ :: ops => stepTimes r ops

/-- The object has no reference left, so it has been freed. -/
def Freed (h : GStep.Holder) : Prop := h.client = 0 ∧ h.inner = 0

/-- The program holds no reference on any stepper made by a constructor. -/
def LetGo {P O : Type} (w : World P O) : Prop :=
  ∀ (i : ℕ) (h : GStep.Holder), w.holders[i]? = some h → h.client = 0

/-- A call that acts on animation `j` itself. -/
def ActsOn {P S : Type} (j : ℕ) : GStep.Op P S → Prop
  | .stepAnim j' _ => j' = j
  | .setAnim j' _ => j' = j
  | .setStepper j' _ => j' = j
  | .getStepper j' => j' = j
  | _ => False

/-- The times passed to the step function of animation `j`, in order. -/
def animTimes {P S : Type} (j : ℕ) : List (GStep.Op P S) → List ℕ
  | [] => []
  | .stepAnim j' ms :: ops => if j' = j then ms :: animTimes j ops else animTimes j ops
  | _ :: ops => animTimes j ops

/-- A call that gives animation `j` another stepper, asks for its stepper or lets go of the animation. -/
def MeddlesWith {P S : Type} (j : ℕ) : GStep.Op P S → Prop
  | .setStepper j' _ => j' = j
  | .getStepper j' => j' = j
  | .unrefAnim j' => j' = j
  | _ => False

/-- No wrapper that looks at the stepper of animation `j` exists. -/
def Unobserved {P O : Type} (w : World P O) (j : ℕ) : Prop :=
  ∀ (k : ℕ) (v : GStep.Wrapper), w.wrappers[k]? = some v → v.anim ≠ j

/-- The program never drops a reference on a stepper that it got from an animation, and never drops an
animation whose stepper it asked for. -/
structure Careful {P S : Type} (ops : List (GStep.Op P S)) : Prop where
  wrappers : ∀ k, GStep.Op.unref (.wrapper k) ∉ ops
  anims : ∀ j, GStep.Op.getStepper j ∈ ops → GStep.Op.unrefAnim j ∉ ops

end

end Verif.Spec
