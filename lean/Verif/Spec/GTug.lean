import Verif.Model.GWobblyRounded
import Verif.Spec.GWobbly
import Verif.Spec.WobblyBounds

/-!
# Dragging an `AnimationWobblyModel` without regard for what the screen can show

Which anchors a program still holds, and how far away they and the mesh are.
-/

namespace Verif.Spec

noncomputable section

open Wobbly GWobbly

/-- The program only steps the model and drags anchors. -/
def GTugs : GOp → Prop
  | .step _ | .anchorMoveBy _ _ => True
  | _ => False

open Classical in
/-- The anchors that were obtained and neither released nor dropped. -/
def heldAnchors (ops : List GOp) (rs : List GRes) : List ℕ :=
  (gAnchors rs).filter fun a => .anchorRelease a ∉ ops ∧ .anchorUnref a ∉ ops

/-- How many ticks the steps take: one for every 16 milliseconds begun. -/
def gTicks : List GOp → ℕ
  | [] => 0
  | .step t :: ops => (t + 15) / 16 + gTicks ops
  | _ :: ops => gTicks ops

/-- For how many milliseconds the model is stepped by these calls. -/
def gSteppedFor : List GOp → ℕ
  | [] => 0
  | .step t :: ops => t + gSteppedFor ops
  | _ :: ops => gSteppedFor ops

/-- The anchors, and with a single anchor also the places where the points are to come to rest, are within `M` now and after
each of these calls. -/
def GKeepsWithin (rd : ℝ → ℝ) (M : ℝ) (single : Prop) (g : GState) (ops : List GOp) : Prop :=
  ∀ l, l <+: ops → ∀ g' rs s, GWobbly.Rounded.run rd g l = .ok (g', rs) → g'.model = some s →
    AnchorsWithin M s ∧ (single → RestWithin M s)

end

end Verif.Spec
