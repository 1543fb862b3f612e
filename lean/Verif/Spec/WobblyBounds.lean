import Verif.Spec.Wobbly
import Verif.Model.WobblyRounded

/-! # Sizes of the numbers in a model -/

namespace Verif.Spec

open Wobbly

/-- Neither coordinate is beyond `M`. -/
def Within (M : ℝ) (p : Pt) : Prop := |p.x| ≤ M ∧ |p.y| ≤ M

/-- Positions, velocities and the lengths of springs are within `M`. -/
def AllWithin (M : ℝ) (s : State) : Prop :=
  (∀ i, Within M (s.pos i)) ∧ (∀ i, Within M (s.vel i)) ∧ ∀ z ∈ s.springs, Within M z.desired

/-- Grabbed points and inserted anchors are within `M`. -/
def AnchorsWithin (M : ℝ) (s : State) : Prop :=
  (∀ i, heldBy s i > 0 → Within M (s.pos i)) ∧ ∀ a ∈ s.live, ∀ p st f g, a.kind = .ins p st f g → Within M p

/-- The anchors are within `M` now and after each of these calls. -/
def KeepsAnchorsWithin (r : ℝ → ℝ) (M : ℝ) (s : State) (ops : List Op) : Prop :=
  ∀ l, l <+: ops → ∀ s' rs, Rounded.run r s l = .ok (s', rs) → AnchorsWithin M s'

/-- Positions and velocities are within `V`, the lengths of springs within `M`. -/
def SwingsWithin (V M : ℝ) (s : State) : Prop :=
  (∀ i, Within V (s.pos i)) ∧ (∀ i, Within V (s.vel i)) ∧ ∀ z ∈ s.springs, Within M z.desired

/-- The places where the mesh points are to come to rest are within `M`. -/
def RestWithin (M : ℝ) (s : State) : Prop := ∀ i, Within M (s.targets i)

/-- The anchors and the resting places are within `M` now and after each of these calls. -/
def KeepsHoldWithin (r : ℝ → ℝ) (M : ℝ) (s : State) (ops : List Op) : Prop :=
  ∀ l, l <+: ops → ∀ s' rs, Rounded.run r s l = .ok (s', rs) → AnchorsWithin M s' ∧ RestWithin M s'

end Verif.Spec
