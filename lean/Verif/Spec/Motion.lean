import Verif.Spec.Wobbly

/-!
# The law of motion of the wobbly mesh

What one tick of 16 milliseconds should do, written down without the loops of the code.
-/

namespace Verif.Spec

noncomputable section

open Wobbly Classical

/-- Where a spring end is: a point of the mesh `m`, or the stored position of an inserted anchor. -/
def endAt (s : State) (m : Mesh) : Node → Pt
  | .mesh i => m i
  | .anchor h => (anchorData s.live h).getD ⟨0, 0⟩

/-- Every spring end on an inserted anchor is on one the program still owns. -/
def EndsOwned (s : State) : Prop :=
  ∀ x ∈ s.springs, ∀ h, x.a = .anchor h ∨ x.b = .anchor h → ∃ p, anchorData s.live h = some p

/-- The force one spring exerts on mesh point `i`, in coordinate `c`. -/
def forceOf (c : Pt → ℝ) (s : State) (m : Mesh) (i : Idx) (x : Spring) : ℝ :=
  (if x.a = .mesh i then pull s.settings.springConstant (c (deviation (endAt s m) x)) else 0) -
  (if x.b = .mesh i then pull s.settings.springConstant (c (deviation (endAt s m) x)) else 0)

/-- The force all springs exert on mesh point `i`, in coordinate `c`. -/
def netForce (c : Pt → ℝ) (s : State) (m : Mesh) (i : Idx) : ℝ := (s.springs.map (forceOf c s m i)).sum

/-- Newton's law for a point of mass 15 over one unit of time, with friction proportional to the velocity;
velocities below 0.1 count as none. -/
def newVelocity (friction v force : ℝ) : ℝ :=
  if |v + (force - friction * v) / 15| < 1 / 10 then 0 else v + (force - friction * v) / 15

/-- One tick of the mesh that is at `m`: pinned points stay, the others move by half their new velocity. -/
structure Ticks (s : State) (m pos' vel' : Mesh) : Prop where
  pinned : ∀ i, 0 < heldBy s i → pos' i = m i ∧ vel' i = ⟨0, 0⟩
  velX : ∀ i, heldBy s i = 0 → (vel' i).x = newVelocity s.settings.friction (s.vel i).x (netForce Pt.x s m i)
  velY : ∀ i, heldBy s i = 0 → (vel' i).y = newVelocity s.settings.friction (s.vel i).y (netForce Pt.y s m i)
  posX : ∀ i, heldBy s i = 0 → (pos' i).x = (m i).x + (vel' i).x / 2
  posY : ∀ i, heldBy s i = 0 → (pos' i).y = (m i).y + (vel' i).y / 2

/-- `q` is `p` brought to within distance `R` of `t` on the straight line. -/
def BroughtWithin (R : ℝ) (t p q : Pt) : Prop :=
  (euclid t p < R → q = p) ∧ (R ≤ euclid t p → OnSegment t p q ∧ euclid t q = R)

end

end Verif.Spec
