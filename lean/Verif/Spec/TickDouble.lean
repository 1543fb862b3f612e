import Verif.Spec.Motion
import Verif.Model.WobblyDouble

/-!
# The law of motion of the wobbly mesh up to rounding

What one tick of 16 milliseconds should do when the arithmetic is that of `double`.
-/

namespace Verif.Spec

noncomputable section

open Wobbly Classical

/-- The rounding treats a number and its opposite alike, as round-to-nearest with ties to even does. -/
def Symmetric (R : Rounding64) : Prop := ∀ x, R.rnd (-x) = -R.rnd x

/-- A spring that is `dev` off in one direction is measured to be `e` off: not at all if less than a pixel, else by
`dev`, both up to `2 ^ -34`. -/
def Measured (dev e : ℝ) : Prop := (e = 0 ∧ |dev| < 1 + 1 / 2 ^ 34) ∨ (1 ≤ |e| ∧ |e - dev| ≤ 1 / 2 ^ 34)

/-- The force all springs exert on mesh point `i`, in coordinate `c`, when spring `y` is taken to be `E y` off: half the spring
constant times that, on both ends, in opposite directions. -/
def measuredForce (c : Pt → ℝ) (s : State) (E : Spring → Pt) (i : Idx) : ℝ :=
  (s.springs.map fun y =>
    (if y.a = .mesh i then s.settings.springConstant / 2 * c (E y) else 0) -
    (if y.b = .mesh i then s.settings.springConstant / 2 * c (E y) else 0)).sum

/-- Newton's law for a point of mass 15 over one unit of time, with friction proportional to the velocity and without cutting
small velocities. -/
def freeVelocity (friction v force : ℝ) : ℝ := v + (force - friction * v) / 15

/-- `v'` is that velocity, or none if it is below 0.1, up to `2 ^ -22`. -/
def NearVelocity (friction v force v' : ℝ) : Prop :=
  (v' = 0 ∧ |freeVelocity friction v force| < 1 / 10 + 1 / 2 ^ 22) ∨
  (1 / 10 - 1 / 2 ^ 22 ≤ |v'| ∧ |v' - freeVelocity friction v force| ≤ 1 / 2 ^ 22)

/-- One tick of the mesh that is at `m`, up to rounding, with the springs measured to be `E` off. -/
structure NearlyTicks (s : State) (m : Mesh) (E : Spring → Pt) (pos' vel' : Mesh) : Prop where
  measured : ∀ y ∈ s.springs, Measured (deviation (endAt s m) y).x (E y).x ∧ Measured (deviation (endAt s m) y).y (E y).y
  pinned : ∀ i, 0 < heldBy s i → pos' i = m i ∧ vel' i = ⟨0, 0⟩
  velX : ∀ i, heldBy s i = 0 → NearVelocity s.settings.friction (s.vel i).x (measuredForce Pt.x s E i) (vel' i).x
  velY : ∀ i, heldBy s i = 0 → NearVelocity s.settings.friction (s.vel i).y (measuredForce Pt.y s E i) (vel' i).y
  posX : ∀ i, heldBy s i = 0 → |(pos' i).x - ((m i).x + (vel' i).x / 2)| ≤ 1 / 2 ^ 30
  posY : ∀ i, heldBy s i = 0 → |(pos' i).y - ((m i).y + (vel' i).y / 2)| ≤ 1 / 2 ^ 30

/-- Settings, sizes and speeds of ordinary programs: coordinates, lengths and velocities up to 32768, at most 64 springs (there
are 24 without inserted anchors, and each of these adds one), a spring constant up to 16 and friction up to 15. -/
structure Ordinarily (s : State) : Prop where
  constant : 0 ≤ s.settings.springConstant ∧ s.settings.springConstant ≤ 16
  friction : 0 ≤ s.settings.friction ∧ s.settings.friction ≤ 15
  springs : s.springs.length ≤ 64
  lengths : ∀ y ∈ s.springs, |y.desired.x| ≤ 32768 ∧ |y.desired.y| ≤ 32768
  ends : ∀ y ∈ s.springs, ∀ n, n = y.a ∨ n = y.b → |(endAt s s.pos n).x| ≤ 32768 ∧ |(endAt s s.pos n).y| ≤ 32768
  pos : ∀ i, |(s.pos i).x| ≤ 32768 ∧ |(s.pos i).y| ≤ 32768
  targets : ∀ i, |(s.targets i).x| ≤ 32768 ∧ |(s.targets i).y| ≤ 32768
  vel : ∀ i, |(s.vel i).x| ≤ 32768 ∧ |(s.vel i).y| ≤ 32768

/-- `q` is, up to `2 ^ -30` in each coordinate, the point at distance `d` from `t` on the line from `t` to `p`. -/
def NearlyOnCircle (d : ℝ) (t p q : Pt) : Prop :=
  |q.x - (t.x + d / euclid t p * (p.x - t.x))| ≤ 1 / 2 ^ 30 ∧ |q.y - (t.y + d / euclid t p * (p.y - t.y))| ≤ 1 / 2 ^ 30

/-- `q` is `p` brought to within distance `d` of `t` on the straight line, up to rounding; `out` tells whether it was farther. -/
def NearlyBrought (d : ℝ) (t p q : Pt) (out : Prop) : Prop :=
  (¬ out ∧ q = p ∧ euclid t p ≤ d + 1 / 2 ^ 30) ∨
  (out ∧ d ≤ euclid t p + 1 / 2 ^ 30 ∧ NearlyOnCircle d t p q)

end

end Verif.Spec
