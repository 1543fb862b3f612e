import Verif.Spec.Wobbly

/-! # Specification of slowness: how far friction lets a mesh still travel -/

namespace Verif.Spec

open Wobbly

noncomputable section

/-- How far a coordinate with velocity `v` still travels at most when only friction acts. With the model's mass of 15 a
tick takes the velocity to `(15 − friction) / 15` of it and travels half of the result. -/
def stillToGo (friction v : ℝ) : ℝ := (15 - friction) / (2 * friction) * |v|

/-- `j` is the mesh point to the right of `i`. -/
def RightOf (i j : Idx) : Prop := j.val = i.val + 1 ∧ i.val % 4 ≠ 3

/-- `j` is the mesh point below `i`. -/
def BelowOf (i j : Idx) : Prop := j.val = i.val + 4

/-- The distance `d` between the same coordinate of two mesh points with velocities `v` and `v'` is within one pixel of
`want`, and stays so even if both points use up all they still have to go. -/
def KeepsWithinOne (friction d want v v' : ℝ) : Prop :=
  |d - want| + stillToGo friction v + stillToGo friction v' < 1

/-- The mesh is close to the regular lattice for the size of the model, and slow: neighbours differ by one tile to
within a pixel, now and after all movement that is left in them. -/
structure Slow (s : State) : Prop where
  right : ∀ i j, RightOf i j →
    KeepsWithinOne s.settings.friction ((s.pos j).x - (s.pos i).x) (s.width / 3) (s.vel i).x (s.vel j).x ∧
    KeepsWithinOne s.settings.friction ((s.pos j).y - (s.pos i).y) 0 (s.vel i).y (s.vel j).y
  below : ∀ i j, BelowOf i j →
    KeepsWithinOne s.settings.friction ((s.pos j).x - (s.pos i).x) 0 (s.vel i).x (s.vel j).x ∧
    KeepsWithinOne s.settings.friction ((s.pos j).y - (s.pos i).y) (s.height / 3) (s.vel i).y (s.vel j).y

/-- Every point of the mesh `m` is no further from where that point of the model is than it still has to go. -/
def WithinReach (s : State) (m : Mesh) : Prop :=
  ∀ i, |(m i).x - (s.pos i).x| ≤ stillToGo s.settings.friction (s.vel i).x ∧
    |(m i).y - (s.pos i).y| ≤ stillToGo s.settings.friction (s.vel i).y

/-- After `n` ticks friction alone takes every velocity below the 0.1 at which the model drops it. -/
def FadedAfter (n : ℕ) (s : State) : Prop :=
  ∀ i, (1 - s.settings.friction / 15) ^ n * |(s.vel i).x| < 1 / 10 ∧
    (1 - s.settings.friction / 15) ^ n * |(s.vel i).y| < 1 / 10

end

end Verif.Spec
