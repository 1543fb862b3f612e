import Verif.Spec.Slow

/-! # Specification of slowness for `double` arithmetic -/

namespace Verif.Spec

open Wobbly

noncomputable section

/-- A little more than `stillToGo`, to leave room for rounding errors. -/
def farthest (friction v : ℝ) : ℝ := (15 - friction + 1 / 64) / (2 * friction) * |v|

/-- As `KeepsWithinOne`, with a thousandth of a pixel to spare. -/
def KeepsWellWithinOne (friction d want v v' : ℝ) : Prop :=
  |d - want| + farthest friction v + farthest friction v' ≤ 1 - 1 / 1024

/-- The model is on a screen and its friction is in range. -/
structure Moderate (s : State) : Prop where
  frictionMin : 1 / 1000 ≤ s.settings.friction
  frictionMax : s.settings.friction ≤ 15
  width : |s.width| ≤ 32768
  height : |s.height| ≤ 32768
  x : ∀ i, |(s.pos i).x| ≤ 32768
  y : ∀ i, |(s.pos i).y| ≤ 32768

/-- The mesh is close to the regular lattice for the size of the model, and slow: neighbours differ by one tile to
within a pixel, now and after all movement that is left in them, with a thousandth of a pixel to spare. -/
structure WellSlow (s : State) : Prop extends Moderate s where
  right : ∀ i j, RightOf i j →
    KeepsWellWithinOne s.settings.friction ((s.pos j).x - (s.pos i).x) (s.width / 3) (s.vel i).x (s.vel j).x ∧
    KeepsWellWithinOne s.settings.friction ((s.pos j).y - (s.pos i).y) 0 (s.vel i).y (s.vel j).y
  below : ∀ i j, BelowOf i j →
    KeepsWellWithinOne s.settings.friction ((s.pos j).x - (s.pos i).x) 0 (s.vel i).x (s.vel j).x ∧
    KeepsWellWithinOne s.settings.friction ((s.pos j).y - (s.pos i).y) (s.height / 3) (s.vel i).y (s.vel j).y

/-- Every point of the mesh `m` is at most as far from where that point of the model is as it may still go. -/
def WithinFarthest (s : State) (m : Mesh) : Prop :=
  ∀ i, |(m i).x - (s.pos i).x| ≤ farthest s.settings.friction (s.vel i).x ∧
    |(m i).y - (s.pos i).y| ≤ farthest s.settings.friction (s.vel i).y

/-- A call that inserts no anchor; a resize asks for sides between 1 and 32768. -/
def Ordinary : Op → Prop
  | .insert _ => False
  | .resize w h => 1 ≤ w ∧ w ≤ 32768 ∧ 1 ≤ h ∧ h ≤ 32768
  | _ => True

/-- How many of the calls are `ResizeModel`. -/
def resizes (ops : List Op) : ℕ := (ops.filter fun op => match op with | .resize _ _ => true | _ => false).length

end

end Verif.Spec
