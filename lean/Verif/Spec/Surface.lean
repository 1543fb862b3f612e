import Verif.Spec.Wobbly

/-!
# Words for the surface that `DeformTexcoords` describes
-/

namespace Verif.Spec

open Wobbly

/-- Mesh point `j` is the neighbour of mesh point `i` in the same row, in the next column. -/
def NextInRow (i j : Idx) : Prop := j.val / 4 = i.val / 4 ∧ j.val % 4 = i.val % 4 + 1

/-- Mesh point `j` is the neighbour of mesh point `i` in the same column, in the next row. -/
def NextInColumn (i j : Idx) : Prop := j.val = i.val + 4

/-- Coordinates in the unit square. -/
def InSquare (uv : Pt) : Prop := (0 ≤ uv.x ∧ uv.x ≤ 1) ∧ 0 ≤ uv.y ∧ uv.y ≤ 1

/-- No two places of the texture are shown at the same place. -/
def Unfolded (surface : Pt → Pt) : Prop :=
  ∀ a b, InSquare a → InSquare b → surface a = surface b → a = b

/-- Neighbours in a row differ more in `x` than in `y`, with the next one to the right, and neighbours in a
column more in `y` than in `x`, with the next one further down; `slope` is the aspect ratio for which they do. -/
def InOrder (slope : ℝ) (m : Mesh) : Prop :=
  (∀ i j, NextInRow i j → |(m j).y - (m i).y| < slope * ((m j).x - (m i).x)) ∧
  ∀ i j, NextInColumn i j → slope * |(m j).x - (m i).x| < (m j).y - (m i).y

end Verif.Spec
