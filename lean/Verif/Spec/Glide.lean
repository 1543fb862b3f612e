import Verif.Model.Glide
import Verif.Spec.Animation

/-! # Where a Glide puts a point of the surface -/

namespace Verif.Spec

noncomputable section

/-- A point in space. -/
@[ext] structure Spot3 where
  x : ℝ
  y : ℝ
  z : ℝ

/-- Turned about the vertical axis by the angle `a`. -/
def Spot3.turnVertical (p : Spot3) (a : ℝ) : Spot3 :=
  ⟨p.x * Real.cos a + p.z * Real.sin a, p.y, p.z * Real.cos a - p.x * Real.sin a⟩

/-- Turned about the horizontal axis by the angle `a`. -/
def Spot3.turnHorizontal (p : Spot3) (a : ℝ) : Spot3 :=
  ⟨p.x, p.y * Real.cos a - p.z * Real.sin a, p.y * Real.sin a + p.z * Real.cos a⟩

def Spot3.shift (p : Spot3) (x y z : ℝ) : Spot3 := ⟨p.x + x, p.y + y, p.z + z⟩

def radians (degrees : ℝ) : ℝ := degrees * Real.pi / 180

/-- The point `q` of the surface at progress `r`: it lies at depth -1 / screen width, is turned about the vertical and then
about the horizontal axis through the axis location, each by the fraction of its angle that is left, and is moved back by
the fraction of the distance that is left. -/
def glided (g : Glide.Params) (r : ℝ) (q : Pt) : Spot3 :=
  let ax := (g.target.br.x - g.target.tl.x) * g.xAxisLocationUnit
  let ay := (g.target.br.y - g.target.tl.y) * g.yAxisLocationUnit
  ((((⟨q.x, q.y, -1 / g.screenWidth⟩ : Spot3).shift (-ax) (-ay) 0).turnVertical
    (radians g.yRotationAngleDegrees * (1 - r))).turnHorizontal (radians g.xRotationAngleDegrees * (1 - r))).shift ax ay
    (-g.initialDistance * (1 - r))

end

end Verif.Spec
