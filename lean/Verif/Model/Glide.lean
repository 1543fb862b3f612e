import Verif.Model.Stepper
import Mathlib.Analysis.SpecialFunctions.Trigonometric.Basic

/-! # `animation/glide/glide.cpp` -/

namespace Verif.Glide

noncomputable section

/-- `DegreesToRadians` (glide.cpp 47-50). -/
def degreesToRadians (d : ℝ) : ℝ := (Real.pi / 180) * d

/-- `CreatePerspectiveDistortionMatrix` (glide.cpp 53-61). The four `vec4` arguments are the
*columns* of the matrix. `screenWidth = 0` (division by zero) is excluded by the callers below. -/
def perspective (screenWidth : ℕ) : Mat4 :=
  let v : ℝ := -1 / screenWidth
  !![1, 0, 0, 0; 0, 1, 0, 0; 0, 0, 0, v; 0, 0, 0, 1]

/-- Parameters (glide.cpp 126-132). -/
structure Params where
  initialDistance : ℝ
  xRotationAngleDegrees : ℝ
  yRotationAngleDegrees : ℝ
  xAxisLocationUnit : ℝ
  yAxisLocationUnit : ℝ
  screenWidth : ℕ
  target : Box

/-- `ComputeGlideTransform` (glide.cpp 69-108). -/
def transform (progress : ℝ) (p : Params) : Mat4 :=
  let axis := rotationAxisOffset p.target p.xAxisLocationUnit p.yAxisLocationUnit
  let centerMat := Mat4.translate (-1 * axis.x) (-1 * axis.y) 0
  let xRot := Mat4.rotateX (degreesToRadians p.xRotationAngleDegrees * (1 - progress))
  let yRot := Mat4.rotateY (degreesToRadians p.yRotationAngleDegrees * (1 - progress))
  let translation := Mat4.translate 0 0 (-1 * p.initialDistance * (1 - progress))
  let invCenter := Mat4.translate axis.x axis.y 0
  invCenter * translation * xRot * yRot * perspective p.screenWidth * centerMat

/-- Setters (glide.cpp 213-218); the target box and the screen width are fixed. -/
inductive Setter where
  | initialDistance (v : ℝ)
  | xRotationAngleDegrees (v : ℝ)
  | yRotationAngleDegrees (v : ℝ)
  | xAxisLocationUnit (v : ℝ)
  | yAxisLocationUnit (v : ℝ)

def applySetter (p : Params) : Setter → Params
  | .initialDistance v => { p with initialDistance := v }
  | .xRotationAngleDegrees v => { p with xRotationAngleDegrees := v }
  | .yRotationAngleDegrees v => { p with yRotationAngleDegrees := v }
  | .xAxisLocationUnit v => { p with xAxisLocationUnit := v }
  | .yAxisLocationUnit v => { p with yAxisLocationUnit := v }

/-- The stored transform; `none` stands for a matrix with non-finite entries (non-finite progress or
screen width zero). -/
def render (p : Params) (progress : XR) (_old : Option Mat4) : Option Mat4 :=
  match progress with
  | .fin r => if p.screenWidth = 0 then none else some (transform r p)
  | _ => none

/-- `GlideAnimation`. -/
def cls : AnimClass Params (Option Mat4) Setter := ⟨render, applySetter⟩

/-- Constructor (glide.cpp 140-168). -/
def new (p : Params) (s : Stepper) : Anim Params (Option Mat4) × Stepper :=
  cls.new p (some 1) s

end

end Verif.Glide
