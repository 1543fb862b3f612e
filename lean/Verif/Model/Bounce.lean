import Verif.Model.Stepper
import Mathlib.Analysis.SpecialFunctions.Trigonometric.Basic

/-! # `animation/bounce/bounce.cpp` -/

namespace Verif.Bounce

noncomputable section

/-- `SampleSineWave` (bounce.cpp 48-52). -/
def sampleSineWave (progress : ℝ) (n : ℕ) : ℝ := Real.sin (progress * Real.pi * n)

/-- `ComputeScaleFactorFromProgressParameters` (bounce.cpp 68-81). -/
def scaleFactor (progress initialScale maximumScale : ℝ) (n : ℕ) : ℝ :=
  let sampledSine := sampleSineWave progress n
  let range := (maximumScale - initialScale) * (1 - progress)
  let scaleFloor := initialScale + (1 - initialScale) * progress
  scaleFloor + range * sampledSine

/-- `ComputeBounceTransform` (bounce.cpp 83-110). -/
def transform (progress initialScale maximumScale : ℝ) (n : ℕ) (target : Box) : Mat4 :=
  let c := boxCenterOffset target
  let s := scaleFactor progress initialScale maximumScale n
  Mat4.translate c.x c.y 0 * Mat4.scale s s 1 * Mat4.translate (-1 * c.x) (-1 * c.y) 0

/-- Parameters (bounce.cpp 125-128). -/
structure Params where
  initialScale : ℝ
  maximumScale : ℝ
  nBounce : ℕ
  target : Box

/-- Setters (bounce.cpp 197-201); `Target` is read only. -/
inductive Setter where
  | initialScale (v : ℝ)
  | maximumScale (v : ℝ)
  | nBounce (v : ℕ)

def applySetter (p : Params) : Setter → Params
  | .initialScale v => { p with initialScale := v }
  | .maximumScale v => { p with maximumScale := v }
  | .nBounce v => { p with nBounce := v }

/-- The stored transform; `none` stands for a matrix with non-finite entries, which is what a
non-finite progress (possible only at construction) leads to. -/
def render (p : Params) (progress : XR) (_old : Option Mat4) : Option Mat4 :=
  match progress with
  | .fin r => some (transform r p.initialScale p.maximumScale p.nBounce p.target)
  | _ => none

/-- `BounceAnimation`. -/
def cls : AnimClass Params (Option Mat4) Setter := ⟨render, applySetter⟩

/-- Constructor (bounce.cpp 136-155). -/
def new (p : Params) (s : Stepper) : Anim Params (Option Mat4) × Stepper :=
  cls.new p (some 1) s

end

end Verif.Bounce
