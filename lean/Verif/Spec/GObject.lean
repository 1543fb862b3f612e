import Verif.Model.GObject

/-!
# Specification vocabulary for the GObject animations

Tables written from the documentation of the properties: name, type, range.
-/

namespace Verif.Spec

noncomputable section

open GObj

/-- The box used in place of `NULL`. -/
def boxOr (b : Option Box) : Box := b.getD ⟨⟨0, 0⟩, ⟨1, 1⟩⟩

/-- The stepper used in place of `NULL`: 300 milliseconds, linear. -/
def stepperOr (s : Option Stepper) : Stepper := s.getD (linear 300)

open Classical in
/-- The call is made if the number is in the range. -/
def within {S : Type} (lo hi : ℝ) (r : ℝ) (op : AnimOp S) : Option (AnimOp S) :=
  if lo ≤ r ∧ r ≤ hi then some op else none

/-- What setting a property of a bounce animation amounts to, if anything. -/
def bounceProperty : String → GVal → Option (AnimOp Bounce.Setter)
  | "initial-scale", .float r => within (1 / 10) 1 r (.set (.initialScale r))
  | "maximum-scale", .float r => within 1 3 r (.set (.maximumScale r))
  | "n-bounce", .uint n => within 1 10 n (.set (.nBounce n))
  | "stepper", .stepper (some s) => some (.setStepper s)
  | _, _ => none

/-- What setting a property of a zoom animation amounts to, if anything. -/
def zoomProperty : String → GVal → Option (AnimOp Zoom.Setter)
  | "from", .box (some b) => some (.set (.frm b))
  | "stepper", .stepper (some s) => some (.setStepper s)
  | _, _ => none

/-- What setting a property of a glide animation amounts to, if anything. -/
def glideProperty : String → GVal → Option (AnimOp Glide.Setter)
  | "initial-distance", .float r => within (-1) 1 r (.set (.initialDistance r))
  | "x-rotation-angle-degrees", .float r => within (-360) 360 r (.set (.xRotationAngleDegrees r))
  | "y-rotation-angle-degrees", .float r => within (-360) 360 r (.set (.yRotationAngleDegrees r))
  | "x-axis-location-unit", .float r => within 0 1 r (.set (.xAxisLocationUnit r))
  | "y-axis-location-unit", .float r => within 0 1 r (.set (.yAxisLocationUnit r))
  | "stepper", .stepper (some s) => some (.setStepper s)
  | _, _ => none

/-- What setting a property of a magic lamp animation amounts to, if anything. -/
def lampProperty : String → GVal → Option (AnimOp MagicLamp.Setter)
  | "source", .box (some b) => some (.set (.source b))
  | "bend-factor", .float r => within 1 20 r (.set (.bend r))
  | "offset-factor", .float r => within (1 / 10) 1 r (.set (.offset r))
  | "deform-speed-factor", .float r => within 1 4 r (.set (.deformSpeed r))
  | "stepper", .stepper (some s) => some (.setStepper s)
  | _, _ => none

/-- The native call that a setter function of the magic lamp makes. -/
def lampCall : LampFn → MagicLamp.Setter
  | .source b => .source b
  | .bend v => .bend v
  | .offset v => .offset v
  | .stretch v => .stretch v
  | .deformSpeed v => .deformSpeed v

/-- The native calls that the GObject calls amount to. -/
def animCalls {S F : Type} (prop : String → GVal → Option (AnimOp S)) (fn : F → S) :
    List (GOp F) → List (AnimOp S)
  | [] => []
  | .step ms :: ops => .step ms :: animCalls prop fn ops
  | .setProperty n v :: ops => (prop n v).toList ++ animCalls prop fn ops
  | .call f :: ops => .set (fn f) :: animCalls prop fn ops
  | .callSetStepper (some s) :: ops => .setStepper s :: animCalls prop fn ops
  | .callSetStepper none :: ops => animCalls prop fn ops

/-- The call hands in `NULL` for a stepper. -/
def HandsNull {F : Type} : GOp F → Prop
  | .setProperty n v => n = "stepper" ∧ v = .stepper none
  | .callSetStepper s => s = none
  | _ => False

/-- The call is not one of the unchecked setter functions. -/
def NotFunction {F : Type} : GOp F → Prop
  | .call _ => False
  | _ => True

/-- The value fits the documented range of the bounce property. -/
def BounceFits : String → GVal → Prop
  | "initial-scale", .float r => 1 / 10 ≤ r ∧ r ≤ 1
  | "maximum-scale", .float r => 1 ≤ r ∧ r ≤ 3
  | "n-bounce", .uint n => 1 ≤ n ∧ n ≤ 10
  | "target", .box _ => True
  | "stepper", .stepper _ => True
  | _, _ => False

/-- All numbers are in their documented ranges. -/
structure BounceDeclared (p : Bounce.Params) : Prop where
  initialScale : 1 / 10 ≤ p.initialScale ∧ p.initialScale ≤ 1
  maximumScale : 1 ≤ p.maximumScale ∧ p.maximumScale ≤ 3
  nBounce : 1 ≤ p.nBounce ∧ p.nBounce ≤ 10

/-- The value fits the documented range of the glide property. -/
def GlideFits : String → GVal → Prop
  | "initial-distance", .float r => -1 ≤ r ∧ r ≤ 1
  | "x-rotation-angle-degrees", .float r => -360 ≤ r ∧ r ≤ 360
  | "y-rotation-angle-degrees", .float r => -360 ≤ r ∧ r ≤ 360
  | "x-axis-location-unit", .float r => 0 ≤ r ∧ r ≤ 1
  | "y-axis-location-unit", .float r => 0 ≤ r ∧ r ≤ 1
  | "screen-width", .uint n => 1 ≤ n
  | "target", .box _ => True
  | "stepper", .stepper _ => True
  | _, _ => False

/-- All numbers are in their documented ranges. -/
structure GlideDeclared (p : Glide.Params) : Prop where
  initialDistance : -1 ≤ p.initialDistance ∧ p.initialDistance ≤ 1
  xAngle : -360 ≤ p.xRotationAngleDegrees ∧ p.xRotationAngleDegrees ≤ 360
  yAngle : -360 ≤ p.yRotationAngleDegrees ∧ p.yRotationAngleDegrees ≤ 360
  xAxis : 0 ≤ p.xAxisLocationUnit ∧ p.xAxisLocationUnit ≤ 1
  yAxis : 0 ≤ p.yAxisLocationUnit ∧ p.yAxisLocationUnit ≤ 1
  screenWidth : 1 ≤ p.screenWidth

/-- The value fits the documented range of the magic lamp property. -/
def LampFits : String → GVal → Prop
  | "source", .box _ => True
  | "target", .box _ => True
  | "resolution", .vector _ => True
  | "bend-factor", .float r => 1 ≤ r ∧ r ≤ 20
  | "offset-factor", .float r => 1 / 10 ≤ r ∧ r ≤ 1
  | "stretch-factor", .float r => 1 / 5 ≤ r ∧ r ≤ 1
  | "deform-speed-factor", .float r => 1 ≤ r ∧ r ≤ 4
  | "stepper", .stepper _ => True
  | _, _ => False

/-- All numbers are in their documented ranges. -/
structure LampDeclared (p : MagicLamp.Params) : Prop where
  bend : 1 ≤ p.bend ∧ p.bend ≤ 20
  offset : 1 / 10 ≤ p.offset ∧ p.offset ≤ 1
  stretch : 1 / 5 ≤ p.stretch ∧ p.stretch ≤ 1
  deformSpeed : 1 ≤ p.deformSpeed ∧ p.deformSpeed ≤ 4

end

end Verif.Spec
