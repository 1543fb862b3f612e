import Verif.Spec.GObject
import Verif.Spec.OnTime

/-! # Words for histories of a GObject animation -/

namespace Verif.Spec

noncomputable section

open GObj

/-- The milliseconds that have passed. -/
def gElapsed {F : Type} : List (GOp F) → ℕ
  | [] => 0
  | .step ms :: ops => ms + gElapsed ops
  | _ :: ops => gElapsed ops

/-- How often the animation was stepped. -/
def gFrames {F : Type} : List (GOp F) → ℕ
  | [] => 0
  | .step _ :: ops => gFrames ops + 1
  | _ :: ops => gFrames ops

/-- The call has nothing to do with the stepper. -/
def LeavesStepper {F : Type} : GOp F → Prop
  | .setProperty n _ => n ≠ "stepper"
  | .callSetStepper _ => False
  | _ => True

/-- The source box after a history that starts with `f`: the one set last, by the function or the property. Setting the
property to `NULL` leaves it alone, as does setting any other property. -/
def gSource (f : Box) : List (GOp Zoom.Setter) → Box
  | [] => f
  | .call (.frm b) :: ops => gSource b ops
  | .setProperty "from" (.box (some b)) :: ops => gSource b ops
  | _ :: ops => gSource f ops

open Classical in
/-- The numbers of a bounce after a history that starts with `p`. A function sets its number to whatever it is given; a
property only to a number in its range. -/
def gNumbers (p : Bounce.Params) : List (GOp Bounce.Setter) → Bounce.Params
  | [] => p
  | .call (.initialScale r) :: ops => gNumbers { p with initialScale := r } ops
  | .call (.maximumScale r) :: ops => gNumbers { p with maximumScale := r } ops
  | .call (.nBounce n) :: ops => gNumbers { p with nBounce := n } ops
  | .setProperty "initial-scale" (.float r) :: ops =>
    gNumbers { p with initialScale := if 1 / 10 ≤ r ∧ r ≤ 1 then r else p.initialScale } ops
  | .setProperty "maximum-scale" (.float r) :: ops =>
    gNumbers { p with maximumScale := if 1 ≤ r ∧ r ≤ 3 then r else p.maximumScale } ops
  | .setProperty "n-bounce" (.uint n) :: ops =>
    gNumbers { p with nBounce := if 1 ≤ n ∧ n ≤ 10 then n else p.nBounce } ops
  | _ :: ops => gNumbers p ops

open Classical in
/-- The same for the numbers of a glide. -/
def gGlide (p : Glide.Params) : List (GOp Glide.Setter) → Glide.Params
  | [] => p
  | .call (.initialDistance r) :: ops => gGlide { p with initialDistance := r } ops
  | .call (.xRotationAngleDegrees r) :: ops => gGlide { p with xRotationAngleDegrees := r } ops
  | .call (.yRotationAngleDegrees r) :: ops => gGlide { p with yRotationAngleDegrees := r } ops
  | .call (.xAxisLocationUnit r) :: ops => gGlide { p with xAxisLocationUnit := r } ops
  | .call (.yAxisLocationUnit r) :: ops => gGlide { p with yAxisLocationUnit := r } ops
  | .setProperty "initial-distance" (.float r) :: ops =>
    gGlide { p with initialDistance := if -1 ≤ r ∧ r ≤ 1 then r else p.initialDistance } ops
  | .setProperty "x-rotation-angle-degrees" (.float r) :: ops =>
    gGlide { p with xRotationAngleDegrees := if -360 ≤ r ∧ r ≤ 360 then r else p.xRotationAngleDegrees } ops
  | .setProperty "y-rotation-angle-degrees" (.float r) :: ops =>
    gGlide { p with yRotationAngleDegrees := if -360 ≤ r ∧ r ≤ 360 then r else p.yRotationAngleDegrees } ops
  | .setProperty "x-axis-location-unit" (.float r) :: ops =>
    gGlide { p with xAxisLocationUnit := if 0 ≤ r ∧ r ≤ 1 then r else p.xAxisLocationUnit } ops
  | .setProperty "y-axis-location-unit" (.float r) :: ops =>
    gGlide { p with yAxisLocationUnit := if 0 ≤ r ∧ r ≤ 1 then r else p.yAxisLocationUnit } ops
  | _ :: ops => gGlide p ops

/-- The source box of a magic lamp after a history that starts with `f`: the one set last, by the function or the property. -/
def gLampSource (f : Box) : List (GOp LampFn) → Box
  | [] => f
  | .call (.source b) :: ops => gLampSource b ops
  | .setProperty "source" (.box (some b)) :: ops => gLampSource b ops
  | _ :: ops => gLampSource f ops

/-- The stretch factor of a magic lamp after a history that starts with `v`: the function sets it, and nothing else does. -/
def gLampStretch (v : ℝ) : List (GOp LampFn) → ℝ
  | [] => v
  | .call (.stretch w) :: ops => gLampStretch w ops
  | _ :: ops => gLampStretch v ops

/-- The length `L` has passed in a history of frames of at most 2^24 milliseconds, and the frame `m` that follows is not tiny. -/
def Over {F : Type} (L : ℝ) (ops : List (GOp F)) (m : ℕ) : Prop :=
  L ≤ gElapsed ops ∧ ((gFrames ops : ℝ) + 1) / 2 ^ 24 ≤ m / L ∧ ∀ ms, GOp.step ms ∈ ops ++ [.step m] → ms ≤ 2 ^ 24

/-- A setter function of the magic lamp is given a number in the range its property has (the stretch is not looked at). -/
def FactorInRange : GOp LampFn → Prop
  | .call (.bend v) => 1 ≤ v ∧ v ≤ 20
  | .call (.offset v) => 0.1 ≤ v ∧ v ≤ 1
  | .call (.deformSpeed v) => 1 ≤ v ∧ v ≤ 4
  | _ => True

/-- After the history and a frame of `m` milliseconds, in frames of at most 2^24 milliseconds, the time passed is clear of both ends
of the length `L`: the margin is 2^-24 of the length for every frame and one more. -/
def Midway {F : Type} (L : ℝ) (ops : List (GOp F)) (m : ℕ) : Prop :=
  ((gFrames ops : ℝ) + 2) / 2 ^ 24 < ((gElapsed ops + m : ℕ) : ℝ) / L ∧
  ((gElapsed ops + m : ℕ) : ℝ) / L < 1 - ((gFrames ops : ℝ) + 2) / 2 ^ 24 ∧ ∀ ms, GOp.step ms ∈ ops ++ [.step m] → ms ≤ 2 ^ 24

end

end Verif.Spec
