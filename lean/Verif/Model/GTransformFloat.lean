import Verif.Model.GObject
import Verif.Model.TransformFloat

/-!
# The GObjects of the matrix animations with rounding

The GObjects of `animation-glib/zoom/zoom.cpp`, `animation-glib/bounce/bounce.cpp` and `animation-glib/glide/glide.cpp` over the
animations of `Model/TransformFloat.lean`, in which every operation is rounded. The properties and what setting them does
are those of `GObj.zoom`, `GObj.bounce` and `GObj.glide` (`Model/GObject.lean`). Reading a property is left out here:
`GObj.zoomGet`, `GObj.bounceGet` and `GObj.glideGet` have it.
-/

namespace Verif.GObj.Float

noncomputable section

variable (R : Rounding) (M : Machine)

/-- `NULL` steppers become `animation_linear_stepper_new (300)` (zoom.cpp 201-208, bounce.cpp 219-226, glide.cpp
236-243), here with its `float` arithmetic. -/
def fixStepper (n : String) (v : GVal) : GVal :=
  if n = "stepper" then
    match v with
    | .stepper none => .stepper (some (linear32 R 300))
    | v => v
  else v

/-! ## Zoom (animation-glib/zoom/zoom.cpp) -/

/-- `set_property` (134-160). -/
def zoomSet (a : Anim Machine.ZoomParams Mat32) (n : String) (v : GVal) : Outcome (Anim Machine.ZoomParams Mat32) :=
  if n = "from" then
    match v with
    | .box (some b) => .ok (M.zoom.set a (.frm b))
    | _ => .ok a
  else if n = "stepper" then
    match v with
    | .stepper s => GClass.setStepper a s
    | _ => .ub
  else .ok a

/-- The class: properties (251-269), constructor (196-235). -/
def zoom : GClass Machine.ZoomParams Mat32 Zoom.Setter Zoom.Setter where
  native := M.zoom
  specs :=
    [ .box "from" true false,
      .box "to" true true,
      .stepper "stepper" true false ]
  fixup := fixStepper R
  construct := fun v => .ok (M.zoomNew (v "from").boxFrom (v "to").boxFrom (v "stepper").stepperFrom).1
  setProperty := zoomSet M
  getProperty := fun _ _ => none
  fn := id

/-- `animation_zoom_new` (284-295). -/
def zoomNew (_current frm dst : Option Box) (stepper : Option Stepper) : Outcome (Anim Machine.ZoomParams Mat32) :=
  (zoom R M).objectNew [ ("from", .box frm), ("to", .box dst), ("stepper", .stepper stepper) ]

/-! ## Bounce (animation-glib/bounce/bounce.cpp) -/

/-- `set_property` (147-177). -/
def bounceSet (a : Anim Bounce.Params Mat32) (n : String) (v : GVal) : Outcome (Anim Bounce.Params Mat32) :=
  if n = "initial-scale" then .ok (M.bounce.set a (.initialScale v.getFloat))
  else if n = "maximum-scale" then .ok (M.bounce.set a (.maximumScale v.getFloat))
  else if n = "n-bounce" then .ok (M.bounce.set a (.nBounce v.getUint))
  else if n = "stepper" then
    match v with
    | .stepper s => GClass.setStepper a s
    | _ => .ub
  else .ok a

/-- The class: properties (274-318), constructor (214-257). -/
def bounce : GClass Bounce.Params Mat32 Bounce.Setter Bounce.Setter where
  native := M.bounce
  specs :=
    [ .float "initial-scale" true false (1 / 10) 1 (7 / 10),
      .float "maximum-scale" true false 1 3 (12 / 10),
      .uint "n-bounce" true false 1 10 1,
      .box "target" true true,
      .stepper "stepper" true false ]
  fixup := fixStepper R
  construct := fun v => .ok (M.bounceNew
    ⟨(v "initial-scale").getFloat, (v "maximum-scale").getFloat, (v "n-bounce").getUint,
      (v "target").boxFrom⟩ (v "stepper").stepperFrom).1
  setProperty := bounceSet M
  getProperty := fun _ _ => none
  fn := id

/-- `animation_bounce_new` (335-349). -/
def bounceNew (initialScale maximumScale : ℝ) (nBounce : ℕ) (target : Option Box) (stepper : Option Stepper) :
    Outcome (Anim Bounce.Params Mat32) :=
  (bounce R M).objectNew
    [ ("initial-scale", .float initialScale), ("maximum-scale", .float maximumScale),
      ("n-bounce", .uint nBounce), ("target", .box target), ("stepper", .stepper stepper) ]

/-! ## Glide (animation-glib/glide/glide.cpp) -/

/-- `set_property` (152-190). -/
def glideSet (a : Anim Glide.Params Mat32) (n : String) (v : GVal) : Outcome (Anim Glide.Params Mat32) :=
  if n = "initial-distance" then .ok (M.glide.set a (.initialDistance v.getFloat))
  else if n = "x-rotation-angle-degrees" then .ok (M.glide.set a (.xRotationAngleDegrees v.getFloat))
  else if n = "y-rotation-angle-degrees" then .ok (M.glide.set a (.yRotationAngleDegrees v.getFloat))
  else if n = "x-axis-location-unit" then .ok (M.glide.set a (.xAxisLocationUnit v.getFloat))
  else if n = "y-axis-location-unit" then .ok (M.glide.set a (.yAxisLocationUnit v.getFloat))
  else if n = "stepper" then
    match v with
    | .stepper s => GClass.setStepper a s
    | _ => .ub
  else .ok a

/-- The class: properties (298-364), constructor (231-281). -/
def glide : GClass Glide.Params Mat32 Glide.Setter Glide.Setter where
  native := M.glide
  specs :=
    [ .float "initial-distance" true false (-1) 1 (-3 / 10),
      .float "x-rotation-angle-degrees" true false (-360) 360 0,
      .float "y-rotation-angle-degrees" true false (-360) 360 0,
      .float "x-axis-location-unit" true false 0 1 (2 / 10),
      .float "y-axis-location-unit" true false 0 1 (5 / 10),
      .uint "screen-width" false true 1 maxUint 1,
      .box "target" false true,
      .stepper "stepper" true false ]
  fixup := fixStepper R
  construct := fun v => .ok (M.glideNew
    ⟨(v "initial-distance").getFloat, (v "x-rotation-angle-degrees").getFloat,
      (v "y-rotation-angle-degrees").getFloat, (v "x-axis-location-unit").getFloat,
      (v "y-axis-location-unit").getFloat, (v "screen-width").getUint, (v "target").boxFrom⟩
    (v "stepper").stepperFrom).1
  setProperty := glideSet M
  getProperty := fun _ _ => none
  fn := id

/-- `animation_glide_new` (384-404). -/
def glideNew (initialDistance xAngle yAngle xAxis yAxis : ℝ) (screenWidth : ℕ) (target : Option Box)
    (length : ℕ) : Outcome (Anim Glide.Params Mat32) :=
  (glide R M).objectNew
    [ ("initial-distance", .float initialDistance), ("x-rotation-angle-degrees", .float xAngle),
      ("y-rotation-angle-degrees", .float yAngle), ("x-axis-location-unit", .float xAxis),
      ("y-axis-location-unit", .float yAxis), ("screen-width", .uint screenWidth),
      ("target", .box target), ("length", .uint length) ]

end

end Verif.GObj.Float
