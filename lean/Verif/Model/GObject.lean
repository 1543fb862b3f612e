import Verif.Model.Bounce
import Verif.Model.Zoom
import Verif.Model.Glide
import Verif.Model.MagicLamp

/-!
# `animation-glib`: the GObject animations

`AnimationBounceAnimation`, `AnimationZoomAnimation`, `AnimationGlideAnimation`,
`AnimationMagicLampAnimation`: properties, construction, functions.

From GObject itself this file takes: how `g_object_new` collects its arguments, that construct
properties not given get their default, that the class's `constructor` sees the values before they
are checked, and that a value outside the range of a property is refused (with a warning) without a
call to `set_property`.

A GObject stepper handed in is represented by the callable inside it: every use made of it here
copies that callable (constructor-helpers.h 119-136; `*_set_stepper`).  Reading the `stepper`
property gives a live view of the member; here the value it has at that time.  `Model/GStepper.lean`
follows the objects and their lifetimes.

The property `interface` (transform.cpp, grid.cpp), through which the classes find the C++ object, is left
out: the constructor overwrites what a caller gives for it.
-/

namespace Verif.GObj

noncomputable section

/-- A `GValue` of one of the types used. Boxes, vectors and objects are pointers that can be `NULL`. -/
inductive GVal where
  | float (r : ℝ)
  | uint (n : ℕ)
  | box (b : Option Box)
  | vector (v : Option Pt)
  | stepper (s : Option Stepper)

namespace GVal

/-- `g_value_get_float`; zero for a value of another type. -/
def getFloat : GVal → ℝ
  | float r => r
  | _ => 0

/-- `g_value_get_uint`; zero for a value of another type. -/
def getUint : GVal → ℕ
  | uint n => n
  | _ => 0

/-- `animation_box_from_gvalue` (constructor-helpers.h 82-95). -/
def boxFrom : GVal → Box
  | box (some b) => b
  | _ => ⟨⟨0, 0⟩, ⟨1, 1⟩⟩

/-- `animation_stepper_from_gvalue` (constructor-helpers.h 119-136). -/
def stepperFrom : GVal → Stepper
  | stepper (some s) => s
  | _ => linear 300

/-- `animation_point_size_t_from_gvalue` (constructor-helpers.h 108-117): conversion of the two
coordinates to `size_t`, undefined when the truncated number is negative. -/
def sizesFrom : GVal → Outcome (ℕ × ℕ)
  | vector (some v) => (MagicLamp.toSize v.x).bind fun w => (MagicLamp.toSize v.y).bind fun h => .ok (w, h)
  | _ => .ok (0, 0)

end GVal

/-- A `GParamSpec`. All properties here are construct properties; all are writable. -/
structure PSpec where
  name : String
  readable : Bool
  constructOnly : Bool
  default : GVal
  valid : GVal → Prop

/-- `g_param_spec_float`. -/
def PSpec.float (name : String) (readable constructOnly : Bool) (lo hi dflt : ℝ) : PSpec :=
  ⟨name, readable, constructOnly, .float dflt, fun v => ∃ r, v = .float r ∧ lo ≤ r ∧ r ≤ hi⟩

/-- `g_param_spec_uint`. -/
def PSpec.uint (name : String) (readable constructOnly : Bool) (lo hi dflt : ℕ) : PSpec :=
  ⟨name, readable, constructOnly, .uint dflt, fun v => ∃ n, v = .uint n ∧ lo ≤ n ∧ n ≤ hi⟩

/-- `g_param_spec_boxed` for `AnimationBox`; the default is `NULL`. -/
def PSpec.box (name : String) (readable constructOnly : Bool) : PSpec :=
  ⟨name, readable, constructOnly, .box none, fun v => ∃ b, v = .box b⟩

/-- `g_param_spec_boxed` for `AnimationVector`; the default is `NULL`. -/
def PSpec.vector (name : String) (readable constructOnly : Bool) : PSpec :=
  ⟨name, readable, constructOnly, .vector none, fun v => ∃ b, v = .vector b⟩

/-- `g_param_spec_object` for `AnimationStepper`; the default is `NULL`. -/
def PSpec.stepper (name : String) (readable constructOnly : Bool) : PSpec :=
  ⟨name, readable, constructOnly, .stepper none, fun v => ∃ s, v = .stepper s⟩

/-- One of the GObject classes over the animation class `native`. `F` stands for the setter functions
it offers in C. -/
structure GClass (P O S F : Type) where
  /-- the C++ class -/
  native : AnimClass P O S
  /-- the installed properties, in order -/
  specs : List PSpec
  /-- `replace_named_pointer_prop_in_construct_params_if_null` (constructor-helpers.cpp 132-156) -/
  fixup : String → GVal → GVal
  /-- the C++ constructor call in the class's `constructor` -/
  construct : (String → GVal) → Outcome (Anim P O)
  /-- the `set_property` implementation -/
  setProperty : Anim P O → String → GVal → Outcome (Anim P O)
  /-- the `get_property` implementation; `none` where it has no case -/
  getProperty : Anim P O → String → Option GVal
  /-- the C++ setter that a C setter function calls -/
  fn : F → S

/-- Calls on such an object. -/
inductive GOp (F : Type) where
  | step (ms : ℕ)
  | setProperty (name : String) (v : GVal)
  | call (f : F)
  | callSetStepper (s : Option Stepper)

namespace GClass

variable {P O S F : Type} (K : GClass P O S F)

/-- `g_object_class_find_property`. -/
def find (n : String) : Option PSpec := K.specs.find? fun sp => sp.name = n

/-- The arguments `g_object_new` looks at, after those named `seen`: it stops at the first name that is
not a property, or that was given before. -/
def collectFrom : List String → List (String × GVal) → List (String × GVal)
  | _, [] => []
  | seen, (n, v) :: rest =>
    if (K.find n).isSome ∧ n ∉ seen then (n, v) :: collectFrom (n :: seen) rest else []

/-- All the arguments `g_object_new` looks at. -/
def collect (args : List (String × GVal)) : List (String × GVal) := K.collectFrom [] args

/-- The construct parameter for property `n`: the given value or the default, a `NULL` replaced where
the class's `constructor` does so. -/
def param (args : List (String × GVal)) (n : String) : GVal :=
  K.fixup n <|
    match (K.collect args).find? fun a => a.1 = n with
    | some a => a.2
    | none => match K.find n with
      | some sp => sp.default
      | none => .uint 0

open Classical in
/-- GObject's `object_set_property`: refuse an invalid value, else call `set_property`. -/
def setChecked (a : Anim P O) (sp : PSpec) (v : GVal) : Outcome (Anim P O) :=
  if sp.valid v then K.setProperty a sp.name v else .ok a

/-- The construct properties being set one after the other. -/
def setAll (v : String → GVal) : List PSpec → Anim P O → Outcome (Anim P O)
  | [], a => .ok a
  | sp :: sps, a => (K.setChecked a sp (v sp.name)).bind (setAll v sps)

/-- `g_object_new`: the C++ object is made from the unchecked values, then all construct properties are
set. -/
def objectNew (args : List (String × GVal)) : Outcome (Anim P O) :=
  (K.construct (K.param args)).bind (K.setAll (K.param args) K.specs)

/-- `g_object_set`: unknown and construct-only properties are refused. -/
def set (a : Anim P O) (n : String) (v : GVal) : Outcome (Anim P O) :=
  match K.find n with
  | none => .ok a
  | some sp => if sp.constructOnly then .ok a else K.setChecked a sp v

/-- `g_object_get`; `none` for an unknown or unreadable property. -/
def get (a : Anim P O) (n : String) : Option GVal :=
  match K.find n with
  | none => none
  | some sp => if sp.readable then K.getProperty a n else none

/-- The body of `*_set_stepper` (bounce.cpp 123-131, zoom.cpp 110-118, glide.cpp 128-136,
magiclamp.cpp 169-177): a null pointer is dereferenced when given `NULL`. -/
def setStepper (a : Anim P O) : Option Stepper → Outcome (Anim P O)
  | some s => .ok (AnimClass.setStepper a s)
  | none => .ub

/-- One call. `animation_transform_animation_step` (transform.cpp 50-58) and
`animation_grid_animation_step` (grid.cpp 50-58) forward to `Step`. -/
def exec (a : Anim P O) : GOp F → Outcome (Anim P O)
  | .step ms => .ok (K.native.step a ms).1
  | .setProperty n v => K.set a n v
  | .call f => .ok (K.native.set a (K.fn f))
  | .callSetStepper s => setStepper a s

/-- A history of calls. -/
def run (a : Anim P O) : List (GOp F) → Outcome (Anim P O)
  | [] => .ok a
  | op :: ops => (K.exec a op).bind fun a' => run a' ops

end GClass

/-- `NULL` steppers become `animation_linear_stepper_new (300)` (e.g. bounce.cpp 219-226). -/
def fixStepper (n : String) (v : GVal) : GVal :=
  if n = "stepper" then
    match v with
    | .stepper none => .stepper (some (linear 300))
    | v => v
  else v

/-! ## Bounce (animation-glib/bounce/bounce.cpp) -/

/-- `set_property` (147-177). -/
def bounceSet (a : Anim Bounce.Params (Option Mat4)) (n : String) (v : GVal) :
    Outcome (Anim Bounce.Params (Option Mat4)) :=
  if n = "initial-scale" then .ok (Bounce.cls.set a (.initialScale v.getFloat))
  else if n = "maximum-scale" then .ok (Bounce.cls.set a (.maximumScale v.getFloat))
  else if n = "n-bounce" then .ok (Bounce.cls.set a (.nBounce v.getUint))
  else if n = "stepper" then
    match v with
    | .stepper s => GClass.setStepper a s
    | _ => .ub
  else .ok a

/-- `get_property` (179-212). -/
def bounceGet (a : Anim Bounce.Params (Option Mat4)) (n : String) : Option GVal :=
  if n = "initial-scale" then some (.float a.params.initialScale)
  else if n = "maximum-scale" then some (.float a.params.maximumScale)
  else if n = "n-bounce" then some (.uint a.params.nBounce)
  else if n = "target" then some (.box (some a.params.target))
  else if n = "stepper" then some (.stepper (some a.stepper))
  else none

/-- The class: properties (274-318), constructor (214-257). -/
def bounce : GClass Bounce.Params (Option Mat4) Bounce.Setter Bounce.Setter where
  native := Bounce.cls
  specs :=
    [ .float "initial-scale" true false (1 / 10) 1 (7 / 10),
      .float "maximum-scale" true false 1 3 (12 / 10),
      .uint "n-bounce" true false 1 10 1,
      .box "target" true true,
      .stepper "stepper" true false ]
  fixup := fixStepper
  construct := fun v => .ok (Bounce.new
    ⟨(v "initial-scale").getFloat, (v "maximum-scale").getFloat, (v "n-bounce").getUint,
      (v "target").boxFrom⟩ (v "stepper").stepperFrom).1
  setProperty := bounceSet
  getProperty := bounceGet
  fn := id

/-- `animation_bounce_new` (335-349). -/
def bounceNew (initialScale maximumScale : ℝ) (nBounce : ℕ) (target : Option Box)
    (stepper : Option Stepper) : Outcome (Anim Bounce.Params (Option Mat4)) :=
  bounce.objectNew
    [ ("initial-scale", .float initialScale), ("maximum-scale", .float maximumScale),
      ("n-bounce", .uint nBounce), ("target", .box target), ("stepper", .stepper stepper) ]

/-! ## Zoom (animation-glib/zoom/zoom.cpp) -/

/-- `set_property` (134-160). -/
def zoomSet (a : Anim Zoom.Params (Option Mat4)) (n : String) (v : GVal) :
    Outcome (Anim Zoom.Params (Option Mat4)) :=
  if n = "from" then
    match v with
    | .box (some b) => .ok (Zoom.cls.set a (.frm b))
    | _ => .ok a
  else if n = "stepper" then
    match v with
    | .stepper s => GClass.setStepper a s
    | _ => .ub
  else .ok a

/-- `get_property` (162-194). -/
def zoomGet (a : Anim Zoom.Params (Option Mat4)) (n : String) : Option GVal :=
  if n = "from" then some (.box (some a.params.frm))
  else if n = "to" then some (.box (some a.params.dst))
  else if n = "stepper" then some (.stepper (some a.stepper))
  else none

/-- The class: properties (251-269), constructor (196-235). -/
def zoom : GClass Zoom.Params (Option Mat4) Zoom.Setter Zoom.Setter where
  native := Zoom.cls
  specs :=
    [ .box "from" true false,
      .box "to" true true,
      .stepper "stepper" true false ]
  fixup := fixStepper
  construct := fun v => .ok (Zoom.new (v "from").boxFrom (v "to").boxFrom (v "stepper").stepperFrom).1
  setProperty := zoomSet
  getProperty := zoomGet
  fn := id

/-- `animation_zoom_new` (284-295). -/
def zoomNew (_current frm dst : Option Box) (stepper : Option Stepper) :
    Outcome (Anim Zoom.Params (Option Mat4)) :=
  zoom.objectNew [ ("from", .box frm), ("to", .box dst), ("stepper", .stepper stepper) ]

/-! ## Glide (animation-glib/glide/glide.cpp) -/

/-- `set_property` (152-190). -/
def glideSet (a : Anim Glide.Params (Option Mat4)) (n : String) (v : GVal) :
    Outcome (Anim Glide.Params (Option Mat4)) :=
  if n = "initial-distance" then .ok (Glide.cls.set a (.initialDistance v.getFloat))
  else if n = "x-rotation-angle-degrees" then .ok (Glide.cls.set a (.xRotationAngleDegrees v.getFloat))
  else if n = "y-rotation-angle-degrees" then .ok (Glide.cls.set a (.yRotationAngleDegrees v.getFloat))
  else if n = "x-axis-location-unit" then .ok (Glide.cls.set a (.xAxisLocationUnit v.getFloat))
  else if n = "y-axis-location-unit" then .ok (Glide.cls.set a (.yAxisLocationUnit v.getFloat))
  else if n = "stepper" then
    match v with
    | .stepper s => GClass.setStepper a s
    | _ => .ub
  else .ok a

/-- `get_property` (192-229). -/
def glideGet (a : Anim Glide.Params (Option Mat4)) (n : String) : Option GVal :=
  if n = "initial-distance" then some (.float a.params.initialDistance)
  else if n = "x-rotation-angle-degrees" then some (.float a.params.xRotationAngleDegrees)
  else if n = "y-rotation-angle-degrees" then some (.float a.params.yRotationAngleDegrees)
  else if n = "x-axis-location-unit" then some (.float a.params.xAxisLocationUnit)
  else if n = "y-axis-location-unit" then some (.float a.params.yAxisLocationUnit)
  else if n = "stepper" then some (.stepper (some a.stepper))
  else none

/-- `G_MAXUINT`. -/
def maxUint : ℕ := 4294967295

/-- The class: properties (298-364), constructor (231-281). -/
def glide : GClass Glide.Params (Option Mat4) Glide.Setter Glide.Setter where
  native := Glide.cls
  specs :=
    [ .float "initial-distance" true false (-1) 1 (-3 / 10),
      .float "x-rotation-angle-degrees" true false (-360) 360 0,
      .float "y-rotation-angle-degrees" true false (-360) 360 0,
      .float "x-axis-location-unit" true false 0 1 (2 / 10),
      .float "y-axis-location-unit" true false 0 1 (5 / 10),
      .uint "screen-width" false true 1 maxUint 1,
      .box "target" false true,
      .stepper "stepper" true false ]
  fixup := fixStepper
  construct := fun v => .ok (Glide.new
    ⟨(v "initial-distance").getFloat, (v "x-rotation-angle-degrees").getFloat,
      (v "y-rotation-angle-degrees").getFloat, (v "x-axis-location-unit").getFloat,
      (v "y-axis-location-unit").getFloat, (v "screen-width").getUint, (v "target").boxFrom⟩
    (v "stepper").stepperFrom).1
  setProperty := glideSet
  getProperty := glideGet
  fn := id

/-- `animation_glide_new` (384-404). -/
def glideNew (initialDistance xAngle yAngle xAxis yAxis : ℝ) (screenWidth : ℕ) (target : Option Box)
    (length : ℕ) : Outcome (Anim Glide.Params (Option Mat4)) :=
  glide.objectNew
    [ ("initial-distance", .float initialDistance), ("x-rotation-angle-degrees", .float xAngle),
      ("y-rotation-angle-degrees", .float yAngle), ("x-axis-location-unit", .float xAxis),
      ("y-axis-location-unit", .float yAxis), ("screen-width", .uint screenWidth),
      ("target", .box target), ("length", .uint length) ]

/-! ## Magic lamp (animation-glib/magiclamp/magiclamp.cpp) -/

/-- The setter functions (64-177) other than `set_stepper`; there is none for the target and the
resolution. -/
inductive LampFn where
  | source (b : Box)
  | bend (v : ℝ)
  | offset (v : ℝ)
  | stretch (v : ℝ)
  | deformSpeed (v : ℝ)

/-- What they call. -/
def LampFn.native : LampFn → MagicLamp.Setter
  | source b => .source b
  | bend v => .bend v
  | offset v => .offset v
  | stretch v => .stretch v
  | deformSpeed v => .deformSpeed v

/-- `set_property` (193-236). -/
def lampSet (a : Anim MagicLamp.Params (Outcome MagicLamp.Grid)) (n : String) (v : GVal) :
    Outcome (Anim MagicLamp.Params (Outcome MagicLamp.Grid)) :=
  if n = "source" then
    match v with
    | .box (some b) => .ok (MagicLamp.cls.set a (.source b))
    | _ => .ok a
  else if n = "bend-factor" then .ok (MagicLamp.cls.set a (.bend v.getFloat))
  else if n = "offset-factor" then .ok (MagicLamp.cls.set a (.offset v.getFloat))
  else if n = "stretch-factor" then .ok (MagicLamp.cls.set a (.stretch v.getFloat))
  else if n = "deform-speed-factor" then .ok (MagicLamp.cls.set a (.deformSpeed v.getFloat))
  else if n = "stepper" then
    match v with
    | .stepper s => GClass.setStepper a s
    | _ => .ub
  else .ok a

/-- `get_property` (238-279): no case for the resolution and for the stepper. -/
def lampGet (a : Anim MagicLamp.Params (Outcome MagicLamp.Grid)) (n : String) : Option GVal :=
  if n = "source" then some (.box (some a.params.source))
  else if n = "target" then some (.box (some a.params.target))
  else if n = "bend-factor" then some (.float a.params.bend)
  else if n = "stretch-factor" then some (.float a.params.stretch)
  else if n = "offset-factor" then some (.float a.params.offset)
  else if n = "deform-speed-factor" then some (.float a.params.deformSpeed)
  else none

/-- `NULL` resolutions become (10, 10) (295-308), `NULL` steppers a linear one (286-293). -/
def lampFixup (n : String) (v : GVal) : GVal :=
  if n = "resolution" then
    match v with
    | .vector none => .vector (some ⟨10, 10⟩)
    | v => v
  else fixStepper n v

/-- The class: properties (362-424), constructor (281-345). -/
def lamp : GClass MagicLamp.Params (Outcome MagicLamp.Grid) MagicLamp.Setter LampFn where
  native := MagicLamp.cls
  specs :=
    [ .box "source" true false,
      .box "target" true true,
      .vector "resolution" false true,
      .float "bend-factor" true false 1 20 10,
      .float "offset-factor" true false (1 / 10) 1 (5 / 10),
      .float "stretch-factor" false true (2 / 10) 1 (45 / 100),
      .float "deform-speed-factor" true false 1 4 (23 / 10),
      .stepper "stepper" true false ]
  fixup := lampFixup
  construct := fun v => (v "resolution").sizesFrom.bind fun r => .ok (MagicLamp.new
    ⟨(v "source").boxFrom, (v "target").boxFrom, r.1, r.2, (v "bend-factor").getFloat,
      (v "offset-factor").getFloat, (v "stretch-factor").getFloat, (v "deform-speed-factor").getFloat⟩
    (v "stepper").stepperFrom).1
  setProperty := lampSet
  getProperty := lampGet
  fn := LampFn.native

/-- `animation_magiclamp_new` (443-459). -/
def lampNew (source target : Option Box) (resolution : Option Pt) (_bend _offset _stretch _deformSpeed : ℝ)
    (stepper : Option Stepper) : Outcome (Anim MagicLamp.Params (Outcome MagicLamp.Grid)) :=
  lamp.objectNew
    [ ("source", .box source), ("target", .box target), ("resolution", .vector resolution),
      ("stepper", .stepper stepper) ]

end

end Verif.GObj
