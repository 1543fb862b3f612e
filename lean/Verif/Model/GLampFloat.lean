import Verif.Model.GTransformFloat
import Verif.Model.LampFloat

/-!
# AnimationMagicLampAnimation with rounding

The GObject of `animation-glib/magiclamp/magiclamp.cpp` over the magic lamp of `Model/LampFloat.lean`. The properties and
what setting them does are those of `GObj.lamp` (`Model/GObject.lean`), except that the defaults 0.45 and 2.3 are rounded to
`float`. Reading a property is left out here: `GObj.lampGet` has it.
-/

namespace Verif.GObj.Float

noncomputable section

variable (R : Rounding) (M : Machine) (ex : ℝ → ℝ)

/-- `NULL` resolutions become (10, 10) (295-308), `NULL` steppers a linear one (286-293). -/
def lampFixup (n : String) (v : GVal) : GVal :=
  if n = "resolution" then
    match v with
    | .vector none => .vector (some ⟨10, 10⟩)
    | v => v
  else fixStepper R n v

/-- `set_property` (193-236). -/
def lampSet (a : Anim MagicLamp.Params (Outcome MagicLamp.Grid)) (n : String) (v : GVal) :
    Outcome (Anim MagicLamp.Params (Outcome MagicLamp.Grid)) :=
  if n = "source" then
    match v with
    | .box (some b) => .ok ((M.lamp ex).set a (.source b))
    | _ => .ok a
  else if n = "bend-factor" then .ok ((M.lamp ex).set a (.bend v.getFloat))
  else if n = "offset-factor" then .ok ((M.lamp ex).set a (.offset v.getFloat))
  else if n = "stretch-factor" then .ok ((M.lamp ex).set a (.stretch v.getFloat))
  else if n = "deform-speed-factor" then .ok ((M.lamp ex).set a (.deformSpeed v.getFloat))
  else if n = "stepper" then
    match v with
    | .stepper s => GClass.setStepper a s
    | _ => .ub
  else .ok a

/-- The class: properties (362-424), constructor (281-345). -/
def lamp : GClass MagicLamp.Params (Outcome MagicLamp.Grid) MagicLamp.Setter LampFn where
  native := M.lamp ex
  specs :=
    [ .box "source" true false,
      .box "target" true true,
      .vector "resolution" false true,
      .float "bend-factor" true false 1 20 10,
      .float "offset-factor" true false (1 / 10) 1 (5 / 10),
      .float "stretch-factor" false true (2 / 10) 1 (R.rnd (45 / 100)),
      .float "deform-speed-factor" true false 1 4 (R.rnd (23 / 10)),
      .stepper "stepper" true false ]
  fixup := lampFixup R
  construct := fun v => (v "resolution").sizesFrom.bind fun r => .ok (M.lampNew ex
    ⟨(v "source").boxFrom, (v "target").boxFrom, r.1, r.2, (v "bend-factor").getFloat,
      (v "offset-factor").getFloat, (v "stretch-factor").getFloat, (v "deform-speed-factor").getFloat⟩
    (v "stepper").stepperFrom).1
  setProperty := lampSet M ex
  getProperty := fun _ _ => none
  fn := LampFn.native

/-- `animation_magiclamp_new` (443-459). -/
def lampNew (source target : Option Box) (resolution : Option Pt) (_bend _offset _stretch _deformSpeed : ℝ)
    (stepper : Option Stepper) : Outcome (Anim MagicLamp.Params (Outcome MagicLamp.Grid)) :=
  (lamp R M ex).objectNew
    [ ("source", .box source), ("target", .box target), ("resolution", .vector resolution),
      ("stepper", .stepper stepper) ]

end

end Verif.GObj.Float
