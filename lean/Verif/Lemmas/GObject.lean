import Verif.Spec.GObject
import Verif.Spec.Animation
import Verif.Lemmas.Outcome

/-! Auxiliary facts about the GObject animations. -/

set_option linter.unusedSimpArgs false

namespace Verif.GObj

noncomputable section

open Spec

theorem bounce_find_initial_scale : bounce.find "initial-scale" = some (.float "initial-scale" true false (1 / 10) 1 (7 / 10)) := by
  simp [bounce, GClass.find, PSpec.float, PSpec.uint, PSpec.box, PSpec.vector, PSpec.stepper]

theorem bounce_find_maximum_scale : bounce.find "maximum-scale" = some (.float "maximum-scale" true false 1 3 (12 / 10)) := by
  simp [bounce, GClass.find, PSpec.float, PSpec.uint, PSpec.box, PSpec.vector, PSpec.stepper]

theorem bounce_find_n_bounce : bounce.find "n-bounce" = some (.uint "n-bounce" true false 1 10 1) := by
  simp [bounce, GClass.find, PSpec.float, PSpec.uint, PSpec.box, PSpec.vector, PSpec.stepper]

theorem bounce_find_target : bounce.find "target" = some (.box "target" true true) := by
  simp [bounce, GClass.find, PSpec.float, PSpec.uint, PSpec.box, PSpec.vector, PSpec.stepper]

theorem bounce_find_stepper : bounce.find "stepper" = some (.stepper "stepper" true false) := by
  simp [bounce, GClass.find, PSpec.float, PSpec.uint, PSpec.box, PSpec.vector, PSpec.stepper]

theorem bounce_set (a : Anim Bounce.Params (Option Mat4)) (n : String) (v : GVal)
    (h : ¬ (n = "stepper" ∧ v = .stepper none)) :
    bounce.set a n v = .ok (((bounceProperty n v).toList).foldl Bounce.cls.exec a) := by
  have hs : bounce.setProperty = bounceSet := rfl
  by_cases h0 : n = "initial-scale"
  · subst h0
    cases v <;> simp [GClass.set, bounce_find_initial_scale, GClass.setChecked, PSpec.float, PSpec.uint, PSpec.box, PSpec.vector,
      PSpec.stepper, hs, bounceProperty, within, bounceSet, GVal.getFloat, GVal.getUint, GClass.setStepper]
    split_ifs <;> rfl
  by_cases h1 : n = "maximum-scale"
  · subst h1
    cases v <;> simp [GClass.set, bounce_find_maximum_scale, GClass.setChecked, PSpec.float, PSpec.uint, PSpec.box, PSpec.vector,
      PSpec.stepper, hs, bounceProperty, within, bounceSet, GVal.getFloat, GVal.getUint, GClass.setStepper]
    split_ifs <;> rfl
  by_cases h2 : n = "n-bounce"
  · subst h2
    cases v <;> simp [GClass.set, bounce_find_n_bounce, GClass.setChecked, PSpec.float, PSpec.uint, PSpec.box, PSpec.vector,
      PSpec.stepper, hs, bounceProperty, within, bounceSet, GVal.getFloat, GVal.getUint, GClass.setStepper]
    split_ifs <;> rfl
  by_cases h3 : n = "target"
  · subst h3
    cases v <;> simp [GClass.set, bounce_find_target, GClass.setChecked, PSpec.float, PSpec.uint, PSpec.box, PSpec.vector,
      PSpec.stepper, hs, bounceProperty, within, bounceSet, GVal.getFloat, GVal.getUint, GClass.setStepper]
  by_cases h4 : n = "stepper"
  · subst h4
    rcases v with _ | _ | _ | _ | (_ | _) <;> simp [GClass.set, bounce_find_stepper, GClass.setChecked, PSpec.float, PSpec.uint, PSpec.box, PSpec.vector,
      PSpec.stepper, hs, bounceProperty, within, bounceSet, GVal.getFloat, GVal.getUint, GClass.setStepper] at h ⊢
    rfl
  have h20 : bounceProperty n v = none := by
    unfold bounceProperty; split <;> simp_all
  have h21 : bounce.find n = none := by
    simp [GClass.find, bounce, PSpec.float, PSpec.uint, PSpec.box, PSpec.vector, PSpec.stepper, Ne.symm h0, Ne.symm h1, Ne.symm h2, Ne.symm h3, Ne.symm h4]
  simp [h20, GClass.set, h21]

theorem zoom_find_from : zoom.find "from" = some (.box "from" true false) := by
  simp [zoom, GClass.find, PSpec.float, PSpec.uint, PSpec.box, PSpec.vector, PSpec.stepper]

theorem zoom_find_to : zoom.find "to" = some (.box "to" true true) := by
  simp [zoom, GClass.find, PSpec.float, PSpec.uint, PSpec.box, PSpec.vector, PSpec.stepper]

theorem zoom_find_stepper : zoom.find "stepper" = some (.stepper "stepper" true false) := by
  simp [zoom, GClass.find, PSpec.float, PSpec.uint, PSpec.box, PSpec.vector, PSpec.stepper]

theorem zoom_set (a : Anim Zoom.Params (Option Mat4)) (n : String) (v : GVal)
    (h : ¬ (n = "stepper" ∧ v = .stepper none)) :
    zoom.set a n v = .ok (((zoomProperty n v).toList).foldl Zoom.cls.exec a) := by
  have hs : zoom.setProperty = zoomSet := rfl
  by_cases h0 : n = "from"
  · subst h0
    rcases v with _ | _ | (_ | _) | _ | _ <;> simp [GClass.set, zoom_find_from, GClass.setChecked, PSpec.float, PSpec.uint, PSpec.box, PSpec.vector,
      PSpec.stepper, hs, zoomProperty, within, zoomSet, GVal.getFloat, GVal.getUint, GClass.setStepper]
    rfl
  by_cases h1 : n = "to"
  · subst h1
    cases v <;> simp [GClass.set, zoom_find_to, GClass.setChecked, PSpec.float, PSpec.uint, PSpec.box, PSpec.vector,
      PSpec.stepper, hs, zoomProperty, within, zoomSet, GVal.getFloat, GVal.getUint, GClass.setStepper]
  by_cases h2 : n = "stepper"
  · subst h2
    rcases v with _ | _ | _ | _ | (_ | _) <;> simp [GClass.set, zoom_find_stepper, GClass.setChecked, PSpec.float, PSpec.uint, PSpec.box, PSpec.vector,
      PSpec.stepper, hs, zoomProperty, within, zoomSet, GVal.getFloat, GVal.getUint, GClass.setStepper] at h ⊢
    rfl
  have h20 : zoomProperty n v = none := by
    unfold zoomProperty; split <;> simp_all
  have h21 : zoom.find n = none := by
    simp [GClass.find, zoom, PSpec.float, PSpec.uint, PSpec.box, PSpec.vector, PSpec.stepper, Ne.symm h0, Ne.symm h1, Ne.symm h2]
  simp [h20, GClass.set, h21]

theorem glide_find_initial_distance : glide.find "initial-distance" = some (.float "initial-distance" true false (-1) 1 (-3 / 10)) := by
  simp [glide, GClass.find, PSpec.float, PSpec.uint, PSpec.box, PSpec.vector, PSpec.stepper]

theorem glide_find_x_rotation_angle_degrees : glide.find "x-rotation-angle-degrees" = some (.float "x-rotation-angle-degrees" true false (-360) 360 0) := by
  simp [glide, GClass.find, PSpec.float, PSpec.uint, PSpec.box, PSpec.vector, PSpec.stepper]

theorem glide_find_y_rotation_angle_degrees : glide.find "y-rotation-angle-degrees" = some (.float "y-rotation-angle-degrees" true false (-360) 360 0) := by
  simp [glide, GClass.find, PSpec.float, PSpec.uint, PSpec.box, PSpec.vector, PSpec.stepper]

theorem glide_find_x_axis_location_unit : glide.find "x-axis-location-unit" = some (.float "x-axis-location-unit" true false 0 1 (2 / 10)) := by
  simp [glide, GClass.find, PSpec.float, PSpec.uint, PSpec.box, PSpec.vector, PSpec.stepper]

theorem glide_find_y_axis_location_unit : glide.find "y-axis-location-unit" = some (.float "y-axis-location-unit" true false 0 1 (5 / 10)) := by
  simp [glide, GClass.find, PSpec.float, PSpec.uint, PSpec.box, PSpec.vector, PSpec.stepper]

theorem glide_find_screen_width : glide.find "screen-width" = some (.uint "screen-width" false true 1 maxUint 1) := by
  simp [glide, GClass.find, PSpec.float, PSpec.uint, PSpec.box, PSpec.vector, PSpec.stepper]

theorem glide_find_target : glide.find "target" = some (.box "target" false true) := by
  simp [glide, GClass.find, PSpec.float, PSpec.uint, PSpec.box, PSpec.vector, PSpec.stepper]

theorem glide_find_stepper : glide.find "stepper" = some (.stepper "stepper" true false) := by
  simp [glide, GClass.find, PSpec.float, PSpec.uint, PSpec.box, PSpec.vector, PSpec.stepper]

theorem glide_set (a : Anim Glide.Params (Option Mat4)) (n : String) (v : GVal)
    (h : ¬ (n = "stepper" ∧ v = .stepper none)) :
    glide.set a n v = .ok (((glideProperty n v).toList).foldl Glide.cls.exec a) := by
  have hs : glide.setProperty = glideSet := rfl
  by_cases h0 : n = "initial-distance"
  · subst h0
    cases v <;> simp [GClass.set, glide_find_initial_distance, GClass.setChecked, PSpec.float, PSpec.uint, PSpec.box, PSpec.vector,
      PSpec.stepper, hs, glideProperty, within, glideSet, GVal.getFloat, GVal.getUint, GClass.setStepper]
    split_ifs <;> rfl
  by_cases h1 : n = "x-rotation-angle-degrees"
  · subst h1
    cases v <;> simp [GClass.set, glide_find_x_rotation_angle_degrees, GClass.setChecked, PSpec.float, PSpec.uint, PSpec.box, PSpec.vector,
      PSpec.stepper, hs, glideProperty, within, glideSet, GVal.getFloat, GVal.getUint, GClass.setStepper]
    split_ifs <;> rfl
  by_cases h2 : n = "y-rotation-angle-degrees"
  · subst h2
    cases v <;> simp [GClass.set, glide_find_y_rotation_angle_degrees, GClass.setChecked, PSpec.float, PSpec.uint, PSpec.box, PSpec.vector,
      PSpec.stepper, hs, glideProperty, within, glideSet, GVal.getFloat, GVal.getUint, GClass.setStepper]
    split_ifs <;> rfl
  by_cases h3 : n = "x-axis-location-unit"
  · subst h3
    cases v <;> simp [GClass.set, glide_find_x_axis_location_unit, GClass.setChecked, PSpec.float, PSpec.uint, PSpec.box, PSpec.vector,
      PSpec.stepper, hs, glideProperty, within, glideSet, GVal.getFloat, GVal.getUint, GClass.setStepper]
    split_ifs <;> rfl
  by_cases h4 : n = "y-axis-location-unit"
  · subst h4
    cases v <;> simp [GClass.set, glide_find_y_axis_location_unit, GClass.setChecked, PSpec.float, PSpec.uint, PSpec.box, PSpec.vector,
      PSpec.stepper, hs, glideProperty, within, glideSet, GVal.getFloat, GVal.getUint, GClass.setStepper]
    split_ifs <;> rfl
  by_cases h5 : n = "screen-width"
  · subst h5
    cases v <;> simp [GClass.set, glide_find_screen_width, GClass.setChecked, PSpec.float, PSpec.uint, PSpec.box, PSpec.vector,
      PSpec.stepper, hs, glideProperty, within, glideSet, GVal.getFloat, GVal.getUint, GClass.setStepper]
  by_cases h6 : n = "target"
  · subst h6
    cases v <;> simp [GClass.set, glide_find_target, GClass.setChecked, PSpec.float, PSpec.uint, PSpec.box, PSpec.vector,
      PSpec.stepper, hs, glideProperty, within, glideSet, GVal.getFloat, GVal.getUint, GClass.setStepper]
  by_cases h7 : n = "stepper"
  · subst h7
    rcases v with _ | _ | _ | _ | (_ | _) <;> simp [GClass.set, glide_find_stepper, GClass.setChecked, PSpec.float, PSpec.uint, PSpec.box, PSpec.vector,
      PSpec.stepper, hs, glideProperty, within, glideSet, GVal.getFloat, GVal.getUint, GClass.setStepper] at h ⊢
    rfl
  have h20 : glideProperty n v = none := by
    unfold glideProperty; split <;> simp_all
  have h21 : glide.find n = none := by
    simp [GClass.find, glide, PSpec.float, PSpec.uint, PSpec.box, PSpec.vector, PSpec.stepper, Ne.symm h0, Ne.symm h1, Ne.symm h2, Ne.symm h3, Ne.symm h4, Ne.symm h5, Ne.symm h6, Ne.symm h7]
  simp [h20, GClass.set, h21]

theorem lamp_find_source : lamp.find "source" = some (.box "source" true false) := by
  simp [lamp, GClass.find, PSpec.float, PSpec.uint, PSpec.box, PSpec.vector, PSpec.stepper]

theorem lamp_find_target : lamp.find "target" = some (.box "target" true true) := by
  simp [lamp, GClass.find, PSpec.float, PSpec.uint, PSpec.box, PSpec.vector, PSpec.stepper]

theorem lamp_find_resolution : lamp.find "resolution" = some (.vector "resolution" false true) := by
  simp [lamp, GClass.find, PSpec.float, PSpec.uint, PSpec.box, PSpec.vector, PSpec.stepper]

theorem lamp_find_bend_factor : lamp.find "bend-factor" = some (.float "bend-factor" true false 1 20 10) := by
  simp [lamp, GClass.find, PSpec.float, PSpec.uint, PSpec.box, PSpec.vector, PSpec.stepper]

theorem lamp_find_offset_factor : lamp.find "offset-factor" = some (.float "offset-factor" true false (1 / 10) 1 (5 / 10)) := by
  simp [lamp, GClass.find, PSpec.float, PSpec.uint, PSpec.box, PSpec.vector, PSpec.stepper]

theorem lamp_find_stretch_factor : lamp.find "stretch-factor" = some (.float "stretch-factor" false true (2 / 10) 1 (45 / 100)) := by
  simp [lamp, GClass.find, PSpec.float, PSpec.uint, PSpec.box, PSpec.vector, PSpec.stepper]

theorem lamp_find_deform_speed_factor : lamp.find "deform-speed-factor" = some (.float "deform-speed-factor" true false 1 4 (23 / 10)) := by
  simp [lamp, GClass.find, PSpec.float, PSpec.uint, PSpec.box, PSpec.vector, PSpec.stepper]

theorem lamp_find_stepper : lamp.find "stepper" = some (.stepper "stepper" true false) := by
  simp [lamp, GClass.find, PSpec.float, PSpec.uint, PSpec.box, PSpec.vector, PSpec.stepper]

theorem lamp_set (a : Anim MagicLamp.Params (Outcome MagicLamp.Grid)) (n : String) (v : GVal)
    (h : ¬ (n = "stepper" ∧ v = .stepper none)) :
    lamp.set a n v = .ok (((lampProperty n v).toList).foldl MagicLamp.cls.exec a) := by
  have hs : lamp.setProperty = lampSet := rfl
  by_cases h0 : n = "source"
  · subst h0
    rcases v with _ | _ | (_ | _) | _ | _ <;> simp [GClass.set, lamp_find_source, GClass.setChecked, PSpec.float, PSpec.uint, PSpec.box, PSpec.vector,
      PSpec.stepper, hs, lampProperty, within, lampSet, GVal.getFloat, GVal.getUint, GClass.setStepper]
    rfl
  by_cases h1 : n = "target"
  · subst h1
    cases v <;> simp [GClass.set, lamp_find_target, GClass.setChecked, PSpec.float, PSpec.uint, PSpec.box, PSpec.vector,
      PSpec.stepper, hs, lampProperty, within, lampSet, GVal.getFloat, GVal.getUint, GClass.setStepper]
  by_cases h2 : n = "resolution"
  · subst h2
    cases v <;> simp [GClass.set, lamp_find_resolution, GClass.setChecked, PSpec.float, PSpec.uint, PSpec.box, PSpec.vector,
      PSpec.stepper, hs, lampProperty, within, lampSet, GVal.getFloat, GVal.getUint, GClass.setStepper]
  by_cases h3 : n = "bend-factor"
  · subst h3
    cases v <;> simp [GClass.set, lamp_find_bend_factor, GClass.setChecked, PSpec.float, PSpec.uint, PSpec.box, PSpec.vector,
      PSpec.stepper, hs, lampProperty, within, lampSet, GVal.getFloat, GVal.getUint, GClass.setStepper]
    split_ifs <;> rfl
  by_cases h4 : n = "offset-factor"
  · subst h4
    cases v <;> simp [GClass.set, lamp_find_offset_factor, GClass.setChecked, PSpec.float, PSpec.uint, PSpec.box, PSpec.vector,
      PSpec.stepper, hs, lampProperty, within, lampSet, GVal.getFloat, GVal.getUint, GClass.setStepper]
    split_ifs <;> rfl
  by_cases h5 : n = "stretch-factor"
  · subst h5
    cases v <;> simp [GClass.set, lamp_find_stretch_factor, GClass.setChecked, PSpec.float, PSpec.uint, PSpec.box, PSpec.vector,
      PSpec.stepper, hs, lampProperty, within, lampSet, GVal.getFloat, GVal.getUint, GClass.setStepper]
  by_cases h6 : n = "deform-speed-factor"
  · subst h6
    cases v <;> simp [GClass.set, lamp_find_deform_speed_factor, GClass.setChecked, PSpec.float, PSpec.uint, PSpec.box, PSpec.vector,
      PSpec.stepper, hs, lampProperty, within, lampSet, GVal.getFloat, GVal.getUint, GClass.setStepper]
    split_ifs <;> rfl
  by_cases h7 : n = "stepper"
  · subst h7
    rcases v with _ | _ | _ | _ | (_ | _) <;> simp [GClass.set, lamp_find_stepper, GClass.setChecked, PSpec.float, PSpec.uint, PSpec.box, PSpec.vector,
      PSpec.stepper, hs, lampProperty, within, lampSet, GVal.getFloat, GVal.getUint, GClass.setStepper] at h ⊢
    rfl
  have h20 : lampProperty n v = none := by
    unfold lampProperty; split <;> simp_all
  have h21 : lamp.find n = none := by
    simp [GClass.find, lamp, PSpec.float, PSpec.uint, PSpec.box, PSpec.vector, PSpec.stepper, Ne.symm h0, Ne.symm h1, Ne.symm h2, Ne.symm h3, Ne.symm h4, Ne.symm h5, Ne.symm h6, Ne.symm h7]
  simp [h20, GClass.set, h21]

/-- If setting a property amounts to the native calls of a table, so do histories. -/
theorem run_native {P O S F : Type} (K : GClass P O S F) (prop : String → GVal → Option (AnimOp S))
    (fn : F → S) (hfn : K.fn = fn)
    (hset : ∀ a n v, ¬ (n = "stepper" ∧ v = .stepper none) →
      K.set a n v = .ok (((prop n v).toList).foldl K.native.exec a))
    (ops : List (GOp F)) : ∀ a, (∀ op ∈ ops, ¬ HandsNull op) →
      K.run a ops = .ok (K.native.run a (animCalls prop fn ops)) := by
  induction ops with
  | nil => intro a _; rfl
  | cons op ops ih =>
    intro a h
    have h1 := h op (by simp)
    have h2 := fun a => ih a fun o ho => h o (by simp [ho])
    cases op with
    | step ms => simp only [GClass.run, GClass.exec, Outcome.bind_ok, h2, animCalls]; rfl
    | setProperty n v =>
      simp only [GClass.run, GClass.exec, hset a n v h1, Outcome.bind_ok, h2, animCalls, AnimClass.run,
        List.foldl_append]
    | call f => simp only [GClass.run, GClass.exec, Outcome.bind_ok, h2, animCalls, hfn]; rfl
    | callSetStepper s =>
      cases s with
      | none => exact absurd rfl h1
      | some s => simp only [GClass.run, GClass.exec, GClass.setStepper, Outcome.bind_ok, h2, animCalls]; rfl

theorem setChecked_same {P O S F : Type} (K : GClass P O S F) (a : Anim P O) (sp : PSpec) (v : GVal)
    (h : K.setProperty a sp.name v = .ok a) : K.setChecked a sp v = .ok a := by
  unfold GClass.setChecked
  split_ifs
  · exact h
  · rfl

/-- The parameters the construct values describe. -/
def bounceParams (v : String → GVal) : Bounce.Params :=
  ⟨(v "initial-scale").getFloat, (v "maximum-scale").getFloat, (v "n-bounce").getUint, (v "target").boxFrom⟩

theorem bounce_objectNew (args : List (String × GVal)) {s : Stepper}
    (hs : bounce.param args "stepper" = .stepper (some s)) :
    bounce.objectNew args =
      .ok { (Bounce.new (bounceParams (bounce.param args)) s).1 with stepper := s } := by
  have hc : ∀ v, bounce.construct v = .ok (Bounce.new (bounceParams v) (v "stepper").stepperFrom).1 := fun _ => rfl
  have hp : bounce.setProperty = bounceSet := rfl
  have hl : bounce.specs = [ .float "initial-scale" true false (1 / 10) 1 (7 / 10),
      .float "maximum-scale" true false 1 3 (12 / 10),
      .uint "n-bounce" true false 1 10 1,
      .box "target" true true,
      .stepper "stepper" true false ] := rfl
  rw [GClass.objectNew, hc, Outcome.bind_ok, hl]
  generalize bounce.param args = v at hs
  simp only [GClass.setAll, PSpec.float, PSpec.uint, PSpec.box, PSpec.stepper, hs, GVal.stepperFrom]
  iterate 4
    rw [setChecked_same bounce _ _ _ (by simp [hp, bounceSet]; try rfl), Outcome.bind_ok]
  simp [GClass.setChecked, hp, bounceSet, GClass.setStepper, AnimClass.setStepper]

/-- The parameters the construct values describe. -/
def glideParams (v : String → GVal) : Glide.Params :=
    ⟨(v "initial-distance").getFloat, (v "x-rotation-angle-degrees").getFloat,
      (v "y-rotation-angle-degrees").getFloat, (v "x-axis-location-unit").getFloat,
      (v "y-axis-location-unit").getFloat, (v "screen-width").getUint, (v "target").boxFrom⟩

theorem glide_objectNew (args : List (String × GVal)) {s : Stepper}
    (hs : glide.param args "stepper" = .stepper (some s)) :
    glide.objectNew args =
      .ok { (Glide.new (glideParams (glide.param args)) s).1 with stepper := s } := by
  have hc : ∀ v, glide.construct v = .ok (Glide.new (glideParams v) (v "stepper").stepperFrom).1 := fun _ => rfl
  have hp : glide.setProperty = glideSet := rfl
  have hl : glide.specs =
    [ .float "initial-distance" true false (-1) 1 (-3 / 10),
      .float "x-rotation-angle-degrees" true false (-360) 360 0,
      .float "y-rotation-angle-degrees" true false (-360) 360 0,
      .float "x-axis-location-unit" true false 0 1 (2 / 10),
      .float "y-axis-location-unit" true false 0 1 (5 / 10),
      .uint "screen-width" false true 1 maxUint 1,
      .box "target" false true,
      .stepper "stepper" true false ] := rfl
  rw [GClass.objectNew, hc, Outcome.bind_ok, hl]
  generalize glide.param args = v at hs
  simp only [GClass.setAll, PSpec.float, PSpec.uint, PSpec.box, PSpec.stepper, hs, GVal.stepperFrom]
  iterate 7
    rw [setChecked_same glide _ _ _ (by simp [hp, glideSet]; try rfl), Outcome.bind_ok]
  simp [GClass.setChecked, hp, glideSet, GClass.setStepper, AnimClass.setStepper]

theorem zoom_objectNew (args : List (String × GVal)) {s : Stepper}
    (hs : zoom.param args "stepper" = .stepper (some s)) :
    zoom.objectNew args =
      .ok { (Zoom.new (zoom.param args "from").boxFrom (zoom.param args "to").boxFrom s).1 with
        params := ⟨(zoom.param args "from").boxFrom, Zoom.ensureNonZeroArea (zoom.param args "to").boxFrom⟩
        stepper := s } := by
  have hc : ∀ v, zoom.construct v = .ok (Zoom.new (v "from").boxFrom (v "to").boxFrom (v "stepper").stepperFrom).1 := fun _ => rfl
  have hp : zoom.setProperty = zoomSet := rfl
  have hl : zoom.specs =
    [ .box "from" true false,
      .box "to" true true,
      .stepper "stepper" true false ] := rfl
  rw [GClass.objectNew, hc, Outcome.bind_ok, hl]
  generalize zoom.param args = v at hs
  simp only [GClass.setAll, PSpec.float, PSpec.uint, PSpec.box, PSpec.stepper, hs, GVal.stepperFrom]
  generalize v "from" = f
  rcases f with _ | _ | (_ | _) | _ | _ <;>
    simp [GClass.setChecked, hp, zoomSet, GClass.setStepper, AnimClass.setStepper, GVal.boxFrom, Zoom.new,
      AnimClass.new, AnimClass.set, Zoom.cls, Zoom.applySetter, Zoom.ensureNonZeroArea]

/-- The parameters the construct values describe. -/
def lampParams (v : String → GVal) (r : ℕ × ℕ) : MagicLamp.Params :=
    ⟨(v "source").boxFrom, (v "target").boxFrom, r.1, r.2, (v "bend-factor").getFloat,
      (v "offset-factor").getFloat, (v "stretch-factor").getFloat, (v "deform-speed-factor").getFloat⟩

theorem lamp_objectNew (args : List (String × GVal)) {s : Stepper} {r : ℕ × ℕ}
    (hs : lamp.param args "stepper" = .stepper (some s))
    (hr : (lamp.param args "resolution").sizesFrom = .ok r) :
    lamp.objectNew args =
      .ok { (MagicLamp.new (lampParams (lamp.param args) r) s).1 with stepper := s } := by
  have hc : ∀ v, lamp.construct v = (v "resolution").sizesFrom.bind fun r => .ok (MagicLamp.new (lampParams v r) (v "stepper").stepperFrom).1 := fun _ => rfl
  have hp : lamp.setProperty = lampSet := rfl
  have hl : lamp.specs =
    [ .box "source" true false,
      .box "target" true true,
      .vector "resolution" false true,
      .float "bend-factor" true false 1 20 10,
      .float "offset-factor" true false (1 / 10) 1 (5 / 10),
      .float "stretch-factor" false true (2 / 10) 1 (45 / 100),
      .float "deform-speed-factor" true false 1 4 (23 / 10),
      .stepper "stepper" true false ] := rfl
  rw [GClass.objectNew, hc, hr, Outcome.bind_ok, Outcome.bind_ok, hl]
  generalize lamp.param args = v at hs hr
  simp only [GClass.setAll, PSpec.float, PSpec.uint, PSpec.box, PSpec.vector, PSpec.stepper, hs, GVal.stepperFrom]
  rw [setChecked_same lamp _ _ _ (by
    simp only [hp, lampSet, if_true, lampParams]
    generalize v "source" = f
    rcases f with _ | _ | (_ | _) | _ | _ <;> rfl), Outcome.bind_ok]
  iterate 6
    rw [setChecked_same lamp _ _ _ (by simp [hp, lampSet]; try rfl), Outcome.bind_ok]
  simp [GClass.setChecked, hp, lampSet, GClass.setStepper, AnimClass.setStepper]

theorem lamp_objectNew_ub (args : List (String × GVal))
    (hr : (lamp.param args "resolution").sizesFrom = .ub) : lamp.objectNew args = .ub := by
  have hc : ∀ v, lamp.construct v = (v "resolution").sizesFrom.bind fun r => .ok (MagicLamp.new (lampParams v r) (v "stepper").stepperFrom).1 := fun _ => rfl
  rw [GClass.objectNew, hc, hr]; rfl

theorem mem_of_mem_collectFrom {P O S F : Type} (K : GClass P O S F) {l : List (String × GVal)} :
    ∀ seen, ∀ p ∈ K.collectFrom seen l, p ∈ l := by
  induction l with
  | nil => intro seen p hp; simp [GClass.collectFrom] at hp
  | cons q l ih =>
    obtain ⟨m, v⟩ := q
    intro seen p hp
    simp only [GClass.collectFrom] at hp
    split_ifs at hp
    · rcases List.mem_cons.1 hp with h | h
      · simp [h]
      · exact List.mem_cons_of_mem _ (ih _ p h)
    · simp at hp

theorem mem_of_mem_collect {P O S F : Type} (K : GClass P O S F) {l : List (String × GVal)} :
    ∀ p ∈ K.collect l, p ∈ l := mem_of_mem_collectFrom K []

theorem param_fits {P O S F : Type} (K : GClass P O S F) (Fits : String → GVal → Prop) {n : String} {sp : PSpec}
    (args : List (String × GVal)) (hargs : ∀ p ∈ args, Fits p.1 p.2) (hn : n ≠ "stepper") (hn' : n ≠ "resolution")
    (hfix : ∀ v, n ≠ "stepper" → n ≠ "resolution" → K.fixup n v = v)
    (hfind : K.find n = some sp) (hd : Fits n sp.default) : Fits n (K.param args n) := by
  unfold GClass.param
  rw [hfix _ hn hn', hfind]
  cases hf : (K.collect args).find? fun a => a.1 = n with
  | none => simpa using hd
  | some p =>
    have h1 := List.find?_some hf
    have h2 := mem_of_mem_collect K p (List.mem_of_find?_eq_some hf)
    simp only [decide_eq_true_eq] at h1
    rw [← h1]
    exact hargs p h2

theorem stepper_param {P O S F : Type} (K : GClass P O S F)
    (args : List (String × GVal)) (hargs : ∀ p ∈ args, p.1 = "stepper" → ∃ s, p.2 = .stepper s)
    (hfix : ∀ v, K.fixup "stepper" v = fixStepper "stepper" v)
    (hfind : K.find "stepper" = some (.stepper "stepper" true false)) :
    ∃ s, K.param args "stepper" = .stepper (some s) := by
  unfold GClass.param
  rw [hfix, hfind]
  cases hf : (K.collect args).find? fun a => a.1 = "stepper" with
  | none => exact ⟨linear 300, by simp [fixStepper, PSpec.stepper]⟩
  | some p =>
    have h1 := List.find?_some hf
    have h2 := mem_of_mem_collect K p (List.mem_of_find?_eq_some hf)
    simp only [decide_eq_true_eq] at h1
    obtain ⟨s, hs⟩ := hargs p h2 h1
    cases s <;> simp [fixStepper, hs]

/-- What native calls, and only those that stand for a call other than a setter function, preserve. -/
theorem native_preserves {P O S F : Type} (N : AnimClass P O S) (prop : String → GVal → Option (AnimOp S))
    (fn : F → S) (I : P → Prop) (hI : ∀ p n v s, I p → prop n v = some (.set s) → I (N.apply p s))
    (ops : List (GOp F)) : ∀ a : Anim P O, (∀ op ∈ ops, NotFunction op) → I a.params →
      I (N.run a (animCalls prop fn ops)).params := by
  induction ops with
  | nil => intro a _ h; exact h
  | cons op ops ih =>
    intro a hops h
    have h1 := hops op (by simp)
    have h2 := fun o ho => hops o (List.mem_cons_of_mem _ ho)
    cases op with
    | step ms => exact ih _ h2 h
    | setProperty n v =>
      simp only [animCalls, AnimClass.run, List.foldl_append]
      apply ih _ h2
      cases hp : prop n v with
      | none => simpa using h
      | some o =>
        cases o with
        | set s => exact hI _ _ _ _ h hp
        | _ => exact h
    | call f => exact absurd h1 id
    | callSetStepper s => cases s <;> exact ih _ h2 h

/-- What all native setters preserve. -/
theorem native_preserves_all {P O S F : Type} (N : AnimClass P O S) (prop : String → GVal → Option (AnimOp S))
    (fn : F → S) {α : Type} (g : P → α) (hf : ∀ p f, g (N.apply p (fn f)) = g p)
    (hI : ∀ p n v s, prop n v = some (.set s) → g (N.apply p s) = g p)
    (ops : List (GOp F)) : ∀ a : Anim P O, g (N.run a (animCalls prop fn ops)).params = g a.params := by
  induction ops with
  | nil => intro a; rfl
  | cons op ops ih =>
    intro a
    cases op with
    | step ms => exact ih _
    | setProperty n v =>
      simp only [animCalls, AnimClass.run, List.foldl_append]
      refine (ih _).trans ?_
      cases hp : prop n v with
      | none => simp
      | some o =>
        cases o with
        | set s => exact hI _ _ _ _ hp
        | _ => rfl
    | call f => exact (ih _).trans (hf _ _)
    | callSetStepper s => cases s <;> exact ih _

end

end Verif.GObj
