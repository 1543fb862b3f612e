import Verif.Model.GLampFloat
import Verif.Props.GOnTime

/-! # What an AnimationMagicLampAnimation shows is what is due at the time (C151) -/

set_option linter.unusedSimpArgs false

namespace Verif.Props

open XR (fin)
open Spec GObj

noncomputable section

variable (R : Rounding) (D : Rounding64) (sin sinf cosf : ℝ → ℝ)

local notation "MM" => Machine.ieee R D sin sinf cosf

section
variable (M : Machine) (ex : ℝ → ℝ)

theorem glamp_find_source : (Float.lamp R M ex).find "source" =
    some (.box "source" true false) := by
  simp [Float.lamp, GClass.find, PSpec.float, PSpec.uint, PSpec.box, PSpec.vector, PSpec.stepper]

theorem glamp_find_target : (Float.lamp R M ex).find "target" =
    some (.box "target" true true) := by
  simp [Float.lamp, GClass.find, PSpec.float, PSpec.uint, PSpec.box, PSpec.vector, PSpec.stepper]

theorem glamp_find_resolution : (Float.lamp R M ex).find "resolution" =
    some (.vector "resolution" false true) := by
  simp [Float.lamp, GClass.find, PSpec.float, PSpec.uint, PSpec.box, PSpec.vector, PSpec.stepper]

theorem glamp_find_bend_factor : (Float.lamp R M ex).find "bend-factor" =
    some (.float "bend-factor" true false 1 20 10) := by
  simp [Float.lamp, GClass.find, PSpec.float, PSpec.uint, PSpec.box, PSpec.vector, PSpec.stepper]

theorem glamp_find_offset_factor : (Float.lamp R M ex).find "offset-factor" =
    some (.float "offset-factor" true false (1 / 10) 1 (5 / 10)) := by
  simp [Float.lamp, GClass.find, PSpec.float, PSpec.uint, PSpec.box, PSpec.vector, PSpec.stepper]

theorem glamp_find_stretch_factor : (Float.lamp R M ex).find "stretch-factor" =
    some (.float "stretch-factor" false true (2 / 10) 1 (R.rnd (45 / 100))) := by
  simp [Float.lamp, GClass.find, PSpec.float, PSpec.uint, PSpec.box, PSpec.vector, PSpec.stepper]

theorem glamp_find_deform_speed_factor : (Float.lamp R M ex).find "deform-speed-factor" =
    some (.float "deform-speed-factor" true false 1 4 (R.rnd (23 / 10))) := by
  simp [Float.lamp, GClass.find, PSpec.float, PSpec.uint, PSpec.box, PSpec.vector, PSpec.stepper]

theorem glamp_find_stepper : (Float.lamp R M ex).find "stepper" =
    some (.stepper "stepper" true false) := by
  simp [Float.lamp, GClass.find, PSpec.float, PSpec.uint, PSpec.box, PSpec.vector, PSpec.stepper]

theorem glamp_set (a : Anim MagicLamp.Params (Outcome MagicLamp.Grid)) (n : String) (v : GVal)
    (h : ¬ (n = "stepper" ∧ v = .stepper none)) :
    (Float.lamp R M ex).set a n v = .ok (((lampProperty n v).toList).foldl (M.lamp ex).exec a) := by
  have hs : (Float.lamp R M ex).setProperty = Float.lampSet M ex := rfl
  by_cases h0 : n = "source"
  · subst h0
    rcases v with _ | _ | (_ | _) | _ | _ <;> simp [GClass.set, glamp_find_source, GClass.setChecked, PSpec.float, PSpec.uint, PSpec.box, PSpec.vector, PSpec.stepper,
      hs, lampProperty, within, Float.lampSet, GVal.getFloat, GVal.getUint, GClass.setStepper]
    rfl
  by_cases h1 : n = "target"
  · subst h1
    cases v <;> simp [GClass.set, glamp_find_target, GClass.setChecked, PSpec.float, PSpec.uint, PSpec.box, PSpec.vector, PSpec.stepper,
      hs, lampProperty, within, Float.lampSet, GVal.getFloat, GVal.getUint, GClass.setStepper]
  by_cases h2 : n = "resolution"
  · subst h2
    cases v <;> simp [GClass.set, glamp_find_resolution, GClass.setChecked, PSpec.float, PSpec.uint, PSpec.box, PSpec.vector, PSpec.stepper,
      hs, lampProperty, within, Float.lampSet, GVal.getFloat, GVal.getUint, GClass.setStepper]
  by_cases h3 : n = "bend-factor"
  · subst h3
    cases v <;> simp [GClass.set, glamp_find_bend_factor, GClass.setChecked, PSpec.float, PSpec.uint, PSpec.box, PSpec.vector, PSpec.stepper,
      hs, lampProperty, within, Float.lampSet, GVal.getFloat, GVal.getUint, GClass.setStepper]
    split_ifs <;> rfl
  by_cases h4 : n = "offset-factor"
  · subst h4
    cases v <;> simp [GClass.set, glamp_find_offset_factor, GClass.setChecked, PSpec.float, PSpec.uint, PSpec.box, PSpec.vector, PSpec.stepper,
      hs, lampProperty, within, Float.lampSet, GVal.getFloat, GVal.getUint, GClass.setStepper]
    split_ifs <;> rfl
  by_cases h5 : n = "stretch-factor"
  · subst h5
    cases v <;> simp [GClass.set, glamp_find_stretch_factor, GClass.setChecked, PSpec.float, PSpec.uint, PSpec.box, PSpec.vector, PSpec.stepper,
      hs, lampProperty, within, Float.lampSet, GVal.getFloat, GVal.getUint, GClass.setStepper]
  by_cases h6 : n = "deform-speed-factor"
  · subst h6
    cases v <;> simp [GClass.set, glamp_find_deform_speed_factor, GClass.setChecked, PSpec.float, PSpec.uint, PSpec.box, PSpec.vector, PSpec.stepper,
      hs, lampProperty, within, Float.lampSet, GVal.getFloat, GVal.getUint, GClass.setStepper]
    split_ifs <;> rfl
  by_cases h7 : n = "stepper"
  · subst h7
    rcases v with _ | _ | _ | _ | (_ | _) <;> simp [GClass.set, glamp_find_stepper, GClass.setChecked, PSpec.float, PSpec.uint, PSpec.box, PSpec.vector, PSpec.stepper,
      hs, lampProperty, within, Float.lampSet, GVal.getFloat, GVal.getUint, GClass.setStepper] at h ⊢
    rfl
  have h20 : lampProperty n v = none := by
    unfold lampProperty; split <;> simp_all
  have h21 : (Float.lamp R M ex).find n = none := by
    simp [GClass.find, Float.lamp, PSpec.float, PSpec.uint, PSpec.box, PSpec.vector, PSpec.stepper, Ne.symm h0, Ne.symm h1,
      Ne.symm h2, Ne.symm h3, Ne.symm h4, Ne.symm h5, Ne.symm h6, Ne.symm h7]
  simp [h20, GClass.set, h21]

/-- A lamp made with these values is the native one. -/
theorem glamp_objectNew (args : List (String × GVal)) (f t : Option Box) (r : Pt) (be o st v : ℝ) (s : Stepper)
    (hr : 0 ≤ r.x ∧ 0 ≤ r.y)
    (p1 : (Float.lamp R M ex).param args "source" = .box f)
    (p2 : (Float.lamp R M ex).param args "target" = .box t)
    (p3 : (Float.lamp R M ex).param args "resolution" = .vector (some r))
    (p4 : (Float.lamp R M ex).param args "bend-factor" = .float be)
    (p5 : (Float.lamp R M ex).param args "offset-factor" = .float o)
    (p6 : (Float.lamp R M ex).param args "stretch-factor" = .float st)
    (p7 : (Float.lamp R M ex).param args "deform-speed-factor" = .float v)
    (p8 : (Float.lamp R M ex).param args "stepper" = .stepper (some s)) (hs : s.after 0 = s) :
    (Float.lamp R M ex).objectNew args =
      .ok (M.lampNew ex ⟨boxOr f, boxOr t, ⌊r.x⌋₊, ⌊r.y⌋₊, be, o, st, v⟩ s).1 := by
  have hp : (Float.lamp R M ex).setProperty = Float.lampSet M ex := rfl
  have hc : ∀ v, (Float.lamp R M ex).construct v = (v "resolution").sizesFrom.bind fun r => .ok (M.lampNew ex
    ⟨(v "source").boxFrom, (v "target").boxFrom, r.1, r.2, (v "bend-factor").getFloat,
      (v "offset-factor").getFloat, (v "stretch-factor").getFloat, (v "deform-speed-factor").getFloat⟩
    (v "stepper").stepperFrom).1 := fun _ => rfl
  have hl : (Float.lamp R M ex).specs =
    [ .box "source" true false,
      .box "target" true true,
      .vector "resolution" false true,
      .float "bend-factor" true false 1 20 10,
      .float "offset-factor" true false (1 / 10) 1 (5 / 10),
      .float "stretch-factor" false true (2 / 10) 1 (R.rnd (45 / 100)),
      .float "deform-speed-factor" true false 1 4 (R.rnd (23 / 10)),
      .stepper "stepper" true false ] := rfl
  have b1 : ∀ b : Option Box, (GVal.box b).boxFrom = boxOr b := fun b => by cases b <;> rfl
  have sz : (GVal.vector (some r)).sizesFrom = .ok (⌊r.x⌋₊, ⌊r.y⌋₊) := by
    simp [GVal.sizesFrom, MagicLamp.toSize, show ¬ r.x ≤ -1 by linarith [hr.1], show ¬ r.y ≤ -1 by linarith [hr.2]]
  rw [GClass.objectNew, hc, hl]
  generalize (Float.lamp R M ex).param args = q at *
  simp only [GClass.setAll, PSpec.float, PSpec.uint, PSpec.box, PSpec.vector, PSpec.stepper, p1, p2, p3, p4, p5, p6, p7, p8, b1,
    GVal.stepperFrom, GVal.getFloat, GVal.getUint, sz, Outcome.bind_ok]
  rw [setChecked_same (Float.lamp R M ex) _ _ _ (by
    simp only [hp, Float.lampSet, if_true]
    cases f <;> rfl), Outcome.bind_ok]
  iterate 6
    rw [setChecked_same (Float.lamp R M ex) _ _ _ (by simp [hp, Float.lampSet, GVal.getFloat]; try rfl), Outcome.bind_ok]
  simp [GClass.setChecked, hp, Float.lampSet, GClass.setStepper, AnimClass.setStepper, Machine.lampNew, AnimClass.new, hs]

theorem glamp_given (f t : Option Box) (r : Option Pt) (be o st v : ℝ) (s : Option Stepper)
    (hr : 0 ≤ (r.getD ⟨10, 10⟩).x ∧ 0 ≤ (r.getD ⟨10, 10⟩).y)
    (hs : (s.getD (linear32 R 300)).after 0 = s.getD (linear32 R 300)) :
    (Float.lamp R M ex).objectNew [("source", .box f), ("target", .box t), ("resolution", .vector r), ("bend-factor", .float be), ("offset-factor", .float o),
        ("stretch-factor", .float st), ("deform-speed-factor", .float v), ("stepper", .stepper s)] =
      .ok (M.lampNew ex ⟨boxOr f, boxOr t, ⌊(r.getD ⟨10, 10⟩).x⌋₊, ⌊(r.getD ⟨10, 10⟩).y⌋₊, be, o, st, v⟩
        (s.getD (linear32 R 300))).1 := by
  have hf : (Float.lamp R M ex).fixup = Float.lampFixup R := rfl
  have p1 : (Float.lamp R M ex).param [("source", .box f), ("target", .box t), ("resolution", .vector r), ("bend-factor", .float be), ("offset-factor", .float o),
        ("stretch-factor", .float st), ("deform-speed-factor", .float v), ("stepper", .stepper s)] "source" = .box f := by
    simp [GClass.param, GClass.collect, GClass.collectFrom, glamp_find_source, glamp_find_target, glamp_find_resolution, glamp_find_bend_factor, glamp_find_offset_factor, glamp_find_stretch_factor, glamp_find_deform_speed_factor, glamp_find_stepper,
      hf, Float.lampFixup, Float.fixStepper, PSpec.float, PSpec.uint, PSpec.box, PSpec.vector, PSpec.stepper]
  have p2 : (Float.lamp R M ex).param [("source", .box f), ("target", .box t), ("resolution", .vector r), ("bend-factor", .float be), ("offset-factor", .float o),
        ("stretch-factor", .float st), ("deform-speed-factor", .float v), ("stepper", .stepper s)] "target" = .box t := by
    simp [GClass.param, GClass.collect, GClass.collectFrom, glamp_find_source, glamp_find_target, glamp_find_resolution, glamp_find_bend_factor, glamp_find_offset_factor, glamp_find_stretch_factor, glamp_find_deform_speed_factor, glamp_find_stepper,
      hf, Float.lampFixup, Float.fixStepper, PSpec.float, PSpec.uint, PSpec.box, PSpec.vector, PSpec.stepper]
  have p3 : (Float.lamp R M ex).param [("source", .box f), ("target", .box t), ("resolution", .vector r), ("bend-factor", .float be), ("offset-factor", .float o),
        ("stretch-factor", .float st), ("deform-speed-factor", .float v), ("stepper", .stepper s)] "resolution" = .vector (some (r.getD ⟨10, 10⟩)) := by
    cases r <;> simp [GClass.param, GClass.collect, GClass.collectFrom, glamp_find_source, glamp_find_target, glamp_find_resolution, glamp_find_bend_factor, glamp_find_offset_factor, glamp_find_stretch_factor, glamp_find_deform_speed_factor, glamp_find_stepper,
      hf, Float.lampFixup, Float.fixStepper, PSpec.float, PSpec.uint, PSpec.box, PSpec.vector, PSpec.stepper]
  have p4 : (Float.lamp R M ex).param [("source", .box f), ("target", .box t), ("resolution", .vector r), ("bend-factor", .float be), ("offset-factor", .float o),
        ("stretch-factor", .float st), ("deform-speed-factor", .float v), ("stepper", .stepper s)] "bend-factor" = .float be := by
    simp [GClass.param, GClass.collect, GClass.collectFrom, glamp_find_source, glamp_find_target, glamp_find_resolution, glamp_find_bend_factor, glamp_find_offset_factor, glamp_find_stretch_factor, glamp_find_deform_speed_factor, glamp_find_stepper,
      hf, Float.lampFixup, Float.fixStepper, PSpec.float, PSpec.uint, PSpec.box, PSpec.vector, PSpec.stepper]
  have p5 : (Float.lamp R M ex).param [("source", .box f), ("target", .box t), ("resolution", .vector r), ("bend-factor", .float be), ("offset-factor", .float o),
        ("stretch-factor", .float st), ("deform-speed-factor", .float v), ("stepper", .stepper s)] "offset-factor" = .float o := by
    simp [GClass.param, GClass.collect, GClass.collectFrom, glamp_find_source, glamp_find_target, glamp_find_resolution, glamp_find_bend_factor, glamp_find_offset_factor, glamp_find_stretch_factor, glamp_find_deform_speed_factor, glamp_find_stepper,
      hf, Float.lampFixup, Float.fixStepper, PSpec.float, PSpec.uint, PSpec.box, PSpec.vector, PSpec.stepper]
  have p6 : (Float.lamp R M ex).param [("source", .box f), ("target", .box t), ("resolution", .vector r), ("bend-factor", .float be), ("offset-factor", .float o),
        ("stretch-factor", .float st), ("deform-speed-factor", .float v), ("stepper", .stepper s)] "stretch-factor" = .float st := by
    simp [GClass.param, GClass.collect, GClass.collectFrom, glamp_find_source, glamp_find_target, glamp_find_resolution, glamp_find_bend_factor, glamp_find_offset_factor, glamp_find_stretch_factor, glamp_find_deform_speed_factor, glamp_find_stepper,
      hf, Float.lampFixup, Float.fixStepper, PSpec.float, PSpec.uint, PSpec.box, PSpec.vector, PSpec.stepper]
  have p7 : (Float.lamp R M ex).param [("source", .box f), ("target", .box t), ("resolution", .vector r), ("bend-factor", .float be), ("offset-factor", .float o),
        ("stretch-factor", .float st), ("deform-speed-factor", .float v), ("stepper", .stepper s)] "deform-speed-factor" = .float v := by
    simp [GClass.param, GClass.collect, GClass.collectFrom, glamp_find_source, glamp_find_target, glamp_find_resolution, glamp_find_bend_factor, glamp_find_offset_factor, glamp_find_stretch_factor, glamp_find_deform_speed_factor, glamp_find_stepper,
      hf, Float.lampFixup, Float.fixStepper, PSpec.float, PSpec.uint, PSpec.box, PSpec.vector, PSpec.stepper]
  have p8 : (Float.lamp R M ex).param [("source", .box f), ("target", .box t), ("resolution", .vector r), ("bend-factor", .float be), ("offset-factor", .float o),
        ("stretch-factor", .float st), ("deform-speed-factor", .float v), ("stepper", .stepper s)] "stepper" = .stepper (some (s.getD (linear32 R 300))) := by
    cases s <;> simp [GClass.param, GClass.collect, GClass.collectFrom, glamp_find_source, glamp_find_target, glamp_find_resolution, glamp_find_bend_factor, glamp_find_offset_factor, glamp_find_stretch_factor, glamp_find_deform_speed_factor, glamp_find_stepper,
      hf, Float.lampFixup, Float.fixStepper, PSpec.float, PSpec.uint, PSpec.box, PSpec.vector, PSpec.stepper]
  exact glamp_objectNew R M ex _ f t _ be o st v _ hr p1 p2 p3 p4 p5 p6 p7 p8 hs

theorem glampNew_eq (f t : Option Box) (r : Option Pt) (be o st v : ℝ) (s : Option Stepper)
    (hr : 0 ≤ (r.getD ⟨10, 10⟩).x ∧ 0 ≤ (r.getD ⟨10, 10⟩).y)
    (hs : (s.getD (linear32 R 300)).after 0 = s.getD (linear32 R 300)) :
    Float.lampNew R M ex f t r be o st v s =
      .ok (M.lampNew ex ⟨boxOr f, boxOr t, ⌊(r.getD ⟨10, 10⟩).x⌋₊, ⌊(r.getD ⟨10, 10⟩).y⌋₊, 10, 5 / 10, R.rnd (45 / 100),
        R.rnd (23 / 10)⟩ (s.getD (linear32 R 300))).1 := by
  have hf : (Float.lamp R M ex).fixup = Float.lampFixup R := rfl
  have p1 : (Float.lamp R M ex).param [("source", .box f), ("target", .box t), ("resolution", .vector r), ("stepper", .stepper s)] "source" = .box f := by
    simp [GClass.param, GClass.collect, GClass.collectFrom, glamp_find_source, glamp_find_target, glamp_find_resolution, glamp_find_bend_factor, glamp_find_offset_factor, glamp_find_stretch_factor, glamp_find_deform_speed_factor, glamp_find_stepper,
      hf, Float.lampFixup, Float.fixStepper, PSpec.float, PSpec.uint, PSpec.box, PSpec.vector, PSpec.stepper]
  have p2 : (Float.lamp R M ex).param [("source", .box f), ("target", .box t), ("resolution", .vector r), ("stepper", .stepper s)] "target" = .box t := by
    simp [GClass.param, GClass.collect, GClass.collectFrom, glamp_find_source, glamp_find_target, glamp_find_resolution, glamp_find_bend_factor, glamp_find_offset_factor, glamp_find_stretch_factor, glamp_find_deform_speed_factor, glamp_find_stepper,
      hf, Float.lampFixup, Float.fixStepper, PSpec.float, PSpec.uint, PSpec.box, PSpec.vector, PSpec.stepper]
  have p3 : (Float.lamp R M ex).param [("source", .box f), ("target", .box t), ("resolution", .vector r), ("stepper", .stepper s)] "resolution" = .vector (some (r.getD ⟨10, 10⟩)) := by
    cases r <;> simp [GClass.param, GClass.collect, GClass.collectFrom, glamp_find_source, glamp_find_target, glamp_find_resolution, glamp_find_bend_factor, glamp_find_offset_factor, glamp_find_stretch_factor, glamp_find_deform_speed_factor, glamp_find_stepper,
      hf, Float.lampFixup, Float.fixStepper, PSpec.float, PSpec.uint, PSpec.box, PSpec.vector, PSpec.stepper]
  have p4 : (Float.lamp R M ex).param [("source", .box f), ("target", .box t), ("resolution", .vector r), ("stepper", .stepper s)] "bend-factor" = .float 10 := by
    simp [GClass.param, GClass.collect, GClass.collectFrom, glamp_find_source, glamp_find_target, glamp_find_resolution, glamp_find_bend_factor, glamp_find_offset_factor, glamp_find_stretch_factor, glamp_find_deform_speed_factor, glamp_find_stepper,
      hf, Float.lampFixup, Float.fixStepper, PSpec.float, PSpec.uint, PSpec.box, PSpec.vector, PSpec.stepper]
  have p5 : (Float.lamp R M ex).param [("source", .box f), ("target", .box t), ("resolution", .vector r), ("stepper", .stepper s)] "offset-factor" = .float (5 / 10) := by
    simp [GClass.param, GClass.collect, GClass.collectFrom, glamp_find_source, glamp_find_target, glamp_find_resolution, glamp_find_bend_factor, glamp_find_offset_factor, glamp_find_stretch_factor, glamp_find_deform_speed_factor, glamp_find_stepper,
      hf, Float.lampFixup, Float.fixStepper, PSpec.float, PSpec.uint, PSpec.box, PSpec.vector, PSpec.stepper]
  have p6 : (Float.lamp R M ex).param [("source", .box f), ("target", .box t), ("resolution", .vector r), ("stepper", .stepper s)] "stretch-factor" = .float (R.rnd (45 / 100)) := by
    simp [GClass.param, GClass.collect, GClass.collectFrom, glamp_find_source, glamp_find_target, glamp_find_resolution, glamp_find_bend_factor, glamp_find_offset_factor, glamp_find_stretch_factor, glamp_find_deform_speed_factor, glamp_find_stepper,
      hf, Float.lampFixup, Float.fixStepper, PSpec.float, PSpec.uint, PSpec.box, PSpec.vector, PSpec.stepper]
  have p7 : (Float.lamp R M ex).param [("source", .box f), ("target", .box t), ("resolution", .vector r), ("stepper", .stepper s)] "deform-speed-factor" = .float (R.rnd (23 / 10)) := by
    simp [GClass.param, GClass.collect, GClass.collectFrom, glamp_find_source, glamp_find_target, glamp_find_resolution, glamp_find_bend_factor, glamp_find_offset_factor, glamp_find_stretch_factor, glamp_find_deform_speed_factor, glamp_find_stepper,
      hf, Float.lampFixup, Float.fixStepper, PSpec.float, PSpec.uint, PSpec.box, PSpec.vector, PSpec.stepper]
  have p8 : (Float.lamp R M ex).param [("source", .box f), ("target", .box t), ("resolution", .vector r), ("stepper", .stepper s)] "stepper" = .stepper (some (s.getD (linear32 R 300))) := by
    cases s <;> simp [GClass.param, GClass.collect, GClass.collectFrom, glamp_find_source, glamp_find_target, glamp_find_resolution, glamp_find_bend_factor, glamp_find_offset_factor, glamp_find_stretch_factor, glamp_find_deform_speed_factor, glamp_find_stepper,
      hf, Float.lampFixup, Float.fixStepper, PSpec.float, PSpec.uint, PSpec.box, PSpec.vector, PSpec.stepper]
  exact glamp_objectNew R M ex _ f t _ 10 (5 / 10) (R.rnd (45 / 100)) (R.rnd (23 / 10)) _ hr p1 p2 p3 p4 p5 p6 p7 p8 hs

theorem lampProperty_set (n : String) (v : GVal) (hn : n ≠ "stepper") :
    lampProperty n v = none ∨ ∃ x, lampProperty n v = some (.set x) := by
  unfold lampProperty within
  split <;> (try split_ifs) <;> simp_all

/-- What matters for the rows after a history, and that the resolution stays. -/
theorem glamp_params (ops : List (GOp LampFn)) (h : ∀ op ∈ ops, LeavesStepper op) :
    KeepsResolution (animCalls lampProperty LampFn.native ops) ∧
    ∀ a : Anim MagicLamp.Params (Outcome MagicLamp.Grid),
      ((M.lamp ex).run a (animCalls lampProperty LampFn.native ops)).params.source = gLampSource a.params.source ops ∧
      ((M.lamp ex).run a (animCalls lampProperty LampFn.native ops)).params.stretch = gLampStretch a.params.stretch ops ∧
      ((M.lamp ex).run a (animCalls lampProperty LampFn.native ops)).params.target = a.params.target ∧
      ((M.lamp ex).run a (animCalls lampProperty LampFn.native ops)).params.gw = a.params.gw ∧
      ((M.lamp ex).run a (animCalls lampProperty LampFn.native ops)).params.gh = a.params.gh := by
  induction ops with
  | nil => exact ⟨by intro _ _ h; simp [animCalls] at h, fun a => ⟨rfl, rfl, rfl, rfl, rfl⟩⟩
  | cons op ops ih =>
    obtain ⟨i1, i6⟩ := ih fun o ho => h o (List.mem_cons_of_mem _ ho)
    have h0 := h op List.mem_cons_self
    cases op with
    | step ms =>
      refine ⟨?_, fun a => i6 _⟩
      intro gw gh hh
      rcases List.mem_cons.1 hh with hh | hh
      · cases hh
      · exact i1 gw gh hh
    | call s =>
      refine ⟨?_, fun a => by cases s <;> exact i6 _⟩
      intro gw gh hh
      rcases List.mem_cons.1 hh with hh | hh
      · cases s <;> cases hh
      · exact i1 gw gh hh
    | callSetStepper s => exact absurd h0 (by simp [LeavesStepper])
    | setProperty n v =>
      have hn : n ≠ "stepper" := h0
      constructor
      · intro gw gh hh
        rcases List.mem_append.1 hh with hh | hh
        · unfold lampProperty within at hh
          split at hh <;> (try split_ifs at hh) <;> simp_all
        · exact i1 gw gh hh
      intro a
      have e : ∀ a, (M.lamp ex).run a (animCalls lampProperty LampFn.native (.setProperty n v :: ops)) =
          (M.lamp ex).run ((M.lamp ex).run a (lampProperty n v).toList) (animCalls lampProperty LampFn.native ops) := by
        intro a
        rw [← run_append]
        rfl
      rw [e]
      have k := i6 ((M.lamp ex).run a (lampProperty n v).toList)
      have hst : gLampStretch a.params.stretch (.setProperty n v :: ops) = gLampStretch a.params.stretch ops := rfl
      rw [hst]
      by_cases hb : ∃ b, n = "source" ∧ v = .box (some b)
      · obtain ⟨b, rfl, rfl⟩ := hb
        exact k
      have hg : gLampSource a.params.source (.setProperty n v :: ops) = gLampSource a.params.source ops := by
        rw [gLampSource.eq_def]
        split <;> simp_all
      rw [hg]
      have same : ((M.lamp ex).run a (lampProperty n v).toList).params.source = a.params.source ∧
          ((M.lamp ex).run a (lampProperty n v).toList).params.stretch = a.params.stretch ∧
          ((M.lamp ex).run a (lampProperty n v).toList).params.target = a.params.target ∧
          ((M.lamp ex).run a (lampProperty n v).toList).params.gw = a.params.gw ∧
          ((M.lamp ex).run a (lampProperty n v).toList).params.gh = a.params.gh := by
        unfold lampProperty within
        split
        · exact absurd ⟨_, rfl, rfl⟩ hb
        · split_ifs <;> exact ⟨rfl, rfl, rfl, rfl, rfl⟩
        · split_ifs <;> exact ⟨rfl, rfl, rfl, rfl, rfl⟩
        · split_ifs <;> exact ⟨rfl, rfl, rfl, rfl, rfl⟩
        · exact absurd rfl hn
        · exact ⟨rfl, rfl, rfl, rfl, rfl⟩
      obtain ⟨s1, s2, s3, s4, s5⟩ := same
      rw [s1, s2, s3, s4, s5] at k
      exact k

end

/-- Stepping a lamp from the state the native constructor makes. -/
theorem glamp_due (ex : ℝ → ℝ) {L : ℝ} (hL : 0 < L) (p0 : MagicLamp.Params) (s : Stepper) (ops : List (GOp LampFn))
    (hk : ∀ op ∈ ops, LeavesStepper op) (m : ℕ) (hm : ∀ ms, GOp.step ms ∈ ops ++ [.step m] → ms ≤ 2 ^ 24) {t : ℝ}
    (hd : DueAt R L s (gElapsed ops + m) t) (p : MagicLamp.Params) (h1 : p.source = gLampSource p0.source ops)
    (h2 : p.stretch = gLampStretch p0.stretch ops) (h3 : p.target = p0.target) (h4 : p.gw = p0.gw) (h5 : p.gh = p0.gh)
    (hgh : 2 ≤ p.gh ∧ p.gh ≤ 2 ^ 20) (hsrc : OnDesktop p.source) (htgt : OnDesktop p.target)
    (hst : Single p.stretch ∧ 0.2 ≤ p.stretch ∧ p.stretch < 1) :
    ∃ a g, (Float.lamp R (MM) ex).run ((MM).lampNew ex p0 s).1 (ops ++ [.step m]) = .ok a ∧ a.out = .ok g ∧
      ∀ i j, i < p.gw → j < p.gh → ∃ v y, g[j * p.gw + i]? = some v ∧ v.y = fin y ∧
        |y - rowHeight p t j| ≤ ((p.gh : ℝ) - 1) / 256 + 1 / 64 + 1 / (1024 * (1 - p.stretch)) * (gFrames ops + 2) := by
  obtain ⟨q1, q2, q3, q4, q5⟩ := gcalls lampProperty LampFn.native lampProperty_set ops hk
  obtain ⟨r1, r2⟩ := glamp_params (MM) ex ops hk
  have hrun := run_native (Float.lamp R (MM) ex) lampProperty LampFn.native rfl (glamp_set R (MM) ex) (ops ++ [.step m])
    ((MM).lampNew ex p0 s).1 (by
      intro op ho
      rcases List.mem_append.1 ho with ho | ho
      · exact q1 op ho
      · rw [List.mem_singleton] at ho
        subst ho
        exact fun h => h)
  have e4 : ShortFrames (animCalls lampProperty LampFn.native ops ++ [.step m]) := by
    intro ms h
    refine hm ms ?_
    rcases List.mem_append.1 h with h | h
    · exact List.mem_append_left _ (q5 ms h)
    · rw [List.mem_singleton] at h
      cases h
      exact List.mem_append_right _ (List.mem_singleton_self _)
  obtain ⟨k1, k2, k3, k4, k5⟩ := r2 ((MM).lampNew ex p0 s).1
  set p' := (((MM).lamp ex).run ((MM).lampNew ex p0 s).1 (animCalls lampProperty LampFn.native ops)).params with hp'
  have k1 : p'.source = p.source := k1.trans h1.symm
  have k2 : p'.stretch = p.stretch := k2.trans h2.symm
  have k3 : p'.target = p.target := k3.trans h3.symm
  have k4 : p'.gw = p.gw := k4.trans h4.symm
  have k5 : p'.gh = p.gh := k5.trans h5.symm
  obtain ⟨g, eg, hv⟩ := C123_lamp_rows R D sin sinf cosf ex hL p0 _ q2 r1 m e4 (q3 ▸ hd) p' hp'.symm (k5 ▸ hgh) (k1 ▸ hsrc)
    (k3 ▸ htgt) (k2 ▸ hst)
  have hrow : ∀ j, rowHeight p' t j = rowHeight p t j := by
    intro j
    unfold rowHeight
    rw [k1, k2, k3, k4, k5]
  refine ⟨_, g, hrun, ?_, fun i j hi hj => ?_⟩
  · rw [animCalls_step, show (Float.lamp R (MM) ex).native = (MM).lamp ex from rfl, run_append]
    exact eg
  · obtain ⟨v, y, a1, a2, a3⟩ := hv i j (k4 ▸ hi) (k5 ▸ hj)
    rw [hrow, k2, k5, q4] at a3
    rw [k4] at a1
    exact ⟨v, y, a1, a2, a3⟩

/-- **C151.** An AnimationMagicLampAnimation made with `g_object_new` and all its properties, after any calls that leave the
stepper alone: when it is stepped, every row of its grid is at the height that is due at the time, up to the error of C104
and a 1024th of a pixel for every frame, divided by what the stretch lacks of 1. -/
theorem C151_rows (ex : ℝ → ℝ) {L : ℝ} (hL : 0 < L) (f0 t0 : Option Box) (r0 : Option Pt) (be o st ds : ℝ)
    (s : Option Stepper) (ops : List (GOp LampFn)) (hk : ∀ op ∈ ops, LeavesStepper op) (m : ℕ)
    (hm : ∀ ms, GOp.step ms ∈ ops ++ [.step m] → ms ≤ 2 ^ 24) {t : ℝ}
    (hd : DueAt R L (s.getD (linear32 R 300)) (gElapsed ops + m) t)
    (hr : 0 ≤ (r0.getD ⟨10, 10⟩).x ∧ 0 ≤ (r0.getD ⟨10, 10⟩).y) (p : MagicLamp.Params)
    (h1 : p.source = gLampSource (boxOr f0) ops) (h2 : p.target = boxOr t0) (h3 : p.stretch = gLampStretch st ops)
    (h4 : p.gw = ⌊(r0.getD ⟨10, 10⟩).x⌋₊) (h5 : p.gh = ⌊(r0.getD ⟨10, 10⟩).y⌋₊)
    (hgh : 2 ≤ p.gh ∧ p.gh ≤ 2 ^ 20) (hsrc : OnDesktop p.source) (htgt : OnDesktop p.target)
    (hst : Single p.stretch ∧ 0.2 ≤ p.stretch ∧ p.stretch < 1) :
    ∃ a0 a g, (Float.lamp R (MM) ex).objectNew [("source", .box f0), ("target", .box t0), ("resolution", .vector r0),
        ("bend-factor", .float be), ("offset-factor", .float o), ("stretch-factor", .float st),
        ("deform-speed-factor", .float ds), ("stepper", .stepper s)] = .ok a0 ∧
      (Float.lamp R (MM) ex).run a0 (ops ++ [.step m]) = .ok a ∧ a.out = .ok g ∧
      ∀ i j, i < p.gw → j < p.gh → ∃ v y, g[j * p.gw + i]? = some v ∧ v.y = fin y ∧
        |y - rowHeight p t j| ≤ ((p.gh : ℝ) - 1) / 256 + 1 / 64 + 1 / (1024 * (1 - p.stretch)) * (gFrames ops + 2) := by
  obtain ⟨a, g, h, h', h''⟩ := glamp_due R D sin sinf cosf ex hL ⟨boxOr f0, boxOr t0, ⌊(r0.getD ⟨10, 10⟩).x⌋₊,
    ⌊(r0.getD ⟨10, 10⟩).y⌋₊, be, o, st, ds⟩ _ ops hk m hm hd p h1 h3 h2 h4 h5 hgh hsrc htgt hst
  exact ⟨_, a, g, glamp_given R (MM) ex f0 t0 r0 be o st ds s hr (due_after R hL hd), h, h', h''⟩

/-- **C151.** The same for one made with `animation_magiclamp_new`. The factors it is given do not matter (C62): the stretch
is 0.45 until the setter function changes it. -/
theorem C151_rows_new (ex : ℝ → ℝ) {L : ℝ} (hL : 0 < L) (f0 t0 : Option Box) (r0 : Option Pt) (be o st ds : ℝ)
    (s : Option Stepper) (ops : List (GOp LampFn)) (hk : ∀ op ∈ ops, LeavesStepper op) (m : ℕ)
    (hm : ∀ ms, GOp.step ms ∈ ops ++ [.step m] → ms ≤ 2 ^ 24) {t : ℝ}
    (hd : DueAt R L (s.getD (linear32 R 300)) (gElapsed ops + m) t)
    (hr : 0 ≤ (r0.getD ⟨10, 10⟩).x ∧ 0 ≤ (r0.getD ⟨10, 10⟩).y) (p : MagicLamp.Params)
    (h1 : p.source = gLampSource (boxOr f0) ops) (h2 : p.target = boxOr t0)
    (h3 : p.stretch = gLampStretch (R.rnd (45 / 100)) ops)
    (h4 : p.gw = ⌊(r0.getD ⟨10, 10⟩).x⌋₊) (h5 : p.gh = ⌊(r0.getD ⟨10, 10⟩).y⌋₊)
    (hgh : 2 ≤ p.gh ∧ p.gh ≤ 2 ^ 20) (hsrc : OnDesktop p.source) (htgt : OnDesktop p.target)
    (hst : (∃ w, GOp.call (.stretch w) ∈ ops) → Single p.stretch ∧ 0.2 ≤ p.stretch ∧ p.stretch < 1) :
    ∃ a0 a g, Float.lampNew R (MM) ex f0 t0 r0 be o st ds s = .ok a0 ∧
      (Float.lamp R (MM) ex).run a0 (ops ++ [.step m]) = .ok a ∧ a.out = .ok g ∧
      ∀ i j, i < p.gw → j < p.gh → ∃ v y, g[j * p.gw + i]? = some v ∧ v.y = fin y ∧
        |y - rowHeight p t j| ≤ ((p.gh : ℝ) - 1) / 256 + 1 / 64 + 1 / (1024 * (1 - p.stretch)) * (gFrames ops + 2) := by
  have hst : Single p.stretch ∧ 0.2 ≤ p.stretch ∧ p.stretch < 1 := by
    by_cases hw : ∃ w, GOp.call (.stretch w) ∈ ops
    · exact hst hw
    have e : gLampStretch (R.rnd (45 / 100)) ops = R.rnd (45 / 100) := by
      clear * - hw
      induction ops with
      | nil => rfl
      | cons op ops ih =>
        have i := ih fun ⟨w, h⟩ => hw ⟨w, List.mem_cons_of_mem _ h⟩
        cases op with
        | call c =>
          cases c with
          | stretch w => exact absurd ⟨w, List.mem_cons_self⟩ hw
          | _ => exact i
        | _ => exact i
    rw [h3, e]
    have := abs_le.1 (R.error (x := 45 / 100) (by norm_num) (by norm_num))
    norm_num at this
    exact ⟨R.single _, by norm_num; linarith [this.1], by linarith [this.2]⟩
  obtain ⟨a, g, h, h', h''⟩ := glamp_due R D sin sinf cosf ex hL ⟨boxOr f0, boxOr t0, ⌊(r0.getD ⟨10, 10⟩).x⌋₊,
    ⌊(r0.getD ⟨10, 10⟩).y⌋₊, 10, 5 / 10, R.rnd (45 / 100), R.rnd (23 / 10)⟩ _ ops hk m hm hd p h1 h3 h2 h4 h5 hgh hsrc htgt hst
  exact ⟨_, a, g, glampNew_eq R (MM) ex f0 t0 r0 be o st ds s hr (due_after R hL hd), h, h', h''⟩

/-- A lamp of 300 ms and ten rows for want of a stepper and a resolution. It is made for one window and given the box of
`deskLamp` by its property and its stretch by the function; in the middle of the way every row is within an eighth of a pixel
of where it is due. Setting the stretch by its property does nothing. -/
example (ex : ℝ → ℝ) : ∃ a0 a g,
    Float.lampNew R (MM) ex (some ⟨⟨1, 2⟩, ⟨3, 4⟩⟩) (some deskLamp.target) none 3 1 1 1 none = .ok a0 ∧
    (Float.lamp R (MM) ex).run a0 [.step 100, .setProperty "source" (.box (some deskLamp.source)), .call (.stretch 0.5),
      .setProperty "stretch-factor" (.float 0.25), .step 50] = .ok a ∧ a.out = .ok g ∧
    ∀ i j, i < 10 → j < 10 → ∃ v y, g[j * 10 + i]? = some v ∧ v.y = fin y ∧ |y - rowHeight deskLamp (1 / 2) j| ≤ 1 / 8 := by
  obtain ⟨a0, a, g, e1, e2, e3, h⟩ := C151_rows_new R D sin sinf cosf ex (L := 300) (by norm_num) (some ⟨⟨1, 2⟩, ⟨3, 4⟩⟩)
    (some deskLamp.target) none 3 1 1 1 none [.step 100, .setProperty "source" (.box (some deskLamp.source)),
      .call (.stretch 0.5), .setProperty "stretch-factor" (.float 0.25)] (by simp [LeavesStepper]) 50
    (by intro k h; simp at h; omega) (t := 1 / 2) (Or.inl ⟨rfl, by norm_num [gElapsed]⟩) (by norm_num) deskLamp rfl rfl rfl
    (by norm_num [deskLamp]) (by norm_num [deskLamp]) (by norm_num [deskLamp]) deskLamp_sensible.source
    deskLamp_sensible.target (fun _ => deskLamp_sensible.stretch)
  refine ⟨a0, a, g, e1, e2, e3, fun i j hi hj => ?_⟩
  obtain ⟨v, y, k1, k2, k3⟩ := h i j hi hj
  refine ⟨v, y, k1, k2, k3.trans ?_⟩
  norm_num [deskLamp, gFrames]

end

end Verif.Props
