import Verif.Model.GTransformFloat
import Verif.Spec.GOnTime
import Verif.Lemmas.GObject
import Verif.Props.OnTime

/-! # What the GObjects of the matrix animations show is what is due at the time (C150) -/

set_option linter.unusedSimpArgs false

namespace Verif.Props

open XR (fin)
open Spec GObj

noncomputable section

variable (R : Rounding) (D : Rounding64) (sin sinf cosf : ℝ → ℝ)

local notation "MM" => Machine.ieee R D sin sinf cosf

section
variable (M : Machine)

theorem gzoom_find_from : (Float.zoom R M).find "from" = some (.box "from" true false) := by
  simp [Float.zoom, GClass.find, PSpec.box, PSpec.stepper]

theorem gzoom_find_to : (Float.zoom R M).find "to" = some (.box "to" true true) := by
  simp [Float.zoom, GClass.find, PSpec.box, PSpec.stepper]

theorem gzoom_find_stepper : (Float.zoom R M).find "stepper" = some (.stepper "stepper" true false) := by
  simp [Float.zoom, GClass.find, PSpec.box, PSpec.stepper]

theorem gzoom_set (a : Anim Machine.ZoomParams Mat32) (n : String) (v : GVal)
    (h : ¬ (n = "stepper" ∧ v = .stepper none)) :
    (Float.zoom R M).set a n v = .ok (((zoomProperty n v).toList).foldl M.zoom.exec a) := by
  have hs : (Float.zoom R M).setProperty = Float.zoomSet M := rfl
  by_cases h0 : n = "from"
  · subst h0
    rcases v with _ | _ | (_ | _) | _ | _ <;> simp [GClass.set, gzoom_find_from, GClass.setChecked, PSpec.box, PSpec.stepper,
      hs, zoomProperty, Float.zoomSet]
    rfl
  by_cases h1 : n = "to"
  · subst h1
    cases v <;> simp [GClass.set, gzoom_find_to, PSpec.box, zoomProperty]
  by_cases h2 : n = "stepper"
  · subst h2
    rcases v with _ | _ | _ | _ | (_ | _) <;> simp [GClass.set, gzoom_find_stepper, GClass.setChecked, PSpec.box,
      PSpec.stepper, hs, zoomProperty, Float.zoomSet, GClass.setStepper] at h ⊢
    rfl
  have h20 : zoomProperty n v = none := by
    unfold zoomProperty; split <;> simp_all
  have h21 : (Float.zoom R M).find n = none := by
    simp [GClass.find, Float.zoom, PSpec.box, PSpec.stepper, Ne.symm h0, Ne.symm h1, Ne.symm h2]
  simp [h20, GClass.set, h21]

/-- Calling the stepper with 0 leaves it as it is. -/
theorem due_after {L : ℝ} (hL : 0 < L) {s : Stepper} {T : ℕ} {t : ℝ} (h : DueAt R L s T t) : s.after 0 = s := by
  have h0 : R.advance L (fin 0) 0 = fin 0 := R.advance_zero hL good_zero
  rcases h with ⟨rfl, -⟩ | ⟨rfl, -⟩
  · show ({ linear32 R L with state := R.advance L (fin 0) 0 } : Stepper) = _
    rw [h0]
    rfl
  · show ({ reverse32 R (linear32 R L) with state := R.advance L (fin 0) 0 } : Stepper) = _
    rw [h0]
    rfl

/-- A new animation is the native one, with the source box set again when one was given. -/
theorem gzoomNew_eq (c f t : Option Box) (s : Option Stepper)
    (hs : (s.getD (linear32 R 300)).after 0 = s.getD (linear32 R 300)) :
    Float.zoomNew R M c f t s = .ok (M.zoom.run (M.zoomNew (boxOr f) (boxOr t) (s.getD (linear32 R 300))).1
      (f.toList.map fun b => .set (.frm b))) := by
  have hf : (Float.zoom R M).fixup = Float.fixStepper R := rfl
  have hp : (Float.zoom R M).setProperty = Float.zoomSet M := rfl
  have hc : ∀ v, (Float.zoom R M).construct v =
    .ok (M.zoomNew (v "from").boxFrom (v "to").boxFrom (v "stepper").stepperFrom).1 := fun _ => rfl
  have hl : (Float.zoom R M).specs =
    [ .box "from" true false,
      .box "to" true true,
      .stepper "stepper" true false ] := rfl
  have p1 : (Float.zoom R M).param [("from", .box f), ("to", .box t), ("stepper", .stepper s)] "from" = .box f := by
    simp [GClass.param, GClass.collect, GClass.collectFrom, gzoom_find_from, gzoom_find_to, gzoom_find_stepper, hf,
      Float.fixStepper]
  have p2 : (Float.zoom R M).param [("from", .box f), ("to", .box t), ("stepper", .stepper s)] "to" = .box t := by
    simp [GClass.param, GClass.collect, GClass.collectFrom, gzoom_find_from, gzoom_find_to, gzoom_find_stepper, hf,
      Float.fixStepper]
  have p3 : (Float.zoom R M).param [("from", .box f), ("to", .box t), ("stepper", .stepper s)] "stepper" =
      .stepper (some (s.getD (linear32 R 300))) := by
    cases s <;> simp [GClass.param, GClass.collect, GClass.collectFrom, gzoom_find_from, gzoom_find_to, gzoom_find_stepper, hf,
      Float.fixStepper]
  have b1 : ∀ b : Option Box, (GVal.box b).boxFrom = boxOr b := fun b => by cases b <;> rfl
  rw [Float.zoomNew, GClass.objectNew, hc, Outcome.bind_ok, hl]
  generalize (Float.zoom R M).param [("from", .box f), ("to", .box t), ("stepper", .stepper s)] = v at *
  simp only [GClass.setAll, PSpec.box, PSpec.stepper, p1, p2, p3, b1, GVal.stepperFrom]
  cases f <;>
    simp [GClass.setChecked, hp, Float.zoomSet, GClass.setStepper, AnimClass.setStepper, AnimClass.run, AnimClass.exec,
      AnimClass.set, Machine.zoomNew, AnimClass.new, hs]

/-- A history that leaves the stepper alone, as native calls. -/
theorem gcalls {S F : Type} (prop : String → GVal → Option (AnimOp S)) (fn : F → S)
    (hp : ∀ n v, n ≠ "stepper" → prop n v = none ∨ ∃ x, prop n v = some (.set x))
    (ops : List (GOp F)) (h : ∀ op ∈ ops, LeavesStepper op) :
    (∀ op ∈ ops, ¬ HandsNull op) ∧ KeepsStepper (animCalls prop fn ops) ∧
      elapsed (animCalls prop fn ops) = gElapsed ops ∧ frames (animCalls prop fn ops) = gFrames ops ∧
      ∀ ms, AnimOp.step ms ∈ animCalls prop fn ops → GOp.step ms ∈ ops := by
  induction ops with
  | nil => exact ⟨by simp, by intro s h; simp [animCalls] at h, rfl, rfl, by simp [animCalls]⟩
  | cons op ops ih =>
    obtain ⟨i1, i2, i3, i4, i5⟩ := ih fun o ho => h o (List.mem_cons_of_mem _ ho)
    have h0 := h op List.mem_cons_self
    have set : ∀ x, KeepsStepper (AnimOp.set x :: animCalls prop fn ops) ∧
        ∀ ms, AnimOp.step ms ∈ AnimOp.set x :: animCalls prop fn ops → GOp.step ms ∈ op :: ops := by
      refine fun x => ⟨fun s hs => ?_, fun k hk => ?_⟩
      · rcases List.mem_cons.1 hs with hs | hs
        · cases hs
        · exact i2 s hs
      · rcases List.mem_cons.1 hk with hk | hk
        · cases hk
        · exact List.mem_cons_of_mem _ (i5 k hk)
    cases op with
    | step ms =>
      refine ⟨by simpa [HandsNull] using i1, ?_, by simp [animCalls, elapsed, gElapsed, i3], by simp [animCalls, frames, gFrames, i4],
        ?_⟩
      · intro s hs
        rcases List.mem_cons.1 hs with hs | hs
        · cases hs
        · exact i2 s hs
      · intro k hk
        rcases List.mem_cons.1 hk with hk | hk
        · cases hk
          exact List.mem_cons_self
        · exact List.mem_cons_of_mem _ (i5 k hk)
    | call s =>
      exact ⟨by simpa [HandsNull] using i1, (set _).1, by simp [animCalls, elapsed, gElapsed, i3],
        by simp [animCalls, frames, gFrames, i4], (set _).2⟩
    | callSetStepper s => exact absurd h0 (by simp [LeavesStepper])
    | setProperty n v =>
      have hn : n ≠ "stepper" := h0
      have k1 : ∀ op ∈ GOp.setProperty n v :: ops, ¬ HandsNull op := by
        intro o ho
        rcases List.mem_cons.1 ho with rfl | ho
        · exact fun hh => hn hh.1
        · exact i1 o ho
      rcases hp n v hn with hz | ⟨x, hz⟩
      · refine ⟨k1, ?_, ?_, ?_, ?_⟩ <;> simp only [animCalls, hz, Option.toList_none, List.nil_append]
        · exact i2
        · exact i3
        · exact i4
        · exact fun k hk => List.mem_cons_of_mem _ (i5 k hk)
      · refine ⟨k1, ?_, ?_, ?_, ?_⟩ <;>
          simp only [animCalls, hz, Option.toList_some, List.cons_append, List.nil_append]
        · exact (set x).1
        · simp [elapsed, gElapsed, i3]
        · simp [frames, gFrames, i4]
        · exact (set x).2

theorem animCalls_step {S F : Type} (prop : String → GVal → Option (AnimOp S)) (fn : F → S) (ops : List (GOp F)) (m : ℕ) :
    animCalls prop fn (ops ++ [.step m]) = animCalls prop fn ops ++ [.step m] := by
  induction ops with
  | nil => rfl
  | cons o ops ih =>
    cases o with
    | callSetStepper s => cases s <;> simp [animCalls, ih]
    | _ => simp [animCalls, ih]

theorem zoomProperty_set (n : String) (v : GVal) (hn : n ≠ "stepper") :
    zoomProperty n v = none ∨ ∃ x, zoomProperty n v = some (.set x) := by
  unfold zoomProperty
  split <;> simp_all

theorem gSource_eq (ops : List (GOp Zoom.Setter)) (h : ∀ op ∈ ops, LeavesStepper op) :
    ∀ f, sourceBox f (animCalls zoomProperty id ops) = gSource f ops := by
  induction ops with
  | nil => exact fun f => rfl
  | cons op ops ih =>
    have i6 := ih fun o ho => h o (List.mem_cons_of_mem _ ho)
    have h0 := h op List.mem_cons_self
    intro f
    cases op with
    | step ms => exact i6 f
    | call s =>
      cases s with
      | frm b => exact i6 b
    | callSetStepper s => exact absurd h0 (by simp [LeavesStepper])
    | setProperty n v =>
      have hn : n ≠ "stepper" := h0
      by_cases hb : ∃ b, n = "from" ∧ v = .box (some b)
      · obtain ⟨b, rfl, rfl⟩ := hb
        exact i6 b
      · have hz : zoomProperty n v = none := by
          unfold zoomProperty
          split <;> simp_all
        have hg : gSource f (.setProperty n v :: ops) = gSource f ops := by
          rw [gSource.eq_def]
          split <;> simp_all
        rw [hg, ← i6]
        simp only [animCalls, hz, Option.toList_none, List.nil_append]

theorem gbounce_find_initial_scale : (Float.bounce R M).find "initial-scale" =
    some (.float "initial-scale" true false (1 / 10) 1 (7 / 10)) := by
  simp [Float.bounce, GClass.find, PSpec.float, PSpec.uint, PSpec.box, PSpec.stepper]

theorem gbounce_find_maximum_scale : (Float.bounce R M).find "maximum-scale" =
    some (.float "maximum-scale" true false 1 3 (12 / 10)) := by
  simp [Float.bounce, GClass.find, PSpec.float, PSpec.uint, PSpec.box, PSpec.stepper]

theorem gbounce_find_n_bounce : (Float.bounce R M).find "n-bounce" = some (.uint "n-bounce" true false 1 10 1) := by
  simp [Float.bounce, GClass.find, PSpec.float, PSpec.uint, PSpec.box, PSpec.stepper]

theorem gbounce_find_target : (Float.bounce R M).find "target" = some (.box "target" true true) := by
  simp [Float.bounce, GClass.find, PSpec.float, PSpec.uint, PSpec.box, PSpec.stepper]

theorem gbounce_find_stepper : (Float.bounce R M).find "stepper" = some (.stepper "stepper" true false) := by
  simp [Float.bounce, GClass.find, PSpec.float, PSpec.uint, PSpec.box, PSpec.stepper]

theorem gbounce_set (a : Anim Bounce.Params Mat32) (n : String) (v : GVal)
    (h : ¬ (n = "stepper" ∧ v = .stepper none)) :
    (Float.bounce R M).set a n v = .ok (((bounceProperty n v).toList).foldl M.bounce.exec a) := by
  have hs : (Float.bounce R M).setProperty = Float.bounceSet M := rfl
  by_cases h0 : n = "initial-scale"
  · subst h0
    cases v <;> simp [GClass.set, gbounce_find_initial_scale, GClass.setChecked, PSpec.float,
      hs, bounceProperty, within, Float.bounceSet, GVal.getFloat]
    split_ifs <;> rfl
  by_cases h1 : n = "maximum-scale"
  · subst h1
    cases v <;> simp [GClass.set, gbounce_find_maximum_scale, GClass.setChecked, PSpec.float,
      hs, bounceProperty, within, Float.bounceSet, GVal.getFloat]
    split_ifs <;> rfl
  by_cases h2 : n = "n-bounce"
  · subst h2
    cases v <;> simp [GClass.set, gbounce_find_n_bounce, GClass.setChecked, PSpec.uint,
      hs, bounceProperty, within, Float.bounceSet, GVal.getUint]
    split_ifs <;> rfl
  by_cases h3 : n = "target"
  · subst h3
    cases v <;> simp [GClass.set, gbounce_find_target, PSpec.box, bounceProperty]
  by_cases h4 : n = "stepper"
  · subst h4
    rcases v with _ | _ | _ | _ | (_ | _) <;> simp [GClass.set, gbounce_find_stepper, GClass.setChecked,
      PSpec.stepper, hs, bounceProperty, Float.bounceSet, GClass.setStepper] at h ⊢
    rfl
  have h20 : bounceProperty n v = none := by
    unfold bounceProperty; split <;> simp_all
  have h21 : (Float.bounce R M).find n = none := by
    simp [GClass.find, Float.bounce, PSpec.float, PSpec.uint, PSpec.box, PSpec.stepper, Ne.symm h0, Ne.symm h1, Ne.symm h2,
      Ne.symm h3, Ne.symm h4]
  simp [h20, GClass.set, h21]

/-- A new animation is the native one. -/
theorem gbounceNew_eq (i m : ℝ) (n : ℕ) (t : Option Box) (s : Option Stepper)
    (hs : (s.getD (linear32 R 300)).after 0 = s.getD (linear32 R 300)) :
    Float.bounceNew R M i m n t s = .ok (M.bounceNew ⟨i, m, n, boxOr t⟩ (s.getD (linear32 R 300))).1 := by
  have hf : (Float.bounce R M).fixup = Float.fixStepper R := rfl
  have hp : (Float.bounce R M).setProperty = Float.bounceSet M := rfl
  have hc : ∀ v, (Float.bounce R M).construct v =
    .ok (M.bounceNew ⟨(v "initial-scale").getFloat, (v "maximum-scale").getFloat, (v "n-bounce").getUint,
      (v "target").boxFrom⟩ (v "stepper").stepperFrom).1 := fun _ => rfl
  have hl : (Float.bounce R M).specs =
    [ .float "initial-scale" true false (1 / 10) 1 (7 / 10),
      .float "maximum-scale" true false 1 3 (12 / 10),
      .uint "n-bounce" true false 1 10 1,
      .box "target" true true,
      .stepper "stepper" true false ] := rfl
  have b1 : ∀ b : Option Box, (GVal.box b).boxFrom = boxOr b := fun b => by cases b <;> rfl
  have p1 : (Float.bounce R M).param [("initial-scale", .float i), ("maximum-scale", .float m), ("n-bounce", .uint n),
      ("target", .box t), ("stepper", .stepper s)] "initial-scale" = .float i := by
    simp [GClass.param, GClass.collect, GClass.collectFrom, gbounce_find_initial_scale, gbounce_find_maximum_scale,
      gbounce_find_n_bounce, gbounce_find_target, gbounce_find_stepper, hf, Float.fixStepper]
  have p2 : (Float.bounce R M).param [("initial-scale", .float i), ("maximum-scale", .float m), ("n-bounce", .uint n),
      ("target", .box t), ("stepper", .stepper s)] "maximum-scale" = .float m := by
    simp [GClass.param, GClass.collect, GClass.collectFrom, gbounce_find_initial_scale, gbounce_find_maximum_scale,
      gbounce_find_n_bounce, gbounce_find_target, gbounce_find_stepper, hf, Float.fixStepper]
  have p3 : (Float.bounce R M).param [("initial-scale", .float i), ("maximum-scale", .float m), ("n-bounce", .uint n),
      ("target", .box t), ("stepper", .stepper s)] "n-bounce" = .uint n := by
    simp [GClass.param, GClass.collect, GClass.collectFrom, gbounce_find_initial_scale, gbounce_find_maximum_scale,
      gbounce_find_n_bounce, gbounce_find_target, gbounce_find_stepper, hf, Float.fixStepper]
  have p4 : (Float.bounce R M).param [("initial-scale", .float i), ("maximum-scale", .float m), ("n-bounce", .uint n),
      ("target", .box t), ("stepper", .stepper s)] "target" = .box t := by
    simp [GClass.param, GClass.collect, GClass.collectFrom, gbounce_find_initial_scale, gbounce_find_maximum_scale,
      gbounce_find_n_bounce, gbounce_find_target, gbounce_find_stepper, hf, Float.fixStepper]
  have p5 : (Float.bounce R M).param [("initial-scale", .float i), ("maximum-scale", .float m), ("n-bounce", .uint n),
      ("target", .box t), ("stepper", .stepper s)] "stepper" = .stepper (some (s.getD (linear32 R 300))) := by
    cases s <;> simp [GClass.param, GClass.collect, GClass.collectFrom, gbounce_find_initial_scale, gbounce_find_maximum_scale,
      gbounce_find_n_bounce, gbounce_find_target, gbounce_find_stepper, hf, Float.fixStepper]
  rw [Float.bounceNew, GClass.objectNew, hc, Outcome.bind_ok, hl]
  generalize (Float.bounce R M).param [("initial-scale", .float i), ("maximum-scale", .float m), ("n-bounce", .uint n),
      ("target", .box t), ("stepper", .stepper s)] = v at *
  simp only [GClass.setAll, PSpec.float, PSpec.uint, PSpec.box, PSpec.stepper, p1, p2, p3, p4, p5, b1, GVal.stepperFrom,
    GVal.getFloat, GVal.getUint]
  iterate 4
    rw [setChecked_same (Float.bounce R M) _ _ _ (by simp [hp, Float.bounceSet, GVal.getFloat, GVal.getUint]; try rfl), Outcome.bind_ok]
  simp [GClass.setChecked, hp, Float.bounceSet, GClass.setStepper, AnimClass.setStepper, Machine.bounceNew, AnimClass.new, hs]

theorem bounceProperty_set (n : String) (v : GVal) (hn : n ≠ "stepper") :
    bounceProperty n v = none ∨ ∃ x, bounceProperty n v = some (.set x) := by
  unfold bounceProperty within
  split <;> (try split_ifs) <;> simp_all

theorem gNumbers_eq (ops : List (GOp Bounce.Setter)) (h : ∀ op ∈ ops, LeavesStepper op) :
    ∀ a : Anim Bounce.Params Mat32, (M.bounce.run a (animCalls bounceProperty id ops)).params = gNumbers a.params ops := by
  induction ops with
  | nil => exact fun a => rfl
  | cons op ops ih =>
    have i6 := ih fun o ho => h o (List.mem_cons_of_mem _ ho)
    have h0 := h op List.mem_cons_self
    intro a
    cases op with
    | step ms => exact i6 _
    | call s => cases s <;> exact i6 _
    | callSetStepper s => exact absurd h0 (by simp [LeavesStepper])
    | setProperty n v =>
      have hn : n ≠ "stepper" := h0
      show (M.bounce.run a ((bounceProperty n v).toList ++ animCalls bounceProperty id ops)).params = _
      rw [run_append, i6]
      unfold bounceProperty within
      split
      · simp only [gNumbers]
        split_ifs <;> rfl
      · simp only [gNumbers]
        split_ifs <;> rfl
      · simp only [gNumbers]
        norm_num only [Nat.one_le_cast, Nat.cast_le_ofNat]
        split_ifs <;> rfl
      · exact absurd rfl hn
      · have hg : gNumbers a.params (.setProperty n v :: ops) = gNumbers a.params ops := by
          rw [gNumbers.eq_def]
          split <;> simp_all
        rw [hg]
        rfl

theorem gglide_find_initial_distance : (Float.glide R M).find "initial-distance" =
    some (.float "initial-distance" true false (-1) 1 (-3 / 10)) := by
  simp [Float.glide, GClass.find, PSpec.float, PSpec.uint, PSpec.box, PSpec.stepper]

theorem gglide_find_x_rotation_angle_degrees : (Float.glide R M).find "x-rotation-angle-degrees" =
    some (.float "x-rotation-angle-degrees" true false (-360) 360 0) := by
  simp [Float.glide, GClass.find, PSpec.float, PSpec.uint, PSpec.box, PSpec.stepper]

theorem gglide_find_y_rotation_angle_degrees : (Float.glide R M).find "y-rotation-angle-degrees" =
    some (.float "y-rotation-angle-degrees" true false (-360) 360 0) := by
  simp [Float.glide, GClass.find, PSpec.float, PSpec.uint, PSpec.box, PSpec.stepper]

theorem gglide_find_x_axis_location_unit : (Float.glide R M).find "x-axis-location-unit" =
    some (.float "x-axis-location-unit" true false 0 1 (2 / 10)) := by
  simp [Float.glide, GClass.find, PSpec.float, PSpec.uint, PSpec.box, PSpec.stepper]

theorem gglide_find_y_axis_location_unit : (Float.glide R M).find "y-axis-location-unit" =
    some (.float "y-axis-location-unit" true false 0 1 (5 / 10)) := by
  simp [Float.glide, GClass.find, PSpec.float, PSpec.uint, PSpec.box, PSpec.stepper]

theorem gglide_find_screen_width : (Float.glide R M).find "screen-width" =
    some (.uint "screen-width" false true 1 maxUint 1) := by
  simp [Float.glide, GClass.find, PSpec.float, PSpec.uint, PSpec.box, PSpec.stepper]

theorem gglide_find_target : (Float.glide R M).find "target" =
    some (.box "target" false true) := by
  simp [Float.glide, GClass.find, PSpec.float, PSpec.uint, PSpec.box, PSpec.stepper]

theorem gglide_find_stepper : (Float.glide R M).find "stepper" =
    some (.stepper "stepper" true false) := by
  simp [Float.glide, GClass.find, PSpec.float, PSpec.uint, PSpec.box, PSpec.stepper]

theorem gglide_find_length : (Float.glide R M).find "length" = none := by
  simp [Float.glide, GClass.find, PSpec.float, PSpec.uint, PSpec.box, PSpec.stepper]

theorem gglide_set (a : Anim Glide.Params Mat32) (n : String) (v : GVal)
    (h : ¬ (n = "stepper" ∧ v = .stepper none)) :
    (Float.glide R M).set a n v = .ok (((glideProperty n v).toList).foldl M.glide.exec a) := by
  have hs : (Float.glide R M).setProperty = Float.glideSet M := rfl
  by_cases h0 : n = "initial-distance"
  · subst h0
    cases v <;> simp [GClass.set, gglide_find_initial_distance, GClass.setChecked, PSpec.float,
      hs, glideProperty, within, Float.glideSet, GVal.getFloat]
    split_ifs <;> rfl
  by_cases h1 : n = "x-rotation-angle-degrees"
  · subst h1
    cases v <;> simp [GClass.set, gglide_find_x_rotation_angle_degrees, GClass.setChecked, PSpec.float,
      hs, glideProperty, within, Float.glideSet, GVal.getFloat]
    split_ifs <;> rfl
  by_cases h2 : n = "y-rotation-angle-degrees"
  · subst h2
    cases v <;> simp [GClass.set, gglide_find_y_rotation_angle_degrees, GClass.setChecked, PSpec.float,
      hs, glideProperty, within, Float.glideSet, GVal.getFloat]
    split_ifs <;> rfl
  by_cases h3 : n = "x-axis-location-unit"
  · subst h3
    cases v <;> simp [GClass.set, gglide_find_x_axis_location_unit, GClass.setChecked, PSpec.float,
      hs, glideProperty, within, Float.glideSet, GVal.getFloat]
    split_ifs <;> rfl
  by_cases h4 : n = "y-axis-location-unit"
  · subst h4
    cases v <;> simp [GClass.set, gglide_find_y_axis_location_unit, GClass.setChecked, PSpec.float,
      hs, glideProperty, within, Float.glideSet, GVal.getFloat]
    split_ifs <;> rfl
  by_cases h5 : n = "screen-width"
  · subst h5
    cases v <;> simp [GClass.set, gglide_find_screen_width, PSpec.uint, glideProperty]
  by_cases h6 : n = "target"
  · subst h6
    cases v <;> simp [GClass.set, gglide_find_target, PSpec.box, glideProperty]
  by_cases h7 : n = "stepper"
  · subst h7
    rcases v with _ | _ | _ | _ | (_ | _) <;> simp [GClass.set, gglide_find_stepper, GClass.setChecked,
      PSpec.stepper, hs, glideProperty, Float.glideSet, GClass.setStepper] at h ⊢
    rfl
  have h20 : glideProperty n v = none := by
    unfold glideProperty; split <;> simp_all
  have h21 : (Float.glide R M).find n = none := by
    simp [GClass.find, Float.glide, PSpec.float, PSpec.uint, PSpec.box, PSpec.stepper, Ne.symm h0, Ne.symm h1, Ne.symm h2,
      Ne.symm h3, Ne.symm h4, Ne.symm h5, Ne.symm h6, Ne.symm h7]
  simp [h20, GClass.set, h21]

/-- A glide made with these values is the native one. -/
theorem gglide_objectNew (args : List (String × GVal)) (d xa ya xu yu : ℝ) (w : ℕ) (t : Option Box) (s : Stepper)
    (p1 : (Float.glide R M).param args "initial-distance" = .float d)
    (p2 : (Float.glide R M).param args "x-rotation-angle-degrees" = .float xa)
    (p3 : (Float.glide R M).param args "y-rotation-angle-degrees" = .float ya)
    (p4 : (Float.glide R M).param args "x-axis-location-unit" = .float xu)
    (p5 : (Float.glide R M).param args "y-axis-location-unit" = .float yu)
    (p6 : (Float.glide R M).param args "screen-width" = .uint w)
    (p7 : (Float.glide R M).param args "target" = .box t)
    (p8 : (Float.glide R M).param args "stepper" = .stepper (some s)) (hs : s.after 0 = s) :
    (Float.glide R M).objectNew args = .ok (M.glideNew ⟨d, xa, ya, xu, yu, w, boxOr t⟩ s).1 := by
  have hp : (Float.glide R M).setProperty = Float.glideSet M := rfl
  have hc : ∀ v, (Float.glide R M).construct v = .ok (M.glideNew
    ⟨(v "initial-distance").getFloat, (v "x-rotation-angle-degrees").getFloat,
      (v "y-rotation-angle-degrees").getFloat, (v "x-axis-location-unit").getFloat,
      (v "y-axis-location-unit").getFloat, (v "screen-width").getUint, (v "target").boxFrom⟩
    (v "stepper").stepperFrom).1 := fun _ => rfl
  have hl : (Float.glide R M).specs =
    [ .float "initial-distance" true false (-1) 1 (-3 / 10),
      .float "x-rotation-angle-degrees" true false (-360) 360 0,
      .float "y-rotation-angle-degrees" true false (-360) 360 0,
      .float "x-axis-location-unit" true false 0 1 (2 / 10),
      .float "y-axis-location-unit" true false 0 1 (5 / 10),
      .uint "screen-width" false true 1 maxUint 1,
      .box "target" false true,
      .stepper "stepper" true false ] := rfl
  have b1 : ∀ b : Option Box, (GVal.box b).boxFrom = boxOr b := fun b => by cases b <;> rfl
  rw [GClass.objectNew, hc, Outcome.bind_ok, hl]
  generalize (Float.glide R M).param args = v at *
  simp only [GClass.setAll, PSpec.float, PSpec.uint, PSpec.box, PSpec.stepper, p1, p2, p3, p4, p5, p6, p7, p8, b1,
    GVal.stepperFrom, GVal.getFloat, GVal.getUint]
  iterate 7
    rw [setChecked_same (Float.glide R M) _ _ _ (by simp [hp, Float.glideSet, GVal.getFloat]; try rfl), Outcome.bind_ok]
  simp [GClass.setChecked, hp, Float.glideSet, GClass.setStepper, AnimClass.setStepper, Machine.glideNew, AnimClass.new, hs]

theorem gglide_given (d xa ya xu yu : ℝ) (w : ℕ) (t : Option Box) (s : Option Stepper)
    (hs : (s.getD (linear32 R 300)).after 0 = s.getD (linear32 R 300)) :
    (Float.glide R M).objectNew [("initial-distance", .float d), ("x-rotation-angle-degrees", .float xa),
      ("y-rotation-angle-degrees", .float ya), ("x-axis-location-unit", .float xu), ("y-axis-location-unit", .float yu),
      ("screen-width", .uint w), ("target", .box t), ("stepper", .stepper s)] =
      .ok (M.glideNew ⟨d, xa, ya, xu, yu, w, boxOr t⟩ (s.getD (linear32 R 300))).1 := by
  have hf : (Float.glide R M).fixup = Float.fixStepper R := rfl
  have p1 : (Float.glide R M).param [("initial-distance", .float d), ("x-rotation-angle-degrees", .float xa),
      ("y-rotation-angle-degrees", .float ya), ("x-axis-location-unit", .float xu), ("y-axis-location-unit", .float yu),
      ("screen-width", .uint w), ("target", .box t), ("stepper", .stepper s)] "initial-distance" = .float d := by
    simp [GClass.param, GClass.collect, GClass.collectFrom, gglide_find_initial_distance, gglide_find_x_rotation_angle_degrees, gglide_find_y_rotation_angle_degrees, gglide_find_x_axis_location_unit, gglide_find_y_axis_location_unit, gglide_find_screen_width, gglide_find_target, gglide_find_stepper,
      hf, Float.fixStepper]
  have p2 : (Float.glide R M).param [("initial-distance", .float d), ("x-rotation-angle-degrees", .float xa),
      ("y-rotation-angle-degrees", .float ya), ("x-axis-location-unit", .float xu), ("y-axis-location-unit", .float yu),
      ("screen-width", .uint w), ("target", .box t), ("stepper", .stepper s)] "x-rotation-angle-degrees" = .float xa := by
    simp [GClass.param, GClass.collect, GClass.collectFrom, gglide_find_initial_distance, gglide_find_x_rotation_angle_degrees, gglide_find_y_rotation_angle_degrees, gglide_find_x_axis_location_unit, gglide_find_y_axis_location_unit, gglide_find_screen_width, gglide_find_target, gglide_find_stepper,
      hf, Float.fixStepper]
  have p3 : (Float.glide R M).param [("initial-distance", .float d), ("x-rotation-angle-degrees", .float xa),
      ("y-rotation-angle-degrees", .float ya), ("x-axis-location-unit", .float xu), ("y-axis-location-unit", .float yu),
      ("screen-width", .uint w), ("target", .box t), ("stepper", .stepper s)] "y-rotation-angle-degrees" = .float ya := by
    simp [GClass.param, GClass.collect, GClass.collectFrom, gglide_find_initial_distance, gglide_find_x_rotation_angle_degrees, gglide_find_y_rotation_angle_degrees, gglide_find_x_axis_location_unit, gglide_find_y_axis_location_unit, gglide_find_screen_width, gglide_find_target, gglide_find_stepper,
      hf, Float.fixStepper]
  have p4 : (Float.glide R M).param [("initial-distance", .float d), ("x-rotation-angle-degrees", .float xa),
      ("y-rotation-angle-degrees", .float ya), ("x-axis-location-unit", .float xu), ("y-axis-location-unit", .float yu),
      ("screen-width", .uint w), ("target", .box t), ("stepper", .stepper s)] "x-axis-location-unit" = .float xu := by
    simp [GClass.param, GClass.collect, GClass.collectFrom, gglide_find_initial_distance, gglide_find_x_rotation_angle_degrees, gglide_find_y_rotation_angle_degrees, gglide_find_x_axis_location_unit, gglide_find_y_axis_location_unit, gglide_find_screen_width, gglide_find_target, gglide_find_stepper,
      hf, Float.fixStepper]
  have p5 : (Float.glide R M).param [("initial-distance", .float d), ("x-rotation-angle-degrees", .float xa),
      ("y-rotation-angle-degrees", .float ya), ("x-axis-location-unit", .float xu), ("y-axis-location-unit", .float yu),
      ("screen-width", .uint w), ("target", .box t), ("stepper", .stepper s)] "y-axis-location-unit" = .float yu := by
    simp [GClass.param, GClass.collect, GClass.collectFrom, gglide_find_initial_distance, gglide_find_x_rotation_angle_degrees, gglide_find_y_rotation_angle_degrees, gglide_find_x_axis_location_unit, gglide_find_y_axis_location_unit, gglide_find_screen_width, gglide_find_target, gglide_find_stepper,
      hf, Float.fixStepper]
  have p6 : (Float.glide R M).param [("initial-distance", .float d), ("x-rotation-angle-degrees", .float xa),
      ("y-rotation-angle-degrees", .float ya), ("x-axis-location-unit", .float xu), ("y-axis-location-unit", .float yu),
      ("screen-width", .uint w), ("target", .box t), ("stepper", .stepper s)] "screen-width" = .uint w := by
    simp [GClass.param, GClass.collect, GClass.collectFrom, gglide_find_initial_distance, gglide_find_x_rotation_angle_degrees, gglide_find_y_rotation_angle_degrees, gglide_find_x_axis_location_unit, gglide_find_y_axis_location_unit, gglide_find_screen_width, gglide_find_target, gglide_find_stepper,
      hf, Float.fixStepper]
  have p7 : (Float.glide R M).param [("initial-distance", .float d), ("x-rotation-angle-degrees", .float xa),
      ("y-rotation-angle-degrees", .float ya), ("x-axis-location-unit", .float xu), ("y-axis-location-unit", .float yu),
      ("screen-width", .uint w), ("target", .box t), ("stepper", .stepper s)] "target" = .box t := by
    simp [GClass.param, GClass.collect, GClass.collectFrom, gglide_find_initial_distance, gglide_find_x_rotation_angle_degrees, gglide_find_y_rotation_angle_degrees, gglide_find_x_axis_location_unit, gglide_find_y_axis_location_unit, gglide_find_screen_width, gglide_find_target, gglide_find_stepper,
      hf, Float.fixStepper]
  have p8 : (Float.glide R M).param [("initial-distance", .float d), ("x-rotation-angle-degrees", .float xa),
      ("y-rotation-angle-degrees", .float ya), ("x-axis-location-unit", .float xu), ("y-axis-location-unit", .float yu),
      ("screen-width", .uint w), ("target", .box t), ("stepper", .stepper s)] "stepper" = .stepper (some (s.getD (linear32 R 300))) := by
    cases s <;> simp [GClass.param, GClass.collect, GClass.collectFrom, gglide_find_initial_distance, gglide_find_x_rotation_angle_degrees, gglide_find_y_rotation_angle_degrees, gglide_find_x_axis_location_unit, gglide_find_y_axis_location_unit, gglide_find_screen_width, gglide_find_target, gglide_find_stepper,
      hf, Float.fixStepper]
  exact gglide_objectNew R M _ d xa ya xu yu w t _ p1 p2 p3 p4 p5 p6 p7 p8 hs

theorem gglideNew_eq (d xa ya xu yu : ℝ) (w : ℕ) (t : Option Box) (len : ℕ)
    (hs : (linear32 R 300).after 0 = linear32 R 300) :
    Float.glideNew R M d xa ya xu yu w t len = .ok (M.glideNew ⟨d, xa, ya, xu, yu, w, boxOr t⟩ (linear32 R 300)).1 := by
  have hf : (Float.glide R M).fixup = Float.fixStepper R := rfl
  have p1 : (Float.glide R M).param [("initial-distance", .float d), ("x-rotation-angle-degrees", .float xa),
      ("y-rotation-angle-degrees", .float ya), ("x-axis-location-unit", .float xu), ("y-axis-location-unit", .float yu),
      ("screen-width", .uint w), ("target", .box t), ("length", .uint len)] "initial-distance" = .float d := by
    simp [GClass.param, GClass.collect, GClass.collectFrom, gglide_find_initial_distance, gglide_find_x_rotation_angle_degrees, gglide_find_y_rotation_angle_degrees, gglide_find_x_axis_location_unit, gglide_find_y_axis_location_unit, gglide_find_screen_width, gglide_find_target, gglide_find_stepper,
      hf, Float.fixStepper, gglide_find_length]
  have p2 : (Float.glide R M).param [("initial-distance", .float d), ("x-rotation-angle-degrees", .float xa),
      ("y-rotation-angle-degrees", .float ya), ("x-axis-location-unit", .float xu), ("y-axis-location-unit", .float yu),
      ("screen-width", .uint w), ("target", .box t), ("length", .uint len)] "x-rotation-angle-degrees" = .float xa := by
    simp [GClass.param, GClass.collect, GClass.collectFrom, gglide_find_initial_distance, gglide_find_x_rotation_angle_degrees, gglide_find_y_rotation_angle_degrees, gglide_find_x_axis_location_unit, gglide_find_y_axis_location_unit, gglide_find_screen_width, gglide_find_target, gglide_find_stepper,
      hf, Float.fixStepper, gglide_find_length]
  have p3 : (Float.glide R M).param [("initial-distance", .float d), ("x-rotation-angle-degrees", .float xa),
      ("y-rotation-angle-degrees", .float ya), ("x-axis-location-unit", .float xu), ("y-axis-location-unit", .float yu),
      ("screen-width", .uint w), ("target", .box t), ("length", .uint len)] "y-rotation-angle-degrees" = .float ya := by
    simp [GClass.param, GClass.collect, GClass.collectFrom, gglide_find_initial_distance, gglide_find_x_rotation_angle_degrees, gglide_find_y_rotation_angle_degrees, gglide_find_x_axis_location_unit, gglide_find_y_axis_location_unit, gglide_find_screen_width, gglide_find_target, gglide_find_stepper,
      hf, Float.fixStepper, gglide_find_length]
  have p4 : (Float.glide R M).param [("initial-distance", .float d), ("x-rotation-angle-degrees", .float xa),
      ("y-rotation-angle-degrees", .float ya), ("x-axis-location-unit", .float xu), ("y-axis-location-unit", .float yu),
      ("screen-width", .uint w), ("target", .box t), ("length", .uint len)] "x-axis-location-unit" = .float xu := by
    simp [GClass.param, GClass.collect, GClass.collectFrom, gglide_find_initial_distance, gglide_find_x_rotation_angle_degrees, gglide_find_y_rotation_angle_degrees, gglide_find_x_axis_location_unit, gglide_find_y_axis_location_unit, gglide_find_screen_width, gglide_find_target, gglide_find_stepper,
      hf, Float.fixStepper, gglide_find_length]
  have p5 : (Float.glide R M).param [("initial-distance", .float d), ("x-rotation-angle-degrees", .float xa),
      ("y-rotation-angle-degrees", .float ya), ("x-axis-location-unit", .float xu), ("y-axis-location-unit", .float yu),
      ("screen-width", .uint w), ("target", .box t), ("length", .uint len)] "y-axis-location-unit" = .float yu := by
    simp [GClass.param, GClass.collect, GClass.collectFrom, gglide_find_initial_distance, gglide_find_x_rotation_angle_degrees, gglide_find_y_rotation_angle_degrees, gglide_find_x_axis_location_unit, gglide_find_y_axis_location_unit, gglide_find_screen_width, gglide_find_target, gglide_find_stepper,
      hf, Float.fixStepper, gglide_find_length]
  have p6 : (Float.glide R M).param [("initial-distance", .float d), ("x-rotation-angle-degrees", .float xa),
      ("y-rotation-angle-degrees", .float ya), ("x-axis-location-unit", .float xu), ("y-axis-location-unit", .float yu),
      ("screen-width", .uint w), ("target", .box t), ("length", .uint len)] "screen-width" = .uint w := by
    simp [GClass.param, GClass.collect, GClass.collectFrom, gglide_find_initial_distance, gglide_find_x_rotation_angle_degrees, gglide_find_y_rotation_angle_degrees, gglide_find_x_axis_location_unit, gglide_find_y_axis_location_unit, gglide_find_screen_width, gglide_find_target, gglide_find_stepper,
      hf, Float.fixStepper, gglide_find_length]
  have p7 : (Float.glide R M).param [("initial-distance", .float d), ("x-rotation-angle-degrees", .float xa),
      ("y-rotation-angle-degrees", .float ya), ("x-axis-location-unit", .float xu), ("y-axis-location-unit", .float yu),
      ("screen-width", .uint w), ("target", .box t), ("length", .uint len)] "target" = .box t := by
    simp [GClass.param, GClass.collect, GClass.collectFrom, gglide_find_initial_distance, gglide_find_x_rotation_angle_degrees, gglide_find_y_rotation_angle_degrees, gglide_find_x_axis_location_unit, gglide_find_y_axis_location_unit, gglide_find_screen_width, gglide_find_target, gglide_find_stepper,
      hf, Float.fixStepper, gglide_find_length]
  have p8 : (Float.glide R M).param [("initial-distance", .float d), ("x-rotation-angle-degrees", .float xa),
      ("y-rotation-angle-degrees", .float ya), ("x-axis-location-unit", .float xu), ("y-axis-location-unit", .float yu),
      ("screen-width", .uint w), ("target", .box t), ("length", .uint len)] "stepper" = .stepper (some (linear32 R 300)) := by
    simp [GClass.param, GClass.collect, GClass.collectFrom, gglide_find_initial_distance, gglide_find_x_rotation_angle_degrees, gglide_find_y_rotation_angle_degrees, gglide_find_x_axis_location_unit, gglide_find_y_axis_location_unit, gglide_find_screen_width, gglide_find_target, gglide_find_stepper,
      hf, Float.fixStepper, gglide_find_length, PSpec.stepper]
  exact gglide_objectNew R M _ d xa ya xu yu w t _ p1 p2 p3 p4 p5 p6 p7 p8 hs

theorem glideProperty_set (n : String) (v : GVal) (hn : n ≠ "stepper") :
    glideProperty n v = none ∨ ∃ x, glideProperty n v = some (.set x) := by
  unfold glideProperty within
  split <;> (try split_ifs) <;> simp_all

theorem gGlide_eq (ops : List (GOp Glide.Setter)) (h : ∀ op ∈ ops, LeavesStepper op) :
    ∀ a : Anim Glide.Params Mat32, (M.glide.run a (animCalls glideProperty id ops)).params = gGlide a.params ops := by
  induction ops with
  | nil => exact fun a => rfl
  | cons op ops ih =>
    have i6 := ih fun o ho => h o (List.mem_cons_of_mem _ ho)
    have h0 := h op List.mem_cons_self
    intro a
    cases op with
    | step ms => exact i6 _
    | call s => cases s <;> exact i6 _
    | callSetStepper s => exact absurd h0 (by simp [LeavesStepper])
    | setProperty n v =>
      have hn : n ≠ "stepper" := h0
      show (M.glide.run a ((glideProperty n v).toList ++ animCalls glideProperty id ops)).params = _
      rw [run_append, i6]
      unfold glideProperty within
      split
      iterate 5
        · simp only [gGlide]
          split_ifs <;> rfl
      · exact absurd rfl hn
      · have hg : gGlide a.params (.setProperty n v :: ops) = gGlide a.params ops := by
          rw [gGlide.eq_def]
          split <;> simp_all
        rw [hg]
        rfl

end

/-- **C150.** An AnimationZoomAnimation made with `animation_zoom_new`, after any calls that leave the stepper alone: when it
is stepped, every corner is where it is due at the time between the source and the target box, up to a 32nd of a pixel and
three 1024ths for every frame. `NULL` boxes are the unit square, and a `NULL` stepper is a linear one of 300 ms. The source
box may be flat. -/
theorem C150_zoom {L : ℝ} (hL : 0 < L) (c f0 t0 : Option Box) (s : Option Stepper) (ops : List (GOp Zoom.Setter))
    (hk : ∀ op ∈ ops, LeavesStepper op) (m : ℕ) (hm : ∀ ms, GOp.step ms ∈ ops ++ [.step m] → ms ≤ 2 ^ 24) {t : ℝ}
    (hd : DueAt R L (s.getD (linear32 R 300)) (gElapsed ops + m) t) (hf : OnScreen (gSource (boxOr f0) ops))
    (hb : OnScreen (boxOr t0))
    (hs : 1 ≤ |(boxOr t0).br.x - (boxOr t0).tl.x| ∧ 1 ≤ |(boxOr t0).br.y - (boxOr t0).tl.y|) :
    ∃ a0 a, Float.zoomNew R (MM) c f0 t0 s = .ok a0 ∧ (Float.zoom R (MM)).run a0 (ops ++ [.step m]) = .ok a ∧
      ∀ (corners : Fin 4 → Pt) (i : Fin 4), |(corners i).x| ≤ |(boxOr t0).br.x - (boxOr t0).tl.x| →
        |(corners i).y| ≤ |(boxOr t0).br.y - (boxOr t0).tl.y| →
        ∃ x y : ℝ, (MM).extremes a corners i = ⟨fin x, fin y, fin 0, fin 1⟩ ∧
          |x - (between t (gSource (boxOr f0) ops) (boxOr t0) (corners i)).x| ≤ 1 / 32 + 3 / 1024 * (gFrames ops + 2) ∧
          |y - (between t (gSource (boxOr f0) ops) (boxOr t0) (corners i)).y| ≤ 1 / 32 + 3 / 1024 * (gFrames ops + 2) := by
  obtain ⟨q1, q2, q3, q4, q5⟩ := gcalls zoomProperty id zoomProperty_set ops hk
  have q6 := gSource_eq ops hk
  have ne : ∀ {x y : ℝ}, 1 ≤ |x - y| → x ≠ y := by
    rintro x y h rfl
    rw [sub_self, abs_zero] at h
    linarith
  set sp := s.getD (linear32 R 300) with hsp
  set pre : List (AnimOp Zoom.Setter) := f0.toList.map fun b => .set (.frm b) with hpre
  have e1 : elapsed (pre ++ animCalls zoomProperty id ops) = gElapsed ops := by
    cases f0 <;> simp [hpre, elapsed, q3]
  have e2 : frames (pre ++ animCalls zoomProperty id ops) = gFrames ops := by
    cases f0 <;> simp [hpre, frames, q4]
  have e3 : KeepsStepper (pre ++ animCalls zoomProperty id ops) := by
    intro s hs
    rcases List.mem_append.1 hs with hs | hs
    · simp [hpre] at hs
    · exact q2 s hs
  have e4 : ShortFrames (pre ++ animCalls zoomProperty id ops ++ [.step m]) := by
    intro ms h
    refine hm ms ?_
    rcases List.mem_append.1 h with h | h
    · rcases List.mem_append.1 h with h | h
      · simp [hpre] at h
      · exact List.mem_append_left _ (q5 ms h)
    · rw [List.mem_singleton] at h
      cases h
      exact List.mem_append_right _ (List.mem_singleton_self _)
  have hpar : ((MM).zoom.run ((MM).zoomNew (boxOr f0) (boxOr t0) sp).1 (pre ++ animCalls zoomProperty id ops)).params =
      ⟨Machine.ofBox (gSource (boxOr f0) ops), Machine.ofBox (boxOr t0)⟩ := by
    rw [← q6, run_append]
    refine zoom_params R D sin sinf cosf _ (boxOr f0) (boxOr t0) _ ?_
    have ht := ensure_wide R D sin sinf cosf (ne hs.1) (ne hs.2)
    cases f0 with
    | none =>
      show Machine.ZoomParams.mk _ _ = _
      rw [ht, ensure_wide R D sin sinf cosf (by norm_num [boxOr]) (by norm_num [boxOr])]
    | some b =>
      show Machine.ZoomParams.mk (Machine.ofBox b) ((MM).ensureNonZeroArea (Machine.ofBox (boxOr t0))) = _
      rw [ht]
      rfl
  refine ⟨_, _, gzoomNew_eq R (MM) c f0 t0 s (due_after R hL hd), run_native (Float.zoom R (MM)) zoomProperty id rfl
    (gzoom_set R (MM)) _ _ ?_, ?_⟩
  · intro op ho
    rcases List.mem_append.1 ho with ho | ho
    · exact q1 op ho
    · rw [List.mem_singleton] at ho
      subst ho
      exact fun h => h
  intro corners i hx hy
  have hz := C123_zoom R D sin sinf cosf hL (boxOr f0) (boxOr t0) _ e3 m e4 (e1 ▸ hd) _ _ hpar hf hb hs corners i ⟨hx, hy⟩
  rw [e2] at hz
  rw [animCalls_step, show (Float.zoom R (MM)).native = (MM).zoom from rfl, ← run_append, ← List.append_assoc, run_append]
  exact hz

/-- **C150.** The same for an AnimationBounceAnimation made with `animation_bounce_new`, up to a 16th of a pixel and a
hundredth for every frame and every bounce. A property set to a number out of its range counts for nothing. -/
theorem C150_bounce (hsin : ∀ x, |x| ≤ 2 ^ 20 → |sin x - Real.sin x| ≤ 1 / 2 ^ 30) {L : ℝ} (hL : 0 < L) (i0 m0 : ℝ) (n0 : ℕ)
    (t0 : Option Box) (s : Option Stepper) (ops : List (GOp Bounce.Setter)) (hk : ∀ op ∈ ops, LeavesStepper op) (m : ℕ)
    (hm : ∀ ms, GOp.step ms ∈ ops ++ [.step m] → ms ≤ 2 ^ 24) {t : ℝ}
    (hd : DueAt R L (s.getD (linear32 R 300)) (gElapsed ops + m) t) (p : Bounce.Params)
    (hp : gNumbers ⟨i0, m0, n0, boxOr t0⟩ ops = p) (hi : 0 ≤ p.initialScale ∧ p.initialScale ≤ 2)
    (hmx : 0 ≤ p.maximumScale ∧ p.maximumScale ≤ 2) (hn : p.nBounce ≤ 1000) (hb : OnScreen p.target) :
    ∃ a0 a, Float.bounceNew R (MM) i0 m0 n0 t0 s = .ok a0 ∧ (Float.bounce R (MM)).run a0 (ops ++ [.step m]) = .ok a ∧
      ∀ (corners : Fin 4 → Pt) (i : Fin 4), |(corners i).x| ≤ 16384 → |(corners i).y| ≤ 16384 →
        ∃ x y : ℝ, (MM).extremes a corners i = ⟨fin x, fin y, fin 0, fin 1⟩ ∧
          |x - (scaledAbout p.target (bounceSize p t) (corners i)).x| ≤ 1 / 16 + ((p.nBounce : ℝ) + 1) / 100 * (gFrames ops + 2) ∧
          |y - (scaledAbout p.target (bounceSize p t) (corners i)).y| ≤ 1 / 16 + ((p.nBounce : ℝ) + 1) / 100 * (gFrames ops + 2) := by
  obtain ⟨q1, q2, q3, q4, q5⟩ := gcalls bounceProperty id bounceProperty_set ops hk
  refine ⟨_, _, gbounceNew_eq R (MM) i0 m0 n0 t0 s (due_after R hL hd), run_native (Float.bounce R (MM)) bounceProperty id rfl
    (gbounce_set R (MM)) _ _ ?_, ?_⟩
  · intro op ho
    rcases List.mem_append.1 ho with ho | ho
    · exact q1 op ho
    · rw [List.mem_singleton] at ho
      subst ho
      exact fun h => h
  intro corners i hx hy
  have e4 : ShortFrames (animCalls bounceProperty id ops ++ [.step m]) := by
    intro ms h
    refine hm ms ?_
    rcases List.mem_append.1 h with h | h
    · exact List.mem_append_left _ (q5 ms h)
    · rw [List.mem_singleton] at h
      cases h
      exact List.mem_append_right _ (List.mem_singleton_self _)
  have hpar := (gNumbers_eq (MM) ops hk ((MM).bounceNew ⟨i0, m0, n0, boxOr t0⟩ (s.getD (linear32 R 300))).1).trans hp
  have hz := C123_bounce R D sin sinf cosf hsin hL ⟨i0, m0, n0, boxOr t0⟩ _ q2 m e4 (q3 ▸ hd) p hpar hi hmx hn hb corners i
    ⟨hx, hy⟩
  rw [q4] at hz
  rw [animCalls_step, show (Float.bounce R (MM)).native = (MM).bounce from rfl, run_append]
  exact hz

/-- Stepping a glide from the state the native constructor makes. -/
theorem gglide_due (hlib : ∀ x, |x| ≤ 8 → |sinf x - Real.sin x| ≤ 1 / 2 ^ 23 ∧ |cosf x - Real.cos x| ≤ 1 / 2 ^ 23)
    {L : ℝ} (hL : 0 < L) (p0 : Glide.Params) (s : Stepper) (ops : List (GOp Glide.Setter))
    (hk : ∀ op ∈ ops, LeavesStepper op) (m : ℕ) (hm : ∀ ms, GOp.step ms ∈ ops ++ [.step m] → ms ≤ 2 ^ 24) {t : ℝ}
    (hd : DueAt R L s (gElapsed ops + m) t) (p : Glide.Params) (hp : gGlide p0 ops = p) (hg : GlideDeclared p)
    (hb : OnScreen p.target) :
    ∃ a, (Float.glide R (MM)).run ((MM).glideNew p0 s).1 (ops ++ [.step m]) = .ok a ∧
      ∀ (corners : Fin 4 → Pt) (i : Fin 4), |(corners i).x| ≤ 16384 → |(corners i).y| ≤ 16384 →
        ∃ x y z : ℝ, (MM).extremes a corners i = ⟨fin x, fin y, fin z, fin 1⟩ ∧
          |x - (glided p t (corners i)).x| ≤ 1 / 8 + 1 / 25 * (gFrames ops + 2) ∧
          |y - (glided p t (corners i)).y| ≤ 1 / 8 + 1 / 25 * (gFrames ops + 2) ∧
          |z - (glided p t (corners i)).z| ≤ 1 / 8 + 1 / 25 * (gFrames ops + 2) := by
  obtain ⟨q1, q2, q3, q4, q5⟩ := gcalls glideProperty id glideProperty_set ops hk
  refine ⟨_, run_native (Float.glide R (MM)) glideProperty id rfl (gglide_set R (MM)) _ _ ?_, ?_⟩
  · intro op ho
    rcases List.mem_append.1 ho with ho | ho
    · exact q1 op ho
    · rw [List.mem_singleton] at ho
      subst ho
      exact fun h => h
  intro corners i hx hy
  have e4 : ShortFrames (animCalls glideProperty id ops ++ [.step m]) := by
    intro ms h
    refine hm ms ?_
    rcases List.mem_append.1 h with h | h
    · exact List.mem_append_left _ (q5 ms h)
    · rw [List.mem_singleton] at h
      cases h
      exact List.mem_append_right _ (List.mem_singleton_self _)
  have hpar := (gGlide_eq (MM) ops hk ((MM).glideNew p0 s).1).trans hp
  have hz := C123_glide R D sin sinf cosf hlib hL p0 _ q2 m e4 (q3 ▸ hd) p hpar hg hb corners i ⟨hx, hy⟩
  rw [q4] at hz
  rw [animCalls_step, show (Float.glide R (MM)).native = (MM).glide from rfl, run_append]
  exact hz

/-- **C150.** The same for an AnimationGlideAnimation made with `g_object_new` and all its properties, up to an eighth of a
pixel and a 25th for every frame. -/
theorem C150_glide (hlib : ∀ x, |x| ≤ 8 → |sinf x - Real.sin x| ≤ 1 / 2 ^ 23 ∧ |cosf x - Real.cos x| ≤ 1 / 2 ^ 23)
    {L : ℝ} (hL : 0 < L) (d xa ya xu yu : ℝ) (w : ℕ) (t0 : Option Box) (s : Option Stepper) (ops : List (GOp Glide.Setter))
    (hk : ∀ op ∈ ops, LeavesStepper op) (m : ℕ) (hm : ∀ ms, GOp.step ms ∈ ops ++ [.step m] → ms ≤ 2 ^ 24) {t : ℝ}
    (hd : DueAt R L (s.getD (linear32 R 300)) (gElapsed ops + m) t) (p : Glide.Params)
    (hp : gGlide ⟨d, xa, ya, xu, yu, w, boxOr t0⟩ ops = p) (hg : GlideDeclared p) (hb : OnScreen p.target) :
    ∃ a0 a, (Float.glide R (MM)).objectNew [("initial-distance", .float d), ("x-rotation-angle-degrees", .float xa),
        ("y-rotation-angle-degrees", .float ya), ("x-axis-location-unit", .float xu), ("y-axis-location-unit", .float yu),
        ("screen-width", .uint w), ("target", .box t0), ("stepper", .stepper s)] = .ok a0 ∧
      (Float.glide R (MM)).run a0 (ops ++ [.step m]) = .ok a ∧
      ∀ (corners : Fin 4 → Pt) (i : Fin 4), |(corners i).x| ≤ 16384 → |(corners i).y| ≤ 16384 →
        ∃ x y z : ℝ, (MM).extremes a corners i = ⟨fin x, fin y, fin z, fin 1⟩ ∧
          |x - (glided p t (corners i)).x| ≤ 1 / 8 + 1 / 25 * (gFrames ops + 2) ∧
          |y - (glided p t (corners i)).y| ≤ 1 / 8 + 1 / 25 * (gFrames ops + 2) ∧
          |z - (glided p t (corners i)).z| ≤ 1 / 8 + 1 / 25 * (gFrames ops + 2) := by
  obtain ⟨a, h, h'⟩ := gglide_due R D sin sinf cosf hlib hL _ _ ops hk m hm hd p hp hg hb
  exact ⟨_, a, gglide_given R (MM) d xa ya xu yu w t0 s (due_after R hL hd), h, h'⟩

/-- **C150.** One made with `animation_glide_new` is where it is due in 300 ms, whatever length was asked for (C62). -/
theorem C150_glide_new (hlib : ∀ x, |x| ≤ 8 → |sinf x - Real.sin x| ≤ 1 / 2 ^ 23 ∧ |cosf x - Real.cos x| ≤ 1 / 2 ^ 23)
    (d xa ya xu yu : ℝ) (w : ℕ) (t0 : Option Box) (length : ℕ) (ops : List (GOp Glide.Setter))
    (hk : ∀ op ∈ ops, LeavesStepper op) (m : ℕ) (hm : ∀ ms, GOp.step ms ∈ ops ++ [.step m] → ms ≤ 2 ^ 24)
    (p : Glide.Params) (hp : gGlide ⟨d, xa, ya, xu, yu, w, boxOr t0⟩ ops = p) (hg : GlideDeclared p) (hb : OnScreen p.target) :
    ∃ a0 a, Float.glideNew R (MM) d xa ya xu yu w t0 length = .ok a0 ∧
      (Float.glide R (MM)).run a0 (ops ++ [.step m]) = .ok a ∧
      ∀ (corners : Fin 4 → Pt) (i : Fin 4), |(corners i).x| ≤ 16384 → |(corners i).y| ≤ 16384 →
        ∃ x y z : ℝ, (MM).extremes a corners i = ⟨fin x, fin y, fin z, fin 1⟩ ∧
          |x - (glided p (min 1 ((gElapsed ops + m : ℕ) / 300)) (corners i)).x| ≤ 1 / 8 + 1 / 25 * (gFrames ops + 2) ∧
          |y - (glided p (min 1 ((gElapsed ops + m : ℕ) / 300)) (corners i)).y| ≤ 1 / 8 + 1 / 25 * (gFrames ops + 2) ∧
          |z - (glided p (min 1 ((gElapsed ops + m : ℕ) / 300)) (corners i)).z| ≤ 1 / 8 + 1 / 25 * (gFrames ops + 2) := by
  have hd : DueAt R 300 (linear32 R 300) (gElapsed ops + m) (min 1 ((gElapsed ops + m : ℕ) / 300)) := Or.inl ⟨rfl, rfl⟩
  obtain ⟨a, h, h'⟩ := gglide_due R D sin sinf cosf hlib (by norm_num) _ _ ops hk m hm hd p hp hg hb
  exact ⟨_, a, gglideNew_eq R (MM) d xa ya xu yu w t0 length (due_after R (by norm_num) hd), h, h'⟩

/-- An animation of 300 ms for want of a stepper, from a flat box: at 150 ms, after the source box was set by its property,
a `NULL` was tried, and an unknown property was set, the lower right corner is half way. -/
example (corners : Fin 4 → Pt) (hc : corners 3 = ⟨500, 350⟩) : ∃ a0 a,
    Float.zoomNew R (MM) none (some ⟨⟨0, 0⟩, ⟨0, 10⟩⟩) (some ⟨⟨100, 50⟩, ⟨600, 400⟩⟩) none = .ok a0 ∧
    (Float.zoom R (MM)).run a0 [.step 100, .setProperty "from" (.box (some ⟨⟨20, 30⟩, ⟨40, 50⟩⟩)),
      .setProperty "from" (.box none), .setProperty "colour" (.uint 3), .step 50] = .ok a ∧
    ∃ x y : ℝ, (MM).extremes a corners 3 = ⟨fin x, fin y, fin 0, fin 1⟩ ∧ |x - (320 - 100)| ≤ 1 / 10 ∧
      |y - (225 - 50)| ≤ 1 / 10 := by
  have hg : gSource (boxOr (some ⟨⟨0, 0⟩, ⟨0, 10⟩⟩)) [.step 100, .setProperty "from" (.box (some ⟨⟨20, 30⟩, ⟨40, 50⟩⟩)),
      .setProperty "from" (.box none), .setProperty "colour" (.uint 3)] = ⟨⟨20, 30⟩, ⟨40, 50⟩⟩ := rfl
  obtain ⟨a0, a, h0, h1, h2⟩ := C150_zoom R D sin sinf cosf (L := 300) (by norm_num) none (some ⟨⟨0, 0⟩, ⟨0, 10⟩⟩)
    (some ⟨⟨100, 50⟩, ⟨600, 400⟩⟩) none [.step 100, .setProperty "from" (.box (some ⟨⟨20, 30⟩, ⟨40, 50⟩⟩)),
      .setProperty "from" (.box none), .setProperty "colour" (.uint 3)] (by simp [LeavesStepper]) 50
    (by intro k h; simp at h; omega) (t := 1 / 2) (Or.inl ⟨rfl, by norm_num [gElapsed]⟩)
    (by rw [hg]; norm_num [OnScreen, abs_le]) (by norm_num [OnScreen, abs_le, boxOr]) (by norm_num [le_abs, boxOr])
  refine ⟨a0, a, h0, h1, ?_⟩
  obtain ⟨x, y, e, hx, hy⟩ := h2 corners 3 (by rw [hc]; norm_num [boxOr]) (by rw [hc]; norm_num [boxOr])
  rw [hc, hg] at hx hy
  refine ⟨x, y, e, ?_, ?_⟩
  · norm_num [between, lerp, gFrames, boxOr] at hx ⊢
    linarith
  · norm_num [between, lerp, gFrames, boxOr] at hy ⊢
    linarith

/-- A bounce of 300 ms whose maximum is set out of range, to no effect, and then within it: the middle of the way has no
swing with two bounces, so the corner at (100, 50) is 3/4 of the way out from the middle. -/
example (hsin : ∀ x, |x| ≤ 2 ^ 20 → |sin x - Real.sin x| ≤ 1 / 2 ^ 30) (corners : Fin 4 → Pt) (hc : corners 3 = ⟨100, 50⟩) :
    ∃ a0 a, Float.bounceNew R (MM) (1 / 2) (5 / 4) 1 (some ⟨⟨0, 0⟩, ⟨100, 50⟩⟩) none = .ok a0 ∧
    (Float.bounce R (MM)).run a0 [.setProperty "maximum-scale" (.float 7), .setProperty "n-bounce" (.uint 2), .step 150] = .ok a ∧
    ∃ x y : ℝ, (MM).extremes a corners 3 = ⟨fin x, fin y, fin 0, fin 1⟩ ∧ |x - 87.5| ≤ 1 / 8 ∧ |y - 43.75| ≤ 1 / 8 := by
  have hg : gNumbers ⟨1 / 2, 5 / 4, 1, boxOr (some ⟨⟨0, 0⟩, ⟨100, 50⟩⟩)⟩ [.setProperty "maximum-scale" (.float 7),
      .setProperty "n-bounce" (.uint 2)] = ⟨1 / 2, 5 / 4, 2, ⟨⟨0, 0⟩, ⟨100, 50⟩⟩⟩ := by
    simp only [gNumbers]
    norm_num [boxOr]
  obtain ⟨a0, a, h0, h1, h2⟩ := C150_bounce R D sin sinf cosf hsin (L := 300) (by norm_num) (1 / 2) (5 / 4) 1
    (some ⟨⟨0, 0⟩, ⟨100, 50⟩⟩) none [.setProperty "maximum-scale" (.float 7), .setProperty "n-bounce" (.uint 2)]
    (by simp [LeavesStepper]) 150 (by intro k h; simp at h; omega) (t := 1 / 2) (Or.inl ⟨rfl, by norm_num [gElapsed]⟩) _ hg
    (by norm_num) (by norm_num) (by norm_num) (by norm_num [OnScreen, abs_le])
  refine ⟨a0, a, h0, h1, ?_⟩
  obtain ⟨x, y, e, hx, hy⟩ := h2 corners 3 (by rw [hc]; norm_num) (by rw [hc]; norm_num)
  have hs : bounceSize ⟨1 / 2, 5 / 4, 2, ⟨⟨0, 0⟩, ⟨100, 50⟩⟩⟩ (1 / 2) = 3 / 4 := by
    unfold bounceSize lerp
    rw [show (1 / 2 : ℝ) * Real.pi * ((2 : ℕ) : ℝ) = Real.pi by push_cast; ring, Real.sin_pi]
    norm_num
  rw [hc, hs] at hx hy
  refine ⟨x, y, e, ?_, ?_⟩
  · norm_num [scaledAbout, middle, gFrames] at hx ⊢
    linarith
  · norm_num [scaledAbout, middle, gFrames] at hy ⊢
    linarith

/-- A glide for which half a second was asked is over after 300 ms: the corner is within a third of a pixel of where it stays,
although an angle was set on the way. -/
example (hlib : ∀ x, |x| ≤ 8 → |sinf x - Real.sin x| ≤ 1 / 2 ^ 23 ∧ |cosf x - Real.cos x| ≤ 1 / 2 ^ 23)
    (corners : Fin 4 → Pt) (hc : corners 3 = ⟨100, 50⟩) :
    ∃ a0 a, Float.glideNew R (MM) (-1 / 2) 0 30 (1 / 4) (1 / 2) 1000 (some ⟨⟨0, 0⟩, ⟨100, 50⟩⟩) 500 = .ok a0 ∧
    (Float.glide R (MM)).run a0 [.step 200, .setProperty "x-rotation-angle-degrees" (.float 45),
      .setProperty "y-rotation-angle-degrees" (.float 400), .step 100] = .ok a ∧
    ∃ x y z : ℝ, (MM).extremes a corners 3 = ⟨fin x, fin y, fin z, fin 1⟩ ∧ |x - 100| ≤ 1 / 3 ∧ |y - 50| ≤ 1 / 3 := by
  have hg : gGlide ⟨-1 / 2, 0, 30, 1 / 4, 1 / 2, 1000, boxOr (some ⟨⟨0, 0⟩, ⟨100, 50⟩⟩)⟩ [.step 200,
      .setProperty "x-rotation-angle-degrees" (.float 45), .setProperty "y-rotation-angle-degrees" (.float 400)] =
      ⟨-1 / 2, 45, 30, 1 / 4, 1 / 2, 1000, ⟨⟨0, 0⟩, ⟨100, 50⟩⟩⟩ := by
    simp only [gGlide]
    norm_num [boxOr]
  obtain ⟨a0, a, h0, h1, h2⟩ := C150_glide_new R D sin sinf cosf hlib (-1 / 2) 0 30 (1 / 4) (1 / 2) 1000
    (some ⟨⟨0, 0⟩, ⟨100, 50⟩⟩) 500 [.step 200, .setProperty "x-rotation-angle-degrees" (.float 45),
      .setProperty "y-rotation-angle-degrees" (.float 400)] (by simp [LeavesStepper]) 100
    (by intro k h; simp at h; omega) _ hg (by constructor <;> norm_num) (by norm_num [OnScreen, abs_le])
  refine ⟨a0, a, h0, h1, ?_⟩
  obtain ⟨x, y, z, e, hx, hy, -⟩ := h2 corners 3 (by rw [hc]; norm_num) (by rw [hc]; norm_num)
  have ht : min (1 : ℝ) ((gElapsed (F := Glide.Setter) [.step 200, .setProperty "x-rotation-angle-degrees" (.float 45),
      .setProperty "y-rotation-angle-degrees" (.float 400)] + 100 : ℕ) / 300) = 1 := by norm_num [gElapsed]
  rw [hc, ht] at hx hy
  refine ⟨x, y, z, e, ?_, ?_⟩
  · norm_num [glided, Spot3.shift, Spot3.turnVertical, Spot3.turnHorizontal, gFrames] at hx ⊢
    linarith
  · norm_num [glided, Spot3.shift, Spot3.turnVertical, Spot3.turnHorizontal, gFrames] at hy ⊢
    linarith

end

end Verif.Props
