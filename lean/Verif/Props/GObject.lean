import Verif.Lemmas.GObject
import Verif.Props.Transforms
import Verif.Props.Progress

/-!
# Properties of the GObject animations
-/

set_option linter.unusedSimpArgs false

namespace Verif.Props

noncomputable section

open GObj Spec
open XR (fin)

/-! ## C62: constructors honour their arguments -/

/-- **C62.** `animation_bounce_new`: every argument reaches the animation and reads back unchanged, whatever
its value; the animation shows what the native one shows, and its stepper is a copy of the one given. -/
theorem C62_bounce (i m : ℝ) (n : ℕ) (t : Option Box) (s : Option Stepper) :
    ∃ a, bounceNew i m n t s = .ok a ∧
      bounce.get a "initial-scale" = some (.float i) ∧ bounce.get a "maximum-scale" = some (.float m) ∧
      bounce.get a "n-bounce" = some (.uint n) ∧ bounce.get a "target" = some (.box (some (boxOr t))) ∧
      a.stepper = stepperOr s ∧ a.progress = (stepperOr s).value 0 ∧
      a.out = (Bounce.new ⟨i, m, n, boxOr t⟩ (stepperOr s)).1.out := by
  have hs : bounce.param [("initial-scale", .float i), ("maximum-scale", .float m), ("n-bounce", .uint n),
      ("target", .box t), ("stepper", .stepper s)] "stepper" = .stepper (some (stepperOr s)) := by
    have hf : bounce.fixup = fixStepper := rfl
    cases s <;> simp [GClass.param, GClass.collect, GClass.collectFrom, bounce_find_initial_scale, bounce_find_maximum_scale,
      bounce_find_n_bounce, bounce_find_target, bounce_find_stepper, hf, fixStepper, stepperOr]
  refine ⟨_, bounce_objectNew _ hs, ?_⟩
  have hp : bounceParams (bounce.param [("initial-scale", .float i), ("maximum-scale", .float m),
      ("n-bounce", .uint n), ("target", .box t), ("stepper", .stepper s)]) = ⟨i, m, n, boxOr t⟩ := by
    have hf : bounce.fixup = fixStepper := rfl
    cases t <;> simp [bounceParams, GClass.param, GClass.collect, GClass.collectFrom, bounce_find_initial_scale, bounce_find_maximum_scale,
      bounce_find_n_bounce, bounce_find_target, bounce_find_stepper, hf, fixStepper, GVal.getFloat,
      GVal.getUint, GVal.boxFrom, boxOr]
  rw [hp]
  have hg : bounce.getProperty = bounceGet := rfl
  refine ⟨?_, ?_, ?_, ?_, rfl, rfl, rfl⟩ <;>
    simp [GClass.get, bounce_find_initial_scale, bounce_find_maximum_scale, bounce_find_n_bounce,
      bounce_find_target, PSpec.float, PSpec.uint, PSpec.box, hg, bounceGet, Bounce.new, AnimClass.new]

example : ∃ a, bounceNew 5 (-1) 0 none none = .ok a ∧ bounce.get a "initial-scale" = some (.float 5) := by
  obtain ⟨a, h, h1, _⟩ := C62_bounce 5 (-1) 0 none none
  exact ⟨a, h, h1⟩

theorem zoomNew_eq (c f t : Option Box) (s : Option Stepper) :
    zoomNew c f t s = .ok { (Zoom.new (boxOr f) (boxOr t) (stepperOr s)).1 with
      params := ⟨boxOr f, Zoom.ensureNonZeroArea (boxOr t)⟩
      stepper := stepperOr s } := by
  have hf : zoom.fixup = fixStepper := rfl
  have hs : zoom.param [("from", .box f), ("to", .box t), ("stepper", .stepper s)] "stepper" =
      .stepper (some (stepperOr s)) := by
    cases s <;> simp [GClass.param, GClass.collect, GClass.collectFrom, zoom_find_from, zoom_find_to, zoom_find_stepper, hf,
      fixStepper, stepperOr]
  have h1 : (zoom.param [("from", .box f), ("to", .box t), ("stepper", .stepper s)] "from").boxFrom =
      boxOr f := by
    cases f <;> simp [GClass.param, GClass.collect, GClass.collectFrom, zoom_find_from, zoom_find_to, zoom_find_stepper, hf,
      fixStepper, GVal.boxFrom, boxOr]
  have h2 : (zoom.param [("from", .box f), ("to", .box t), ("stepper", .stepper s)] "to").boxFrom =
      boxOr t := by
    cases t <;> simp [GClass.param, GClass.collect, GClass.collectFrom, zoom_find_from, zoom_find_to, zoom_find_stepper, hf,
      fixStepper, GVal.boxFrom, boxOr]
  rw [zoomNew, zoom_objectNew _ hs, h1, h2]

theorem ensure_of_area {b : Box} (h : HasArea b) : Zoom.ensureNonZeroArea b = b := by
  simp [Zoom.ensureNonZeroArea, h.1, h.2]

/-- **C62 (partial).** `animation_zoom_new` with two boxes that have an area: the boxes read back and the
stepper is a copy of the one given; the animation shows what the native one shows. -/
theorem C62_zoom_partial (c f t : Option Box) (s : Option Stepper) (hf : HasArea (boxOr f))
    (ht : HasArea (boxOr t)) :
    ∃ a, zoomNew c f t s = .ok a ∧ zoom.get a "from" = some (.box (some (boxOr f))) ∧
      zoom.get a "to" = some (.box (some (boxOr t))) ∧ a.stepper = stepperOr s ∧
      a.progress = (stepperOr s).value 0 ∧
      a.out = (Zoom.new (boxOr f) (boxOr t) (stepperOr s)).1.out := by
  refine ⟨_, zoomNew_eq c f t s, ?_⟩
  have hg : zoom.getProperty = zoomGet := rfl
  refine ⟨?_, ?_, rfl, rfl, rfl⟩ <;>
    simp [GClass.get, zoom_find_from, zoom_find_to, PSpec.box, hg, zoomGet, ensure_of_area ht]

example : HasArea (boxOr none) ∧ HasArea (boxOr (some ⟨⟨3, 4⟩, ⟨30, 40⟩⟩)) := by
  norm_num [HasArea, boxOr]

/-- **C62 (violated).** The first argument of `animation_zoom_new`, `current`, has no effect at all. -/
theorem C62_zoom_current_ignored (c c' f t : Option Box) (s : Option Stepper) :
    zoomNew c f t s = zoomNew c' f t s := by
  rw [zoomNew_eq, zoomNew_eq]

/-- The horizontal position at progress 0 of the point `q` of the surface. -/
theorem zoom_start_x {f t : Box} (ht : HasArea t) :
    ∃ M, Zoom.transform 0 f t = some M ∧ ∀ q : Pt, (transformPoint q M).x =
      f.tl.x + q.x / (t.br.x - t.tl.x) * (f.br.x - f.tl.x) - t.tl.x := by
  obtain ⟨M, hM, h⟩ := zoom_transform (p := 0) (f := f) ht
  refine ⟨M, hM, fun q => ?_⟩
  have hx : t.br.x - t.tl.x ≠ 0 := sub_ne_zero.2 ht.1
  have hy : t.br.y - t.tl.y ≠ 0 := sub_ne_zero.2 ht.2
  have := h (q.x / (t.br.x - t.tl.x)) (q.y / (t.br.y - t.tl.y))
  rw [div_mul_cancel₀ _ hx, div_mul_cancel₀ _ hy] at this
  have e : q = ⟨q.x, q.y⟩ := rfl
  rw [e, this]
  simp only [lerp]
  ring

/-- **C62 (violated).** A `from` box without width: the native animation starts from a box one pixel wide
instead (`C62_zoom_native`). The GObject one loses that adjustment: `from` reads back without width, and every
Step that finds progress 0 squeezes the whole surface onto one vertical line. -/
theorem C62_zoom_degenerate (c t : Option Box) (f : Box) (s : Option Stepper) (ms : ℕ)
    (hf : f.br.x = f.tl.x) :
    ∃ a, zoomNew c (some f) t s = .ok a ∧ zoom.get a "from" = some (.box (some f)) ∧
      ((zoom.native.step a ms).1.progress = fin 0 →
        ∃ M, (zoom.native.step a ms).1.out = some M ∧
          ∀ q q' : Pt, (transformPoint q M).x = (transformPoint q' M).x) := by
  refine ⟨_, zoomNew_eq c (some f) t s, ?_, ?_⟩
  · have hg : zoom.getProperty = zoomGet := rfl
    simp [GClass.get, zoom_find_from, PSpec.box, hg, zoomGet, boxOr]
  · intro hp
    obtain ⟨r, _, _, hr, ho⟩ := zoom_step { (Zoom.new (boxOr (some f)) (boxOr t) (stepperOr s)).1 with
      params := ⟨boxOr (some f), Zoom.ensureNonZeroArea (boxOr t)⟩, stepper := stepperOr s } ms
    have : r = 0 := XR.fin_inj.1 (hr.symm.trans hp)
    subst this
    have ha := zoom_nonzero (boxOr t)
    obtain ⟨M, hM, h⟩ := zoom_start_x (f := f) (t := Zoom.ensureNonZeroArea (boxOr t))
      ⟨sub_ne_zero.1 ha.1, sub_ne_zero.1 ha.2⟩
    refine ⟨M, ho.trans hM, fun q q' => ?_⟩
    rw [h, h, hf]; ring

/-- **C62.** What the native zoom does for the same boxes: points that are apart stay apart. -/
theorem C62_zoom_native (f t : Box) (s : Stepper) (ms : ℕ)
    (hp : (Zoom.cls.step (Zoom.new f t s).1 ms).1.progress = fin 0) :
    ∃ M, (Zoom.cls.step (Zoom.new f t s).1 ms).1.out = some M ∧
      ∀ q q' : Pt, q.x ≠ q'.x → (transformPoint q M).x ≠ (transformPoint q' M).x := by
  obtain ⟨r, _, _, hr, ho⟩ := zoom_step (Zoom.new f t s).1 ms
  have : r = 0 := XR.fin_inj.1 (hr.symm.trans hp)
  subst this
  have ha := zoom_nonzero t
  have hb := (zoom_nonzero f).1
  obtain ⟨M, hM, h⟩ := zoom_start_x (f := Zoom.ensureNonZeroArea f) (t := Zoom.ensureNonZeroArea t)
    ⟨sub_ne_zero.1 ha.1, sub_ne_zero.1 ha.2⟩
  refine ⟨M, ho.trans hM, fun q q' hq => ?_⟩
  rw [h, h]
  intro e
  apply hq
  have e1 : q.x / ((Zoom.ensureNonZeroArea t).br.x - (Zoom.ensureNonZeroArea t).tl.x) =
      q'.x / ((Zoom.ensureNonZeroArea t).br.x - (Zoom.ensureNonZeroArea t).tl.x) := by
    apply mul_right_cancel₀ hb
    linarith
  exact (div_left_inj' ha.1).1 e1

example : ∃ a, zoomNew none (some ⟨⟨5, 5⟩, ⟨5, 9⟩⟩) none (some (linear 300)) = .ok a ∧
    (zoom.native.step a 0).1.progress = fin 0 ∧
    (Zoom.cls.step (Zoom.new ⟨⟨5, 5⟩, ⟨5, 9⟩⟩ (boxOr none) (linear 300)).1 0).1.progress = fin 0 := by
  refine ⟨_, zoomNew_eq _ _ _ _, ?_, ?_⟩
  · show clamp ((stepperOr (some (linear 300))).value 0) (fin 0) (fin 1) = fin 0
    simp [stepperOr, Stepper.value, Stepper.invoke, linear, linearFrom, XR.clamp_fin,
      XR.fin_div _ (show (300 : ℝ) ≠ 0 by norm_num)]
  · show clamp (((linear 300).after 0).value 0) (fin 0) (fin 1) = fin 0
    simp [Stepper.value, Stepper.after, Stepper.invoke, linear, linearFrom, XR.clamp_fin,
      XR.fin_div _ (show (300 : ℝ) ≠ 0 by norm_num)]

theorem glideNew_eq (d xa ya xu yu : ℝ) (w : ℕ) (t : Option Box) (L : ℕ) :
    glideNew d xa ya xu yu w t L =
      .ok { (Glide.new ⟨d, xa, ya, xu, yu, w, boxOr t⟩ (linear 300)).1 with stepper := linear 300 } := by
  have hf : glide.fixup = fixStepper := rfl
  have hl : glide.find "length" = none := by
    simp [GClass.find, glide, PSpec.float, PSpec.uint, PSpec.box, PSpec.stepper]
  have hs : glide.param
    [ ("initial-distance", .float d), ("x-rotation-angle-degrees", .float xa),
      ("y-rotation-angle-degrees", .float ya), ("x-axis-location-unit", .float xu),
      ("y-axis-location-unit", .float yu), ("screen-width", .uint w),
      ("target", .box t), ("length", .uint L) ] "stepper" = .stepper (some (linear 300)) := by
    simp [GClass.param, GClass.collect, GClass.collectFrom, glide_find_initial_distance, glide_find_x_rotation_angle_degrees,
      glide_find_y_rotation_angle_degrees, glide_find_x_axis_location_unit, glide_find_y_axis_location_unit,
      glide_find_screen_width, glide_find_target, glide_find_stepper, hl, hf, fixStepper, PSpec.stepper]
  rw [glideNew, glide_objectNew _ hs]
  have hp : glideParams (glide.param
    [ ("initial-distance", .float d), ("x-rotation-angle-degrees", .float xa),
      ("y-rotation-angle-degrees", .float ya), ("x-axis-location-unit", .float xu),
      ("y-axis-location-unit", .float yu), ("screen-width", .uint w),
      ("target", .box t), ("length", .uint L) ]) = ⟨d, xa, ya, xu, yu, w, boxOr t⟩ := by
    cases t <;> simp [glideParams, GClass.param, GClass.collect, GClass.collectFrom, glide_find_initial_distance, glide_find_x_rotation_angle_degrees,
      glide_find_y_rotation_angle_degrees, glide_find_x_axis_location_unit, glide_find_y_axis_location_unit,
      glide_find_screen_width, glide_find_target, glide_find_stepper, hl, hf, fixStepper, GVal.getFloat,
      GVal.getUint, GVal.boxFrom, boxOr]
  rw [hp]

/-- **C62 (partial).** `animation_glide_new`: all arguments but the length reach the animation; it shows what
a native one with a 300 millisecond linear stepper shows. -/
theorem C62_glide_partial (d xa ya xu yu : ℝ) (w : ℕ) (t : Option Box) (L : ℕ) :
    ∃ a, glideNew d xa ya xu yu w t L = .ok a ∧
      glide.get a "initial-distance" = some (.float d) ∧
      glide.get a "x-rotation-angle-degrees" = some (.float xa) ∧
      glide.get a "y-rotation-angle-degrees" = some (.float ya) ∧
      glide.get a "x-axis-location-unit" = some (.float xu) ∧
      glide.get a "y-axis-location-unit" = some (.float yu) ∧
      a.params.screenWidth = w ∧ a.params.target = boxOr t ∧ a.stepper = linear 300 ∧
      a.out = (Glide.new ⟨d, xa, ya, xu, yu, w, boxOr t⟩ (linear 300)).1.out := by
  refine ⟨_, glideNew_eq d xa ya xu yu w t L, ?_⟩
  have hg : glide.getProperty = glideGet := rfl
  refine ⟨?_, ?_, ?_, ?_, ?_, rfl, rfl, rfl, rfl⟩ <;>
    simp [GClass.get, glide_find_initial_distance, glide_find_x_rotation_angle_degrees,
      glide_find_y_rotation_angle_degrees, glide_find_x_axis_location_unit, glide_find_y_axis_location_unit,
      PSpec.float, hg, glideGet, Glide.new, AnimClass.new]

/-- **C62 (violated).** The length given to `animation_glide_new` has no effect: unless it is 300, one
millisecond after the start the progress is not the one of a native animation of that length. -/
theorem C62_glide_length (d xa ya xu yu : ℝ) (w : ℕ) (t : Option Box) (L : ℕ) (h1 : 1 ≤ L) (h : L ≠ 300) :
    ∃ a, glideNew d xa ya xu yu w t L = .ok a ∧
      (glide.native.step a 1).1.progress ≠
        (Glide.cls.step (Glide.new ⟨d, xa, ya, xu, yu, w, boxOr t⟩ (linear L)).1 1).1.progress := by
  refine ⟨_, glideNew_eq d xa ya xu yu w t L, ?_⟩
  have hL : (0 : ℝ) < L := by exact_mod_cast h1
  have e1 : (glide.native.step { (Glide.new ⟨d, xa, ya, xu, yu, w, boxOr t⟩ (linear 300)).1 with
      stepper := linear 300 } 1).1.progress = fin (1 / 300) := by
    show clamp ((linear 300).value 1) (fin 0) (fin 1) = _
    simp [Stepper.value, Stepper.invoke, linear, linearFrom, XR.clamp_fin,
      XR.fin_div _ (show (300 : ℝ) ≠ 0 by norm_num)]
    norm_num
  have e2 : (Glide.cls.step (Glide.new ⟨d, xa, ya, xu, yu, w, boxOr t⟩ (linear L)).1 1).1.progress =
      fin (min 1 (1 / L)) := by
    have := C04_linear_progress Glide.cls ⟨d, xa, ya, xu, yu, w, boxOr t⟩ (some 1) hL [] 1
    simpa [steps, AnimClass.run, Glide.new] using this
  rw [e1, e2]
  intro e
  have e := XR.fin_inj.1 e
  have h3 : (1 : ℝ) / L ≤ 1 := by
    rw [div_le_one hL]; exact_mod_cast h1
  rw [min_eq_right h3] at e
  field_simp at e
  exact h (by exact_mod_cast e)

example : (1 : ℕ) ≤ 1000 ∧ (1000 : ℕ) ≠ 300 := by decide

/-- The grid size that `resolution` stands for: `NULL` means ten by ten, fractions are cut off. -/
def sizeOr (r : Option Pt) : ℕ × ℕ := match r with
  | none => (10, 10)
  | some v => (⌊v.x⌋₊, ⌊v.y⌋₊)

/-- **C62 (partial).** `animation_magiclamp_new`: both boxes, the resolution and the stepper reach the
animation; the other four arguments do not (`C62_lamp_ignored`). -/
theorem C62_lamp_partial (f t : Option Box) (r : Option Pt) (b o x d : ℝ) (s : Option Stepper)
    (hr : ∀ v, r = some v → -1 < v.x ∧ -1 < v.y) :
    ∃ a, lampNew f t r b o x d s = .ok a ∧
      lamp.get a "source" = some (.box (some (boxOr f))) ∧
      lamp.get a "target" = some (.box (some (boxOr t))) ∧
      (a.params.gw, a.params.gh) = sizeOr r ∧ a.stepper = stepperOr s ∧
      a.progress = (stepperOr s).value 0 ∧
      a.out = (MagicLamp.new ⟨boxOr f, boxOr t, (sizeOr r).1, (sizeOr r).2, 10, 1 / 2, 9 / 20, 23 / 10⟩
        (stepperOr s)).1.out := by
  have hf : lamp.fixup = lampFixup := rfl
  have hs : lamp.param [ ("source", .box f), ("target", .box t), ("resolution", .vector r),
      ("stepper", .stepper s) ] "stepper" = .stepper (some (stepperOr s)) := by
    cases s <;> simp [GClass.param, GClass.collect, GClass.collectFrom, lamp_find_source, lamp_find_target, lamp_find_resolution,
      lamp_find_stepper, hf, lampFixup, fixStepper, stepperOr]
  have hr' : (lamp.param [ ("source", .box f), ("target", .box t), ("resolution", .vector r),
      ("stepper", .stepper s) ] "resolution").sizesFrom = .ok (sizeOr r) := by
    cases r with
    | none =>
      have e : MagicLamp.toSize 10 = .ok 10 := by
        rw [MagicLamp.toSize, if_neg (by norm_num), show (10 : ℝ) = ((10 : ℕ) : ℝ) by norm_num,
          Nat.floor_natCast]
      simp [GClass.param, GClass.collect, GClass.collectFrom, lamp_find_source, lamp_find_target, lamp_find_resolution,
        lamp_find_stepper, hf, lampFixup, fixStepper, GVal.sizesFrom, e, sizeOr]
    | some v =>
      obtain ⟨h1, h2⟩ := hr v rfl
      have e1 : MagicLamp.toSize v.x = .ok ⌊v.x⌋₊ := by rw [MagicLamp.toSize, if_neg (not_le.2 h1)]
      have e2 : MagicLamp.toSize v.y = .ok ⌊v.y⌋₊ := by rw [MagicLamp.toSize, if_neg (not_le.2 h2)]
      simp [GClass.param, GClass.collect, GClass.collectFrom, lamp_find_source, lamp_find_target, lamp_find_resolution,
        lamp_find_stepper, hf, lampFixup, fixStepper, GVal.sizesFrom, e1, e2, sizeOr]
  have hp : lampParams (lamp.param [ ("source", .box f), ("target", .box t), ("resolution", .vector r),
      ("stepper", .stepper s) ]) (sizeOr r) =
      ⟨boxOr f, boxOr t, (sizeOr r).1, (sizeOr r).2, 10, 1 / 2, 9 / 20, 23 / 10⟩ := by
    cases f <;> cases t <;> simp [lampParams, GClass.param, GClass.collect, GClass.collectFrom, lamp_find_source, lamp_find_target,
      lamp_find_resolution, lamp_find_stepper, lamp_find_bend_factor, lamp_find_offset_factor,
      lamp_find_stretch_factor, lamp_find_deform_speed_factor, hf, lampFixup, fixStepper, PSpec.float,
      GVal.getFloat, GVal.boxFrom, boxOr] <;> norm_num
  refine ⟨_, lamp_objectNew _ hs hr', ?_⟩
  rw [hp]
  have hg : lamp.getProperty = lampGet := rfl
  refine ⟨?_, ?_, rfl, rfl, rfl, rfl⟩ <;>
    simp [GClass.get, lamp_find_source, lamp_find_target, PSpec.box, hg, lampGet, MagicLamp.new, AnimClass.new]

example : ∀ v : Pt, some (⟨20, 5⟩ : Pt) = some v → -1 < v.x ∧ -1 < v.y := by
  rintro v ⟨⟩; norm_num

/-- **C62 (violated).** `animation_magiclamp_new` ignores the bend, offset, stretch and deform speed
factors; they are always 10, 0.5, 0.45 and 2.3. -/
theorem C62_lamp_ignored (f t : Option Box) (r : Option Pt) (b o x d b' o' x' d' : ℝ) (s : Option Stepper) :
    lampNew f t r b o x d s = lampNew f t r b' o' x' d' s ∧
    ∀ a, lampNew f t r b o x d s = .ok a → lamp.get a "bend-factor" = some (.float 10) ∧
      lamp.get a "offset-factor" = some (.float (1 / 2)) ∧ a.params.stretch = 9 / 20 ∧
      lamp.get a "deform-speed-factor" = some (.float (23 / 10)) := by
  refine ⟨rfl, fun a ha => ?_⟩
  have hf : lamp.fixup = lampFixup := rfl
  have hs : lamp.param [ ("source", .box f), ("target", .box t), ("resolution", .vector r),
      ("stepper", .stepper s) ] "stepper" = .stepper (some (stepperOr s)) := by
    cases s <;> simp [GClass.param, GClass.collect, GClass.collectFrom, lamp_find_source, lamp_find_target, lamp_find_resolution,
      lamp_find_stepper, hf, lampFixup, fixStepper, stepperOr]
  have hc : ∀ v, lamp.construct v = (v "resolution").sizesFrom.bind fun r =>
      .ok (MagicLamp.new (lampParams v r) (v "stepper").stepperFrom).1 := fun _ => rfl
  have ha' := ha
  rw [lampNew, GClass.objectNew, hc] at ha'
  cases hr : (lamp.param [ ("source", .box f), ("target", .box t), ("resolution", .vector r),
      ("stepper", .stepper s) ] "resolution").sizesFrom with
  | ok z =>
    rw [lampNew, lamp_objectNew _ hs hr] at ha
    cases ha
    have hg : lamp.getProperty = lampGet := rfl
    refine ⟨?_, ?_, ?_, ?_⟩ <;>
      simp [GClass.get, lamp_find_source, lamp_find_target,
        lamp_find_resolution, lamp_find_stepper, lamp_find_bend_factor, lamp_find_offset_factor,
        lamp_find_stretch_factor, lamp_find_deform_speed_factor, PSpec.float, hg, lampGet, MagicLamp.new,
        AnimClass.new, lampParams, GClass.param, GClass.collect, GClass.collectFrom, hf, lampFixup, fixStepper, GVal.getFloat] <;>
      norm_num
  | _ => rw [hr] at ha'; simp at ha'

/-- **C62 (violated).** A resolution of minus one or less is converted to an unsigned number, which is
undefined. -/
theorem C62_lamp_negative_resolution (f t : Option Box) (v : Pt) (b o x d : ℝ) (s : Option Stepper)
    (h : v.x ≤ -1 ∨ v.y ≤ -1) : lampNew f t (some v) b o x d s = .ub := by
  have hf : lamp.fixup = lampFixup := rfl
  apply lamp_objectNew_ub
  have e1 : v.x ≤ -1 → MagicLamp.toSize v.x = .ub := fun h => by rw [MagicLamp.toSize, if_pos h]
  have e2 : v.y ≤ -1 → MagicLamp.toSize v.y = .ub := fun h => by rw [MagicLamp.toSize, if_pos h]
  have e3 : ¬ v.x ≤ -1 → MagicLamp.toSize v.x = .ok ⌊v.x⌋₊ := fun h => by rw [MagicLamp.toSize, if_neg h]
  simp [GClass.param, GClass.collect, GClass.collectFrom, lamp_find_source, lamp_find_target, lamp_find_resolution,
    lamp_find_stepper, hf, lampFixup, fixStepper, GVal.sizesFrom]
  by_cases h1 : v.x ≤ -1
  · simp [e1 h1]
  · rcases h with h | h
    · exact absurd h h1
    · simp [e3 h1, e2 h]

example : ((⟨-5, 3⟩ : Pt).x ≤ -1 ∨ (⟨-5, 3⟩ : Pt).y ≤ -1) := by norm_num

/-! ## C66: setting and reading properties -/

/-- **C66.** Setting a property of a bounce animation to an allowed value: it reads back, no other
property changes, and neither do the progress and what is shown. -/
theorem C66_bounce (a : Anim Bounce.Params (Option Mat4)) (n : String) (v : GVal)
    (h : bounceProperty n v ≠ none) :
    ∃ a', bounce.set a n v = .ok a' ∧ bounce.get a' n = some v ∧
      (∀ m, m ≠ n → bounce.get a' m = bounce.get a m) ∧ a'.progress = a.progress ∧ a'.out = a.out := by
  have hnull : ¬ (n = "stepper" ∧ v = .stepper none) := by
    rintro ⟨rfl, rfl⟩; simp [bounceProperty] at h
  refine ⟨_, bounce_set a n v hnull, ?_⟩
  have hg : bounce.getProperty = bounceGet := rfl
  have hget : ∀ a m, (∀ a', bounce.getProperty a m = bounce.getProperty a' m → bounce.get a m = bounce.get a' m) := by
    intro a m a' e; simp only [GClass.get, e]
  unfold bounceProperty at h ⊢
  split at h <;>
    first
    | exact absurd rfl h
    | (try simp only [within] at h ⊢
       try (split_ifs at h ⊢ with hr)
       all_goals first
       | exact absurd rfl h
       | (refine ⟨?_, fun m hm => hget _ _ _ ?_, rfl, rfl⟩
          · simp [GClass.get, bounce_find_initial_scale, bounce_find_maximum_scale, bounce_find_n_bounce, bounce_find_target, bounce_find_stepper, PSpec.float, PSpec.uint, PSpec.box, PSpec.stepper, hg, bounceGet,
              AnimClass.exec, AnimClass.set, AnimClass.setStepper, Bounce.cls, Bounce.applySetter]
          · simp only [hg, bounceGet, Option.toList, List.foldl, AnimClass.exec, AnimClass.set,
              AnimClass.setStepper, Bounce.cls, Bounce.applySetter, hm, if_false]))

/-- **C66.** Anything else is refused or ignored and changes nothing (a `NULL` stepper excepted, see
`C67_null`). -/
theorem C66_bounce_refused (a : Anim Bounce.Params (Option Mat4)) (n : String) (v : GVal)
    (h : bounceProperty n v = none) (hnull : ¬ (n = "stepper" ∧ v = .stepper none)) :
    bounce.set a n v = .ok a := by
  rw [bounce_set a n v hnull, h]; rfl

example : bounceProperty "n-bounce" (.uint 3) ≠ none ∧ bounceProperty "n-bounce" (.uint 11) = none ∧
    bounceProperty "target" (.box none) = none := by
  refine ⟨?_, ?_, ?_⟩ <;> simp [bounceProperty, within] <;> norm_num

/-- **C66.** Setting a property of a zoom animation to an allowed value: it reads back, no other
property changes, and neither do the progress and what is shown. -/
theorem C66_zoom (a : Anim Zoom.Params (Option Mat4)) (n : String) (v : GVal)
    (h : zoomProperty n v ≠ none) :
    ∃ a', zoom.set a n v = .ok a' ∧ zoom.get a' n = some v ∧
      (∀ m, m ≠ n → zoom.get a' m = zoom.get a m) ∧ a'.progress = a.progress ∧ a'.out = a.out := by
  have hnull : ¬ (n = "stepper" ∧ v = .stepper none) := by
    rintro ⟨rfl, rfl⟩; simp [zoomProperty] at h
  refine ⟨_, zoom_set a n v hnull, ?_⟩
  have hg : zoom.getProperty = zoomGet := rfl
  have hget : ∀ a m, (∀ a', zoom.getProperty a m = zoom.getProperty a' m → zoom.get a m = zoom.get a' m) := by
    intro a m a' e; simp only [GClass.get, e]
  unfold zoomProperty at h ⊢
  split at h <;>
    first
    | exact absurd rfl h
    | (try simp only [within] at h ⊢
       try (split_ifs at h ⊢ with hr)
       all_goals first
       | exact absurd rfl h
       | (refine ⟨?_, fun m hm => hget _ _ _ ?_, rfl, rfl⟩
          · simp [GClass.get, zoom_find_from, zoom_find_to, zoom_find_stepper, PSpec.float, PSpec.uint, PSpec.box, PSpec.stepper, hg, zoomGet,
              AnimClass.exec, AnimClass.set, AnimClass.setStepper, Zoom.cls, Zoom.applySetter]
          · simp only [hg, zoomGet, Option.toList, List.foldl, AnimClass.exec, AnimClass.set,
              AnimClass.setStepper, Zoom.cls, Zoom.applySetter, hm, if_false]))

/-- **C66.** Anything else is refused or ignored and changes nothing (a `NULL` stepper excepted, see
`C67_null`). -/
theorem C66_zoom_refused (a : Anim Zoom.Params (Option Mat4)) (n : String) (v : GVal)
    (h : zoomProperty n v = none) (hnull : ¬ (n = "stepper" ∧ v = .stepper none)) :
    zoom.set a n v = .ok a := by
  rw [zoom_set a n v hnull, h]; rfl

example : zoomProperty "from" (.box (some ⟨⟨1, 2⟩, ⟨3, 4⟩⟩)) ≠ none ∧ zoomProperty "to" (.box none) = none := by
  simp [zoomProperty]

/-- **C66.** Setting a property of a glide animation to an allowed value: it reads back, no other
property changes, and neither do the progress and what is shown. -/
theorem C66_glide (a : Anim Glide.Params (Option Mat4)) (n : String) (v : GVal)
    (h : glideProperty n v ≠ none) :
    ∃ a', glide.set a n v = .ok a' ∧ glide.get a' n = some v ∧
      (∀ m, m ≠ n → glide.get a' m = glide.get a m) ∧ a'.progress = a.progress ∧ a'.out = a.out := by
  have hnull : ¬ (n = "stepper" ∧ v = .stepper none) := by
    rintro ⟨rfl, rfl⟩; simp [glideProperty] at h
  refine ⟨_, glide_set a n v hnull, ?_⟩
  have hg : glide.getProperty = glideGet := rfl
  have hget : ∀ a m, (∀ a', glide.getProperty a m = glide.getProperty a' m → glide.get a m = glide.get a' m) := by
    intro a m a' e; simp only [GClass.get, e]
  unfold glideProperty at h ⊢
  split at h <;>
    first
    | exact absurd rfl h
    | (try simp only [within] at h ⊢
       try (split_ifs at h ⊢ with hr)
       all_goals first
       | exact absurd rfl h
       | (refine ⟨?_, fun m hm => hget _ _ _ ?_, rfl, rfl⟩
          · simp [GClass.get, glide_find_initial_distance, glide_find_x_rotation_angle_degrees, glide_find_y_rotation_angle_degrees, glide_find_x_axis_location_unit, glide_find_y_axis_location_unit, glide_find_stepper, PSpec.float, PSpec.uint, PSpec.box, PSpec.stepper, hg, glideGet,
              AnimClass.exec, AnimClass.set, AnimClass.setStepper, Glide.cls, Glide.applySetter]
          · simp only [hg, glideGet, Option.toList, List.foldl, AnimClass.exec, AnimClass.set,
              AnimClass.setStepper, Glide.cls, Glide.applySetter, hm, if_false]))

/-- **C66.** Anything else is refused or ignored and changes nothing (a `NULL` stepper excepted, see
`C67_null`). -/
theorem C66_glide_refused (a : Anim Glide.Params (Option Mat4)) (n : String) (v : GVal)
    (h : glideProperty n v = none) (hnull : ¬ (n = "stepper" ∧ v = .stepper none)) :
    glide.set a n v = .ok a := by
  rw [glide_set a n v hnull, h]; rfl

example : glideProperty "initial-distance" (.float (-1 / 2)) ≠ none ∧
    glideProperty "initial-distance" (.float 2) = none := by
  refine ⟨?_, ?_⟩ <;> simp [glideProperty, within] <;> norm_num

/-- **C66 (partial).** Setting a property of a magic lamp animation to an allowed value (any but the stepper, which cannot be read, see `C66_lamp_stepper_unreadable`): it reads back, no other
property changes, and neither do the progress and what is shown. -/
theorem C66_lamp_partial (a : Anim MagicLamp.Params (Outcome MagicLamp.Grid)) (n : String) (v : GVal)
    (h : lampProperty n v ≠ none) (hn : n ≠ "stepper") :
    ∃ a', lamp.set a n v = .ok a' ∧ lamp.get a' n = some v ∧
      (∀ m, m ≠ n → lamp.get a' m = lamp.get a m) ∧ a'.progress = a.progress ∧ a'.out = a.out := by
  have hnull : ¬ (n = "stepper" ∧ v = .stepper none) := by
    rintro ⟨rfl, rfl⟩; simp [lampProperty] at h
  refine ⟨_, lamp_set a n v hnull, ?_⟩
  have hg : lamp.getProperty = lampGet := rfl
  have hget : ∀ a m, (∀ a', lamp.getProperty a m = lamp.getProperty a' m → lamp.get a m = lamp.get a' m) := by
    intro a m a' e; simp only [GClass.get, e]
  unfold lampProperty at h ⊢
  split at h <;>
    first
    | exact absurd rfl h
    | exact absurd rfl hn
    | (try simp only [within] at h ⊢
       try (split_ifs at h ⊢ with hr)
       all_goals first
       | exact absurd rfl h
       | (refine ⟨?_, fun m hm => hget _ _ _ ?_, rfl, rfl⟩
          · simp [GClass.get, lamp_find_source, lamp_find_bend_factor, lamp_find_offset_factor, lamp_find_deform_speed_factor, lamp_find_stepper, PSpec.float, PSpec.uint, PSpec.box, PSpec.stepper, hg, lampGet,
              AnimClass.exec, AnimClass.set, AnimClass.setStepper, MagicLamp.cls, MagicLamp.applySetter]
          · simp only [hg, lampGet, Option.toList, List.foldl, AnimClass.exec, AnimClass.set,
              AnimClass.setStepper, MagicLamp.cls, MagicLamp.applySetter, hm, if_false]))

/-- **C66.** Anything else is refused or ignored and changes nothing (a `NULL` stepper excepted, see
`C67_null`). -/
theorem C66_lamp_refused (a : Anim MagicLamp.Params (Outcome MagicLamp.Grid)) (n : String) (v : GVal)
    (h : lampProperty n v = none) (hnull : ¬ (n = "stepper" ∧ v = .stepper none)) :
    lamp.set a n v = .ok a := by
  rw [lamp_set a n v hnull, h]; rfl

example : lampProperty "bend-factor" (.float 15) ≠ none ∧ "bend-factor" ≠ "stepper" ∧
    lampProperty "bend-factor" (.float 25) = none := by
  refine ⟨?_, ?_, ?_⟩ <;> simp [lampProperty, within] <;> norm_num

/-- **C66 (violated).** The `stepper` property of a magic lamp animation is declared readable and can be set,
but reading it yields nothing. -/
theorem C66_lamp_stepper_unreadable (a : Anim MagicLamp.Params (Outcome MagicLamp.Grid)) (s : Stepper) :
    (∃ sp, lamp.find "stepper" = some sp ∧ sp.readable = true ∧ sp.constructOnly = false) ∧
    lamp.set a "stepper" (.stepper (some s)) = .ok { a with stepper := s } ∧
    lamp.get { a with stepper := s } "stepper" = none := by
  refine ⟨⟨_, lamp_find_stepper, rfl, rfl⟩, ?_, ?_⟩
  · rw [lamp_set _ _ _ (by simp)]; rfl
  · have hg : lamp.getProperty = lampGet := rfl
    simp [GClass.get, lamp_find_stepper, PSpec.stepper, hg, lampGet]

/-! ## C67: a GObject animation is the native animation -/

/-- **C67.** Any history of calls on a bounce animation (none handing in a `NULL` stepper) leaves it exactly
as the native calls that the GObject calls stand for. -/
theorem C67_bounce (a : Anim Bounce.Params (Option Mat4)) (ops : List (GOp Bounce.Setter))
    (h : ∀ op ∈ ops, ¬ HandsNull op) :
    bounce.run a ops = .ok (Bounce.cls.run a (animCalls bounceProperty id ops)) :=
  run_native bounce bounceProperty id rfl bounce_set ops a h

/-- **C67.** The same for zoom. -/
theorem C67_zoom (a : Anim Zoom.Params (Option Mat4)) (ops : List (GOp Zoom.Setter))
    (h : ∀ op ∈ ops, ¬ HandsNull op) :
    zoom.run a ops = .ok (Zoom.cls.run a (animCalls zoomProperty id ops)) :=
  run_native zoom zoomProperty id rfl zoom_set ops a h

/-- **C67.** The same for glide. -/
theorem C67_glide (a : Anim Glide.Params (Option Mat4)) (ops : List (GOp Glide.Setter))
    (h : ∀ op ∈ ops, ¬ HandsNull op) :
    glide.run a ops = .ok (Glide.cls.run a (animCalls glideProperty id ops)) :=
  run_native glide glideProperty id rfl glide_set ops a h

/-- **C67.** The same for the magic lamp. -/
theorem C67_lamp (a : Anim MagicLamp.Params (Outcome MagicLamp.Grid)) (ops : List (GOp LampFn))
    (h : ∀ op ∈ ops, ¬ HandsNull op) :
    lamp.run a ops = .ok (MagicLamp.cls.run a (animCalls lampProperty lampCall ops)) :=
  run_native lamp lampProperty lampCall (by funext f; cases f <;> rfl) lamp_set ops a h

/-- A history with property settings, one of them refused, a function call and Steps. -/
def demoHistory : List (GOp Bounce.Setter) :=
  [.step 10, .setProperty "n-bounce" (.uint 3), .setProperty "n-bounce" (.uint 99), .call (.initialScale 7),
    .setProperty "stepper" (.stepper (some (linear 50))), .step 20]

example : (∀ op ∈ demoHistory, ¬ HandsNull op) ∧
    (animCalls bounceProperty id demoHistory).length = 5 := by
  constructor
  · simp [demoHistory, HandsNull]
  · norm_num [demoHistory, animCalls, bounceProperty, within]

/-- **C67.** A `NULL` stepper handed to a finished object is dereferenced, by the property as well as by the
function, in all four classes. -/
theorem C67_null :
    (∀ (a : Anim Bounce.Params (Option Mat4)) op, HandsNull op → bounce.exec a op = .ub) ∧
    (∀ (a : Anim Zoom.Params (Option Mat4)) op, HandsNull op → zoom.exec a op = .ub) ∧
    (∀ (a : Anim Glide.Params (Option Mat4)) op, HandsNull op → glide.exec a op = .ub) ∧
    (∀ (a : Anim MagicLamp.Params (Outcome MagicLamp.Grid)) op, HandsNull op → lamp.exec a op = .ub) := by
  have h1 : bounce.setProperty = bounceSet := rfl
  have h2 : zoom.setProperty = zoomSet := rfl
  have h3 : glide.setProperty = glideSet := rfl
  have h4 : lamp.setProperty = lampSet := rfl
  refine ⟨fun a op h => ?_, fun a op h => ?_, fun a op h => ?_, fun a op h => ?_⟩ <;> cases op <;>
    simp only [HandsNull] at h
  all_goals first
  | (subst h; rfl)
  | (obtain ⟨rfl, rfl⟩ := h
     simp [GClass.exec, GClass.set, bounce_find_stepper, zoom_find_stepper, glide_find_stepper,
      lamp_find_stepper, PSpec.stepper, GClass.setChecked, h1, h2, h3, h4, bounceSet, zoomSet, glideSet,
      lampSet, GClass.setStepper])

example : HandsNull (F := LampFn) (.callSetStepper none) ∧
    HandsNull (F := LampFn) (.setProperty "stepper" (.stepper none)) := ⟨rfl, rfl, rfl⟩

theorem hasStep_native {S F : Type} (prop : String → GVal → Option (AnimOp S)) (fn : F → S) {ms : ℕ} :
    ∀ ops : List (GOp F), GOp.step ms ∈ ops → HasStep (animCalls prop fn ops) := by
  intro ops
  induction ops with
  | nil => intro h; simp at h
  | cons op ops ih =>
    intro h
    rcases List.mem_cons.1 h with h | h
    · subst h
      exact ⟨ms, by simp [animCalls]⟩
    · obtain ⟨k, hk⟩ := ih h
      refine ⟨k, ?_⟩
      cases op with
      | callSetStepper s => cases s <;> simp [animCalls, hk]
      | _ => simp [animCalls, hk]

/-- **C67.** In particular the progress of a GObject animation that has been stepped at least once is a number
between 0 and 1, whatever steppers it was given. -/
theorem C67_progress (ms : ℕ) :
    (∀ (a : Anim Bounce.Params (Option Mat4)) (ops : List (GOp Bounce.Setter)), (∀ op ∈ ops, ¬ HandsNull op) →
      GOp.step ms ∈ ops → ∃ a', bounce.run a ops = .ok a' ∧ InUnit a'.progress) ∧
    (∀ (a : Anim Zoom.Params (Option Mat4)) (ops : List (GOp Zoom.Setter)), (∀ op ∈ ops, ¬ HandsNull op) →
      GOp.step ms ∈ ops → ∃ a', zoom.run a ops = .ok a' ∧ InUnit a'.progress) ∧
    (∀ (a : Anim Glide.Params (Option Mat4)) (ops : List (GOp Glide.Setter)), (∀ op ∈ ops, ¬ HandsNull op) →
      GOp.step ms ∈ ops → ∃ a', glide.run a ops = .ok a' ∧ InUnit a'.progress) ∧
    ∀ (a : Anim MagicLamp.Params (Outcome MagicLamp.Grid)) (ops : List (GOp LampFn)), (∀ op ∈ ops, ¬ HandsNull op) →
      GOp.step ms ∈ ops → ∃ a', lamp.run a ops = .ok a' ∧ InUnit a'.progress :=
  ⟨fun a ops h hm => ⟨_, C67_bounce a ops h, C01_progress_in_unit Bounce.cls a _ (hasStep_native _ _ ops hm)⟩,
   fun a ops h hm => ⟨_, C67_zoom a ops h, C01_progress_in_unit Zoom.cls a _ (hasStep_native _ _ ops hm)⟩,
   fun a ops h hm => ⟨_, C67_glide a ops h, C01_progress_in_unit Glide.cls a _ (hasStep_native _ _ ops hm)⟩,
   fun a ops h hm => ⟨_, C67_lamp a ops h, C01_progress_in_unit MagicLamp.cls a _ (hasStep_native _ _ ops hm)⟩⟩

/-! ## C68: declared ranges -/

/-- **C68 (partial).** A bounce animation made with numbers in their ranges (or their defaults) and changed
through properties only, never through the setter functions, keeps all numbers in their ranges. -/
theorem C68_bounce_partial (args : List (String × GVal)) (hargs : ∀ p ∈ args, BounceFits p.1 p.2)
    (ops : List (GOp Bounce.Setter)) (h : ∀ op ∈ ops, ¬ HandsNull op) (hf : ∀ op ∈ ops, NotFunction op) :
    ∃ a a', bounce.objectNew args = .ok a ∧ bounce.run a ops = .ok a' ∧ BounceDeclared a'.params := by
  have hx : bounce.fixup = fixStepper := rfl
  obtain ⟨s, hs⟩ := stepper_param bounce args
    (fun p hp e => by
      have := hargs p hp
      rw [e] at this
      rcases hv : p.2 with _ | _ | _ | _ | s <;> rw [hv] at this <;> simp [BounceFits] at this
      exact ⟨_, rfl⟩) (fun v => rfl) bounce_find_stepper
  refine ⟨_, _, bounce_objectNew args hs, C67_bounce _ ops h, ?_⟩
  apply native_preserves Bounce.cls bounceProperty id BounceDeclared _ ops _ hf
  · have k1 := param_fits bounce BounceFits args hargs (by decide) (by decide)
      (fun v _ _ => by simp [hx, fixStepper]) bounce_find_initial_scale (by norm_num [BounceFits, PSpec.float])
    have k2 := param_fits bounce BounceFits args hargs (by decide) (by decide)
      (fun v _ _ => by simp [hx, fixStepper]) bounce_find_maximum_scale (by norm_num [BounceFits, PSpec.float])
    have k3 := param_fits bounce BounceFits args hargs (by decide) (by decide)
      (fun v _ _ => by simp [hx, fixStepper]) bounce_find_n_bounce (by norm_num [BounceFits, PSpec.uint])
    have e : (Bounce.new (bounceParams (bounce.param args)) s).1.params = bounceParams (bounce.param args) := rfl
    simp only [e, bounceParams]
    generalize bounce.param args "initial-scale" = v1 at *
    generalize bounce.param args "maximum-scale" = v2 at *
    generalize bounce.param args "n-bounce" = v3 at *
    cases v1 <;> try exact False.elim k1
    cases v2 <;> try exact False.elim k2
    cases v3 <;> try exact False.elim k3
    exact ⟨k1, k2, k3⟩
  · intro p n v o hp ho
    obtain ⟨p1, p2, p3⟩ := hp
    unfold bounceProperty at ho
    split at ho <;> first
    | (simp at ho; done)
    | (simp only [within] at ho
       split_ifs at ho with hr
       all_goals
         cases ho
         constructor <;> first | assumption | exact_mod_cast hr)

example : ∀ p ∈ [("initial-scale", GVal.float (1 / 2)), ("n-bounce", GVal.uint 4)], BounceFits p.1 p.2 := by
  norm_num [BounceFits]

/-- **C68 (partial).** The same for glide. -/
theorem C68_glide_partial (args : List (String × GVal)) (hargs : ∀ p ∈ args, GlideFits p.1 p.2)
    (ops : List (GOp Glide.Setter)) (h : ∀ op ∈ ops, ¬ HandsNull op) (hf : ∀ op ∈ ops, NotFunction op) :
    ∃ a a', glide.objectNew args = .ok a ∧ glide.run a ops = .ok a' ∧ GlideDeclared a'.params := by
  have hx : glide.fixup = fixStepper := rfl
  obtain ⟨s, hs⟩ := stepper_param glide args
    (fun p hp e => by
      have := hargs p hp
      rw [e] at this
      rcases hv : p.2 with _ | _ | _ | _ | s <;> rw [hv] at this <;> simp [GlideFits] at this
      exact ⟨_, rfl⟩) (fun v => rfl) glide_find_stepper
  refine ⟨_, _, glide_objectNew args hs, C67_glide _ ops h, ?_⟩
  apply native_preserves Glide.cls glideProperty id GlideDeclared _ ops _ hf
  · have k1 := param_fits glide GlideFits args hargs (by decide) (by decide)
      (fun v _ _ => by simp [hx, fixStepper]) glide_find_initial_distance (by norm_num [GlideFits, PSpec.float])
    have k2 := param_fits glide GlideFits args hargs (by decide) (by decide)
      (fun v _ _ => by simp [hx, fixStepper]) glide_find_x_rotation_angle_degrees
      (by norm_num [GlideFits, PSpec.float])
    have k3 := param_fits glide GlideFits args hargs (by decide) (by decide)
      (fun v _ _ => by simp [hx, fixStepper]) glide_find_y_rotation_angle_degrees
      (by norm_num [GlideFits, PSpec.float])
    have k4 := param_fits glide GlideFits args hargs (by decide) (by decide)
      (fun v _ _ => by simp [hx, fixStepper]) glide_find_x_axis_location_unit
      (by norm_num [GlideFits, PSpec.float])
    have k5 := param_fits glide GlideFits args hargs (by decide) (by decide)
      (fun v _ _ => by simp [hx, fixStepper]) glide_find_y_axis_location_unit
      (by norm_num [GlideFits, PSpec.float])
    have k6 := param_fits glide GlideFits args hargs (by decide) (by decide)
      (fun v _ _ => by simp [hx, fixStepper]) glide_find_screen_width
      (by norm_num [GlideFits, PSpec.uint])
    have e : (Glide.new (glideParams (glide.param args)) s).1.params = glideParams (glide.param args) := rfl
    simp only [e, glideParams]
    generalize glide.param args "initial-distance" = v1 at *
    generalize glide.param args "x-rotation-angle-degrees" = v2 at *
    generalize glide.param args "y-rotation-angle-degrees" = v3 at *
    generalize glide.param args "x-axis-location-unit" = v4 at *
    generalize glide.param args "y-axis-location-unit" = v5 at *
    generalize glide.param args "screen-width" = v6 at *
    cases v1 <;> try exact False.elim k1
    cases v2 <;> try exact False.elim k2
    cases v3 <;> try exact False.elim k3
    cases v4 <;> try exact False.elim k4
    cases v5 <;> try exact False.elim k5
    cases v6 <;> try exact False.elim k6
    exact ⟨k1, k2, k3, k4, k5, k6⟩
  · intro p n v o hp ho
    obtain ⟨p1, p2, p3, p4, p5, p6⟩ := hp
    unfold glideProperty at ho
    split at ho <;> first
    | (simp at ho; done)
    | (simp only [within] at ho
       split_ifs at ho with hr
       all_goals
         cases ho
         constructor <;> assumption)

example : ∀ p ∈ [("screen-width", GVal.uint 1920), ("target", GVal.box none)], GlideFits p.1 p.2 := by
  norm_num [GlideFits]

theorem toSize_ten : MagicLamp.toSize 10 = .ok 10 := by
  rw [MagicLamp.toSize, if_neg (by norm_num), show (10 : ℝ) = ((10 : ℕ) : ℝ) by norm_num,
    Nat.floor_natCast]

/-- **C68 (partial).** The same for the magic lamp, for resolutions that can be converted. -/
theorem C68_lamp_partial (args : List (String × GVal)) (hargs : ∀ p ∈ args, LampFits p.1 p.2)
    (hres : ∀ p ∈ args, ∀ v, p.2 = .vector (some v) → 0 ≤ v.x ∧ 0 ≤ v.y)
    (ops : List (GOp LampFn)) (h : ∀ op ∈ ops, ¬ HandsNull op) (hf : ∀ op ∈ ops, NotFunction op) :
    ∃ a a', lamp.objectNew args = .ok a ∧ lamp.run a ops = .ok a' ∧ LampDeclared a'.params := by
  have hx : lamp.fixup = lampFixup := rfl
  obtain ⟨s, hs⟩ := stepper_param lamp args
    (fun p hp e => by
      have := hargs p hp
      rw [e] at this
      rcases hv : p.2 with _ | _ | _ | _ | s <;> rw [hv] at this <;> simp [LampFits] at this
      exact ⟨_, rfl⟩) (fun v => by simp [hx, lampFixup]) lamp_find_stepper
  obtain ⟨r, hr⟩ : ∃ r, (lamp.param args "resolution").sizesFrom = .ok r := by
    unfold GClass.param
    rw [lamp_find_resolution]
    cases hq : (lamp.collect args).find? fun a => a.1 = "resolution" with
    | none => simp [hx, lampFixup, PSpec.vector, GVal.sizesFrom, toSize_ten, Outcome.bind]
    | some p =>
      have h1 := List.find?_some hq
      have h2 := mem_of_mem_collect lamp p (List.mem_of_find?_eq_some hq)
      simp only [decide_eq_true_eq] at h1
      have h3 := hres p h2
      obtain ⟨m, v⟩ := p
      rcases v with _ | _ | _ | (_ | v) | _ <;>
        simp only [hx, lampFixup, GVal.sizesFrom, if_true, exists_eq'] <;>
        try exact ⟨_, rfl⟩
      · simp [toSize_ten, Outcome.bind]
      · have h4 := h3 v rfl
        exact ⟨(⌊v.x⌋₊, ⌊v.y⌋₊), by
          rw [MagicLamp.toSize, MagicLamp.toSize, if_neg (by linarith), if_neg (by linarith)]; rfl⟩
  refine ⟨_, _, lamp_objectNew args hs hr, C67_lamp _ ops h, ?_⟩
  apply native_preserves MagicLamp.cls lampProperty lampCall LampDeclared _ ops _ hf
  · have k1 := param_fits lamp LampFits args hargs (by decide) (by decide)
      (fun v _ _ => by simp [hx, lampFixup, fixStepper]) lamp_find_bend_factor
      (by norm_num [LampFits, PSpec.float])
    have k2 := param_fits lamp LampFits args hargs (by decide) (by decide)
      (fun v _ _ => by simp [hx, lampFixup, fixStepper]) lamp_find_offset_factor
      (by norm_num [LampFits, PSpec.float])
    have k3 := param_fits lamp LampFits args hargs (by decide) (by decide)
      (fun v _ _ => by simp [hx, lampFixup, fixStepper]) lamp_find_stretch_factor
      (by norm_num [LampFits, PSpec.float])
    have k4 := param_fits lamp LampFits args hargs (by decide) (by decide)
      (fun v _ _ => by simp [hx, lampFixup, fixStepper]) lamp_find_deform_speed_factor
      (by norm_num [LampFits, PSpec.float])
    have e : (MagicLamp.new (lampParams (lamp.param args) r) s).1.params = lampParams (lamp.param args) r := rfl
    simp only [e, lampParams]
    generalize lamp.param args "bend-factor" = v1 at *
    generalize lamp.param args "offset-factor" = v2 at *
    generalize lamp.param args "stretch-factor" = v3 at *
    generalize lamp.param args "deform-speed-factor" = v4 at *
    cases v1 <;> try exact False.elim k1
    cases v2 <;> try exact False.elim k2
    cases v3 <;> try exact False.elim k3
    cases v4 <;> try exact False.elim k4
    exact ⟨k1, k2, k3, k4⟩
  · intro p n v o hp ho
    obtain ⟨p1, p2, p3, p4⟩ := hp
    unfold lampProperty at ho
    split at ho <;> first
    | (simp at ho; done)
    | (simp only [Option.some.injEq, AnimOp.set.injEq] at ho
       subst ho
       exact ⟨p1, p2, p3, p4⟩)
    | (simp only [within] at ho
       split_ifs at ho with hr
       all_goals
         cases ho
         constructor <;> assumption)

example : ∀ p ∈ [("bend-factor", GVal.float 5), ("resolution", GVal.vector (some ⟨20, 20⟩))],
    LampFits p.1 p.2 ∧ ∀ v, p.2 = .vector (some v) → 0 ≤ v.x ∧ 0 ≤ v.y := by
  intro p hp
  simp only [List.mem_cons, List.not_mem_nil, or_false] at hp
  rcases hp with rfl | rfl
  · exact ⟨by norm_num [LampFits], fun v hv => nomatch hv⟩
  · refine ⟨trivial, fun v hv => ?_⟩
    cases hv
    norm_num

/-- **C68 (violated).** The setter functions store any number, and so do the constructors: whatever is given,
in range or not, is what the animation uses. -/
theorem C68_unchecked (r : ℝ) :
    (∀ a : Anim Bounce.Params (Option Mat4), ∃ a', bounce.run a [.call (.initialScale r)] = .ok a' ∧
      bounce.get a' "initial-scale" = some (.float r)) ∧
    (∀ a : Anim Glide.Params (Option Mat4), ∃ a', glide.run a [.call (.initialDistance r)] = .ok a' ∧
      glide.get a' "initial-distance" = some (.float r)) ∧
    (∀ a : Anim MagicLamp.Params (Outcome MagicLamp.Grid), ∃ a', lamp.run a [.call (.bend r)] = .ok a' ∧
      lamp.get a' "bend-factor" = some (.float r)) ∧
    (∃ a, bounce.objectNew [("initial-scale", .float r)] = .ok a ∧
      bounce.get a "initial-scale" = some (.float r)) ∧
    (∃ a, glide.objectNew [("initial-distance", .float r)] = .ok a ∧
      glide.get a "initial-distance" = some (.float r)) ∧
    ∃ a, lamp.objectNew [("bend-factor", .float r)] = .ok a ∧
      lamp.get a "bend-factor" = some (.float r) := by
  have g1 : bounce.getProperty = bounceGet := rfl
  have g2 : glide.getProperty = glideGet := rfl
  have g3 : lamp.getProperty = lampGet := rfl
  have x1 : bounce.fixup = fixStepper := rfl
  have x2 : glide.fixup = fixStepper := rfl
  have x3 : lamp.fixup = lampFixup := rfl
  refine ⟨fun a => ⟨_, rfl, ?_⟩, fun a => ⟨_, rfl, ?_⟩, fun a => ⟨_, rfl, ?_⟩, ?_, ?_, ?_⟩
  · simp [GClass.get, bounce_find_initial_scale, PSpec.float, g1, bounceGet]; rfl
  · simp [GClass.get, glide_find_initial_distance, PSpec.float, g2, glideGet]; rfl
  · simp [GClass.get, lamp_find_bend_factor, PSpec.float, g3, lampGet]; rfl
  · refine ⟨_, bounce_objectNew (s := linear 300) _ (by simp [GClass.param, GClass.collect, GClass.collectFrom, bounce_find_initial_scale, bounce_find_stepper, x1, fixStepper, PSpec.stepper]), ?_⟩
    simp [GClass.get, bounce_find_initial_scale, PSpec.float, g1, bounceGet, Bounce.new, AnimClass.new,
      bounceParams, GClass.param, GClass.collect, GClass.collectFrom, x1, fixStepper, GVal.getFloat]
  · refine ⟨_, glide_objectNew (s := linear 300) _ (by simp [GClass.param, GClass.collect, GClass.collectFrom, glide_find_initial_distance, glide_find_stepper, x2, fixStepper, PSpec.stepper]), ?_⟩
    simp [GClass.get, glide_find_initial_distance, PSpec.float, g2, glideGet, Glide.new, AnimClass.new,
      glideParams, GClass.param, GClass.collect, GClass.collectFrom, x2, fixStepper, GVal.getFloat]
  · have e := toSize_ten
    refine ⟨_, lamp_objectNew (s := linear 300) (r := (10, 10)) _
      (by simp [GClass.param, GClass.collect, GClass.collectFrom, lamp_find_bend_factor, lamp_find_stepper, x3, lampFixup, fixStepper, PSpec.stepper])
      (by simp [GClass.param, GClass.collect, GClass.collectFrom, lamp_find_bend_factor, lamp_find_resolution, x3, lampFixup, fixStepper, PSpec.vector, GVal.sizesFrom, e]), ?_⟩
    simp [GClass.get, lamp_find_bend_factor, PSpec.float, g3, lampGet, MagicLamp.new, AnimClass.new,
      lampParams, GClass.param, GClass.collect, GClass.collectFrom, x3, lampFixup, fixStepper, GVal.getFloat]

/-- **C68 (violated).** `animation_glide_new` with screen width 0, outside the declared range, yields an
animation whose matrix is never finite: not at the start and not after any calls. -/
theorem C68_glide_zero_width (d xa ya xu yu : ℝ) (t : Option Box) (L : ℕ) (ops : List (GOp Glide.Setter))
    (h : ∀ op ∈ ops, ¬ HandsNull op) :
    ∃ a a', glideNew d xa ya xu yu 0 t L = .ok a ∧ glide.run a ops = .ok a' ∧ a'.out = none := by
  refine ⟨_, _, glideNew_eq d xa ya xu yu 0 t L, C67_glide _ ops h, ?_⟩
  generalize animCalls glideProperty id ops = l
  have key : ∀ (l : List (AnimOp Glide.Setter)) (a : Anim Glide.Params (Option Mat4)),
      a.params.screenWidth = 0 → a.out = none → (Glide.cls.run a l).out = none := by
    intro l
    induction l with
    | nil => intro a _ h; exact h
    | cons o l ih =>
      intro a h1 h2
      apply ih
      · cases o with
        | set s => cases s <;> exact h1
        | _ => exact h1
      · cases o with
        | step ms =>
          obtain ⟨r, hr, _⟩ := clamp_inUnit (a.stepper.value ms)
          show Glide.render a.params (clamp (a.stepper.value ms) (fin 0) (fin 1)) a.out = none
          rw [hr]; simp [Glide.render, h1]
        | _ => exact h2
  apply key l _ rfl
  have e : (linear 300).value 0 = fin 0 := by
    simp [Stepper.value, Stepper.invoke, linear, linearFrom,
      XR.fin_div _ (show (300 : ℝ) ≠ 0 by norm_num)]
  show Glide.render _ ((linear 300).value 0) (some 1) = none
  rw [e]; simp [Glide.render]

/-! ## C69: construct-only properties -/

/-- A history that went well handed over no NULL stepper. -/
theorem no_null {P O S F : Type} {K : GClass P O S F}
    (hK : ∀ (a : Anim P O) op, HandsNull op → K.exec a op = .ub) (ops : List (GOp F)) :
    ∀ {a a' : Anim P O}, K.run a ops = .ok a' → ∀ op ∈ ops, ¬ HandsNull op := by
  induction ops with
  | nil => simp
  | cons o ops ih =>
    intro a a' h op ho hn
    simp only [GClass.run] at h
    obtain ⟨a1, h1, h2⟩ := Outcome.bind_eq_ok.1 h
    rcases List.mem_cons.1 ho with rfl | ho
    · rw [hK a op hn] at h1; cases h1
    · exact ih h2 op ho hn

/-- **C69.** What can only be given at construction never changes afterwards: the target of a bounce, the
`to` box of a zoom, the target and screen width of a glide, the target and resolution of a magic lamp. -/
theorem C69_construct_only :
    (∀ (a a' : Anim Bounce.Params (Option Mat4)) ops, bounce.run a ops = .ok a' → a'.params.target = a.params.target) ∧
    (∀ (a a' : Anim Zoom.Params (Option Mat4)) ops, zoom.run a ops = .ok a' → a'.params.dst = a.params.dst) ∧
    (∀ (a a' : Anim Glide.Params (Option Mat4)) ops, glide.run a ops = .ok a' →
      a'.params.target = a.params.target ∧ a'.params.screenWidth = a.params.screenWidth) ∧
    (∀ (a a' : Anim MagicLamp.Params (Outcome MagicLamp.Grid)) ops, lamp.run a ops = .ok a' →
      a'.params.target = a.params.target ∧ a'.params.gw = a.params.gw ∧ a'.params.gh = a.params.gh) := by
  refine ⟨fun a a' ops h => ?_, fun a a' ops h => ?_, fun a a' ops h => ?_, fun a a' ops h => ?_⟩
  · rw [C67_bounce a ops (no_null C67_null.1 ops h)] at h; cases h
    exact native_preserves_all Bounce.cls bounceProperty id (fun p => p.target)
      (fun p f => by cases f <;> rfl) (fun p n v s _ => by cases s <;> rfl) ops a
  · rw [C67_zoom a ops (no_null C67_null.2.1 ops h)] at h; cases h
    exact native_preserves_all Zoom.cls zoomProperty id (fun p => p.dst)
      (fun p f => by cases f <;> rfl) (fun p n v s _ => by cases s <;> rfl) ops a
  · rw [C67_glide a ops (no_null C67_null.2.2.1 ops h)] at h; cases h
    exact ⟨native_preserves_all Glide.cls glideProperty id (fun p => p.target)
      (fun p f => by cases f <;> rfl) (fun p n v s _ => by cases s <;> rfl) ops a,
      native_preserves_all Glide.cls glideProperty id (fun p => p.screenWidth)
      (fun p f => by cases f <;> rfl) (fun p n v s _ => by cases s <;> rfl) ops a⟩
  · rw [C67_lamp a ops (no_null C67_null.2.2.2 ops h)] at h; cases h
    have key : ∀ (p : MagicLamp.Params) n v s, lampProperty n v = some (.set s) →
        (MagicLamp.applySetter p s).target = p.target ∧ (MagicLamp.applySetter p s).gw = p.gw ∧
          (MagicLamp.applySetter p s).gh = p.gh := by
      intro p n v s hs
      unfold lampProperty at hs
      split at hs <;> first
      | (simp at hs; done)
      | (simp only [Option.some.injEq, AnimOp.set.injEq] at hs
         subst hs
         exact ⟨rfl, rfl, rfl⟩)
      | (simp only [within] at hs
         split_ifs at hs with hr
         all_goals
           cases hs
           exact ⟨rfl, rfl, rfl⟩)
    exact ⟨native_preserves_all MagicLamp.cls lampProperty lampCall (fun p => p.target)
      (fun p f => by cases f <;> rfl) (fun p n v s h => (key p n v s h).1) ops a,
      native_preserves_all MagicLamp.cls lampProperty lampCall (fun p => p.gw)
      (fun p f => by cases f <;> rfl) (fun p n v s h => (key p n v s h).2.1) ops a,
      native_preserves_all MagicLamp.cls lampProperty lampCall (fun p => p.gh)
      (fun p f => by cases f <;> rfl) (fun p n v s h => (key p n v s h).2.2) ops a⟩

example (a : Anim Bounce.Params (Option Mat4)) : ∃ a', bounce.run a demoHistory = .ok a' :=
  ⟨_, C67_bounce a _ (by simp [demoHistory, HandsNull])⟩

end

end Verif.Props
