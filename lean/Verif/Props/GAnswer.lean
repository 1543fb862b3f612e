import Verif.Props.GFinished
import Verif.Props.GLampOnTime

/-! # When the step of a GObject animation asks for more frames, with rounding (C153) -/

namespace Verif.Props

open XR (fin)
open Spec GObj

noncomputable section

variable (R : Rounding) (D : Rounding64) (sin sinf cosf : ℝ → ℝ)

local notation "MM" => Machine.ieee R D sin sinf cosf

/-- A linear stepper or its reverse has not moved when it is new. -/
theorem either_after {L : ℝ} (hL : 0 < L) {s : Stepper} (hs : s = linear32 R L ∨ s = reverse32 R (linear32 R L)) :
    s.after 0 = s := by
  rcases hs with rfl | rfl
  · exact linear_after R hL
  · exact due_after R hL (T := 0) (Or.inr ⟨rfl, rfl⟩)

/-- When the time is over a reversed animation is back at its start. -/
theorem over_reverse {P O S F : Type} (K : AnimClass P O S) (p : P) (o : O) {L : ℝ} (hL : 0 < L) (ops : List (AnimOp S))
    (hk : KeepsStepper ops) (m : ℕ) (gops : List (GOp F)) (h : Over L gops m) (h1 : elapsed ops = gElapsed gops)
    (h2 : frames ops = gFrames gops) (h3 : ∀ ms, AnimOp.step ms ∈ ops → GOp.step ms ∈ gops) :
    (K.step (K.run (K.new p o (reverse32 R (linear32 R L))).1 ops) m).1.progress = fin 0 := by
  have h4 := over_progress R K p o hL ops hk m gops h h1 h2 h3
  rw [progress_deltas K p o _ ops hk m, progress_linear32 R K p o hL, XR.fin_inj] at h4
  rw [progress_deltas K p o _ ops hk m, progress_reverse32 R K p o hL, result_sub R hL, h4, sub_self, R.exact single_zero]

/-- What the native step answers midway and when the time is over. -/
theorem native_answer {P O S F : Type} (K : AnimClass P O S) (p : P) (o : O) {L : ℝ} (hL : 0 < L) {s : Stepper}
    (hs : s = linear32 R L ∨ s = reverse32 R (linear32 R L)) (ops : List (AnimOp S))
    (hk : KeepsStepper ops) (m : ℕ) (gops : List (GOp F)) (h1 : elapsed ops = gElapsed gops)
    (h2 : frames ops = gFrames gops) (h3 : ∀ ms, AnimOp.step ms ∈ ops → GOp.step ms ∈ gops) :
    (Midway L gops m → (K.step (K.run (K.new p o s).1 ops) m).2) ∧
    (Over L gops m → ¬ (K.step (K.run (K.new p o s).1 ops) m).2) := by
  constructor
  · rintro ⟨t1, t2, t3⟩
    have hf : ShortFrames (ops ++ [.step m]) := by
      intro ms h
      refine t3 ms ?_
      rcases List.mem_append.1 h with h | h
      · exact List.mem_append_left _ (h3 ms h)
      · rw [List.mem_singleton] at h
        cases h
        exact List.mem_append_right _ (List.mem_singleton_self _)
    have hpos : (0 : ℝ) ≤ ((gFrames gops : ℝ) + 2) / 2 ^ 24 := by positivity
    rw [C02_step_result]
    rcases hs with rfl | rfl
    · obtain ⟨-, -, x, e, hx⟩ := progress_due R K p o hL ops hk m hf (Or.inl ⟨rfl, rfl⟩)
      rw [h1, h2, min_eq_right (by linarith)] at hx
      have hx := abs_le.1 hx
      exact ⟨x, e, by linarith [hx.1], by linarith [hx.2]⟩
    · obtain ⟨-, -, x, e, hx⟩ := progress_due R K p o hL ops hk m hf (Or.inr ⟨rfl, rfl⟩)
      rw [h1, h2, max_eq_right (by linarith)] at hx
      have hx := abs_le.1 hx
      exact ⟨x, e, by linarith [hx.1], by linarith [hx.2]⟩
  · intro h
    rw [C02_step_result]
    rintro ⟨r, e, h0, h5⟩
    rcases hs with rfl | rfl
    · rw [over_progress R K p o hL ops hk m gops h h1 h2 h3, XR.fin_inj] at e
      linarith
    · rw [over_reverse R K p o hL ops hk m gops h h1 h2 h3, XR.fin_inj] at e
      linarith

/-- **C153.** An AnimationZoomAnimation with a linear stepper or its reverse, after any calls that leave the stepper alone: a
step that ends midway asks
for more frames, and a step after the time is over does not. -/
theorem C153_zoom {L : ℝ} (hL : 0 < L) (c f0 t0 : Option Box)
    (s : Option Stepper)
    (hs : s.getD (linear32 R 300) = linear32 R L ∨ s.getD (linear32 R 300) = reverse32 R (linear32 R L)) (ops : List (GOp Zoom.Setter))
    (hk : ∀ op ∈ ops, LeavesStepper op) (m : ℕ) :
    ∃ a0 a, Float.zoomNew R (MM) c f0 t0 s = .ok a0 ∧
      (Float.zoom R (MM)).run a0 ops = .ok a ∧ (Midway L ops m → ((Float.zoom R (MM)).native.step a m).2) ∧
      (Over L ops m → ¬ ((Float.zoom R (MM)).native.step a m).2) := by
  obtain ⟨q1, q2, q3, q4, q5⟩ := gcalls zoomProperty id zoomProperty_set ops hk
  set pre : List (AnimOp Zoom.Setter) := f0.toList.map fun b => .set (.frm b) with hpre
  have e1 : elapsed (pre ++ animCalls zoomProperty id ops) = gElapsed ops := by
    cases f0 <;> simp [hpre, elapsed, q3]
  have e2 : frames (pre ++ animCalls zoomProperty id ops) = gFrames ops := by
    cases f0 <;> simp [hpre, frames, q4]
  have e3 : KeepsStepper (pre ++ animCalls zoomProperty id ops) := by
    intro s hs
    rcases List.mem_append.1 hs with hs | hs
    · simp [hpre] at hs
    · exact q2 s hs
  have h := native_answer R ((MM).zoom)
    ⟨(MM).ensureNonZeroArea (Machine.ofBox (boxOr f0)), (MM).ensureNonZeroArea (Machine.ofBox (boxOr t0))⟩ Machine.ident hL hs _ e3 m ops e1 e2 (by
    intro ms h
    rcases List.mem_append.1 h with h | h
    · simp [hpre] at h
    · exact q5 ms h)
  rw [run_append] at h
  refine ⟨_, _, gzoomNew_eq R (MM) c f0 t0 s (either_after R hL hs), run_native (Float.zoom R (MM)) zoomProperty
    id rfl (gzoom_set R (MM)) _ _ q1, ?_⟩
  exact h

/-- **C153.** The same for an AnimationBounceAnimation. -/
theorem C153_bounce {L : ℝ} (hL : 0 < L) (i0 m0 : ℝ) (n0 : ℕ) (t0 : Option Box)
    (s : Option Stepper)
    (hs : s.getD (linear32 R 300) = linear32 R L ∨ s.getD (linear32 R 300) = reverse32 R (linear32 R L)) (ops : List (GOp Bounce.Setter))
    (hk : ∀ op ∈ ops, LeavesStepper op) (m : ℕ) :
    ∃ a0 a, Float.bounceNew R (MM) i0 m0 n0 t0 s = .ok a0 ∧
      (Float.bounce R (MM)).run a0 ops = .ok a ∧ (Midway L ops m → ((Float.bounce R (MM)).native.step a m).2) ∧
      (Over L ops m → ¬ ((Float.bounce R (MM)).native.step a m).2) := by
  obtain ⟨q1, q2, q3, q4, q5⟩ := gcalls bounceProperty id bounceProperty_set ops hk
  have h := native_answer R ((MM).bounce) ⟨i0, m0, n0, boxOr t0⟩ Machine.ident hL hs _ q2 m ops q3 q4 q5
  refine ⟨_, _, gbounceNew_eq R (MM) i0 m0 n0 t0 s (either_after R hL hs), run_native (Float.bounce R (MM)) bounceProperty
    id rfl (gbounce_set R (MM)) _ _ q1, ?_⟩
  exact h

/-- **C153.** The same for an AnimationGlideAnimation made with `g_object_new` and all its properties. -/
theorem C153_glide {L : ℝ} (hL : 0 < L) (d xa ya xu yu : ℝ) (w : ℕ) (t0 : Option Box)
    (s : Option Stepper)
    (hs : s.getD (linear32 R 300) = linear32 R L ∨ s.getD (linear32 R 300) = reverse32 R (linear32 R L)) (ops : List (GOp Glide.Setter))
    (hk : ∀ op ∈ ops, LeavesStepper op) (m : ℕ) :
    ∃ a0 a, (Float.glide R (MM)).objectNew [("initial-distance", .float d), ("x-rotation-angle-degrees", .float xa),
        ("y-rotation-angle-degrees", .float ya), ("x-axis-location-unit", .float xu), ("y-axis-location-unit", .float yu),
        ("screen-width", .uint w), ("target", .box t0), ("stepper", .stepper s)] = .ok a0 ∧
      (Float.glide R (MM)).run a0 ops = .ok a ∧ (Midway L ops m → ((Float.glide R (MM)).native.step a m).2) ∧
      (Over L ops m → ¬ ((Float.glide R (MM)).native.step a m).2) := by
  obtain ⟨q1, q2, q3, q4, q5⟩ := gcalls glideProperty id glideProperty_set ops hk
  have h := native_answer R ((MM).glide) ⟨d, xa, ya, xu, yu, w, boxOr t0⟩ Machine.ident hL hs _ q2 m ops q3 q4 q5
  refine ⟨_, _, gglide_given R (MM) d xa ya xu yu w t0 s (either_after R hL hs), run_native (Float.glide R (MM)) glideProperty
    id rfl (gglide_set R (MM)) _ _ q1, ?_⟩
  exact h

/-- **C153.** The same for an AnimationMagicLampAnimation made with `animation_magiclamp_new`. -/
theorem C153_lamp {L : ℝ} (hL : 0 < L) (ex : ℝ → ℝ) (f0 t0 : Option Box) (r0 : Option Pt) (be o st ds : ℝ)
    (s : Option Stepper)
    (hs : s.getD (linear32 R 300) = linear32 R L ∨ s.getD (linear32 R 300) = reverse32 R (linear32 R L)) (ops : List (GOp LampFn))
    (hk : ∀ op ∈ ops, LeavesStepper op) (m : ℕ)
    (hr : 0 ≤ (r0.getD ⟨10, 10⟩).x ∧ 0 ≤ (r0.getD ⟨10, 10⟩).y) :
    ∃ a0 a, Float.lampNew R (MM) ex f0 t0 r0 be o st ds s = .ok a0 ∧
      (Float.lamp R (MM) ex).run a0 ops = .ok a ∧ (Midway L ops m → ((Float.lamp R (MM) ex).native.step a m).2) ∧
      (Over L ops m → ¬ ((Float.lamp R (MM) ex).native.step a m).2) := by
  obtain ⟨q1, q2, q3, q4, q5⟩ := gcalls lampProperty LampFn.native lampProperty_set ops hk
  have h := fun p o => native_answer R ((MM).lamp ex) p o hL hs _ q2 m ops q3 q4 q5
  refine ⟨_, _, glampNew_eq R (MM) ex f0 t0 r0 be o st ds s hr (either_after R hL hs), run_native (Float.lamp R (MM) ex) lampProperty
    LampFn.native rfl (glamp_set R (MM) ex) _ _ q1, ?_⟩
  exact h _ _

/-- **C153.** One made with `animation_glide_new` answers as one of 300 ms, whatever length was asked for (C62). -/
theorem C153_glide_new (d xa ya xu yu : ℝ) (w : ℕ) (t0 : Option Box) (length : ℕ) (ops : List (GOp Glide.Setter))
    (hk : ∀ op ∈ ops, LeavesStepper op) (m : ℕ) :
    ∃ a0 a, Float.glideNew R (MM) d xa ya xu yu w t0 length = .ok a0 ∧
      (Float.glide R (MM)).run a0 ops = .ok a ∧ (Midway 300 ops m → ((Float.glide R (MM)).native.step a m).2) ∧
      (Over 300 ops m → ¬ ((Float.glide R (MM)).native.step a m).2) := by
  obtain ⟨a0, a, e0, e1⟩ := C153_glide R D sin sinf cosf (L := 300) (by norm_num) d xa ya xu yu w t0 none (Or.inl rfl) ops hk m
  rw [gglide_given R (MM) d xa ya xu yu w t0 none (linear_after R (by norm_num))] at e0
  cases e0
  exact ⟨_, a, gglideNew_eq R (MM) d xa ya xu yu w t0 length (linear_after R (by norm_num)), e1⟩

/-- At 60 frames a second: a bounce of 300 ms asks for more after the eighteenth frame of 16 ms, and no more after the twentieth. -/
example : ∃ a0 a a' : Anim Bounce.Params Mat32,
    Float.bounceNew R (MM) (1 / 2) (5 / 4) 1 (some ⟨⟨0, 0⟩, ⟨100, 50⟩⟩) none = .ok a0 ∧
    (Float.bounce R (MM)).run a0 (.setProperty "n-bounce" (.uint 2) :: List.replicate 17 (.step 16)) = .ok a ∧
    ((Float.bounce R (MM)).native.step a 16).2 ∧
    (Float.bounce R (MM)).run a0 (.setProperty "n-bounce" (.uint 2) :: List.replicate 19 (.step 16)) = .ok a' ∧
    ¬ ((Float.bounce R (MM)).native.step a' 16).2 := by
  obtain ⟨a0, a, h0, h1, h2, -⟩ := C153_bounce R D sin sinf cosf (L := 300) (by norm_num) (1 / 2) (5 / 4) 1
    (some ⟨⟨0, 0⟩, ⟨100, 50⟩⟩) none (Or.inl rfl) (.setProperty "n-bounce" (.uint 2) :: List.replicate 17 (.step 16))
    (by simp [LeavesStepper]) 16
  obtain ⟨a0', a', h0', h1', -, h3'⟩ := C153_bounce R D sin sinf cosf (L := 300) (by norm_num) (1 / 2) (5 / 4) 1
    (some ⟨⟨0, 0⟩, ⟨100, 50⟩⟩) none (Or.inl rfl) (.setProperty "n-bounce" (.uint 2) :: List.replicate 19 (.step 16))
    (by simp [LeavesStepper]) 16
  rw [h0] at h0'
  cases h0'
  exact ⟨a0, a, a', h0, h1, h2 ⟨by norm_num [gElapsed, gFrames, List.replicate], by norm_num [gElapsed, gFrames, List.replicate],
    by intro k h; simp at h; omega⟩, h1', h3' ⟨by norm_num [gElapsed, List.replicate],
    by norm_num [gFrames, List.replicate], by intro k h; simp at h; omega⟩⟩

/-- A reversed zoom of 100 ms: it asks for more after 60 ms, and no more when it is stepped after 120. -/
example : ∃ a0 a a', Float.zoomNew R (MM) none none none (some (reverse32 R (linear32 R 100))) = .ok a0 ∧
    (Float.zoom R (MM)).run a0 [.setProperty "from" (.box none)] = .ok a ∧ ((Float.zoom R (MM)).native.step a 60).2 ∧
    (Float.zoom R (MM)).run a0 [.step 60, .step 60] = .ok a' ∧ ¬ ((Float.zoom R (MM)).native.step a' 1).2 := by
  obtain ⟨a0, a, h0, h1, h2, -⟩ := C153_zoom R D sin sinf cosf (L := 100) (by norm_num) none none none
    (some (reverse32 R (linear32 R 100))) (Or.inr rfl) [.setProperty "from" (.box none)] (by simp [LeavesStepper]) 60
  obtain ⟨a0', a', h0', h1', -, h3'⟩ := C153_zoom R D sin sinf cosf (L := 100) (by norm_num) none none none
    (some (reverse32 R (linear32 R 100))) (Or.inr rfl) [.step 60, .step 60] (by simp [LeavesStepper]) 1
  rw [h0] at h0'
  cases h0'
  exact ⟨a0, a, a', h0, h1, h2 ⟨by norm_num [gElapsed, gFrames], by norm_num [gElapsed, gFrames],
    by intro k h; simp at h; omega⟩, h1', h3' ⟨by norm_num [gElapsed], by norm_num [gFrames], by intro k h; simp at h; omega⟩⟩

end

end Verif.Props
