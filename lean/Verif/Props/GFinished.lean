import Verif.Props.GOnTime
import Verif.Props.TransformFloat

/-! # A GObject animation that is over shows the surface exactly in place (C152) -/

namespace Verif.Props

open XR (fin)
open Spec GObj

noncomputable section

variable (R : Rounding) (D : Rounding64) (sin sinf cosf : ℝ → ℝ)

local notation "MM" => Machine.ieee R D sin sinf cosf

/-- A new linear stepper has not moved. -/
theorem linear_after {L : ℝ} (hL : 0 < L) : (linear32 R L).after 0 = linear32 R L :=
  due_after R hL (T := 0) (Or.inl ⟨rfl, rfl⟩)

/-- When the time is over the native animation is at its end. -/
theorem over_progress {P O S F : Type} (K : AnimClass P O S) (p : P) (o : O) {L : ℝ} (hL : 0 < L) (ops : List (AnimOp S))
    (hk : KeepsStepper ops) (m : ℕ) (gops : List (GOp F)) (h : Over L gops m) (h1 : elapsed ops = gElapsed gops)
    (h2 : frames ops = gFrames gops) (h3 : ∀ ms, AnimOp.step ms ∈ ops → GOp.step ms ∈ gops) :
    (K.step (K.run (K.new p o (linear32 R L)).1 ops) m).1.progress = fin 1 := by
  obtain ⟨t1, t2, t3⟩ := h
  rw [progress_deltas K p o _ ops hk m]
  have e : steps (S := S) (deltas ops ++ [m]) = steps (deltas ops) ++ [.step m] := by simp [steps]
  rw [e, run_append]
  refine (C89_one_frame_late R K p o hL (deltas ops) m (fun k hm => t3 k (List.mem_append_left _ (h3 k (deltas_mem hm))))
    (t3 m (List.mem_append_right _ (List.mem_singleton_self _))) ?_ ?_).2
  · rw [deltas_sum, h1]
    exact t1
  · rw [deltas_length, h2]
    exact t2

theorem never_null {F : Type} {ops : List (GOp F)} (h : ∀ op ∈ ops, ¬ HandsNull op) (m : ℕ) :
    ∀ op ∈ ops ++ [.step m], ¬ HandsNull op := by
  intro op ho
  rcases List.mem_append.1 ho with ho | ho
  · exact h op ho
  · rw [List.mem_singleton] at ho
    subst ho
    exact fun h => h

/-- The boxes a zoom was given by its calls. -/
theorem zoom_calls (ops : List (GOp Zoom.Setter)) (h : ∀ op ∈ ops, LeavesStepper op) (b : Box)
    (hb : AnimOp.set (.frm b) ∈ animCalls zoomProperty id ops) :
    GOp.call (.frm b) ∈ ops ∨ GOp.setProperty "from" (.box (some b)) ∈ ops := by
  induction ops with
  | nil => simp [animCalls] at hb
  | cons op ops ih =>
    have i := ih fun o ho => h o (List.mem_cons_of_mem _ ho)
    have up : AnimOp.set (.frm b) ∈ animCalls zoomProperty id ops →
        GOp.call (.frm b) ∈ op :: ops ∨ GOp.setProperty "from" (.box (some b)) ∈ op :: ops := fun hb =>
      (i hb).imp (List.mem_cons_of_mem _) (List.mem_cons_of_mem _)
    have h0 := h op List.mem_cons_self
    cases op with
    | step ms =>
      rcases List.mem_cons.1 hb with hb | hb
      · cases hb
      · exact up hb
    | call s =>
      rcases List.mem_cons.1 hb with hb | hb
      · cases hb
        exact Or.inl List.mem_cons_self
      · exact up hb
    | callSetStepper s => exact absurd h0 (by simp [LeavesStepper])
    | setProperty n v =>
      rcases List.mem_append.1 hb with hb | hb
      · unfold zoomProperty at hb
        split at hb <;> simp at hb
        subst hb
        exact Or.inr List.mem_cons_self
      · exact up hb

/-- **C152.** An AnimationZoomAnimation with a linear stepper, stepped once more when its time is over, has progress 1 and shows
every corner exactly where it is, whatever source boxes it was given on the way. -/
theorem C152_zoom (hR : Usual R) {L : ℝ} (hL : 0 < L) (c f0 t0 : Option Box) (s : Option Stepper)
    (hs : s.getD (linear32 R 300) = linear32 R L) (ops : List (GOp Zoom.Setter)) (hk : ∀ op ∈ ops, LeavesStepper op) (m : ℕ)
    (ho : Over L ops m) (hf : Modest (boxOr f0))
    (hset : ∀ b, GOp.call (.frm b) ∈ ops ∨ GOp.setProperty "from" (.box (some b)) ∈ ops → Modest b) (hd : Screen (boxOr t0)) :
    ∃ a0 a, Float.zoomNew R (MM) c f0 t0 s = .ok a0 ∧ (Float.zoom R (MM)).run a0 (ops ++ [.step m]) = .ok a ∧
      a.progress = fin 1 ∧ ∀ (corners : Fin 4 → Pt) (i : Fin 4), |(corners i).x| ≤ 2 ^ 100 ∧ |(corners i).y| ≤ 2 ^ 100 →
        Unmoved R 0 (corners i) ((MM).extremes a corners i) := by
  obtain ⟨q1, q2, q3, q4, q5⟩ := gcalls zoomProperty id zoomProperty_set ops hk
  set pre : List (AnimOp Zoom.Setter) := f0.toList.map fun b => .set (.frm b) with hpre
  have e1 : elapsed (pre ++ animCalls zoomProperty id ops) = gElapsed ops := by
    cases f0 <;> simp [hpre, elapsed, q3]
  have e2 : frames (pre ++ animCalls zoomProperty id ops) = gFrames ops := by
    cases f0 <;> simp [hpre, frames, q4]
  have e3 : KeepsStepper (pre ++ animCalls zoomProperty id ops) := by
    intro s hs
    rcases List.mem_append.1 hs with hs | hs
    · simp [hpre] at hs
    · exact q2 s hs
  have hp := over_progress R (MM).zoom
    ⟨(MM).ensureNonZeroArea (Machine.ofBox (boxOr f0)), (MM).ensureNonZeroArea (Machine.ofBox (boxOr t0))⟩
    Machine.ident hL (pre ++ animCalls zoomProperty id ops) e3 m ops ho e1 e2 (by
    intro ms h
    rcases List.mem_append.1 h with h | h
    · simp [hpre] at h
    · exact q5 ms h)
  refine ⟨_, _, gzoomNew_eq R (MM) c f0 t0 s (by rw [hs]; exact linear_after R hL), run_native (Float.zoom R (MM)) zoomProperty
    id rfl (gzoom_set R (MM)) _ _ (never_null q1 m), ?_⟩
  rw [hs, animCalls_step, show (Float.zoom R (MM)).native = (MM).zoom from rfl, ← run_append, ← List.append_assoc, run_append]
  refine ⟨hp, (C98_zoom_partial D sin sinf cosf hR (boxOr f0) (boxOr t0) (linear32 R L) _ m hp hf ?_ hd).2⟩
  intro b hb
  rcases List.mem_append.1 hb with hb | hb
  · cases f0 with
    | none => simp [hpre] at hb
    | some f =>
      simp [hpre] at hb
      subst hb
      exact hf
  · exact hset b (zoom_calls ops hk b hb)

/-- **C152.** The same for an AnimationBounceAnimation, with any initial scale up to 2^24 that is a `float` in the end. -/
theorem C152_bounce (hR : Usual R) (hsin : ∀ x, |sin x| ≤ 1) {L : ℝ} (hL : 0 < L) (i0 m0 : ℝ) (n0 : ℕ) (t0 : Option Box)
    (s : Option Stepper) (hs : s.getD (linear32 R 300) = linear32 R L) (ops : List (GOp Bounce.Setter))
    (hk : ∀ op ∈ ops, LeavesStepper op) (m : ℕ) (ho : Over L ops m) (p : Bounce.Params)
    (hp : gNumbers ⟨i0, m0, n0, boxOr t0⟩ ops = p) (hi : Single p.initialScale) (hi0 : 0 ≤ p.initialScale)
    (hi1 : p.initialScale ≤ 2 ^ 24) (hm : |p.maximumScale| ≤ 2 ^ 100) (hn : p.nBounce < 2 ^ 32) (hb : Modest p.target) :
    ∃ a0 a, Float.bounceNew R (MM) i0 m0 n0 t0 s = .ok a0 ∧ (Float.bounce R (MM)).run a0 (ops ++ [.step m]) = .ok a ∧
      a.progress = fin 1 ∧ ∀ (corners : Fin 4 → Pt) (i : Fin 4), |(corners i).x| ≤ 2 ^ 100 ∧ |(corners i).y| ≤ 2 ^ 100 →
        Unmoved R 0 (corners i) ((MM).extremes a corners i) := by
  obtain ⟨q1, q2, q3, q4, q5⟩ := gcalls bounceProperty id bounceProperty_set ops hk
  have hpr := over_progress R (MM).bounce ⟨i0, m0, n0, boxOr t0⟩ Machine.ident hL _ q2 m ops ho q3 q4 q5
  refine ⟨_, _, gbounceNew_eq R (MM) i0 m0 n0 t0 s (by rw [hs]; exact linear_after R hL), run_native (Float.bounce R (MM))
    bounceProperty id rfl (gbounce_set R (MM)) _ _ (never_null q1 m), ?_⟩
  have hpar := (gNumbers_eq (MM) ops hk ((MM).bounceNew ⟨i0, m0, n0, boxOr t0⟩ (linear32 R L)).1).trans hp
  rw [hs, animCalls_step, show (Float.bounce R (MM)).native = (MM).bounce from rfl, run_append]
  refine ⟨hpr, ?_⟩
  rw [← hpar] at hi hi0 hi1 hm hn hb
  exact (C98_bounce_partial D sin sinf cosf hR hsin _ m hpr hi hi0 hi1 hm hn hb).2

/-- **C152.** The same for an AnimationGlideAnimation made with `g_object_new` and all its properties. The corners are at the
depth that -1 / screen width rounds to. -/
theorem C152_glide (hR : Usual R) (h0 : sinf 0 = 0) (h1 : cosf 0 = 1) {L : ℝ} (hL : 0 < L) (d xa ya xu yu : ℝ) (w : ℕ)
    (t0 : Option Box) (s : Option Stepper) (hs : s.getD (linear32 R 300) = linear32 R L) (ops : List (GOp Glide.Setter))
    (hk : ∀ op ∈ ops, LeavesStepper op) (m : ℕ) (ho : Over L ops m) (p : Glide.Params)
    (hp : gGlide ⟨d, xa, ya, xu, yu, w, boxOr t0⟩ ops = p) (hb : Modest p.target)
    (hx : |p.xAxisLocationUnit| ≤ 2 ^ 20) (hy : |p.yAxisLocationUnit| ≤ 2 ^ 20)
    (hd : |p.initialDistance| ≤ 2 ^ 100) (hrx : |p.xRotationAngleDegrees| ≤ 2 ^ 100)
    (hry : |p.yRotationAngleDegrees| ≤ 2 ^ 100) (hw : 0 < p.screenWidth) :
    ∃ a0 a, (Float.glide R (MM)).objectNew [("initial-distance", .float d), ("x-rotation-angle-degrees", .float xa),
        ("y-rotation-angle-degrees", .float ya), ("x-axis-location-unit", .float xu), ("y-axis-location-unit", .float yu),
        ("screen-width", .uint w), ("target", .box t0), ("stepper", .stepper s)] = .ok a0 ∧
      (Float.glide R (MM)).run a0 (ops ++ [.step m]) = .ok a ∧ a.progress = fin 1 ∧
      ∀ (corners : Fin 4 → Pt) (i : Fin 4), |(corners i).x| ≤ 2 ^ 100 ∧ |(corners i).y| ≤ 2 ^ 100 →
        Unmoved R (R.rnd (D.rnd (-1 / p.screenWidth))) (corners i) ((MM).extremes a corners i) := by
  obtain ⟨q1, q2, q3, q4, q5⟩ := gcalls glideProperty id glideProperty_set ops hk
  have hpr := over_progress R (MM).glide ⟨d, xa, ya, xu, yu, w, boxOr t0⟩ Machine.ident hL _ q2 m ops ho q3 q4 q5
  refine ⟨_, _, gglide_given R (MM) d xa ya xu yu w t0 s (by rw [hs]; exact linear_after R hL), run_native (Float.glide R (MM))
    glideProperty id rfl (gglide_set R (MM)) _ _ (never_null q1 m), ?_⟩
  have hpar := (gGlide_eq (MM) ops hk ((MM).glideNew ⟨d, xa, ya, xu, yu, w, boxOr t0⟩ (linear32 R L)).1).trans hp
  rw [hs, animCalls_step, show (Float.glide R (MM)).native = (MM).glide from rfl, run_append]
  refine ⟨hpr, ?_⟩
  rw [← hpar] at hb hx hy hd hrx hry hw ⊢
  exact C98_glide D sin sinf cosf hR h0 h1 _ m hpr hb hx hy hd hrx hry hw

/-- **C152.** One made with `animation_glide_new` is in place when 300 ms are over, whatever length was asked for (C62). -/
theorem C152_glide_new (hR : Usual R) (h0 : sinf 0 = 0) (h1 : cosf 0 = 1) (d xa ya xu yu : ℝ) (w : ℕ) (t0 : Option Box)
    (length : ℕ) (ops : List (GOp Glide.Setter)) (hk : ∀ op ∈ ops, LeavesStepper op) (m : ℕ) (ho : Over 300 ops m)
    (p : Glide.Params) (hp : gGlide ⟨d, xa, ya, xu, yu, w, boxOr t0⟩ ops = p) (hb : Modest p.target)
    (hx : |p.xAxisLocationUnit| ≤ 2 ^ 20) (hy : |p.yAxisLocationUnit| ≤ 2 ^ 20)
    (hd : |p.initialDistance| ≤ 2 ^ 100) (hrx : |p.xRotationAngleDegrees| ≤ 2 ^ 100)
    (hry : |p.yRotationAngleDegrees| ≤ 2 ^ 100) (hw : 0 < p.screenWidth) :
    ∃ a0 a, Float.glideNew R (MM) d xa ya xu yu w t0 length = .ok a0 ∧
      (Float.glide R (MM)).run a0 (ops ++ [.step m]) = .ok a ∧ a.progress = fin 1 ∧
      ∀ (corners : Fin 4 → Pt) (i : Fin 4), |(corners i).x| ≤ 2 ^ 100 ∧ |(corners i).y| ≤ 2 ^ 100 →
        Unmoved R (R.rnd (D.rnd (-1 / p.screenWidth))) (corners i) ((MM).extremes a corners i) := by
  obtain ⟨a0, a, e0, e1⟩ := C152_glide R D sin sinf cosf hR h0 h1 (L := 300) (by norm_num) d xa ya xu yu w t0 none rfl ops hk m ho
    p hp hb hx hy hd hrx hry hw
  rw [gglide_given R (MM) d xa ya xu yu w t0 none (linear_after R (by norm_num))] at e0
  cases e0
  exact ⟨_, a, gglideNew_eq R (MM) d xa ya xu yu w t0 length (linear_after R (by norm_num)), e1⟩

/-- A bounce of 300 ms for want of a stepper is exactly in place after 19 frames of 16 ms and one more, though the numbers of
the bounce were changed on the way. -/
example (hR : Usual R) (hsin : ∀ x, |sin x| ≤ 1) (corners : Fin 4 → Pt) (hc : corners 3 = ⟨100, 50⟩) :
    ∃ a0 a, Float.bounceNew R (MM) (1 / 2) (5 / 4) 1 (some ⟨⟨0, 0⟩, ⟨100, 50⟩⟩) none = .ok a0 ∧
    (Float.bounce R (MM)).run a0 (.setProperty "n-bounce" (.uint 2) :: List.replicate 19 (.step 16) ++ [.step 16]) = .ok a ∧
    a.progress = fin 1 ∧ Unmoved R 0 ⟨100, 50⟩ ((MM).extremes a corners 3) := by
  have hg : gNumbers ⟨1 / 2, 5 / 4, 1, boxOr (some ⟨⟨0, 0⟩, ⟨100, 50⟩⟩)⟩ (.setProperty "n-bounce" (.uint 2) ::
      List.replicate 19 (.step 16)) = ⟨1 / 2, 5 / 4, 2, ⟨⟨0, 0⟩, ⟨100, 50⟩⟩⟩ := by
    simp only [gNumbers, List.replicate]
    norm_num [boxOr]
  obtain ⟨a0, a, h0, h1, h2, h3⟩ := C152_bounce R D sin sinf cosf hR hsin (L := 300) (by norm_num) (1 / 2) (5 / 4) 1
    (some ⟨⟨0, 0⟩, ⟨100, 50⟩⟩) none rfl (.setProperty "n-bounce" (.uint 2) :: List.replicate 19 (.step 16))
    (by simp [LeavesStepper]) 16
    ⟨by norm_num [gElapsed, List.replicate], by norm_num [gFrames, List.replicate], by intro k h; simp at h; omega⟩ _ hg
    ⟨1, -1, by norm_num, by norm_num, by norm_num⟩ (by norm_num) (by norm_num) (by norm_num [abs_le]) (by norm_num)
    (by norm_num [Modest, abs_le])
  refine ⟨a0, a, h0, h1, h2, ?_⟩
  have := h3 corners 3 (by rw [hc]; norm_num [abs_le])
  rwa [hc] at this

/-- A zoom of 100 ms that is given another source box by its property on the way. -/
example (hR : Usual R) (corners : Fin 4 → Pt) (hc : corners 3 = ⟨500, 350⟩) :
    ∃ a0 a, Float.zoomNew R (MM) none (some ⟨⟨0, 0⟩, ⟨0, 10⟩⟩) none (some (linear32 R 100)) = .ok a0 ∧
    (Float.zoom R (MM)).run a0 [.step 60, .setProperty "from" (.box (some ⟨⟨20, 30⟩, ⟨40, 50⟩⟩)), .step 60, .step 1] = .ok a ∧
    a.progress = fin 1 ∧ Unmoved R 0 ⟨500, 350⟩ ((MM).extremes a corners 3) := by
  obtain ⟨a0, a, h0, h1, h2, h3⟩ := C152_zoom R D sin sinf cosf hR (L := 100) (by norm_num) none (some ⟨⟨0, 0⟩, ⟨0, 10⟩⟩) none
    (some (linear32 R 100)) rfl [.step 60, .setProperty "from" (.box (some ⟨⟨20, 30⟩, ⟨40, 50⟩⟩)), .step 60]
    (by simp [LeavesStepper]) 1 ⟨by norm_num [gElapsed], by norm_num [gFrames], by intro k h; simp at h; omega⟩
    (by norm_num [Modest, abs_le, boxOr])
    (by
      intro b hb
      simp at hb
      subst hb
      norm_num [Modest, abs_le])
    (by
      refine ⟨⟨?_, ?_, ?_, ?_⟩, ?_⟩
      · exact double_nat (n := 0) (by norm_num) |> fun h => by simpa [boxOr] using h
      · exact double_nat (n := 0) (by norm_num) |> fun h => by simpa [boxOr] using h
      · exact double_nat (n := 1) (by norm_num) |> fun h => by simpa [boxOr] using h
      · exact double_nat (n := 1) (by norm_num) |> fun h => by simpa [boxOr] using h
      · norm_num [abs_le, boxOr])
  refine ⟨a0, a, h0, h1, h2, ?_⟩
  have := h3 corners 3 (by rw [hc]; norm_num [abs_le])
  rwa [hc] at this

/-- A glide that was asked to take a minute is over after 300 ms. -/
example (hR : Usual R) (h0 : sinf 0 = 0) (h1 : cosf 0 = 1) : ∃ a0 a,
    Float.glideNew R (MM) 0.5 90 30 0.5 0 1024 (some ⟨⟨0, 0⟩, ⟨100, 50⟩⟩) 60000 = .ok a0 ∧
    (Float.glide R (MM)).run a0 [.step 200, .call (.initialDistance 1), .step 100, .step 1] = .ok a ∧ a.progress = fin 1 := by
  obtain ⟨a0, a, e0, e1, e2, -⟩ := C152_glide_new R D sin sinf cosf hR h0 h1 0.5 90 30 0.5 0 1024
    (some ⟨⟨0, 0⟩, ⟨100, 50⟩⟩) 60000 [.step 200, .call (.initialDistance 1), .step 100]
    (by simp [LeavesStepper]) 1 ⟨by norm_num [gElapsed], by norm_num [gFrames], by intro k h; simp at h; omega⟩
    ⟨1, 90, 30, 0.5, 0, 1024, ⟨⟨0, 0⟩, ⟨100, 50⟩⟩⟩ rfl (by norm_num [Modest, abs_le]) (by norm_num [abs_le])
    (by norm_num) (by norm_num [abs_le]) (by norm_num [abs_le]) (by norm_num [abs_le]) (by norm_num)
  exact ⟨a0, a, e0, e1, e2⟩

/-- A glide of 300 ms whose distance is changed on the way. -/
example (hR : Usual R) (h0 : sinf 0 = 0) (h1 : cosf 0 = 1) (corners : Fin 4 → Pt) (hc : corners 3 = ⟨100, 50⟩) :
    ∃ a0 a, (Float.glide R (MM)).objectNew [("initial-distance", .float 0.5), ("x-rotation-angle-degrees", .float 90),
        ("y-rotation-angle-degrees", .float 30), ("x-axis-location-unit", .float 0.5), ("y-axis-location-unit", .float 0),
        ("screen-width", .uint 1024), ("target", .box (some ⟨⟨0, 0⟩, ⟨100, 50⟩⟩)), ("stepper", .stepper none)] = .ok a0 ∧
    (Float.glide R (MM)).run a0 [.step 200, .call (.initialDistance 1), .step 100, .step 1] = .ok a ∧ a.progress = fin 1 ∧
    Unmoved R (R.rnd (D.rnd (-1 / 1024))) ⟨100, 50⟩ ((MM).extremes a corners 3) := by
  obtain ⟨a0, a, e0, e1, e2, e3⟩ := C152_glide R D sin sinf cosf hR h0 h1 (L := 300) (by norm_num) 0.5 90 30 0.5 0 1024
    (some ⟨⟨0, 0⟩, ⟨100, 50⟩⟩) none rfl [.step 200, .call (.initialDistance 1), .step 100]
    (by simp [LeavesStepper]) 1 ⟨by norm_num [gElapsed], by norm_num [gFrames], by intro k h; simp at h; omega⟩
    ⟨1, 90, 30, 0.5, 0, 1024, ⟨⟨0, 0⟩, ⟨100, 50⟩⟩⟩ rfl (by norm_num [Modest, abs_le]) (by norm_num [abs_le])
    (by norm_num) (by norm_num [abs_le]) (by norm_num [abs_le]) (by norm_num [abs_le]) (by norm_num)
  refine ⟨a0, a, e0, e1, e2, ?_⟩
  have := e3 corners 3 (by rw [hc]; norm_num [abs_le])
  rw [hc] at this
  exact_mod_cast this

end

end Verif.Props
