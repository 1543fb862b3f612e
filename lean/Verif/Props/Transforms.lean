import Verif.Props.StepperCopy
import Verif.Lemmas.Geometry
import Verif.Model.Glide
import Verif.Model.Zoom
import Mathlib.Analysis.SpecialFunctions.Trigonometric.Bounds
import Mathlib.LinearAlgebra.Matrix.Determinant.Basic

/-! # Bounce, Zoom, Glide (C08-C17) -/

namespace Verif.Props

open XR (fin)
open Spec

noncomputable section

/-! ## Bounce -/

theorem bounce_scales (p i mx : ℝ) (n : ℕ) (t : Box) :
    ScalesAbout (Bounce.transform p i mx n t) (middle t) (Bounce.scaleFactor p i mx n) := by
  intro q
  simp only [Bounce.transform, ← Matrix.mulVec_mulVec, transformPoint]
  ext <;> simp [Mat4.translate, Mat4.scale, Matrix.mulVec, dotProduct, Fin.sum_univ_four,
    boxCenterOffset, middle] <;> ring

/-- What a Bounce step leaves behind. -/
theorem bounce_step (a : Anim Bounce.Params (Option Mat4)) (ms : ℕ) :
    ∃ r : ℝ, 0 ≤ r ∧ r ≤ 1 ∧ (Bounce.cls.step a ms).1.progress = fin r ∧
      (Bounce.cls.step a ms).1.out = some (Bounce.transform r a.params.initialScale
        a.params.maximumScale a.params.nBounce a.params.target) := by
  obtain ⟨r, hr, h0, h1⟩ := clamp_inUnit (a.stepper.value ms)
  refine ⟨r, h0, h1, hr, ?_⟩
  show Bounce.render a.params (clamp (a.stepper.value ms) (fin 0) (fin 1)) a.out = _
  rw [hr]; rfl

/-- **C08.** Whenever a Bounce step ends with progress 1, the transform maps every point to itself. -/
theorem C08_bounce_end (a : Anim Bounce.Params (Option Mat4)) (ms : ℕ)
    (h : (Bounce.cls.step a ms).1.progress = fin 1) :
    ∃ M, (Bounce.cls.step a ms).1.out = some M ∧
      ∀ q : Pt, transformPoint q M = ⟨q.x, q.y, 0, 1⟩ := by
  obtain ⟨r, _, _, hr, ho⟩ := bounce_step a ms
  rw [hr, XR.fin_inj] at h
  subst h
  refine ⟨_, ho, fun q => ?_⟩
  rw [bounce_scales]
  ext <;> simp [Bounce.scaleFactor]

/-- **C08.** Whenever a Bounce step ends with progress 0, the transform is the uniform scaling by the
initial scale about the middle of the target. -/
theorem C08_bounce_start (a : Anim Bounce.Params (Option Mat4)) (ms : ℕ)
    (h : (Bounce.cls.step a ms).1.progress = fin 0) :
    ∃ M, (Bounce.cls.step a ms).1.out = some M ∧
      ScalesAbout M (middle a.params.target) a.params.initialScale := by
  obtain ⟨r, _, _, hr, ho⟩ := bounce_step a ms
  rw [hr, XR.fin_inj] at h
  subst h
  refine ⟨_, ho, ?_⟩
  have := bounce_scales 0 a.params.initialScale a.params.maximumScale a.params.nBounce a.params.target
  simpa [Bounce.scaleFactor, Bounce.sampleSineWave] using this

example (p : Bounce.Params) :
    (Bounce.cls.step (Bounce.new p (linear 100)).1 100).1.progress = fin 1 := by
  have h : _ = fin (min 1 (((0 + 100 : ℕ) : ℝ) / 100)) :=
    C04_linear_progress Bounce.cls p (some 1) (by norm_num : (0:ℝ) < 100) [] 100
  refine Eq.trans h ?_
  norm_num

/-- **C09.** After every step the Bounce transform is a uniform scaling about the middle of the
target, by a factor within `|maximum - initial| * (1 - p)` of the straight line from the initial
scale to 1. -/
theorem C09_bounce_envelope (a : Anim Bounce.Params (Option Mat4)) (ms : ℕ) :
    ∃ (r s : ℝ) (M : Mat4), (Bounce.cls.step a ms).1.progress = fin r ∧
      (Bounce.cls.step a ms).1.out = some M ∧ ScalesAbout M (middle a.params.target) s ∧
      |s - lerp r a.params.initialScale 1| ≤
        |a.params.maximumScale - a.params.initialScale| * (1 - r) := by
  obtain ⟨r, h0, h1, hr, ho⟩ := bounce_step a ms
  refine ⟨r, _, _, hr, ho, bounce_scales _ _ _ _ _, ?_⟩
  have e : Bounce.scaleFactor r a.params.initialScale a.params.maximumScale a.params.nBounce -
      lerp r a.params.initialScale 1 =
      (a.params.maximumScale - a.params.initialScale) * (1 - r) *
        Real.sin (r * Real.pi * a.params.nBounce) := by
    simp only [Bounce.scaleFactor, Bounce.sampleSineWave, lerp]; ring
  rw [e, abs_mul, abs_mul, abs_of_nonneg (by linarith : 0 ≤ 1 - r)]
  have hs := Real.abs_sin_le_one (r * Real.pi * a.params.nBounce)
  have : 0 ≤ |a.params.maximumScale - a.params.initialScale| * (1 - r) :=
    mul_nonneg (abs_nonneg _) (by linarith)
  nlinarith

/-- **C09.** With a single bounce and `initial ≤ maximum` the factor is between that line and the
line from the maximum scale to 1; so it never exceeds the larger of the maximum scale and 1. -/
theorem C09_single_bounce (a : Anim Bounce.Params (Option Mat4)) (ms : ℕ)
    (hn : a.params.nBounce = 1) (hm : a.params.initialScale ≤ a.params.maximumScale) :
    ∃ (r s : ℝ) (M : Mat4), (Bounce.cls.step a ms).1.progress = fin r ∧
      (Bounce.cls.step a ms).1.out = some M ∧ ScalesAbout M (middle a.params.target) s ∧
      lerp r a.params.initialScale 1 ≤ s ∧ s ≤ lerp r a.params.maximumScale 1 ∧
      s ≤ max a.params.maximumScale 1 := by
  obtain ⟨r, h0, h1, hr, ho⟩ := bounce_step a ms
  refine ⟨r, _, _, hr, ho, bounce_scales _ _ _ _ _, ?_⟩
  have hs0 : 0 ≤ Real.sin (r * Real.pi) := by
    apply Real.sin_nonneg_of_nonneg_of_le_pi
    · positivity
    · have := Real.pi_pos; nlinarith
  have hs1 := Real.sin_le_one (r * Real.pi)
  have e : Bounce.scaleFactor r a.params.initialScale a.params.maximumScale a.params.nBounce =
      lerp r a.params.initialScale 1 +
      (a.params.maximumScale - a.params.initialScale) * (1 - r) * Real.sin (r * Real.pi) := by
    simp only [Bounce.scaleFactor, Bounce.sampleSineWave, lerp, hn]; push_cast; rw [mul_one]; ring
  have hrange : 0 ≤ (a.params.maximumScale - a.params.initialScale) * (1 - r) :=
    mul_nonneg (by linarith) (by linarith)
  have hub : Bounce.scaleFactor r a.params.initialScale a.params.maximumScale a.params.nBounce ≤
      lerp r a.params.maximumScale 1 := by
    rw [e]; simp only [lerp]; nlinarith
  refine ⟨by rw [e]; nlinarith, hub, hub.trans ?_⟩
  simp only [lerp]
  rcases le_total a.params.maximumScale 1 with h | h
  · rw [max_eq_right h]; nlinarith
  · rw [max_eq_left h]; nlinarith

example : ∃ p : Bounce.Params, p.nBounce = 1 ∧ p.initialScale ≤ p.maximumScale :=
  ⟨⟨0.5, 1.5, 1, ⟨⟨0, 0⟩, ⟨100, 50⟩⟩⟩, rfl, by norm_num⟩

/-- The ranges the GObject properties allow (animation-glib/bounce/bounce.cpp,
`animation_bounce_class_init`). -/
def BounceInRange (p : Bounce.Params) : Prop :=
  0.1 ≤ p.initialScale ∧ p.initialScale ≤ 1 ∧ 1 ≤ p.maximumScale ∧ p.maximumScale ≤ 3 ∧
    1 ≤ p.nBounce ∧ p.nBounce ≤ 10

/-- **C10 (negation).** With in-range parameters and an ordinary linear stepper the surface can be
mirrored: half way through, three bounces between scales 0.1 and 3 give a negative factor. -/
theorem C10_bounce_can_mirror (t : Box) :
    ∃ p : Bounce.Params, BounceInRange p ∧ p.target = t ∧
      ∃ M s, (Bounce.cls.step (Bounce.new p (linear 100)).1 50).1.out = some M ∧
        ScalesAbout M (middle t) s ∧ s < 0 := by
  refine ⟨⟨0.1, 3, 3, t⟩, ?_, rfl, ?_⟩
  · refine ⟨?_, ?_, ?_, ?_, ?_, ?_⟩ <;> norm_num
  · obtain ⟨r, _, _, hr, ho⟩ := bounce_step (Bounce.new ⟨0.1, 3, 3, t⟩ (linear 100)).1 50
    have hp := C04_linear_progress Bounce.cls ⟨0.1, 3, 3, t⟩ (some 1) (by norm_num : (0:ℝ) < 100) [] 50
    have : r = 1 / 2 := by
      have h : fin r = fin (min 1 (((0 + 50 : ℕ) : ℝ) / 100)) := hr.symm.trans hp
      rw [XR.fin_inj] at h
      rw [h, min_eq_right (by norm_num)]; norm_num
    subst this
    refine ⟨_, _, ho, bounce_scales _ _ _ _ _, ?_⟩
    have hs : Real.sin (1 / 2 * Real.pi * (3 : ℕ)) = -1 := by
      have : (1 / 2 * Real.pi * (3 : ℕ) : ℝ) = Real.pi / 2 + Real.pi := by push_cast; ring
      rw [this, Real.sin_add_pi, Real.sin_pi_div_two]
    show Bounce.scaleFactor (1 / 2) 0.1 3 3 < 0
    simp only [Bounce.scaleFactor, Bounce.sampleSineWave, hs]
    norm_num

/-- **C10 (negation).** For every number of bounces from two on there is a moment at which the scales 0.1 and 3, which are in
range, mirror the surface. -/
theorem C10_each_count_can_mirror (t : Box) (n : ℕ) (hn : 2 ≤ n) :
    ∃ (L : ℝ) (ms : ℕ) (M : Mat4) (s : ℝ), 0 < L ∧
      (Bounce.cls.step (Bounce.new ⟨0.1, 3, n, t⟩ (linear L)).1 ms).1.out = some M ∧ ScalesAbout M (middle t) s ∧ s < 0 := by
  have key : ∀ (L : ℝ) (ms : ℕ), 0 < L → (ms : ℝ) ≤ L → Bounce.scaleFactor (ms / L) 0.1 3 n < 0 →
      ∃ (L : ℝ) (ms : ℕ) (M : Mat4) (s : ℝ), 0 < L ∧
        (Bounce.cls.step (Bounce.new ⟨0.1, 3, n, t⟩ (linear L)).1 ms).1.out = some M ∧ ScalesAbout M (middle t) s ∧ s < 0 := by
    intro L ms hL hms h
    obtain ⟨r, _, _, hr, ho⟩ := bounce_step (Bounce.new ⟨0.1, 3, n, t⟩ (linear L)).1 ms
    have hp := C04_linear_progress Bounce.cls ⟨0.1, 3, n, t⟩ (some 1) hL [] ms
    have : r = ms / L := by
      have h : fin r = fin (min 1 (((0 + ms : ℕ) : ℝ) / L)) := hr.symm.trans hp
      rw [XR.fin_inj] at h
      rw [h, zero_add, min_eq_right]
      rw [div_le_one hL]
      exact hms
    subst this
    exact ⟨L, ms, _, _, hL, ho, bounce_scales _ _ _ _ _, h⟩
  rcases hn.eq_or_lt with h2 | h3
  · subst h2
    refine key 3 2 (by norm_num) (by norm_num) ?_
    have hsin : Real.sin (2 / 3 * Real.pi * 2) = -(√3 / 2) := by
      have : (2 / 3 * Real.pi * 2 : ℝ) = Real.pi / 3 + Real.pi := by ring
      rw [this, Real.sin_add_pi, Real.sin_pi_div_three]
    have h3 : (1.7 : ℝ) < √3 := by
      rw [Real.lt_sqrt (by norm_num)]
      norm_num
    simp only [Bounce.scaleFactor, Bounce.sampleSineWave, Nat.cast_ofNat, hsin]
    norm_num at h3 ⊢
    linarith
  · have hn0 : (3 : ℝ) ≤ n := by exact_mod_cast h3
    have hnp : (0 : ℝ) < n := by linarith
    refine key (2 * n) 3 (by positivity) (by push_cast; linarith) ?_
    have hsin : Real.sin (3 / (2 * n) * Real.pi * n) = -1 := by
      have : (3 / (2 * n) * Real.pi * n : ℝ) = Real.pi / 2 + Real.pi := by
        field_simp
        ring
      rw [this, Real.sin_add_pi, Real.sin_pi_div_two]
    have hq : (3 : ℝ) / (2 * n) ≤ 1 / 2 := by
      rw [div_le_div_iff₀ (by positivity) (by norm_num)]
      linarith
    simp only [Bounce.scaleFactor, Bounce.sampleSineWave, Nat.cast_ofNat, hsin]
    linarith

/-- **C10 (partial).** The factor is positive for a single bounce, and for any number of bounces when
the maximum is at most twice the initial scale.  Missing: the other in-range parameters, where the
claim is false. -/
theorem C10_bounce_positive_partial (a : Anim Bounce.Params (Option Mat4)) (ms : ℕ)
    (hi : 0 < a.params.initialScale) (hm : a.params.initialScale ≤ a.params.maximumScale)
    (h : a.params.nBounce = 1 ∨ a.params.maximumScale ≤ 2 * a.params.initialScale) :
    ∃ (s : ℝ) (M : Mat4), (Bounce.cls.step a ms).1.out = some M ∧
      ScalesAbout M (middle a.params.target) s ∧ 0 < s := by
  rcases h with h | h
  · obtain ⟨r, h0, h1, hr, ho⟩ := bounce_step a ms
    obtain ⟨r', s, M, hp, hM, hs, hl, _⟩ := C09_single_bounce a ms h hm
    rw [hr, XR.fin_inj] at hp
    subst hp
    refine ⟨s, M, hM, hs, lt_of_lt_of_le ?_ hl⟩
    simp only [lerp]
    rcases h0.eq_or_lt with h | h
    · subst h; linarith
    · nlinarith
  · obtain ⟨r, h0, h1, hr, ho⟩ := bounce_step a ms
    obtain ⟨r', s, M, hp, hM, hs, hl⟩ := C09_bounce_envelope a ms
    rw [hr, XR.fin_inj] at hp
    subst hp
    refine ⟨s, M, hM, hs, ?_⟩
    rw [abs_of_nonneg (by linarith : 0 ≤ a.params.maximumScale - a.params.initialScale)] at hl
    have := (abs_le.1 hl).1
    simp only [lerp] at this
    rcases h0.eq_or_lt with h' | h'
    · -- at progress 0 the scale is exactly the initial scale
      subst h'
      have e := hs ⟨(middle a.params.target).x + 1, 0⟩
      rw [ho, Option.some_inj] at hM
      subst hM
      have e2 := bounce_scales 0 a.params.initialScale a.params.maximumScale a.params.nBounce
        a.params.target ⟨(middle a.params.target).x + 1, 0⟩
      rw [e] at e2
      have e3 := congrArg Vec4.x e2
      simp [Bounce.scaleFactor, Bounce.sampleSineWave] at e3
      linarith
    · have : 0 ≤ (1 - r) * (2 * a.params.initialScale - a.params.maximumScale) :=
        mul_nonneg (by linarith) (by linarith)
      nlinarith

/-- **C10.** Exactly which scales never mirror the surface, however many bounces are asked for: those where the maximum is
at most twice the initial scale. -/
theorem C10_every_count_iff (t : Box) {i m : ℝ} (hi : 0 < i) (hm : i ≤ m) :
    (∀ (n : ℕ) (st : Stepper) (ms : ℕ), ∃ (s : ℝ) (M : Mat4),
      (Bounce.cls.step (Bounce.new ⟨i, m, n, t⟩ st).1 ms).1.out = some M ∧ ScalesAbout M (middle t) s ∧ 0 < s) ↔
    m ≤ 2 * i := by
  constructor
  · intro h
    by_contra hlt
    rw [not_le] at hlt
    -- enough bounces to reach the bottom of the second swing early
    obtain ⟨k, hk⟩ := exists_nat_gt ((3 / 2) * (1 - 2 * i + m) / (m - 2 * i))
    obtain ⟨n, hn, hn3, hn4⟩ : ∃ n : ℕ, k ≤ n ∧ 3 ≤ n ∧ 0 < n := ⟨max k 3, le_max_left _ _, le_max_right _ _, by omega⟩
    have hkn : (3 / 2) * (1 - 2 * i + m) / (m - 2 * i) < n := hk.trans_le (by exact_mod_cast hn)
    have hnp : (0 : ℝ) < n := by exact_mod_cast hn4
    rw [div_lt_iff₀ (by linarith)] at hkn
    obtain ⟨s, M, ho', hs, hpos⟩ := h n (linear (2 * n)) 3
    obtain ⟨r, _, _, hr, ho⟩ := bounce_step (Bounce.new ⟨i, m, n, t⟩ (linear (2 * n))).1 3
    have hp := C04_linear_progress Bounce.cls ⟨i, m, n, t⟩ (some 1) (by positivity : (0 : ℝ) < 2 * n) [] 3
    have hr' : r = 3 / (2 * n) := by
      have h : fin r = fin (min 1 (((0 + 3 : ℕ) : ℝ) / (2 * n))) := hr.symm.trans hp
      rw [XR.fin_inj] at h
      rw [h]
      push_cast
      rw [min_eq_right]
      rw [div_le_one (by positivity)]
      have : (3 : ℝ) ≤ n := by exact_mod_cast hn3
      linarith
    subst hr'
    rw [ho, Option.some_inj] at ho'
    subst ho'
    have e := hs ⟨(middle t).x + 1, 0⟩
    have e2 := bounce_scales (3 / (2 * n)) i m n t ⟨(middle t).x + 1, 0⟩
    have e3 := congrArg Vec4.x (e.symm.trans e2)
    have hsin : Real.sin (3 / (2 * n) * Real.pi * n) = -1 := by
      have : (3 / (2 * n) * Real.pi * n : ℝ) = Real.pi / 2 + Real.pi := by
        field_simp
        ring
      rw [this, Real.sin_add_pi, Real.sin_pi_div_two]
    simp only [Bounce.scaleFactor, Bounce.sampleSineWave, hsin, add_sub_cancel_left, mul_one, add_right_inj] at e3
    rw [e3] at hpos
    have e4 : n * (i + (1 - i) * (3 / (2 * n)) + (m - i) * (1 - 3 / (2 * n)) * -1) =
        n * (2 * i - m) + 3 / 2 * (1 - 2 * i + m) := by
      field_simp
      ring
    have := mul_pos hnp hpos
    rw [e4] at this
    linarith
  · intro h n st ms
    exact C10_bounce_positive_partial (Bounce.new ⟨i, m, n, t⟩ st).1 ms hi hm (.inr h)

example : ∃ p : Bounce.Params, BounceInRange p ∧ p.maximumScale ≤ 2 * p.initialScale :=
  ⟨⟨0.9, 1.2, 4, ⟨⟨0, 0⟩, ⟨100, 50⟩⟩⟩, ⟨by norm_num, by norm_num, by norm_num, by norm_num,
    by norm_num, by norm_num⟩, by norm_num⟩

/-- **C11.** After every step the middle of the target is a fixed point, and differences between
points are multiplied by one common factor. -/
theorem C11_bounce_middle_fixed (a : Anim Bounce.Params (Option Mat4)) (ms : ℕ) :
    ∃ (s : ℝ) (M : Mat4), (Bounce.cls.step a ms).1.out = some M ∧
      transformPoint (middle a.params.target) M =
        ⟨(middle a.params.target).x, (middle a.params.target).y, 0, 1⟩ ∧
      ∀ q q' : Pt, (transformPoint q M).x - (transformPoint q' M).x = s * (q.x - q'.x) ∧
        (transformPoint q M).y - (transformPoint q' M).y = s * (q.y - q'.y) := by
  obtain ⟨r, s, M, _, hM, hs, _⟩ := C09_bounce_envelope a ms
  refine ⟨s, M, hM, by rw [hs]; simp, fun q q' => ?_⟩
  rw [hs, hs]
  constructor <;> ring

/-! ## Zoom -/

theorem zoom_nonzero (b : Box) : (Zoom.ensureNonZeroArea b).br.x - (Zoom.ensureNonZeroArea b).tl.x ≠ 0 ∧
    (Zoom.ensureNonZeroArea b).br.y - (Zoom.ensureNonZeroArea b).tl.y ≠ 0 := by
  simp only [Zoom.ensureNonZeroArea]
  constructor
  · split_ifs with h
    · rw [h]; norm_num
    · exact sub_ne_zero.2 h
  · split_ifs with h
    · rw [h]; norm_num
    · exact sub_ne_zero.2 h

/-- Both sides of the box are non-zero. -/
def HasArea (b : Box) : Prop := b.br.x ≠ b.tl.x ∧ b.br.y ≠ b.tl.y

theorem zoom_transform {p : ℝ} {f t : Box} (h : HasArea t) :
    ∃ M, Zoom.transform p f t = some M ∧ ∀ u v : ℝ,
      transformPoint ⟨u * (t.br.x - t.tl.x), v * (t.br.y - t.tl.y)⟩ M =
        ⟨lerp u (lerp p f.tl.x t.tl.x) (lerp p f.br.x t.br.x) - t.tl.x,
         lerp v (lerp p f.tl.y t.tl.y) (lerp p f.br.y t.br.y) - t.tl.y, 0, 1⟩ := by
  have hw := sub_ne_zero.2 h.1
  have hh := sub_ne_zero.2 h.2
  simp only [Zoom.transform, hw, hh, or_self, if_false]
  refine ⟨_, rfl, fun u v => ?_⟩
  simp only [← Matrix.mulVec_mulVec, transformPoint]
  ext
  · simp [Mat4.translate, Mat4.scale, Matrix.mulVec, dotProduct, Fin.sum_univ_four,
      boxCenterOffset, boxCenter, lerp]
    field_simp
    ring
  · simp [Mat4.translate, Mat4.scale, Matrix.mulVec, dotProduct, Fin.sum_univ_four,
      boxCenterOffset, boxCenter, lerp]
    field_simp
    ring
  · simp [Mat4.translate, Mat4.scale, Matrix.mulVec, dotProduct, Fin.sum_univ_four]
  · simp [Mat4.translate, Mat4.scale, Matrix.mulVec, dotProduct, Fin.sum_univ_four]

/-- The `to` box never changes. -/
theorem zoom_run_dst (a : Anim Zoom.Params (Option Mat4)) (ops : List (AnimOp Zoom.Setter)) :
    (Zoom.cls.run a ops).params.dst = a.params.dst := by
  induction ops generalizing a with
  | nil => rfl
  | cons o ops ih =>
    show (Zoom.cls.run (Zoom.cls.exec a o) ops).params.dst = _
    rw [ih]
    cases o with
    | step ms => rfl
    | set s => cases s; rfl
    | setStepper s => rfl

/-- What a Zoom step leaves behind. -/
theorem zoom_step (a : Anim Zoom.Params (Option Mat4)) (ms : ℕ) :
    ∃ r : ℝ, 0 ≤ r ∧ r ≤ 1 ∧ (Zoom.cls.step a ms).1.progress = fin r ∧
      (Zoom.cls.step a ms).1.out = Zoom.transform r a.params.frm a.params.dst := by
  obtain ⟨r, hr, h0, h1⟩ := clamp_inUnit (a.stepper.value ms)
  refine ⟨r, h0, h1, hr, ?_⟩
  show Zoom.render a.params (clamp (a.stepper.value ms) (fin 0) (fin 1)) a.out = _
  rw [hr]; rfl

/-- The matrix `M` shows the surface of the box `t` (whose own coordinates start at its top left
corner) as the box whose corners are a fraction `p` of the way from `f` to `t`: the point at the
fraction `(u, v)` of the surface goes to the same fraction of that box. -/
def ShowsBoxBetween (M : Mat4) (p : ℝ) (f t : Box) : Prop :=
  ∀ u v : ℝ, transformPoint ⟨u * (t.br.x - t.tl.x), v * (t.br.y - t.tl.y)⟩ M =
    ⟨lerp u (lerp p f.tl.x t.tl.x) (lerp p f.br.x t.br.x) - t.tl.x,
     lerp v (lerp p f.tl.y t.tl.y) (lerp p f.br.y t.br.y) - t.tl.y, 0, 1⟩

/-- **C12.** Zoom between two boxes with area: after any Steps the surface is shown as the box a
fraction `Progress ()` of the way from the one to the other. -/
theorem C12_zoom_interpolates (f t : Box) (s : Stepper) (hf : HasArea f) (ht : HasArea t)
    (ms : List ℕ) (m : ℕ) :
    ∃ (r : ℝ) (M : Mat4),
      (Zoom.cls.run (Zoom.new f t s).1 (steps (ms ++ [m]))).progress = fin r ∧ 0 ≤ r ∧ r ≤ 1 ∧
      (Zoom.cls.run (Zoom.new f t s).1 (steps (ms ++ [m]))).out = some M ∧
      ShowsBoxBetween M r f t := by
  have ef : Zoom.ensureNonZeroArea f = f := by simp [Zoom.ensureNonZeroArea, hf.1, hf.2]
  have et : Zoom.ensureNonZeroArea t = t := by simp [Zoom.ensureNonZeroArea, ht.1, ht.2]
  have key : ∀ (a : Anim Zoom.Params (Option Mat4)), a.params.frm = f → a.params.dst = t →
      ∃ (r : ℝ) (M : Mat4), (Zoom.cls.run a (steps (ms ++ [m]))).progress = fin r ∧
        0 ≤ r ∧ r ≤ 1 ∧
        (Zoom.cls.run a (steps (ms ++ [m]))).out = some M ∧ ShowsBoxBetween M r f t := by
    induction ms with
    | nil =>
      intro a h1 h2
      obtain ⟨r, h0, h1', hr, ho⟩ := zoom_step a m
      rw [h1, h2] at ho
      obtain ⟨M, hM, hs⟩ := zoom_transform (p := r) (f := f) ht
      exact ⟨r, M, hr, h0, h1', ho.trans hM, hs⟩
    | cons x xs ih =>
      intro a h1 h2
      exact ih (Zoom.cls.step a x).1 h1 h2
  exact key _ ef et

example : HasArea ⟨⟨0, 0⟩, ⟨20, 10⟩⟩ ∧ HasArea ⟨⟨100, 50⟩, ⟨500, 400⟩⟩ := by
  constructor <;> constructor <;> norm_num

/-- **C12.** The general form, also for degenerate boxes and after the `From` box has been changed:
the boxes are those the `From ()` and `To ()` getters report. -/
theorem C12_zoom_interpolates_current (f t : Box) (s : Stepper) (ops : List (AnimOp Zoom.Setter))
    (m : ℕ) :
    let a := Zoom.cls.run (Zoom.new f t s).1 ops
    ∃ (r : ℝ) (M : Mat4), (Zoom.cls.step a m).1.progress = fin r ∧ 0 ≤ r ∧ r ≤ 1 ∧
      (Zoom.cls.step a m).1.out = some M ∧ ShowsBoxBetween M r a.params.frm a.params.dst := by
  intro a
  have hd : a.params.dst = Zoom.ensureNonZeroArea t := zoom_run_dst _ _
  obtain ⟨r, h0, h1, hr, ho⟩ := zoom_step a m
  have harea : HasArea a.params.dst := by
    rw [hd]; exact ⟨sub_ne_zero.1 (zoom_nonzero t).1, sub_ne_zero.1 (zoom_nonzero t).2⟩
  obtain ⟨M, hM, hs⟩ := zoom_transform (p := r) (f := a.params.frm) harea
  exact ⟨r, M, hr, h0, h1, ho.trans hM, hs⟩

/-- **C12.** At progress 1 the surface is shown where it is, at progress 0 as the `from` box. -/
theorem C12_zoom_ends (M : Mat4) (f t : Box) (ht : HasArea t) :
    (ShowsBoxBetween M 1 f t → ∀ q : Pt, transformPoint q M = ⟨q.x, q.y, 0, 1⟩) ∧
    (ShowsBoxBetween M 0 f t →
      transformPoint ⟨0, 0⟩ M = ⟨f.tl.x - t.tl.x, f.tl.y - t.tl.y, 0, 1⟩ ∧
      transformPoint ⟨t.br.x - t.tl.x, t.br.y - t.tl.y⟩ M =
        ⟨f.br.x - t.tl.x, f.br.y - t.tl.y, 0, 1⟩) := by
  have hw := sub_ne_zero.2 ht.1
  have hh := sub_ne_zero.2 ht.2
  refine ⟨fun h q => ?_, fun h => ⟨?_, ?_⟩⟩
  · have := h (q.x / (t.br.x - t.tl.x)) (q.y / (t.br.y - t.tl.y))
    rw [div_mul_cancel₀ _ hw, div_mul_cancel₀ _ hh] at this
    rw [this]
    ext
    · simp only [lerp]; field_simp; ring
    · simp only [lerp]; field_simp; ring
    · rfl
    · rfl
  · have := h 0 0
    simpa [lerp] using this
  · have := h 1 1
    simpa [lerp] using this

/-- **C13.** Whatever boxes Zoom is built from (empty, inverted) and whatever `From` boxes are set
later, every Step stores a matrix with finite entries only: no division by zero enters it. -/
theorem C13_zoom_finite (f t : Box) (s : Stepper) (ops : List (AnimOp Zoom.Setter)) (m : ℕ) :
    (Zoom.cls.step (Zoom.cls.run (Zoom.new f t s).1 ops) m).1.out ≠ none := by
  obtain ⟨r, M, _, _, _, hM, _⟩ := C12_zoom_interpolates_current f t s ops m
  rw [hM]; simp

/-- **C13.** The fix-up only touches sides that are zero: a box with area is used as given, and an
empty side becomes one pixel long. -/
theorem C13_zoom_boxes (f t : Box) (s : Stepper) :
    (HasArea t → (Zoom.new f t s).1.params.dst = t) ∧
    (HasArea f → (Zoom.new f t s).1.params.frm = f) ∧
    (t.br.x = t.tl.x → (Zoom.new f t s).1.params.dst.br.x - (Zoom.new f t s).1.params.dst.tl.x = 1) ∧
    (t.br.y = t.tl.y → (Zoom.new f t s).1.params.dst.br.y - (Zoom.new f t s).1.params.dst.tl.y = 1) := by
  refine ⟨fun h => ?_, fun h => ?_, fun h => ?_, fun h => ?_⟩ <;>
  simp only [Zoom.new, AnimClass.new, Zoom.ensureNonZeroArea]
  · simp [h.1, h.2]
  · simp [h.1, h.2]
  · rw [if_pos h, h]; ring
  · rw [if_pos h, h]; ring

/-! ## Glide -/

/-- What a Glide step leaves behind. -/
theorem glide_step (a : Anim Glide.Params (Option Mat4)) (ms : ℕ) (hs : a.params.screenWidth ≠ 0) :
    ∃ r : ℝ, 0 ≤ r ∧ r ≤ 1 ∧ (Glide.cls.step a ms).1.progress = fin r ∧
      (Glide.cls.step a ms).1.out = some (Glide.transform r a.params) := by
  obtain ⟨r, hr, h0, h1⟩ := clamp_inUnit (a.stepper.value ms)
  refine ⟨r, h0, h1, hr, ?_⟩
  show Glide.render a.params (clamp (a.stepper.value ms) (fin 0) (fin 1)) a.out = _
  rw [hr]
  simp [Glide.render, hs]

/-- **C15 (negation).** With any parameters, a Glide that has reached progress 1 does not map the
surface to itself: every point is at depth `-1/screenWidth`. -/
theorem C15_glide_end_depth (a : Anim Glide.Params (Option Mat4)) (ms : ℕ)
    (hs : a.params.screenWidth ≠ 0) (h : (Glide.cls.step a ms).1.progress = fin 1) :
    ∃ M, (Glide.cls.step a ms).1.out = some M ∧
      ∀ q : Pt, transformPoint q M ≠ ⟨q.x, q.y, 0, 1⟩ := by
  obtain ⟨r, _, _, hr, ho⟩ := glide_step a ms hs
  rw [hr, XR.fin_inj] at h
  subst h
  refine ⟨_, ho, fun q hq => ?_⟩
  have := congrArg Vec4.z hq
  simp [Glide.transform, transformPoint, Mat4.translate, Mat4.rotateX,
    Mat4.rotateY, Glide.perspective, Matrix.mulVec, dotProduct, Fin.sum_univ_four] at this
  exact hs this

/-- **C15 (partial).** At progress 1 the x and y coordinates are those of the surface, and `w` is 1.
Missing: the depth, which is `-1/screenWidth` and not 0. -/
theorem C15_glide_end_partial (a : Anim Glide.Params (Option Mat4)) (ms : ℕ)
    (hs : a.params.screenWidth ≠ 0) (h : (Glide.cls.step a ms).1.progress = fin 1) :
    ∃ M, (Glide.cls.step a ms).1.out = some M ∧
      ∀ q : Pt, transformPoint q M = ⟨q.x, q.y, -1 / a.params.screenWidth, 1⟩ := by
  obtain ⟨r, _, _, hr, ho⟩ := glide_step a ms hs
  rw [hr, XR.fin_inj] at h
  subst h
  refine ⟨_, ho, fun q => ?_⟩
  simp only [Glide.transform, ← Matrix.mulVec_mulVec, transformPoint]
  ext <;> simp [Mat4.translate, Mat4.rotateX, Mat4.rotateY, Glide.perspective, Matrix.mulVec,
    dotProduct, Fin.sum_univ_four]

example : (Glide.cls.step (Glide.new ⟨0.5, 45, -20, 0, 1, 1920, ⟨⟨0, 0⟩, ⟨100, 50⟩⟩⟩
      (linear 100)).1 100).1.progress = fin 1 := by
  have h : _ = fin (min 1 (((0 + 100 : ℕ) : ℝ) / 100)) :=
    C04_linear_progress Glide.cls ⟨0.5, 45, -20, 0, 1, 1920, ⟨⟨0, 0⟩, ⟨100, 50⟩⟩⟩ (some 1)
      (by norm_num : (0:ℝ) < 100) [] 100
  refine Eq.trans h ?_
  norm_num

theorem glide_coords (r : ℝ) (p : Glide.Params) (q : Pt) :
    let a := Glide.degreesToRadians p.xRotationAngleDegrees * (1 - r)
    let b := Glide.degreesToRadians p.yRotationAngleDegrees * (1 - r)
    let c := rotationAxisOffset p.target p.xAxisLocationUnit p.yAxisLocationUnit
    let d : ℝ := -1 / p.screenWidth
    transformPoint q (Glide.transform r p) =
      ⟨c.x + (Real.cos b * (q.x - c.x) + Real.sin b * d),
       c.y + (Real.cos a * (q.y - c.y) - Real.sin a * (-Real.sin b * (q.x - c.x) + Real.cos b * d)),
       Real.sin a * (q.y - c.y) + Real.cos a * (-Real.sin b * (q.x - c.x) + Real.cos b * d)
        - p.initialDistance * (1 - r), 1⟩ := by
  intro a b c d
  simp only [Glide.transform, ← Matrix.mulVec_mulVec, transformPoint]
  ext <;> simp [Mat4.translate, Mat4.rotateX, Mat4.rotateY, Glide.perspective, Matrix.mulVec,
    dotProduct, Fin.sum_univ_four] <;> simp only [a, b, c, d] <;> ring

/-- **C16.** After every Glide step the three-dimensional distance between the images of two surface
points is the distance between the points. -/
theorem C16_glide_rigid (a : Anim Glide.Params (Option Mat4)) (ms : ℕ)
    (hs : a.params.screenWidth ≠ 0) :
    ∃ M, (Glide.cls.step a ms).1.out = some M ∧
      ∀ q q' : Pt, dist3sq (transformPoint q M) (transformPoint q' M) = dist2sq q q' := by
  obtain ⟨r, _, _, hr, ho⟩ := glide_step a ms hs
  refine ⟨_, ho, fun q q' => ?_⟩
  rw [glide_coords, glide_coords]
  simp only [dist3sq, dist2sq]
  generalize ha : Glide.degreesToRadians a.params.xRotationAngleDegrees * (1 - r) = α
  generalize hb : Glide.degreesToRadians a.params.yRotationAngleDegrees * (1 - r) = β
  have h1 := Real.sin_sq_add_cos_sq α
  have h2 := Real.sin_sq_add_cos_sq β
  have e1 : Real.cos α ^ 2 = 1 - Real.sin α ^ 2 := by linarith
  have e2 : Real.cos β ^ 2 = 1 - Real.sin β ^ 2 := by linarith
  ring_nf
  simp only [e1, e2]
  ring

example : ∃ p : Glide.Params, p.screenWidth ≠ 0 ∧ p.xRotationAngleDegrees ≠ 0 :=
  ⟨⟨0.5, 45, -20, 0, 1, 1920, ⟨⟨0, 0⟩, ⟨100, 50⟩⟩⟩, by norm_num, by norm_num⟩

/-! ## Extremes and setters -/

/-- `out` is finite exactly with an affine matrix. -/
def AffineOut (o : Option Mat4) : Prop := ∀ M, o = some M → Affine M

theorem affine_run {P S : Type} (K : AnimClass P (Option Mat4) S)
    (hK : ∀ p r o, AffineOut (K.render p r o)) (a : Anim P (Option Mat4)) (ha : AffineOut a.out)
    (ops : List (AnimOp S)) : AffineOut (K.run a ops).out := by
  induction ops generalizing a with
  | nil => exact ha
  | cons o ops ih =>
    refine ih (K.exec a o) ?_
    cases o with
    | step ms => exact hK _ _ _
    | set s => exact ha
    | setStepper s => exact ha

/-- `Extremes (corners)` is `Matrix ()` applied to each corner as a point of the plane `z = 0`, and
each result has `w = 1`. -/
def ExtremesAreCorners {P : Type} (a : Anim P (Option Mat4)) : Prop :=
  ∀ (M : Mat4), a.out = some M → ∀ corners : Fin 4 → Pt,
    ∃ e : Fin 4 → Vec4, a.extremes corners = some e ∧ ∀ i : Fin 4,
      (e i).x = M 0 0 * (corners i).x + M 0 1 * (corners i).y + M 0 3 ∧
      (e i).y = M 1 0 * (corners i).x + M 1 1 * (corners i).y + M 1 3 ∧
      (e i).z = M 2 0 * (corners i).x + M 2 1 * (corners i).y + M 2 3 ∧
      (e i).w = 1

theorem extremes_of_affine {P : Type} (a : Anim P (Option Mat4)) (h : AffineOut a.out) :
    ExtremesAreCorners a := by
  intro M hM corners
  refine ⟨_, by simp [Anim.extremes, hM]; rfl, fun i => ⟨?_, ?_, ?_, (h M hM).w _⟩⟩ <;>
    simp [transformPoint, Matrix.mulVec, dotProduct, Fin.sum_univ_four]

theorem bounce_affine (p : Bounce.Params) (r : XR) (o : Option Mat4) :
    AffineOut (Bounce.cls.render p r o) := by
  intro M hM
  cases r <;> simp [Bounce.cls, Bounce.render] at hM
  subst hM
  exact ((affine_translate _ _ _).mul (affine_scale _ _ _)).mul (affine_translate _ _ _)

theorem zoom_affine (p : Zoom.Params) (r : XR) (o : Option Mat4) :
    AffineOut (Zoom.cls.render p r o) := by
  intro M hM
  cases r <;> simp [Zoom.cls, Zoom.render, Zoom.transform] at hM
  rw [← hM.2]
  exact (((affine_translate _ _ _).mul (affine_translate _ _ _)).mul (affine_scale _ _ _)).mul
    (affine_translate _ _ _)

theorem glide_affine (p : Glide.Params) (r : XR) (o : Option Mat4) :
    AffineOut (Glide.cls.render p r o) := by
  intro M hM
  cases r <;> simp [Glide.cls, Glide.render] at hM
  rw [← hM.2]
  have hp : Affine (Glide.perspective p.screenWidth) := by simp [Affine, Glide.perspective]
  exact (((((affine_translate _ _ _).mul (affine_translate _ _ _)).mul (affine_rotateX _)).mul
    (affine_rotateY _)).mul hp).mul (affine_translate _ _ _)

/-- **C14.** At every moment of every history `Extremes (corners)` of a Bounce is its matrix applied
to the corners, with `w = 1`. -/
theorem C14_bounce_extremes (p : Bounce.Params) (s : Stepper) (ops : List (AnimOp Bounce.Setter)) :
    ExtremesAreCorners (Bounce.cls.run (Bounce.new p s).1 ops) :=
  extremes_of_affine _ (affine_run _ bounce_affine _ (bounce_affine _ _ (some 1)) _)

/-- **C14.** The same for Zoom. -/
theorem C14_zoom_extremes (f t : Box) (s : Stepper) (ops : List (AnimOp Zoom.Setter)) :
    ExtremesAreCorners (Zoom.cls.run (Zoom.new f t s).1 ops) :=
  extremes_of_affine _ (affine_run _ zoom_affine _ (zoom_affine _ _ (some 1)) _)

/-- **C14.** The same for Glide, in spite of its "perspective" matrix. -/
theorem C14_glide_extremes (p : Glide.Params) (s : Stepper) (ops : List (AnimOp Glide.Setter)) :
    ExtremesAreCorners (Glide.cls.run (Glide.new p s).1 ops) :=
  extremes_of_affine _ (affine_run _ glide_affine _ (glide_affine _ _ (some 1)) _)

/-- **C14.** There is a finite matrix to speak of after every step of a Bounce (and of a Glide with a
non-zero screen width; for Zoom see C13). -/
theorem C14_finite (p : Bounce.Params) (g : Glide.Params) (hg : g.screenWidth ≠ 0) (s : Stepper)
    (ops : List (AnimOp Bounce.Setter)) (ops' : List (AnimOp Glide.Setter)) (m : ℕ) :
    (Bounce.cls.step (Bounce.cls.run (Bounce.new p s).1 ops) m).1.out ≠ none ∧
    (Glide.cls.step (Glide.cls.run (Glide.new g s).1 ops') m).1.out ≠ none := by
  constructor
  · obtain ⟨r, _, _, _, ho⟩ := bounce_step (Bounce.cls.run (Bounce.new p s).1 ops) m
    rw [ho]; simp
  · have hsw : ∀ (a : Anim Glide.Params (Option Mat4)), a.params.screenWidth ≠ 0 →
        (Glide.cls.run a ops').params.screenWidth ≠ 0 := by
      induction ops' with
      | nil => intro a h; exact h
      | cons o ops' ih =>
        intro a h
        refine ih (Glide.cls.exec a o) ?_
        cases o with
        | step ms => exact h
        | set s => cases s <;> exact h
        | setStepper s => exact h
    obtain ⟨r, _, _, _, ho⟩ := glide_step _ m (hsw (Glide.new g s).1 hg)
    rw [ho]; simp

/-- The setter calls in a history, in order. -/
def settings {S : Type} : List (AnimOp S) → List S
  | [] => []
  | .set s :: ops => s :: settings ops
  | _ :: ops => settings ops

/-- The history without its (parameter) setter calls. -/
def withoutSettings {S : Type} : List (AnimOp S) → List (AnimOp S)
  | [] => []
  | .set _ :: ops => withoutSettings ops
  | o :: ops => o :: withoutSettings ops

/-- **C17.** Property setters, including the stepper setter, leave the matrix (or grid) and the
progress as they are, for all four animations. -/
theorem C17_setters_defer {P O S : Type} (K : AnimClass P O S) (a : Anim P O)
    (ops : List (AnimOp S)) (h : ¬ HasStep ops) :
    (K.run a ops).out = a.out ∧ (K.run a ops).progress = a.progress := by
  induction ops generalizing a with
  | nil => exact ⟨rfl, rfl⟩
  | cons o ops ih =>
    have h' : ¬ HasStep ops := fun ⟨ms, hm⟩ => h ⟨ms, List.mem_cons_of_mem _ hm⟩
    obtain ⟨h1, h2⟩ := ih (K.exec a o) h'
    cases o with
    | step ms => exact absurd ⟨ms, List.mem_cons_self ..⟩ h
    | set s => exact ⟨h1, h2⟩
    | setStepper s => exact ⟨h1, h2⟩

example : ¬ HasStep [AnimOp.set (Bounce.Setter.nBounce 3), .setStepper (linear 10)] := by
  rintro ⟨ms, h⟩; simp at h

theorem run_stepper_params {P O S : Type} (K : AnimClass P O S) (ops : List (AnimOp S))
    (a b : Anim P O) (hs : a.stepper = b.stepper) :
    (K.run a ops).stepper = (K.run b (withoutSettings ops)).stepper ∧
    (K.run a ops).params = (settings ops).foldl K.apply a.params ∧
    (K.run b (withoutSettings ops)).params = b.params := by
  induction ops generalizing a b with
  | nil => exact ⟨hs, rfl, rfl⟩
  | cons o ops ih =>
    cases o with
    | step ms =>
      have := ih (K.step a ms).1 (K.step b ms).1 (by simp [AnimClass.step, hs])
      exact this
    | set s => exact ih (K.set a s) b hs
    | setStepper s => exact ih (AnimClass.setStepper a s) (AnimClass.setStepper b s) rfl

/-- What a user can see of a matrix animation. -/
def visible {P O : Type} (a : Anim P O) : O × XR := (a.out, a.progress)

theorem deferred_core {P O S : Type} (K : AnimClass P O S) (hK : ∀ p r o o', K.render p r o = K.render p r o')
    (p : P) (o : O) (s : Stepper) (ops : List (AnimOp S)) (m : ℕ) :
    visible (K.step (K.run (K.new p o s).1 ops) m).1 =
      visible (K.step (K.run (K.new ((settings ops).foldl K.apply p) o s).1 (withoutSettings ops)) m).1 := by
  obtain ⟨h1, h2, h3⟩ := run_stepper_params K ops (K.new p o s).1
    (K.new ((settings ops).foldl K.apply p) o s).1 rfl
  simp only [visible, AnimClass.step, h1, h2, h3]
  rw [hK]
  rfl

/-- The last of the values the calls write to one property, or the value it had before. -/
def lastSet {S α : Type} (property : S → Option α) (l : List S) (before : α) : α :=
  (l.filterMap property).getLast?.getD before

/-- The value a call writes to the initial scale. -/
def setsInitialScale : Bounce.Setter → Option ℝ
  | .initialScale v => some v
  | _ => none

/-- The value a call writes to the maximum scale. -/
def setsMaximumScale : Bounce.Setter → Option ℝ
  | .maximumScale v => some v
  | _ => none

/-- The value a call writes to the number of bounces. -/
def setsNBounce : Bounce.Setter → Option ℕ
  | .nBounce v => some v
  | _ => none

/-- **C17.** After any history the next Step of a Bounce shows what it would have shown had the
object been constructed with the last values set (and the same stepper calls made). -/
theorem C17_bounce (p : Bounce.Params) (s : Stepper) (ops : List (AnimOp Bounce.Setter)) (m : ℕ) :
    visible (Bounce.cls.step (Bounce.cls.run (Bounce.new p s).1 ops) m).1 =
    visible (Bounce.cls.step (Bounce.cls.run
      (Bounce.new { target := p.target
                    initialScale := lastSet setsInitialScale (settings ops) p.initialScale
                    maximumScale := lastSet setsMaximumScale (settings ops) p.maximumScale
                    nBounce := lastSet setsNBounce (settings ops) p.nBounce } s).1 (withoutSettings ops)) m).1 := by
  have h : ∀ (l : List Bounce.Setter) (p : Bounce.Params), l.foldl Bounce.applySetter p =
      { target := p.target
        initialScale := lastSet setsInitialScale l p.initialScale
        maximumScale := lastSet setsMaximumScale l p.maximumScale
        nBounce := lastSet setsNBounce l p.nBounce } := by
    intro l
    induction l with
    | nil => intro p; rfl
    | cons x l ih =>
      intro p
      cases x <;> rw [List.foldl_cons, ih] <;>
        simp [lastSet, setsInitialScale, setsMaximumScale, setsNBounce, Bounce.applySetter, List.getLast?_cons]
  rw [← h]
  exact deferred_core Bounce.cls (fun _ _ _ _ => rfl) p _ s ops m

example : lastSet setsNBounce (settings [AnimOp.set (Bounce.Setter.nBounce 3), .step 7, .set (.initialScale 2), .set (.nBounce 4)]) 1 = 4 :=
  rfl

/-- The value a call writes to the initial distance. -/
def setsInitialDistance : Glide.Setter → Option ℝ
  | .initialDistance v => some v
  | _ => none

/-- The value a call writes to the angle about the x axis. -/
def setsXAngle : Glide.Setter → Option ℝ
  | .xRotationAngleDegrees v => some v
  | _ => none

/-- The value a call writes to the angle about the y axis. -/
def setsYAngle : Glide.Setter → Option ℝ
  | .yRotationAngleDegrees v => some v
  | _ => none

/-- The value a call writes to the place of the x axis. -/
def setsXLocation : Glide.Setter → Option ℝ
  | .xAxisLocationUnit v => some v
  | _ => none

/-- The value a call writes to the place of the y axis. -/
def setsYLocation : Glide.Setter → Option ℝ
  | .yAxisLocationUnit v => some v
  | _ => none

/-- **C17.** The same for Glide. -/
theorem C17_glide (p : Glide.Params) (s : Stepper) (ops : List (AnimOp Glide.Setter)) (m : ℕ) :
    visible (Glide.cls.step (Glide.cls.run (Glide.new p s).1 ops) m).1 =
    visible (Glide.cls.step (Glide.cls.run
      (Glide.new { target := p.target
                   screenWidth := p.screenWidth
                   initialDistance := lastSet setsInitialDistance (settings ops) p.initialDistance
                   xRotationAngleDegrees := lastSet setsXAngle (settings ops) p.xRotationAngleDegrees
                   yRotationAngleDegrees := lastSet setsYAngle (settings ops) p.yRotationAngleDegrees
                   xAxisLocationUnit := lastSet setsXLocation (settings ops) p.xAxisLocationUnit
                   yAxisLocationUnit := lastSet setsYLocation (settings ops) p.yAxisLocationUnit } s).1
      (withoutSettings ops)) m).1 := by
  have h : ∀ (l : List Glide.Setter) (p : Glide.Params), l.foldl Glide.applySetter p =
      { target := p.target
        screenWidth := p.screenWidth
        initialDistance := lastSet setsInitialDistance l p.initialDistance
        xRotationAngleDegrees := lastSet setsXAngle l p.xRotationAngleDegrees
        yRotationAngleDegrees := lastSet setsYAngle l p.yRotationAngleDegrees
        xAxisLocationUnit := lastSet setsXLocation l p.xAxisLocationUnit
        yAxisLocationUnit := lastSet setsYLocation l p.yAxisLocationUnit } := by
    intro l
    induction l with
    | nil => intro p; rfl
    | cons x l ih =>
      intro p
      cases x <;> rw [List.foldl_cons, ih] <;>
        simp [lastSet, setsInitialDistance, setsXAngle, setsYAngle, setsXLocation, setsYLocation, Glide.applySetter,
          List.getLast?_cons]
  rw [← h]
  exact deferred_core Glide.cls (fun _ _ _ _ => rfl) p _ s ops m

example : lastSet setsYAngle (settings [AnimOp.set (Glide.Setter.yRotationAngleDegrees 3), .step 7, .set (.xRotationAngleDegrees 2)]) 1 = 3 :=
  rfl

/-- **C17.** The same for Zoom, as long as the last `From` box set has area (the constructor would
have widened an empty one, the setter does not). -/
theorem C17_zoom (f t f' : Box) (hf : HasArea f') (s : Stepper) (ops : List (AnimOp Zoom.Setter))
    (hlast : (settings ops).getLast? = some (.frm f')) (m : ℕ) :
    visible (Zoom.cls.step (Zoom.cls.run (Zoom.new f t s).1 ops) m).1 =
    visible (Zoom.cls.step (Zoom.cls.run (Zoom.new f' t s).1 (withoutSettings ops)) m).1 := by
  have hp : (settings ops).foldl Zoom.applySetter ⟨Zoom.ensureNonZeroArea f, Zoom.ensureNonZeroArea t⟩
      = ⟨Zoom.ensureNonZeroArea f', Zoom.ensureNonZeroArea t⟩ := by
    have ef : Zoom.ensureNonZeroArea f' = f' := by simp [Zoom.ensureNonZeroArea, hf.1, hf.2]
    rw [ef]
    obtain ⟨l, hl⟩ := List.getLast?_eq_some_iff.1 hlast
    rw [hl, List.foldl_append]
    have : ∀ (l : List Zoom.Setter) (q : Zoom.Params), (l.foldl Zoom.applySetter q).dst = q.dst := by
      intro l
      induction l with
      | nil => intro q; rfl
      | cons x xs ih => intro q; cases x; exact ih _
    simp [Zoom.applySetter, this]
  have := deferred_core Zoom.cls (fun _ _ _ _ => rfl)
    ⟨Zoom.ensureNonZeroArea f, Zoom.ensureNonZeroArea t⟩ (some 1) s ops m
  rw [show Zoom.cls.apply = Zoom.applySetter from rfl, hp] at this
  exact this

example : (settings [AnimOp.step 5, .set (Zoom.Setter.frm ⟨⟨0, 0⟩, ⟨2, 3⟩⟩), .step 7]).getLast? =
    some (.frm ⟨⟨0, 0⟩, ⟨2, 3⟩⟩) := rfl

end

end Verif.Props
