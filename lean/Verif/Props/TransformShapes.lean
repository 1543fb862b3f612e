import Verif.Props.Transforms

/-! # Shapes of Glide and Bounce (C78, C79) -/

namespace Verif.Props

open XR (fin)
open Spec

noncomputable section

/-! ## Glide -/

/-- A rotation of space about the `x` axis by the angle `a`. -/
def turnX (a : ℝ) (v : ℝ × ℝ × ℝ) : ℝ × ℝ × ℝ :=
  (v.1, v.2.1 * Real.cos a - v.2.2 * Real.sin a, v.2.1 * Real.sin a + v.2.2 * Real.cos a)

/-- A rotation of space about the `y` axis by the angle `b`. -/
def turnY (b : ℝ) (v : ℝ × ℝ × ℝ) : ℝ × ℝ × ℝ :=
  (v.2.2 * Real.sin b + v.1 * Real.cos b, v.2.1, v.2.2 * Real.cos b - v.1 * Real.sin b)

/-- The point at unit position `(u, v)` of the surface shown in a box, relative to its top left. -/
def unitPosition (b : Box) (u v : ℝ) : Pt :=
  ⟨u * (b.br.x - b.tl.x), v * (b.br.y - b.tl.y)⟩

/-- The part of an angle in degrees that remains at progress `r`, in radians. -/
def remaining (degrees r : ℝ) : ℝ := (1 - r) * degrees * Real.pi / 180

/-- **C78.** After every Glide step the surface is turned about its axis point: the vector from the image
of the axis point to the image of any other point is the vector between the points, turned about `y` by
what remains of the y angle and then about `x` by what remains of the x angle. -/
theorem C78_glide_turns (a : Anim Glide.Params (Option Mat4)) (ms : ℕ)
    (hs : a.params.screenWidth ≠ 0) :
    ∃ (r : ℝ) (M : Mat4), (Glide.cls.step a ms).1.progress = fin r ∧
      (Glide.cls.step a ms).1.out = some M ∧
      let c := unitPosition a.params.target a.params.xAxisLocationUnit a.params.yAxisLocationUnit
      ∀ q : Pt, ((transformPoint q M).x - (transformPoint c M).x,
          (transformPoint q M).y - (transformPoint c M).y,
          (transformPoint q M).z - (transformPoint c M).z) =
        turnX (remaining a.params.xRotationAngleDegrees r)
          (turnY (remaining a.params.yRotationAngleDegrees r) (q.x - c.x, q.y - c.y, 0)) := by
  obtain ⟨r, _, _, hr, ho⟩ := glide_step a ms hs
  refine ⟨r, _, hr, ho, fun q => ?_⟩
  rw [glide_coords, glide_coords]
  have e1 : ∀ d, Glide.degreesToRadians d * (1 - r) = remaining d r := by
    intro d; simp only [Glide.degreesToRadians, remaining]; ring
  simp only [e1, rotationAxisOffset, unitPosition, turnX, turnY]
  refine Prod.ext ?_ (Prod.ext ?_ ?_) <;> simp only <;> ring

/-- **C78.** The axis point itself stays where it is on the screen and comes forward from
`-initialDistance` to 0, up to a distance of `1 / screenWidth`. -/
theorem C78_glide_axis (a : Anim Glide.Params (Option Mat4)) (ms : ℕ)
    (hs : a.params.screenWidth ≠ 0) :
    ∃ (r : ℝ) (M : Mat4), (Glide.cls.step a ms).1.progress = fin r ∧
      (Glide.cls.step a ms).1.out = some M ∧
      let c := unitPosition a.params.target a.params.xAxisLocationUnit a.params.yAxisLocationUnit
      dist3sq (transformPoint c M) ⟨c.x, c.y, lerp r (-a.params.initialDistance) 0, 1⟩ =
        (1 / a.params.screenWidth) ^ 2 := by
  obtain ⟨r, _, _, hr, ho⟩ := glide_step a ms hs
  refine ⟨r, _, hr, ho, ?_⟩
  intro c
  rw [glide_coords]
  simp only [c, dist3sq, rotationAxisOffset, unitPosition, lerp]
  generalize Glide.degreesToRadians a.params.xRotationAngleDegrees * (1 - r) = α
  generalize Glide.degreesToRadians a.params.yRotationAngleDegrees * (1 - r) = β
  have e1 : Real.cos α ^ 2 = 1 - Real.sin α ^ 2 := by linarith [Real.sin_sq_add_cos_sq α]
  have e2 : Real.cos β ^ 2 = 1 - Real.sin β ^ 2 := by linarith [Real.sin_sq_add_cos_sq β]
  ring_nf
  simp only [e1, e2]
  ring

example : ∃ p : Glide.Params, p.screenWidth ≠ 0 ∧ p.xRotationAngleDegrees ≠ 0 ∧
    unitPosition p.target p.xAxisLocationUnit p.yAxisLocationUnit = ⟨50, 50⟩ :=
  ⟨⟨0.5, 45, -20, 0.5, 1, 1920, ⟨⟨0, 0⟩, ⟨100, 50⟩⟩⟩, by norm_num, by norm_num, by
    simp only [unitPosition, Pt.mk.injEq]; norm_num⟩

/-! ## Bounce -/

/-- The surface is scaled by `s` after the step, at progress `r`. -/
def ScaledAt (a : Anim Bounce.Params (Option Mat4)) (ms : ℕ) (r s : ℝ) : Prop :=
  (Bounce.cls.step a ms).1.progress = fin r ∧
  ∃ M, (Bounce.cls.step a ms).1.out = some M ∧ ScalesAbout M (middle a.params.target) s

theorem bounce_scaled (a : Anim Bounce.Params (Option Mat4)) (ms : ℕ) :
    ∃ r s : ℝ, 0 ≤ r ∧ r ≤ 1 ∧ ScaledAt a ms r s ∧
      s - lerp r a.params.initialScale 1 = (a.params.maximumScale - a.params.initialScale) * (1 - r) *
        Real.sin (r * a.params.nBounce * Real.pi) := by
  obtain ⟨r, h0, h1, hr, ho⟩ := bounce_step a ms
  refine ⟨r, _, h0, h1, ⟨hr, _, ho, bounce_scales _ _ _ _ _⟩, ?_⟩
  simp only [Bounce.scaleFactor, Bounce.sampleSineWave, lerp]
  rw [show r * (a.params.nBounce : ℝ) * Real.pi = r * Real.pi * a.params.nBounce by ring]
  ring

theorem sin_pieces (k : ℕ) (x : ℝ) : Real.sin (x * Real.pi) =
    (-1) ^ k * Real.sin ((x - k) * Real.pi) := by
  have h := Real.sin_add_nat_mul_pi ((x - k) * Real.pi) k
  rw [← h]
  congr 1
  ring

/-- **C79.** The surface bounces as often as asked: divide the animation into `nBounce` equal parts,
counted from 0. At the ends of every part the scale is on the straight line from the initial scale to 1;
inside the even parts it is above the line, inside the odd parts below it, and in the middle of a part
it is off the line by the full `(maximum - initial) * (1 - p)`. -/
theorem C79_bounce_count (a : Anim Bounce.Params (Option Mat4)) (ms : ℕ)
    (hm : a.params.initialScale < a.params.maximumScale) :
    ∃ r s : ℝ, ScaledAt a ms r s ∧ ∀ k < a.params.nBounce,
      ((r = k / a.params.nBounce ∨ r = (k + 1) / a.params.nBounce) →
        s = lerp r a.params.initialScale 1) ∧
      (k / a.params.nBounce < r → r < (k + 1) / a.params.nBounce →
        (Even k → lerp r a.params.initialScale 1 < s) ∧ (Odd k → s < lerp r a.params.initialScale 1)) ∧
      (r = (k + 1 / 2) / a.params.nBounce →
        s = lerp r a.params.initialScale 1 +
          (-1) ^ k * ((a.params.maximumScale - a.params.initialScale) * (1 - r))) := by
  obtain ⟨r, s, h0, h1, hrs, e⟩ := bounce_scaled a ms
  refine ⟨r, s, hrs, fun k hk => ?_⟩
  have hn : (0 : ℝ) < a.params.nBounce := by
    have : 0 < a.params.nBounce := by omega
    exact_mod_cast this
  have hk1 : (k : ℝ) + 1 ≤ a.params.nBounce := by exact_mod_cast hk
  rw [sin_pieces k] at e
  refine ⟨fun h => ?_, fun hlo hhi => ?_, fun h => ?_⟩
  · have : Real.sin ((r * a.params.nBounce - k) * Real.pi) = 0 := by
      rcases h with h | h
      · rw [h, div_mul_cancel₀ _ hn.ne']; simp
      · rw [h, div_mul_cancel₀ _ hn.ne']
        have : ((k : ℝ) + 1 - k) * Real.pi = Real.pi := by ring
        rw [this, Real.sin_pi]
    rw [this] at e
    linarith
  · rw [div_lt_iff₀ hn] at hlo
    have hr1 : r < 1 := lt_of_lt_of_le hhi (by rw [div_le_one hn]; exact hk1)
    rw [lt_div_iff₀ hn] at hhi
    have hsin : 0 < Real.sin ((r * a.params.nBounce - k) * Real.pi) := by
      apply Real.sin_pos_of_pos_of_lt_pi
      · exact mul_pos (by linarith) Real.pi_pos
      · have := Real.pi_pos; nlinarith
    have hpos : 0 < (a.params.maximumScale - a.params.initialScale) * (1 - r) *
        Real.sin ((r * a.params.nBounce - k) * Real.pi) :=
      mul_pos (mul_pos (by linarith) (by linarith)) hsin
    refine ⟨fun hev => ?_, fun hod => ?_⟩
    · rw [hev.neg_one_pow] at e; linarith
    · rw [hod.neg_one_pow] at e; linarith
  · have : Real.sin ((r * a.params.nBounce - k) * Real.pi) = 1 := by
      rw [h, div_mul_cancel₀ _ hn.ne']
      have : ((k : ℝ) + 1 / 2 - k) * Real.pi = Real.pi / 2 := by ring
      rw [this, Real.sin_pi_div_two]
    rw [this] at e
    linarith

example : ∃ p : Bounce.Params, BounceInRange p ∧ p.initialScale < p.maximumScale ∧ 1 < p.nBounce :=
  ⟨⟨0.9, 1.2, 4, ⟨⟨0, 0⟩, ⟨100, 50⟩⟩⟩, ⟨by norm_num, by norm_num, by norm_num, by norm_num,
    by norm_num, by norm_num⟩, by norm_num, by norm_num⟩

end

end Verif.Props
