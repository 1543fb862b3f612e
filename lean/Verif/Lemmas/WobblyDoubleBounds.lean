import Verif.Lemmas.WobblyDouble

/-! # Error bounds for a resting mesh in double precision, one coordinate at a time -/

namespace Verif.Wobbly.Rounded

noncomputable section

variable (R : Rounding64)

/-- The rounding error of the numbers that occur. -/
theorem err {x : ℝ} (h1 : -131072 ≤ x) (h2 : x ≤ 131072) :
    R.rnd x - x ≤ 1 / 137438953472 ∧ -(1 / 137438953472) ≤ R.rnd x - x := by
  have := R.error (x := x) (k := 17) (by norm_num) (abs_le.2 ⟨by norm_num; linarith, by norm_num; linarith⟩)
  rw [abs_le] at this
  norm_num at this
  constructor <;> norm_num <;> linarith

/-- One coordinate `u` of a mesh is close to a lattice of extent `W` at `o`; `v` counts the calls made. -/
structure Coord (W o v : ℝ) (g u : Idx → ℝ) : Prop where
  near : ∀ i, |u i - u 0 - g i * (W / 3)| ≤ W * v / 17179869184
  origin : |u 0 - o| ≤ v / 137438953472

/-- The range of sizes and of the number of calls. -/
structure Sane (W v : ℝ) : Prop where
  one : 1 ≤ W
  big : W ≤ 32768
  first : 1 ≤ v
  calls : v ≤ 65536

/-- Coordinates of the lattice. -/
structure Grid (g : Idx → ℝ) : Prop where
  zero : g 0 = 0
  nonneg : ∀ i, 0 ≤ g i
  le : ∀ i, g i ≤ 3

theorem Sane.prod {W v : ℝ} (h : Sane W v) : W ≤ W * v ∧ v ≤ W * v ∧ W * v ≤ 2147483648 := by
  obtain ⟨h1, h2, h3, h4⟩ := h
  refine ⟨by nlinarith, by nlinarith, ?_⟩
  calc W * v ≤ 32768 * 65536 := mul_le_mul h2 h4 (by linarith) (by norm_num)
    _ = _ := by norm_num

theorem Grid.cell {g : Idx → ℝ} (hg : Grid g) {W : ℝ} (hW : 1 ≤ W) (i : Idx) : 0 ≤ g i * (W / 3) ∧ g i * (W / 3) ≤ W := by
  have h1 := hg.nonneg i
  have h2 := hg.le i
  constructor
  · exact mul_nonneg h1 (by linarith)
  · nlinarith

theorem coord_new {W p : ℝ} {g : Idx → ℝ} (hg : Grid g) (hs : Sane W 1) (hp : |p| ≤ 32768) :
    Coord W p 1 g fun i => R.rnd (p + R.rnd (g i * R.rnd (W / 3))) := by
  obtain ⟨h1, h2, -, -⟩ := hs
  rw [abs_le] at hp
  obtain ⟨t1, t2⟩ := err R (x := W / 3) (by linarith) (by linarith)
  have key : ∀ i, |R.rnd (p + R.rnd (g i * R.rnd (W / 3))) - (p + g i * (W / 3))| ≤ 5 / 137438953472 := by
    intro i
    obtain ⟨c1, c2⟩ := hg.cell h1 i
    have g1 := hg.nonneg i
    have g2 := hg.le i
    have m1 : g i * R.rnd (W / 3) - g i * (W / 3) ≤ 3 / 137438953472 := by
      rw [← mul_sub]
      calc _ ≤ g i * (1 / 137438953472) := mul_le_mul_of_nonneg_left t1 g1
        _ ≤ _ := by linarith
    have m2 : -(3 / 137438953472) ≤ g i * R.rnd (W / 3) - g i * (W / 3) := by
      rw [← mul_sub]
      calc _ ≤ g i * (-(1 / 137438953472)) := by linarith
        _ ≤ _ := mul_le_mul_of_nonneg_left t2 g1
    obtain ⟨a1, a2⟩ := err R (x := g i * R.rnd (W / 3)) (by linarith) (by linarith)
    obtain ⟨b1, b2⟩ := err R (x := p + R.rnd (g i * R.rnd (W / 3))) (by linarith) (by linarith)
    rw [abs_le]
    constructor <;> linarith
  have e0 : R.rnd (p + R.rnd (g 0 * R.rnd (W / 3))) = R.rnd p := by rw [hg.zero, zero_mul, rnd_zero, add_zero]
  obtain ⟨p1, p2⟩ := err R (x := p) (by linarith) (by linarith)
  refine ⟨fun i => ?_, ?_⟩
  · have := abs_le.1 (key i)
    simp only [e0]
    rw [abs_le]
    constructor <;> linarith
  · simp only [e0]
    rw [abs_le]
    constructor <;> linarith

variable {R}

/-- Bounds for all points. -/
theorem Coord.bounds {W o v : ℝ} {g u : Idx → ℝ} (h : Coord W o v g u) (hg : Grid g) (hs : Sane W v) (i : Idx) :
    u i - u 0 - g i * (W / 3) ≤ W * v / 17179869184 ∧ -(W * v / 17179869184) ≤ u i - u 0 - g i * (W / 3) ∧
      u 0 - o ≤ v / 137438953472 ∧ -(v / 137438953472) ≤ u 0 - o ∧ 0 ≤ g i * (W / 3) ∧ g i * (W / 3) ≤ W ∧
      W ≤ W * v ∧ v ≤ W * v ∧ W * v ≤ 2147483648 ∧ 1 ≤ W ∧ W ≤ 32768 ∧ 1 ≤ v ∧ v ≤ 65536 := by
  have a := abs_le.1 (h.near i)
  have b := abs_le.1 h.origin
  have c := hg.cell hs.one i
  have d := hs.prod
  exact ⟨a.2, a.1, b.2, b.1, c.1, c.2, d.1, d.2.1, d.2.2, hs.one, hs.big, hs.first, hs.calls⟩

variable (R)

theorem coord_move {W o v d : ℝ} {g u : Idx → ℝ} (h : Coord W o v g u) (hg : Grid g) (hs : Sane W v)
    (hd : |o + d| ≤ 32768) : Coord W (o + d) (v + 1) g fun i => R.rnd (u i + d) := by
  rw [abs_le] at hd
  have key : ∀ i, R.rnd (u i + d) - (u i + d) ≤ 1 / 137438953472 ∧ -(1 / 137438953472) ≤ R.rnd (u i + d) - (u i + d) := by
    intro i
    have := h.bounds hg hs i
    exact err R (by linarith) (by linarith)
  have b0 := h.bounds hg hs 0
  refine ⟨fun i => ?_, ?_⟩
  · have := h.bounds hg hs i
    have := key i
    have := key 0
    rw [abs_le, mul_add]
    constructor <;> linarith
  · have := key 0
    rw [abs_le]
    constructor <;> linarith

theorem coord_moveTo {W o v p : ℝ} {g u : Idx → ℝ} (h : Coord W o v g u) (hg : Grid g) (hs : Sane W v)
    (ho : |o| ≤ 32768) (hp : |p| ≤ 32768) : Coord W p (v + 1) g fun i => R.rnd (u i + R.rnd (p - u 0)) := by
  rw [abs_le] at hp ho
  have b0 := h.bounds hg hs 0
  obtain ⟨d1, d2⟩ := err R (x := p - u 0) (by linarith) (by linarith)
  have key : ∀ i, R.rnd (u i + R.rnd (p - u 0)) - (u i + R.rnd (p - u 0)) ≤ 1 / 137438953472 ∧
      -(1 / 137438953472) ≤ R.rnd (u i + R.rnd (p - u 0)) - (u i + R.rnd (p - u 0)) := by
    intro i
    have := h.bounds hg hs i
    exact err R (by linarith) (by linarith)
  refine ⟨fun i => ?_, ?_⟩
  · have := h.bounds hg hs i
    have := key i
    have := key 0
    rw [abs_le, mul_add]
    constructor <;> linarith
  · have := key 0
    rw [abs_le]
    constructor <;> linarith

/-- Scaling a length `D` near `c W` by the rounded factor. -/
theorem scale_near {W w v c D : ℝ} (hW : Sane W v) (hw : Sane w v) (hc : |c| ≤ 1)
    (hD : |D - c * W| ≤ W * v / 17179869184 + 1 / 137438953472) :
    |D * R.rnd (w / W) - c * w| ≤ w * (v / 17179869184 + 2 / 137438953472) := by
  have W0 : 0 < W := by linarith [hW.one]
  have w0 : 0 < w := by linarith [hw.one]
  have q0 : 0 < w / W := by positivity
  have tiny : (2 : ℝ) ^ (-1021 : ℤ) ≤ w / W := by
    have : (2 : ℝ) ^ (-1021 : ℤ) ≤ 2 ^ (-15 : ℤ) := zpow_le_zpow_right₀ (by norm_num) (by norm_num)
    refine this.trans ?_
    rw [le_div_iff₀ W0]
    have := hW.big
    have := hw.one
    norm_num
    linarith
  have hf := R.relative tiny
  have f1 : |R.rnd (w / W)| ≤ w / W * (1 + 2 ^ (-53 : ℤ)) := by
    have := abs_le.1 hf
    rw [abs_of_nonneg (R.nonneg q0.le)]
    linarith
  have e1 : D * R.rnd (w / W) - c * w = (D - c * W) * R.rnd (w / W) + c * W * (R.rnd (w / W) - w / W) := by
    field_simp
    ring
  have b1 : |(D - c * W) * R.rnd (w / W)| ≤ (W * v / 17179869184 + 1 / 137438953472) * (w / W * (1 + 2 ^ (-53 : ℤ))) := by
    rw [abs_mul]
    exact mul_le_mul hD f1 (abs_nonneg _) ((abs_nonneg _).trans hD)
  have b2 : |c * W * (R.rnd (w / W) - w / W)| ≤ W * (w / W * 2 ^ (-53 : ℤ)) := by
    rw [abs_mul, abs_mul, abs_of_pos W0]
    refine mul_le_mul ?_ hf (abs_nonneg _) W0.le
    nlinarith
  have e2 : W * (w / W * 2 ^ (-53 : ℤ)) = w * 2 ^ (-53 : ℤ) := by field_simp
  have e3 : (W * v / 17179869184 + 1 / 137438953472) * (w / W * (1 + 2 ^ (-53 : ℤ))) =
      w * ((v / 17179869184 + 1 / 137438953472 / W) * (1 + 2 ^ (-53 : ℤ))) := by field_simp
  have e4 : (1 : ℝ) / 137438953472 / W ≤ 1 / 137438953472 := div_le_self (by norm_num) hW.one
  rw [e1]
  refine (abs_add_le _ _).trans ((add_le_add b1 b2).trans ?_)
  rw [e2, e3, ← mul_add]
  refine mul_le_mul_of_nonneg_left ?_ w0.le
  have h1 := hW.calls
  have h2 := hW.first
  norm_num
  norm_num at e4
  linarith

theorem coord_resize {W w o v : ℝ} {g u : Idx → ℝ} (h : Coord W o v g u) (hg : Grid g) (hs : Sane W v) (hs' : Sane w v)
    (ho : |o| ≤ 32768) (hd : Double (u 0)) :
    Coord w o (v + 1) g fun i => R.rnd (R.rnd (R.rnd (u i - u 0) * R.rnd (w / W)) + u 0) := by
  rw [abs_le] at ho
  have e0 : R.rnd (R.rnd (R.rnd (u 0 - u 0) * R.rnd (w / W)) + u 0) = u 0 := by
    rw [sub_self, rnd_zero, zero_mul, rnd_zero, zero_add, R.exact hd]
  refine ⟨fun i => ?_, ?_⟩
  · simp only [e0]
    have b := h.bounds hg hs i
    have c := hg.cell hs'.one i
    have q := hs'.prod
    have w1 := hs'.one
    have w2 := hs'.big
    obtain ⟨d1, d2⟩ := err R (x := u i - u 0) (by linarith) (by linarith)
    have eW : g i / 3 * W = g i * (W / 3) := by ring
    have ew : g i / 3 * w = g i * (w / 3) := by ring
    have key := scale_near R (c := g i / 3) (D := R.rnd (u i - u 0)) hs hs'
      (by rw [abs_of_nonneg (by linarith [hg.nonneg i])]; linarith [hg.le i])
      (by rw [eW, abs_le]; constructor <;> linarith)
    rw [ew, abs_le, mul_add] at key
    have e5 : w * (v / 17179869184) = w * v / 17179869184 := by ring
    rw [e5] at key
    obtain ⟨a1, a2⟩ := err R (x := R.rnd (u i - u 0) * R.rnd (w / W)) (by linarith) (by linarith)
    obtain ⟨z1, z2⟩ := err R (x := R.rnd (R.rnd (u i - u 0) * R.rnd (w / W)) + u 0) (by linarith) (by linarith)
    rw [abs_le, mul_add]
    constructor <;> linarith
  · simp only [e0]
    refine h.origin.trans ?_
    linarith

/-- A spring length is close to what the extent asks for. -/
def Len (W v c d : ℝ) : Prop := |d - c * W| ≤ W * v / 17179869184

theorem len_mono {W v c d : ℝ} (h : Len W v c d) (hW : 1 ≤ W) : Len W (v + 1) c d := by
  refine h.trans ?_
  rw [mul_add]
  linarith

theorem len_tile {W v : ℝ} (hs : Sane W v) : Len W v (1 / 3) (R.rnd (W / 3)) := by
  obtain ⟨h1, h2, h3, h4⟩ := hs
  obtain ⟨p1, p2, p3⟩ := Sane.prod ⟨h1, h2, h3, h4⟩
  obtain ⟨t1, t2⟩ := err R (x := W / 3) (by linarith) (by linarith)
  unfold Len
  rw [abs_le]
  constructor <;> linarith

theorem len_zero {W v : ℝ} (hs : Sane W v) : Len W v 0 0 := by
  have := hs.prod
  have := hs.one
  unfold Len
  simp only [zero_mul, sub_self, abs_zero]
  linarith

theorem len_resize {W w v c d : ℝ} (h : Len W v c d) (hc : |c| ≤ 1) (hs : Sane W v) (hs' : Sane w v) :
    Len w (v + 1) c (R.rnd (d * R.rnd (w / W))) := by
  have key := scale_near R hs hs' hc (D := d) (h.trans (by linarith))
  have q := hs'.prod
  have w1 := hs'.one
  have w2 := hs'.big
  have e5 : w * (v / 17179869184) = w * v / 17179869184 := by ring
  rw [abs_le, mul_add, e5] at key
  obtain ⟨c1, c2⟩ := abs_le.1 hc
  have c3 : c * w ≤ w := by nlinarith
  have c4 : -w ≤ c * w := by nlinarith
  obtain ⟨a1, a2⟩ := err R (x := d * R.rnd (w / W)) (by linarith) (by linarith)
  unfold Len
  rw [abs_le, mul_add]
  constructor <;> linarith

/-- A spring along the lattice does not pull. -/
theorem dead {W o v c d : ℝ} {g u : Idx → ℝ} (h : Coord W o v g u) (hg : Grid g) (hs : Sane W v) {i j : Idx}
    (hc : c = (g j - g i) / 3) (hl : Len W v c d) :
    clip (1 / 2) (R.rnd (1 / 2 * R.rnd (R.rnd (u j - u i) + R.rnd (d * -1)))) = 0 ∧
    clip (1 / 2) (R.rnd (1 / 2 * R.rnd (R.rnd (u i - u j) + d))) = 0 := by
  have bi := h.bounds hg hs i
  have bj := h.bounds hg hs j
  have hl' := abs_le.1 hl
  have ec : c * W = g j * (W / 3) - g i * (W / 3) := by rw [hc]; ring
  rw [ec] at hl'
  obtain ⟨a1, a2⟩ := err R (x := u j - u i) (by linarith) (by linarith)
  obtain ⟨a3, a4⟩ := err R (x := u i - u j) (by linarith) (by linarith)
  obtain ⟨a5, a6⟩ := err R (x := d * -1) (by linarith) (by linarith)
  obtain ⟨b1, b2⟩ := err R (x := R.rnd (u j - u i) + R.rnd (d * -1)) (by linarith) (by linarith)
  obtain ⟨b3, b4⟩ := err R (x := R.rnd (u i - u j) + d) (by linarith) (by linarith)
  obtain ⟨c1, c2⟩ := err R (x := 1 / 2 * R.rnd (R.rnd (u j - u i) + R.rnd (d * -1))) (by linarith) (by linarith)
  obtain ⟨c3, c4⟩ := err R (x := 1 / 2 * R.rnd (R.rnd (u i - u j) + d)) (by linarith) (by linarith)
  unfold clip
  constructor
  · rw [if_pos]
    rw [abs_lt]
    constructor <;> linarith
  · rw [if_pos]
    rw [abs_lt]
    constructor <;> linarith

end

end Verif.Wobbly.Rounded
