import Verif.Spec.SlowDouble
import Verif.Lemmas.WobblySlow
import Verif.Lemmas.WobblyTwice
import Verif.Lemmas.WobblyPaced

/-! Slow meshes in double precision: only friction acts, and the movement ends. -/

namespace Verif.Wobbly.Rounded

noncomputable section

open Classical Outcome Spec

/-! ## One coordinate -/

theorem farthest_nonneg {f : ℝ} (h0 : 0 < f) (h1 : f ≤ 15) (v : ℝ) : 0 ≤ farthest f v := by
  unfold farthest
  have : 0 ≤ 15 - f + 1 / 64 := by linarith
  positivity

theorem farthest_zero (f : ℝ) : farthest f 0 = 0 := by
  unfold farthest
  simp

variable (R : Rounding64)

theorem err15 {x : ℝ} (h : |x| ≤ 32768) : |R.rnd x - x| ≤ 1 / 2 ^ 39 := by
  have := R.error (x := x) (k := 15) (by norm_num) (by norm_num; linarith)
  norm_num at this ⊢
  exact this

theorem err16 {x : ℝ} (h : |x| ≤ 65536) : |R.rnd x - x| ≤ 1 / 2 ^ 38 := by
  have := R.error (x := x) (k := 16) (by norm_num) (by norm_num; linarith)
  norm_num at this ⊢
  exact this

theorem err17 {x : ℝ} (h : |x| ≤ 65540) : |R.rnd x - x| ≤ 1 / 2 ^ 37 := by
  have := R.error (x := x) (k := 17) (by norm_num) (by norm_num; linarith)
  norm_num at this ⊢
  exact this

theorem farthest_le {f v c : ℝ} (h0 : 0 < f) (h : farthest f v ≤ c) : (15 - f + 1 / 64) * |v| ≤ 2 * f * c := by
  unfold farthest at h
  rw [div_mul_eq_mul_div, div_le_iff₀ (by positivity)] at h
  linarith

theorem farthest_vel {f v : ℝ} (h0 : 0 < f) (h1 : f ≤ 15) (h : farthest f v ≤ 1) : |v| ≤ 1920 := by
  have := farthest_le h0 h
  nlinarith [abs_nonneg v]

/-- One tick of friction. -/
theorem tick_raw {f v : ℝ} (h0 : 0 < f) (h1 : f ≤ 15) (h : |v| ≤ 1920) :
    |R.rnd (v + R.rnd (R.rnd (R.rnd (0 - R.rnd (R.rnd (0 + v) * f)) * R.rnd (1 / mass)) * 1)) - (1 - f / 15) * v| ≤
      1 / 2 ^ 36 := by
  have hv := abs_le.1 h
  have e1 := abs_le.1 (err15 R (x := 0 + v) (by rw [zero_add]; linarith))
  set a := R.rnd (0 + v)
  have ha : |a * f - v * f| ≤ 15 / 2 ^ 39 := by
    rw [← sub_mul, abs_mul, abs_of_pos h0]
    have : |a - v| ≤ 1 / 2 ^ 39 := abs_le.2 ⟨by linarith [e1.1], by linarith [e1.2]⟩
    calc |a - v| * f ≤ 1 / 2 ^ 39 * 15 := mul_le_mul this h1 h0.le (by positivity)
      _ = _ := by ring
  have hvf : |v * f| ≤ 28800 := by
    rw [abs_mul, abs_of_pos h0]
    calc |v| * f ≤ 1920 * 15 := mul_le_mul h h1 h0.le (by norm_num)
      _ = _ := by norm_num
  have hvf' := abs_le.1 hvf
  have ha' := abs_le.1 ha
  have e2 := abs_le.1 (err15 R (x := a * f) (abs_le.2 ⟨by norm_num at *; linarith, by norm_num at *; linarith⟩))
  set c := R.rnd (a * f)
  have e3 := abs_le.1 (err15 R (x := 0 - c) (abs_le.2 ⟨by norm_num at *; linarith, by norm_num at *; linarith⟩))
  set d := R.rnd (0 - c)
  have hd : |d| ≤ 28801 := abs_le.2 ⟨by norm_num at *; linarith, by norm_num at *; linarith⟩
  have em : |R.rnd (1 / mass) - 1 / 15| ≤ 1 / 2 ^ 54 := by
    have := R.error (x := 1 / mass) (k := 0) (by norm_num) (by unfold mass; norm_num [abs_of_pos])
    unfold mass at this ⊢
    norm_num at this ⊢
    exact this
  set m := R.rnd (1 / mass)
  have hdm : |d * (m - 1 / 15)| ≤ 28801 / 2 ^ 54 := by
    rw [abs_mul]
    calc |d| * |m - 1 / 15| ≤ 28801 * (1 / 2 ^ 54) := mul_le_mul hd em (abs_nonneg _) (by norm_num)
      _ = _ := by ring
  have hdm' := abs_le.1 hdm
  have hd' := abs_le.1 hd
  have edm : d * m = d * (m - 1 / 15) + d / 15 := by ring
  have e4 := abs_le.1 (err15 R (x := d * m) (by
    rw [edm]
    exact abs_le.2 ⟨by norm_num at *; linarith, by norm_num at *; linarith⟩))
  rw [edm] at e4
  rw [mul_one, edm]
  set g := R.rnd (d * (m - 1 / 15) + d / 15)
  have e5 := abs_le.1 (err15 R (x := g) (abs_le.2 ⟨by norm_num at *; linarith, by norm_num at *; linarith⟩))
  set k := R.rnd g
  have e6 := abs_le.1 (err15 R (x := v + k) (abs_le.2 ⟨by norm_num at *; linarith, by norm_num at *; linarith⟩))
  rw [show (1 - f / 15) * v = v - v * f / 15 by ring]
  exact abs_le.2 ⟨by norm_num at *; linarith, by norm_num at *; linarith⟩

theorem tenth : 1 / 10 - 1 / 2 ^ 57 ≤ R.rnd (1 / 10) := by
  have := R.error (x := 1 / 10) (k := -3) (by norm_num) (by norm_num [abs_of_pos])
  have := (abs_le.1 this).1
  norm_num at this ⊢
  linarith

/-- The velocity after one tick of friction. -/
theorem tick_vel {f v : ℝ} (h0 : 0 < f) (h1 : f ≤ 15) (h : |v| ≤ 1920) :
    eulerVelocity R.rnd 1 f mass v 0 = 0 ∨ 1 / 10 - 1 / 2 ^ 57 ≤ |eulerVelocity R.rnd 1 f mass v 0| ∧
      |eulerVelocity R.rnd 1 f mass v 0| ≤ (1 - f / 15) * |v| + 1 / 2 ^ 36 := by
  have hr := tick_raw R h0 h1 h
  have ht := tenth R
  unfold eulerVelocity clip
  split_ifs with hc
  · exact Or.inl rfl
  · refine Or.inr ⟨ht.trans (not_lt.1 hc), ?_⟩
    have h3 := abs_sub_abs_le_abs_sub (R.rnd (v + R.rnd (R.rnd (R.rnd (0 - R.rnd (R.rnd (0 + v) * f)) * R.rnd (1 / mass)) * 1)))
      ((1 - f / 15) * v)
    rw [abs_mul (1 - f / 15) v, abs_of_nonneg (by linarith : (0 : ℝ) ≤ 1 - f / 15)] at h3
    linarith

/-- In proportion. -/
theorem tick_shrinks {f v : ℝ} (h0 : 1 / 1000 ≤ f) (h1 : f ≤ 15) (h : |v| ≤ 1920) :
    |eulerVelocity R.rnd 1 f mass v 0| ≤ (1 - 33 / 500 * f) * |v| := by
  rcases tick_vel R (by linarith) h1 h with e | ⟨e1, e2⟩
  · rw [e, abs_zero]
    have : 0 ≤ 1 - 33 / 500 * f := by linarith
    positivity
  · have hf : (1 - f / 15) * |v| ≤ |v| := by nlinarith [abs_nonneg v]
    have hv : 1 / 11 ≤ |v| := by
      norm_num at *
      linarith
    norm_num at *
    nlinarith

/-- How far it still goes. -/
theorem tick_pos {f v p : ℝ} (h0 : 1 / 1000 ≤ f) (h1 : f ≤ 15) (h : farthest f v ≤ 1) (hp : Double p) (hb : |p| ≤ 32770) :
    |R.rnd (p + R.rnd (eulerVelocity R.rnd 1 f mass v 0 * R.rnd (1 / 2))) - p| +
      farthest f (eulerVelocity R.rnd 1 f mass v 0) ≤ farthest f v := by
  have hf : 0 < f := by linarith
  have hv := farthest_vel hf h1 h
  rw [rnd_half]
  rcases tick_vel R hf h1 hv with e | ⟨e1, e2⟩
  · rw [e, zero_mul, rnd_zero, add_zero, R.exact hp, sub_self, abs_zero, farthest_zero, zero_add]
    exact farthest_nonneg hf h1 v
  · set u := eulerVelocity R.rnd 1 f mass v 0
    have hfv : (1 - f / 15) * |v| ≤ |v| := by nlinarith [abs_nonneg v]
    have hu : |u| ≤ 1921 := by
      norm_num at *
      linarith
    have hu' := abs_le.1 hu
    have hb' := abs_le.1 hb
    have d1 := abs_le.1 (err15 R (x := u * (1 / 2)) (abs_le.2 ⟨by linarith, by linarith⟩))
    set w := R.rnd (u * (1 / 2))
    have d2 := abs_le.1 (err16 R (x := p + w) (abs_le.2 ⟨by norm_num at *; linarith, by norm_num at *; linarith⟩))
    have d3 : |R.rnd (p + w) - p| ≤ |u| / 2 + 1 / 2 ^ 37 := by
      have := le_abs_self u
      have := neg_abs_le u
      exact abs_le.2 ⟨by norm_num at *; linarith, by norm_num at *; linarith⟩
    have hv12 : 1 / 12 ≤ |v| := by
      norm_num at *
      linarith
    unfold farthest
    rw [div_mul_eq_mul_div, div_mul_eq_mul_div]
    have key : (|u| / 2 + 1 / 2 ^ 37) * (2 * f) + (15 - f + 1 / 64) * |u| ≤ (15 - f + 1 / 64) * |v| := by
      have s1 : (15 + 1 / 64) * |u| ≤ (15 + 1 / 64) * ((1 - f / 15) * |v| + 1 / 2 ^ 36) :=
        mul_le_mul_of_nonneg_left e2 (by norm_num)
      have s2 : f * (1 / 12) ≤ f * |v| := mul_le_mul_of_nonneg_left hv12 hf.le
      norm_num at *
      nlinarith
    have : |u| / 2 + 1 / 2 ^ 37 + (15 - f + 1 / 64) * |u| / (2 * f) ≤ (15 - f + 1 / 64) * |v| / (2 * f) := by
      rw [← sub_nonneg] at key ⊢
      have e : (15 - f + 1 / 64) * |v| / (2 * f) - (|u| / 2 + 1 / 2 ^ 37 + (15 - f + 1 / 64) * |u| / (2 * f)) =
          ((15 - f + 1 / 64) * |v| - ((|u| / 2 + 1 / 2 ^ 37) * (2 * f) + (15 - f + 1 / 64) * |u|)) / (2 * f) := by
        field_simp
      rw [e]
      positivity
    linarith

/-- Eight ticks are enough. -/
theorem eight_ticks {f v u : ℝ} (h0 : 1 / 1000 ≤ f) (h1 : f ≤ 15) (h : farthest f v ≤ 1)
    (hu : |u| ≤ (1 - 33 / 500 * f) ^ 7 * ((1 - f / 15) * |v| + 1 / 2 ^ 36)) : |u| < 1 / 10 - 1 / 2 ^ 57 := by
  have hf : 0 < f := by linarith
  have h2 := farthest_le hf h
  have ht : 0 ≤ 1 - 33 / 500 * f := by linarith
  have h3 : (1 - f / 15) * |v| + 1 / 2 ^ 36 ≤ 2 * f / 15 + 1 / 2 ^ 36 := by
    have := abs_nonneg v
    nlinarith
  have h4 := mul_le_mul_of_nonneg_left h3 (pow_nonneg ht 7)
  have h5 := seventh ht
  have h6 : (1 - 33 / 500 * f) ^ 7 ≤ 1 := pow_le_one₀ ht (by linarith)
  have h7 : (1 - 33 / 500 * f) ^ 7 * (2 * f / 15 + 1 / 2 ^ 36) =
      200 / 99 * ((1 - 33 / 500 * f) ^ 7 * (1 - (1 - 33 / 500 * f))) + (1 - 33 / 500 * f) ^ 7 * (1 / 2 ^ 36) := by ring
  norm_num at *
  linarith

/-! ## A spring that is close to its length -/

theorem slack_coord {a b d : ℝ} (ha : |a| ≤ 32770) (hb : |b| ≤ 32770) (hd : |d| ≤ 40000) (h : |b - a - d| ≤ 1 - 1 / 2048) :
    clip (1 / 2) (R.rnd (1 / 2 * R.rnd (R.rnd (b - a) + R.rnd (d * -1)))) = 0 ∧
    clip (1 / 2) (R.rnd (1 / 2 * R.rnd (R.rnd (a - b) + d))) = 0 := by
  rw [abs_le] at ha hb hd h
  have e1 := err R (x := b - a) (by linarith) (by linarith)
  have e2 := err R (x := d * -1) (by linarith) (by linarith)
  have e3 := err R (x := a - b) (by linarith) (by linarith)
  have e4 := err R (x := R.rnd (b - a) + R.rnd (d * -1)) (by norm_num at *; linarith) (by norm_num at *; linarith)
  have e5 := err R (x := R.rnd (a - b) + d) (by norm_num at *; linarith) (by norm_num at *; linarith)
  have e6 := err R (x := 1 / 2 * R.rnd (R.rnd (b - a) + R.rnd (d * -1))) (by norm_num at *; linarith) (by norm_num at *; linarith)
  have e7 := err R (x := 1 / 2 * R.rnd (R.rnd (a - b) + d)) (by norm_num at *; linarith) (by norm_num at *; linarith)
  unfold clip
  rw [if_pos (abs_lt.2 ⟨by norm_num at *; linarith, by norm_num at *; linarith⟩),
    if_pos (abs_lt.2 ⟨by norm_num at *; linarith, by norm_num at *; linarith⟩)]
  exact ⟨rfl, rfl⟩

/-! ## The mesh -/

/-- What `q'` can still do is part of what `q` could. -/
def Lessens (f : ℝ) (q q' : Phys) : Prop :=
  ∀ i, |(q'.pos i).x - (q.pos i).x| + farthest f (q'.vel i).x ≤ farthest f (q.vel i).x ∧
    |(q'.pos i).y - (q.pos i).y| + farthest f (q'.vel i).y ≤ farthest f (q.vel i).y

theorem Lessens.refl (f : ℝ) (q : Phys) : Lessens f q q := fun i => by simp

theorem Lessens.trans {f : ℝ} {q q' q'' : Phys} (h : Lessens f q q') (h' : Lessens f q' q'') : Lessens f q q'' := by
  intro i
  obtain ⟨a, c⟩ := h i
  obtain ⟨a', c'⟩ := h' i
  have e1 := abs_sub_le (q''.pos i).x (q'.pos i).x (q.pos i).x
  have e2 := abs_sub_le (q''.pos i).y (q'.pos i).y (q.pos i).y
  constructor <;> linarith

/-- All springs stay in their dead zones whatever movement is left. -/
structure Creeps (e : Env) (q : Phys) : Prop where
  low : 1 / 1000 ≤ e.friction
  high : e.friction ≤ 15
  doubles : Doubles q.pos
  slow : ∀ i, farthest e.friction (q.vel i).x ≤ 1 ∧ farthest e.friction (q.vel i).y ≤ 1
  near : ∀ i, |(q.pos i).x| + farthest e.friction (q.vel i).x ≤ 32770 ∧ |(q.pos i).y| + farthest e.friction (q.vel i).y ≤ 32770
  springs : ∀ x ∈ e.springs, ∃ i j, x.a = .mesh i ∧ x.b = .mesh j ∧ |x.desired.x| ≤ 40000 ∧ |x.desired.y| ≤ 40000 ∧
    |(deviation (e.at_ q.pos) x).x| + farthest e.friction (q.vel i).x + farthest e.friction (q.vel j).x ≤ 1 - 1 / 2048 ∧
    |(deviation (e.at_ q.pos) x).y| + farthest e.friction (q.vel i).y + farthest e.friction (q.vel j).y ≤ 1 - 1 / 2048

variable {R} {e : Env} {q : Phys}

theorem Creeps.pos (C : Creeps e q) : 0 < e.friction := by linarith [C.low]

theorem Creeps.far (C : Creeps e q) (i : Idx) : 0 ≤ farthest e.friction (q.vel i).x ∧ 0 ≤ farthest e.friction (q.vel i).y :=
  ⟨farthest_nonneg C.pos C.high _, farthest_nonneg C.pos C.high _⟩

theorem Creeps.bound (C : Creeps e q) (i : Idx) : |(q.pos i).x| ≤ 32770 ∧ |(q.pos i).y| ≤ 32770 := by
  have h1 := C.far i
  have h2 := C.near i
  constructor <;> linarith [h1.1, h1.2, h2.1, h2.2]

theorem Creeps.slack (C : Creeps e q) : ∀ x ∈ e.springs, Slack R x (e.at_ q.pos) := by
  intro x hx
  obtain ⟨i, j, ha, hb, d1, d2, h1, h2⟩ := C.springs x hx
  have fi := C.far i
  have fj := C.far j
  have bi := C.bound i
  have bj := C.bound j
  simp only [deviation, ha, hb, Env.at_] at h1 h2
  have x1 := slack_coord R bi.1 bj.1 d1 (by linarith [fi.1, fj.1])
  have x2 := slack_coord R bi.2 bj.2 d2 (by linarith [fi.2, fj.2])
  unfold Slack deltaA deltaB
  rw [ha, hb]
  simp only [Env.at_, deltaFromDesired, resetIfCloseToZero, scale]
  exact ⟨Pt.ext x1.1 x2.1, Pt.ext x1.2 x2.2⟩

theorem Creeps.lessens (C : Creeps e q) {q' : Phys} (hd : Doubles q'.pos) (hl : Lessens e.friction q q') : Creeps e q' := by
  have far' : ∀ i, 0 ≤ farthest e.friction (q'.vel i).x ∧ 0 ≤ farthest e.friction (q'.vel i).y :=
    fun i => ⟨farthest_nonneg C.pos C.high _, farthest_nonneg C.pos C.high _⟩
  refine ⟨C.low, C.high, hd, fun i => ?_, fun i => ?_, fun x hx => ?_⟩
  · have h1 := hl i
    have h2 := C.slow i
    have a1 := abs_nonneg ((q'.pos i).x - (q.pos i).x)
    have a2 := abs_nonneg ((q'.pos i).y - (q.pos i).y)
    constructor <;> linarith [h1.1, h1.2, h2.1, h2.2]
  · have h1 := hl i
    have h2 := C.near i
    have a1 := abs_sub_abs_le_abs_sub (q'.pos i).x (q.pos i).x
    have a2 := abs_sub_abs_le_abs_sub (q'.pos i).y (q.pos i).y
    constructor <;> linarith [h1.1, h1.2, h2.1, h2.2]
  · obtain ⟨i, j, hi, hj, d1, d2, a, c⟩ := C.springs x hx
    refine ⟨i, j, hi, hj, d1, d2, ?_, ?_⟩
    · have b1 := (hl i).1
      have b2 := (hl j).1
      have e1 : (deviation (e.at_ q'.pos) x).x = (deviation (e.at_ q.pos) x).x + ((q'.pos j).x - (q.pos j).x) -
          ((q'.pos i).x - (q.pos i).x) := by
        simp only [deviation, hi, hj, Env.at_]
        ring
      have e2 := abs_sub ((deviation (e.at_ q.pos) x).x + ((q'.pos j).x - (q.pos j).x)) ((q'.pos i).x - (q.pos i).x)
      have e3 := abs_add_le (deviation (e.at_ q.pos) x).x ((q'.pos j).x - (q.pos j).x)
      rw [e1]
      linarith
    · have b1 := (hl i).2
      have b2 := (hl j).2
      have e1 : (deviation (e.at_ q'.pos) x).y = (deviation (e.at_ q.pos) x).y + ((q'.pos j).y - (q.pos j).y) -
          ((q'.pos i).y - (q.pos i).y) := by
        simp only [deviation, hi, hj, Env.at_]
        ring
      have e2 := abs_sub ((deviation (e.at_ q.pos) x).y + ((q'.pos j).y - (q.pos j).y)) ((q'.pos i).y - (q.pos i).y)
      have e3 := abs_add_le (deviation (e.at_ q.pos) x).y ((q'.pos j).y - (q.pos j).y)
      rw [e1]
      linarith

/-- A tick of a slow mesh, written out. -/
theorem Creeps.tick (C : Creeps e q) (i : Idx) :
    (springRound R.rnd e q).1.pos i = (if e.locks i > 0 then q.pos i else
      ⟨R.rnd ((q.pos i).x + R.rnd (eulerVelocity R.rnd 1 e.friction mass (q.vel i).x 0 * R.rnd (1 / 2))),
        R.rnd ((q.pos i).y + R.rnd (eulerVelocity R.rnd 1 e.friction mass (q.vel i).y 0 * R.rnd (1 / 2)))⟩) ∧
    (springRound R.rnd e q).1.vel i = (if e.locks i > 0 then 0 else
      ⟨eulerVelocity R.rnd 1 e.friction mass (q.vel i).x 0, eulerVelocity R.rnd 1 e.friction mass (q.vel i).y 0⟩) := by
  have hf : ∀ i, (calculateForces R.rnd e.k (e.at_ q.pos) e.springs).1 (.mesh i) = 0 := fun i =>
    (forces_slack R C.slack).1 _
  unfold springRound anchoredIntegration eulerIntegrate
  simp only [hf]
  exact ⟨rfl, rfl⟩

theorem Creeps.next (C : Creeps e q) :
    Lessens e.friction q (springRound R.rnd e q).1 ∧ Creeps e (springRound R.rnd e q).1 := by
  have hl : Lessens e.friction q (springRound R.rnd e q).1 := by
    intro i
    obtain ⟨hp, hv⟩ := C.tick (R := R) i
    rw [hp, hv]
    split_ifs
    · simp only [sub_self, abs_zero, Pt.zero_x, Pt.zero_y, farthest_zero, add_zero]
      exact C.far i
    · exact ⟨tick_pos R C.low C.high (C.slow i).1 (C.doubles i).1 (C.bound i).1,
        tick_pos R C.low C.high (C.slow i).2 (C.doubles i).2 (C.bound i).2⟩
  refine ⟨hl, C.lessens (fun i => ?_) hl⟩
  rw [(C.tick i).1]
  split_ifs
  · exact C.doubles i
  · exact ⟨R.double _, R.double _⟩

theorem restIter_succ (r : ℝ → ℝ) (e : Env) (q : Phys) (n : ℕ) :
    restIter r e q (n + 1) = (springRound r e (restIter r e q n)).1 := by
  unfold restIter
  rw [Function.iterate_succ_apply']

theorem restIter_add (r : ℝ → ℝ) (e : Env) (q : Phys) (m n : ℕ) :
    restIter r e q (m + n) = restIter r e (restIter r e q m) n := by
  unfold restIter
  rw [Nat.add_comm, Function.iterate_add_apply]

theorem Creeps.iter (C : Creeps e q) (n : ℕ) :
    Lessens e.friction q (restIter R.rnd e q n) ∧ Creeps e (restIter R.rnd e q n) := by
  induction n with
  | zero => exact ⟨Lessens.refl _ _, C⟩
  | succ n ih =>
    rw [restIter_succ]
    have := ih.2.next (R := R)
    exact ⟨ih.1.trans this.1, this.2⟩

theorem Creeps.vel (C : Creeps e q) (n : ℕ) (i : Idx) :
    |((restIter R.rnd e q (n + 1)).vel i).x| ≤
      (1 - 33 / 500 * e.friction) ^ n * ((1 - e.friction / 15) * |(q.vel i).x| + 1 / 2 ^ 36) ∧
    |((restIter R.rnd e q (n + 1)).vel i).y| ≤
      (1 - 33 / 500 * e.friction) ^ n * ((1 - e.friction / 15) * |(q.vel i).y| + 1 / 2 ^ 36) := by
  have ht : 0 ≤ 1 - 33 / 500 * e.friction := by linarith [C.high]
  have hg : 0 ≤ 1 - e.friction / 15 := by linarith [C.high]
  induction n with
  | zero =>
    have key : ∀ v, farthest e.friction v ≤ 1 →
        |eulerVelocity R.rnd 1 e.friction mass v 0| ≤ (1 - e.friction / 15) * |v| + 1 / 2 ^ 36 := by
      intro v hv
      rcases tick_vel R C.pos C.high (farthest_vel C.pos C.high hv) with h | h
      · rw [h, abs_zero]
        positivity
      · exact h.2
    rw [restIter_succ, pow_zero, one_mul, one_mul]
    show |((springRound R.rnd e q).1.vel i).x| ≤ _ ∧ |((springRound R.rnd e q).1.vel i).y| ≤ _
    rw [(C.tick i).2]
    split_ifs
    · simp only [Pt.zero_x, Pt.zero_y, abs_zero]
      constructor <;> positivity
    · exact ⟨key _ (C.slow i).1, key _ (C.slow i).2⟩
  | succ n ih =>
    have D := (C.iter (R := R) (n + 1)).2
    rw [restIter_succ, (D.tick i).2, pow_succ']
    split_ifs
    · simp only [Pt.zero_x, Pt.zero_y, abs_zero]
      constructor <;> positivity
    · have k1 := tick_shrinks R D.low D.high (farthest_vel D.pos D.high (D.slow i).1)
      have k2 := tick_shrinks R D.low D.high (farthest_vel D.pos D.high (D.slow i).2)
      rw [mul_assoc, mul_assoc]
      exact ⟨k1.trans (mul_le_mul_of_nonneg_left ih.1 ht), k2.trans (mul_le_mul_of_nonneg_left ih.2 ht)⟩

/-- A velocity is zero or not small. -/
theorem Creeps.gap (C : Creeps e q) (i : Idx) :
    (((springRound R.rnd e q).1.vel i).x = 0 ∨ 1 / 10 - 1 / 2 ^ 57 ≤ |((springRound R.rnd e q).1.vel i).x|) ∧
    (((springRound R.rnd e q).1.vel i).y = 0 ∨ 1 / 10 - 1 / 2 ^ 57 ≤ |((springRound R.rnd e q).1.vel i).y|) := by
  rw [(C.tick i).2]
  split_ifs
  · exact ⟨Or.inl rfl, Or.inl rfl⟩
  · exact ⟨(tick_vel R C.pos C.high (farthest_vel C.pos C.high (C.slow i).1)).imp_right And.left,
      (tick_vel R C.pos C.high (farthest_vel C.pos C.high (C.slow i).2)).imp_right And.left⟩

theorem Creeps.stops (C : Creeps e q) (i : Idx) : (restIter R.rnd e q 8).vel i = 0 := by
  have hv := C.vel (R := R) 7 i
  have g := (C.iter (R := R) 7).2.gap (R := R) i
  rw [← restIter_succ] at g
  ext
  · exact g.1.resolve_right (not_le.2 (eight_ticks C.low C.high (C.slow i).1 hv.1))
  · exact g.2.resolve_right (not_le.2 (eight_ticks C.low C.high (C.slow i).2 hv.2))

/-- Without velocities nothing happens any more. -/
theorem Creeps.halt (C : Creeps e q) (hv : ∀ i, q.vel i = 0) :
    (springRound R.rnd e q).1 = q ∧ ¬ (springRound R.rnd e q).2 := by
  obtain ⟨hf, hm⟩ := forces_slack R (k := e.k) C.slack
  have h0 : eulerVelocity R.rnd 1 e.friction mass 0 0 = 0 := by simp [eulerVelocity, rnd_zero, clip]
  constructor
  · have hp : (springRound R.rnd e q).1.pos = q.pos := by
      funext i
      rw [(C.tick i).1, hv]
      split_ifs
      · rfl
      · simp only [Pt.zero_x, Pt.zero_y, h0, zero_mul, rnd_zero, add_zero, R.exact (C.doubles i).1, R.exact (C.doubles i).2]
    have hw : (springRound R.rnd e q).1.vel = q.vel := by
      funext i
      rw [(C.tick i).2, hv]
      split_ifs
      · rfl
      · simp only [Pt.zero_x, Pt.zero_y, h0]
        rfl
    exact congrArg₂ Phys.mk hp hw
  · have hf' : ∀ i, (calculateForces R.rnd e.k (e.at_ q.pos) e.springs).1 (.mesh i) = 0 := fun i => hf _
    simp only [springRound, anchoredIntegration, eulerIntegrate, hf', hv, Pt.zero_x, Pt.zero_y, h0]
    rintro (h | ⟨i, -, h⟩)
    · exact hm h
    · simp at h

theorem Creeps.after (C : Creeps e q) (n : ℕ) :
    restIter R.rnd e q (8 + n) = restIter R.rnd e q 8 ∧ ¬ restMore R.rnd e q (8 + n) := by
  have D := (C.iter (R := R) 8).2
  have hh := D.halt (R := R) C.stops
  have h1 : restIter R.rnd e q (8 + n) = restIter R.rnd e q 8 := by
    induction n with
    | zero => rfl
    | succ n ih => rw [← Nat.add_assoc, restIter_succ, ih, hh.1]
  refine ⟨h1, ?_⟩
  unfold restMore
  rw [h1]
  exact hh.2

/-- The full integration of a slow mesh returns, and where. -/
theorem Creeps.rest (C : Creeps e q) :
    ∃ p, Rounded.rest R.rnd e q = .ok p ∧ |p.x - (q.pos 0).x| ≤ farthest e.friction (q.vel 0).x ∧
      |p.y - (q.pos 0).y| ≤ farthest e.friction (q.vel 0).y := by
  have hm : ∃ n, ¬ restMore R.rnd e q n := ⟨8, (C.after 0).2⟩
  refine ⟨_, dif_pos hm, ?_⟩
  obtain ⟨h1, h2⟩ := C.iter (R := R) (Nat.find hm + 1)
  have h3 := h1 0
  have h4 := h2.far 0
  constructor <;> linarith [h3.1, h3.2, h4.1, h4.2]

/-! ## States -/

variable {s : State}

theorem well_slow_all (h : WellSlow s) (i : Idx) :
    farthest s.settings.friction (s.vel i).x ≤ 1 ∧ farthest s.settings.friction (s.vel i).y ≤ 1 := by
  have h0 : 0 < s.settings.friction := by linarith [h.frictionMin]
  have fn := farthest_nonneg h0 h.frictionMax
  obtain ⟨j, hj | hj⟩ := beside i
  · have := h.right i j hj
    simp only [KeepsWellWithinOne] at this
    have a1 := abs_nonneg ((s.pos j).x - (s.pos i).x - s.width / 3)
    have a2 := abs_nonneg ((s.pos j).y - (s.pos i).y - 0)
    constructor <;> linarith [this.1, this.2, fn (s.vel j).x, fn (s.vel j).y]
  · have := h.right j i hj
    simp only [KeepsWellWithinOne] at this
    have a1 := abs_nonneg ((s.pos i).x - (s.pos j).x - s.width / 3)
    have a2 := abs_nonneg ((s.pos i).y - (s.pos j).y - 0)
    constructor <;> linarith [this.1, this.2, fn (s.vel j).x, fn (s.vel j).y]

/-- A spring that is about as long as a tile. -/
def AboutTile (w h : ℝ) (x : Spring) : Prop := ∃ i j, x.a = .mesh i ∧ x.b = .mesh j ∧
  (RightOf i j ∧ |x.desired.x - w / 3| ≤ 1 / 4096 ∧ |x.desired.y| ≤ 1 / 4096 ∨
    BelowOf i j ∧ |x.desired.x| ≤ 1 / 4096 ∧ |x.desired.y - h / 3| ≤ 1 / 4096)

theorem creeps_of_slow (h : WellSlow s) (hd : Doubles s.pos) (e : Env) (hf : e.friction = s.settings.friction)
    (hs : ∀ x ∈ e.springs, AboutTile s.width s.height x) : Creeps e ⟨s.pos, s.vel⟩ := by
  refine ⟨hf ▸ h.frictionMin, hf ▸ h.frictionMax, hd, fun i => ?_, fun i => ?_, fun x hx => ?_⟩
  · rw [hf]
    exact well_slow_all h i
  · rw [hf]
    have := well_slow_all h i
    constructor <;> linarith [this.1, this.2, h.x i, h.y i]
  · obtain ⟨i, j, ha, hb, hc⟩ := hs x hx
    have w := abs_le.1 h.width
    have g := abs_le.1 h.height
    refine ⟨i, j, ha, hb, ?_⟩
    rw [hf]
    simp only [deviation, ha, hb, Env.at_]
    have key : ∀ {d w c F G : ℝ}, |d - w| + F + G ≤ 1 - 1 / 1024 → |c - w| ≤ 1 / 4096 →
        |d - c| + F + G ≤ 1 - 1 / 2048 := by
      intro d w c F G h1 h2
      have := abs_sub_le d w c
      rw [abs_sub_comm w c] at this
      linarith
    rcases hc with ⟨hr, h1, h2⟩ | ⟨hr, h1, h2⟩
    · have h3 := h.right i j hr
      rw [← sub_zero x.desired.y] at h2
      refine ⟨?_, ?_, key h3.1 h1, key h3.2 h2⟩
      · rw [abs_le] at h1 ⊢
        constructor <;> linarith
      · rw [abs_le] at h2 ⊢
        constructor <;> linarith
    · have h3 := h.below i j hr
      rw [← sub_zero x.desired.x] at h1
      refine ⟨?_, ?_, key h3.1 h1, key h3.2 h2⟩
      · rw [abs_le] at h1 ⊢
        constructor <;> linarith
      · rw [abs_le] at h2 ⊢
        constructor <;> linarith

theorem about_base {w h : ℝ} (hw : |w| ≤ 32768) (hh : |h| ≤ 32768) (b : ℕ) :
    ∀ x ∈ baseSprings ⟨R.rnd (w / (4 - 1)), R.rnd (h / (4 - 1))⟩ b, AboutTile w h x := by
  intro x hx
  simp only [baseSprings, List.mem_map] at hx
  obtain ⟨⟨y, n⟩, hy, rfl⟩ := hx
  have hmem : y ∈ baseEdges := (List.mem_zipIdx hy).2.2 ▸ List.getElem_mem _
  have hg := baseEdges_beside y hmem
  obtain ⟨i, j, v⟩ := y
  have e3 : (4 : ℝ) - 1 = 3 := by norm_num
  have close : ∀ {w : ℝ}, |w| ≤ 32768 → |R.rnd (w / (4 - 1)) - w / 3| ≤ 1 / 4096 := by
    intro w hw
    rw [e3]
    have hw' := abs_le.1 hw
    have := err15 R (x := w / 3) (abs_le.2 ⟨by linarith, by linarith⟩)
    norm_num at *
    linarith
  refine ⟨i, j, rfl, rfl, ?_⟩
  cases v with
  | true =>
    simp only [if_true] at hg
    refine Or.inr ⟨hg, ?_, close hh⟩
    simp
  | false =>
    simp only [Bool.false_eq_true, if_false] at hg
    refine Or.inl ⟨hg, close hw, ?_⟩
    simp

theorem slow_target (h : WellSlow s) (hd : Doubles s.pos) :
    ∃ p, targetByFullIntegration R.rnd s = .ok p ∧ |p.x - (s.pos 0).x| ≤ farthest s.settings.friction (s.vel 0).x ∧
      |p.y - (s.pos 0).y| ≤ farthest s.settings.friction (s.vel 0).y :=
  (creeps_of_slow h hd (restEnv R.rnd s) rfl (about_base h.width h.height _)).rest

theorem slow_recalc (h : WellSlow s) (hd : Doubles s.pos) : ∃ z, recalc R.rnd s = .ok z := by
  obtain ⟨p, hp, -⟩ := slow_target (R := R) h hd
  unfold recalc
  rw [hp]
  exact ⟨_, rfl⟩

theorem slow_transfer {s' : State} (h : WellSlow s) (h1 : s'.pos = s.pos) (h2 : s'.vel = s.vel) (h3 : s'.width = s.width)
    (h4 : s'.height = s.height) (h5 : s'.settings = s.settings) : WellSlow s' where
  frictionMin := by rw [h5]; exact h.frictionMin
  frictionMax := by rw [h5]; exact h.frictionMax
  width := by rw [h3]; exact h.width
  height := by rw [h4]; exact h.height
  x := by rw [h1]; exact h.x
  y := by rw [h1]; exact h.y
  right := by rw [h1, h2, h3, h5]; exact h.right
  below := by rw [h1, h2, h4, h5]; exact h.below

theorem slow_activate (h : WellSlow s) (hd : Doubles s.pos) : ∃ z, activate R.rnd s = .ok z := by
  unfold activate
  simp only
  split_ifs
  · exact slow_recalc (s := { s with count := s.count + 1 }) (slow_transfer h rfl rfl rfl rfl rfl) hd
  · exact ⟨_, rfl⟩

theorem slow_deactivate (h : WellSlow s) (hd : Doubles s.pos) (hc : s.count ≠ 0) : ∃ z, deactivate R.rnd s = .ok z := by
  unfold deactivate
  simp only
  rw [if_neg hc]
  split_ifs
  · exact slow_recalc (s := { s with count := s.count - 1 }) (slow_transfer h rfl rfl rfl rfl rfl) hd
  · exact ⟨_, rfl⟩

/-! ## Springs of a program that inserts nothing -/

/-- A spring as long as a tile up to rounding errors of `v` resizes. -/
def Tiled (w h v : ℝ) (x : Spring) : Prop := ∃ i j, x.a = .mesh i ∧ x.b = .mesh j ∧
  (RightOf i j ∧ |x.desired.x - w / 3| ≤ w * v / 2 ^ 46 ∧ x.desired.y = 0 ∨
    BelowOf i j ∧ x.desired.x = 0 ∧ |x.desired.y - h / 3| ≤ h * v / 2 ^ 46)

theorem tiled_about {w h v : ℝ} {x : Spring} (sw : Sane w v) (sh : Sane h v) (hx : Tiled w h v x) : AboutTile w h x := by
  obtain ⟨i, j, ha, hb, hc⟩ := hx
  have key : ∀ {w : ℝ}, Sane w v → w * v / 2 ^ 46 ≤ 1 / 4096 := by
    intro w hw
    have h1 : w * v ≤ 32768 * 65536 :=
      mul_le_mul hw.big hw.calls (by linarith [hw.first]) (by norm_num)
    rw [div_le_iff₀ (by norm_num)]
    norm_num at *
    linarith
  refine ⟨i, j, ha, hb, ?_⟩
  rcases hc with ⟨hr, h1, h2⟩ | ⟨hr, h1, h2⟩
  · exact Or.inl ⟨hr, h1.trans (key sw), by rw [h2]; norm_num⟩
  · exact Or.inr ⟨hr, by rw [h1]; norm_num, h2.trans (key sh)⟩

variable (R) in
theorem tiled_length {W w v d : ℝ} (hW : Sane W v) (hw : Sane w v) (h : |d - W / 3| ≤ W * v / 2 ^ 46) :
    |R.rnd (d * R.rnd (w / W)) - w / 3| ≤ w * (v + 1) / 2 ^ 46 := by
  have W0 : 0 < W := by linarith [hW.one]
  have w0 : 0 < w := by linarith [hw.one]
  have hWv : W * v / 2 ^ 46 ≤ W / 2 ^ 30 := by
    rw [div_le_div_iff₀ (by norm_num) (by norm_num)]
    nlinarith [hW.calls]
  have tiny : (2 : ℝ) ^ (-1021 : ℤ) ≤ 1 / 2 ^ 20 := by
    calc (2 : ℝ) ^ (-1021 : ℤ) ≤ 2 ^ (-20 : ℤ) := zpow_le_zpow_right₀ (by norm_num) (by norm_num)
      _ = 1 / 2 ^ 20 := by norm_num
  have e53 : (2 : ℝ) ^ (-53 : ℤ) = 1 / 2 ^ 53 := by norm_num
  have hq : 1 / 32768 ≤ w / W := by
    rw [div_le_div_iff₀ (by norm_num) W0]
    nlinarith [hw.one, hW.big]
  have r1 := R.relative (x := w / W) (tiny.trans ((by norm_num : (1 : ℝ) / 2 ^ 20 ≤ 1 / 32768).trans hq))
  rw [e53] at r1
  set k := w / W with hk
  have hkW : k * W = w := by
    rw [hk]
    field_simp
  set ρ := R.rnd k
  have r1' := abs_le.1 r1
  have h' := abs_le.1 h
  have d0 : W / 4 ≤ d := by
    norm_num at *
    linarith
  have d1 : d ≤ W / 2 := by
    norm_num at *
    linarith
  have ρ0 : k / 2 ≤ ρ := by
    norm_num at *
    linarith
  have k0 : 0 < k := by linarith
  have hp : 1 / 2 ^ 20 ≤ d * ρ := by
    have : W / 4 * (k / 2) ≤ d * ρ := mul_le_mul d0 ρ0 (by linarith) (by linarith)
    have h3 : W / 4 * (k / 2) = w / 8 := by rw [← hkW]; ring
    have := hw.one
    norm_num at *
    linarith
  have r2 := R.relative (x := d * ρ) (tiny.trans hp)
  rw [e53] at r2
  have b1 : |d * (ρ - k)| ≤ w / 2 ^ 53 := by
    rw [abs_mul, abs_of_pos (by linarith : 0 < d)]
    calc d * |ρ - k| ≤ W * (k * (1 / 2 ^ 53)) := mul_le_mul (by linarith) r1 (abs_nonneg _) W0.le
      _ = w / 2 ^ 53 := by rw [← hkW]; ring
  have b2 : |k * (d - W / 3)| ≤ w * v / 2 ^ 46 := by
    rw [abs_mul, abs_of_pos k0]
    calc k * |d - W / 3| ≤ k * (W * v / 2 ^ 46) := mul_le_mul_of_nonneg_left h k0.le
      _ = w * v / 2 ^ 46 := by rw [← hkW]; ring
  have b3 : d * ρ - w / 3 = d * (ρ - k) + k * (d - W / 3) := by rw [← hkW]; ring
  have b4 : d * k ≤ w := by
    rw [← hkW, mul_comm]
    exact mul_le_mul_of_nonneg_left (by linarith) k0.le
  have b1' := abs_le.1 b1
  have b2' := abs_le.1 b2
  have r2' := abs_le.1 r2
  have b5 : d * ρ ≤ 2 * w := by
    have : d * ρ = d * (ρ - k) + d * k := by ring
    norm_num at *
    linarith
  have e5 : w * (v + 1) / 2 ^ 46 = w * v / 2 ^ 46 + w / 2 ^ 46 := by ring
  rw [e5, abs_le]
  generalize w * v / 2 ^ 46 = z at *
  constructor <;> norm_num at * <;> linarith

theorem tiled_base {w h : ℝ} (hw : Sane w 1) (hh : Sane h 1) (b : ℕ) :
    ∀ x ∈ baseSprings ⟨R.rnd (w / (4 - 1)), R.rnd (h / (4 - 1))⟩ b, Tiled w h 1 x := by
  intro x hx
  simp only [baseSprings, List.mem_map] at hx
  obtain ⟨⟨y, n⟩, hy, rfl⟩ := hx
  have hmem : y ∈ baseEdges := (List.mem_zipIdx hy).2.2 ▸ List.getElem_mem _
  have hg := baseEdges_beside y hmem
  obtain ⟨i, j, v⟩ := y
  have e3 : (4 : ℝ) - 1 = 3 := by norm_num
  have tiny : (2 : ℝ) ^ (-1021 : ℤ) ≤ 1 / 2 ^ 20 := by
    calc (2 : ℝ) ^ (-1021 : ℤ) ≤ 2 ^ (-20 : ℤ) := zpow_le_zpow_right₀ (by norm_num) (by norm_num)
      _ = 1 / 2 ^ 20 := by norm_num
  have e53 : (2 : ℝ) ^ (-53 : ℤ) = 1 / 2 ^ 53 := by norm_num
  have close : ∀ {w : ℝ}, Sane w 1 → |R.rnd (w / (4 - 1)) - w / 3| ≤ w * 1 / 2 ^ 46 := by
    intro w hw
    rw [e3]
    have h1 := hw.one
    have := R.relative (x := w / 3) (tiny.trans (by norm_num at *; linarith))
    rw [e53] at this
    refine this.trans ?_
    norm_num
    linarith
  refine ⟨i, j, rfl, rfl, ?_⟩
  cases v with
  | true =>
    simp only [if_true] at hg
    exact Or.inr ⟨hg, rfl, close hh⟩
  | false =>
    simp only [Bool.false_eq_true, if_false] at hg
    exact Or.inl ⟨hg, close hw, rfl⟩

/-- Nothing is inserted and the springs are as long as tiles. -/
structure Snug (v : ℝ) (s : State) : Prop where
  sw : Sane s.width v
  sh : Sane s.height v
  tiled : ∀ x ∈ s.springs, Tiled s.width s.height v x
  grabs : ∀ a ∈ s.live, ∃ i, a.kind = .grab i

theorem Snug.ends {v : ℝ} (S : Snug v s) : ∀ y ∈ s.springs, (∃ i, y.a = .mesh i) ∧ ∃ j, y.b = .mesh j := by
  intro y hy
  obtain ⟨i, j, ha, hb, -⟩ := S.tiled y hy
  exact ⟨⟨i, ha⟩, j, hb⟩

theorem Snug.later {v : ℝ} (S : Snug v s) (hv : v + 1 ≤ 65536) : Snug (v + 1) s := by
  refine ⟨sane_next S.sw hv, sane_next S.sh hv, fun x hx => ?_, S.grabs⟩
  obtain ⟨i, j, ha, hb, hc⟩ := S.tiled x hx
  have key : ∀ {w : ℝ}, Sane w v → w * v / 2 ^ 46 ≤ w * (v + 1) / 2 ^ 46 := by
    intro w hw
    have := hw.one
    rw [div_le_div_iff_of_pos_right (by norm_num)]
    nlinarith
  refine ⟨i, j, ha, hb, hc.imp ?_ ?_⟩
  · rintro ⟨h1, h2, h3⟩
    exact ⟨h1, h2.trans (key S.sw), h3⟩
  · rintro ⟨h1, h2, h3⟩
    exact ⟨h1, h2, h3.trans (key S.sh)⟩

theorem Snug.same {v : ℝ} (S : Snug v s) {s' : State} (h1 : s'.width = s.width) (h2 : s'.height = s.height)
    (h3 : s'.springs = s.springs) (h4 : ∀ a ∈ s'.live, ∃ i, a.kind = .grab i) : Snug v s' :=
  ⟨h1 ▸ S.sw, h2 ▸ S.sh, by rw [h1, h2, h3]; exact S.tiled, h4⟩

theorem recalc_kept {r : ℝ → ℝ} {s' : State} (e : recalc r s = .ok s') :
    s'.width = s.width ∧ s'.height = s.height ∧ s'.springs = s.springs ∧ s'.live = s.live := by
  unfold recalc at e
  rw [bind_eq_ok] at e
  obtain ⟨p, -, e⟩ := e
  simp only [Outcome.ok.injEq] at e
  rw [← e]
  exact ⟨rfl, rfl, rfl, rfl⟩

theorem activate_kept {r : ℝ → ℝ} {s' : State} (e : activate r s = .ok s') :
    s'.width = s.width ∧ s'.height = s.height ∧ s'.springs = s.springs ∧ s'.live = s.live := by
  unfold activate at e
  dsimp only at e
  split_ifs at e
  · have := recalc_kept e
    exact this
  · simp only [Outcome.ok.injEq] at e
    rw [← e]
    exact ⟨rfl, rfl, rfl, rfl⟩

theorem deactivate_kept {r : ℝ → ℝ} {s' : State} (e : deactivate r s = .ok s') :
    s'.width = s.width ∧ s'.height = s.height ∧ s'.springs = s.springs ∧ s'.live = s.live := by
  unfold deactivate at e
  dsimp only at e
  split_ifs at e
  · have := recalc_kept e
    exact this
  · simp only [Outcome.ok.injEq] at e
    rw [← e]
    exact ⟨rfl, rfl, rfl, rfl⟩

theorem targetPosition_kept {r : ℝ → ℝ} {a : State × Pt} (e : targetPosition r s = .ok a) :
    a.1.width = s.width ∧ a.1.height = s.height ∧ a.1.springs = s.springs ∧ a.1.live = s.live := by
  unfold targetPosition at e
  split_ifs at e
  · simp only [Outcome.ok.injEq] at e
    rw [← e]
    exact ⟨rfl, rfl, rfl, rfl⟩
  · rw [bind_eq_ok] at e
    obtain ⟨p, -, e⟩ := e
    simp only [Outcome.ok.injEq] at e
    rw [← e]
    exact ⟨rfl, rfl, rfl, rfl⟩

theorem shift_grab {r : ℝ → ℝ} {d : Pt} {l : List Live} (h : ∀ a ∈ l, ∃ i, a.kind = .grab i) :
    ∀ a ∈ l.map fun b => (⟨b.hid, shift r d b.kind⟩ : Live), ∃ i, a.kind = .grab i := by
  intro a ha
  obtain ⟨b, hb, rfl⟩ := List.mem_map.1 ha
  obtain ⟨i, hi⟩ := h b hb
  exact ⟨i, by rw [hi]; rfl⟩

theorem exec_snug {v : ℝ} {s' : State} {op : Op} {y : Res} (S : Snug v s) (ho : Ordinary op)
    (hv : v + resizes [op] ≤ 65536) (e : exec R.rnd s op = .ok (s', y)) : Snug (v + resizes [op]) s' := by
  cases op with
  | insert p => exact absurd ho id
  | grab p =>
    simp only [resizes, List.filter, List.length_nil, Nat.cast_zero, add_zero]
    simp only [exec, grab] at e
    split at e
    · cases e
    rw [bind_eq_ok] at e
    obtain ⟨s1, e1, e⟩ := e
    simp only [Outcome.ok.injEq, Prod.mk.injEq] at e
    obtain ⟨rfl, -⟩ := e
    obtain ⟨c1, c2, c3, c4⟩ := activate_kept e1
    refine S.same c1 c2 c3 fun a ha => ?_
    rcases List.mem_append.1 ha with ha | ha
    · have : a ∈ s.live := by
        have h2 : a ∈ s1.live := ha
        rw [c4] at h2
        exact h2
      exact S.grabs a this
    · rw [List.mem_singleton] at ha
      subst ha
      exact ⟨_, rfl⟩
  | moveAnchor hid d =>
    simp only [resizes, List.filter, List.length_nil, Nat.cast_zero, add_zero]
    simp only [exec, moveAnchor] at e
    split at e
    · simp only [Outcome.ok.injEq, Prod.mk.injEq] at e
      obtain ⟨rfl, -⟩ := e
      exact S
    rename_i a ha
    obtain ⟨i, hi⟩ := S.grabs a (List.mem_of_find?_eq_some ha)
    rw [hi] at e
    simp only [Outcome.ok.injEq, Prod.mk.injEq] at e
    obtain ⟨rfl, -⟩ := e
    exact S.same rfl rfl rfl S.grabs
  | release hid =>
    simp only [resizes, List.filter, List.length_nil, Nat.cast_zero, add_zero]
    simp only [exec, release] at e
    split at e
    · simp only [Outcome.ok.injEq, Prod.mk.injEq] at e
      obtain ⟨rfl, -⟩ := e
      exact S
    rename_i a ha
    obtain ⟨i, hi⟩ := S.grabs a (List.mem_of_find?_eq_some ha)
    simp only [bind_eq_ok, Outcome.ok.injEq, Prod.mk.injEq] at e
    obtain ⟨s1, e1, s2, e2, rfl, -⟩ := e
    rw [hi] at e1
    simp only [State.releaseKind, State.unlock] at e1
    obtain ⟨c1, c2, c3, c4⟩ := deactivate_kept e2
    split_ifs at e1
    all_goals
      simp only [Outcome.ok.injEq] at e1
      rw [← e1] at c1 c2 c3 c4
      refine S.same c1 c2 c3 fun b hb => ?_
      rw [c4] at hb
      exact S.grabs b (List.mem_of_mem_filter hb)
  | step t =>
    simp only [resizes, List.filter, List.length_nil, Nat.cast_zero, add_zero]
    simp only [exec] at e
    unfold Rounded.step at e
    by_cases hd : stepCount t ≠ 0 ∧ dangling s.springs s.live
    · rw [if_pos hd] at e
      cases e
    rw [if_neg hd, bind_eq_ok] at e
    obtain ⟨a, -, e⟩ := e
    simp only [Outcome.ok.injEq, Prod.mk.injEq] at e
    obtain ⟨rfl, -⟩ := e
    exact S.same rfl rfl rfl S.grabs
  | moveBy d =>
    simp only [resizes, List.filter, List.length_nil, Nat.cast_zero, add_zero]
    simp only [exec, Outcome.ok.injEq, Prod.mk.injEq] at e
    obtain ⟨rfl, -⟩ := e
    exact S.same rfl rfl rfl (shift_grab S.grabs)
  | moveTo p =>
    simp only [resizes, List.filter, List.length_nil, Nat.cast_zero, add_zero]
    simp only [exec, moveTo, bind_eq_ok, Outcome.ok.injEq, Prod.mk.injEq] at e
    obtain ⟨a, ea, rfl, -⟩ := e
    obtain ⟨c1, c2, c3, c4⟩ := targetPosition_kept ea
    exact S.same c1 c2 c3 (shift_grab (by rw [c4]; exact S.grabs))
  | resize w hh =>
    simp only [resizes, List.filter, List.length_cons, List.length_nil, zero_add, Nat.cast_one] at hv ⊢
    simp only [exec, resize] at e
    split_ifs at e
    · simp only [Outcome.ok.injEq, Prod.mk.injEq] at e
      obtain ⟨rfl, -⟩ := e
      exact S.later hv
    · simp only [bind_eq_ok, Outcome.ok.injEq, Prod.mk.injEq] at e
      obtain ⟨a, ea, rfl, -⟩ := e
      obtain ⟨c1, c2, c3, c4⟩ := targetPosition_kept ea
      obtain ⟨w1, w2, h1, h2⟩ := ho
      have sw : Sane w v := ⟨w1, w2, S.sw.first, S.sw.calls⟩
      have sh : Sane hh v := ⟨h1, h2, S.sh.first, S.sh.calls⟩
      refine ⟨sane_next sw hv, sane_next sh hv, fun x hx => ?_, fun b hb => ?_⟩
      · obtain ⟨z, hz, rfl⟩ := List.mem_map.1 hx
        have hz' : z ∈ s.springs := by
          rw [← c3]
          exact hz
        obtain ⟨i, j, ha, hb, hc⟩ := S.tiled z hz'
        refine ⟨i, j, ha, hb, hc.imp ?_ ?_⟩
        · rintro ⟨g1, g2, g3⟩
          refine ⟨g1, tiled_length R S.sw sw g2, ?_⟩
          show R.rnd (z.desired.y * _) = 0
          rw [g3, zero_mul, rnd_zero]
        · rintro ⟨g1, g2, g3⟩
          refine ⟨g1, ?_, tiled_length R S.sh sh g3⟩
          show R.rnd (z.desired.x * _) = 0
          rw [g2, zero_mul, rnd_zero]
      · obtain ⟨c, hc, rfl⟩ := List.mem_map.1 hb
        have hc' : c ∈ s.live := by
          rw [← c4]
          exact hc
        obtain ⟨i, hi⟩ := S.grabs c hc'
        exact ⟨i, by rw [hi]; rfl⟩
  | setSettings x =>
    simp only [resizes, List.filter, List.length_nil, Nat.cast_zero, add_zero]
    simp only [exec, Outcome.ok.injEq, Prod.mk.injEq] at e
    obtain ⟨rfl, -⟩ := e
    exact S.same rfl rfl rfl S.grabs
  | elsewhere n =>
    simp only [resizes, List.filter, List.length_nil, Nat.cast_zero, add_zero]
    simp only [exec, Outcome.ok.injEq, Prod.mk.injEq] at e
    obtain ⟨rfl, -⟩ := e
    exact S.same rfl rfl rfl S.grabs

theorem resizes_cons (op : Op) (ops : List Op) : resizes (op :: ops) = resizes [op] + resizes ops := by
  unfold resizes
  rw [show op :: ops = [op] ++ ops from rfl, List.filter_append, List.length_append]

theorem run_snug {v : ℝ} {s' : State} {ops : List Op} {ys : List Res} (S : Snug v s) (ho : ∀ op ∈ ops, Ordinary op)
    (hv : v + resizes ops ≤ 65536) (e : run R.rnd s ops = .ok (s', ys)) : Snug (v + resizes ops) s' := by
  induction ops generalizing s v ys with
  | nil =>
    simp only [run, Outcome.ok.injEq, Prod.mk.injEq] at e
    rw [← e.1]
    simpa [resizes] using S
  | cons op ops ih =>
    simp only [run, bind_eq_ok, Outcome.ok.injEq, Prod.mk.injEq] at e
    obtain ⟨a, e1, c, e2, h1, h2⟩ := e
    rw [resizes_cons, Nat.cast_add, ← add_assoc] at hv ⊢
    have h0 : (0 : ℝ) ≤ resizes ops := Nat.cast_nonneg _
    have S1 := exec_snug (R := R) (y := a.2) (s' := a.1) S (ho op (by simp)) (by linarith) e1
    subst h1
    exact ih S1 (fun o h => ho o (by simp [h])) hv e2

theorem new_snug {p : Pt} {w h : ℝ} {x : Settings} {b : ℕ} (hw : 1 ≤ w ∧ w ≤ 32768) (hh : 1 ≤ h ∧ h ≤ 32768) :
    Snug 1 (Rounded.new R.rnd p w h x b) := by
  have sw : Sane w 1 := ⟨hw.1, hw.2, le_refl _, by norm_num⟩
  have sh : Sane h 1 := ⟨hh.1, hh.2, le_refl _, by norm_num⟩
  exact ⟨sw, sh, tiled_base sw sh b, fun a ha => by cases ha⟩

/-! ## Steps -/

theorem rounds_inactive {r : ℝ → ℝ} (ha : ¬ s.active) (n : ℕ) (q : Phys) :
    ∃ u, rounds r s n q = .ok (restIter r s.env q n, u) := by
  induction n generalizing q with
  | zero => exact ⟨False, rfl⟩
  | succ n ih =>
    obtain ⟨u, hu⟩ := ih (springRound r s.env q).1
    simp only [rounds, round, if_neg ha, bind_ok, hu]
    refine ⟨(springRound r s.env q).2 ∨ u, ?_⟩
    rw [Nat.add_comm, restIter_add]
    rfl

theorem steps_inactive {r : ℝ → ℝ} (ha : ¬ s.active) (hd : ¬ dangling s.springs s.live) (ts : List ℕ) :
    ∃ u rs, run r s (ts.map .step) =
      .ok ({ s with pos := (restIter r s.env ⟨s.pos, s.vel⟩ (ticks ts)).pos,
                    vel := (restIter r s.env ⟨s.pos, s.vel⟩ (ticks ts)).vel, unequal := u }, rs) := by
  induction ts generalizing s with
  | nil => exact ⟨s.unequal, [], rfl⟩
  | cons t ts ih =>
    have ht : ticks (t :: ts) = stepCount t + ticks ts := by simp [ticks]
    obtain ⟨u, hu⟩ := rounds_inactive (r := r) ha (stepCount t) ⟨s.pos, s.vel⟩
    have e1 : ∃ u', exec r s (.step t) =
        .ok ({ s with pos := (restIter r s.env ⟨s.pos, s.vel⟩ (stepCount t)).pos,
                      vel := (restIter r s.env ⟨s.pos, s.vel⟩ (stepCount t)).vel, unequal := u' }, .more u') := by
      simp only [exec, step]
      rw [if_neg (fun h => hd h.2), hu, bind_ok]
      simp only [ha, and_false, if_false]
      exact ⟨_, rfl⟩
    obtain ⟨u', e1⟩ := e1
    obtain ⟨u'', rs, e2⟩ := @ih
      { s with pos := (restIter r s.env ⟨s.pos, s.vel⟩ (stepCount t)).pos,
               vel := (restIter r s.env ⟨s.pos, s.vel⟩ (stepCount t)).vel, unequal := u' } ha hd
    simp only [List.map_cons, run, e1, bind_ok, e2]
    rw [ht, restIter_add]
    exact ⟨u'', _, rfl⟩

/-! ## No call hangs -/

theorem bind_returns {α β : Type} {o : Outcome α} {g : α → Outcome β} (ho : o ≠ .diverges) (hg : ∀ a, g a ≠ .diverges) :
    o.bind g ≠ .diverges := by
  cases o with
  | ok y => exact hg y
  | diverges => exact absurd rfl ho
  | throws => simp [Outcome.bind]
  | ub => simp [Outcome.bind]
  | nonfinite => simp [Outcome.bind]

theorem round_returns {r : ℝ → ℝ} (q : Phys) : round r s q ≠ .diverges := by
  unfold round
  split_ifs
  · refine bind_returns ?_ fun a => by simp
    unfold constrain
    split_ifs <;> simp
  · simp

theorem rounds_returns {r : ℝ → ℝ} (n : ℕ) (q : Phys) : rounds r s n q ≠ .diverges := by
  induction n generalizing q with
  | zero => simp [rounds]
  | succ n ih => exact bind_returns (round_returns q) fun a => bind_returns (ih _) fun b => by simp

theorem preferred_returns (s : State) (p : Pt) : s.preferred p ≠ .diverges := by
  unfold State.preferred lookupTarget
  split_ifs
  · split <;> simp
  · simp

theorem insertSprings_returns {r : ℝ → ℝ} (p : Pt) : insertSprings r s p ≠ .diverges := by
  unfold insertSprings
  split_ifs
  · simp
  · split
    · simp
    · exact bind_returns (preferred_returns _ _) fun a => bind_returns (preferred_returns _ _) fun b => by simp

theorem releaseKind_keeps {s' : State} {k : Kind} (e : s.releaseKind k = .ok s') :
    s'.pos = s.pos ∧ s'.vel = s.vel ∧ s'.width = s.width ∧ s'.height = s.height ∧ s'.settings = s.settings := by
  cases k with
  | grab i =>
    simp only [State.releaseKind, State.unlock] at e
    split_ifs at e
    all_goals
      simp only [Outcome.ok.injEq] at e
      rw [← e]
      exact ⟨rfl, rfl, rfl, rfl, rfl⟩
  | ins q st f g =>
    simp only [State.releaseKind, Outcome.ok.injEq] at e
    rw [removeTracked_eq, removeTracked_eq, replace_eq] at e
    rw [← e]
    exact ⟨rfl, rfl, rfl, rfl, rfl⟩

theorem releaseKind_returns (k : Kind) : s.releaseKind k ≠ .diverges := by
  cases k with
  | grab i =>
    simp only [State.releaseKind, State.unlock]
    split_ifs <;> simp
  | ins q st f g => simp [State.releaseKind]

theorem target_returns (h : WellSlow s) (hd : Doubles s.pos) : ∃ a, targetPosition R.rnd s = .ok a := by
  unfold targetPosition
  split_ifs
  · exact ⟨_, rfl⟩
  · obtain ⟨p, hp, -⟩ := slow_target (R := R) h hd
    rw [hp]
    exact ⟨_, rfl⟩

theorem slow_returns (h : WellSlow s) (hd : Doubles s.pos) (op : Op) : exec R.rnd s op ≠ .diverges := by
  have act : activate R.rnd { s with unequal := True } ≠ .diverges := by
    obtain ⟨z, hz⟩ := slow_activate (R := R) (s := { s with unequal := True }) (slow_transfer h rfl rfl rfl rfl rfl) hd
    rw [hz]
    simp
  obtain ⟨a, ha⟩ := target_returns (R := R) h hd
  cases op with
  | grab p =>
    simp only [exec, grab]
    split
    · simp
    · exact bind_returns act fun a => by simp
  | insert p =>
    exact bind_returns act fun a => bind_returns (insertSprings_returns _) fun b => by simp
  | moveAnchor hid d =>
    simp only [exec, moveAnchor]
    split
    · simp
    · split <;> simp
  | release hid =>
    simp only [exec, release]
    split
    · simp
    · intro hc
      rename_i b hb
      cases hk : ({ s with live := s.live.filter fun b => b.hid ≠ hid } : State).releaseKind b.kind with
      | ok s1 =>
        obtain ⟨k1, k2, k3, k4, k5⟩ := releaseKind_keeps hk
        rw [hk, bind_ok] at hc
        refine bind_returns ?_ (fun a => by simp) hc
        by_cases h0 : s1.count = 0
        · unfold deactivate
          rw [if_pos h0]
          simp
        · obtain ⟨z, hz⟩ := slow_deactivate (R := R) (slow_transfer h k1 k2 k3 k4 k5) (by rw [k1]; exact hd) h0
          rw [hz]
          simp
      | diverges => exact releaseKind_returns _ hk
      | throws => rw [hk] at hc; simp [Outcome.bind] at hc
      | ub => rw [hk] at hc; simp [Outcome.bind] at hc
      | nonfinite => rw [hk] at hc; simp [Outcome.bind] at hc
  | step t =>
    simp only [exec]
    unfold step
    by_cases hc : stepCount t ≠ 0 ∧ dangling s.springs s.live
    · rw [if_pos hc]
      simp
    · rw [if_neg hc]
      exact bind_returns (rounds_returns _ _) fun a => by simp
  | moveBy d => simp [exec]
  | moveTo p =>
    simp only [exec, moveTo, ha, bind_ok]
    simp
  | resize w hh =>
    simp only [exec, resize, ha, bind_ok]
    split_ifs <;> simp
  | setSettings x => simp [exec]
  | elsewhere n => simp [exec]

/-! ## Following targets -/

variable (R) in
/-- A computed number that is not negative is at most a little above the exact one. -/
theorem rnd_upper {y : ℝ} (h : 0 ≤ y) : R.rnd y ≤ y * (1 + 1 / 2 ^ 53) + 1 / 2 ^ 80 := by
  by_cases hy : (2 : ℝ) ^ (-1021 : ℤ) ≤ y
  · have := (abs_le.1 (R.relative hy)).2
    have e53 : (2 : ℝ) ^ (-53 : ℤ) = 1 / 2 ^ 53 := by norm_num
    rw [e53] at this
    have : (0 : ℝ) ≤ 1 / 2 ^ 80 := by positivity
    linarith
  · push Not at hy
    have h1 : y ≤ 2 ^ (-26 : ℤ) := hy.le.trans (zpow_le_zpow_right₀ (by norm_num) (by norm_num))
    have h2 := (abs_le.1 (R.error (x := y) (k := -26) (by norm_num) (by rw [abs_of_nonneg h]; exact h1))).2
    have e80 : (2 : ℝ) ^ (-26 - 54 : ℤ) = 1 / 2 ^ 80 := by norm_num
    rw [e80] at h2
    have : 0 ≤ y * (1 / 2 ^ 53) := by positivity
    linarith

variable (R) in
/-- A computed distance is at most a little above the exact one. -/
theorem distance_upper {p q : Pt} (hx : |p.x - q.x| ≤ 65540) (hy : |p.y - q.y| ≤ 65540) :
    distance R.rnd p q ≤ euclid p q + 1 / 1024 := by
  have ex := err17 R hx
  have ey := err17 R hy
  unfold distance
  rw [zero_add]
  have exact' : ∀ z, R.rnd (R.rnd z) = R.rnd z := fun z => R.exact (R.double z)
  rw [exact']
  set a := R.rnd (p.x - q.x)
  set c := R.rnd (p.y - q.y)
  have ha : |a| ≤ 65541 := by
    have := abs_sub_abs_le_abs_sub a (p.x - q.x)
    norm_num at *
    linarith
  have hc : |c| ≤ 65541 := by
    have := abs_sub_abs_le_abs_sub c (p.y - q.y)
    norm_num at *
    linarith
  have u1 := rnd_upper R (mul_self_nonneg a)
  have u2 := rnd_upper R (mul_self_nonneg c)
  have n1 : 0 ≤ R.rnd (a * a) := R.nonneg (mul_self_nonneg a)
  have n2 : 0 ≤ R.rnd (c * c) := R.nonneg (mul_self_nonneg c)
  have u3 := rnd_upper R (add_nonneg n2 n1)
  set S := R.rnd (R.rnd (c * c) + R.rnd (a * a))
  have aa : a * a ≤ 65541 * 65541 := by
    rw [← abs_mul_abs_self]
    exact mul_le_mul ha ha (abs_nonneg _) (by norm_num)
  have cc : c * c ≤ 65541 * 65541 := by
    rw [← abs_mul_abs_self]
    exact mul_le_mul hc hc (abs_nonneg _) (by norm_num)
  have hS : S ≤ a * a + c * c + 1 / 2 ^ 18 := by
    norm_num at *
    linarith
  -- the exact distance of the rounded differences
  have t1 := euclid_moved ⟨p.x, p.y⟩ ⟨q.x, q.y⟩ ⟨p.x - a, p.y - c⟩
  have t2 : euclid ⟨p.x, p.y⟩ ⟨p.x - a, p.y - c⟩ = Real.sqrt (a * a + c * c) := by
    unfold euclid
    congr 1
    ring
  rw [t2] at t1
  simp only at t1
  have t3 : |p.x - a - q.x| ≤ 1 / 2 ^ 37 := by
    rw [show p.x - a - q.x = -(a - (p.x - q.x)) by ring, abs_neg]
    exact ex
  have t4 : |p.y - c - q.y| ≤ 1 / 2 ^ 37 := by
    rw [show p.y - c - q.y = -(c - (p.y - q.y)) by ring, abs_neg]
    exact ey
  have t5 : Real.sqrt (a * a + c * c) ≤ euclid p q + 1 / 2 ^ 36 := by
    have : euclid ⟨p.x, p.y⟩ ⟨q.x, q.y⟩ = euclid p q := rfl
    norm_num at *
    linarith
  have n3 : 0 ≤ a * a + c * c := by nlinarith [mul_self_nonneg a, mul_self_nonneg c]
  set D := Real.sqrt (a * a + c * c) with hD
  have D0 : 0 ≤ D := Real.sqrt_nonneg _
  have hDD : D * D = a * a + c * c := Real.mul_self_sqrt n3
  have DB : D ≤ 131074 := by
    by_contra hcon
    push Not at hcon
    nlinarith
  -- a small distance may be off by more than a large one
  have t6 : Real.sqrt S ≤ D + 1 / 1100 + 1 / 2 ^ 20 := by
    rw [Real.sqrt_le_left (by positivity)]
    by_cases hd : D ≤ 1 / 512
    · have hs' : S ≤ D * D + 1 / 2 ^ 30 := by
        have b1 : a * a ≤ D * D := by rw [hDD]; nlinarith [mul_self_nonneg c]
        have b2 : c * c ≤ D * D := by rw [hDD]; nlinarith [mul_self_nonneg a]
        have b3 : D * D ≤ 1 / 512 * (1 / 512) := mul_le_mul hd hd D0 (by norm_num)
        norm_num at *
        linarith
      norm_num at *
      nlinarith
    · push Not at hd
      have hs' : S ≤ D * D + 1 / 2 ^ 18 := by rw [hDD]; linarith
      norm_num at *
      nlinarith
  have u4 := rnd_upper R (Real.sqrt_nonneg S)
  have t7 : Real.sqrt S ≤ 131076 := by
    norm_num at *
    linarith
  norm_num at *
  linarith

/-- No point gets out of the range of its target any more. -/
def StaysInRange (s : State) (q : Phys) : Prop :=
  ∀ i, |(s.targets i).x| ≤ 32768 ∧ |(s.targets i).y| ≤ 32768 ∧
    euclid (s.targets i) (q.pos i) + farthest s.settings.friction (q.vel i).x +
      farthest s.settings.friction (q.vel i).y + 1 / 512 ≤ s.settings.maximumRange

theorem StaysInRange.lessens {q q' : Phys} (h : StaysInRange s q) (hl : Lessens s.settings.friction q q') :
    StaysInRange s q' := by
  intro i
  obtain ⟨h1, h2, h3⟩ := h i
  have h4 := hl i
  have h5 := euclid_moved (s.targets i) (q.pos i) (q'.pos i)
  exact ⟨h1, h2, by linarith [h4.1, h4.2]⟩

theorem StaysInRange.near {q : Phys} (h : StaysInRange s q) (C : Creeps s.env q) (i : Idx) :
    distance R.rnd (s.targets i) (q.pos i) < s.settings.maximumRange := by
  obtain ⟨h1, h2, h3⟩ := h i
  have b := C.bound i
  have f := C.far i
  have hf : s.env.friction = s.settings.friction := rfl
  rw [hf] at f
  have hx := abs_sub (s.targets i).x (q.pos i).x
  have hy := abs_sub (s.targets i).y (q.pos i).y
  have := distance_upper R (p := s.targets i) (q := q.pos i) (by linarith [b.1]) (by linarith [b.2])
  linarith [f.1, f.2]

theorem rounds_in_range (ha : s.active) (n : ℕ) (q : Phys) (C : Creeps s.env q) (h : StaysInRange s q) :
    ∃ u, rounds R.rnd s n q = .ok (restIter R.rnd s.env q n, u) ∧ ((∀ m < n, ¬ restMore R.rnd s.env q m) → ¬ u) := by
  induction n generalizing q with
  | zero => exact ⟨False, rfl, fun _ => not_false⟩
  | succ n ih =>
    obtain ⟨hl, C'⟩ := C.next (R := R)
    obtain ⟨u, hu, hq⟩ := ih (springRound R.rnd s.env q).1 C' (h.lessens hl)
    refine ⟨(False ∨ (springRound R.rnd s.env q).2) ∨ u, ?_, fun hm => ?_⟩
    · simp only [rounds, round, if_pos ha, constrain_idle (h.near C), bind_ok]
      rw [show (⟨q.pos, q.vel⟩ : Phys) = q from rfl, hu, bind_ok, Nat.add_comm n 1, restIter_add]
      rfl
    · rintro ((hf | h0) | hu')
      · exact hf
      · exact hm 0 (by omega) h0
      · refine hq (fun m hlt hc => hm (m + 1) (by omega) ?_) hu'
        unfold restMore at hc ⊢
        rw [Nat.add_comm m 1, restIter_add]
        exact hc

/-- One step while following targets in range: the mesh fades, or it is put on its targets. -/
theorem step_tracked (A : AllDouble s) (ha : s.active) (hd : ¬ dangling s.springs s.live) (C : Creeps s.env ⟨s.pos, s.vel⟩)
    (h : StaysInRange s ⟨s.pos, s.vel⟩) {t : ℕ} (ht : t ≠ 0) :
    (exec R.rnd s (.step t) = .ok ({ s with pos := s.targets, vel := fun _ => 0, unequal := False }, .more False)) ∨
    ((∃ m < stepCount t, restMore R.rnd s.env ⟨s.pos, s.vel⟩ m) ∧
      exec R.rnd s (.step t) =
        .ok ({ s with pos := (restIter R.rnd s.env ⟨s.pos, s.vel⟩ (stepCount t)).pos,
                      vel := (restIter R.rnd s.env ⟨s.pos, s.vel⟩ (stepCount t)).vel, unequal := True }, .more True)) := by
  obtain ⟨u, hu, hq⟩ := rounds_in_range (R := R) ha (stepCount t) ⟨s.pos, s.vel⟩ C h
  have e1 : exec R.rnd s (.step t) =
      .ok ({ s with pos := if ¬ u ∧ s.active then s.targets else (restIter R.rnd s.env ⟨s.pos, s.vel⟩ (stepCount t)).pos,
                    vel := (restIter R.rnd s.env ⟨s.pos, s.vel⟩ (stepCount t)).vel, unequal := u }, .more u) := by
    have hm : ((if t ≠ 0 then False else s.unequal) ∨ u) = u := by simp [ht]
    simp only [exec]
    unfold step
    rw [if_neg (fun h => hd h.2), hu, bind_ok]
    simp only [hm]
  by_cases hcase : u
  · right
    have : u = True := by simpa using hcase
    subst this
    refine ⟨?_, by rw [e1]; simp⟩
    by_contra hno
    push Not at hno
    exact hq hno trivial
  · left
    have : u = False := by simpa using hcase
    subst this
    obtain ⟨-, f, -⟩ := step_idle (R := R) A ht e1
    rw [e1, f, if_pos ha]

theorem steps_tracked (A : AllDouble s) (ha : s.active) (hd : ¬ dangling s.springs s.live)
    (C : Creeps s.env ⟨s.pos, s.vel⟩) (h : StaysInRange s ⟨s.pos, s.vel⟩)
    (hT : Still R.rnd { s with pos := s.targets, vel := fun _ => 0, unequal := False }) {ts : List ℕ}
    (ht : ∀ t ∈ ts, t ≠ 0) :
    ∃ u rs, run R.rnd s (ts.map .step) =
        .ok ({ s with pos := (restIter R.rnd s.env ⟨s.pos, s.vel⟩ (ticks ts)).pos,
                      vel := (restIter R.rnd s.env ⟨s.pos, s.vel⟩ (ticks ts)).vel, unequal := u }, rs) ∨
      run R.rnd s (ts.map .step) = .ok ({ s with pos := s.targets, vel := fun _ => 0, unequal := False }, rs) := by
  induction ts generalizing s with
  | nil => exact ⟨s.unequal, [], Or.inl rfl⟩
  | cons t ts ih =>
    have ht0 : t ≠ 0 := ht t (by simp)
    have hsum : ticks (t :: ts) = stepCount t + ticks ts := by simp [ticks]
    have hrest : ∀ (l : List ℕ) (z : State), Still R.rnd z → ∃ rs, run R.rnd z (l.map .step) = .ok (z, rs) := by
      intro l z hz
      induction l with
      | nil => exact ⟨[], rfl⟩
      | cons t l ih =>
        obtain ⟨rs, hr⟩ := ih
        simp only [List.map_cons, run, hz t, bind_ok, hr]
        exact ⟨_, rfl⟩
    rcases step_tracked (R := R) A ha hd C h ht0 with e1 | ⟨-, e1⟩
    · obtain ⟨rs, hr⟩ := hrest ts _ hT
      refine ⟨False, .more False :: rs, Or.inr ?_⟩
      simp only [List.map_cons, run, e1, bind_ok, hr]
    · obtain ⟨hl, C'⟩ := C.iter (R := R) (stepCount t)
      obtain ⟨u, rs, hr⟩ := @ih
        { s with pos := (restIter R.rnd s.env ⟨s.pos, s.vel⟩ (stepCount t)).pos,
                 vel := (restIter R.rnd s.env ⟨s.pos, s.vel⟩ (stepCount t)).vel, unequal := True }
        (exec_double A e1) ha hd C' (h.lessens hl) hT (fun t' h' => ht t' (by simp [h']))
      rcases hr with hr | hr
      · refine ⟨u, .more True :: rs, Or.inl ?_⟩
        simp only [List.map_cons, run, e1, bind_ok, hr]
        rw [hsum, restIter_add]
        rfl
      · refine ⟨u, .more True :: rs, Or.inr ?_⟩
        simp only [List.map_cons, run, e1, bind_ok, hr]

end

end Verif.Wobbly.Rounded
