import Verif.Lemmas.WobblyDrag
import Verif.Lemmas.WobblyBounded

/-! # How fast and how far a mesh moves in double precision while it is held -/

namespace Verif.Wobbly.Rounded

noncomputable section

open Classical Outcome Spec

variable (R : Rounding64)

theorem err20 {x : ℝ} (h1 : -1048576 ≤ x) (h2 : x ≤ 1048576) :
    R.rnd x - x ≤ 1 / 17179869184 ∧ -(1 / 17179869184) ≤ R.rnd x - x := by
  have := R.error (x := x) (k := 20) (by norm_num) (abs_le.2 ⟨by norm_num; linarith, by norm_num; linarith⟩)
  rw [abs_le] at this
  norm_num at this
  constructor <;> norm_num <;> linarith

/-! ## Distances from below -/

/-- A difference of at least a pixel is at most a little above the computed distance. -/
theorem distance_ge {p q : Pt} {c : ℝ} (hc : c = R.rnd (p.x - q.x) ∨ c = R.rnd (p.y - q.y)) (h1 : 1 ≤ |c|) :
    |c| ≤ distance R.rnd p q * (1 + 1 / 2 ^ 50) := by
  unfold distance
  rw [zero_add]
  have px : 0 ≤ R.rnd (R.rnd (p.x - q.x) * R.rnd (p.x - q.x)) := R.nonneg (mul_self_nonneg _)
  have py : 0 ≤ R.rnd (R.rnd (p.y - q.y) * R.rnd (p.y - q.y)) := R.nonneg (mul_self_nonneg _)
  have ey : R.rnd (R.rnd (R.rnd (p.y - q.y) * R.rnd (p.y - q.y))) = R.rnd (R.rnd (p.y - q.y) * R.rnd (p.y - q.y)) :=
    R.exact (R.double _)
  rw [ey]
  have hge : R.rnd (c * c) ≤ R.rnd (R.rnd (R.rnd (p.y - q.y) * R.rnd (p.y - q.y)) +
      R.rnd (R.rnd (p.x - q.x) * R.rnd (p.x - q.x))) := by
    rcases hc with rfl | rfl
    · exact le_rnd R (by linarith) (R.double _)
    · exact le_rnd R (by linarith) (R.double _)
  generalize R.rnd (R.rnd (R.rnd (p.y - q.y) * R.rnd (p.y - q.y)) + R.rnd (R.rnd (p.x - q.x) * R.rnd (p.x - q.x))) = S at *
  clear ey px py hc
  have tiny : (2 : ℝ) ^ (-1021 : ℤ) ≤ 1 / 2 := by
    calc (2 : ℝ) ^ (-1021 : ℤ) ≤ 2 ^ (-1 : ℤ) := zpow_le_zpow_right₀ (by norm_num) (by norm_num)
      _ = 1 / 2 := by norm_num
  have cc : c * c = |c| * |c| := (abs_mul_abs_self c).symm
  have r1 := abs_le.1 (R.relative (x := c * c) (by rw [cc]; nlinarith))
  have e53 : (2 : ℝ) ^ (-53 : ℤ) = 1 / 2 ^ 53 := by norm_num
  rw [e53] at r1
  set a := |c|
  have hS : a * a * (1 - 1 / 2 ^ 53) ≤ S := by
    rw [cc] at r1 hge
    linarith [r1.1]
  have hs : a * (1 - 1 / 2 ^ 53) ≤ Real.sqrt S := by
    refine Real.le_sqrt_of_sq_le (le_trans ?_ hS)
    have : (1 - 1 / 2 ^ 53 : ℝ) ^ 2 ≤ 1 - 1 / 2 ^ 53 := by norm_num
    calc (a * (1 - 1 / 2 ^ 53)) ^ 2 = a * a * (1 - 1 / 2 ^ 53 : ℝ) ^ 2 := by ring
      _ ≤ _ := mul_le_mul_of_nonneg_left this (by positivity)
  have s1 : (1 : ℝ) / 2 ≤ Real.sqrt S := by
    refine le_trans ?_ hs
    norm_num
    linarith
  have r2 := abs_le.1 (R.relative (x := Real.sqrt S) (tiny.trans s1))
  rw [e53] at r2
  have h2 : Real.sqrt S * (1 - 1 / 2 ^ 53) ≤ R.rnd (Real.sqrt S) := by linarith [r2.1]
  have h3 : a * (1 - 1 / 2 ^ 53) * (1 - 1 / 2 ^ 53) ≤ R.rnd (Real.sqrt S) :=
    (mul_le_mul_of_nonneg_right hs (by norm_num)).trans h2
  calc a ≤ a * ((1 - 1 / 2 ^ 53) * (1 - 1 / 2 ^ 53) * (1 + 1 / 2 ^ 50)) := by
        have : (1 : ℝ) ≤ (1 - 1 / 2 ^ 53) * (1 - 1 / 2 ^ 53) * (1 + 1 / 2 ^ 50) := by norm_num
        nlinarith
    _ = a * (1 - 1 / 2 ^ 53) * (1 - 1 / 2 ^ 53) * (1 + 1 / 2 ^ 50) := by ring
    _ ≤ _ := mul_le_mul_of_nonneg_right h3 (by norm_num)

/-! ## The range -/

/-- One coordinate of a point that is within range. -/
theorem near_coord {x d c : ℝ} (h1 : 1 ≤ d) (h2 : d ≤ 1000) (hc : 1 ≤ |R.rnd c| → |R.rnd c| ≤ x * (1 + 1 / 2 ^ 50))
    (hx : x < d) : |c| ≤ d + 1 / 1024 := by
  have hb : |R.rnd c| ≤ d + 1 / 4096 := by
    rcases le_or_gt 1 |R.rnd c| with h | h
    · have := hc h
      norm_num at this ⊢
      linarith
    · linarith
  have hc' : |c| ≤ 1001 := by
    by_contra hn
    push Not at hn
    have d1001 : Double 1001 := ⟨1001, 0, by norm_num, by norm_num, by norm_num⟩
    rcases lt_abs.1 hn with h | h
    · have := le_rnd R h.le d1001
      linarith [le_abs_self (R.rnd c)]
    · have := rnd_le R (x := c) (y := -1001) (by linarith) (double_neg d1001)
      linarith [neg_abs_le (R.rnd c)]
  obtain ⟨c1, c2⟩ := abs_le.1 hc'
  obtain ⟨e1, e2⟩ := err R (x := c) (by linarith) (by linarith)
  obtain ⟨b1, b2⟩ := abs_le.1 hb
  rw [abs_le]
  constructor <;> linarith

/-- One coordinate of a point that was out of range. -/
theorem pulled_coord {t x d c : ℝ} (ht : |t| ≤ 70000) (h1 : 1 ≤ d) (h2 : d ≤ 1000)
    (hc : 1 ≤ |c| → |c| ≤ x * (1 + 1 / 2 ^ 50)) (hx : d ≤ x) :
    |R.rnd (t - R.rnd (min d x * R.rnd (c / x))) - t| ≤ d + 1 / 1024 := by
  have x0 : 0 < x := by linarith
  have hq : |c / x| ≤ 1 + 1 / 2 ^ 50 := by
    rw [abs_div, abs_of_pos x0, div_le_iff₀ x0]
    rcases le_or_gt 1 |c| with h | h
    · have := hc h
      linarith
    · norm_num
      linarith
  obtain ⟨q1, q2⟩ := abs_le.1 hq
  norm_num at q1 q2
  have er := abs_le.1 (R.error (x := c / x) (k := 1) (by norm_num) (hq.trans (by norm_num)))
  norm_num at er
  have hk : |R.rnd (c / x)| ≤ 1 + 1 / 2 ^ 49 := by
    rw [abs_le]
    norm_num
    constructor <;> linarith
  rw [min_eq_left hx]
  have hm : |d * R.rnd (c / x)| ≤ d + 1 / 4096 := by
    rw [abs_mul, abs_of_pos (by linarith : 0 < d)]
    calc d * |R.rnd (c / x)| ≤ d * (1 + 1 / 2 ^ 49) := mul_le_mul_of_nonneg_left hk (by linarith)
      _ ≤ d + 1 / 4096 := by norm_num; linarith
  obtain ⟨m1, m2⟩ := abs_le.1 hm
  obtain ⟨t1, t2⟩ := abs_le.1 ht
  obtain ⟨a1, a2⟩ := err R (x := d * R.rnd (c / x)) (by linarith) (by linarith)
  obtain ⟨b1, b2⟩ := err R (x := t - R.rnd (d * R.rnd (c / x))) (by linarith) (by linarith)
  rw [abs_le]
  constructor <;> linarith

/-- The constrainment step puts every point within range of its target, up to rounding. -/
theorem constrain_range {d : ℝ} {t m : Mesh} (h1 : 1 ≤ d) (h2 : d ≤ 1000)
    (ht : ∀ j, |(t j).x| ≤ 70000 ∧ |(t j).y| ≤ 70000) :
    ∃ m' b, constrain R.rnd d t m = .ok (m', b) ∧ ∀ j, Near (d + 1 / 1024) (m' j) (t j) := by
  unfold constrain
  rw [if_neg (by
    rintro ⟨j, a, b⟩
    rw [b] at a
    exact a (by linarith))]
  refine ⟨_, _, rfl, fun j => ?_⟩
  by_cases hd : distance R.rnd (t j) (m j) < d
  · rw [if_pos hd]
    refine ⟨?_, ?_⟩
    · rw [abs_sub_comm]
      exact near_coord R h1 h2 (distance_ge R (Or.inl rfl)) hd
    · rw [abs_sub_comm]
      exact near_coord R h1 h2 (distance_ge R (Or.inr rfl)) hd
  · rw [if_neg hd]
    push Not at hd
    exact ⟨pulled_coord R (ht j).1 h1 h2 (distance_ge R (Or.inl rfl)) hd,
      pulled_coord R (ht j).2 h1 h2 (distance_ge R (Or.inr rfl)) hd⟩

/-! ## Forces -/

theorem clip_le {t c B : ℝ} (h : |c| ≤ B) : |clip t c| ≤ B := by
  unfold clip
  split_ifs
  · rw [abs_zero]
    exact (abs_nonneg _).trans h
  · exact h

/-- The pull of one spring in one coordinate. -/
theorem pull_coord {W o v c l ρ : ℝ} {g t u : Idx → ℝ} (h : Coord W o v g t) (hg : Grid g) (hs : Sane W v)
    {i j : Idx} (hc : c = (g j - g i) / 3) (hl : Len W v c l) (hρ : ρ ≤ 1001) (hu : ∀ i, |u i - t i| ≤ ρ) :
    |R.rnd (1 / 2 * R.rnd (R.rnd (u j - u i) + R.rnd (l * -1)))| ≤ ρ + 1 / 4 ∧
    |R.rnd (1 / 2 * R.rnd (R.rnd (u i - u j) + l))| ≤ ρ + 1 / 4 := by
  have bi := h.bounds hg hs i
  have bj := h.bounds hg hs j
  have ni := abs_le.1 (h.near i)
  have nj := abs_le.1 (h.near j)
  have ui := abs_le.1 (hu i)
  have uj := abs_le.1 (hu j)
  have p := hs.prod
  have p1 := hs.one
  have p2 := hs.big
  have cell1 := hg.cell hs.one i
  have cell2 := hg.cell hs.one j
  have hl' := abs_le.1 hl
  have ec : c * W = g j * (W / 3) - g i * (W / 3) := by rw [hc]; ring
  rw [ec] at hl'
  obtain ⟨a1, a2⟩ := err R (x := u j - u i) (by linarith) (by linarith)
  obtain ⟨a3, a4⟩ := err R (x := u i - u j) (by linarith) (by linarith)
  obtain ⟨a5, a6⟩ := err R (x := l * -1) (by linarith) (by linarith)
  obtain ⟨b1, b2⟩ := err R (x := R.rnd (u j - u i) + R.rnd (l * -1)) (by linarith) (by linarith)
  obtain ⟨b3, b4⟩ := err R (x := R.rnd (u i - u j) + l) (by linarith) (by linarith)
  obtain ⟨c1, c2⟩ := err R (x := 1 / 2 * R.rnd (R.rnd (u j - u i) + R.rnd (l * -1))) (by linarith) (by linarith)
  obtain ⟨c3, c4⟩ := err R (x := 1 / 2 * R.rnd (R.rnd (u i - u j) + l)) (by linarith) (by linarith)
  rw [abs_le, abs_le]
  refine ⟨⟨?_, ?_⟩, ?_, ?_⟩ <;> linarith

/-- The force on a point with at most four springs. -/
theorem forces_fold {k B : ℝ} {at_ : Node → Pt} (n : Node) {l : List Spring} (B0 : 0 ≤ B) (hB : B ≤ 20000)
    (ha : ∀ y ∈ l, Near B (scale R.rnd (deltaA R.rnd y at_) k) 0) (hb : ∀ y ∈ l, Near B (scale R.rnd (deltaB R.rnd y at_) k) 0)
    (hne : ∀ y ∈ l, y.a ≠ y.b) (h4 : l.countP (fun y => y.a = n ∨ y.b = n) ≤ 4) :
    Near (l.countP (fun y => y.a = n ∨ y.b = n) * (B + 1 / 1024)) ((calculateForces R.rnd k at_ l).1 n) 0 := by
  induction l using List.reverseRecOn with
  | nil => simp [calculateForces, Near]
  | append_singleton l y ih =>
    rw [List.countP_append] at h4 ⊢
    have ih' := ih (fun z hz => ha z (by simp [hz])) (fun z hz => hb z (by simp [hz])) (fun z hz => hne z (by simp [hz]))
      (by omega)
    have e : calculateForces R.rnd k at_ (l ++ [y]) = ((applyForces R.rnd y k at_ (calculateForces R.rnd k at_ l).1).1,
        (calculateForces R.rnd k at_ l).2 ∨ (applyForces R.rnd y k at_ (calculateForces R.rnd k at_ l).1).2) := by
      unfold calculateForces
      rw [List.foldl_append]
      rfl
    rw [e]
    have hn := hne y (by simp)
    generalize (calculateForces R.rnd k at_ l).1 = F at ih'
    have step : ∀ {c : ℕ} {p q : Pt}, c + 1 ≤ 4 → Near (c * (B + 1 / 1024)) p 0 → Near B q 0 →
        Near ((c + 1 : ℕ) * (B + 1 / 1024)) (add R.rnd p q) 0 := by
      intro c p q hc hp hq
      have hc' : (c : ℝ) ≤ 3 := by exact_mod_cast (by omega : c ≤ 3)
      have cb : (c : ℝ) * (B + 1 / 1024) ≤ 3 * (B + 1 / 1024) := mul_le_mul_of_nonneg_right hc' (by linarith)
      obtain ⟨p1, p2⟩ := hp
      obtain ⟨q1, q2⟩ := hq
      simp only [Pt.zero_x, Pt.zero_y, sub_zero, abs_le] at p1 p2 q1 q2
      obtain ⟨a1, a2⟩ := err R (x := p.x + q.x) (by linarith) (by linarith)
      obtain ⟨b1, b2⟩ := err R (x := p.y + q.y) (by linarith) (by linarith)
      push_cast
      rw [add_mul, one_mul]
      refine ⟨?_, ?_⟩
      · simp only [add, Pt.zero_x, sub_zero, abs_le]
        constructor <;> linarith
      · simp only [add, Pt.zero_y, sub_zero, abs_le]
        constructor <;> linarith
    simp only [applyForces, addForce]
    by_cases h1 : y.a = n
    · have h2 : y.b ≠ n := fun h => hn (h1.trans h.symm)
      have c1 : List.countP (fun y : Spring => decide (y.a = n ∨ y.b = n)) [y] = 1 := by simp [h1]
      rw [c1] at h4 ⊢
      rw [if_neg (Ne.symm h2), if_pos h1.symm]
      exact step h4 ih' (ha y (by simp))
    · by_cases h2 : y.b = n
      · have c1 : List.countP (fun y : Spring => decide (y.a = n ∨ y.b = n)) [y] = 1 := by simp [h2]
        rw [c1] at h4 ⊢
        rw [if_pos h2.symm, if_neg (Ne.symm h1)]
        exact step h4 ih' (hb y (by simp))
      · have c1 : List.countP (fun y : Spring => decide (y.a = n ∨ y.b = n)) [y] = 0 := by simp [h1, h2]
        rw [c1] at h4 ⊢
        rw [if_neg (Ne.symm h2), if_neg (Ne.symm h1), add_zero]
        exact ih'

/-! ## Velocities -/

/-- Spring constant and friction from 0.1 to 10 and a range from 1 to 1000. -/
structure Mild (x : Settings) : Prop where
  k1 : 1 / 10 ≤ x.springConstant
  k2 : x.springConstant ≤ 10
  f1 : 1 / 10 ≤ x.friction
  f2 : x.friction ≤ 10
  r1 : 1 ≤ x.maximumRange
  r2 : x.maximumRange ≤ 1000

/-- The velocity that is not exceeded. -/
def limit (x : Settings) : ℝ := 4 * x.springConstant * (x.maximumRange + 1) / x.friction

theorem Mild.prod {x : Settings} (H : Mild x) : 0 ≤ x.springConstant * x.maximumRange ∧
    x.springConstant * x.maximumRange ≤ 10000 := by
  obtain ⟨k1, k2, -, -, r1, r2⟩ := H
  refine ⟨mul_nonneg (by linarith) (by linarith), ?_⟩
  calc _ ≤ (10 : ℝ) * 1000 := mul_le_mul k2 r2 (by linarith) (by norm_num)
    _ = _ := by norm_num

theorem Mild.limit_mul {x : Settings} (H : Mild x) : limit x * x.friction = 4 * x.springConstant * (x.maximumRange + 1) :=
  div_mul_cancel₀ _ (by linarith [H.f1])

theorem Mild.limit_le {x : Settings} (H : Mild x) : 0 ≤ limit x ∧ limit x ≤ 400400 := by
  have h := H.limit_mul
  have p := H.prod
  have f := H.f1
  have k := H.k1
  have k' := H.k2
  have f0 : 0 < x.friction := by linarith
  refine ⟨div_nonneg (mul_nonneg (by linarith) (by linarith [H.r1])) f0.le, ?_⟩
  unfold limit
  rw [div_le_iff₀ f0]
  nlinarith

theorem velocity_paced {x : Settings} (H : Mild x) {v F : ℝ} (hv : |v| ≤ limit x)
    (hF : |F| ≤ 4 * x.springConstant * (x.maximumRange + 1 / 2)) :
    |eulerVelocity R.rnd 1 x.friction mass v F| ≤ limit x := by
  refine clip_le ?_
  have hm := H.limit_mul
  obtain ⟨l0, l1⟩ := H.limit_le
  obtain ⟨p0, p1⟩ := H.prod
  obtain ⟨k1, k2, f1, f2, r1, r2⟩ := H
  set V := limit x
  set f := x.friction
  clear_value V f
  have hvf : |v * f| ≤ V * f := by
    rw [abs_mul, abs_of_pos (by linarith : 0 < f)]
    exact mul_le_mul_of_nonneg_right hv (by linarith)
  have hw : |v * (1 - f / 15)| ≤ V * (1 - f / 15) := by
    rw [abs_mul, abs_of_nonneg (a := 1 - f / 15) (by linarith)]
    exact mul_le_mul_of_nonneg_right hv (by linarith)
  rw [abs_le] at hv hF hvf hw
  rw [hm] at hvf
  have em : R.rnd (1 / mass) - 1 / 15 ≤ 1 / 2 ^ 50 ∧ -(1 / 2 ^ 50) ≤ R.rnd (1 / mass) - 1 / 15 := by
    have := abs_le.1 (R.error (x := 1 / 15) (k := -1) (by norm_num) (by rw [abs_of_pos (by norm_num)]; norm_num))
    unfold mass
    norm_num at this ⊢
    constructor <;> linarith
  generalize R.rnd (1 / mass) = M at *
  rw [zero_add]
  obtain ⟨a1, a2⟩ := err20 R (x := v) (by linarith) (by linarith)
  have b0 : |(R.rnd v - v) * f| ≤ 10 / 17179869184 := by
    rw [abs_mul, abs_of_pos (by linarith : 0 < f)]
    calc _ ≤ (1 / 17179869184 : ℝ) * 10 := mul_le_mul (abs_le.2 ⟨by linarith, a1⟩) f2 (by linarith) (by norm_num)
      _ = _ := by norm_num
  rw [abs_le, sub_mul] at b0
  obtain ⟨b1, b2⟩ := err R (x := R.rnd v * f) (by linarith) (by linarith)
  obtain ⟨c1, c2⟩ := err R (x := F - R.rnd (R.rnd v * f)) (by linarith) (by linarith)
  generalize R.rnd (F - R.rnd (R.rnd v * f)) = D at *
  generalize R.rnd (R.rnd v * f) = E at *
  have D1 : |D| ≤ 100000 := by rw [abs_le]; constructor <;> linarith
  have d0 : |D * (M - 1 / 15)| ≤ 100000 * (1 / 2 ^ 50) := by
    rw [abs_mul]
    exact mul_le_mul D1 (abs_le.2 ⟨em.2, em.1⟩) (abs_nonneg _) (by norm_num)
  rw [abs_le, mul_sub] at d0
  norm_num at d0
  rw [abs_le] at D1
  obtain ⟨d1, d2⟩ := err R (x := D * M) (by linarith) (by linarith)
  rw [mul_one]
  obtain ⟨g1, g2⟩ := err R (x := R.rnd (D * M)) (by linarith) (by linarith)
  generalize R.rnd (R.rnd (D * M)) = G at *
  obtain ⟨h1, h2⟩ := err20 R (x := v + G) (by linarith) (by linarith)
  rw [abs_le]
  constructor <;> linarith

/-! ## A model held at one point -/

/-- The springs join the points they joined at first, in whatever order. -/
def Joined (l : List Spring) : Prop :=
  (l.map fun y => (y.a, y.b)).Perm (baseEdges.map fun e => (Node.mesh e.1, Node.mesh e.2.1))

theorem joined_base (t : Pt) (b : ℕ) : Joined (baseSprings t b) := by
  unfold Joined baseSprings
  rw [List.map_map]
  have : (fun y : Spring => (y.a, y.b)) ∘ (fun e : (Idx × Idx × Bool) × ℕ =>
      ({ id := b + e.2 + 1, a := .mesh e.1.1, b := .mesh e.1.2.1,
         desired := if e.1.2.2 then ⟨0, t.y⟩ else ⟨t.x, 0⟩ } : Spring)) =
      (fun e : Idx × Idx × Bool => (Node.mesh e.1, Node.mesh e.2.1)) ∘ Prod.fst := rfl
  rw [this, ← List.map_map, List.zipIdx_map_fst]

theorem Joined.count {l : List Spring} (h : Joined l) (j : Idx) :
    l.countP (fun y => y.a = .mesh j ∨ y.b = .mesh j) ≤ 4 := by
  have e1 : l.countP (fun y => y.a = .mesh j ∨ y.b = .mesh j) =
      (l.map fun y => (y.a, y.b)).countP fun z => z.1 = .mesh j ∨ z.2 = .mesh j := by
    rw [List.countP_map]
    rfl
  rw [e1, h.countP_eq, List.countP_map]
  refine le_trans (le_of_eq ?_) (degree_le j)
  refine List.countP_congr fun z _ => ?_
  simp only [Function.comp, decide_eq_true_eq, Node.mesh.injEq]
  constructor <;> rintro (h | h) <;> simp [h]

theorem Joined.ne {l : List Spring} (h : Joined l) : ∀ y ∈ l, y.a ≠ y.b := by
  intro y hy e
  have : (y.a, y.b) ∈ l.map fun y => (y.a, y.b) := List.mem_map.2 ⟨y, hy, rfl⟩
  rw [h.mem_iff, List.mem_map] at this
  obtain ⟨z, hz, ez⟩ := this
  simp only [Prod.mk.injEq] at ez
  refine no_loops z hz ?_
  rw [← ez.1, ← ez.2] at e
  exact Node.mesh.inj e

/-- A model held at point `i` with velocities below the limit. -/
structure Paced (i : Idx) (h : ℕ) (o : Pt) (v : ℝ) (s : State) : Prop where
  held : Held i h o v s
  mild : Mild s.settings
  fits : ∀ y ∈ s.springs, Fits s.width s.height v y
  joined : Joined s.springs
  vel : ∀ j, Near (limit s.settings) (s.vel j) 0

variable {R} {i : Idx} {h : ℕ} {o : Pt} {v : ℝ} {s : State}

theorem Held.targets_le (H : Held i h o v s) (j : Idx) : |(s.targets j).x| ≤ 70000 ∧ |(s.targets j).y| ≤ 70000 := by
  have key : ∀ {W o : ℝ} {g t : Idx → ℝ}, Coord W o v g t → Grid g → Sane W v → |o| ≤ 32768 → |t j| ≤ 70000 := by
    intro W o g t hc hg hs ho
    have n := abs_le.1 (hc.near j)
    have n0 := abs_le.1 hc.origin
    have c := hg.cell hs.one j
    have p := hs.prod
    have b := hs.big
    have v1 := hs.calls
    rw [abs_le] at ho ⊢
    constructor <;> linarith
  exact ⟨key H.tx col_grid H.sw H.ox, key H.ty row_grid H.sh H.oy⟩

theorem Paced.round (P : Paced i h o v s) {q : Phys} (hq : ∀ j, Near (limit s.settings) (q.vel j) 0) :
    ∃ q' b, round R.rnd s q = .ok (q', b) ∧ (∀ j, Near (limit s.settings) (q'.vel j) 0) ∧
      ∀ j, Near (s.settings.maximumRange + limit s.settings / 2 + 1) (q'.pos j) (s.targets j) := by
  have M := P.mild
  obtain ⟨l0, l1⟩ := M.limit_le
  have r1 := M.r1
  have r2 := M.r2
  have k1 := M.k1
  have k2 := M.k2
  have kr := M.prod
  unfold Rounded.round
  rw [if_pos (show s.active from P.held.count)]
  obtain ⟨m, b, e, hm⟩ := constrain_range R (d := s.settings.maximumRange) (t := s.targets) (m := q.pos) r1 r2
    P.held.targets_le
  rw [e]
  have scaled : ∀ {c : ℝ}, |c| ≤ s.settings.maximumRange + 1 / 1024 + 1 / 4 →
      |R.rnd (clip (1 / 2) c * s.settings.springConstant)| ≤
        s.settings.springConstant * (s.settings.maximumRange + 1 / 2) - 1 / 1024 := by
    intro c hc
    have h1 : |clip (1 / 2) c * s.settings.springConstant| ≤
        (s.settings.maximumRange + 1 / 1024 + 1 / 4) * s.settings.springConstant := by
      rw [abs_mul, abs_of_pos (by linarith : 0 < s.settings.springConstant)]
      exact mul_le_mul_of_nonneg_right (clip_le hc) (by linarith)
    rw [abs_le] at h1
    have e1 : (s.settings.maximumRange + 1 / 1024 + 1 / 4) * s.settings.springConstant =
        s.settings.springConstant * s.settings.maximumRange + (1 / 1024 + 1 / 4) * s.settings.springConstant := by ring
    rw [e1] at h1
    obtain ⟨a1, a2⟩ := err R (x := clip (1 / 2) c * s.settings.springConstant) (by linarith) (by linarith)
    rw [abs_le, mul_add]
    constructor <;> linarith
  have pulls : ∀ y ∈ s.springs,
      Near (s.settings.springConstant * (s.settings.maximumRange + 1 / 2) - 1 / 1024)
        (scale R.rnd (deltaA R.rnd y (s.env.at_ m)) s.settings.springConstant) 0 ∧
      Near (s.settings.springConstant * (s.settings.maximumRange + 1 / 2) - 1 / 1024)
        (scale R.rnd (deltaB R.rnd y (s.env.at_ m)) s.settings.springConstant) 0 := by
    intro y hy
    obtain ⟨a, c, ha, hc, lx, ly⟩ := P.fits y hy
    have X := pull_coord R P.held.tx col_grid P.held.sw (i := a) (j := c) rfl lx (ρ := s.settings.maximumRange + 1 / 1024)
      (by linarith) (u := fun j => (m j).x) fun j => (hm j).1
    have Y := pull_coord R P.held.ty row_grid P.held.sh (i := a) (j := c) rfl ly (ρ := s.settings.maximumRange + 1 / 1024)
      (by linarith) (u := fun j => (m j).y) fun j => (hm j).2
    unfold deltaA deltaB
    rw [ha, hc]
    simp only [Near, scale, deltaFromDesired, resetIfCloseToZero, Env.at_, Pt.zero_x, Pt.zero_y, sub_zero]
    exact ⟨⟨scaled X.1, scaled Y.1⟩, scaled X.2, scaled Y.2⟩
  have force : ∀ j, Near (4 * s.settings.springConstant * (s.settings.maximumRange + 1 / 2))
      ((calculateForces R.rnd s.env.k (s.env.at_ m) s.env.springs).1 (.mesh j)) 0 := by
    intro j
    have hc := P.joined.count j
    have := forces_fold R (k := s.settings.springConstant) (at_ := s.env.at_ m) (.mesh j) (l := s.springs)
      (B := s.settings.springConstant * (s.settings.maximumRange + 1 / 2) - 1 / 1024)
      (by nlinarith) (by linarith) (fun y hy => (pulls y hy).1) (fun y hy => (pulls y hy).2) P.joined.ne hc
    have hc' : ((s.springs.countP (fun y => y.a = .mesh j ∨ y.b = .mesh j) : ℕ) : ℝ) ≤ 4 := by exact_mod_cast hc
    have le : (s.springs.countP (fun y => y.a = .mesh j ∨ y.b = .mesh j) : ℕ) *
        (s.settings.springConstant * (s.settings.maximumRange + 1 / 2) - 1 / 1024 + 1 / 1024) ≤
        4 * s.settings.springConstant * (s.settings.maximumRange + 1 / 2) := by
      rw [sub_add_cancel, mul_assoc]
      exact mul_le_mul_of_nonneg_right hc' (mul_nonneg (by linarith) (by linarith))
    exact ⟨this.1.trans le, this.2.trans le⟩
  have vels : ∀ j, Near (limit s.settings) ((springRound R.rnd s.env ⟨m, q.vel⟩).1.vel j) 0 := by
    intro j
    obtain ⟨fx, fy⟩ := force j
    obtain ⟨vx, vy⟩ := hq j
    simp only [Pt.zero_x, Pt.zero_y, sub_zero] at fx fy vx vy
    simp only [springRound, anchoredIntegration, Near, Pt.zero_x, Pt.zero_y, sub_zero]
    split_ifs
    · simpa [Pt.assignValue] using l0
    · exact ⟨velocity_paced R M vx fx, velocity_paced R M vy fy⟩
  refine ⟨_, _, rfl, vels, fun j => ?_⟩
  have half : ∀ {p u t : ℝ}, |u - 0| ≤ limit s.settings → |p - t| ≤ s.settings.maximumRange + 1 / 1024 → |t| ≤ 70000 →
      |R.rnd (p + R.rnd (u * R.rnd (1 / 2))) - t| ≤ s.settings.maximumRange + limit s.settings / 2 + 1 := by
    intro p u t hu hp ht
    have e2 : R.rnd (1 / 2) = 1 / 2 := R.exact ⟨1, -1, by norm_num, by norm_num, by norm_num⟩
    rw [e2]
    rw [sub_zero] at hu
    rw [abs_le] at hu hp ht
    obtain ⟨a1, a2⟩ := err20 R (x := u * (1 / 2)) (by linarith) (by linarith)
    obtain ⟨b1, b2⟩ := err20 R (x := p + R.rnd (u * (1 / 2))) (by linarith) (by linarith)
    rw [abs_le]
    constructor <;> linarith
  have hj := hm j
  have ht := P.held.targets_le j
  have hv := vels j
  simp only [springRound, anchoredIntegration] at hv ⊢
  split_ifs at hv ⊢
  · exact ⟨hj.1.trans (by linarith), hj.2.trans (by linarith)⟩
  · exact ⟨half hv.1 hj.1 ht.1, half hv.2 hj.2 ht.2⟩

theorem Paced.rounds (P : Paced i h o v s) (n : ℕ) {q : Phys} (hq : ∀ j, Near (limit s.settings) (q.vel j) 0) :
    ∃ q' b, rounds R.rnd s n q = .ok (q', b) ∧ (∀ j, Near (limit s.settings) (q'.vel j) 0) ∧
      (n ≠ 0 → ∀ j, Near (s.settings.maximumRange + limit s.settings / 2 + 1) (q'.pos j) (s.targets j)) := by
  induction n generalizing q with
  | zero => exact ⟨q, _, rfl, hq, fun h => absurd rfl h⟩
  | succ n ih =>
    obtain ⟨q1, b1, e1, v1, p1⟩ := P.round (R := R) hq
    obtain ⟨q2, b2, e2, v2, p2⟩ := ih v1
    simp only [Rounded.rounds, e1, e2, bind_ok]
    refine ⟨_, _, rfl, v2, fun _ => ?_⟩
    rcases n with _ | n
    · simp only [Rounded.rounds, Outcome.ok.injEq, Prod.mk.injEq] at e2
      rw [← e2.1]
      exact p1
    · exact p2 (by omega)

/-- `Step` keeps the velocities below the limit and the mesh near the targets. -/
theorem Paced.step (P : Paced i h o v s) (t : ℕ) :
    ∃ s' more, step R.rnd s t = .ok (s', .more more) ∧ Paced i h o v s' ∧ s'.settings = s.settings ∧ s'.width = s.width ∧
      s'.height = s.height ∧ s'.targets = s.targets ∧
      (t ≠ 0 → ∀ j, Near (s.settings.maximumRange + limit s.settings / 2 + 1) (s'.pos j) (s.targets j)) := by
  obtain ⟨s', more, e, H', ew, eh, et, -⟩ := P.held.step (R := R) t
  obtain ⟨q, b, er, hv, hp⟩ := P.rounds (R := R) (stepCount t) (q := ⟨s.pos, s.vel⟩) P.vel
  have e' := e
  unfold Rounded.step at e'
  rw [if_neg fun hc => P.held.sound hc.2, er] at e'
  simp only [bind_ok, Outcome.ok.injEq, Prod.mk.injEq] at e'
  obtain ⟨e1, -⟩ := e'
  refine ⟨s', more, e, ?_, ?_, ew, eh, et, ?_⟩
  · rw [← e1] at H' ⊢
    exact ⟨H', P.mild, P.fits, P.joined, hv⟩
  · rw [← e1]
  · intro ht j
    rw [← e1]
    have M := P.mild
    have l := M.limit_le
    have r1 := M.r1
    show Near _ ((if _ then s.targets else q.pos) j) _
    split_ifs
    · simp only [Near, sub_self, abs_zero]
      constructor <;> linarith
    · exact hp (by have := stepCount_pos ht; omega) j

/-! ## The other calls -/

theorem fits_resize (R : Rounding64) {W H v w hh : ℝ} {y : Spring} (sw : Sane W v) (sh : Sane H v) (sw' : Sane w v)
    (sh' : Sane hh v) (hy : Fits W H v y) :
    Fits w hh (v + 1) { y with desired := pscale R.rnd y.desired ⟨R.rnd (w / W), R.rnd (hh / H)⟩ } := by
  obtain ⟨i, j, ha, hb, lx, ly⟩ := hy
  refine ⟨i, j, ha, hb, len_resize R lx ?_ sw sw', len_resize R ly ?_ sh sh'⟩
  · have := col_grid.nonneg i
    have := col_grid.nonneg j
    have := col_grid.le i
    have := col_grid.le j
    rw [abs_le]
    constructor <;> linarith
  · have := row_grid.nonneg i
    have := row_grid.nonneg j
    have := row_grid.le i
    have := row_grid.le j
    rw [abs_le]
    constructor <;> linarith

theorem Joined.map {l : List Spring} (h : Joined l) {g : Spring → Spring} (hg : ∀ y, (g y).a = y.a ∧ (g y).b = y.b) :
    Joined (l.map g) := by
  unfold Joined at h ⊢
  rw [List.map_map]
  exact (List.Perm.of_eq (List.map_congr_left fun y _ => Prod.ext (hg y).1 (hg y).2)).trans h

theorem Paced.later (P : Paced i h o v s) {s' : State} {o' : Pt} (H : Held i h o' (v + 1) s') (es : s'.settings = s.settings)
    (ep : s'.springs = s.springs) (ev : s'.vel = s.vel) (ew : s'.width = s.width) (eh : s'.height = s.height) :
    Paced i h o' (v + 1) s' := by
  refine ⟨H, by rw [es]; exact P.mild, ?_, by rw [ep]; exact P.joined, by rw [es, ev]; exact P.vel⟩
  rw [ep, ew, eh]
  exact fun y hy => fits_next P.held.sw.one P.held.sh.one (P.fits y hy)

variable (R)

theorem Paced.drag (P : Paced i h o v s) (d : Pt) (hv : v + 1 ≤ 65536) (hx : |o.x + d.x| ≤ 32768) (hy : |o.y + d.y| ≤ 32768) :
    ∃ s', moveAnchor R.rnd s h d = .ok (s', .none) ∧ Paced i h ⟨o.x + d.x, o.y + d.y⟩ (v + 1) s' ∧
      s'.settings = s.settings ∧ s'.width = s.width ∧ s'.height = s.height := by
  obtain ⟨s', e, H, ew, eh⟩ := P.held.drag R d hv hx hy
  have e' := e
  unfold moveAnchor at e'
  rw [P.held.live] at e'
  simp only [List.find?_cons_of_pos, decide_true, Outcome.ok.injEq, Prod.mk.injEq] at e'
  obtain ⟨e1, -⟩ := e'
  have es : s'.settings = s.settings := by rw [← e1]
  refine ⟨s', e, P.later H es ?_ ?_ ew eh, es, ew, eh⟩
  · rw [← e1]
  · rw [← e1]

theorem Paced.moveTo (P : Paced i h o v s) (p : Pt) (hv : v + 1 ≤ 65536) (hx : |p.x| ≤ 32768) (hy : |p.y| ≤ 32768) :
    ∃ s', moveTo R.rnd s p = .ok (s', .none) ∧ Paced i h p (v + 1) s' ∧ s'.settings = s.settings ∧ s'.width = s.width ∧
      s'.height = s.height := by
  obtain ⟨s', e, H, ew, eh⟩ := P.held.moveTo R p hv hx hy
  have e' := e
  unfold Rounded.moveTo at e'
  rw [P.held.target] at e'
  simp only [bind_ok, Outcome.ok.injEq, Prod.mk.injEq] at e'
  obtain ⟨e1, -⟩ := e'
  have es : s'.settings = s.settings := by rw [← e1]; rfl
  refine ⟨s', e, P.later H es ?_ ?_ ew eh, es, ew, eh⟩
  · rw [← e1]; rfl
  · rw [← e1]; rfl

theorem Paced.resize (P : Paced i h o v s) {w hh : ℝ} (hv : v + 1 ≤ 65536)
    (w1 : 1 ≤ w) (w2 : w ≤ 32768) (dw : Double w) (h1 : 1 ≤ hh) (h2 : hh ≤ 32768) (dh : Double hh) :
    ∃ s', resize R.rnd s w hh = .ok (s', .none) ∧ Paced i h o (v + 1) s' ∧ s'.settings = s.settings ∧ s'.width = w ∧
      s'.height = hh := by
  obtain ⟨s', e, H, ew, eh⟩ := P.held.resize R (w := w) (hh := hh) hv w1 w2 dw h1 h2 dh
  have e' := e
  have W0 : 0 < s.width := by linarith [P.held.sw.one]
  have H0 : 0 < s.height := by linarith [P.held.sh.one]
  have sw' : Sane w v := ⟨w1, w2, P.held.sw.first, P.held.sw.calls⟩
  have sh' : Sane hh v := ⟨h1, h2, P.held.sw.first, P.held.sw.calls⟩
  unfold Rounded.resize at e'
  rw [if_neg (by push Not; constructor <;> linarith), if_neg (by push Not; constructor <;> linarith)] at e'
  by_cases he : Pt.equals ⟨R.rnd (w / s.width), R.rnd (hh / s.height)⟩ ⟨1, 1⟩
  · simp only [if_pos he, Outcome.ok.injEq, Prod.mk.injEq] at e'
    obtain ⟨e1, -⟩ := e'
    rw [← e1] at ew eh H
    refine ⟨s', e, ?_, ?_, by rw [← e1]; exact ew, by rw [← e1]; exact eh⟩
    · rw [← e1]
      exact P.later H rfl rfl rfl rfl rfl
    · rw [← e1]
  · simp only [if_neg he, P.held.target, bind_ok, Outcome.ok.injEq, Prod.mk.injEq] at e'
    obtain ⟨e1, -⟩ := e'
    rw [← e1] at ew eh H
    refine ⟨s', e, ?_, by rw [← e1], by rw [← e1], by rw [← e1]⟩
    rw [← e1]
    refine ⟨H, P.mild, ?_, P.joined.map fun y => ⟨rfl, rfl⟩, P.vel⟩
    intro y hy
    obtain ⟨z, hz, rfl⟩ := List.mem_map.1 hy
    exact fits_resize R P.held.sw P.held.sh sw' sh' (P.fits z hz)

/-- Whatever is done while the model is held. -/
theorem paced_run {i : Idx} {a : ℕ} {o : Spot} {s : State} {v : ℝ} {held : List HeldOp} (P : Paced i a o.place v s)
    (ew : s.width = o.width) (eh : s.height = o.height) (hr : o.StaysHeld held) (hn : v + heldEdits held ≤ 65536) :
    ∃ s' rs, run R.rnd s (held.map (HeldOp.call a)) = .ok (s', rs) ∧
      Paced i a (o.heldAll held).place (v + heldEdits held) s' ∧ s'.settings = s.settings ∧
      s'.width = (o.heldAll held).width ∧ s'.height = (o.heldAll held).height := by
  induction held generalizing o s v with
  | nil => exact ⟨s, [], rfl, by simpa [heldEdits, Spot.heldAll] using P, rfl, ew, eh⟩
  | cons op ops ih =>
    have hr' : (o.held op).StaysHeld ops := fun n => hr (n + 1)
    have hon : (o.held op).OnScreen := by simpa [Spot.heldAll] using hr' 0
    have key : ∀ (s1 : State) (y : Res) (v1 : ℝ), exec R.rnd s (op.call a) = .ok (s1, y) → Paced i a (o.held op).place v1 s1 →
        s1.settings = s.settings →
        s1.width = (o.held op).width → s1.height = (o.held op).height → v1 + heldEdits ops = v + heldEdits (op :: ops) →
        ∃ s' rs, run R.rnd s ((op :: ops).map (HeldOp.call a)) = .ok (s', rs) ∧
          Paced i a (o.heldAll (op :: ops)).place (v + heldEdits (op :: ops)) s' ∧ s'.settings = s.settings ∧
          s'.width = (o.heldAll (op :: ops)).width ∧ s'.height = (o.heldAll (op :: ops)).height := by
      intro s1 y v1 e1 r1 es w1 h1 ev
      obtain ⟨s', rs, e, r2, es', w2, h2⟩ := ih r1 w1 h1 hr' (by rw [ev]; exact hn)
      refine ⟨s', y :: rs, ?_, ?_, es'.trans es, w2, h2⟩
      · simp only [List.map_cons, run, e1, bind_ok, e]
      · rw [← ev]
        exact r2
    have one : heldEdits (op :: ops) = heldEdits ops + 1 → v + 1 ≤ 65536 := by
      intro e
      rw [e] at hn
      push_cast at hn
      have : (0 : ℝ) ≤ heldEdits ops := by positivity
      linarith
    have more : heldEdits (op :: ops) = heldEdits ops + 1 → v + 1 + heldEdits ops = v + heldEdits (op :: ops) := by
      intro e
      rw [e]
      push_cast
      ring
    cases op with
    | drag d =>
      have e1 : heldEdits (.drag d :: ops) = heldEdits ops + 1 := by simp [heldEdits]
      obtain ⟨s1, e, r1, es, a1, a2⟩ := P.drag R d (one e1) hon.placeX hon.placeY
      exact key s1 _ (v + 1) e r1 es (a1.trans ew) (a2.trans eh) (more e1)
    | model op =>
      cases op with
      | step t =>
        obtain ⟨s1, m, e, r1, es, a1, a2, -⟩ := P.step (R := R) t
        exact key s1 _ v e r1 es (a1.trans ew) (a2.trans eh) (by simp [heldEdits])
      | moveBy d =>
        have e1 : heldEdits (.model (.moveBy d) :: ops) = heldEdits ops + 1 := by simp [heldEdits]
        exact key _ _ (v + 1) rfl (P.later (P.held.moveBy R d (one e1) hon.placeX hon.placeY) rfl rfl rfl rfl rfl) rfl ew eh
          (more e1)
      | moveTo q =>
        have e1 : heldEdits (.model (.moveTo q) :: ops) = heldEdits ops + 1 := by simp [heldEdits]
        obtain ⟨s1, e, r1, es, a1, a2⟩ := P.moveTo R q (one e1) hon.placeX hon.placeY
        exact key s1 _ (v + 1) e r1 es (a1.trans ew) (a2.trans eh) (more e1)
      | resize w' h' =>
        have e1 : heldEdits (.model (.resize w' h') :: ops) = heldEdits ops + 1 := by simp [heldEdits]
        obtain ⟨s1, e, r1, es, a1, a2⟩ := P.resize R (w := w') (hh := h') (one e1) hon.widthMin hon.widthMax
          hon.widthDouble hon.heightMin hon.heightMax hon.heightDouble
        exact key s1 _ (v + 1) e r1 es a1 a2 (more e1)

/-! ## Before the grab -/

theorem exec_joined (r : ℝ → ℝ) {f f' : Free} {op : FreeOp} {y : Res} (hj : Joined f.springs)
    (e : f.exec r op = .ok (f', y)) : Joined f'.springs := by
  cases op with
  | step t =>
    simp only [Free.exec, Free.step, Outcome.ok.injEq, Prod.mk.injEq] at e
    obtain ⟨rfl, -⟩ := e
    exact hj
  | moveBy d =>
    simp only [Free.exec, Outcome.ok.injEq, Prod.mk.injEq] at e
    obtain ⟨rfl, -⟩ := e
    exact hj
  | moveTo p =>
    simp only [Free.exec, Free.moveTo, Free.targetPosition, bind_eq_ok, Outcome.ok.injEq, Prod.mk.injEq] at e
    obtain ⟨a, ⟨q, -, rfl⟩, rfl, -⟩ := e
    exact hj
  | resize w hh =>
    simp only [Free.exec, Free.resize] at e
    split_ifs at e
    · simp only [Outcome.ok.injEq, Prod.mk.injEq] at e
      obtain ⟨rfl, -⟩ := e
      exact hj
    · simp only [Free.targetPosition, bind_eq_ok, Outcome.ok.injEq, Prod.mk.injEq] at e
      obtain ⟨a, ⟨q, -, rfl⟩, rfl, -⟩ := e
      exact hj.map fun y => ⟨rfl, rfl⟩

theorem run_joined (r : ℝ → ℝ) {f f' : Free} {ops : List FreeOp} {ys : List Res} (hj : Joined f.springs)
    (e : f.run r ops = .ok (f', ys)) : Joined f'.springs := by
  induction ops generalizing f ys with
  | nil =>
    simp only [Free.run, Outcome.ok.injEq, Prod.mk.injEq] at e
    obtain ⟨rfl, -⟩ := e
    exact hj
  | cons op ops ih =>
    simp only [Free.run, bind_eq_ok, Outcome.ok.injEq, Prod.mk.injEq] at e
    obtain ⟨a, ha, b, hb, rfl, -⟩ := e
    exact ih (exec_joined r hj ha) hb

/-- What `GrabAnchor` leaves alone. -/
theorem grab_same (r : ℝ → ℝ) {s s' : State} {p : Pt} {y : Res} (e : grab r s p = .ok (s', y)) :
    s'.springs = s.springs ∧ s'.vel = s.vel ∧ s'.settings = s.settings := by
  unfold grab at e
  split at e
  · cases e
  · rw [bind_eq_ok] at e
    obtain ⟨s1, e1, e2⟩ := e
    simp only [Outcome.ok.injEq, Prod.mk.injEq] at e2
    obtain ⟨rfl, -⟩ := e2
    unfold activate recalc at e1
    dsimp only at e1
    split_ifs at e1
    · rw [bind_eq_ok] at e1
      obtain ⟨p, -, e1⟩ := e1
      simp only [Outcome.ok.injEq] at e1
      rw [← e1]
      exact ⟨rfl, rfl, rfl⟩
    · simp only [Outcome.ok.injEq] at e1
      rw [← e1]
      exact ⟨rfl, rfl, rfl⟩

end

end Verif.Wobbly.Rounded
