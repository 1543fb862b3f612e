import Verif.Lemmas.WobblyPaced

/-!
# Nothing overflows

`r` rounds like `R` for arguments up to `2 ^ 500`. What is computed with `r` is what is computed with `R` as long as all
arguments stay below that.
-/

namespace Verif.Wobbly.Rounded

noncomputable section

open Classical Outcome Spec

/-- Rounds like `R` up to `2 ^ 500`. -/
def Agrees (R : Rounding64) (r : ℝ → ℝ) : Prop := ∀ x, |x| ≤ 2 ^ 500 → r x = R.rnd x

/-- Coordinates of at most `2 ^ n`. -/
def Small (n : ℕ) (p : Pt) : Prop := |p.x| ≤ 2 ^ n ∧ |p.y| ≤ 2 ^ n

theorem pow_up {x : ℝ} {n m : ℕ} (h : x ≤ 2 ^ n) (hm : n ≤ m) : x ≤ 2 ^ m :=
  h.trans (pow_le_pow_right₀ (by norm_num) hm)

theorem Small.up {n m : ℕ} {p : Pt} (h : Small n p) (hm : n ≤ m) : Small m p := ⟨pow_up h.1 hm, pow_up h.2 hm⟩

theorem pow_add_le {x y : ℝ} {n : ℕ} (hx : |x| ≤ 2 ^ n) (hy : |y| ≤ 2 ^ n) : |x + y| ≤ 2 ^ (n + 1) := by
  rw [pow_succ]
  exact (abs_add_le _ _).trans (by linarith)

theorem pow_sub_le {x y : ℝ} {n : ℕ} (hx : |x| ≤ 2 ^ n) (hy : |y| ≤ 2 ^ n) : |x - y| ≤ 2 ^ (n + 1) := by
  rw [pow_succ]
  exact (abs_sub _ _).trans (by linarith)

theorem pow_mul_le {x y : ℝ} {n m : ℕ} (hx : |x| ≤ 2 ^ n) (hy : |y| ≤ 2 ^ m) : |x * y| ≤ 2 ^ (n + m) := by
  rw [abs_mul, pow_add]
  exact mul_le_mul hx hy (abs_nonneg _) (by positivity)

theorem pow_div_le {x y : ℝ} {n : ℕ} (hx : |x| ≤ 2 ^ n) (hy : 1 ≤ y) : |x / y| ≤ 2 ^ n := by
  rw [abs_div, abs_of_pos (by linarith : 0 < y)]
  exact (div_le_self (abs_nonneg _) hy).trans hx

variable {R : Rounding64} {r : ℝ → ℝ} (hr : Agrees R r)

include hr

theorem ag {x : ℝ} {n : ℕ} (h : |x| ≤ 2 ^ n) (hn : n ≤ 500 := by omega) : r x = R.rnd x ∧ |R.rnd x| ≤ 2 ^ n :=
  ⟨hr x (pow_up h hn), rnd_abs R h ⟨1, n, by norm_num, by omega, by norm_num⟩⟩

theorem ag_add {p q : Pt} {n : ℕ} (hp : Small n p) (hq : Small n q) (hn : n ≤ 499 := by omega) :
    add r p q = add R.rnd p q ∧ Small (n + 1) (add R.rnd p q) := by
  obtain ⟨x1, x2⟩ := ag hr (pow_add_le hp.1 hq.1)
  obtain ⟨y1, y2⟩ := ag hr (pow_add_le hp.2 hq.2)
  unfold add
  rw [x1, y1]
  exact ⟨rfl, x2, y2⟩

theorem ag_sub {p q : Pt} {n : ℕ} (hp : Small n p) (hq : Small n q) (hn : n ≤ 499 := by omega) :
    sub r p q = sub R.rnd p q ∧ Small (n + 1) (sub R.rnd p q) := by
  obtain ⟨x1, x2⟩ := ag hr (pow_sub_le hp.1 hq.1)
  obtain ⟨y1, y2⟩ := ag hr (pow_sub_le hp.2 hq.2)
  unfold sub
  rw [x1, y1]
  exact ⟨rfl, x2, y2⟩

theorem ag_scale {p : Pt} {f : ℝ} {n m : ℕ} (hp : Small n p) (hf : |f| ≤ 2 ^ m) (hn : n + m ≤ 500 := by omega) :
    scale r p f = scale R.rnd p f ∧ Small (n + m) (scale R.rnd p f) := by
  obtain ⟨x1, x2⟩ := ag hr (pow_mul_le hp.1 hf)
  obtain ⟨y1, y2⟩ := ag hr (pow_mul_le hp.2 hf)
  unfold scale
  rw [x1, y1]
  exact ⟨rfl, x2, y2⟩

theorem ag_pscale {p q : Pt} {n m : ℕ} (hp : Small n p) (hq : Small m q) (hn : n + m ≤ 500 := by omega) :
    pscale r p q = pscale R.rnd p q ∧ Small (n + m) (pscale R.rnd p q) := by
  obtain ⟨x1, x2⟩ := ag hr (pow_mul_le hp.1 hq.1)
  obtain ⟨y1, y2⟩ := ag hr (pow_mul_le hp.2 hq.2)
  unfold pscale
  rw [x1, y1]
  exact ⟨rfl, x2, y2⟩

theorem ag_positionArray {p t : Pt} {n : ℕ} (hp : Small n p) (ht : Small n t) (hn : n ≤ 400 := by omega) :
    positionArray r p t = positionArray R.rnd p t := by
  funext i
  have c : |((col i : ℕ) : ℝ)| ≤ 2 ^ 2 := by
    rw [abs_of_nonneg (col_grid.nonneg i)]
    linarith [col_grid.le i]
  have d : |((row i : ℕ) : ℝ)| ≤ 2 ^ 2 := by
    rw [abs_of_nonneg (row_grid.nonneg i)]
    linarith [row_grid.le i]
  obtain ⟨x1, x2⟩ := ag hr (pow_mul_le c ht.1)
  obtain ⟨y1, y2⟩ := ag hr (pow_mul_le d ht.2)
  unfold positionArray
  rw [x1, y1]
  exact (ag_add hr (hp.up (by omega : n ≤ 2 + n)) ⟨x2, y2⟩).1

omit hr in
theorem sqrt_pow {x : ℝ} {n : ℕ} (h : |x| ≤ 2 ^ n) : |Real.sqrt x| ≤ 2 ^ n := by
  rw [abs_of_nonneg (Real.sqrt_nonneg _), Real.sqrt_le_left (by positivity)]
  refine (le_abs_self x).trans (h.trans ?_)
  rw [← pow_mul]
  exact pow_le_pow_right₀ (by norm_num) (by omega)

theorem ag_distance {p q : Pt} {n : ℕ} (hp : Small n p) (hq : Small n q) (hn : n ≤ 240 := by omega) :
    distance r p q = distance R.rnd p q ∧ |distance R.rnd p q| ≤ 2 ^ (2 * n + 3) := by
  obtain ⟨x1, x2⟩ := ag hr (pow_sub_le hp.1 hq.1)
  obtain ⟨y1, y2⟩ := ag hr (pow_sub_le hp.2 hq.2)
  obtain ⟨a1, a2⟩ := ag hr (pow_mul_le x2 x2)
  obtain ⟨b1, b2⟩ := ag hr (pow_mul_le y2 y2)
  obtain ⟨c1, c2⟩ := ag hr (x := 0 + R.rnd (R.rnd (p.y - q.y) * R.rnd (p.y - q.y))) (by rw [zero_add]; exact b2)
  obtain ⟨d1, d2⟩ := ag hr (pow_add_le c2 a2)
  obtain ⟨e1, e2⟩ := ag hr (sqrt_pow d2)
  unfold distance
  rw [x1, y1, a1, b1, c1, d1, e1]
  exact ⟨rfl, pow_up e2 (by omega)⟩

omit hr in
theorem clip_pow {t x : ℝ} {n : ℕ} (h : |x| ≤ 2 ^ n) : |clip t x| ≤ 2 ^ n := clip_le h

theorem ag_delta {a b d : Pt} {n : ℕ} (ha : Small n a) (hb : Small n b) (hd : Small n d) (hn : n ≤ 400 := by omega) :
    deltaFromDesired r a b d = deltaFromDesired R.rnd a b d ∧ Small (n + 2) (deltaFromDesired R.rnd a b d) := by
  obtain ⟨x1, x2⟩ := ag hr (pow_sub_le hb.1 ha.1)
  obtain ⟨y1, y2⟩ := ag hr (pow_sub_le hb.2 ha.2)
  obtain ⟨a1, a2⟩ := ag hr (pow_add_le x2 (pow_up hd.1 (by omega : n ≤ n + 1)))
  obtain ⟨b1, b2⟩ := ag hr (pow_add_le y2 (pow_up hd.2 (by omega : n ≤ n + 1)))
  have half : |(1 / 2 : ℝ)| ≤ 2 ^ 0 := by rw [abs_of_pos (by norm_num)]; norm_num
  obtain ⟨c1, c2⟩ := ag hr (pow_mul_le half a2)
  obtain ⟨d1, d2⟩ := ag hr (pow_mul_le half b2)
  unfold deltaFromDesired
  rw [x1, y1, a1, b1, c1, d1]
  exact ⟨rfl, pow_up c2 (by omega), pow_up d2 (by omega)⟩

/-- The bounds used for springs. -/
structure Fair (n : ℕ) (at_ : Node → Pt) (y : Spring) : Prop where
  a : Small n (at_ y.a)
  b : Small n (at_ y.b)
  desired : Small n y.desired

theorem ag_deltaA {at_ : Node → Pt} {y : Spring} {n : ℕ} (h : Fair n at_ y) (hn : n ≤ 400 := by omega) :
    deltaA r y at_ = deltaA R.rnd y at_ ∧ Small (n + 2) (deltaA R.rnd y at_) := by
  obtain ⟨s1, s2⟩ := ag_scale hr (m := 0) h.desired (f := -1) (by norm_num)
  obtain ⟨d1, d2⟩ := ag_delta hr h.a h.b s2
  unfold deltaA resetIfCloseToZero
  rw [s1, d1]
  exact ⟨rfl, clip_pow d2.1, clip_pow d2.2⟩

theorem ag_deltaB {at_ : Node → Pt} {y : Spring} {n : ℕ} (h : Fair n at_ y) (hn : n ≤ 400 := by omega) :
    deltaB r y at_ = deltaB R.rnd y at_ ∧ Small (n + 2) (deltaB R.rnd y at_) := by
  obtain ⟨d1, d2⟩ := ag_delta hr h.b h.a h.desired
  unfold deltaB resetIfCloseToZero
  rw [d1]
  exact ⟨rfl, clip_pow d2.1, clip_pow d2.2⟩

theorem ag_addForce {f : Node → Pt} {n : Node} {v : Pt} {m : ℕ} (hf : ∀ a, Small m (f a)) (hv : Small m v)
    (hm : m ≤ 400 := by omega) :
    addForce r f n v = addForce R.rnd f n v ∧ ∀ a, Small (m + 1) (addForce R.rnd f n v a) := by
  constructor
  · funext a
    unfold addForce
    rw [(ag_add hr (hf a) hv).1]
  · intro a
    unfold addForce
    split_ifs
    · exact (ag_add hr (hf a) hv).2
    · exact (hf a).up (by omega)

theorem ag_applyForces {k : ℝ} {at_ : Node → Pt} {f : Node → Pt} {y : Spring} {n m : ℕ} (h : Fair n at_ y)
    (hk : |k| ≤ 2 ^ 4) (hf : ∀ a, Small m (f a)) (hn : n + 6 ≤ m := by omega) (hm : m ≤ 390 := by omega) :
    applyForces r y k at_ f = applyForces R.rnd y k at_ f ∧ ∀ a, Small (m + 2) ((applyForces R.rnd y k at_ f).1 a) := by
  obtain ⟨a1, a2⟩ := ag_deltaA hr h
  obtain ⟨b1, b2⟩ := ag_deltaB hr h
  obtain ⟨c1, c2⟩ := ag_scale hr a2 hk
  obtain ⟨d1, d2⟩ := ag_scale hr b2 hk
  obtain ⟨e1, e2⟩ := ag_addForce hr (n := y.a) hf (c2.up hn)
  obtain ⟨g1, g2⟩ := ag_addForce hr (n := y.b) e2 (d2.up (by omega : n + 2 + 4 ≤ m + 1))
  have absx := (ag hr (pow_add_le ((abs_abs _).trans_le a2.1) ((abs_abs _).trans_le b2.1))).1
  have absy := (ag hr (pow_add_le ((abs_abs _).trans_le a2.2) ((abs_abs _).trans_le b2.2))).1
  unfold applyForces
  dsimp only
  rw [a1, b1, c1, d1, e1, g1, absx, absy]
  exact ⟨rfl, g2⟩

theorem ag_forces {k : ℝ} {at_ : Node → Pt} {l : List Spring} {n : ℕ} (h : ∀ y ∈ l, Fair n at_ y) (hk : |k| ≤ 2 ^ 4)
    (hl : n + 6 + 2 * l.length ≤ 380) :
    calculateForces r k at_ l = calculateForces R.rnd k at_ l ∧
      ∀ a, Small (n + 6 + 2 * l.length) ((calculateForces R.rnd k at_ l).1 a) := by
  induction l using List.reverseRecOn with
  | nil =>
    refine ⟨rfl, fun a => ?_⟩
    simp [calculateForces, Small]
  | append_singleton l y ih =>
    rw [List.length_append, List.length_singleton] at hl
    obtain ⟨i1, i2⟩ := ih (fun z hz => h z (by simp [hz])) (by omega)
    have e : ∀ r, calculateForces r k at_ (l ++ [y]) = ((applyForces r y k at_ (calculateForces r k at_ l).1).1,
        (calculateForces r k at_ l).2 ∨ (applyForces r y k at_ (calculateForces r k at_ l).1).2) := by
      intro r
      unfold calculateForces
      rw [List.foldl_append]
      rfl
    obtain ⟨a1, a2⟩ := ag_applyForces hr (h y (by simp)) hk i2
    rw [e, e, i1, a1]
    refine ⟨rfl, fun a => (a2 a).up ?_⟩
    rw [List.length_append, List.length_singleton]
    omega

theorem ag_velocity {f v F : ℝ} {n : ℕ} (hf : |f| ≤ 2 ^ 4) (hv : |v| ≤ 2 ^ n) (hF : |F| ≤ 2 ^ n) (hn : n ≤ 400 := by omega) :
    eulerVelocity r 1 f mass v F = eulerVelocity R.rnd 1 f mass v F ∧ |eulerVelocity R.rnd 1 f mass v F| ≤ 2 ^ (n + 6) := by
  have t : r (1 / 10) = R.rnd (1 / 10) := (ag hr (n := 0) (by rw [abs_of_pos (by norm_num)]; norm_num)).1
  obtain ⟨m1, m2⟩ := ag hr (x := 1 / mass) (n := 0) (by unfold mass; rw [abs_of_pos (by norm_num)]; norm_num)
  obtain ⟨a1, a2⟩ := ag hr (x := 0 + v) (n := n) (by rw [zero_add]; exact hv)
  obtain ⟨b1, b2⟩ := ag hr (pow_mul_le a2 hf)
  obtain ⟨c1, c2⟩ := ag hr (pow_sub_le (pow_up hF (by omega : n ≤ n + 4)) b2)
  obtain ⟨d1, d2⟩ := ag hr (pow_mul_le c2 m2)
  obtain ⟨e1, e2⟩ := ag hr (pow_mul_le d2 (show |(1 : ℝ)| ≤ 2 ^ 0 by norm_num))
  obtain ⟨g1, g2⟩ := ag hr (pow_add_le (pow_up hv (by omega : n ≤ n + 4 + 1 + 0 + 0)) e2)
  unfold eulerVelocity
  rw [t, m1, a1, b1, c1, d1, e1, g1]
  exact ⟨rfl, clip_pow g2⟩

theorem ag_euler {f : ℝ} {p v F : Pt} {n : ℕ} (hf : |f| ≤ 2 ^ 4) (hp : Small n p) (hv : Small n v) (hF : Small n F)
    (hn : n ≤ 400 := by omega) :
    eulerIntegrate r 1 f mass p v F = eulerIntegrate R.rnd 1 f mass p v F := by
  obtain ⟨x1, x2⟩ := ag_velocity hr hf hv.1 hF.1
  obtain ⟨y1, y2⟩ := ag_velocity hr hf hv.2 hF.2
  obtain ⟨h1, h2⟩ := ag hr (x := 1 / 2) (n := 0) (by rw [abs_of_pos (by norm_num)]; norm_num)
  unfold eulerIntegrate
  dsimp only
  rw [x1, y1, h1]
  have sv : Small (n + 6) ⟨eulerVelocity R.rnd 1 f mass v.x F.x, eulerVelocity R.rnd 1 f mass v.y F.y⟩ := ⟨x2, y2⟩
  obtain ⟨s1, s2⟩ := ag_scale hr sv h2
  rw [s1, (ag_add hr (hp.up (by omega : n ≤ n + 6 + 0)) s2).1]

end

end Verif.Wobbly.Rounded
