import Verif.Lemmas.LampRound
import Verif.Lemmas.WobblySwing
import Verif.Lemmas.WobblyPaced

/-! # One tick in double precision, next to the tick of springs without a dead zone (for C138) -/

namespace Verif.Wobbly.Rounded

open Spec Outcome Classical Props Wobbly

/-- Rounding is accurate for numbers of this size. -/
def Fine (r : ℝ → ℝ) (N : ℝ) : Prop := ∀ x, |x| ≤ 1000 * N → |r x - x| ≤ (|x| + 1) / 2 ^ 53

variable {r : ℝ → ℝ} {N : ℝ}

theorem Fine.err (h : Fine r N) (hN : 1 ≤ N) {A x : ℝ} (hA : A ≤ 1000) (hx : |x| ≤ A * N) :
    |r x - x| ≤ (A + 1) * (N / 2 ^ 53) := by
  have k1 := h x (hx.trans (mul_le_mul_of_nonneg_right hA (by linarith)))
  have k2 : (|x| + 1) / 2 ^ 53 ≤ (A * N + N) / 2 ^ 53 := div_le_div_of_nonneg_right (by linarith) (by positivity)
  calc _ ≤ _ := k1
    _ ≤ _ := k2
    _ = _ := by ring

/-- The pull of a spring on its first end. -/
theorem pull_fineA (h : Fine r N) (hN : 1 ≤ N) {a b d k : ℝ} (ha : |a| ≤ N) (hb : |b| ≤ N) (hd : |d| ≤ N) (hk : 0 ≤ k)
    (hk' : k ≤ 10) :
    |r (clip (1 / 2) (r (1 / 2 * r (r (b - a) + r (d * -1)))) * k) - k / 2 * (b - a - d)| ≤ 5 + 130 * (N / 2 ^ 53) ∧
      |r (clip (1 / 2) (r (1 / 2 * r (r (b - a) + r (d * -1)))) * k)| ≤ 21 * N := by
  rw [abs_le] at ha hb hd
  have e1 := h.err hN (A := 2) (x := b - a) (by norm_num) (by rw [abs_le]; constructor <;> linarith)
  have e2 := h.err hN (A := 1) (x := d * -1) (by norm_num) (by rw [abs_le]; constructor <;> linarith)
  rw [abs_le] at e1 e2
  set y1 := r (b - a)
  set y2 := r (d * -1)
  have e3 := h.err hN (A := 4) (x := y1 + y2) (by norm_num) (by rw [abs_le]; constructor <;> linarith)
  rw [abs_le] at e3
  set y3 := r (y1 + y2)
  have e4 := h.err hN (A := 2) (x := 1 / 2 * y3) (by norm_num) (by rw [abs_le]; constructor <;> linarith)
  rw [abs_le] at e4
  set y4 := r (1 / 2 * y3)
  have e5 : |y4 - 1 / 2 * (b - a - d)| ≤ 10 * (N / 2 ^ 53) := by rw [abs_le]; constructor <;> linarith
  have e6 : |y4| ≤ 2 * N := by rw [abs_le]; constructor <;> linarith
  have e7 : |clip (1 / 2) y4 - y4| ≤ 1 / 2 := by
    unfold clip
    split_ifs with hc
    · rw [zero_sub, abs_neg]
      exact hc.le
    · rw [sub_self, abs_zero]
      norm_num
  have e8 : |clip (1 / 2) y4| ≤ 2 * N := clip_le e6
  set y5 := clip (1 / 2) y4
  have e9 : |y5 * k| ≤ 20 * N := by
    rw [abs_mul, abs_of_nonneg hk]
    calc |y5| * k ≤ 2 * N * 10 := mul_le_mul e8 hk' hk (by linarith)
      _ = _ := by ring
  have e10 := h.err hN (A := 20) (by norm_num) e9
  have e11 : |y5 * k - k / 2 * (b - a - d)| ≤ (1 / 2 + 10 * (N / 2 ^ 53)) * 10 := by
    have : y5 * k - k / 2 * (b - a - d) = (y5 - 1 / 2 * (b - a - d)) * k := by ring
    rw [this, abs_mul, abs_of_nonneg hk]
    refine mul_le_mul ?_ hk' hk (by positivity)
    rw [abs_le] at e5 e7 ⊢
    constructor <;> linarith
  rw [abs_le] at e9 e10 e11
  rw [abs_le, abs_le]
  refine ⟨⟨?_, ?_⟩, ?_, ?_⟩ <;> linarith

/-- The pull of a spring on its second end. -/
theorem pull_fineB (h : Fine r N) (hN : 1 ≤ N) {a b d k : ℝ} (ha : |a| ≤ N) (hb : |b| ≤ N) (hd : |d| ≤ N) (hk : 0 ≤ k)
    (hk' : k ≤ 10) :
    |r (clip (1 / 2) (r (1 / 2 * r (r (a - b) + d))) * k) + k / 2 * (b - a - d)| ≤ 5 + 130 * (N / 2 ^ 53) ∧
      |r (clip (1 / 2) (r (1 / 2 * r (r (a - b) + d))) * k)| ≤ 21 * N := by
  rw [abs_le] at ha hb hd
  have e1 := h.err hN (A := 2) (x := a - b) (by norm_num) (by rw [abs_le]; constructor <;> linarith)
  rw [abs_le] at e1
  set y1 := r (a - b)
  have e3 := h.err hN (A := 4) (x := y1 + d) (by norm_num) (by rw [abs_le]; constructor <;> linarith)
  rw [abs_le] at e3
  set y3 := r (y1 + d)
  have e4 := h.err hN (A := 2) (x := 1 / 2 * y3) (by norm_num) (by rw [abs_le]; constructor <;> linarith)
  rw [abs_le] at e4
  set y4 := r (1 / 2 * y3)
  have e5 : |y4 + 1 / 2 * (b - a - d)| ≤ 10 * (N / 2 ^ 53) := by rw [abs_le]; constructor <;> linarith
  have e6 : |y4| ≤ 2 * N := by rw [abs_le]; constructor <;> linarith
  have e7 : |clip (1 / 2) y4 - y4| ≤ 1 / 2 := by
    unfold clip
    split_ifs with hc
    · rw [zero_sub, abs_neg]
      exact hc.le
    · rw [sub_self, abs_zero]
      norm_num
  have e8 : |clip (1 / 2) y4| ≤ 2 * N := clip_le e6
  set y5 := clip (1 / 2) y4
  have e9 : |y5 * k| ≤ 20 * N := by
    rw [abs_mul, abs_of_nonneg hk]
    calc |y5| * k ≤ 2 * N * 10 := mul_le_mul e8 hk' hk (by linarith)
      _ = _ := by ring
  have e10 := h.err hN (A := 20) (by norm_num) e9
  have e11 : |y5 * k + k / 2 * (b - a - d)| ≤ (1 / 2 + 10 * (N / 2 ^ 53)) * 10 := by
    have : y5 * k + k / 2 * (b - a - d) = (y5 + 1 / 2 * (b - a - d)) * k := by ring
    rw [this, abs_mul, abs_of_nonneg hk]
    refine mul_le_mul ?_ hk' hk (by positivity)
    rw [abs_le] at e5 e7 ⊢
    constructor <;> linarith
  rw [abs_le] at e9 e10 e11
  rw [abs_le, abs_le]
  refine ⟨⟨?_, ?_⟩, ?_, ?_⟩ <;> linarith

/-- One more pull. -/
theorem acc_fine (h : Fine r N) (hN : 1 ≤ N) {n : ℕ} (hn : n ≤ 3) {f p E e q : ℝ} (hf : |f| ≤ n * (22 * N)) (hp : |p| ≤ 21 * N)
    (hE : |f - E| ≤ n * (q + 120 * (N / 2 ^ 53))) (he : |p - e| ≤ q) :
    |r (f + p)| ≤ (n + 1 : ℕ) * (22 * N) ∧ |r (f + p) - (E + e)| ≤ (n + 1 : ℕ) * (q + 120 * (N / 2 ^ 53)) := by
  have hn' : (n : ℝ) ≤ 3 := by exact_mod_cast hn
  have k : (n : ℝ) * (22 * N) ≤ 3 * (22 * N) := mul_le_mul_of_nonneg_right hn' (by linarith)
  rw [abs_le] at hf hp hE he
  have e1 := h.err hN (A := 87) (x := f + p) (by norm_num) (by rw [abs_le]; constructor <;> linarith)
  rw [abs_le] at e1
  push_cast
  rw [add_mul, add_mul, one_mul, one_mul, abs_le, abs_le]
  refine ⟨⟨?_, ?_⟩, ?_, ?_⟩ <;> linarith

theorem axis_round {c : Pt → ℝ} (hc : c = Pt.x ∨ c = Pt.y) (p q : Pt) : c (add r p q) = r (c p + c q) := by
  rcases hc with rfl | rfl <;> rfl

theorem axis_pullA {c : Pt → ℝ} (hc : c = Pt.x ∨ c = Pt.y) (z : Spring) (at_ : Node → Pt) (k : ℝ) :
    c (scale r (deltaA r z at_) k) = r (clip (1 / 2) (r (1 / 2 * r (r (c (at_ z.b) - c (at_ z.a)) + r (c z.desired * -1)))) * k) := by
  rcases hc with rfl | rfl <;> rfl

theorem axis_pullB {c : Pt → ℝ} (hc : c = Pt.x ∨ c = Pt.y) (z : Spring) (at_ : Node → Pt) (k : ℝ) :
    c (scale r (deltaB r z at_) k) = r (clip (1 / 2) (r (1 / 2 * r (r (c (at_ z.a) - c (at_ z.b)) + c z.desired))) * k) := by
  rcases hc with rfl | rfl <;> rfl

/-- The force on a point with at most four springs. -/
theorem force_fine (h : Fine r N) (hN : 1 ≤ N) {k : ℝ} (hk : 0 ≤ k) (hk' : k ≤ 10) {c : Pt → ℝ} (hc : c = Pt.x ∨ c = Pt.y)
    {at_ : Node → Pt} {l : List Spring} (i : Idx) (hd : (l.map (endsAt i)).sum ≤ 4)
    (hl : ∀ z ∈ l, |c (at_ z.a)| ≤ N ∧ |c (at_ z.b)| ≤ N ∧ |c z.desired| ≤ N) :
    |c ((calculateForces r k at_ l).1 (.mesh i))| ≤ ((l.map (endsAt i)).sum : ℕ) * (22 * N) ∧
    |c ((calculateForces r k at_ l).1 (.mesh i)) - (l.map fun z =>
        (if .mesh i = z.a then k / 2 * (c (at_ z.b) - c (at_ z.a) - c z.desired) else 0) -
        (if .mesh i = z.b then k / 2 * (c (at_ z.b) - c (at_ z.a) - c z.desired) else 0)).sum| ≤
      ((l.map (endsAt i)).sum : ℕ) * (5 + 130 * (N / 2 ^ 53) + 120 * (N / 2 ^ 53)) := by
  induction l using List.reverseRecOn with
  | nil =>
    have : c ((calculateForces r k at_ []).1 (.mesh i)) = 0 := by rcases hc with rfl | rfl <;> rfl
    rw [this]
    simp
  | append_singleton l y ih =>
    rw [List.map_append, List.sum_append, List.map_singleton, List.sum_singleton] at hd ⊢
    rw [List.map_append, List.sum_append, List.map_singleton, List.sum_singleton]
    obtain ⟨i1, i2⟩ := ih (by omega) fun z hz => hl z (by simp [hz])
    obtain ⟨y1, y2, y3⟩ := hl y (by simp)
    have e : calculateForces r k at_ (l ++ [y]) = ((applyForces r y k at_ (calculateForces r k at_ l).1).1,
        (calculateForces r k at_ l).2 ∨ (applyForces r y k at_ (calculateForces r k at_ l).1).2) := by
      unfold calculateForces
      rw [List.foldl_append]
      rfl
    rw [e]
    have pA := pull_fineA h hN y1 y2 y3 hk hk'
    have pB := pull_fineB h hN y1 y2 y3 hk hk'
    rw [← axis_pullA (r := r) hc y at_ k] at pA
    rw [← axis_pullB (r := r) hc y at_ k] at pB
    set D := k / 2 * (c (at_ y.b) - c (at_ y.a) - c y.desired)
    have pB1 : |c (scale r (deltaB r y at_) k) - -D| ≤ 5 + 130 * (N / 2 ^ 53) := by
      rw [sub_neg_eq_add]
      exact pB.1
    generalize (calculateForces r k at_ l).1 = F at i1 i2
    generalize (l.map fun z => (if Node.mesh i = z.a then k / 2 * (c (at_ z.b) - c (at_ z.a) - c z.desired) else 0) -
        (if .mesh i = z.b then k / 2 * (c (at_ z.b) - c (at_ z.a) - c z.desired) else 0)).sum = E at i2
    generalize (l.map (endsAt i)).sum = n at i1 i2 hd
    simp only [applyForces, addForce]
    unfold endsAt at hd ⊢
    by_cases h1 : Node.mesh i = y.a
    · simp only [if_pos h1] at hd ⊢
      have s1 := acc_fine h hN (n := n) (by split_ifs at hd <;> omega) i1 pA.2 i2 pA.1
      rw [← axis_round (r := r) hc] at s1
      by_cases h2 : Node.mesh i = y.b
      · simp only [if_pos h2] at hd ⊢
        have s2 := acc_fine h hN (n := n + 1) (by omega) s1.1 pB.2 s1.2 pB1
        rw [← axis_round (r := r) hc] at s2
        have e2 : E + (D - D) = E + D + -D := by ring
        rw [e2]
        exact s2
      · simp only [if_neg h2] at hd ⊢
        rw [sub_zero, add_zero]
        exact s1
    · simp only [if_neg h1] at hd ⊢
      by_cases h2 : Node.mesh i = y.b
      · simp only [if_pos h2] at hd ⊢
        have s2 := acc_fine h hN (n := n) (by omega) i1 pB.2 i2 pB1
        rw [← axis_round (r := r) hc] at s2
        rw [zero_sub, zero_add]
        exact s2
      · simp only [if_neg h2] at hd ⊢
        rw [sub_zero, add_zero, add_zero, add_zero]
        exact ⟨i1, i2⟩

/-- The new velocity. -/
theorem velocity_fine (h : Fine r N) (hN : 1 ≤ N) {f v F : ℝ} (hf : 0 ≤ f) (hf' : f ≤ 10) (hv : |v| ≤ N) (hF : |F| ≤ 88 * N) :
    |eulerVelocity r 1 f mass v F - (v + (F - f * v) / 15)| ≤ 1 / 5 + 750 * (N / 2 ^ 53) ∧
      |eulerVelocity r 1 f mass v F| ≤ 114 * N := by
  rw [abs_le] at hv hF
  have t0 : |r (1 / 10)| ≤ 1 / 5 := by
    have := h (1 / 10) (by rw [abs_of_pos (by norm_num)]; linarith)
    rw [abs_of_pos (by norm_num : (0 : ℝ) < 1 / 10), abs_le] at this
    rw [abs_le]
    norm_num at this ⊢
    constructor <;> linarith [this.1, this.2]
  have t1 : |r (1 / mass) - 1 / 15| ≤ 2 / 2 ^ 53 := by
    have := h (1 / mass) (by unfold mass; rw [abs_of_pos (by norm_num)]; linarith)
    unfold mass at this ⊢
    rw [abs_of_pos (by norm_num : (0 : ℝ) < 1 / 15)] at this
    refine this.trans ?_
    norm_num
  unfold eulerVelocity
  have e1 := h.err hN (A := 1) (x := 0 + v) (by norm_num) (by rw [abs_le]; constructor <;> linarith)
  rw [abs_le] at e1
  set y1 := r (0 + v)
  have e2 : |y1 * f| ≤ 20 * N := by
    rw [abs_mul, abs_of_nonneg hf]
    calc |y1| * f ≤ 2 * N * 10 := mul_le_mul (by rw [abs_le]; constructor <;> linarith) hf' hf (by linarith)
      _ = _ := by ring
  have e3 : |y1 * f - f * v| ≤ 2 * (N / 2 ^ 53) * 10 := by
    have : y1 * f - f * v = (y1 - (0 + v)) * f := by ring
    rw [this, abs_mul, abs_of_nonneg hf]
    refine mul_le_mul ?_ hf' hf (by positivity)
    rw [abs_le]
    constructor <;> linarith
  have e4 := h.err hN (A := 20) (by norm_num) e2
  rw [abs_le] at e2 e3 e4
  set y2 := r (y1 * f)
  have e5 := h.err hN (A := 109) (x := F - y2) (by norm_num) (by rw [abs_le]; constructor <;> linarith)
  rw [abs_le] at e5
  set y3 := r (F - y2)
  have e6 : |y3| ≤ 110 * N := by rw [abs_le]; constructor <;> linarith
  set m := r (1 / mass)
  have m1 : |m| ≤ 1 := by
    rw [abs_le] at t1 ⊢
    norm_num at t1 ⊢
    constructor <;> linarith [t1.1, t1.2]
  have e7 : |y3 * m| ≤ 110 * N := by
    rw [abs_mul]
    calc |y3| * |m| ≤ 110 * N * 1 := mul_le_mul e6 m1 (abs_nonneg _) (by linarith)
      _ = _ := by ring
  have e8 : |y3 * m - y3 / 15| ≤ 110 * N * (2 / 2 ^ 53) := by
    have : y3 * m - y3 / 15 = y3 * (m - 1 / 15) := by ring
    rw [this, abs_mul]
    exact mul_le_mul e6 t1 (abs_nonneg _) (by linarith)
  have e9 := h.err hN (A := 110) (by norm_num) e7
  rw [abs_le] at e6 e7 e8 e9
  set y4 := r (y3 * m)
  have e10 := h.err hN (A := 111) (x := y4 * 1) (by norm_num) (by rw [abs_le]; constructor <;> linarith)
  rw [abs_le] at e10
  set y5 := r (y4 * 1)
  have e11 := h.err hN (A := 113) (x := v + y5) (by norm_num) (by rw [abs_le]; constructor <;> linarith)
  rw [abs_le] at e11
  set y6 := r (v + y5)
  have e12 : |y6| ≤ 114 * N := by rw [abs_le]; constructor <;> linarith
  refine ⟨?_, clip_le e12⟩
  have e13 : |clip (r (1 / 10)) y6 - y6| ≤ 1 / 5 := by
    unfold clip
    split_ifs with hc
    · rw [zero_sub, abs_neg]
      exact (hc.le.trans (le_abs_self _)).trans t0
    · rw [sub_self, abs_zero]
      norm_num
  rw [abs_le] at e13 ⊢
  constructor <;> linarith

/-- The new position. -/
theorem position_fine (h : Fine r N) (hN : 1 ≤ N) {x v : ℝ} (hx : |x| ≤ N) (hv : |v| ≤ 114 * N) :
    |r (x + r (v * r (1 / 2))) - (x + v / 2)| ≤ 1024 * (N / 2 ^ 53) := by
  have t1 : |r (1 / 2) - 1 / 2| ≤ 2 / 2 ^ 53 := by
    have := h (1 / 2) (by rw [abs_of_pos (by norm_num)]; linarith)
    rw [abs_of_pos (by norm_num : (0 : ℝ) < 1 / 2)] at this
    refine this.trans ?_
    norm_num
  set m := r (1 / 2)
  have m1 : |m| ≤ 1 := by
    rw [abs_le] at t1 ⊢
    norm_num at t1 ⊢
    constructor <;> linarith [t1.1, t1.2]
  have e7 : |v * m| ≤ 114 * N := by
    rw [abs_mul]
    calc |v| * |m| ≤ 114 * N * 1 := mul_le_mul hv m1 (abs_nonneg _) (by linarith)
      _ = _ := by ring
  have e8 : |v * m - v / 2| ≤ 114 * N * (2 / 2 ^ 53) := by
    have : v * m - v / 2 = v * (m - 1 / 2) := by ring
    rw [this, abs_mul]
    exact mul_le_mul hv t1 (abs_nonneg _) (by linarith)
  have e9 := h.err hN (A := 114) (by norm_num) e7
  rw [abs_le] at e7 e8 e9 hx
  set y4 := r (v * m)
  have e11 := h.err hN (A := 116) (x := x + y4) (by norm_num) (by rw [abs_le]; constructor <;> linarith)
  rw [abs_le] at e11 ⊢
  constructor <;> linarith

end Verif.Wobbly.Rounded
