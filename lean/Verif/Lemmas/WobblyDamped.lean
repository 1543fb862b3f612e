import Verif.Lemmas.WobblyStable

/-!
# Damped oscillators with known constants (for C138)

As in `Lemmas/WobblyStable.lean`, but with one quadratic form for all frequencies, so that the constants are known.
-/

namespace Verif.Wobbly

open Finset
open scoped InnerProductSpace

/-- The energy of an oscillator with damping `γ` and stiffness `a`. -/
noncomputable def energy (γ a x v : ℝ) : ℝ :=
  qf (1 + a * (1 - γ) / 2 + γ * (1 - γ) ^ 2 / 2) (-a * (1 - γ) - a ^ 2 / 2 + 2 * (1 - γ) * γ ^ 2) (2 * a + a ^ 2 + 2 * γ ^ 3) x v

theorem energy_ge {γ a : ℝ} (h0 : 0 < γ) (h1 : γ ≤ 2 / 3) (ha : 0 ≤ a) (h8 : a ≤ 8 / 3) (x v : ℝ) :
    v ^ 2 / 4 + a * x ^ 2 / 2 ≤ energy γ a x v := by
  set g := 1 - γ with hg
  have g0 : 1 / 3 ≤ g := by rw [hg]; linarith
  have g1 : g ≤ 1 := by rw [hg]; linarith
  have e : energy γ a x v - (v ^ 2 / 4 + a * x ^ 2 / 2) =
      ((3 / 4 + a * g / 2) * v ^ 2 - a * (g + a / 2) * x * v + a * (3 / 2 + a) * x ^ 2) + γ / 2 * (g * v + 2 * γ * x) ^ 2 := by
    unfold energy qf
    rw [hg]
    ring
  have k1 : 0 ≤ γ / 2 * (g * v + 2 * γ * x) ^ 2 := by positivity
  have hA : 0 < 3 + 2 * (a * g) := by positivity
  have k2 : 0 ≤ (3 / 4 + a * g / 2) * v ^ 2 - a * (g + a / 2) * x * v + a * (3 / 2 + a) * x ^ 2 := by
    have hD : 0 ≤ a * ((3 + 2 * (a * g)) * (3 / 2 + a) - a * (g + a / 2) ^ 2) := by
      refine mul_nonneg ha ?_
      have p1 : a * g * g ≤ a * g * 1 := mul_le_mul_of_nonneg_left g1 (by positivity)
      have p2 : a * (a * a) ≤ a * (64 / 9) := mul_le_mul_of_nonneg_left (by nlinarith) ha
      have p3 : 0 ≤ a * a * g := by positivity
      nlinarith
    have e2 : (3 + 2 * (a * g)) * ((3 / 4 + a * g / 2) * v ^ 2 - a * (g + a / 2) * x * v + a * (3 / 2 + a) * x ^ 2) =
        ((3 + 2 * (a * g)) / 2 * v - a * (g + a / 2) * x) ^ 2 +
          a * ((3 + 2 * (a * g)) * (3 / 2 + a) - a * (g + a / 2) ^ 2) * x ^ 2 := by ring
    have : 0 ≤ (3 + 2 * (a * g)) * ((3 / 4 + a * g / 2) * v ^ 2 - a * (g + a / 2) * x * v + a * (3 / 2 + a) * x ^ 2) := by
      rw [e2]
      have := mul_nonneg hD (sq_nonneg x)
      positivity
    exact nonneg_of_mul_nonneg_right this hA
  linarith

theorem energy_le {γ a : ℝ} (h0 : 0 < γ) (h1 : γ ≤ 2 / 3) (ha : 0 ≤ a) (h8 : a ≤ 8 / 3) (x v : ℝ) :
    energy γ a x v ≤ 7 * v ^ 2 + 6 * (a + γ ^ 3) * x ^ 2 := by
  set g := 1 - γ with hg
  have g0 : 1 / 3 ≤ g := by rw [hg]; linarith
  have g1 : g ≤ 1 := by rw [hg]; linarith
  have X : |x * v| ≤ (x ^ 2 + v ^ 2) / 2 := by
    rw [abs_le]
    constructor <;> nlinarith [sq_nonneg (x + v), sq_nonneg (x - v)]
  have c1 : -(a * g + a ^ 2 / 2) * (x * v) ≤ 7 / 3 * a * ((x ^ 2 + v ^ 2) / 2) := by
    have k : a * g + a ^ 2 / 2 ≤ 7 / 3 * a := by nlinarith
    have k0 : 0 ≤ a * g + a ^ 2 / 2 := by positivity
    calc _ ≤ |-(a * g + a ^ 2 / 2) * (x * v)| := le_abs_self _
      _ = (a * g + a ^ 2 / 2) * |x * v| := by rw [abs_mul, abs_neg, abs_of_nonneg k0]
      _ ≤ _ := mul_le_mul k X (abs_nonneg _) (by positivity)
  have c2 : 2 * g * γ ^ 2 * (x * v) ≤ γ ^ 3 * x ^ 2 + γ * v ^ 2 := by
    have k : 2 * γ ^ 2 * |x * v| ≤ γ ^ 3 * x ^ 2 + γ * v ^ 2 := by
      have := mul_nonneg h0.le (sq_nonneg (γ * |x| - |v|))
      rw [abs_mul]
      rw [← sq_abs x, ← sq_abs v]
      linarith [this, (by ring : γ * (γ * |x| - |v|) ^ 2 = γ ^ 3 * |x| ^ 2 + γ * |v| ^ 2 - 2 * γ ^ 2 * (|x| * |v|))]
    calc _ ≤ |2 * g * γ ^ 2 * (x * v)| := le_abs_self _
      _ = g * (2 * γ ^ 2 * |x * v|) := by
          rw [abs_mul, abs_of_nonneg (by positivity : 0 ≤ 2 * g * γ ^ 2)]
          ring
      _ ≤ 1 * (2 * γ ^ 2 * |x * v|) := mul_le_mul_of_nonneg_right g1 (by positivity)
      _ ≤ _ := by linarith
  have e : energy γ a x v = (1 + a * g / 2 + γ * g ^ 2 / 2) * v ^ 2 + -(a * g + a ^ 2 / 2) * (x * v) +
      2 * g * γ ^ 2 * (x * v) + (2 * a + a ^ 2 + 2 * γ ^ 3) * x ^ 2 := by
    unfold energy qf
    rw [hg]
    ring
  have v0 := sq_nonneg v
  have x0 := sq_nonneg x
  have p1 : (1 + a * g / 2 + γ * g ^ 2 / 2) * v ^ 2 ≤ (3 - γ / 2) * v ^ 2 := by
    refine mul_le_mul_of_nonneg_right ?_ v0
    have q1 : a * g ≤ 8 / 3 := by nlinarith
    have q2 : γ * g ^ 2 ≤ γ := by
      have : g ^ 2 ≤ 1 := by nlinarith
      nlinarith
    linarith
  have p2 : a ^ 2 * x ^ 2 ≤ 8 / 3 * a * x ^ 2 := mul_le_mul_of_nonneg_right (by nlinarith) x0
  have p3 : 7 / 3 * a * (v ^ 2 / 2) ≤ 7 / 3 * (8 / 3) * (v ^ 2 / 2) :=
    mul_le_mul_of_nonneg_right (by linarith) (by positivity)
  have p4 : γ * v ^ 2 ≤ 2 / 3 * v ^ 2 := mul_le_mul_of_nonneg_right h1 v0
  have p5 : 0 ≤ γ * v ^ 2 := by positivity
  have p6 : 0 ≤ a * x ^ 2 := by positivity
  have p7 : 0 ≤ γ ^ 3 * x ^ 2 := by positivity
  rw [e]
  nlinarith

theorem energy_tick {γ a : ℝ} (h0 : 1 / 150 ≤ γ) (h1 : γ ≤ 2 / 3) (ha : 1 / 2 ^ 20 ≤ a) (h8 : a ≤ 8 / 3) (x v : ℝ) :
    energy γ a (x + ((1 - γ) * v - a * x) / 2) ((1 - γ) * v - a * x) ≤ (1 - 1 / 2 ^ 24) * energy γ a x v := by
  have a0 : 0 < a := lt_of_lt_of_le (by positivity) ha
  have γ0 : 0 < γ := by linarith
  have e : energy γ a (x + ((1 - γ) * v - a * x) / 2) ((1 - γ) * v - a * x) = energy γ a x v -
      γ * ((2 - γ + a * (1 - γ) / 2) * v ^ 2 - a ^ 2 / 2 * x * v + a / 2 * (a + 4 * γ) * x ^ 2) := by
    unfold energy qf
    ring
  have k1 : v ^ 2 / 2 + a / 8 * (a + 4 * γ) * x ^ 2 ≤
      (2 - γ + a * (1 - γ) / 2) * v ^ 2 - a ^ 2 / 2 * x * v + a / 2 * (a + 4 * γ) * x ^ 2 := by
    have A : 5 / 6 + a / 6 ≤ 3 / 2 - γ + a * (1 - γ) / 2 := by nlinarith
    have A' := mul_le_mul_of_nonneg_right A (sq_nonneg v)
    have B : 0 ≤ (5 / 6 + a / 6) * v ^ 2 - a ^ 2 / 2 * x * v + 3 / 8 * a ^ 2 * x ^ 2 := by
      have hp : 0 < 5 / 6 + a / 6 := by positivity
      have e2 : (4 * (5 / 6 + a / 6)) * ((5 / 6 + a / 6) * v ^ 2 - a ^ 2 / 2 * x * v + 3 / 8 * a ^ 2 * x ^ 2) =
          (2 * (5 / 6 + a / 6) * v - a ^ 2 / 2 * x) ^ 2 + a ^ 2 / 4 * ((5 + a) - a ^ 2) * x ^ 2 := by ring
      have : 0 ≤ (5 + a) - a ^ 2 := by nlinarith
      refine nonneg_of_mul_nonneg_right (b := (5 / 6 + a / 6) * v ^ 2 - a ^ 2 / 2 * x * v + 3 / 8 * a ^ 2 * x ^ 2)
        (a := 4 * (5 / 6 + a / 6)) ?_ (by positivity)
      rw [e2]
      positivity
    have C : 0 ≤ a * γ * x ^ 2 := by positivity
    nlinarith
  have k2 := mul_le_mul_of_nonneg_left k1 γ0.le
  have k3 := energy_le γ0 h1 a0.le h8 x v
  have k4 : 1 / 2 ^ 24 * (7 * v ^ 2) ≤ γ * (v ^ 2 / 2) := by
    have := mul_le_mul_of_nonneg_right h0 (sq_nonneg v)
    norm_num
    linarith [sq_nonneg v]
  have k5 : 1 / 2 ^ 24 * (6 * (a + γ ^ 3)) ≤ γ * (a / 8 * (a + 4 * γ)) := by
    have m1 : 1 / 22500 ≤ γ ^ 2 := by nlinarith
    have m2 : 1 / 22500 * a ≤ γ ^ 2 * a := mul_le_mul_of_nonneg_right m1 a0.le
    have m3 : 1 / 2 ^ 20 * γ ^ 2 ≤ a * γ ^ 2 := mul_le_mul_of_nonneg_right ha (sq_nonneg γ)
    have m4 : γ ^ 3 ≤ 2 / 3 * γ ^ 2 := by
      have := mul_le_mul_of_nonneg_right h1 (sq_nonneg γ)
      nlinarith
    have m5 : 0 ≤ γ * a * a := by positivity
    norm_num at m3 ⊢
    nlinarith
  have k6 := mul_le_mul_of_nonneg_right k5 (sq_nonneg x)
  rw [e]
  have k7 := mul_le_mul_of_nonneg_left k3 (by positivity : (0 : ℝ) ≤ 1 / 2 ^ 24)
  nlinarith

/-- One tick with a disturbance. -/
theorem energy_pushed {γ a : ℝ} (h0 : 1 / 150 ≤ γ) (h1 : γ ≤ 2 / 3) (ha : 1 / 2 ^ 20 ≤ a) (h8 : a ≤ 8 / 3) (x v y u : ℝ) :
    energy γ a (x + ((1 - γ) * v - a * x) / 2 + y) ((1 - γ) * v - a * x + u) ≤
      (1 - 1 / 2 ^ 25) * energy γ a x v + 2 ^ 31 * (y ^ 2 + u ^ 2) := by
  have a0 : 0 ≤ a := le_trans (by positivity) ha
  have γ0 : 0 < γ := by linarith
  have hQ : ∀ x v, 0 ≤ energy γ a x v := fun x v => by
    have := energy_ge γ0 h1 a0 h8 x v
    have : 0 ≤ v ^ 2 / 4 + a * x ^ 2 / 2 := by positivity
    linarith
  have k1 : energy γ a (x + ((1 - γ) * v - a * x) / 2 + y) ((1 - γ) * v - a * x + u) ≤
      (1 + 1 / 2 ^ 25) * energy γ a (x + ((1 - γ) * v - a * x) / 2) ((1 - γ) * v - a * x) +
      (1 + 1 / (1 / 2 ^ 25)) * energy γ a y u := by
    unfold energy at hQ ⊢
    exact qf_add hQ (by positivity) _ _ _ _
  have k2 := energy_tick h0 h1 ha h8 x v
  have k3 := energy_le γ0 h1 a0 h8 y u
  have γ3 : γ ^ 3 ≤ 1 / 3 := by
    have : γ ^ 3 ≤ (2 / 3) ^ 3 := pow_le_pow_left₀ γ0.le h1 3
    norm_num at this
    linarith
  have k4 : 6 * (a + γ ^ 3) * y ^ 2 ≤ 18 * y ^ 2 := mul_le_mul_of_nonneg_right (by linarith) (sq_nonneg y)
  have k5 : energy γ a y u ≤ 18 * (y ^ 2 + u ^ 2) := by linarith [sq_nonneg u]
  have q := hQ x v
  norm_num at k1 k2 k5 ⊢
  nlinarith [sq_nonneg y, sq_nonneg u]

variable {n : ℕ}

/-- Coupled oscillators have an energy that shrinks. -/
theorem total_energy (T : EuclideanSpace ℝ (Fin n) →ₗ[ℝ] EuclideanSpace ℝ (Fin n)) (hT : T.IsSymmetric)
    {γ : ℝ} (h0 : 1 / 150 ≤ γ) (h1 : γ ≤ 2 / 3) (hp : ∀ x, 1 / 2 ^ 20 * ‖x‖ ^ 2 ≤ ⟪T x, x⟫_ℝ)
    (hu : ∀ x, ⟪T x, x⟫_ℝ ≤ 8 / 3 * ‖x‖ ^ 2) :
    ∃ S : EuclideanSpace ℝ (Fin n) → EuclideanSpace ℝ (Fin n) → ℝ,
      (∀ x v, ‖v‖ ^ 2 ≤ 4 * S x v ∧ ‖x‖ ^ 2 ≤ 2 ^ 21 * S x v ∧ S x v ≤ 18 * (‖x‖ ^ 2 + ‖v‖ ^ 2)) ∧
      ∀ x v w e : EuclideanSpace ℝ (Fin n), S (x + (1 / 2 : ℝ) • ((1 - γ) • v - T x + w) + e) ((1 - γ) • v - T x + w) ≤
        (1 - 1 / 2 ^ 25) * S x v + 2 ^ 31 * (‖(1 / 2 : ℝ) • w + e‖ ^ 2 + ‖w‖ ^ 2) := by
  have hfr : Module.finrank ℝ (EuclideanSpace ℝ (Fin n)) = n := by simp
  have γ0 : 0 < γ := by linarith
  set b := hT.eigenvectorBasis hfr with hb
  set a := hT.eigenvalues hfr with ha
  have hTb : ∀ j, T (b j) = a j • b j := fun j => hT.apply_eigenvectorBasis hfr j
  have a0 : ∀ j, 1 / 2 ^ 20 ≤ a j := by
    intro j
    have := hp (b j)
    rw [hTb, real_inner_smul_left, real_inner_self_eq_norm_sq, b.orthonormal.1 j] at this
    linarith
  have a1 : ∀ j, 0 ≤ a j := fun j => le_trans (by positivity) (a0 j)
  have a8 : ∀ j, a j ≤ 8 / 3 := by
    intro j
    have := hu (b j)
    rw [hTb, real_inner_smul_left, real_inner_self_eq_norm_sq, b.orthonormal.1 j] at this
    linarith
  have hnorm : ∀ x : EuclideanSpace ℝ (Fin n), ‖x‖ ^ 2 = ∑ j, ⟪b j, x⟫_ℝ ^ 2 := by
    intro x
    rw [← b.sum_sq_norm_inner_right x]
    refine Finset.sum_congr rfl fun j _ => ?_
    rw [Real.norm_eq_abs, sq_abs]
  have hTj : ∀ j x, ⟪b j, T x⟫_ℝ = a j * ⟪b j, x⟫_ℝ := by
    intro j x
    rw [← hT (b j) x, hTb, real_inner_smul_left]
  refine ⟨fun x v => ∑ j, energy γ (a j) ⟪b j, x⟫_ℝ ⟪b j, v⟫_ℝ, fun x v => ⟨?_, ?_, ?_⟩, fun x v w e => ?_⟩
  · rw [hnorm, Finset.mul_sum]
    refine Finset.sum_le_sum fun j _ => ?_
    have := energy_ge γ0 h1 (a1 j) (a8 j) ⟪b j, x⟫_ℝ ⟪b j, v⟫_ℝ
    have : 0 ≤ a j * ⟪b j, x⟫_ℝ ^ 2 / 2 := by
      have := a1 j
      positivity
    linarith
  · rw [hnorm, Finset.mul_sum]
    refine Finset.sum_le_sum fun j _ => ?_
    have := energy_ge γ0 h1 (a1 j) (a8 j) ⟪b j, x⟫_ℝ ⟪b j, v⟫_ℝ
    have k := mul_le_mul_of_nonneg_right (a0 j) (sq_nonneg ⟪b j, x⟫_ℝ)
    norm_num at k ⊢
    linarith [sq_nonneg ⟪b j, v⟫_ℝ]
  · rw [hnorm, hnorm, ← Finset.sum_add_distrib, Finset.mul_sum]
    refine Finset.sum_le_sum fun j _ => ?_
    have k3 := energy_le γ0 h1 (a1 j) (a8 j) ⟪b j, x⟫_ℝ ⟪b j, v⟫_ℝ
    have γ3 : γ ^ 3 ≤ 1 / 3 := by
      have : γ ^ 3 ≤ (2 / 3) ^ 3 := pow_le_pow_left₀ γ0.le h1 3
      norm_num at this
      linarith
    have k4 : 6 * (a j + γ ^ 3) * ⟪b j, x⟫_ℝ ^ 2 ≤ 18 * ⟪b j, x⟫_ℝ ^ 2 :=
      mul_le_mul_of_nonneg_right (by linarith [a8 j]) (sq_nonneg _)
    linarith [sq_nonneg ⟪b j, v⟫_ℝ]
  · rw [hnorm, hnorm, ← Finset.sum_add_distrib, Finset.mul_sum, Finset.mul_sum, ← Finset.sum_add_distrib]
    refine Finset.sum_le_sum fun j _ => ?_
    have e1 : ⟪b j, x + (1 / 2 : ℝ) • ((1 - γ) • v - T x + w) + e⟫_ℝ =
        ⟪b j, x⟫_ℝ + ((1 - γ) * ⟪b j, v⟫_ℝ - a j * ⟪b j, x⟫_ℝ) / 2 + ⟪b j, (1 / 2 : ℝ) • w + e⟫_ℝ := by
      simp only [inner_add_right, inner_sub_right, real_inner_smul_right, hTj]
      ring
    have e2 : ⟪b j, (1 - γ) • v - T x + w⟫_ℝ = (1 - γ) * ⟪b j, v⟫_ℝ - a j * ⟪b j, x⟫_ℝ + ⟪b j, w⟫_ℝ := by
      simp only [inner_add_right, inner_sub_right, real_inner_smul_right, hTj]
    rw [e1, e2]
    exact energy_pushed h0 h1 (a0 j) (a8 j) _ _ _ _

end Verif.Wobbly
