import Mathlib.Analysis.InnerProductSpace.Spectrum
import Mathlib.Analysis.InnerProductSpace.PiL2
import Mathlib.Tactic.Linarith
import Mathlib.Tactic.Ring
import Mathlib.Tactic.FieldSimp

/-!
# Damped oscillators under bounded disturbance (for C111)

The sequences `v' = (1 - γ) v - a x + w`, `x' = x + v' / 2`: first for numbers, then for vectors with a symmetric
operator in place of `a`.
-/

namespace Verif.Wobbly

open Finset

/-- A quadratic form in two variables. -/
def qf (p q r x v : ℝ) : ℝ := p * v ^ 2 + q * x * v + r * x ^ 2

/-- For small `a` (overdamped). -/
theorem form_small {γ a : ℝ} (h0 : 0 < γ) (h1 : γ ≤ 2 / 3) (ha : 0 < a) (h3 : a ≤ 3 * γ) :
    ∃ p q r m σ : ℝ, 0 < m ∧ 0 ≤ σ ∧ σ < 1 ∧ ∀ x v, m * (x ^ 2 + v ^ 2) ≤ qf p q r x v ∧
      qf p q r (x + ((1 - γ) * v - a * x) / 2) ((1 - γ) * v - a * x) ≤ σ * qf p q r x v := by
  have hg : 0 < 1 - γ := by linarith
  set g := 1 - γ with hgd
  set ε := 2 * γ ^ 3 / g with hε
  have he : 0 ≤ ε := by positivity
  set p := 1 + ε * g ^ 2 / (4 * γ ^ 2) with hp
  set q := -a + ε * g / γ with hq
  set r := 2 * a + ε with hr
  have eQ : ∀ x v, qf p q r x v = v ^ 2 - a * x * v + 2 * a * x ^ 2 + ε * (x + g * v / (2 * γ)) ^ 2 := by
    intro x v
    simp only [qf, hp, hq, hr]
    field_simp
    ring
  have hQ : ∀ x v, a / 4 * (x ^ 2 + v ^ 2) ≤ qf p q r x v := by
    intro x v
    rw [eQ]
    have : 0 ≤ ε * (x + g * v / (2 * γ)) ^ 2 := by positivity
    have h2 : a ≤ 2 := by linarith
    have : a / 4 * (x ^ 2 + v ^ 2) ≤ v ^ 2 - a * x * v + 2 * a * x ^ 2 := by
      have hb : 0 < 4 - a := by linarith
      have e : (4 - a) * (v ^ 2 - a * x * v + 2 * a * x ^ 2 - a / 4 * (x ^ 2 + v ^ 2)) =
          ((4 - a) / 2 * v - a * x) ^ 2 + a * (28 - 11 * a) / 4 * x ^ 2 := by ring
      have k : 0 ≤ a * (28 - 11 * a) / 4 * x ^ 2 :=
        mul_nonneg (div_nonneg (mul_nonneg ha.le (by linarith)) (by norm_num)) (sq_nonneg _)
      have k2 : 0 ≤ (4 - a) * (v ^ 2 - a * x * v + 2 * a * x ^ 2 - a / 4 * (x ^ 2 + v ^ 2)) := by
        rw [e]
        positivity
      have := nonneg_of_mul_nonneg_right k2 hb
      linarith
    linarith
  have hΔ : ∀ x v, qf p q r (x + (g * v - a * x) / 2) (g * v - a * x) =
      qf p q r x v - (γ * (1 + g) * v ^ 2 + γ * a * (4 * γ - a) / (2 * g) * x ^ 2) := by
    intro x v
    rw [eQ, eQ]
    have e : γ = 1 - g := by rw [hgd]; ring
    have hne : (1 - g : ℝ) ≠ 0 := by rw [← e]; exact h0.ne'
    rw [hε, e]
    field_simp
    ring
  set c1 := γ * (1 + g) with hc1
  set c2 := γ * a * (4 * γ - a) / (2 * g) with hc2
  have hc1p : 0 < c1 := by positivity
  have hc2p : 0 < c2 := div_pos (mul_pos (by positivity) (by linarith)) (by linarith)
  set c0 := min c1 c2 with hc0
  have hc0p : 0 < c0 := lt_min hc1p hc2p
  set U := |p| + |q| + |r| + c0 with hU
  have hUp : 0 < U := by positivity
  have hup : ∀ x v, qf p q r x v ≤ U * (x ^ 2 + v ^ 2) := by
    intro x v
    have a1 : p * v ^ 2 ≤ |p| * v ^ 2 := mul_le_mul_of_nonneg_right (le_abs_self p) (sq_nonneg v)
    have a2 : r * x ^ 2 ≤ |r| * x ^ 2 := mul_le_mul_of_nonneg_right (le_abs_self r) (sq_nonneg x)
    have a3 : q * x * v ≤ |q| * (x ^ 2 + v ^ 2) := by
      have : q * x * v ≤ |q * (x * v)| := by rw [mul_assoc]; exact le_abs_self _
      rw [abs_mul] at this
      have h2 : |x * v| ≤ x ^ 2 + v ^ 2 := by
        rw [abs_le]
        constructor <;> nlinarith [sq_nonneg (x + v), sq_nonneg (x - v), sq_nonneg x, sq_nonneg v]
      exact this.trans (mul_le_mul_of_nonneg_left h2 (abs_nonneg q))
    have a4 : 0 ≤ |p| * x ^ 2 := by positivity
    have a5 : 0 ≤ |r| * v ^ 2 := by positivity
    have a6 : 0 ≤ c0 * (x ^ 2 + v ^ 2) := by positivity
    unfold qf
    rw [hU]
    nlinarith
  refine ⟨p, q, r, a / 4, 1 - c0 / U, by positivity, ?_, ?_, fun x v => ⟨hQ x v, ?_⟩⟩
  · rw [sub_nonneg, div_le_one hUp, hU]
    have := abs_nonneg p
    have := abs_nonneg q
    have := abs_nonneg r
    linarith
  · have : 0 < c0 / U := by positivity
    linarith
  · rw [hΔ x v]
    have k1 : c0 * v ^ 2 ≤ c1 * v ^ 2 := mul_le_mul_of_nonneg_right (min_le_left _ _) (sq_nonneg v)
    have k2 : c0 * x ^ 2 ≤ c2 * x ^ 2 := mul_le_mul_of_nonneg_right (min_le_right _ _) (sq_nonneg x)
    have k3 : c0 / U * qf p q r x v ≤ c0 * (x ^ 2 + v ^ 2) := by
      calc c0 / U * qf p q r x v ≤ c0 / U * (U * (x ^ 2 + v ^ 2)) :=
            mul_le_mul_of_nonneg_left (hup x v) (by positivity)
        _ = c0 * (x ^ 2 + v ^ 2) := by field_simp
    linarith

/-- For larger `a`: the form that shrinks by exactly `1 - γ`. -/
theorem form_large {γ a : ℝ} (h0 : 0 < γ) (h1 : γ ≤ 2 / 3) (h3 : 3 * γ < a) (h8 : a ≤ 8 / 3) :
    ∃ p q r m σ : ℝ, 0 < m ∧ 0 ≤ σ ∧ σ < 1 ∧ ∀ x v, m * (x ^ 2 + v ^ 2) ≤ qf p q r x v ∧
      qf p q r (x + ((1 - γ) * v - a * x) / 2) ((1 - γ) * v - a * x) ≤ σ * qf p q r x v := by
  have ha : 0 < a := by linarith
  set g := 1 - γ with hgd
  have hg : 1 / 3 ≤ g := by rw [hgd]; linarith
  set D := 2 * a * g - (2 * γ - a) ^ 2 / 4 with hD
  have hDp : 0 < D := by
    have k : (a - 3 * γ) * (8 / 3 - a) ≥ 0 := mul_nonneg (by linarith) (by linarith)
    rw [hD, hgd]
    nlinarith
  set m := D / (2 * a + g) with hm
  have hm0 : 0 < m := by positivity
  have hmg : m < g := by
    rw [hm, div_lt_iff₀ (by positivity)]
    nlinarith [sq_nonneg (2 * γ - a)]
  have hmD : m * (2 * a + g) = D := by
    rw [hm]
    field_simp
  refine ⟨g, 2 * γ - a, 2 * a, m, g, hm0, by linarith, by rw [hgd]; linarith, fun x v => ⟨?_, ?_⟩⟩
  · have hgm : 0 < g - m := by linarith
    have e : qf g (2 * γ - a) (2 * a) x v - m * (x ^ 2 + v ^ 2) =
        (g - m) * (v + (2 * γ - a) * x / (2 * (g - m))) ^ 2 +
          (2 * a - m - (2 * γ - a) ^ 2 / (4 * (g - m))) * x ^ 2 := by
      unfold qf
      field_simp
      ring
    have k : 0 ≤ 2 * a - m - (2 * γ - a) ^ 2 / (4 * (g - m)) := by
      rw [sub_nonneg, div_le_iff₀ (by positivity)]
      nlinarith [sq_nonneg m]
    have : 0 ≤ (g - m) * (v + (2 * γ - a) * x / (2 * (g - m))) ^ 2 := by positivity
    have : 0 ≤ (2 * a - m - (2 * γ - a) ^ 2 / (4 * (g - m))) * x ^ 2 := mul_nonneg k (sq_nonneg _)
    linarith
  · apply le_of_eq
    unfold qf
    rw [hgd]
    ring

theorem form_exists {γ a : ℝ} (h0 : 0 < γ) (h1 : γ ≤ 2 / 3) (ha : 0 < a) (h8 : a ≤ 8 / 3) :
    ∃ p q r m σ : ℝ, 0 < m ∧ 0 ≤ σ ∧ σ < 1 ∧ ∀ x v, m * (x ^ 2 + v ^ 2) ≤ qf p q r x v ∧
      qf p q r (x + ((1 - γ) * v - a * x) / 2) ((1 - γ) * v - a * x) ≤ σ * qf p q r x v := by
  rcases le_or_gt a (3 * γ) with h | h
  · exact form_small h0 h1 ha h
  · exact form_large h0 h1 h h8

/-- A non-negative form of a sum. -/
theorem qf_add {p q r : ℝ} (hQ : ∀ x v, 0 ≤ qf p q r x v) {η : ℝ} (hη : 0 < η) (x v y u : ℝ) :
    qf p q r (x + y) (v + u) ≤ (1 + η) * qf p q r x v + (1 + 1 / η) * qf p q r y u := by
  have k := hQ (η * x - y) (η * v - u)
  have e : (1 + η) * qf p q r x v + (1 + 1 / η) * qf p q r y u - qf p q r (x + y) (v + u) =
      1 / η * qf p q r (η * x - y) (η * v - u) := by
    unfold qf
    field_simp
    ring
  have : 0 ≤ 1 / η * qf p q r (η * x - y) (η * v - u) := by positivity
  linarith

/-- A sequence that shrinks but for a constant. -/
theorem shrinking {τ K : ℝ} (h0 : 0 ≤ τ) (h1 : τ < 1) {Q : ℕ → ℝ} (hQ : ∀ n, Q (n + 1) ≤ τ * Q n + K) (hK : 0 ≤ K)
    (n : ℕ) : Q n ≤ τ ^ n * Q 0 + K / (1 - τ) := by
  have h2 : 0 < 1 - τ := by linarith
  induction n with
  | zero =>
    have : 0 ≤ K / (1 - τ) := by positivity
    simpa using this
  | succ n ih =>
    calc Q (n + 1) ≤ τ * Q n + K := hQ n
      _ ≤ τ * (τ ^ n * Q 0 + K / (1 - τ)) + K := by
          have := mul_le_mul_of_nonneg_left ih h0
          linarith
      _ = τ ^ (n + 1) * Q 0 + K / (1 - τ) := by
          field_simp
          ring

/-- One oscillator. -/
theorem oscillator {γ a : ℝ} (h0 : 0 < γ) (h1 : γ ≤ 2 / 3) (ha : 0 ≤ a) (h8 : a ≤ 8 / 3) :
    ∃ C τ : ℝ, 0 ≤ C ∧ 0 ≤ τ ∧ τ < 1 ∧ ∀ (x v w : ℕ → ℝ) (W : ℝ), (∀ n, |w n| ≤ W) →
      (∀ n, v (n + 1) = (1 - γ) * v n - a * x n + w n) → (∀ n, x (n + 1) = x n + v (n + 1) / 2) → ∀ n,
        v n ^ 2 ≤ C * (τ ^ n * (x 0 ^ 2 + v 0 ^ 2) + W ^ 2) ∧
        (0 < a → x n ^ 2 ≤ C * (τ ^ n * (x 0 ^ 2 + v 0 ^ 2) + W ^ 2)) := by
  rcases ha.eq_or_lt with rfl | ha
  · set g := 1 - γ with hg
    have g0 : 0 ≤ g := by rw [hg]; linarith
    have g1 : g < 1 := by rw [hg]; linarith
    refine ⟨1 + (1 + 1 / γ) / (1 - g), g, ?_, g0, g1, fun x v w W hw hv _ n => ⟨?_, fun h => absurd h (lt_irrefl _)⟩⟩
    · have : 0 < 1 - g := by linarith
      positivity
    · have step : ∀ n, v (n + 1) ^ 2 ≤ g * v n ^ 2 + (1 + 1 / γ) * W ^ 2 := by
        intro n
        have hw2 : w n ^ 2 ≤ W ^ 2 := sq_le_sq' (by linarith [abs_le.1 (hw n)]) (abs_le.1 (hw n)).2
        have e : v (n + 1) = g * v n + w n := by rw [hv n]; ring
        have k : (g * v n + w n) ^ 2 ≤ (1 + γ) * (g * v n) ^ 2 + (1 + 1 / γ) * w n ^ 2 := by
          have e2 : (1 + γ) * (g * v n) ^ 2 + (1 + 1 / γ) * w n ^ 2 - (g * v n + w n) ^ 2 =
              1 / γ * (γ * (g * v n) - w n) ^ 2 := by
            field_simp
            ring
          have : 0 ≤ 1 / γ * (γ * (g * v n) - w n) ^ 2 := by positivity
          linarith
        have k2 : (1 + γ) * (g * v n) ^ 2 ≤ g * v n ^ 2 := by
          have : (1 + γ) * g ≤ 1 := by rw [hg]; nlinarith
          calc (1 + γ) * (g * v n) ^ 2 = ((1 + γ) * g) * (g * v n ^ 2) := by ring
            _ ≤ 1 * (g * v n ^ 2) := mul_le_mul_of_nonneg_right this (by positivity)
            _ = g * v n ^ 2 := by ring
        have k3 : (1 + 1 / γ) * w n ^ 2 ≤ (1 + 1 / γ) * W ^ 2 := mul_le_mul_of_nonneg_left hw2 (by positivity)
        rw [e]
        linarith
      have := shrinking g0 g1 (Q := fun n => v n ^ 2) step (by positivity) n
      have p1 : 0 ≤ g ^ n * x 0 ^ 2 := by positivity
      have hgg : 0 < 1 - g := by linarith
      have p2 : 0 ≤ (1 + 1 / γ) / (1 - g) * (g ^ n * (x 0 ^ 2 + v 0 ^ 2)) := by positivity
      have p3 : (1 + 1 / γ) * W ^ 2 / (1 - g) = (1 + 1 / γ) / (1 - g) * W ^ 2 := by ring
      have p4 : 0 ≤ W ^ 2 := sq_nonneg _
      rw [p3] at this
      linarith
  · obtain ⟨p, q, r, m, σ, hm, s0, s1, hf⟩ := form_exists h0 h1 ha h8
    have hQ : ∀ x v, 0 ≤ qf p q r x v := fun x v => by
      have := (hf x v).1
      have : 0 ≤ m * (x ^ 2 + v ^ 2) := by positivity
      linarith
    set η := (1 - σ) / 2 with hη
    have hηp : 0 < η := by rw [hη]; linarith
    set τ := (1 + σ) / 2 with hτ
    have t0 : 0 ≤ τ := by rw [hτ]; linarith
    have t1 : τ < 1 := by rw [hτ]; linarith
    set K := (1 + 1 / η) * qf p q r (1 / 2) 1 with hK
    have hK0 : 0 ≤ K := mul_nonneg (by positivity) (hQ _ _)
    set U := |p| + |q| + |r| with hU
    have hU0 : 0 ≤ U := by positivity
    have hup : ∀ x v, qf p q r x v ≤ U * (x ^ 2 + v ^ 2) := by
      intro x v
      have a1 : p * v ^ 2 ≤ |p| * v ^ 2 := mul_le_mul_of_nonneg_right (le_abs_self p) (sq_nonneg v)
      have a2 : r * x ^ 2 ≤ |r| * x ^ 2 := mul_le_mul_of_nonneg_right (le_abs_self r) (sq_nonneg x)
      have a3 : q * x * v ≤ |q| * (x ^ 2 + v ^ 2) := by
        have : q * x * v ≤ |q * (x * v)| := by rw [mul_assoc]; exact le_abs_self _
        rw [abs_mul] at this
        have h2 : |x * v| ≤ x ^ 2 + v ^ 2 := by
          rw [abs_le]
          constructor <;> nlinarith [sq_nonneg (x + v), sq_nonneg (x - v), sq_nonneg x, sq_nonneg v]
        exact this.trans (mul_le_mul_of_nonneg_left h2 (abs_nonneg q))
      have a4 : 0 ≤ |p| * x ^ 2 := by positivity
      have a5 : 0 ≤ |r| * v ^ 2 := by positivity
      unfold qf
      rw [hU]
      nlinarith
    set C := (U + K / (1 - τ)) / m with hC
    have hC0 : 0 ≤ C := by
      have : 0 < 1 - τ := by linarith
      positivity
    refine ⟨C, τ, hC0, t0, t1, fun x v w W hw hv hx n => ?_⟩
    have step : ∀ n, qf p q r (x (n + 1)) (v (n + 1)) ≤ τ * qf p q r (x n) (v n) + K * W ^ 2 := by
      intro n
      have ev : v (n + 1) = ((1 - γ) * v n - a * x n) + w n := hv n
      have ex : x (n + 1) = (x n + ((1 - γ) * v n - a * x n) / 2) + w n / 2 := by rw [hx n, ev]; ring
      rw [ev, ex]
      refine (qf_add hQ hηp _ _ _ _).trans ?_
      have k1 : (1 + η) * qf p q r (x n + ((1 - γ) * v n - a * x n) / 2) ((1 - γ) * v n - a * x n) ≤
          τ * qf p q r (x n) (v n) := by
        calc _ ≤ (1 + η) * (σ * qf p q r (x n) (v n)) := mul_le_mul_of_nonneg_left (hf _ _).2 (by positivity)
          _ = ((1 + η) * σ) * qf p q r (x n) (v n) := by ring
          _ ≤ τ * qf p q r (x n) (v n) := by
              refine mul_le_mul_of_nonneg_right ?_ (hQ _ _)
              rw [hη, hτ]
              nlinarith [sq_nonneg (1 - σ)]
      have k2 : (1 + 1 / η) * qf p q r (w n / 2) (w n) ≤ K * W ^ 2 := by
        have e : qf p q r (w n / 2) (w n) = qf p q r (1 / 2) 1 * w n ^ 2 := by
          unfold qf
          ring
        have hw2 : w n ^ 2 ≤ W ^ 2 := sq_le_sq' (by linarith [abs_le.1 (hw n)]) (abs_le.1 (hw n)).2
        rw [e, hK, ← mul_assoc]
        exact mul_le_mul_of_nonneg_left hw2 hK0
      linarith
    have main := shrinking t0 t1 (Q := fun n => qf p q r (x n) (v n)) step (mul_nonneg hK0 (sq_nonneg W)) n
    have ht : 0 < 1 - τ := by linarith
    have bound : m * (x n ^ 2 + v n ^ 2) ≤ (U + K / (1 - τ)) * (τ ^ n * (x 0 ^ 2 + v 0 ^ 2) + W ^ 2) := by
      have k1 := (hf (x n) (v n)).1
      have k2 : τ ^ n * qf p q r (x 0) (v 0) ≤ U * (τ ^ n * (x 0 ^ 2 + v 0 ^ 2)) := by
        have := mul_le_mul_of_nonneg_left (hup (x 0) (v 0)) (pow_nonneg t0 n)
        linarith
      have k3 : 0 ≤ U * W ^ 2 := by positivity
      have k4 : 0 ≤ K / (1 - τ) * (τ ^ n * (x 0 ^ 2 + v 0 ^ 2)) := by positivity
      have k5 : K * W ^ 2 / (1 - τ) = K / (1 - τ) * W ^ 2 := by ring
      rw [k5] at main
      linarith
    have fin : x n ^ 2 + v n ^ 2 ≤ C * (τ ^ n * (x 0 ^ 2 + v 0 ^ 2) + W ^ 2) := by
      rw [hC, div_mul_eq_mul_div, le_div_iff₀ hm]
      linarith
    exact ⟨by linarith [sq_nonneg (x n)], fun _ => by linarith [sq_nonneg (v n)]⟩

variable {n : ℕ}

open scoped InnerProductSpace

/-- Coupled oscillators. -/
theorem oscillators (hn : 0 < n) (T : EuclideanSpace ℝ (Fin n) →ₗ[ℝ] EuclideanSpace ℝ (Fin n)) (hT : T.IsSymmetric)
    {γ : ℝ} (h0 : 0 < γ) (h1 : γ ≤ 2 / 3) (hp : ∀ x, 0 ≤ ⟪T x, x⟫_ℝ) (hu : ∀ x, ⟪T x, x⟫_ℝ ≤ 8 / 3 * ‖x‖ ^ 2) :
    ∃ C τ : ℝ, 0 ≤ C ∧ 0 ≤ τ ∧ τ < 1 ∧ ∀ (x v w : ℕ → EuclideanSpace ℝ (Fin n)) (W : ℝ), (∀ k, ‖w k‖ ≤ W) →
      (∀ k, v (k + 1) = (1 - γ) • v k - T (x k) + w k) → (∀ k, x (k + 1) = x k + (1 / 2 : ℝ) • v (k + 1)) → ∀ k,
        ‖v k‖ ^ 2 ≤ C * (τ ^ k * (‖x 0‖ ^ 2 + ‖v 0‖ ^ 2) + W ^ 2) ∧
        ∀ φ : EuclideanSpace ℝ (Fin n) →ₗ[ℝ] ℝ, (∀ y, T y = 0 → φ y = 0) → (∀ y, ‖y‖ = 1 → |φ y| ≤ 2) →
          φ (x k) ^ 2 ≤ C * (τ ^ k * (‖x 0‖ ^ 2 + ‖v 0‖ ^ 2) + W ^ 2) := by
  have hfr : Module.finrank ℝ (EuclideanSpace ℝ (Fin n)) = n := by simp
  set b := hT.eigenvectorBasis hfr with hb
  set a := hT.eigenvalues hfr with ha
  have hTb : ∀ j, T (b j) = a j • b j := fun j => hT.apply_eigenvectorBasis hfr j
  have a0 : ∀ j, 0 ≤ a j := by
    intro j
    have := hp (b j)
    rw [hTb, real_inner_smul_left, real_inner_self_eq_norm_sq, b.orthonormal.1 j] at this
    linarith
  have a8 : ∀ j, a j ≤ 8 / 3 := by
    intro j
    have := hu (b j)
    rw [hTb, real_inner_smul_left, real_inner_self_eq_norm_sq, b.orthonormal.1 j] at this
    linarith
  choose C τ hC t0 t1 hO using fun j => oscillator h0 h1 (a0 j) (a8 j)
  haveI : Nonempty (Fin n) := ⟨⟨0, hn⟩⟩
  obtain ⟨j0, -, hj0⟩ := Finset.exists_max_image Finset.univ τ Finset.univ_nonempty
  have hS : 0 ≤ ∑ j, C j := Finset.sum_nonneg fun j _ => hC j
  refine ⟨(1 + 4 * n) * ∑ j, C j, τ j0, by positivity, t0 j0, t1 j0, fun x v w W hw hv hx k => ?_⟩
  set M := τ j0 ^ k * (‖x 0‖ ^ 2 + ‖v 0‖ ^ 2) + W ^ 2 with hM
  have hM0 : 0 ≤ M := by
    have := t0 j0
    positivity
  have mode : ∀ j, ⟪b j, v k⟫_ℝ ^ 2 ≤ C j * M ∧ (0 < a j → ⟪b j, x k⟫_ℝ ^ 2 ≤ C j * M) := by
    intro j
    have nb : ‖b j‖ = 1 := b.orthonormal.1 j
    have le1 : ∀ y : EuclideanSpace ℝ (Fin n), |⟪b j, y⟫_ℝ| ≤ ‖y‖ := by
      intro y
      have := abs_real_inner_le_norm (b j) y
      rw [nb, one_mul] at this
      exact this
    have key := hO j (fun k => ⟪b j, x k⟫_ℝ) (fun k => ⟪b j, v k⟫_ℝ) (fun k => ⟪b j, w k⟫_ℝ) W
      (fun k => (le1 _).trans (hw k)) (fun k => by
        beta_reduce
        rw [hv k, inner_add_right, inner_sub_right, real_inner_smul_right, ← hT, hTb, real_inner_smul_left])
      (fun k => by
        beta_reduce
        rw [hx k, inner_add_right, real_inner_smul_right]
        ring) k
    have le2 : C j * (τ j ^ k * (⟪b j, x 0⟫_ℝ ^ 2 + ⟪b j, v 0⟫_ℝ ^ 2) + W ^ 2) ≤ C j * M := by
      refine mul_le_mul_of_nonneg_left ?_ (hC j)
      have s1 : ⟪b j, x 0⟫_ℝ ^ 2 ≤ ‖x 0‖ ^ 2 := sq_le_sq' (by linarith [abs_le.1 (le1 (x 0))]) (abs_le.1 (le1 (x 0))).2
      have s2 : ⟪b j, v 0⟫_ℝ ^ 2 ≤ ‖v 0‖ ^ 2 := sq_le_sq' (by linarith [abs_le.1 (le1 (v 0))]) (abs_le.1 (le1 (v 0))).2
      have s3 : τ j ^ k ≤ τ j0 ^ k := pow_le_pow_left₀ (t0 j) (hj0 j (Finset.mem_univ _)) k
      have : τ j ^ k * (⟪b j, x 0⟫_ℝ ^ 2 + ⟪b j, v 0⟫_ℝ ^ 2) ≤ τ j0 ^ k * (‖x 0‖ ^ 2 + ‖v 0‖ ^ 2) :=
        mul_le_mul s3 (by linarith) (by positivity) (pow_nonneg (t0 j0) k)
      rw [hM]
      linarith
    exact ⟨key.1.trans le2, fun h => (key.2 h).trans le2⟩
  constructor
  · have e : ‖v k‖ ^ 2 = ∑ j, ⟪b j, v k⟫_ℝ ^ 2 := by
      rw [← b.sum_sq_norm_inner_right]
      simp
    rw [e]
    calc ∑ j, ⟪b j, v k⟫_ℝ ^ 2 ≤ ∑ j, C j * M := Finset.sum_le_sum fun j _ => (mode j).1
      _ = 1 * ((∑ j, C j) * M) := by rw [Finset.sum_mul, one_mul]
      _ ≤ (1 + 4 * n) * ((∑ j, C j) * M) := by
          refine mul_le_mul_of_nonneg_right ?_ (by positivity)
          have : (0 : ℝ) ≤ n := by positivity
          linarith
      _ = (1 + 4 * n) * (∑ j, C j) * M := by ring
  · intro φ hφ h2
    have e : φ (x k) = ∑ j, ⟪b j, x k⟫_ℝ * φ (b j) := by
      conv_lhs => rw [← b.sum_repr' (x k)]
      simp
    have z : ∀ j, (⟪b j, x k⟫_ℝ * φ (b j)) = (if 0 < a j then ⟪b j, x k⟫_ℝ else 0) * φ (b j) := by
      intro j
      split_ifs with h
      · rfl
      · have : a j = 0 := le_antisymm (not_lt.1 h) (a0 j)
        rw [hφ (b j) (by rw [hTb, this, zero_smul])]
        simp
    rw [e, Finset.sum_congr rfl fun j _ => z j]
    refine (Finset.sum_mul_sq_le_sq_mul_sq _ _ _).trans ?_
    have f1 : ∑ j, (if 0 < a j then ⟪b j, x k⟫_ℝ else 0) ^ 2 ≤ (∑ j, C j) * M := by
      rw [Finset.sum_mul]
      refine Finset.sum_le_sum fun j _ => ?_
      split_ifs with h
      · exact (mode j).2 h
      · simpa using mul_nonneg (hC j) hM0
    have f2 : ∑ j, φ (b j) ^ 2 ≤ 4 * n := by
      calc ∑ j, φ (b j) ^ 2 ≤ ∑ _j : Fin n, (4 : ℝ) := Finset.sum_le_sum fun j _ => by
            have := abs_le.1 (h2 (b j) (b.orthonormal.1 j))
            nlinarith
        _ = 4 * n := by simp; ring
    calc _ ≤ ((∑ j, C j) * M) * (4 * n) :=
          mul_le_mul f1 f2 (Finset.sum_nonneg fun _ _ => sq_nonneg _) (by positivity)
      _ ≤ ((∑ j, C j) * M) * (1 + 4 * n) := by
          refine mul_le_mul_of_nonneg_left (by linarith) (by positivity)
      _ = (1 + 4 * n) * (∑ j, C j) * M := by ring

end Verif.Wobbly
