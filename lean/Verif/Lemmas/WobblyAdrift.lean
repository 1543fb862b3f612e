import Verif.Lemmas.WobblyLoose
import Verif.Lemmas.WobblyTugAgree
import Verif.Lemmas.WobblySlowDouble

/-! # A mesh that nothing holds, in double precision (for C145) -/

namespace Verif.Wobbly

open Spec Outcome Classical Props
open scoped InnerProductSpace

/-- The mean of a coordinate. -/
noncomputable def mean (g : Idx → ℝ) : ℝ := (∑ i, g i) / 16

/-- How far the points are from the mean. -/
noncomputable def spread (g : Idx → ℝ) : EuclideanSpace ℝ (Fin 16) := WithLp.toLp 2 fun i => g i - mean g

theorem mean_add (g g' : Idx → ℝ) : mean (fun i => g i + g' i) = mean g + mean g' := by
  unfold mean
  rw [Finset.sum_add_distrib]
  ring

theorem mean_mul (c : ℝ) (g : Idx → ℝ) : mean (fun i => c * g i) = c * mean g := by
  unfold mean
  rw [← Finset.mul_sum]
  ring

theorem mean_le {g : Idx → ℝ} {B : ℝ} (h : ∀ i, |g i| ≤ B) : |mean g| ≤ B := by
  have k : |∑ i, g i| ≤ 16 * B := by
    refine (Finset.abs_sum_le_sum_abs _ _).trans ((Finset.sum_le_sum fun i _ => h i).trans (le_of_eq ?_))
    simp
  unfold mean
  rw [abs_div, abs_of_pos (by norm_num : (0 : ℝ) < 16), div_le_iff₀ (by norm_num)]
  linarith

theorem spread_apply (g : Idx → ℝ) (i : Idx) : spread g i = g i - mean g := rfl

theorem mean_spread (g : Idx → ℝ) : mean (spread g) = 0 := by
  have : (∑ i, spread g i) = ∑ i, g i - 16 * mean g := by
    simp only [spread_apply, Finset.sum_sub_distrib]
    simp
  unfold mean at this ⊢
  rw [this]
  ring

theorem norm_spread (g : Idx → ℝ) : ∑ i, g i ^ 2 = ‖spread g‖ ^ 2 + 16 * mean g ^ 2 := by
  rw [EuclideanSpace.norm_sq_eq]
  have h1 : ∑ i, ‖spread g i‖ ^ 2 = ∑ i, (g i ^ 2 - 2 * mean g * g i + mean g ^ 2) :=
    Finset.sum_congr rfl fun i _ => by
      rw [Real.norm_eq_abs, sq_abs, spread_apply]
      ring
  have h2 : ∑ i, g i = 16 * mean g := by
    unfold mean
    ring
  rw [h1, Finset.sum_add_distrib, Finset.sum_sub_distrib, ← Finset.mul_sum, h2]
  simp
  ring

theorem spread_le {g : Idx → ℝ} {B : ℝ} (hB : 0 ≤ B) (h : ∀ i, |g i| ≤ B) : ‖spread g‖ ^ 2 ≤ (4 * B) ^ 2 := by
  have k : ∑ i, g i ^ 2 ≤ (4 * B) ^ 2 := by
    refine (Finset.sum_le_sum fun i _ => sq_le_sq' (abs_le.1 (h i)).1 (abs_le.1 (h i)).2).trans (le_of_eq ?_)
    simp
    ring
  have := norm_spread g
  nlinarith [sq_nonneg (mean g)]

/-- Every coordinate becomes the mean. -/
noncomputable def level : EuclideanSpace ℝ (Fin 16) →ₗ[ℝ] EuclideanSpace ℝ (Fin 16) where
  toFun y := WithLp.toLp 2 fun _ => mean y
  map_add' y z := by
    ext i
    exact mean_add y z
  map_smul' c y := by
    ext i
    exact mean_mul c y

theorem level_inner (x y : EuclideanSpace ℝ (Fin 16)) : ⟪level x, y⟫_ℝ = 16 * (mean x * mean y) := by
  rw [PiLp.inner_apply]
  have : ∀ i, ⟪(level x) i, y i⟫_ℝ = mean x * y i := fun i => mul_comm _ _
  simp only [this]
  rw [← Finset.mul_sum]
  unfold mean
  ring

theorem level_spread (g : Idx → ℝ) : level (spread g) = 0 := by
  ext i
  exact mean_spread g

/-- Every spring joins two mesh points. -/
def OnMesh (l : List Spring) : Prop := ∀ z ∈ l, (∃ i, z.a = .mesh i) ∧ ∃ j, z.b = .mesh j

variable {l : List Spring}

theorem ground_shift (hl : OnMesh l) (g : Idx → ℝ) (m : ℝ) {z : Spring} (hz : z ∈ l) :
    ground (fun i => g i - m) z.a - ground (fun i => g i - m) z.b = ground g z.a - ground g z.b := by
  obtain ⟨⟨i, hi⟩, j, hj⟩ := hl z hz
  rw [hi, hj]
  simp only [ground]
  ring

theorem webLap_shift (hl : OnMesh l) (g : Idx → ℝ) (m : ℝ) (i : Idx) : webLap l (fun i => g i - m) i = webLap l g i := by
  unfold webLap
  congr 1
  refine List.map_congr_left fun z hz => ?_
  rw [ground_shift hl g m hz]

theorem mean_webLap (hl : OnMesh l) (g : Idx → ℝ) : mean (webLap l g) = 0 := by
  have h := webLap_inner l g fun _ => 1
  have h0 : (l.map fun z => (ground g z.a - ground g z.b) * (ground (fun _ : Idx => (1 : ℝ)) z.a - ground (fun _ => 1) z.b)).sum = 0 := by
    have : (l.map fun z => (ground g z.a - ground g z.b) * (ground (fun _ : Idx => (1 : ℝ)) z.a - ground (fun _ => 1) z.b)) =
        l.map fun _ => (0 : ℝ) := by
      refine List.map_congr_left fun z hz => ?_
      obtain ⟨⟨i, hi⟩, j, hj⟩ := hl z hz
      rw [hi, hj]
      simp [ground]
    rw [this]
    simp
  rw [h0] at h
  unfold mean
  simp only [mul_one] at h
  rw [h, zero_div]

/-- An energy with which springs and friction take a mesh that nothing holds to its shape. -/
structure Gathers (l : List Spring) (c γ : ℝ) (S : EuclideanSpace ℝ (Fin 16) → EuclideanSpace ℝ (Fin 16) → ℝ) : Prop where
  vel : ∀ x v, ‖v‖ ^ 2 ≤ 4 * S x v
  pos : ∀ x v, ‖x‖ ^ 2 ≤ 2 ^ 21 * S x v
  le : ∀ x v, S x v ≤ 18 * (‖x‖ ^ 2 + ‖v‖ ^ 2)
  tick : ∀ d u d' u' w e : Idx → ℝ, (∀ i, u' i = (1 - γ) * u i - c * webLap l d i + w i) →
    (∀ i, d' i = d i + 1 / 2 * u' i + e i) →
    S (spread d') (spread u') ≤ (1 - 1 / 2 ^ 25) * S (spread d) (spread u) +
      2 ^ 31 * (‖spread fun i => 1 / 2 * w i + e i‖ ^ 2 + ‖spread w‖ ^ 2)

theorem exists_gathers (hl : OnMesh l) (hd : ∀ i, (l.map (endsAt i)).sum ≤ 4)
    (hjoin : ∀ z ∈ baseEdges, ∃ x ∈ l, x.a = .mesh z.1 ∧ x.b = .mesh z.2.1) {c γ : ℝ} (hc : 1 / 300 ≤ c) (hc' : c ≤ 1 / 3)
    (h0 : 1 / 150 ≤ γ) (h1 : γ ≤ 2 / 3) : ∃ S, Gathers l c γ S := by
  set free : Idx → Prop := fun _ => True with hfree
  have hp : ∀ y : Idx → ℝ, part free y = y := fun y => by
    funext i
    exact if_pos trivial
  have c0 : 0 ≤ c := by linarith
  have hsym : (web l c free + level).IsSymmetric := by
    refine LinearMap.IsSymmetric.add (web_symmetric c free) fun x y => ?_
    rw [level_inner, real_inner_comm, level_inner]
    ring
  have hform : ∀ x, ⟪(web l c free + level) x, x⟫_ℝ =
      c * (l.map fun z => (ground x z.a - ground x z.b) * (ground x z.a - ground x z.b)).sum + 16 * mean x ^ 2 := by
    intro x
    rw [LinearMap.add_apply, inner_add_left, web_inner, level_inner, hp, sq]
  have hnorm : ∀ x : EuclideanSpace ℝ (Fin 16), ‖x‖ ^ 2 = ∑ i, x i ^ 2 := by
    intro x
    rw [EuclideanSpace.norm_sq_eq]
    exact Finset.sum_congr rfl fun i _ => by rw [Real.norm_eq_abs, sq_abs]
  have hlow : ∀ x, 1 / 2 ^ 20 * ‖x‖ ^ 2 ≤ ⟪(web l c free + level) x, x⟫_ℝ := by
    intro x
    rw [hform, hnorm, norm_spread]
    set Q := (l.map fun z => (ground x z.a - ground x z.b) * (ground x z.a - ground x z.b)).sum with hQ
    have Q0 : 0 ≤ Q := list_nonneg _ _ fun z _ => mul_self_nonneg _
    have hedge : ∀ z ∈ baseEdges, |x z.2.1 - x z.1| ≤ Real.sqrt Q := by
      intro z hz
      obtain ⟨u, hu, ea, eb⟩ := hjoin z hz
      refine Real.abs_le_sqrt ?_
      have k : (ground x u.a - ground x u.b) * (ground x u.a - ground x u.b) ≤ Q :=
        List.single_le_sum (fun v hv => by
          obtain ⟨z, -, rfl⟩ := List.mem_map.1 hv
          exact mul_self_nonneg _) _ (List.mem_map.2 ⟨u, hu, rfl⟩)
      rw [ea, eb] at k
      simp only [ground] at k
      nlinarith
    have hs : ∀ i, |spread x i| ≤ 6 * Real.sqrt Q := by
      intro i
      have e1 : spread x i = mean fun j => x i - x j := by
        rw [spread_apply]
        unfold mean
        rw [Finset.sum_sub_distrib]
        simp
        ring
      rw [e1]
      exact mean_le fun j => near_edges hedge i j
    have k := norm_le_of_coords (by positivity) hs
    have k2 : ‖spread x‖ ^ 2 ≤ (4 * (6 * Real.sqrt Q)) ^ 2 := pow_le_pow_left₀ (norm_nonneg _) k 2
    have k3 : (4 * (6 * Real.sqrt Q)) ^ 2 = 576 * Q := by
      rw [← mul_assoc, mul_pow, Real.sq_sqrt Q0]
      norm_num
    rw [k3] at k2
    have k4 := mul_le_mul_of_nonneg_right hc Q0
    have k5 := sq_nonneg (mean x)
    norm_num at k2 k4 k5 ⊢
    linarith
  have hupp : ∀ x, ⟪(web l c free + level) x, x⟫_ℝ ≤ 8 / 3 * ‖x‖ ^ 2 := by
    intro x
    rw [hform, hnorm, norm_spread]
    have k := web_le hd c0 hc' free (spread x)
    rw [web_inner, hp] at k
    have e1 : (l.map fun z => (ground (spread x) z.a - ground (spread x) z.b) * (ground (spread x) z.a - ground (spread x) z.b)) =
        l.map fun z => (ground x z.a - ground x z.b) * (ground x z.a - ground x z.b) := by
      refine List.map_congr_left fun z hz => ?_
      have := ground_shift hl x (mean x) hz
      show (ground (fun i => x i - mean x) z.a - ground (fun i => x i - mean x) z.b) *
        (ground (fun i => x i - mean x) z.a - ground (fun i => x i - mean x) z.b) = _
      rw [this]
    rw [e1] at k
    nlinarith [sq_nonneg (mean x)]
  obtain ⟨S, hb, ht⟩ := total_energy _ hsym h0 h1 hlow hupp
  refine ⟨S, fun x v => (hb x v).1, fun x v => (hb x v).2.1, fun x v => (hb x v).2.2, fun d u d' u' w e hu hd' => ?_⟩
  have hmu : mean u' = (1 - γ) * mean u + mean w := by
    have e1 : u' = fun i => ((1 - γ) * u i + (-c) * webLap l d i) + w i := by
      funext i
      rw [hu i]
      ring
    rw [e1, mean_add, mean_add, mean_mul, mean_mul, show mean (fun i => webLap l d i) = 0 from mean_webLap hl d]
    ring
  have hmd : mean d' = mean d + 1 / 2 * mean u' + mean e := by
    have e1 : d' = fun i => (d i + 1 / 2 * u' i) + e i := funext hd'
    rw [e1, mean_add, mean_add, mean_mul]
  have hmw : mean (fun i => 1 / 2 * w i + e i) = 1 / 2 * mean w + mean e := by
    rw [mean_add, mean_mul]
  have hweb : ∀ i, (web l c free + level) (spread d) i = c * webLap l d i := by
    intro i
    rw [LinearMap.add_apply, level_spread, add_zero, web_apply, hp, hp]
    show c * webLap l (fun i => d i - mean d) i = _
    rw [webLap_shift hl]
  have E1 : (1 - γ) • spread u - (web l c free + level) (spread d) + spread w = spread u' := by
    ext i
    rw [PiLp.add_apply, PiLp.sub_apply, PiLp.smul_apply, hweb, smul_eq_mul, spread_apply, spread_apply, spread_apply, hmu, hu i]
    ring
  have E2 : spread d + (1 / 2 : ℝ) • spread u' + spread e = spread d' := by
    ext i
    rw [PiLp.add_apply, PiLp.add_apply, PiLp.smul_apply, smul_eq_mul, spread_apply, spread_apply, spread_apply, spread_apply, hmd,
      hd' i]
    ring
  have E3 : (1 / 2 : ℝ) • spread w + spread e = spread fun i => 1 / 2 * w i + e i := by
    ext i
    rw [PiLp.add_apply, PiLp.smul_apply, smul_eq_mul, spread_apply, spread_apply, spread_apply, hmw]
    ring
  have := ht (spread d) (spread u) (spread w) (spread e)
  rw [E1, E2, E3] at this
  exact this

namespace Rounded

variable {r : ℝ → ℝ} {R : Rounding64}

/-- How far a mesh that nothing holds has got after `n` ticks. -/
def Adrift (S : EuclideanSpace ℝ (Fin 16) → EuclideanSpace ℝ (Fin 16) → ℝ) (M : ℝ) (n : ℕ) (q : Phys) : Prop :=
  ∀ c, c = Pt.x ∨ c = Pt.y → S (spread fun i => c (q.pos i)) (spread fun i => c (q.vel i)) ≤ 2 ^ 69 * M ^ 2 ∧
    |mean fun i => c (q.vel i)| ≤ 2 ^ 12 * M ∧ |mean fun i => c (q.pos i)| ≤ (n + 1) * (2 ^ 12 * M)

variable {S : EuclideanSpace ℝ (Fin 16) → EuclideanSpace ℝ (Fin 16) → ℝ} {M : ℝ} {e : Env} {q : Phys} {n : ℕ}

theorem Adrift.coords (hM : 1 ≤ M) {l : List Spring} {a γ : ℝ} (hS : Gathers l a γ S) (h : Adrift S M n q) (hn : n + 1 ≤ 2 ^ 33)
    {c : Pt → ℝ} (hc : c = Pt.x ∨ c = Pt.y) (i : Idx) : |c (q.pos i)| ≤ 2 ^ 46 * M ∧ |c (q.vel i)| ≤ 2 ^ 37 * M := by
  obtain ⟨h1, h2, h3⟩ := h c hc
  have M0 : 0 < M := by linarith
  have coord : ∀ (g : Idx → ℝ) (B C : ℝ), 0 ≤ B → ‖spread g‖ ^ 2 ≤ B ^ 2 → |mean g| ≤ C → |g i| ≤ B + C := by
    intro g B C hB hg hm
    have e1 : g i = spread g i + mean g := by
      rw [spread_apply]
      ring
    rw [e1]
    exact (abs_add_le _ _).trans (add_le_add ((coord_le_norm _ i).trans (abs_le_of_sq_le_sq' hg hB).2) hm)
  have M2 := sq_nonneg M
  constructor
  · have hn' : ((n : ℝ) + 1) ≤ 2 ^ 33 := by exact_mod_cast hn
    have k3 : ((n : ℝ) + 1) * (2 ^ 12 * M) ≤ 2 ^ 45 * M := by
      calc ((n : ℝ) + 1) * (2 ^ 12 * M) ≤ 2 ^ 33 * (2 ^ 12 * M) := mul_le_mul_of_nonneg_right hn' (by positivity)
        _ = _ := by ring
    refine (coord (fun i => c (q.pos i)) (2 ^ 45 * M) (2 ^ 45 * M) (by positivity) ((hS.pos _ (spread fun i => c (q.vel i))).trans ?_)
      (h3.trans k3)).trans (le_of_eq (by ring))
    calc _ ≤ 2 ^ 21 * (2 ^ 69 * M ^ 2) := mul_le_mul_of_nonneg_left h1 (by positivity)
      _ = _ := by ring
  · refine (coord (fun i => c (q.vel i)) (2 ^ 36 * M) (2 ^ 12 * M) (by positivity)
      ((hS.vel (spread fun i => c (q.pos i)) _).trans ?_) h2).trans ?_
    · calc _ ≤ 4 * (2 ^ 69 * M ^ 2) := mul_le_mul_of_nonneg_left h1 (by norm_num)
        _ ≤ 2 ^ 72 * M ^ 2 := by
          norm_num
          linarith
        _ = _ := by ring
    · norm_num
      linarith

theorem Adrift.within (hM : 1 ≤ M) {l : List Spring} {a γ : ℝ} (hS : Gathers l a γ S) (h : Adrift S M n q) (hn : n + 1 ≤ 2 ^ 33)
    (i : Idx) : Within (2 ^ 46 * M) (q.pos i) ∧ Within (2 ^ 37 * M) (q.vel i) :=
  ⟨⟨(h.coords hM hS hn (.inl rfl) i).1, (h.coords hM hS hn (.inr rfl) i).1⟩,
    (h.coords hM hS hn (.inl rfl) i).2, (h.coords hM hS hn (.inr rfl) i).2⟩

/-- One more tick. -/
theorem Adrift.round (hM : 1 ≤ M) (hr : Fine r (2 ^ 46 * M)) (hl : OnMesh e.springs) (hfree : ∀ i, e.locks i = 0)
    (hd : ∀ i, (e.springs.map (endsAt i)).sum ≤ 4) (hk : 0 ≤ e.k) (hk' : e.k ≤ 10) (hf : 1 / 10 ≤ e.friction)
    (hf' : e.friction ≤ 10) (hdes : ∀ z ∈ e.springs, Within M z.desired)
    (hS : Gathers e.springs (e.k / 30) (e.friction / 15) S) (h : Adrift S M n q) (hn : n + 1 ≤ 2 ^ 33) :
    Adrift S M (n + 1) (springRound r e q).1 := by
  intro c hc
  have M0 : 0 < M := by linarith
  have M2 := sq_nonneg M
  have B := fun i => h.coords hM hS hn hc i
  obtain ⟨h1, h2, h3⟩ := h c hc
  have hnl : ∀ i, ¬ e.locks i > 0 := fun i => by
    rw [hfree i]
    exact lt_irrefl 0
  have hfix : ∀ i, fixedAt c e q (.mesh i) = 0 := fun i => if_neg (hnl i)
  have hpart : ∀ g : Idx → ℝ, Wobbly.part (fun i => ¬ e.locks i > 0) g = g := fun g => by
    funext i
    exact if_pos (hnl i)
  have big : 2 ^ 37 * M ≤ 2 ^ 46 * M := by
    norm_num
    linarith
  have P := fun i => point_fine hr (by norm_num; linarith) hM (by norm_num; linarith) hd hk hk' (by linarith) hf' hc
    (fun z hz => by
      obtain ⟨⟨i, hi⟩, j, hj⟩ := hl z hz
      rw [hi, hj, hfix, hfix, abs_zero]
      exact ⟨M0.le, M0.le⟩)
    (fun z hz => (hdes z hz).axis hc) (fun i _ => (B i).1) (fun i _ => (B i).2.trans big) (hnl i)
  rw [hpart] at P
  set d : Idx → ℝ := fun i => c (q.pos i) with hdd
  set u : Idx → ℝ := fun i => c (q.vel i) with hu
  set d' : Idx → ℝ := fun i => c ((springRound r e q).1.pos i) with hd'
  set u' : Idx → ℝ := fun i => c ((springRound r e q).1.vel i) with hu'
  set w : Idx → ℝ := fun i => u' i - ((1 - e.friction / 15) * u i - e.k / 30 * webLap e.springs d i) with hw
  set er : Idx → ℝ := fun i => d' i - (d i + 1 / 2 * u' i) with her
  have wi : ∀ i, |w i| ≤ 14 * M := fun i => (P i).1.trans (by norm_num; linarith)
  have ei : ∀ i, |er i| ≤ 8 * M := fun i => (P i).2.trans (by norm_num; linarith)
  have U : ∀ i, u' i = (1 - e.friction / 15) * u i - e.k / 30 * webLap e.springs d i + w i := fun i => by
    rw [hw]
    ring
  have D : ∀ i, d' i = d i + 1 / 2 * u' i + er i := fun i => by
    rw [her]
    ring
  have T := hS.tick d u d' u' w er U D
  have w2 := spread_le (by positivity) wi
  have s2 := spread_le (g := fun i => 1 / 2 * w i + er i) (B := 15 * M) (by positivity) fun i => by
    have := wi i
    have := ei i
    rw [abs_le] at *
    constructor <;> linarith
  have mw := mean_le wi
  have me := mean_le ei
  have hmu : mean u' = (1 - e.friction / 15) * mean u + mean w := by
    have e1 : u' = fun i => ((1 - e.friction / 15) * u i + (-(e.k / 30)) * webLap e.springs d i) + w i := by
      funext i
      rw [U i]
      ring
    rw [e1, mean_add, mean_add, mean_mul, mean_mul, show mean (fun i => webLap e.springs d i) = 0 from mean_webLap hl d]
    ring
  have hmd : mean d' = mean d + 1 / 2 * mean u' + mean er := by
    have e1 : d' = fun i => (d i + 1 / 2 * u' i) + er i := funext D
    rw [e1, mean_add, mean_add, mean_mul]
  have mu : |mean u'| ≤ 2 ^ 12 * M := by
    rw [hmu]
    refine (abs_add_le _ _).trans ?_
    rw [abs_mul, abs_of_nonneg (by linarith)]
    have k1 : (1 - e.friction / 15) * |mean u| ≤ (1 - 1 / 150) * (2 ^ 12 * M) :=
      mul_le_mul (by linarith) h2 (abs_nonneg _) (by norm_num)
    norm_num at k1 ⊢
    linarith
  refine ⟨T.trans ?_, mu, ?_⟩
  · norm_num at h1 w2 s2 ⊢
    nlinarith
  · rw [hmd]
    push_cast
    rw [abs_le] at *
    norm_num at *
    constructor <;> nlinarith

/-- Any number of ticks. -/
theorem adrift_iter (hM : 1 ≤ M) (hr : Fine r (2 ^ 46 * M)) (hl : OnMesh e.springs) (hfree : ∀ i, e.locks i = 0)
    (hd : ∀ i, (e.springs.map (endsAt i)).sum ≤ 4) (hk : 0 ≤ e.k) (hk' : e.k ≤ 10) (hf : 1 / 10 ≤ e.friction)
    (hf' : e.friction ≤ 10) (hdes : ∀ z ∈ e.springs, Within M z.desired)
    (hS : Gathers e.springs (e.k / 30) (e.friction / 15) S) (h : Adrift S M 0 q) (n : ℕ) (hn : n ≤ 2 ^ 33) :
    Adrift S M n (restIter r e q n) := by
  induction n with
  | zero => exact h
  | succ n ih =>
    unfold restIter
    rw [Function.iterate_succ_apply']
    exact (ih (by omega)).round hM hr hl hfree hd hk hk' hf hf' hdes hS hn

/-- How it begins. -/
theorem adrift_start (hM : 1 ≤ M) {l : List Spring} {a γ : ℝ} (hS : Gathers l a γ S)
    (hp : ∀ i, Within M (q.pos i)) (hv : ∀ i, Within M (q.vel i)) : Adrift S M 0 q := by
  intro c hc
  have M0 : 0 < M := by linarith
  have M2 := sq_nonneg M
  have k1 := spread_le M0.le fun i => (hp i).axis hc
  have k2 := spread_le M0.le fun i => (hv i).axis hc
  refine ⟨(hS.le _ _).trans ?_, (mean_le fun i => (hv i).axis hc).trans ?_, (mean_le fun i => (hp i).axis hc).trans ?_⟩
  · norm_num
    nlinarith
  · norm_num
    linarith
  · norm_num
    linarith

theorem rounds_alike {f g : ℝ → ℝ} {s : State} (ha : ¬ s.active) (n : ℕ) (q : Phys)
    (H : ∀ k < n, springRound f s.env (restIter g s.env q k) = springRound g s.env (restIter g s.env q k)) :
    rounds f s n q = rounds g s n q := by
  induction n generalizing q with
  | zero => rfl
  | succ n ih =>
    have e0 : springRound f s.env q = springRound g s.env q := H 0 (Nat.succ_pos n)
    have e1 := ih (springRound g s.env q).1 fun k hk => H (k + 1) (Nat.succ_lt_succ hk)
    simp only [rounds, Rounded.round, if_neg ha, bind_ok, e0, e1]

theorem steps_alike {f g : ℝ → ℝ} {s : State} (ha : ¬ s.active) (hd : ¬ dangling s.springs s.live) (ts : List ℕ)
    (H : ∀ k < ticks ts, springRound f s.env (restIter g s.env ⟨s.pos, s.vel⟩ k) =
      springRound g s.env (restIter g s.env ⟨s.pos, s.vel⟩ k)) :
    run f s (ts.map .step) = run g s (ts.map .step) := by
  induction ts generalizing s with
  | nil => rfl
  | cons t ts ih =>
    have ht : ticks (t :: ts) = stepCount t + ticks ts := by simp [ticks]
    rw [ht] at H
    have e0 := rounds_alike ha (stepCount t) ⟨s.pos, s.vel⟩ fun k hk => H k (by omega)
    have e1 : exec f s (.step t) = exec g s (.step t) := by
      simp only [exec, step, e0]
    obtain ⟨u, hu⟩ := rounds_inactive (r := g) ha (stepCount t) ⟨s.pos, s.vel⟩
    have e2 : ∃ u', exec g s (.step t) =
        .ok ({ s with pos := (restIter g s.env ⟨s.pos, s.vel⟩ (stepCount t)).pos,
                      vel := (restIter g s.env ⟨s.pos, s.vel⟩ (stepCount t)).vel, unequal := u' }, .more u') := by
      simp only [exec, step]
      rw [if_neg (fun h => hd h.2), hu, bind_ok]
      simp only [ha, and_false, if_false]
      exact ⟨_, rfl⟩
    obtain ⟨u', e2⟩ := e2
    have e3 := @ih
      { s with pos := (restIter g s.env ⟨s.pos, s.vel⟩ (stepCount t)).pos,
               vel := (restIter g s.env ⟨s.pos, s.vel⟩ (stepCount t)).vel, unequal := u' } ha hd fun k hk => by
        have := H (stepCount t + k) (by omega)
        rw [restIter_add] at this
        exact this
    simp only [List.map_cons, run, e1, e2, bind_ok, e3]

end Rounded

end Verif.Wobbly
