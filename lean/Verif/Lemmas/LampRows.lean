import Verif.Lemmas.LampVertex

/-! # The heights of the rows of the rounded magic lamp -/

namespace Verif

open XR (fin)
open Spec MagicLamp

noncomputable section

namespace Machine

variable {R : Rounding} {D : Rounding64} {sin sinf cosf : ℝ → ℝ}

local notation "MM" => Machine.ieee R D sin sinf cosf

/-- The denominator of the stretch factor is computed with a small relative error. -/
theorem denominator_near {s : ℝ} (hs : Single s) (h0 : 0 ≤ s) (h1 : s < 1) {n j : ℕ} (hn : 2 ≤ n) (hn' : n ≤ 2 ^ 20) (hj : j < n) :
    |R.rnd (1 - R.rnd (R.rnd (j / ((n : ℝ) - 1)) * s)) - (1 - j / ((n : ℝ) - 1) * s)| ≤
      (3 * ((n : ℝ) - 1) + 2) / 2 ^ 24 * (1 - j / ((n : ℝ) - 1) * s) := by
  obtain ⟨f0, f1⟩ := frac_mem hn hj
  have hN := pred_pos hn
  have hN1 : (1 : ℝ) ≤ (n : ℝ) - 1 := by
    have : (2 : ℝ) ≤ n := by exact_mod_cast hn
    linarith
  have hN2 : (n : ℝ) - 1 ≤ 2 ^ 20 := by
    have : (n : ℝ) ≤ 2 ^ 20 := by exact_mod_cast hn'
    linarith
  have hb := below_one hs h1
  by_cases hl : j + 1 = n
  · have e : (j : ℝ) / ((n : ℝ) - 1) = 1 := by
      have : (j : ℝ) + 1 = n := by exact_mod_cast hl
      rw [div_eq_one_iff_eq hN.ne']
      linarith
    rw [e, R.exact single_one, one_mul, R.exact hs]
    have := R.error_rel (1 - s)
    rw [abs_of_pos (by linarith : 0 < 1 - s)] at this
    have k : (1 : ℝ) / 2 ^ 150 ≤ (1 - s) * (1 / 2 ^ 24) := by
      have : (1 : ℝ) / 2 ^ 24 * (1 / 2 ^ 24) ≤ (1 - s) * (1 / 2 ^ 24) := by gcongr; linarith
      refine le_trans ?_ this
      norm_num
    have l : 2 / 2 ^ 24 * (1 - s) ≤ (3 * ((n : ℝ) - 1) + 2) / 2 ^ 24 * (1 - s) := by
      have : 0 ≤ 1 - s := by linarith
      gcongr
      linarith
    refine this.trans (le_trans ?_ l)
    linarith
  · set N := (n : ℝ) - 1 with hNd
    set f := (j : ℝ) / N with hf
    have hd : 1 / N ≤ 1 - f * s := by
      have a : f * s ≤ f := by nlinarith
      have b : f + 1 / N ≤ 1 := by
        rw [hf, ← add_div, div_le_one hN]
        have : (j : ℝ) + 2 ≤ n := by exact_mod_cast (by omega : j + 2 ≤ n)
        linarith
      linarith
    have g0 := R.nonneg f0
    have g1 := R.le_one f1
    have e1 := R.error_rel f
    rw [abs_of_nonneg f0] at e1
    have e1' : |R.rnd f * s - f * s| ≤ 1 / 2 ^ 24 + 1 / 2 ^ 150 := by
      rw [← sub_mul, abs_mul, abs_of_nonneg h0]
      have : |R.rnd f - f| ≤ 1 / 2 ^ 24 + 1 / 2 ^ 150 := by
        refine e1.trans ?_
        have : f / 2 ^ 24 ≤ 1 / 2 ^ 24 := by gcongr
        linarith
      nlinarith [abs_nonneg (R.rnd f - f)]
    have m0 : 0 ≤ R.rnd f * s := mul_nonneg g0 h0
    have m1 : R.rnd f * s ≤ 1 := by nlinarith
    have e2 := R.error_rel (R.rnd f * s)
    rw [abs_of_nonneg m0] at e2
    have m2 := R.nonneg m0
    have m3 := R.le_one m1
    have e3 := R.error_rel (1 - R.rnd (R.rnd f * s))
    have o3 : 0 ≤ 1 - R.rnd (R.rnd f * s) := by linarith
    rw [abs_of_nonneg o3] at e3
    have e2' : R.rnd f * s / 2 ^ 24 ≤ 1 / 2 ^ 24 := by gcongr
    have e3' : (1 - R.rnd (R.rnd f * s)) / 2 ^ 24 ≤ 1 / 2 ^ 24 := by gcongr; linarith
    have key : |R.rnd (1 - R.rnd (R.rnd f * s)) - (1 - f * s)| ≤ 3 / 2 ^ 24 + 3 / 2 ^ 150 := by
      rw [abs_le] at *
      constructor <;> linarith [e1'.1, e1'.2, e2.1, e2.2, e3.1, e3.2]
    refine key.trans ?_
    have : (3 * N + 2) / 2 ^ 24 * (1 / N) ≤ (3 * N + 2) / 2 ^ 24 * (1 - f * s) := by gcongr
    refine le_trans ?_ this
    rw [show (3 * N + 2) / 2 ^ 24 * (1 / N) = 3 / 2 ^ 24 + 2 / 2 ^ 24 / N by field_simp]
    have : (2 : ℝ) / 2 ^ 24 / 2 ^ 20 ≤ 2 / 2 ^ 24 / N := by gcongr
    refine add_le_add le_rfl (le_trans ?_ this)
    norm_num

/-- A reciprocal with a small relative error, rounded. -/
theorem reciprocal_near {d d' ρ : ℝ} (den : |d' - d| ≤ ρ * d) (ρ0 : 0 ≤ ρ) (ρ1 : ρ ≤ 1 / 5) (dpos : 1 / 2 ^ 24 ≤ d) (dle : d ≤ 1) :
    0 < d' ∧ 1 / d' ≤ 5 / 4 * (1 / d) ∧ |R.rnd (1 / d') - 1 / d| ≤ (5 / 4 * ρ + 13 / 10 / 2 ^ 24) * (1 / d) := by
  have d0 : 0 < d := lt_of_lt_of_le (by norm_num) dpos
  have den' := abs_le.1 den
  have r1 : ρ * d ≤ 1 / 5 * d := by gcongr
  have d45 : d ≤ 5 / 4 * d' := by linarith
  have d'p : 0 < d' := by linarith
  have inv : |1 / d' - 1 / d| ≤ 5 / 4 * ρ * (1 / d) := by
    rw [div_sub_div _ _ d'p.ne' d0.ne', abs_div, abs_of_pos (mul_pos d'p d0), one_mul, mul_one, abs_sub_comm,
      div_le_iff₀ (mul_pos d'p d0)]
    rw [show 5 / 4 * ρ * (1 / d) * (d' * d) = ρ * (5 / 4 * d') by field_simp]
    exact den.trans (mul_le_mul_of_nonneg_left d45 ρ0)
  have k1 : 1 ≤ 1 / d := by rw [le_div_iff₀ d0]; linarith
  have i0 : 0 ≤ 1 / d' := by positivity
  have i1 : 1 / d' ≤ 5 / 4 * (1 / d) := by
    rw [div_le_iff₀ d'p, show 5 / 4 * (1 / d) * d' = 5 / 4 * d' / d by ring, le_div_iff₀ d0]
    linarith
  refine ⟨d'p, i1, ?_⟩
  have e1 := R.error_rel (1 / d')
  rw [abs_of_nonneg i0] at e1
  have a : |R.rnd (1 / d') - 1 / d| ≤ |R.rnd (1 / d') - 1 / d'| + |1 / d' - 1 / d| := abs_sub_le _ _ _
  have b : 1 / d' / 2 ^ 24 ≤ 5 / 4 * (1 / d) / 2 ^ 24 := by gcongr
  have e : (1 : ℝ) / 2 ^ 150 ≤ 5 / 100 / 2 ^ 24 * (1 / d) := by
    refine le_trans ?_ (mul_le_mul_of_nonneg_left k1 (by positivity))
    norm_num
  have : 5 / 4 * (1 / d) / 2 ^ 24 + 5 / 100 / 2 ^ 24 * (1 / d) = 13 / 10 / 2 ^ 24 * (1 / d) := by ring
  linarith

/-- A product with a small relative error, rounded. -/
theorem product_near {q c k γ : ℝ} (qq0 : 0 ≤ q) (c0 : 0 ≤ c) (γ0 : 0 ≤ γ) (γ1 : γ ≤ 26 / 100) (k0 : 0 ≤ k) (k2 : k ≤ 2 ^ 24)
    (hc : |c - k| ≤ γ * k) :
    |R.rnd (R.rnd q * c) - q * k| ≤ (γ + 26 / 10 / 2 ^ 24) * (q * k) + 1 / 2 ^ 120 := by
  have hc' := abs_le.1 hc
  have ck : c ≤ 126 / 100 * k := by
    have : γ * k ≤ 26 / 100 * k := by gcongr
    linarith
  have q0 := R.nonneg qq0
  have e2 := R.error_rel q
  rw [abs_of_nonneg qq0] at e2
  have p0 : 0 ≤ R.rnd q * c := mul_nonneg q0 c0
  have qk0 : 0 ≤ q * k := mul_nonneg qq0 k0
  have hp : |R.rnd q * c - q * k| ≤ (γ + 126 / 100 / 2 ^ 24) * (q * k) + 1 / 2 ^ 125 := by
    have a : |R.rnd q * c - q * k| ≤ |R.rnd q - q| * c + q * |c - k| := by
      rw [show R.rnd q * c - q * k = (R.rnd q - q) * c + q * (c - k) by ring]
      refine (abs_add_le _ _).trans ?_
      rw [abs_mul, abs_mul, abs_of_nonneg c0, abs_of_nonneg qq0]
    have b : |R.rnd q - q| * c ≤ (q / 2 ^ 24 + 1 / 2 ^ 150) * (126 / 100 * k) := by gcongr
    have b2 : q * |c - k| ≤ q * (γ * k) := by gcongr
    have b3 : 1 / 2 ^ 150 * (126 / 100 * k) ≤ 1 / 2 ^ 125 := by
      have : (1 : ℝ) / 2 ^ 150 * (126 / 100 * k) ≤ 1 / 2 ^ 150 * (126 / 100 * 2 ^ 24) := by gcongr
      refine this.trans ?_
      norm_num
    have : (q / 2 ^ 24 + 1 / 2 ^ 150) * (126 / 100 * k) + q * (γ * k) = (γ + 126 / 100 / 2 ^ 24) * (q * k) +
      1 / 2 ^ 150 * (126 / 100 * k) := by ring
    linarith
  have e3 := R.error_rel (R.rnd q * c)
  rw [abs_of_nonneg p0] at e3
  have hp' := abs_le.1 hp
  have small : γ + 126 / 100 / 2 ^ 24 ≤ 27 / 100 := by
    have : (126 : ℝ) / 100 / 2 ^ 24 ≤ 1 / 100 := by norm_num
    linarith
  have pk : R.rnd q * c ≤ 127 / 100 * (q * k) + 1 / 2 ^ 125 := by
    have := mul_le_mul_of_nonneg_right small qk0
    linarith
  have a : |R.rnd (R.rnd q * c) - q * k| ≤ |R.rnd (R.rnd q * c) - R.rnd q * c| + |R.rnd q * c - q * k| := abs_sub_le _ _ _
  have b : R.rnd q * c / 2 ^ 24 ≤ (127 / 100 * (q * k) + 1 / 2 ^ 125) / 2 ^ 24 := by gcongr
  have e : (γ + 26 / 10 / 2 ^ 24) * (q * k) = (γ + 126 / 100 / 2 ^ 24) * (q * k) + 134 / 100 / 2 ^ 24 * (q * k) := by ring
  have e' : (127 / 100 * (q * k) + 1 / 2 ^ 125) / 2 ^ 24 = 127 / 100 / 2 ^ 24 * (q * k) + 1 / 2 ^ 125 / 2 ^ 24 := by ring
  have w : 127 / 100 / 2 ^ 24 * (q * k) ≤ 134 / 100 / 2 ^ 24 * (q * k) := by gcongr; norm_num
  have z : (1 : ℝ) / 2 ^ 125 / 2 ^ 24 + 1 / 2 ^ 150 + 1 / 2 ^ 125 ≤ 1 / 2 ^ 120 := by norm_num
  linarith

/-- Limiting to 1 turns a relative error into an absolute one. -/
theorem limit_near {x X σ κ : ℝ} (σ0 : 0 ≤ σ) (σ1 : σ ≤ 1) (κ0 : 0 ≤ κ) (h : |x - X| ≤ σ * X + κ) : |min x 1 - min X 1| ≤ σ + κ := by
  have h' := abs_le.1 h
  rw [abs_le]
  rcases le_total X 1 with hX | hX
  · rw [min_eq_left hX]
    have hσ1 : σ * X ≤ σ := by nlinarith
    rcases le_total x 1 with h1 | h1
    · rw [min_eq_left h1]
      constructor <;> linarith [h'.1, h'.2]
    · rw [min_eq_right h1]
      constructor <;> linarith [h'.1, h'.2]
  · rw [min_eq_right hX]
    have hσ1 : 1 - σ ≤ (1 - σ) * X := by nlinarith
    rcases le_total x 1 with h1 | h1
    · rw [min_eq_left h1]
      constructor <;> linarith [h'.1, h'.2]
    · rw [min_eq_right h1, sub_self]
      constructor <;> linarith

/-- The stretch progress is computed with an error that grows with the number of rows. -/
theorem stretch_near {s : ℝ} (hs : Single s) (h0 : 0 ≤ s) (h1 : s < 1) {n j : ℕ} (hn : 2 ≤ n) (hn' : n ≤ 2 ^ 20) (hj : j < n)
    {r : ℝ} (hr0 : 0 ≤ r) (hr1 : r ≤ 1) :
    ∃ t, (MM).stretchProgress s n (fin (R.rnd (1 - r))) j = fin t ∧ 0 ≤ t ∧ t ≤ 1 ∧
      |t - min ((1 - r) / (1 - j / ((n : ℝ) - 1) * s)) 1| ≤ (15 / 4 * ((n : ℝ) - 1) + 7) / 2 ^ 24 := by
  have q0 := R.nonneg (x := 1 - r) (by linarith)
  have q1 := R.le_one (x := 1 - r) (by linarith)
  obtain ⟨t, ht, t0, t1, -⟩ := stretch_ok (R := R) (D := D) (sin := sin) (sinf := sinf) (cosf := cosf) hs h0 h1 hn
    (hn'.trans (by norm_num)) hj q0 q1
  refine ⟨t, ht, t0, t1, ?_⟩
  have den := denominator_near (R := R) hs h0 h1 hn hn' hj
  obtain ⟨f0, f1⟩ := frac_mem hn hj
  have hN := pred_pos hn
  have hN1 : (1 : ℝ) ≤ (n : ℝ) - 1 := by
    have : (2 : ℝ) ≤ n := by exact_mod_cast hn
    linarith
  have hN2 : (n : ℝ) - 1 ≤ 1048576 := by
    have : (n : ℝ) ≤ 1048576 := by exact_mod_cast hn'
    linarith
  have hb := below_one hs h1
  unfold stretchProgress at ht
  simp only at ht
  obtain ⟨c, hc, c1, c2⟩ := factor_ok (R := R) (D := D) (sin := sin) (sinf := sinf) (cosf := cosf) hs h0 h1 hn
    (hn'.trans (by norm_num)) hj
  rw [hc] at ht
  rw [size_nat (by omega), size_pred hn (by omega)] at hc
  have g0 := R.nonneg f0
  have g1 := R.le_one f1
  have m0 : 0 ≤ R.rnd (j / ((n : ℝ) - 1)) * s := mul_nonneg g0 h0
  have m1 : R.rnd (j / ((n : ℝ) - 1)) * s ≤ 1 := by nlinarith
  have m2 := R.nonneg m0
  have m3 := R.le_one m1
  have big : (1 : ℝ) ≤ 2 ^ 127 := by norm_num
  have o3 : 0 ≤ 1 - R.rnd (R.rnd (j / ((n : ℝ) - 1)) * s) := by linarith
  unfold div sub mul at hc
  rw [XR.fin_div _ hN.ne', f_ok (by rw [abs_of_nonneg f0]; linarith), XR.fin_mul, f_ok (by rw [abs_of_nonneg m0]; linarith),
    XR.fin_sub, f_ok (by rw [abs_of_nonneg o3]; linarith)] at hc
  have fs0 : 0 ≤ j / ((n : ℝ) - 1) * s := mul_nonneg f0 h0
  have fs1 : j / ((n : ℝ) - 1) * s ≤ s := by nlinarith
  have dpos : 1 / 2 ^ 24 ≤ 1 - j / ((n : ℝ) - 1) * s := by linarith
  have dle : 1 - j / ((n : ℝ) - 1) * s ≤ 1 := by linarith
  generalize 1 - j / ((n : ℝ) - 1) * s = d at *
  generalize R.rnd (1 - R.rnd (R.rnd (j / ((n : ℝ) - 1)) * s)) = d' at *
  generalize (n : ℝ) - 1 = N at *
  have ρ0 : 0 ≤ (3 * N + 2) / 2 ^ 24 := by positivity
  have ρ1 : (3 * N + 2) / 2 ^ 24 ≤ 1 / 5 := by
    norm_num
    linarith
  obtain ⟨d'p, i1, hk⟩ := reciprocal_near (R := R) den ρ0 ρ1 dpos dle
  have d0 : 0 < d := lt_of_lt_of_le (by norm_num) dpos
  have k1 : 1 ≤ 1 / d := by rw [le_div_iff₀ d0]; linarith
  have k2 : 1 / d ≤ 2 ^ 24 := by
    rw [div_le_iff₀ d0]
    norm_num at dpos ⊢
    linarith
  have i0 : 0 ≤ 1 / d' := by positivity
  rw [XR.fin_div _ d'p.ne', f_ok (by rw [abs_of_nonneg i0]; norm_num at *; linarith), XR.fin_inj] at hc
  rw [hc] at hk
  have γ1 : 5 / 4 * ((3 * N + 2) / 2 ^ 24) + 13 / 10 / 2 ^ 24 ≤ 26 / 100 := by
    have : (13 : ℝ) / 10 / 2 ^ 24 ≤ 1 / 100 := by norm_num
    linarith
  have P := product_near (R := R) (q := 1 - r) (c := c) (k := 1 / d) (by linarith) (by linarith) (by positivity) γ1 (by linarith) k2 hk
  have p0 : 0 ≤ R.rnd (1 - r) * c := mul_nonneg q0 (by linarith)
  have bq : R.rnd (1 - r) * c ≤ 2 ^ 127 := by
    have : R.rnd (1 - r) * c ≤ 1 * 2 ^ 24 := by gcongr
    refine this.trans ?_
    norm_num
  unfold mul at ht
  rw [XR.fin_mul, f_ok (by rw [abs_of_nonneg p0]; exact bq), XR.stdMin_fin, XR.fin_inj] at ht
  rw [← ht, show (1 - r) / d = (1 - r) * (1 / d) by ring]
  refine (limit_near (by positivity) ?_ (by positivity) P).trans ?_
  · have : (26 : ℝ) / 10 / 2 ^ 24 ≤ 1 / 100 := by norm_num
    linarith
  · norm_num
    linarith

/-- The height of a row. -/
theorem stretchedY_near {p : Params} (hgh : 2 ≤ p.gh ∧ p.gh ≤ 2 ^ 20) (hsrc : OnDesktop p.source) (htgt : OnDesktop p.target)
    (hst : Single p.stretch ∧ 0.2 ≤ p.stretch ∧ p.stretch < 1) {j : ℕ} (hj : j < p.gh) {r : ℝ} (hr0 : 0 ≤ r) (hr1 : r ≤ 1) :
    ∃ y, (MM).stretchedY p (fin (R.rnd (1 - r))) j = fin y ∧
      |y - ((p.target.tl.y + j * (p.target.br.y - p.target.tl.y) / ((p.gh : ℝ) - 1)) +
        ((p.source.tl.y + j * (p.source.br.y - p.source.tl.y) / ((p.gh : ℝ) - 1)) -
          (p.target.tl.y + j * (p.target.br.y - p.target.tl.y) / ((p.gh : ℝ) - 1))) *
        min ((1 - r) / (1 - j / ((p.gh : ℝ) - 1) * p.stretch)) 1)| ≤ ((p.gh : ℝ) - 1) / 256 + 1 / 64 := by
  have g24 : p.gh ≤ 2 ^ 24 := hgh.2.trans (by norm_num)
  have sl := lattice_near (R := R) (D := D) (sin := sin) (sinf := sinf) (cosf := cosf) (desk hsrc.top) (desk hsrc.bottom) hgh.1 g24 hj
  have tl := lattice_near (R := R) (D := D) (sin := sin) (sinf := sinf) (cosf := cosf) (desk htgt.top) (desk htgt.bottom) hgh.1 g24 hj
  obtain ⟨T', hT, T0, T1, eT⟩ := stretch_near (R := R) (D := D) (sin := sin) (sinf := sinf) (cosf := cosf) hst.1
    (by linarith [hst.2.1]) hst.2.2 hgh.1 hgh.2 hj hr0 hr1
  have hN := pred_pos hgh.1
  set S := p.source.tl.y + j * (p.source.br.y - p.source.tl.y) / ((p.gh : ℝ) - 1)
  set Q := p.target.tl.y + j * (p.target.br.y - p.target.tl.y) / ((p.gh : ℝ) - 1)
  set T := min ((1 - r) / (1 - j / ((p.gh : ℝ) - 1) * p.stretch)) 1
  set N := (p.gh : ℝ) - 1
  clear_value S Q T N
  obtain ⟨s', hs', es, bS⟩ := sl
  obtain ⟨t', ht', et, bQ⟩ := tl
  unfold stretchedY
  simp only
  rw [hs', ht', hT]
  have es' := abs_le.1 es
  have et' := abs_le.1 et
  have bS' := abs_le.1 bS
  have bQ' := abs_le.1 bQ
  have bs : |s'| ≤ 8193 := by rw [abs_le]; constructor <;> norm_num at * <;> linarith
  have bt : |t'| ≤ 8193 := by rw [abs_le]; constructor <;> norm_num at * <;> linarith
  have d := (((Approx.const bs).sub (Approx.const bt)).toDouble D (by norm_num)).toFloat R (by norm_num)
  have dd : Approx ((MM).f ((MM).subD (fin s') (fin t'))) (s' - t') 16386 (1 / 1000) := d.weaken (d.size.trans (by norm_num)) (by norm_num)
  have m := (dd.mul (Approx.const (X := T') (B := 1) (by rw [abs_of_nonneg T0]; exact T1))).toFloat R (by norm_num)
  have mm : Approx ((MM).mul ((MM).f ((MM).subD (fin s') (fin t'))) (fin T')) ((s' - t') * T') 16386 (5 / 2000) :=
    m.weaken (m.size.trans (by norm_num)) (by norm_num)
  have conv : |t' + (s' - t') * T'| ≤ 8193 := by
    have a := abs_le.1 bs
    have b := abs_le.1 bt
    rw [abs_le]
    constructor <;> nlinarith
  have y := ((((Approx.const bt).add mm).weaken conv le_rfl).toDouble D (by norm_num)).toFloat R (by norm_num)
  obtain ⟨y', hy', ey, -⟩ := y
  refine ⟨y', hy', ?_⟩
  have ey' : |y' - (t' + (s' - t') * T')| ≤ 31 / 10000 := ey.trans (by norm_num)
  have e1 : |(t' + (s' - t') * T') - (Q + (S - Q) * T')| ≤ 25 / 8192 := by
    rw [show (t' + (s' - t') * T') - (Q + (S - Q) * T') = (t' - Q) * (1 - T') + (s' - S) * T' by ring, abs_le]
    constructor <;> nlinarith
  have e2 : |(Q + (S - Q) * T') - (Q + (S - Q) * T)| ≤ 2 ^ 14 * ((15 / 4 * N + 7) / 2 ^ 24) := by
    rw [show (Q + (S - Q) * T') - (Q + (S - Q) * T) = (S - Q) * (T' - T) by ring, abs_mul]
    have : |S - Q| ≤ 2 ^ 14 := by
      rw [abs_le]
      constructor <;> norm_num at * <;> linarith
    gcongr
  have h1 := abs_sub_le y' (t' + (s' - t') * T') (Q + (S - Q) * T)
  have h2 := abs_sub_le (t' + (s' - t') * T') (Q + (S - Q) * T') (Q + (S - Q) * T)
  have : (2 : ℝ) ^ 14 * ((15 / 4 * N + 7) / 2 ^ 24) = 15 / 4096 * N + 7 / 1024 := by
    norm_num
    ring
  linarith

end Machine

end

end Verif
