import Verif.Lemmas.LampVertex
import Verif.Spec.LampOneWay

/-! The rounded magic lamp moves in one direction, because rounding keeps the order. -/

namespace Verif.Machine

open XR (fin)
open MagicLamp (pred sig Params Vertex)
open Spec

noncomputable section

variable {R : Rounding} {D : Rounding64} {sin sinf cosf : ℝ → ℝ}

local notation "MM" => Machine.ieee R D sin sinf cosf

theorem f_inv {v : XR} {y : ℝ} (h : (MM).f v = fin y) : ∃ x, v = fin x ∧ y = R.rnd x := by
  cases v with
  | fin x =>
    refine ⟨x, rfl, ?_⟩
    change R.store x = fin y at h
    unfold Rounding.store at h
    split_ifs at h
    · exact (XR.fin_inj.1 h).symm
    · unfold XR.signed at h
      split_ifs at h
  | _ => cases h

theorem d_inv {v : XR} {y : ℝ} (h : (MM).d v = fin y) : ∃ x, v = fin x ∧ y = D.rnd x := by
  cases v with
  | fin x =>
    refine ⟨x, rfl, ?_⟩
    change D.store x = fin y at h
    unfold Rounding64.store at h
    split_ifs at h
    · exact (XR.fin_inj.1 h).symm
    · unfold XR.signed at h
      split_ifs at h
  | _ => cases h

theorem add_inv {u v : XR} {y : ℝ} (h : u + v = fin y) : ∃ a b, u = fin a ∧ v = fin b ∧ y = a + b := by
  cases u <;> cases v <;> first
    | exact ⟨_, _, rfl, rfl, (XR.fin_inj.1 h).symm⟩
    | cases h

theorem stretch_mono {s : ℝ} (hs : Single s) (h0 : 0 ≤ s) (h1 : s < 1) {n j : ℕ} (hn : 2 ≤ n) (hn' : n ≤ 2 ^ 24) (hj : j < n)
    {q q' : ℝ} (hq0 : 0 ≤ q) (hq : q ≤ q') (hq1 : q' ≤ 1) :
    ∃ t t', (MM).stretchProgress s n (fin q) j = fin t ∧ (MM).stretchProgress s n (fin q') j = fin t' ∧ 0 ≤ t ∧ t ≤ t' := by
  obtain ⟨r, hr, r1, r2⟩ := factor_ok (R := R) (D := D) (sin := sin) (sinf := sinf) (cosf := cosf) hs h0 h1 hn hn' hj
  have e : ∀ q, 0 ≤ q → q ≤ 1 → (MM).stretchProgress s n (fin q) j = fin (min (R.rnd (q * r)) 1) := by
    intro q h0 h1
    unfold stretchProgress
    simp only
    rw [hr]
    unfold mul
    rw [XR.fin_mul, f_ok, XR.stdMin_fin]
    rw [abs_of_nonneg (by nlinarith)]
    have : q * r ≤ 2 ^ 24 := by nlinarith
    exact this.trans (by norm_num)
  exact ⟨_, _, e q hq0 (hq.trans hq1), e q' (hq0.trans hq) hq1, le_min (R.nonneg (by nlinarith)) zero_le_one,
    min_le_min (R.mono (by nlinarith)) le_rfl⟩

/-- The computed height of a row changes in one direction: that of the computed `yDelta`. -/
theorem stretchedY_mono {p : Params} (hgh : 2 ≤ p.gh ∧ p.gh ≤ 2 ^ 24) (hsrc : OnDesktop p.source) (htgt : OnDesktop p.target)
    (hst : Single p.stretch ∧ 0.2 ≤ p.stretch ∧ p.stretch < 1) {j : ℕ} (hj : j < p.gh) :
    ∃ s t δ, (MM).latticeCoord p.source.tl.y p.source.br.y j p.gh = fin s ∧
      (MM).latticeCoord p.target.tl.y p.target.br.y j p.gh = fin t ∧ δ = R.rnd (D.rnd (s - t)) ∧
      ∀ q q', 0 ≤ q → q ≤ q' → q' ≤ 1 → ∃ y y', (MM).stretchedY p (fin q) j = fin y ∧ (MM).stretchedY p (fin q') j = fin y' ∧
        |y| ≤ 2 ^ 16 ∧ |y'| ≤ 2 ^ 16 ∧ (0 ≤ δ → R.rnd t ≤ y ∧ y ≤ y') ∧ (δ ≤ 0 → y' ≤ y) := by
  obtain ⟨s, hs, -, -⟩ := lattice_ok (R := R) (D := D) (sin := sin) (sinf := sinf) (cosf := cosf) hsrc.top
    hsrc.bottom hgh.1 hgh.2 hj
  obtain ⟨t, ht, dt, -⟩ := lattice_ok (R := R) (D := D) (sin := sin) (sinf := sinf) (cosf := cosf) htgt.top
    htgt.bottom hgh.1 hgh.2 hj
  refine ⟨s, t, _, hs, ht, rfl, fun q q' q0 qq q1 => ?_⟩
  obtain ⟨y, hy, by1, -⟩ := stretchedY_ok (R := R) (D := D) (sin := sin) (sinf := sinf) (cosf := cosf) hgh hsrc htgt hst hj q0
    (qq.trans q1)
  obtain ⟨y', hy', by1', -⟩ := stretchedY_ok (R := R) (D := D) (sin := sin) (sinf := sinf) (cosf := cosf) hgh hsrc htgt hst hj
    (q0.trans qq) q1
  obtain ⟨a, a', ha, ha', a0, aa⟩ := stretch_mono (R := R) (D := D) (sin := sin) (sinf := sinf) (cosf := cosf) hst.1
    (by linarith [hst.2.1]) hst.2.2 hgh.1 hgh.2 hj q0 qq q1
  have key : ∀ {v : XR} {a y : ℝ}, (MM).stretchProgress p.stretch p.gh v j = fin a → (MM).stretchedY p v j = fin y →
      y = R.rnd (D.rnd (t + R.rnd (R.rnd (D.rnd (s - t)) * a))) := by
    intro v a y ha h
    unfold stretchedY at h
    simp only at h
    rw [hs, ht, ha] at h
    obtain ⟨z, hz, e⟩ := f_inv h
    obtain ⟨z1, hz1, e1⟩ := d_inv (D := D) (R := R) (sin := sin) (sinf := sinf) (cosf := cosf) hz
    obtain ⟨b, c, hb, hc, e2⟩ := add_inv hz1
    obtain ⟨m, hm, e3⟩ := f_inv (R := R) (D := D) (sin := sin) (sinf := sinf) (cosf := cosf) hc
    cases hδ : (MM).f ((MM).subD (fin s) (fin t)) with
    | fin δ =>
      rw [hδ, XR.fin_mul, XR.fin_inj] at hm
      obtain ⟨w, hw, e4⟩ := f_inv hδ
      obtain ⟨w1, hw1, e5⟩ := d_inv (D := D) (R := R) (sin := sin) (sinf := sinf) (cosf := cosf) hw
      rw [XR.fin_sub, XR.fin_inj] at hw1
      rw [XR.fin_inj] at hb
      rw [e, e1, e2, ← hb, e3, ← hm, e4, e5, ← hw1]
    | _ =>
      exfalso
      rw [hδ] at hm
      first
        | cases hm
        | (change XR.signed a = fin m at hm
           unfold XR.signed at hm
           split_ifs at hm)
        | (change XR.signed (-a) = fin m at hm
           unfold XR.signed at hm
           split_ifs at hm)
  refine ⟨y, y', hy, hy', by1, by1', fun h => ?_, fun h => ?_⟩
  · rw [key ha hy, key ha' hy']
    refine ⟨?_, R.mono (D.mono (by linarith [R.mono (mul_le_mul_of_nonneg_left aa h)]))⟩
    refine R.mono ?_
    have := D.mono (show t ≤ t + R.rnd (R.rnd (D.rnd (s - t)) * a) by linarith [R.nonneg (mul_nonneg h a0)])
    rwa [D.exact dt] at this
  · rw [key ha hy, key ha' hy']
    exact R.mono (D.mono (by linarith [R.mono (mul_le_mul_of_nonpos_left aa h)]))

/-- The computed sigmoid on the unit interval. -/
theorem sigmoid_eq {ex : ℝ → ℝ} (hex : GoodExp ex) {x b o : ℝ} (hx0 : 0 ≤ x) (hx1 : x ≤ 1) (hb0 : 0 ≤ b) (hb : b ≤ 20) (ho0 : 0 ≤ o)
    (ho : o ≤ 1) :
    (MM).sigmoid ex (fin x) b o = fin (R.rnd (D.rnd (1 / D.rnd (1 + D.rnd (ex (R.rnd (-b * R.rnd (x - o)))))))) ∧
      1 ≤ D.rnd (1 + D.rnd (ex (R.rnd (-b * R.rnd (x - o))))) := by
  have d1 : D.rnd 1 = 1 := by
    have := D.exact (double_pow (k := 0) (by norm_num))
    rwa [zpow_zero] at this
  have a1 : |x - o| ≤ 1 := by rw [abs_le]; constructor <;> linarith
  have a2 : |R.rnd (x - o)| ≤ 1 := by
    have := R.abs_le_pow (x := x - o) (k := 0) (by norm_num) (by simpa using a1)
    simpa using this
  have a3 : |-b * R.rnd (x - o)| ≤ 2 ^ (5 : ℤ) := by
    rw [abs_mul, abs_neg, abs_of_nonneg hb0]
    norm_num
    nlinarith [abs_nonneg (R.rnd (x - o))]
  have a4 : |R.rnd (-b * R.rnd (x - o))| ≤ 32 := by
    have := R.abs_le_pow (k := 5) (by norm_num) a3
    refine this.trans (by norm_num)
  have h1 : (MM).sub (fin x) (fin o) = fin (R.rnd (x - o)) := by
    unfold sub
    rw [XR.fin_sub, f_ok (a1.trans (by norm_num))]
  have h2 : (MM).mul (-(fin b)) (fin (R.rnd (x - o))) = fin (R.rnd (-b * R.rnd (x - o))) := by
    unfold mul
    rw [XR.fin_neg, XR.fin_mul, f_ok (a3.trans (by norm_num))]
  unfold sigmoid
  rw [h1, h2]
  generalize R.rnd (-b * R.rnd (x - o)) = y at *
  have e0 := hex.nonneg y
  have e1 : ex y ≤ 2 ^ 65 := by
    have h3 := (abs_le.1 (hex.near y a4)).2
    have h4 : Real.exp y ≤ 2 ^ 64 := by
      have h5 : Real.exp y ≤ Real.exp 32 := Real.exp_le_exp.2 (abs_le.1 a4).2
      have h6 : Real.exp 32 = Real.exp 1 ^ 32 := by
        rw [← Real.exp_nat_mul]
        norm_num
      have h7 : Real.exp 1 ≤ 4 := by linarith [Real.exp_one_lt_d9]
      have h8 : Real.exp 1 ^ 32 ≤ 4 ^ 32 := pow_le_pow_left₀ (Real.exp_pos 1).le h7 32
      rw [h6] at h5
      refine h5.trans (h8.trans (by norm_num))
    norm_num at h4 ⊢
    linarith [Real.exp_pos y]
  have g1 : (MM).exp ex (fin y) = fin (D.rnd (ex y)) := by
    change D.result (fin (ex y)) = _
    refine (D.result_of_le (k := 65) (by norm_num) (by norm_num) ?_).1
    rw [abs_of_nonneg e0]
    exact_mod_cast e1
  rw [g1]
  have w0 : 0 ≤ D.rnd (ex y) := by
    have := D.mono e0
    rwa [D.exact double_zero] at this
  have w1 : D.rnd (ex y) ≤ 2 ^ 65 := by
    have := D.mono e1
    have h := D.exact (double_pow (k := 65) (by norm_num))
    have h' : ((2 : ℝ) ^ (65 : ℤ)) = 2 ^ 65 := by norm_cast
    rw [h'] at h
    rwa [h] at this
  generalize D.rnd (ex y) = w at *
  have g2 : (MM).addD (fin 1) (fin w) = fin (D.rnd (1 + w)) := by
    unfold addD
    rw [XR.fin_add, ieee_d]
    refine (D.result_of_le (k := 66) (by norm_num) (by norm_num) ?_).1
    rw [abs_of_nonneg (by linarith)]
    norm_num at w1 ⊢
    linarith
  rw [g2]
  have t1 : 1 ≤ D.rnd (1 + w) := by
    have := D.mono (show (1 : ℝ) ≤ 1 + w by linarith)
    rwa [d1] at this
  refine ⟨?_, t1⟩
  generalize D.rnd (1 + w) = t at *
  have t0 : 0 < t := by linarith
  have u1 : 1 / t ≤ 1 := by rw [div_le_one t0]; exact t1
  have u0 : 0 ≤ 1 / t := by positivity
  have g3 : (MM).divD (fin 1) (fin t) = fin (D.rnd (1 / t)) := by
    unfold divD
    rw [XR.fin_div _ t0.ne', ieee_d]
    exact (D.result_of_le (k := 0) (by norm_num) (by norm_num) (by rw [abs_of_nonneg u0]; simpa using u1)).1
  rw [g3, f_ok]
  have v1 : D.rnd (1 / t) ≤ 1 := (D.mono u1).trans_eq d1
  have v0 : 0 ≤ D.rnd (1 / t) := by
    have := D.mono u0
    rwa [D.exact double_zero] at this
  rw [abs_of_nonneg v0]
  exact v1.trans (by norm_num)

theorem sigmoid_mono {ex : ℝ → ℝ} (hex : GoodExp ex) (hm : Monotone ex) {x x' b o : ℝ} (hx0 : 0 ≤ x) (hx : x ≤ x') (hx1 : x' ≤ 1)
    (hb0 : 0 ≤ b) (hb : b ≤ 20) (ho0 : 0 ≤ o) (ho : o ≤ 1) :
    ∃ s s', (MM).sigmoid ex (fin x) b o = fin s ∧ (MM).sigmoid ex (fin x') b o = fin s' ∧ s ≤ s' := by
  obtain ⟨h1, t1⟩ := sigmoid_eq (R := R) (D := D) (sin := sin) (sinf := sinf) (cosf := cosf) hex hx0 (hx.trans hx1) hb0 hb ho0 ho
  obtain ⟨h2, t2⟩ := sigmoid_eq (R := R) (D := D) (sin := sin) (sinf := sinf) (cosf := cosf) hex (hx0.trans hx) hx1 hb0 hb ho0 ho
  refine ⟨_, _, h1, h2, R.mono (D.mono (one_div_le_one_div_of_le (by linarith) (D.mono ?_)))⟩
  have : R.rnd (-b * R.rnd (x' - o)) ≤ R.rnd (-b * R.rnd (x - o)) :=
    R.mono (by nlinarith [R.mono (show x - o ≤ x' - o by linarith)])
  linarith [D.mono (hm this)]

/-- The computed horizontal factor grows with what is left to do and with the height. -/
theorem deformation_mono {ex : ℝ → ℝ} (hex : GoodExp ex) (hm : Monotone ex) {p : Params} (hp : SensibleFloat p)
    (htop : p.target.tl.y + 0.01 ≤ p.source.tl.y) {q q' y y' : ℝ} (q0 : 0 ≤ q) (qq : q ≤ q') (q1 : q' ≤ 1)
    (hy : R.rnd p.target.tl.y ≤ y) (yy : y ≤ y') (by1 : |y| ≤ 2 ^ 16) (by1' : |y'| ≤ 2 ^ 16) :
    ∃ c c', (MM).deformation ex p (fin q) (fin y) = fin c ∧ (MM).deformation ex p (fin q') (fin y') = fin c' ∧ c ≤ c' := by
  obtain ⟨g, hgap, g1⟩ : ∃ g, (MM).sub ((MM).sigmoid ex (fin 1) p.bend p.offset) ((MM).sigmoid ex (fin 0) p.bend p.offset) = fin g ∧
      1 / 8 ≤ g := by
    obtain ⟨-, g, -, -, -, h, h'⟩ := gap_ok (R := R) (D := D) (sin := sin) (sinf := sinf) (cosf := cosf) hex hp.bend hp.offset
    exact ⟨g, h, h'⟩
  obtain ⟨c, hc, -, -⟩ := deformation_ok (R := R) (D := D) (sin := sin) (sinf := sinf) (cosf := cosf) hex hp q0 (qq.trans q1) by1
  obtain ⟨c', hc', -, -⟩ := deformation_ok (R := R) (D := D) (sin := sin) (sinf := sinf) (cosf := cosf) hex hp (q0.trans qq) q1 by1'
  refine ⟨c, c', hc, hc', ?_⟩
  have b1 := hp.bend
  have o1 := hp.offset
  set S := R.rnd p.source.tl.y with hS
  set T := R.rnd p.target.tl.y with hT
  have fS : (MM).f (fin p.source.tl.y) = fin S := f_ok ((desk hp.source.top).trans (by norm_num))
  have fT : (MM).f (fin p.target.tl.y) = fin T := f_ok ((desk hp.target.top).trans (by norm_num))
  have bS : |S| ≤ 2 ^ 13 := by
    have := R.abs_le_pow (x := p.source.tl.y) (k := 13) (by norm_num) (by exact_mod_cast desk hp.source.top)
    exact_mod_cast this
  have bT : |T| ≤ 2 ^ 13 := by
    have := R.abs_le_pow (x := p.target.tl.y) (k := 13) (by norm_num) (by exact_mod_cast desk hp.target.top)
    exact_mod_cast this
  have hd : (MM).sub (fin S) (fin T) = fin (R.rnd (S - T)) := by
    unfold sub
    rw [XR.fin_sub, f_ok]
    refine (abs_sub _ _).trans ?_
    norm_num at bS bT ⊢
    linarith
  have hST : T ≤ S := R.mono (by linarith)
  have d0 : 0 < R.rnd (S - T) := by
    obtain ⟨d, hd', d1, -⟩ := distance_ok (R := R) (D := D) (sin := sin) (sinf := sinf) (cosf := cosf) hp.source.top hp.target.top
      hp.tops
    rw [fS, fT, hd, XR.fin_inj] at hd'
    have := R.nonneg (x := S - T) (by linarith)
    rcases this.eq_or_lt with h | h
    · rw [← hd', ← h, abs_zero] at d1
      norm_num at d1
    · exact h
  set d := R.rnd (S - T) with hdd
  -- explicit value
  have key : ∀ {q y : ℝ}, 0 ≤ q → q ≤ 1 → T ≤ y → |y| ≤ 2 ^ 16 →
      ∃ m, m = R.rnd (min (R.rnd (1 - R.rnd (R.rnd (S - y) / d))) 1 * min (R.rnd (q * p.deformSpeed)) 1) ∧ 0 ≤ m ∧ m ≤ 1 ∧
      0 ≤ min (R.rnd (1 - R.rnd (R.rnd (S - y) / d))) 1 ∧
      (MM).deformation ex p (fin q) (fin y) = (MM).div ((MM).sub ((MM).sigmoid ex (fin m) p.bend p.offset)
        ((MM).sigmoid ex (fin 0) p.bend p.offset)) (fin g) := by
    intro q y q0 q1 hy by1
    have u1 : R.rnd (S - y) ≤ d := R.mono (by linarith)
    have v1 : R.rnd (R.rnd (S - y) / d) ≤ 1 := R.le_one (by rw [div_le_one d0]; exact u1)
    have w0 : 0 ≤ R.rnd (1 - R.rnd (R.rnd (S - y) / d)) := R.nonneg (by linarith)
    have m0 : 0 ≤ q * p.deformSpeed := mul_nonneg q0 (by linarith [hp.deformSpeed.1])
    have m1 : q * p.deformSpeed ≤ 4 := by nlinarith [hp.deformSpeed.1, hp.deformSpeed.2]
    have k0 : 0 ≤ min (R.rnd (q * p.deformSpeed)) 1 := le_min (R.nonneg m0) zero_le_one
    have k1 : min (R.rnd (q * p.deformSpeed)) 1 ≤ 1 := min_le_right _ _
    have n0 : 0 ≤ min (R.rnd (1 - R.rnd (R.rnd (S - y) / d))) 1 := le_min w0 zero_le_one
    have n1 : min (R.rnd (1 - R.rnd (R.rnd (S - y) / d))) 1 ≤ 1 := min_le_right _ _
    have p1 : min (R.rnd (1 - R.rnd (R.rnd (S - y) / d))) 1 * min (R.rnd (q * p.deformSpeed)) 1 ≤ 1 := mul_le_one₀ n1 k0 k1
    refine ⟨_, rfl, R.nonneg (mul_nonneg n0 k0), R.le_one p1, n0, ?_⟩
    unfold deformation
    simp only
    rw [fS, fT, hd, hgap]
    have e1 : (MM).sub (fin S) (fin y) = fin (R.rnd (S - y)) := by
      unfold sub
      rw [XR.fin_sub, f_ok]
      refine (abs_sub _ _).trans ?_
      norm_num at bS by1 ⊢
      linarith
    have bd : 1 / 128 ≤ d := by
      obtain ⟨d', hd', d1, -⟩ := distance_ok (R := R) (D := D) (sin := sin) (sinf := sinf) (cosf := cosf) hp.source.top
        hp.target.top hp.tops
      rw [fS, fT, hd, XR.fin_inj] at hd'
      rwa [← hd', abs_of_pos d0] at d1
    have bu : |R.rnd (S - y)| ≤ 2 ^ 17 := by
      have := R.abs_le_pow (x := S - y) (k := 17) (by norm_num) (by
        refine (abs_sub _ _).trans ?_
        norm_num at bS by1 ⊢
        linarith)
      exact_mod_cast this
    have bq : |R.rnd (S - y) / d| ≤ 2 ^ 24 := by
      rw [abs_div, abs_of_pos d0, div_le_iff₀ d0]
      norm_num at bu bd ⊢
      linarith
    have e2 : (MM).div (fin (R.rnd (S - y))) (fin d) = fin (R.rnd (R.rnd (S - y) / d)) := by
      unfold div
      rw [XR.fin_div _ d0.ne', f_ok (bq.trans (by norm_num))]
    have bv : |R.rnd (R.rnd (S - y) / d)| ≤ 2 ^ 24 := by
      have := R.abs_le_pow (x := R.rnd (S - y) / d) (k := 24) (by norm_num) (by exact_mod_cast bq)
      exact_mod_cast this
    have e3 : (MM).sub (fin 1) (fin (R.rnd (R.rnd (S - y) / d))) = fin (R.rnd (1 - R.rnd (R.rnd (S - y) / d))) := by
      unfold sub
      rw [XR.fin_sub, f_ok]
      refine (abs_sub _ _).trans ?_
      rw [abs_one]
      norm_num at bv ⊢
      linarith
    have e4 : (MM).mul (fin q) (fin p.deformSpeed) = fin (R.rnd (q * p.deformSpeed)) := by
      unfold mul
      rw [XR.fin_mul, f_ok (by rw [abs_of_nonneg m0]; exact m1.trans (by norm_num))]
    rw [e1, e2, e3, e4, XR.stdMin_fin, XR.stdMin_fin]
    have e5 : (MM).mul (fin (min (R.rnd (1 - R.rnd (R.rnd (S - y) / d))) 1)) (fin (min (R.rnd (q * p.deformSpeed)) 1)) =
        fin (R.rnd (min (R.rnd (1 - R.rnd (R.rnd (S - y) / d))) 1 * min (R.rnd (q * p.deformSpeed)) 1)) := by
      unfold mul
      rw [XR.fin_mul, f_ok]
      rw [abs_of_nonneg (mul_nonneg n0 k0)]
      exact p1.trans (by norm_num)
    rw [e5]
  obtain ⟨m, hm1, m0, m1, n0, e⟩ := key q0 (qq.trans q1) hy by1
  obtain ⟨m', hm1', m0', m1', n0', e'⟩ := key (q0.trans qq) q1 (hy.trans yy) by1'
  have mm : m ≤ m' := by
    rw [hm1, hm1']
    refine R.mono (mul_le_mul (min_le_min (R.mono ?_) le_rfl) (min_le_min (R.mono ?_) le_rfl) ?_ n0')
    · have : R.rnd (R.rnd (S - y') / d) ≤ R.rnd (R.rnd (S - y) / d) :=
        R.mono (div_le_div_of_nonneg_right (R.mono (by linarith)) d0.le)
      linarith
    · exact mul_le_mul_of_nonneg_right qq (by linarith [hp.deformSpeed.1])
    · exact le_min (R.nonneg (mul_nonneg q0 (by linarith [hp.deformSpeed.1]))) zero_le_one
  obtain ⟨s, s', hs, hs', ss⟩ := sigmoid_mono (R := R) (D := D) (sin := sin) (sinf := sinf) (cosf := cosf) hex hm m0 mm m1'
    (b := p.bend) (o := p.offset) (by linarith) b1.2 (by linarith [o1.1]) o1.2
  obtain ⟨z, -, hz, -⟩ := sigmoid_mono (R := R) (D := D) (sin := sin) (sinf := sinf) (cosf := cosf) hex hm le_rfl le_rfl
    (x := 0) (x' := 0) zero_le_one (b := p.bend) (o := p.offset) (by linarith) b1.2 (by linarith [o1.1]) o1.2
  have g0 : 0 < g := by linarith
  have fin1 : ∀ {s c : ℝ}, (MM).div ((MM).sub (fin s) (fin z)) (fin g) = fin c → c = R.rnd (R.rnd (s - z) / g) := by
    intro s c h
    obtain ⟨w, hw, e⟩ := f_inv h
    cases hu : (MM).sub (fin s) (fin z) with
    | fin u =>
      obtain ⟨w', hw', e'⟩ := f_inv hu
      rw [XR.fin_sub, XR.fin_inj] at hw'
      rw [hu, XR.fin_div _ g0.ne', XR.fin_inj] at hw
      rw [e, ← hw, e', ← hw']
    | nan =>
      rw [hu] at hw
      cases hw
    | pinf =>
      rw [hu] at hw
      exfalso
      have : (XR.pinf / fin g : XR) = XR.pinf := by
        change XR.div .pinf (fin g) = _
        simp [XR.div, g0.le]
      rw [this] at hw
      cases hw
    | ninf =>
      rw [hu] at hw
      exfalso
      have : (XR.ninf / fin g : XR) = XR.ninf := by
        change XR.div .ninf (fin g) = _
        simp [XR.div, g0.le]
      rw [this] at hw
      cases hw
  rw [e, hs, hz] at hc
  rw [e', hs', hz] at hc'
  rw [fin1 hc, fin1 hc']
  exact R.mono (div_le_div_of_nonneg_right (R.mono (by linarith)) g0.le)

/-- No computed point of the lattice is above the top of the box. -/
theorem lattice_ge {lo hi : ℝ} (hlo : Double lo) (h1 : |lo| ≤ 8192) (h2 : |hi| ≤ 8192) (h : lo ≤ hi) {k n : ℕ} (hn : 2 ≤ n)
    (hn' : n ≤ 2 ^ 24) (hk : k < n) {x : ℝ} (hx : (MM).latticeCoord lo hi k n = fin x) : lo ≤ x := by
  have dz : D.rnd 0 = 0 := D.exact double_zero
  have w : (MM).side lo hi = fin (R.rnd (D.rnd (hi - lo))) := by
    have b : |hi - lo| ≤ 2 ^ (14 : ℤ) := by
      refine (abs_sub _ _).trans ?_
      norm_num
      linarith
    obtain ⟨e, b'⟩ := D.result_of_le (k := 14) (by norm_num) (by norm_num) b
    unfold side subD
    rw [XR.fin_sub, ieee_d, e, f_ok]
    exact b'.trans (by norm_num)
  have w0 : 0 ≤ D.rnd (hi - lo) := dz ▸ D.mono (sub_nonneg.2 h)
  have w0' : 0 ≤ R.rnd (D.rnd (hi - lo)) := R.nonneg w0
  unfold latticeCoord at hx
  rw [size_nat (by omega), size_pred hn hn', w] at hx
  obtain ⟨y, hy, e⟩ := d_inv (D := D) (R := R) (sin := sin) (sinf := sinf) (cosf := cosf) hx
  obtain ⟨a, b, ha, hb, e2⟩ := add_inv hy
  obtain ⟨c, hc, e3⟩ := f_inv (R := R) (D := D) (sin := sin) (sinf := sinf) (cosf := cosf) hb
  have hN := MagicLamp.pred_pos hn
  have b0 : 0 ≤ b := by
    rw [e3]
    refine R.nonneg ?_
    cases hu : (MM).mul (fin k) (fin (R.rnd (D.rnd (hi - lo)))) with
    | fin u =>
      obtain ⟨u', hu', e4⟩ := f_inv (R := R) (D := D) (sin := sin) (sinf := sinf) (cosf := cosf) hu
      rw [XR.fin_mul, XR.fin_inj] at hu'
      rw [hu, XR.fin_div _ hN.ne', XR.fin_inj] at hc
      rw [← hc, e4, ← hu']
      exact div_nonneg (R.nonneg (mul_nonneg (Nat.cast_nonneg k) w0')) hN.le
    | nan =>
      rw [hu] at hc
      cases hc
    | pinf =>
      rw [hu] at hc
      exfalso
      have : (XR.pinf / fin ((n : ℝ) - 1) : XR) = XR.pinf := by
        change XR.div .pinf (fin ((n : ℝ) - 1)) = _
        unfold XR.div
        exact if_neg (not_lt.2 hN.le)
      rw [this] at hc
      cases hc
    | ninf =>
      rw [hu] at hc
      exfalso
      have : (XR.ninf / fin ((n : ℝ) - 1) : XR) = XR.ninf := by
        change XR.div .ninf (fin ((n : ℝ) - 1)) = _
        unfold XR.div
        exact if_neg (not_lt.2 hN.le)
      rw [this] at hc
      cases hc
  rw [XR.fin_inj] at ha
  rw [e, e2, ← ha]
  have := D.mono (show lo ≤ lo + b by linarith)
  rwa [D.exact hlo] at this

/-- If the target is clearly above the source, the computed `yDelta` is not negative. -/
theorem yDelta_nonneg {p : Params} (hgh : 2 ≤ p.gh ∧ p.gh ≤ 2 ^ 24) (hsrc : OnDesktop p.source) (htgt : OnDesktop p.target)
    (hup : ClearlyUp p) {j : ℕ} (hj : j < p.gh) {s t : ℝ}
    (hs : (MM).latticeCoord p.source.tl.y p.source.br.y j p.gh = fin s)
    (ht : (MM).latticeCoord p.target.tl.y p.target.br.y j p.gh = fin t) : 0 ≤ R.rnd (D.rnd (s - t)) := by
  obtain ⟨s', hs', -, -, es, -⟩ := lattice_ok (R := R) (D := D) (sin := sin) (sinf := sinf) (cosf := cosf) hsrc.top
    hsrc.bottom hgh.1 hgh.2 hj
  obtain ⟨t', ht', -, -, et, -⟩ := lattice_ok (R := R) (D := D) (sin := sin) (sinf := sinf) (cosf := cosf) htgt.top
    htgt.bottom hgh.1 hgh.2 hj
  rw [hs, XR.fin_inj] at hs'
  rw [ht, XR.fin_inj] at ht'
  subst hs' ht'
  have hN := MagicLamp.pred_pos hgh.1
  have hjN : (j : ℝ) ≤ (p.gh : ℝ) - 1 := by
    have : (j : ℝ) + 1 ≤ p.gh := by exact_mod_cast hj
    linarith
  have f0 : 0 ≤ (j : ℝ) / ((p.gh : ℝ) - 1) := div_nonneg (Nat.cast_nonneg j) hN.le
  have f1 : (j : ℝ) / ((p.gh : ℝ) - 1) ≤ 1 := by rw [div_le_one hN]; exact hjN
  rw [mul_div_right_comm] at es et
  generalize (j : ℝ) / ((p.gh : ℝ) - 1) = f at *
  have key : p.target.tl.y + f * (p.target.br.y - p.target.tl.y) + 0.01 ≤ p.source.tl.y + f * (p.source.br.y - p.source.tl.y) := by
    nlinarith [hup.top, hup.bottom]
  have : 0 ≤ s - t := by
    have h1 := (abs_le.1 es).1
    have h2 := (abs_le.1 et).2
    norm_num at h1 h2 key
    linarith
  have dz : D.rnd 0 = 0 := D.exact double_zero
  exact R.nonneg (dz ▸ D.mono this)

/-- Two renderings with the same parameters. -/
theorem lampVertex_mono {ex : ℝ → ℝ} (hex : GoodExp ex) (hm : Monotone ex) {p : Params} (hp : SensibleFloat p) (hup : ClearlyUp p)
    {i j : ℕ} (hi : i < p.gw) (hj : j < p.gh) :
    ∃ δ : ℝ, ∀ q q', 0 ≤ q → q ≤ q' → q' ≤ 1 → ∀ r r', (MM).sub (fin 1) (fin r) = fin q → (MM).sub (fin 1) (fin r') = fin q' →
      0 ≤ r → r ≤ 1 → 0 ≤ r' → r' ≤ 1 →
      ∃ x y x' y', (MM).lampVertex ex p (fin r) i j = ⟨fin x, fin y⟩ ∧ (MM).lampVertex ex p (fin r') i j = ⟨fin x', fin y'⟩ ∧
        y ≤ y' ∧ (0 ≤ δ → x ≤ x') ∧ (δ ≤ 0 → x' ≤ x) := by
  obtain ⟨s, hs, -⟩ := lattice_ok (R := R) (D := D) (sin := sin) (sinf := sinf) (cosf := cosf) hp.source.left
    hp.source.right hp.gw.1 hp.gw.2 hi
  obtain ⟨t, ht, -⟩ := lattice_ok (R := R) (D := D) (sin := sin) (sinf := sinf) (cosf := cosf) hp.target.left
    hp.target.right hp.gw.1 hp.gw.2 hi
  obtain ⟨sy, ty, δy, hsy, hty, eδ, hyy⟩ := stretchedY_mono (R := R) (D := D) (sin := sin) (sinf := sinf) (cosf := cosf) hp.gh
    hp.source hp.target hp.stretch hj
  have δ0 : 0 ≤ δy := eδ ▸ yDelta_nonneg hp.gh hp.source hp.target hup hj hsy hty
  have tge : p.target.tl.y ≤ ty := lattice_ge hp.target.double.2.1 hp.target.top hp.target.bottom hup.target hp.gh.1 hp.gh.2 hj hty
  refine ⟨D.rnd (s - t), fun q q' q0 qq q1 r r' hr hr' r0 r1 r0' r1' => ?_⟩
  obtain ⟨y, y', hy, hy', by1, by1', up, -⟩ := hyy q q' q0 qq q1
  obtain ⟨ylo, yy⟩ := up δ0
  obtain ⟨c, c', hc, hc', cc⟩ := deformation_mono (R := R) (D := D) (sin := sin) (sinf := sinf) (cosf := cosf) hex hm hp hup.top q0
    qq q1 ((R.mono tge).trans ylo) yy by1 by1'
  obtain ⟨x, z, hv, -⟩ := lampVertex_ok (R := R) (D := D) (sin := sin) (sinf := sinf) (cosf := cosf) hex hp hi hj r0 r1
  obtain ⟨x', z', hv', -⟩ := lampVertex_ok (R := R) (D := D) (sin := sin) (sinf := sinf) (cosf := cosf) hex hp hi hj r0' r1'
  have key : ∀ {r q y c x z : ℝ}, (MM).sub (fin 1) (fin r) = fin q → (MM).stretchedY p (fin q) j = fin y →
      (MM).deformation ex p (fin q) (fin y) = fin c → (MM).lampVertex ex p (fin r) i j = ⟨fin x, fin z⟩ →
      z = y ∧ x = R.rnd (D.rnd (t + D.rnd (D.rnd (s - t) * c))) := by
    intro r q y c x z hr hy hc h
    unfold lampVertex at h
    simp only at h
    rw [hr, hs, ht, hy, hc, Vertex.mk.injEq, XR.fin_inj] at h
    refine ⟨h.2.symm, ?_⟩
    obtain ⟨z, hz, e⟩ := f_inv h.1
    obtain ⟨z1, hz1, e1⟩ := d_inv (D := D) (R := R) (sin := sin) (sinf := sinf) (cosf := cosf) hz
    obtain ⟨a, b, ha, hb, e2⟩ := add_inv hz1
    obtain ⟨m, hm, e3⟩ := d_inv (R := R) (D := D) (sin := sin) (sinf := sinf) (cosf := cosf) hb
    cases hδ : (MM).subD (fin s) (fin t) with
    | fin δ =>
      rw [hδ, XR.fin_mul, XR.fin_inj] at hm
      obtain ⟨w1, hw1, e5⟩ := d_inv (D := D) (R := R) (sin := sin) (sinf := sinf) (cosf := cosf) hδ
      rw [XR.fin_sub, XR.fin_inj] at hw1
      rw [XR.fin_inj] at ha
      rw [e, e1, e2, ← ha, e3, ← hm, e5, ← hw1]
    | _ =>
      exfalso
      rw [hδ] at hm
      first
        | cases hm
        | (change XR.signed c = fin m at hm
           unfold XR.signed at hm
           split_ifs at hm)
        | (change XR.signed (-c) = fin m at hm
           unfold XR.signed at hm
           split_ifs at hm)
  obtain ⟨k1, k2⟩ := key hr hy hc hv
  obtain ⟨k1', k2'⟩ := key hr' hy' hc' hv'
  refine ⟨x, z, x', z', hv, hv', by rw [k1, k1']; exact yy, fun h => ?_, fun h => ?_⟩
  · rw [k2, k2']
    exact R.mono (D.mono (by linarith [D.mono (mul_le_mul_of_nonneg_left cc h)]))
  · rw [k2, k2']
    exact R.mono (D.mono (by linarith [D.mono (mul_le_mul_of_nonpos_left cc h)]))

/-- `1 - progress` as computed. -/
theorem inv_eq {r : ℝ} (hr0 : 0 ≤ r) (hr1 : r ≤ 1) :
    (MM).sub (fin 1) (fin r) = fin (R.rnd (1 - r)) ∧ 0 ≤ R.rnd (1 - r) ∧ R.rnd (1 - r) ≤ 1 := by
  refine ⟨?_, R.nonneg (by linarith), R.le_one (by linarith)⟩
  unfold sub
  rw [XR.fin_sub, f_ok (by rw [abs_of_nonneg (by linarith)]; norm_num; linarith)]

end

end Verif.Machine
