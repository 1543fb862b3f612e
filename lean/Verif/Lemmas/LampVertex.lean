import Verif.Lemmas.LampRound

/-! The vertices of the rounded magic lamp. -/

namespace Verif.Machine

open XR (fin)
open MagicLamp (pred sig Params Vertex)
open Spec

noncomputable section

variable {R : Rounding} {D : Rounding64} {sin sinf cosf : ℝ → ℝ}

local notation "MM" => Machine.ieee R D sin sinf cosf

theorem desk {x : ℝ} (h : |x| ≤ 8192) : |x| ≤ 2 ^ 13 := h.trans (by norm_num)

/-- A lattice coordinate that the code has computed. -/
theorem lattice_ok {lo hi : ℝ} (h1 : |lo| ≤ 8192) (h2 : |hi| ≤ 8192) {k n : ℕ} (hn : 2 ≤ n) (hn' : n ≤ 2 ^ 24) (hk : k < n) :
    ∃ x, (MM).latticeCoord lo hi k n = fin x ∧ Double x ∧ |x| ≤ 2 ^ 14 ∧ |x - (lo + k * (hi - lo) / (n - 1))| ≤ 25 / 8192 ∧
      |R.rnd x - (lo + k * (hi - lo) / (n - 1))| ≤ 1 / 256 := by
  have a := lattice_near (R := R) (D := D) (sin := sin) (sinf := sinf) (cosf := cosf) (desk h1) (desk h2) hn hn' hk
  obtain ⟨x, hx⟩ : ∃ x, (MM).latticeCoord lo hi k n = fin x := by
    obtain ⟨x, hx, -⟩ := a
    exact ⟨x, hx⟩
  refine ⟨x, hx, lattice_double hx, ?_⟩
  rw [hx] at a
  have b := a.abs_fin
  have c := a.toFloat R (by norm_num)
  have hx' : |x| ≤ 2 ^ 14 := by
    norm_num at b ⊢
    linarith
  rw [R.result_of_le (hx'.trans (by norm_num))] at c
  refine ⟨hx', a.near, c.near.trans (by norm_num)⟩

theorem addD_zero {x : ℝ} (hd : Double x) (h : |x| ≤ 2 ^ 14) : (MM).f ((MM).addD (fin x) (fin 0)) = fin (R.rnd x) := by
  unfold addD
  rw [XR.fin_add, add_zero, ieee_d, (D.result_of_le (k := 14) (by norm_num) (by norm_num) (by exact_mod_cast h)).1, D.exact hd,
    f_ok (h.trans (by norm_num))]

theorem stretchedY_ok {p : Params} (hgh : 2 ≤ p.gh ∧ p.gh ≤ 2 ^ 24) (hsrc : OnDesktop p.source) (htgt : OnDesktop p.target)
    (hst : Single p.stretch ∧ 0.2 ≤ p.stretch ∧ p.stretch < 1) {j : ℕ} (hj : j < p.gh) {q : ℝ} (hq0 : 0 ≤ q) (hq1 : q ≤ 1) :
    ∃ y, (MM).stretchedY p (fin q) j = fin y ∧ |y| ≤ 2 ^ 16 ∧
      (q = 0 → ∃ t, (MM).latticeCoord p.target.tl.y p.target.br.y j p.gh = fin t ∧ y = R.rnd t) := by
  obtain ⟨s, hs, -, bs, -, -⟩ := lattice_ok (R := R) (D := D) (sin := sin) (sinf := sinf) (cosf := cosf) hsrc.top
    hsrc.bottom hgh.1 hgh.2 hj
  obtain ⟨t, ht, dt, bt, -, -⟩ := lattice_ok (R := R) (D := D) (sin := sin) (sinf := sinf) (cosf := cosf) htgt.top
    htgt.bottom hgh.1 hgh.2 hj
  obtain ⟨r, hr, r0, r1, rz⟩ := stretch_ok (R := R) (D := D) (sin := sin) (sinf := sinf) (cosf := cosf) hst.1
    (by linarith [hst.2.1]) hst.2.2 hgh.1 hgh.2 hj hq0 hq1
  unfold stretchedY
  simp only
  rw [hs, ht, hr]
  have d := (((Approx.const bs).sub (Approx.const bt)).toDouble D (by norm_num)).toFloat R (by norm_num)
  obtain ⟨δ, hδ, bδ⟩ := Approx_bound d
  have hδ' : (MM).f ((MM).subD (fin s) (fin t)) = fin δ := hδ
  rw [hδ']
  have rc : Approx (fin r) r 1 0 := Approx.const (by rw [abs_of_nonneg r0]; exact r1)
  have δc : Approx (fin δ) δ (2 ^ 15 + 1) 0 := Approx.const (bδ.trans (by norm_num))
  have tc : Approx (fin t) t (2 ^ 14) 0 := Approx.const bt
  have y := ((tc.add ((δc.mul rc).toFloat R (by norm_num))).toDouble D (by norm_num)).toFloat R (by norm_num)
  obtain ⟨y, hy, by'⟩ := Approx_bound y
  refine ⟨y, hy, by'.trans (by norm_num), fun h => ⟨t, rfl, ?_⟩⟩
  have hy' : (MM).f ((MM).addD (fin t) ((MM).mul (fin δ) (fin r))) = fin y := hy
  rw [rz h] at hy'
  unfold mul at hy'
  rw [XR.fin_mul, mul_zero, f_zero, addD_zero dt bt, XR.fin_inj] at hy'
  exact hy'.symm

/-- The distance of the tops, as computed. -/
theorem distance_ok {a b : ℝ} (ha : |a| ≤ 8192) (hb : |b| ≤ 8192) (h : 0.01 ≤ |a - b|) :
    ∃ d, (MM).sub ((MM).f (fin a)) ((MM).f (fin b)) = fin d ∧ 1 / 128 ≤ |d| ∧ |d| ≤ 2 ^ 15 := by
  have ac := (Approx.const (desk ha)).toFloat R (by norm_num)
  have bc := (Approx.const (desk hb)).toFloat R (by norm_num)
  have c := (ac.sub bc).toFloat R (by norm_num)
  obtain ⟨d, hd, h1⟩ := c
  have hd' : (MM).sub ((MM).f (fin a)) ((MM).f (fin b)) = fin d := hd
  refine ⟨d, hd', ?_, ?_⟩
  · have := abs_sub_abs_le_abs_sub (a - b) d
    rw [abs_sub_comm (a - b) d] at this
    have h2 := h1.1
    norm_num at h2 h ⊢
    linarith
  · have := abs_sub_abs_le_abs_sub d (a - b)
    have h2 := h1.1
    have h3 := h1.2
    norm_num at h2 h3 ⊢
    linarith

variable {ex : ℝ → ℝ}

theorem gap_ok (hex : GoodExp ex) {b o : ℝ} (hb : 1 ≤ b ∧ b ≤ 20) (ho : 0.1 ≤ o ∧ o ≤ 1) :
    ∃ s g, (MM).sigmoid ex (fin 0) b o = fin s ∧ 0 ≤ s ∧ s ≤ 1 ∧
      (MM).sub ((MM).sigmoid ex (fin 1) b o) ((MM).sigmoid ex (fin 0) b o) = fin g ∧ 1 / 8 ≤ g := by
  have ho0 : 0 ≤ o := by linarith [ho.1]
  have z : Approx (fin 0) (0 : ℝ) 1 0 := Approx.const (by norm_num)
  have w : Approx (fin 1) (1 : ℝ) 1 0 := Approx.const (by norm_num)
  have a := sigmoid_near (R := R) (D := D) (sin := sin) (sinf := sinf) (cosf := cosf) hex z le_rfl zero_le_one (by norm_num)
    (by linarith [hb.1]) hb.2 ho0 ho.2
  have b' := sigmoid_near (R := R) (D := D) (sin := sin) (sinf := sinf) (cosf := cosf) hex w zero_le_one le_rfl (by norm_num)
    (by linarith [hb.1]) hb.2 ho0 ho.2
  have c := (b'.sub a).toFloat R (by norm_num)
  have hg := gap hb.1 ho0 ho.2
  obtain ⟨g, hg1, hg2, -⟩ := c
  obtain ⟨s, hs, s0, s1⟩ := sigmoid_unit (R := R) (D := D) (sin := sin) (sinf := sinf) (cosf := cosf) hex.nonneg (x := 0)
    (b := b) (o := o) (by norm_num) (by rw [abs_le]; constructor <;> norm_num <;> linarith [hb.1, hb.2])
    (by rw [abs_le]; constructor <;> norm_num <;> linarith [ho.2])
  refine ⟨s, g, hs, s0, s1, hg1, ?_⟩
  have := (abs_le.1 hg2).1
  norm_num at this hg ⊢
  linarith

theorem deformation_ok (hex : GoodExp ex) {p : Params} (hp : SensibleFloat p) {q y : ℝ} (hq0 : 0 ≤ q) (hq1 : q ≤ 1)
    (hy : |y| ≤ 2 ^ 16) :
    ∃ c, (MM).deformation ex p (fin q) (fin y) = fin c ∧ |c| ≤ 64 ∧ (q = 0 → c = 0) := by
  obtain ⟨d, hd, d1, d2⟩ := distance_ok (R := R) (D := D) (sin := sin) (sinf := sinf) (cosf := cosf) hp.source.top hp.target.top
    hp.tops
  obtain ⟨s, g, hs, s0, s1, hg, g1⟩ := gap_ok (R := R) (D := D) (sin := sin) (sinf := sinf) (cosf := cosf) hex hp.bend hp.offset
  have hd0 : 0 < |d| := lt_of_lt_of_le (by norm_num) d1
  have hg0 : 0 < g := by linarith
  unfold deformation
  simp only
  rw [hd, hg, hs]
  -- first factor
  have ac := (Approx.const (desk hp.source.top)).toFloat R (by norm_num)
  have yc : Approx (fin y) y (2 ^ 16) 0 := Approx.const hy
  obtain ⟨u, hu, bu⟩ := Approx_bound ((ac.sub yc).toFloat R (by norm_num))
  have hu' : (MM).sub ((MM).f (fin p.source.tl.y)) (fin y) = fin u := hu
  have bu' : |u| ≤ 2 ^ 17 := bu.trans (by norm_num)
  rw [hu']
  have dc : Approx (fin d) d (2 ^ 15) 0 := Approx.const d2
  have uc : Approx (fin u) u (2 ^ 17) 0 := Approx.const bu'
  have bq : |u / d| ≤ 2 ^ 24 := by
    rw [abs_div, div_le_iff₀ hd0]
    norm_num at bu' d1 ⊢
    linarith
  obtain ⟨v, hv, bv⟩ := Approx_bound ((uc.div dc (m := |d|) le_rfl hd0 bq).toFloat R (by norm_num))
  have hv' : (MM).div (fin u) (fin d) = fin v := hv
  have bv' : |v| ≤ 2 ^ 25 := bv.trans (by norm_num)
  rw [hv']
  have oneA : Approx (fin 1) (1 : ℝ) 1 0 := Approx.const (by norm_num)
  have vc : Approx (fin v) v (2 ^ 25) 0 := Approx.const bv'
  obtain ⟨w, hw, bw⟩ := Approx_bound ((oneA.sub vc).toFloat R (by norm_num))
  have hw' : (MM).sub (fin 1) (fin v) = fin w := hw
  have bw' : |w| ≤ 2 ^ 26 := bw.trans (by norm_num)
  rw [hw', XR.stdMin_fin]
  have bm : |min w 1| ≤ 2 ^ 26 := by
    rw [abs_le] at bw' ⊢
    exact ⟨le_min bw'.1 (by norm_num), (min_le_right _ _).trans (by norm_num)⟩
  -- second factor
  have m0 : 0 ≤ q * p.deformSpeed := mul_nonneg hq0 (by linarith [hp.deformSpeed.1])
  have m1 : q * p.deformSpeed ≤ 4 := by nlinarith [hp.deformSpeed.1, hp.deformSpeed.2]
  have hk : (MM).mul (fin q) (fin p.deformSpeed) = fin (R.rnd (q * p.deformSpeed)) := by
    unfold mul
    rw [XR.fin_mul, f_ok (by rw [abs_of_nonneg m0]; exact m1.trans (by norm_num))]
  rw [hk, XR.stdMin_fin]
  have k0 : 0 ≤ min (R.rnd (q * p.deformSpeed)) 1 := le_min (R.nonneg m0) zero_le_one
  have k1 : |min (R.rnd (q * p.deformSpeed)) 1| ≤ 1 := by
    rw [abs_of_nonneg k0]
    exact min_le_right _ _
  have kz : q = 0 → min (R.rnd (q * p.deformSpeed)) 1 = 0 := by
    rintro rfl
    rw [zero_mul, R.exact single_zero]
    simp
  generalize min (R.rnd (q * p.deformSpeed)) 1 = k at *
  generalize min w 1 = m at *
  -- product
  have mc : Approx (fin m) m (2 ^ 26) 0 := Approx.const bm
  have kc : Approx (fin k) k 1 0 := Approx.const k1
  obtain ⟨x, hx, bx⟩ := Approx_bound ((mc.mul kc).toFloat R (by norm_num))
  have hx' : (MM).mul (fin m) (fin k) = fin x := hx
  have bx' : |x| ≤ 2 ^ 100 := bx.trans (by norm_num)
  rw [hx']
  obtain ⟨σ, hσ, σ0, σ1⟩ := sigmoid_unit (R := R) (D := D) (sin := sin) (sinf := sinf) (cosf := cosf) hex.nonneg
    (b := p.bend) (o := p.offset) bx' (by rw [abs_le]; constructor <;> norm_num <;> linarith [hp.bend.1, hp.bend.2])
    (by rw [abs_le]; constructor <;> norm_num <;> linarith [hp.offset.1, hp.offset.2])
  rw [hσ]
  have σs : |σ - s| ≤ 1 := by rw [abs_le]; constructor <;> linarith
  have e1 : (MM).sub (fin σ) (fin s) = fin (R.rnd (σ - s)) := by
    unfold sub
    rw [XR.fin_sub, f_ok (σs.trans (by norm_num))]
  rw [e1]
  have σr : |R.rnd (σ - s)| ≤ 1 := by
    have := R.abs_le_pow (x := σ - s) (k := 0) (by norm_num) (by simpa using σs)
    simpa using this
  have hq : |R.rnd (σ - s) / g| ≤ 8 := by
    rw [abs_div, abs_of_pos hg0, div_le_iff₀ hg0]
    linarith
  have e2 : (MM).div (fin (R.rnd (σ - s))) (fin g) = fin (R.rnd (R.rnd (σ - s) / g)) := by
    unfold div
    rw [XR.fin_div _ hg0.ne', f_ok (hq.trans (by norm_num))]
  refine ⟨_, e2, ?_, fun h => ?_⟩
  · have := R.abs_le_pow (x := R.rnd (σ - s) / g) (k := 3) (by norm_num) (by norm_num; linarith)
    refine this.trans (by norm_num)
  · have xz : x = 0 := by
      rw [kz h] at hx'
      unfold mul at hx'
      rw [XR.fin_mul, mul_zero, f_zero, XR.fin_inj] at hx'
      exact hx'.symm
    rw [xz, hs, XR.fin_inj] at hσ
    rw [hσ, sub_self, R.exact single_zero, zero_div, R.exact single_zero]

/-- Every vertex is finite; at progress 1 it is the computed lattice point of the target, as `float`. -/
theorem lampVertex_ok (hex : GoodExp ex) {p : Params} (hp : SensibleFloat p) {i j : ℕ} (hi : i < p.gw) (hj : j < p.gh) {r : ℝ}
    (hr0 : 0 ≤ r) (hr1 : r ≤ 1) :
    ∃ x y, (MM).lampVertex ex p (fin r) i j = ⟨fin x, fin y⟩ ∧
      (r = 1 → ∃ s t, (MM).latticeCoord p.target.tl.x p.target.br.x i p.gw = fin s ∧
        (MM).latticeCoord p.target.tl.y p.target.br.y j p.gh = fin t ∧ x = R.rnd s ∧ y = R.rnd t) := by
  have iv : (MM).sub (fin 1) (fin r) = fin (R.rnd (1 - r)) := by
    unfold sub
    rw [XR.fin_sub, f_ok (by rw [abs_of_nonneg (by linarith)]; norm_num; linarith)]
  have q0 := R.nonneg (x := 1 - r) (by linarith)
  have q1 := R.le_one (x := 1 - r) (by linarith)
  have qz : r = 1 → R.rnd (1 - r) = 0 := by
    rintro rfl
    rw [sub_self, R.exact single_zero]
  unfold lampVertex
  simp only
  rw [iv]
  generalize R.rnd (1 - r) = q at *
  obtain ⟨y, hy, by', yz⟩ := stretchedY_ok (R := R) (D := D) (sin := sin) (sinf := sinf) (cosf := cosf) hp.gh hp.source hp.target
    hp.stretch hj q0 q1
  obtain ⟨c, hc, bc, cz⟩ := deformation_ok (R := R) (D := D) (sin := sin) (sinf := sinf) (cosf := cosf) hex hp q0 q1 by'
  obtain ⟨s, hs, -, bs, -, -⟩ := lattice_ok (R := R) (D := D) (sin := sin) (sinf := sinf) (cosf := cosf) hp.source.left
    hp.source.right hp.gw.1 hp.gw.2 hi
  obtain ⟨t, ht, dt, bt, -, -⟩ := lattice_ok (R := R) (D := D) (sin := sin) (sinf := sinf) (cosf := cosf) hp.target.left
    hp.target.right hp.gw.1 hp.gw.2 hi
  rw [hy, hc, hs, ht]
  obtain ⟨δ, hδ, bδ⟩ := Approx_bound (((Approx.const bs).sub (Approx.const bt)).toDouble D (by norm_num))
  have hδ' : (MM).subD (fin s) (fin t) = fin δ := hδ
  rw [hδ']
  have δc : Approx (fin δ) δ (2 ^ 15 + 1) 0 := Approx.const (bδ.trans (by norm_num))
  have cc : Approx (fin c) c 64 0 := Approx.const bc
  have tc : Approx (fin t) t (2 ^ 14) 0 := Approx.const bt
  obtain ⟨x, hx, -⟩ := Approx_bound (((tc.add ((δc.mul cc).toDouble D (by norm_num))).toDouble D (by norm_num)).toFloat R (by norm_num))
  have hx' : (MM).f ((MM).addD (fin t) ((MM).mulD (fin δ) (fin c))) = fin x := hx
  refine ⟨x, y, by rw [hx'], fun h => ?_⟩
  obtain ⟨t', ht', hyt⟩ := yz (qz h)
  refine ⟨t, t', rfl, ht', ?_, hyt⟩
  rw [cz (qz h)] at hx'
  unfold mulD at hx'
  have dz : (MM).d (fin 0) = fin 0 := by
    rw [ieee_d, (D.result_of_le (k := 0) (by norm_num) (by norm_num) (by norm_num)).1, D.exact double_zero]
  rw [XR.fin_mul, mul_zero, dz, addD_zero dt bt, XR.fin_inj] at hx'
  exact hx'.symm

end

end Verif.Machine
