import Verif.Spec.Glide
import Verif.Spec.GObject
import Verif.Lemmas.GlideRound
import Verif.Props.Transforms
import Verif.Props.TransformAccuracy

/-! # Where a Glide puts the surface, and its rounding error (C107, C108) -/

namespace Verif.Props

open XR (fin)
open Spec

noncomputable section

/-- **C107.** After every Glide step `Extremes` has each corner where two turns and a shift put it. -/
theorem C107_glide_place (a : Anim Glide.Params (Option Mat4)) (ms : ℕ) (hs : a.params.screenWidth ≠ 0)
    (corners : Fin 4 → Pt) :
    ∃ r e, (Glide.cls.step a ms).1.progress = fin r ∧ (Glide.cls.step a ms).1.extremes corners = some e ∧
      ∀ i, (⟨(e i).x, (e i).y, (e i).z⟩ : Spot3) = glided a.params r (corners i) ∧ (e i).w = 1 := by
  obtain ⟨r, _, _, hr, ho⟩ := glide_step a ms hs
  refine ⟨r, fun i => transformPoint (corners i) (Glide.transform r a.params), hr, ?_, fun i => ?_⟩
  · unfold Anim.extremes
    rw [ho]
    rfl
  · beta_reduce
    rw [glide_coords]
    refine ⟨?_, rfl⟩
    have h : ∀ d : ℝ, Glide.degreesToRadians d = radians d := fun d => by
      unfold Glide.degreesToRadians radians
      ring
    simp only [h]
    ext <;> simp only [glided, Spot3.shift, Spot3.turnVertical, Spot3.turnHorizontal, rotationAxisOffset] <;> ring

example : glided ⟨1 / 2, 90, 0, 1 / 2, 1 / 2, 1, ⟨⟨0, 0⟩, ⟨100, 50⟩⟩⟩ 0 ⟨50, 35⟩ = ⟨50, 26, 19 / 2⟩ := by
  have h1 : radians 90 * (1 - 0) = Real.pi / 2 := by
    unfold radians
    ring
  have h2 : radians 0 * (1 - 0) = 0 := by
    unfold radians
    ring
  unfold glided
  simp only [h1, h2]
  ext <;> norm_num [Spot3.shift, Spot3.turnVertical, Spot3.turnHorizontal]

variable (R : Rounding) (D : Rounding64) (sin sinf cosf : ℝ → ℝ)

local notation "MM" => Machine.ieee R D sin sinf cosf

/-- The angle left at progress `r`. -/
theorem approx_angle {deg r : ℝ} (hd : |deg| ≤ 360) (h0 : 0 ≤ r) (h1 : r ≤ 1) :
    Approx ((MM).mul ((MM).degreesToRadians deg) ((MM).sub (fin 1) (fin r))) (radians deg * (1 - r)) 7 (2.8 / 2 ^ 22) := by
  have d2 : |1 - r| ≤ 1 := by rw [abs_le]; constructor <;> linarith
  have pi1 := Real.pi_gt_d4
  have pi2 := Real.pi_lt_d4
  have a0 : Approx (fin (mPi / 180)) (Real.pi / 180) (7 / 400) (2 ^ (-50 : ℤ)) := by
    refine ⟨_, rfl, ?_, ?_⟩
    · rw [← sub_div, abs_div, abs_of_pos (by norm_num : (0 : ℝ) < 180)]
      refine (div_le_self (abs_nonneg _) (by norm_num)).trans mPi_near
    · rw [abs_of_pos (by positivity)]
      linarith
  have a1 := a0.double D (-5) (by norm_num) (by norm_num) (by norm_num)
  have a2 := (a1.mul (Approx.const hd)).double D 3 (by norm_num) (by norm_num) (by norm_num)
  have hX : Real.pi / 180 * deg = radians deg := by
    unfold radians
    ring
  rw [hX] at a2
  have hs : |radians deg| ≤ 6.2832 := by
    unfold radians
    rw [abs_div, abs_mul, abs_of_pos Real.pi_pos, abs_of_pos (by norm_num : (0 : ℝ) < 180), div_le_iff₀ (by norm_num)]
    nlinarith [abs_nonneg deg]
  have a3 := (a2.weaken (B' := 6.2832) (e' := 1 / 2 ^ 41) hs (by norm_num)).single R 3 (by norm_num) (by norm_num) (by norm_num)
  have a4 := (Approx.const d2).single R 0 (by norm_num) (by norm_num) (by norm_num)
  have a5 := (a3.mul a4).single R 3 (by norm_num) (by norm_num) (by norm_num)
  have a6 := a5.weaken (B' := 7) (e' := 2.8 / 2 ^ 22) (a5.size.trans (by norm_num)) (by norm_num)
  unfold Machine.mul Machine.degreesToRadians Machine.mulD Machine.divD Machine.sub
  rw [XR.fin_sub, XR.fin_div _ (by norm_num : (180 : ℝ) ≠ 0)]
  exact a6

/-- What the rotation matrices hold. -/
theorem rotation_entries (hlib : ∀ x, |x| ≤ 8 → |sinf x - Real.sin x| ≤ 1 / 2 ^ 23 ∧ |cosf x - Real.cos x| ≤ 1 / 2 ^ 23)
    {x X : ℝ} (hx : |x - X| ≤ 2.8 / 2 ^ 22) (hX : |X| ≤ 7) :
    ∃ w k c s n, (MM).f (fin (1 - cosf x)) = fin w ∧ (MM).f (fin (cosf x + w)) = fin k ∧ (MM).f (fin (cosf x)) = fin c ∧
      (MM).f (fin (sinf x)) = fin s ∧ (MM).f (fin (0 - s)) = fin n ∧
      |k - 1| ≤ 0.76 / 2 ^ 22 ∧ |c - Real.cos X| ≤ 3.56 / 2 ^ 22 ∧ |s - Real.sin X| ≤ 3.56 / 2 ^ 22 ∧
      |n - -Real.sin X| ≤ 3.81 / 2 ^ 22 := by
  have hx8 : |x| ≤ 8 := by
    have := abs_add_le (x - X) X
    rw [sub_add_cancel] at this
    norm_num at *
    linarith
  obtain ⟨ls, lc⟩ := hlib x hx8
  have cs : |cosf x - Real.cos X| ≤ 3.3 / 2 ^ 22 := by
    have h3 : |Real.cos x - Real.cos X| ≤ |x - X| := Real.abs_cos_sub_cos_le _ _
    have := abs_sub_le (cosf x) (Real.cos x) (Real.cos X)
    norm_num at *
    linarith
  have ss : |sinf x - Real.sin X| ≤ 3.3 / 2 ^ 22 := by
    have h3 : |Real.sin x - Real.sin X| ≤ |x - X| := Real.abs_sin_sub_sin_le _ _
    have := abs_sub_le (sinf x) (Real.sin x) (Real.sin X)
    norm_num at *
    linarith
  have ac : Approx (fin (cosf x)) (Real.cos X) 1 (3.3 / 2 ^ 22) := ⟨_, rfl, cs, Real.abs_cos_le_one _⟩
  have as : Approx (fin (sinf x)) (Real.sin X) 1 (3.3 / 2 ^ 22) := ⟨_, rfl, ss, Real.abs_sin_le_one _⟩
  have c1 := ac.single R 1 (by norm_num) (by norm_num) (by norm_num)
  have s1 := as.single R 1 (by norm_num) (by norm_num) (by norm_num)
  obtain ⟨c, ec, bc, -⟩ := c1.weaken (e' := 3.56 / 2 ^ 22) c1.size (by norm_num)
  obtain ⟨s, es, bs, ks⟩ := s1.weaken (e' := 3.56 / 2 ^ 22) s1.size (by norm_num)
  have an := ((Approx.const (X := 0) (B := 0) (by norm_num)).sub ⟨s, rfl, bs, ks⟩).single R 1 (by norm_num) (by norm_num) (by norm_num)
  obtain ⟨n, en, bn, -⟩ := an.weaken (e' := 3.81 / 2 ^ 22) an.size (by norm_num)
  have hc1 : |1 - cosf x| ≤ 3 := by
    have h1 := Real.neg_one_le_cos X
    have h2 := Real.cos_le_one X
    rw [abs_le] at cs ⊢
    norm_num at *
    constructor <;> linarith
  have aw := (Approx.const hc1).single R 2 (by norm_num) (by norm_num) (by norm_num)
  obtain ⟨w, ew, bw, -⟩ := aw
  have ak0 : Approx (fin (cosf x + w)) 1 1 (0 + 2 ^ ((2 : ℤ) - 25)) := by
    refine ⟨_, rfl, ?_, by norm_num⟩
    rw [show cosf x + w - 1 = w - (1 - cosf x) by ring]
    exact bw
  have ak := ak0.single R 1 (by norm_num) (by norm_num) (by norm_num)
  obtain ⟨k, ek, bk, -⟩ := ak.weaken (e' := 0.76 / 2 ^ 22) ak.size (by norm_num)
  rw [zero_sub] at bn
  rw [XR.fin_sub] at en
  exact ⟨w, k, c, s, n, ew, ek, ec, es, en, bk, bc, bs, bn⟩

/-- The place of the axis, in `float`, and its negative. -/
theorem axis_entries {lo hi u : ℝ} (hlo : |lo| ≤ 8192) (hhi : |hi| ≤ 8192) (h0 : 0 ≤ u) (h1 : u ≤ 1) :
    ∃ c n, (MM).f ((MM).axisOffset (fin lo) (fin hi) (fin u)) = fin c ∧
      (MM).f ((MM).mulD (fin (-1)) ((MM).axisOffset (fin lo) (fin hi) (fin u))) = fin n ∧
      |c - (hi - lo) * u| ≤ 1 / 1000 ∧ |n - -((hi - lo) * u)| ≤ 1 / 1000 ∧ |(hi - lo) * u| ≤ 16384 := by
  have hu : |u| ≤ 1 := by rw [abs_le]; constructor <;> linarith
  have a1 := ((Approx.const hhi).sub (Approx.const hlo)).double D 14 (by norm_num) (by norm_num) (by norm_num)
  have a2 := (a1.mul (Approx.const hu)).double D 15 (by norm_num) (by norm_num) (by norm_num)
  have hs : |(hi - lo) * u| ≤ 16384 := a2.size.trans (by norm_num)
  have a3 := a2.weaken (B' := 16384) (e' := 1 / 2 ^ 36) hs (by norm_num)
  have a4 := a3.single R 15 (by norm_num) (by norm_num) (by norm_num)
  have b1 := ((Approx.const (X := -1) (B := 1) (by norm_num)).mul a3).double D 15 (by norm_num) (by norm_num) (by norm_num)
  have b2 := b1.single R 15 (by norm_num) (by norm_num) (by norm_num)
  obtain ⟨c, ec, bc, -⟩ := a4.weaken (e' := 1 / 1000) a4.size (by norm_num)
  obtain ⟨n, en, bn, -⟩ := b2.weaken (e' := 1 / 1000) b2.size (by norm_num)
  rw [neg_one_mul] at bn
  refine ⟨c, n, ?_, ?_, bc, bn, hs⟩
  · rw [← ec]
    unfold Machine.axisOffset Machine.subD
    rw [XR.fin_sub]
    rfl
  · rw [← en]
    unfold Machine.axisOffset Machine.subD
    rw [XR.fin_sub]
    rfl

/-- A coordinate of a corner. -/
theorem glide_row {p0 P0 p1 P1 p2 P2 a A v V nx NX ny NY x X y Y : ℝ} (h0 : |p0 - P0| ≤ 8 / 2 ^ 22) (h1 : |p1 - P1| ≤ 5 / 2 ^ 22)
    (h2 : |p2 - P2| ≤ 8 / 2 ^ 22) (ha : |a - A| ≤ 1 / 1000) (hv : |v - V| ≤ 1 / 2 ^ 20) (hnx : |nx - NX| ≤ 1 / 1000)
    (hny : |ny - NY| ≤ 1 / 1000) (hx : |x - X| ≤ 1 / 2000) (hy : |y - Y| ≤ 1 / 2000) (k0 : |P0| ≤ 1) (k1 : |P1| ≤ 1) (k2 : |P2| ≤ 1)
    (ka : |A| ≤ 16384) (kv : |V| ≤ 1) (knx : |NX| ≤ 16384) (kny : |NY| ≤ 16384) (kx : |X| ≤ 16384) (ky : |Y| ≤ 16384) :
    ∃ z, Nonempty (Machine.GlideRow (MM) p0 p1 p2 a v nx ny x y z) ∧
      |z - (P0 * X + P1 * Y + (P0 * NX + P1 * NY + (P2 * V + A)))| ≤ 1 / 8 := by
  have A0 : Approx (fin p0) P0 1 (8 / 2 ^ 22) := ⟨_, rfl, h0, k0⟩
  have A1 : Approx (fin p1) P1 1 (5 / 2 ^ 22) := ⟨_, rfl, h1, k1⟩
  have A2 : Approx (fin p2) P2 1 (8 / 2 ^ 22) := ⟨_, rfl, h2, k2⟩
  have Aa : Approx (fin a) A 16384 (1 / 1000) := ⟨_, rfl, ha, ka⟩
  have Av : Approx (fin v) V 1 (1 / 2 ^ 20) := ⟨_, rfl, hv, kv⟩
  have Anx : Approx (fin nx) NX 16384 (1 / 1000) := ⟨_, rfl, hnx, knx⟩
  have Any_ : Approx (fin ny) NY 16384 (1 / 1000) := ⟨_, rfl, hny, kny⟩
  have Ax : Approx (fin x) X 16384 (1 / 2000) := ⟨_, rfl, hx, kx⟩
  have Ay : Approx (fin y) Y 16384 (1 / 2000) := ⟨_, rfl, hy, ky⟩
  have bq := (A2.mul Av).single R 1 (by norm_num) (by norm_num) (by norm_num)
  obtain ⟨q, eq, cq, sq⟩ := bq.weaken (B' := 1) (e' := 1 / 2 ^ 18) (bq.size.trans (by norm_num)) (by norm_num)
  have bt := (Approx.add ⟨q, rfl, cq, sq⟩ Aa).single R 15 (by norm_num) (by norm_num) (by norm_num)
  obtain ⟨t, et, ct, st⟩ := bt.weaken (B' := 16385) (e' := 0.00199) (bt.size.trans (by norm_num)) (by norm_num)
  have bu0 := (A0.mul Anx).single R 15 (by norm_num) (by norm_num) (by norm_num)
  obtain ⟨u0, eu0, cu0, su0⟩ := bu0.weaken (B' := 16384) (e' := 0.0333) (bu0.size.trans (by norm_num)) (by norm_num)
  have bu1 := (A1.mul Any_).single R 15 (by norm_num) (by norm_num) (by norm_num)
  obtain ⟨u1, eu1, cu1, su1⟩ := bu1.weaken (B' := 16384) (e' := 0.0216) (bu1.size.trans (by norm_num)) (by norm_num)
  have bu := (Approx.add ⟨u0, rfl, cu0, su0⟩ ⟨u1, rfl, cu1, su1⟩).single R 16 (by norm_num) (by norm_num) (by norm_num)
  obtain ⟨u, eu, cu, su⟩ := bu.weaken (B' := 32768) (e' := 0.0569) (bu.size.trans (by norm_num)) (by norm_num)
  have bm := (Approx.add ⟨u, rfl, cu, su⟩ ⟨t, rfl, ct, st⟩).single R 16 (by norm_num) (by norm_num) (by norm_num)
  obtain ⟨m, em, cm, sm⟩ := bm.weaken (B' := 49153) (e' := 0.0609) (bm.size.trans (by norm_num)) (by norm_num)
  have bg0 := (A0.mul Ax).single R 15 (by norm_num) (by norm_num) (by norm_num)
  obtain ⟨g0, eg0, cg0, sg0⟩ := bg0.weaken (B' := 16384) (e' := 0.0328) (bg0.size.trans (by norm_num)) (by norm_num)
  have bg1 := (A1.mul Ay).single R 15 (by norm_num) (by norm_num) (by norm_num)
  obtain ⟨g1, eg1, cg1, sg1⟩ := bg1.weaken (B' := 16384) (e' := 0.0211) (bg1.size.trans (by norm_num)) (by norm_num)
  have bg := (Approx.add ⟨g0, rfl, cg0, sg0⟩ ⟨g1, rfl, cg1, sg1⟩).single R 16 (by norm_num) (by norm_num) (by norm_num)
  obtain ⟨g, eg, cg, sg⟩ := bg.weaken (B' := 32768) (e' := 0.0560) (bg.size.trans (by norm_num)) (by norm_num)
  have bz := (Approx.add ⟨g, rfl, cg, sg⟩ ⟨m, rfl, cm, sm⟩).single R 17 (by norm_num) (by norm_num) (by norm_num)
  obtain ⟨z, ez, cz, -⟩ := bz
  exact ⟨z, ⟨⟨q, eq, t, et, u0, eu0, u1, eu1, u, eu, m, em, g0, eg0, g1, eg1, g, eg, ez⟩⟩, cz.trans (by norm_num)⟩

/-- A product of two entries. -/
theorem glide_entry {a A b B e f t : ℝ} (ha : |a - A| ≤ e) (hb : |b - B| ≤ f) (hA : |A| ≤ 1) (hB : |B| ≤ 1)
    (h1 : 1 * 1 + (e * 1 + 1 * f + e * f) ≤ 2 ^ (1 : ℤ)) (h2 : e * 1 + 1 * f + e * f + 2 ^ ((1 : ℤ) - 25) ≤ t) :
    ∃ p, (MM).f (fin (a * b)) = fin p ∧ |p - A * B| ≤ t ∧ |A * B| ≤ 1 := by
  have := (Approx.mul (u := fin a) (v := fin b) ⟨a, rfl, ha, hA⟩ ⟨b, rfl, hb, hB⟩).single R 1 (by norm_num) (by norm_num) h1
  obtain ⟨p, ep, cp, sp⟩ := this
  exact ⟨p, ep, cp.trans h2, sp.trans (by norm_num)⟩

/-- **C108.** After every step of a Glide with angles, axis and distance in their documented ranges and box coordinates of
at most 8192, every corner is within 1/8 pixel of where exact arithmetic puts it, in depth as well. -/
theorem C108_glide (hlib : ∀ x, |x| ≤ 8 → |sinf x - Real.sin x| ≤ 1 / 2 ^ 23 ∧ |cosf x - Real.cos x| ≤ 1 / 2 ^ 23)
    (a : Anim Glide.Params Mat32) (ms : ℕ) (hp : GlideDeclared a.params)
    (hb : |a.params.target.tl.x| ≤ 8192 ∧ |a.params.target.tl.y| ≤ 8192 ∧ |a.params.target.br.x| ≤ 8192 ∧
      |a.params.target.br.y| ≤ 8192)
    (corners : Fin 4 → Pt) (i : Fin 4) (hc : |(corners i).x| ≤ 16384 ∧ |(corners i).y| ≤ 16384) :
    ∃ r x y z : ℝ, ((MM).glide.step a ms).1.progress = fin r ∧
      (MM).extremes ((MM).glide.step a ms).1 corners i = ⟨fin x, fin y, fin z, fin 1⟩ ∧
      |x - (glided a.params r (corners i)).x| ≤ 1 / 8 ∧ |y - (glided a.params r (corners i)).y| ≤ 1 / 8 ∧
      |z - (glided a.params r (corners i)).z| ≤ 1 / 8 := by
  obtain ⟨r, hr, h0, h1⟩ := clamp_inUnit (a.stepper.value ms)
  obtain ⟨⟨d0, d1⟩, ⟨xa0, xa1⟩, ⟨ya0, ya1⟩, ⟨xu0, xu1⟩, ⟨yu0, yu1⟩, hw⟩ := hp
  have idem := fun x y => idem_f R D sin sinf cosf (fin x) y
  have f0 : (MM).f (fin 0) = fin 0 := fix_zero R D sin sinf cosf
  have f1 : (MM).f (fin 1) = fin 1 := fix_one R D sin sinf cosf
  -- angles and rotations
  obtain ⟨α, eα, bα, sα⟩ := approx_angle R D sin sinf cosf (abs_le.2 ⟨by linarith, by linarith⟩ : |a.params.xRotationAngleDegrees| ≤ 360) h0 h1
  obtain ⟨β, eβ, bβ, sβ⟩ := approx_angle R D sin sinf cosf (abs_le.2 ⟨by linarith, by linarith⟩ : |a.params.yRotationAngleDegrees| ≤ 360) h0 h1
  obtain ⟨w1, k1, c1, s1, n1, hw1, hk1, hc1, hs1, hn1, bk1, bc1, bs1, bn1⟩ := rotation_entries R D sin sinf cosf hlib bα sα
  obtain ⟨w2, k2, c2, s2, n2, hw2, hk2, hc2, hs2, hn2, bk2, bc2, bs2, bn2⟩ := rotation_entries R D sin sinf cosf hlib bβ sβ
  set A := radians a.params.xRotationAngleDegrees * (1 - r) with hA
  set B := radians a.params.yRotationAngleDegrees * (1 - r) with hB
  have sn1 : |(-Real.sin A)| ≤ 1 := by rw [abs_neg]; exact Real.abs_sin_le_one _
  have sn2 : |(-Real.sin B)| ≤ 1 := by rw [abs_neg]; exact Real.abs_sin_le_one _
  have so : |(1 : ℝ)| ≤ 1 := by norm_num
  have sc1 := Real.abs_cos_le_one A
  have sc2 := Real.abs_cos_le_one B
  have ss1 := Real.abs_sin_le_one A
  have ss2 := Real.abs_sin_le_one B
  obtain ⟨p00, e00, b00, z00⟩ := glide_entry R D sin sinf cosf (t := 8 / 2 ^ 22) bk1 bc2 so sc2 (by norm_num) (by norm_num)
  obtain ⟨p02, e02, b02, z02⟩ := glide_entry R D sin sinf cosf (t := 8 / 2 ^ 22) bk1 bs2 so ss2 (by norm_num) (by norm_num)
  obtain ⟨p10, e10, b10, z10⟩ := glide_entry R D sin sinf cosf (t := 8 / 2 ^ 22) bn1 bn2 sn1 sn2 (by norm_num) (by norm_num)
  obtain ⟨p11, e11, b11, z11⟩ := glide_entry R D sin sinf cosf (t := 5 / 2 ^ 22) bc1 bk2 sc1 so (by norm_num) (by norm_num)
  obtain ⟨p12, e12, b12, z12⟩ := glide_entry R D sin sinf cosf (t := 8 / 2 ^ 22) bn1 bc2 sn1 sc2 (by norm_num) (by norm_num)
  obtain ⟨p20, e20, b20, z20⟩ := glide_entry R D sin sinf cosf (t := 8 / 2 ^ 22) bc1 bn2 sc1 sn2 (by norm_num) (by norm_num)
  obtain ⟨p21, e21, b21, z21⟩ := glide_entry R D sin sinf cosf (t := 5 / 2 ^ 22) bs1 bk2 ss1 so (by norm_num) (by norm_num)
  obtain ⟨p22, e22, b22, z22⟩ := glide_entry R D sin sinf cosf (t := 8 / 2 ^ 22) bc1 bc2 sc1 sc2 (by norm_num) (by norm_num)
  -- axis
  obtain ⟨ax, nx, eax, enx, bax, bnx, sax⟩ := axis_entries R D sin sinf cosf hb.1 hb.2.2.1 xu0 xu1
  obtain ⟨ay, ny, eay, eny, bay, bny, say⟩ := axis_entries R D sin sinf cosf hb.2.1 hb.2.2.2 yu0 yu1
  set AX := (a.params.target.br.x - a.params.target.tl.x) * a.params.xAxisLocationUnit with hAX
  set AY := (a.params.target.br.y - a.params.target.tl.y) * a.params.yAxisLocationUnit with hAY
  have snx : |(-AX)| ≤ 16384 := by rw [abs_neg]; exact sax
  have sny : |(-AY)| ≤ 16384 := by rw [abs_neg]; exact say
  -- distance
  have hd : |a.params.initialDistance| ≤ 1 := abs_le.2 ⟨by linarith, by linarith⟩
  have d2 : |1 - r| ≤ 1 := by rw [abs_le]; constructor <;> linarith
  have q1 := ((Approx.const (X := -1) (B := 1) (by norm_num)).mul (Approx.const hd)).single R 1 (by norm_num) (by norm_num) (by norm_num)
  have q2 := (Approx.const d2).single R 0 (by norm_num) (by norm_num) (by norm_num)
  have q3 := (q1.mul q2).single R 1 (by norm_num) (by norm_num) (by norm_num)
  obtain ⟨dz, edz, bdz, sdz⟩ := q3.weaken (B' := 16384) (e' := 1 / 1000) (q3.size.trans (by norm_num)) (by norm_num)
  have edz' : (MM).mul ((MM).mul (fin (-1)) (fin a.params.initialDistance)) ((MM).sub (fin 1) (fin r)) = fin dz := by
    rw [← edz]
    unfold Machine.mul Machine.sub
    rw [XR.fin_sub]
    rfl
  -- depth
  have hw' : (1 : ℝ) ≤ a.params.screenWidth := by exact_mod_cast hw
  have bv : |(-1 / a.params.screenWidth : ℝ)| ≤ 1 := by
    rw [abs_div, abs_neg, abs_one, abs_of_pos (by linarith), div_le_iff₀ (by linarith)]
    linarith
  have v1 := ((Approx.const bv).double D 1 (by norm_num) (by norm_num) (by norm_num)).single R 1 (by norm_num) (by norm_num) (by norm_num)
  obtain ⟨v, ev, cv, -⟩ := v1.weaken (e' := 1 / 2 ^ 20) v1.size (by norm_num)
  have ev' : (MM).f ((MM).divD (fin (-1)) (fin a.params.screenWidth)) = fin v := by
    rw [← ev]
    unfold Machine.divD
    rw [XR.fin_div _ (by linarith)]
    rfl
  -- corner
  have x1 := (Approx.const hc.1).single R 14 (by norm_num) (by norm_num) (by norm_num)
  obtain ⟨x, ex, bx, -⟩ := x1.weaken (e' := 1 / 2000) x1.size (by norm_num)
  have y1 := (Approx.const hc.2).single R 14 (by norm_num) (by norm_num) (by norm_num)
  obtain ⟨y, ey, bY, -⟩ := y1.weaken (e' := 1 / 2000) y1.size (by norm_num)
  -- rows
  obtain ⟨zx, ⟨rx⟩, bzx⟩ := glide_row R D sin sinf cosf b00 (p1 := 0) (P1 := 0) (by norm_num) b02 bax cv bnx bny bx bY z00 (by norm_num)
    z02 sax bv snx sny hc.1 hc.2
  obtain ⟨zy, ⟨ry⟩, bzy⟩ := glide_row R D sin sinf cosf b10 b11 b12 bay cv bnx bny bx bY z10 z11 z12 say bv snx sny hc.1 hc.2
  obtain ⟨zz, ⟨rz⟩, bzz⟩ := glide_row R D sin sinf cosf b20 b21 b22 bdz cv bnx bny bx bY z20 z21 z22 sdz bv snx sny hc.1 hc.2
  refine ⟨r, zx, zy, zz, hr, ?_, ?_, ?_, ?_⟩
  · show (MM).transformPoint (corners i) ((MM).glideTransform a.params (clamp (a.stepper.value ms) (fin 0) (fin 1))) = _
    rw [hr]
    unfold Machine.glideTransform Machine.perspective
    simp only [eα, eβ, eax, eay, enx, eny, edz', ev']
    rw [Machine.rotate_x f0 f1 idem rfl rfl hw1 hk1 hc1 hs1 hn1, Machine.rotate_y f0 f1 idem rfl rfl hw2 hk2 hc2 hs2 hn2,
      Machine.glide_head f0 f1 idem (idem_f R D sin sinf cosf _ _ eax) (idem_f R D sin sinf cosf _ _ eay)
        (idem_f R D sin sinf cosf _ _ edz) (idem _ _ hk1) (idem _ _ hc1) (idem _ _ hs1) (idem _ _ hn1) e00 e02 e10 e11 e12 e20 e21 e22]
    exact Machine.glide_tail f0 f1 idem (idem_f R D sin sinf cosf _ _ ev) (idem_f R D sin sinf cosf _ _ enx)
      (idem_f R D sin sinf cosf _ _ eny) ex ey (idem _ _ e00) f0 (idem _ _ e10) (idem _ _ e11) (idem _ _ e20) (idem _ _ e21)
      (idem_f R D sin sinf cosf _ _ eax) (idem_f R D sin sinf cosf _ _ eay) (idem_f R D sin sinf cosf _ _ edz) rx ry rz
  · convert bzx using 2
    simp only [glided, Spot3.shift, Spot3.turnVertical, Spot3.turnHorizontal]
    rw [← hAX, ← hB]
    ring
  · convert bzy using 2
    simp only [glided, Spot3.shift, Spot3.turnVertical, Spot3.turnHorizontal]
    rw [← hAX, ← hAY, ← hA, ← hB]
    ring
  · convert bzz using 2
    simp only [glided, Spot3.shift, Spot3.turnVertical, Spot3.turnHorizontal]
    rw [← hAX, ← hAY, ← hA, ← hB]
    ring

/-- The hypotheses are met by an ordinary animation. -/
example : ∃ g : Glide.Params, GlideDeclared g ∧ g.xRotationAngleDegrees ≠ 0 ∧
    (|g.target.tl.x| ≤ 8192 ∧ |g.target.tl.y| ≤ 8192 ∧ |g.target.br.x| ≤ 8192 ∧ |g.target.br.y| ≤ 8192) ∧
    ∀ x, |x| ≤ 8 → |Real.sin x - Real.sin x| ≤ 1 / 2 ^ 23 ∧ |Real.cos x - Real.cos x| ≤ 1 / 2 ^ 23 := by
  refine ⟨⟨-3 / 10, 45, -20, 1 / 5, 1 / 2, 1920, ⟨⟨10, 20⟩, ⟨310, 220⟩⟩⟩, ?_, by norm_num, by norm_num [abs_le], by norm_num⟩
  constructor <;> norm_num

end

end Verif.Props
