import Verif.Lemmas.Approx
import Verif.Props.TransformFloat

/-! # Rounding errors of Bounce and Zoom (C99, C100) -/

namespace Verif.Props

open XR (fin)
open Spec

noncomputable section

variable (R : Rounding) (D : Rounding64) (sin sinf cosf : ℝ → ℝ)

local notation "MM" => Machine.ieee R D sin sinf cosf

theorem idem_f (w : XR) (y : ℝ) (h : (MM).f w = fin y) : (MM).f (fin y) = fin y := by
  cases w with
  | fin x =>
    have h' : R.store x = fin y := h
    unfold Rounding.store at h'
    split_ifs at h' with hl
    · rw [XR.fin_inj] at h'
      rw [← h']
      exact R.result_single (R.single x) hl
    · unfold XR.signed at h'
      split_ifs at h'
  | nan => exact absurd h (by nofun)
  | ninf => exact absurd h (by nofun)
  | pinf => exact absurd h (by nofun)

/-- The middle of one side of a box, as `double`. -/
theorem approx_offset {lo hi : ℝ} (hlo : |lo| ≤ 8192) (hhi : |hi| ≤ 8192) :
    Approx ((MM).centerOffset (fin lo) (fin hi)) ((hi - lo) / 2) 8192 (1 / 2 ^ 38) := by
  have h1 := ((Approx.const hhi).sub (Approx.const hlo)).double D 14 (by norm_num) (by norm_num) (by norm_num)
  have h2 := h1.half.double D 14 (by norm_num) (by norm_num) (by norm_num)
  exact h2.weaken (h1.half.size.trans (by norm_num)) (by norm_num)

/-- One coordinate of a corner under a Bounce matrix. -/
theorem axis_accuracy {lo hi q s S : ℝ} (hlo : |lo| ≤ 8192) (hhi : |hi| ≤ 8192) (hq : |q| ≤ 16384) (hs : |s - S| ≤ 1 / 2 ^ 20)
    (hS : |S| ≤ 4) :
    ∃ c n u t x v z, (MM).f ((MM).centerOffset (fin lo) (fin hi)) = fin c ∧ (MM).f (fin c) = fin c ∧
      (MM).f ((MM).mulD (fin (-1)) ((MM).centerOffset (fin lo) (fin hi))) = fin n ∧ (MM).f (fin n) = fin n ∧
      (MM).f (fin (s * n)) = fin u ∧ (MM).f (fin (u + c)) = fin t ∧ (MM).f (fin q) = fin x ∧ (MM).f (fin (s * x)) = fin v ∧
      (MM).f (fin (v + t)) = fin z ∧ |z - ((hi - lo) / 2 + S * (q - (hi - lo) / 2))| ≤ 1 / 16 := by
  set C := (hi - lo) / 2 with hC
  have ho := approx_offset R D sin sinf cosf hlo hhi
  rw [← hC] at ho
  have hc := (ho.single R 14 (by norm_num) (by norm_num) (by norm_num)).weaken (e' := 1 / 2000) ho.size (by norm_num)
  have hm := (((Approx.const (X := -1) (B := 1) (by norm_num)).mul ho).double D 14 (by norm_num) (by norm_num) (by norm_num))
  have hn := (hm.single R 14 (by norm_num) (by norm_num) (by norm_num)).weaken (B' := 8192) (e' := 1 / 2000)
    (hm.size.trans (by norm_num)) (by norm_num)
  obtain ⟨c, ec, ac, bc⟩ := hc
  obtain ⟨n, en, an, bn⟩ := hn
  have as : Approx (fin s) S 4 (1 / 2 ^ 20) := ⟨s, rfl, hs, hS⟩
  have ac' : Approx (fin c) C 8192 (1 / 2000) := ⟨c, rfl, ac, bc⟩
  have hu := (as.mul ⟨n, rfl, an, bn⟩).single R 16 (by norm_num) (by norm_num) (by norm_num)
  obtain ⟨u, eu, au, bu⟩ := hu.weaken (e' := 0.0119) hu.size (by norm_num)
  have ht := (Approx.add ⟨u, rfl, au, bu⟩ ac').single R 16 (by norm_num) (by norm_num) (by norm_num)
  obtain ⟨t, et, at_, bt⟩ := ht.weaken (e' := 0.0145) ht.size (by norm_num)
  have hx := (Approx.const hq).single R 14 (by norm_num) (by norm_num) (by norm_num)
  obtain ⟨x, ex, ax, bx⟩ := hx.weaken (e' := 0.0005) hx.size (by norm_num)
  have hv := (as.mul ⟨x, rfl, ax, bx⟩).single R 17 (by norm_num) (by norm_num) (by norm_num)
  obtain ⟨v, ev, av, bv⟩ := hv.weaken (e' := 0.0219) hv.size (by norm_num)
  have hz := (Approx.add ⟨v, rfl, av, bv⟩ ⟨t, rfl, at_, bt⟩).single R 17 (by norm_num) (by norm_num) (by norm_num)
  obtain ⟨z, ez, az, -⟩ := hz
  refine ⟨c, n, u, t, x, v, z, ec, idem_f R D sin sinf cosf _ _ ec, en, idem_f R D sin sinf cosf _ _ en, eu, et, ex, ev, ez, ?_⟩
  rw [show C + S * (q - C) = S * q + (S * (-1 * C) + C) by ring]
  exact az.trans (by norm_num)

/-- The scale factor of a Bounce. -/
theorem bounce_scale_accuracy {r i mx : ℝ} {n : ℕ} (h0 : 0 ≤ r) (h1 : r ≤ 1) (hi0 : 0 ≤ i) (hi2 : i ≤ 2) (hm0 : 0 ≤ mx)
    (hm2 : mx ≤ 2) (hn : n ≤ 1000) (hsin : ∀ x, |x| ≤ 2 ^ 20 → |sin x - Real.sin x| ≤ 1 / 2 ^ 30) :
    ∃ s, (MM).bounceScale (fin r) i mx n = fin s ∧ (MM).f (fin s) = fin s ∧
      |s - (lerp r i 1 + (mx - i) * (1 - r) * Real.sin (r * Real.pi * n))| ≤ 1 / 2 ^ 20 ∧
      |lerp r i 1 + (mx - i) * (1 - r) * Real.sin (r * Real.pi * n)| ≤ 4 := by
  have hr : |r| ≤ 1 := by rw [abs_le]; constructor <;> linarith
  have hpi : |Real.pi| ≤ 4 := by
    rw [abs_of_pos Real.pi_pos]
    exact Real.pi_le_four
  have a1 := ((Approx.const hr).mul ⟨mPi, rfl, mPi_near, hpi⟩).double D 3 (by norm_num) (by norm_num) (by norm_num)
  have a1' := a1.weaken (B' := 4) (e' := 1 / 2 ^ 49) (a1.size.trans (by norm_num)) (by norm_num)
  have hn' : |(n : ℝ)| ≤ 1000 := by
    rw [abs_of_nonneg (by positivity)]
    exact_mod_cast hn
  have a2 := (a1'.mul (Approx.const hn')).double D 13 (by norm_num) (by norm_num) (by norm_num)
  obtain ⟨x, ex, ax, bx⟩ := a2.weaken (B' := 4000) (e' := 1 / 2 ^ 37) (a2.size.trans (by norm_num)) (by norm_num)
  have hx : |x| ≤ 2 ^ 20 := by
    have := abs_add_le (x - r * Real.pi * n) (r * Real.pi * n)
    rw [sub_add_cancel] at this
    norm_num at *
    linarith
  have asine : Approx (Machine.call sin ((MM).mulD ((MM).mulD (fin r) (fin mPi)) (fin n))) (Real.sin (r * Real.pi * n)) 1 (1 / 2 ^ 29) := by
    refine ⟨sin x, ?_, ?_, Real.abs_sin_le_one _⟩
    · have : (MM).mulD ((MM).mulD (fin r) (fin mPi)) (fin n) = fin x := ex
      rw [this]
      rfl
    · have h2 := hsin x hx
      have h3 : |Real.sin x - Real.sin (r * Real.pi * n)| ≤ |x - r * Real.pi * n| := Real.abs_sin_sub_sin_le _ _
      have := abs_add_le (sin x - Real.sin x) (Real.sin x - Real.sin (r * Real.pi * n))
      rw [sub_add_sub_cancel] at this
      norm_num at *
      linarith
  have bsine := asine.single R 1 (by norm_num) (by norm_num) (by norm_num)
  have d1 : |mx - i| ≤ 2 := by rw [abs_le]; constructor <;> linarith
  have d2 : |1 - r| ≤ 1 := by rw [abs_le]; constructor <;> linarith
  have d3 : |1 - i| ≤ 1 := by rw [abs_le]; constructor <;> linarith
  have d4 : |i + (1 - i) * r| ≤ 2 := by
    rw [abs_le]
    constructor <;> nlinarith
  have b1 := (Approx.const d1).single R 1 (by norm_num) (by norm_num) (by norm_num)
  have b2 := (Approx.const d2).single R 0 (by norm_num) (by norm_num) (by norm_num)
  have b3 := (b1.mul b2).single R 2 (by norm_num) (by norm_num) (by norm_num)
  have b4 := (b3.mul bsine).single R 2 (by norm_num) (by norm_num) (by norm_num)
  have c1 := (Approx.const d3).single R 0 (by norm_num) (by norm_num) (by norm_num)
  have c2 := (c1.mul (Approx.const hr)).single R 1 (by norm_num) (by norm_num) (by norm_num)
  have di : |i| ≤ 2 := by rw [abs_le]; constructor <;> linarith
  have c3 := (((Approx.const di).add c2).weaken d4 le_rfl).single R 2 (by norm_num) (by norm_num) (by norm_num)
  have e1 := (c3.add b4).single R 3 (by norm_num) (by norm_num) (by norm_num)
  have e2 := e1.weaken (B' := 4) (e' := 1 / 2 ^ 20) (e1.size.trans (by norm_num)) (by norm_num)
  obtain ⟨s, es, as, bs⟩ := e2
  have hl : lerp r i 1 = i + (1 - i) * r := by
    unfold lerp
    ring
  rw [hl]
  refine ⟨s, ?_, idem_f R D sin sinf cosf _ _ es, as, bs⟩
  rw [← es]
  unfold Machine.bounceScale Machine.sampleSineWave Machine.sub Machine.add Machine.mul
  simp only [XR.fin_sub]
  rfl

/-- **C99.** After every step of a Bounce with scales between 0 and 2 and box coordinates of at most 8192, every corner is
within 1/16 pixel of where exact arithmetic puts it: scaled about the middle of the target by the damped sine. -/
theorem C99_bounce (hsin : ∀ x, |x| ≤ 2 ^ 20 → |sin x - Real.sin x| ≤ 1 / 2 ^ 30) (a : Anim Bounce.Params Mat32) (ms : ℕ)
    (hi0 : 0 ≤ a.params.initialScale) (hi2 : a.params.initialScale ≤ 2) (hm0 : 0 ≤ a.params.maximumScale)
    (hm2 : a.params.maximumScale ≤ 2) (hn : a.params.nBounce ≤ 1000)
    (hb : |a.params.target.tl.x| ≤ 8192 ∧ |a.params.target.tl.y| ≤ 8192 ∧ |a.params.target.br.x| ≤ 8192 ∧
      |a.params.target.br.y| ≤ 8192)
    (corners : Fin 4 → Pt) (i : Fin 4) (hc : |(corners i).x| ≤ 16384 ∧ |(corners i).y| ≤ 16384) :
    ∃ r S x y : ℝ, ((MM).bounce.step a ms).1.progress = fin r ∧
      S = lerp r a.params.initialScale 1 + (a.params.maximumScale - a.params.initialScale) * (1 - r) *
        Real.sin (r * Real.pi * a.params.nBounce) ∧
      (MM).extremes ((MM).bounce.step a ms).1 corners i = ⟨fin x, fin y, fin 0, fin 1⟩ ∧
      |x - ((middle a.params.target).x + S * ((corners i).x - (middle a.params.target).x))| ≤ 1 / 16 ∧
      |y - ((middle a.params.target).y + S * ((corners i).y - (middle a.params.target).y))| ≤ 1 / 16 := by
  obtain ⟨r, hr, h0, h1⟩ := clamp_inUnit (a.stepper.value ms)
  obtain ⟨s, es, fs, as, bs⟩ := bounce_scale_accuracy R D sin sinf cosf h0 h1 hi0 hi2 hm0 hm2 hn hsin
  obtain ⟨cx, nx, ux, tx, qx, vx, zx, a1, a2, a3, a4, a5, a6, a7, a8, a9, a10⟩ :=
    axis_accuracy R D sin sinf cosf hb.1 hb.2.2.1 hc.1 as bs
  obtain ⟨cy, ny, uy, ty, qy, vy, zy, b1, b2, b3, b4, b5, b6, b7, b8, b9, b10⟩ :=
    axis_accuracy R D sin sinf cosf hb.2.1 hb.2.2.2 hc.2 as bs
  refine ⟨r, _, zx, zy, hr, rfl, ?_, a10, b10⟩
  show (MM).transformPoint (corners i) ((MM).bounceTransform a.params (clamp (a.stepper.value ms) (fin 0) (fin 1))) = _
  rw [hr]
  unfold Machine.bounceTransform
  simp only [es, a1, a3, b1, b3]
  exact Machine.center_point (fix_zero R D sin sinf cosf) (fix_one R D sin sinf cosf) (fun x y => idem_f R D sin sinf cosf _ _)
    fs fs a2 b2 a4 b4 a5 b5 a6 b6 a7 b7 a8 b8 a9 b9

/-- The hypotheses are met by an ordinary animation. -/
example : ∃ p : Bounce.Params, 0 ≤ p.initialScale ∧ p.initialScale ≤ 2 ∧ 0 ≤ p.maximumScale ∧ p.maximumScale ≤ 2 ∧ p.nBounce ≤ 1000 ∧
    (|p.target.tl.x| ≤ 8192 ∧ |p.target.tl.y| ≤ 8192 ∧ |p.target.br.x| ≤ 8192 ∧ |p.target.br.y| ≤ 8192) ∧
    ∀ x, |x| ≤ 2 ^ 20 → |Real.sin x - Real.sin x| ≤ 1 / 2 ^ 30 :=
  ⟨⟨1 / 4, 3 / 2, 3, ⟨⟨10, 20⟩, ⟨310, 220⟩⟩⟩, by norm_num, by norm_num, by norm_num, by norm_num, by norm_num, by norm_num [abs_le],
    by norm_num⟩

/-! ## Zoom -/

/-- The scale factor of one side of a Zoom: its error is small in pixels of the target. -/
theorem zoom_factor_accuracy {lo hi lo' hi' r : ℝ} (h0 : 0 ≤ r) (h1 : r ≤ 1) (hlo : |lo| ≤ 8192) (hhi : |hi| ≤ 8192)
    (hlo' : |lo'| ≤ 8192) (hhi' : |hi'| ≤ 8192) (hW : 1 ≤ |hi' - lo'|) :
    ∃ s, (MM).f ((MM).divD ((MM).addD ((MM).mulD ((MM).subD (fin hi') (fin lo')) (fin r))
        ((MM).mulD ((MM).subD (fin hi) (fin lo)) ((MM).subD (fin 1) (fin r)))) ((MM).subD (fin hi') (fin lo'))) = fin s ∧
      |s - ((hi' - lo') * r + (hi - lo) * (1 - r)) / (hi' - lo')| * |hi' - lo'| ≤ 1 / 2 ^ 9 := by
  set W := hi' - lo' with hWd
  set N := W * r + (hi - lo) * (1 - r) with hN
  have hr : |r| ≤ 1 := by rw [abs_le]; constructor <;> linarith
  have d2 : |1 - r| ≤ 1 := by rw [abs_le]; constructor <;> linarith
  have bN : |N| ≤ 16384 := by
    have a := abs_sub hi' lo'
    have b := abs_sub hi lo
    have hw1 : |W| ≤ 16384 := by linarith
    have hw2 : |hi - lo| ≤ 16384 := by linarith
    rw [abs_le] at *
    constructor <;> nlinarith
  have aW := ((Approx.const hhi').sub (Approx.const hlo')).double D 14 (by norm_num) (by norm_num) (by norm_num)
  have aw := ((Approx.const hhi).sub (Approx.const hlo)).double D 14 (by norm_num) (by norm_num) (by norm_num)
  have a1 := (Approx.const d2).double D 0 (by norm_num) (by norm_num) (by norm_num)
  have a2 := (aW.mul (Approx.const hr)).double D 15 (by norm_num) (by norm_num) (by norm_num)
  have a3 := (aw.mul a1).double D 15 (by norm_num) (by norm_num) (by norm_num)
  have a4 := ((a2.add a3).weaken (B' := 16384) bN le_rfl).double D 15 (by norm_num) (by norm_num) (by norm_num)
  obtain ⟨n, en, an, -⟩ := a4.weaken (e' := 1 / 2 ^ 36) bN (by norm_num)
  obtain ⟨w, ew, bw, sw⟩ := aW.weaken (B' := 16384) (e' := 1 / 2 ^ 39) (aW.size.trans (by norm_num)) (by norm_num)
  replace bw : |w - W| ≤ 1 / 2 ^ 39 := bw
  replace an : |n - N| ≤ 1 / 2 ^ 36 := an
  clear_value W N
  have hw : 1 / 2 ≤ |w| := by
    have := abs_sub_abs_le_abs_sub W w
    rw [abs_sub_comm W w] at this
    norm_num at *
    linarith
  have hw0 : w ≠ 0 := by
    intro h
    norm_num [h] at hw
  have hW0 : W ≠ 0 := by
    intro h
    norm_num [h] at hW
  have k1 : |n / w - N / W| * |W| ≤ 1 / 2 ^ 23 := by
    have e : (n / w - N / W) * W = ((n - N) * W - N * (w - W)) / w := by
      field_simp
      ring
    rw [← abs_mul, e, abs_div, div_le_iff₀ (by linarith)]
    refine (abs_sub _ _).trans ?_
    rw [abs_mul, abs_mul]
    have t1 : |n - N| * |W| ≤ 1 / 2 ^ 36 * (2 * |w|) := by
      refine mul_le_mul an ?_ (abs_nonneg _) (by positivity)
      have := abs_sub_abs_le_abs_sub W w
      rw [abs_sub_comm W w] at this
      norm_num at *
      linarith
    have t2 : |N| * |w - W| ≤ 16384 * (1 / 2 ^ 39) := mul_le_mul bN bw (abs_nonneg _) (by norm_num)
    norm_num at *
    linarith
  have hNW : |N / W| * |W| = |N| := by rw [← abs_mul, div_mul_cancel₀ _ hW0]
  have bs : |N / W| ≤ 16384 := by nlinarith [abs_nonneg (N / W)]
  have k2 : |n / w - N / W| ≤ 1 / 2 ^ 23 := by nlinarith [abs_nonneg (n / w - N / W)]
  have a5 : Approx ((MM).divD ((MM).addD ((MM).mulD ((MM).subD (fin hi') (fin lo')) (fin r))
        ((MM).mulD ((MM).subD (fin hi) (fin lo)) ((MM).subD (fin 1) (fin r)))) ((MM).subD (fin hi') (fin lo'))) (n / w) 16385
        (2 ^ ((15 : ℤ) - 54)) := by
    have e1 : (MM).addD ((MM).mulD ((MM).subD (fin hi') (fin lo')) (fin r))
        ((MM).mulD ((MM).subD (fin hi) (fin lo)) ((MM).subD (fin 1) (fin r))) = fin n := by
      rw [← en]
      unfold Machine.addD Machine.mulD Machine.subD
      simp only [XR.fin_sub]
      rfl
    have e2 : (MM).subD (fin hi') (fin lo') = fin w := ew
    rw [e1, e2]
    have b : |n / w| ≤ 16385 := by
      have := abs_add_le (n / w - N / W) (N / W)
      rw [sub_add_cancel] at this
      norm_num at *
      linarith
    have := (Approx.const b).double D 15 (by norm_num) (by norm_num) (by norm_num)
    rw [zero_add] at this
    unfold Machine.divD
    rw [XR.fin_div n hw0]
    exact this
  obtain ⟨m, em, am, bm⟩ := a5
  rw [em]
  have bm' : |m| ≤ 16386 := by
    have := abs_add_le (m - n / w) (n / w)
    rw [sub_add_cancel] at this
    norm_num at *
    linarith
  refine ⟨R.rnd m, R.result_of_le (bm'.trans (by norm_num)), ?_⟩
  have k3 := R.error_rel m
  have hWb : |W| ≤ 16384 := hWd ▸ sw
  have k4 : |m - n / w| * |W| ≤ 1 / 2 ^ 25 := by
    have := mul_le_mul am hWb (abs_nonneg _) (by positivity)
    norm_num at *
    linarith
  have k5 : |m - N / W| * |W| ≤ 1 / 2 ^ 22 := by
    have := abs_add_le (m - n / w) (n / w - N / W)
    rw [sub_add_sub_cancel] at this
    have := mul_le_mul_of_nonneg_right this (abs_nonneg W)
    norm_num at *
    linarith
  have k6 : |m| * |W| ≤ 16385 := by
    have := abs_add_le (m - N / W) (N / W)
    rw [sub_add_cancel] at this
    have := mul_le_mul_of_nonneg_right this (abs_nonneg W)
    norm_num at *
    linarith
  have k7 : |R.rnd m - m| * |W| ≤ 16385 / 2 ^ 24 + 1 / 2 ^ 100 := by
    have h1 := mul_le_mul_of_nonneg_right k3 (abs_nonneg W)
    have h2 : (|m| / 2 ^ 24 + 1 / 2 ^ 150) * |W| = |m| * |W| / 2 ^ 24 + 1 / 2 ^ 150 * |W| := by ring
    rw [h2] at h1
    norm_num at *
    linarith
  have := abs_add_le (R.rnd m - m) (m - N / W)
  rw [sub_add_sub_cancel] at this
  have := mul_le_mul_of_nonneg_right this (abs_nonneg W)
  norm_num at *
  linarith

/-- One coordinate of a corner under a Zoom matrix. -/
theorem zoom_axis_accuracy {lo hi lo' hi' r q : ℝ} (h0 : 0 ≤ r) (h1 : r ≤ 1) (hlo : |lo| ≤ 8192) (hhi : |hi| ≤ 8192)
    (hlo' : |lo'| ≤ 8192) (hhi' : |hi'| ≤ 8192) (hW : 1 ≤ |hi' - lo'|) (hq : |q| ≤ |hi' - lo'|) :
    ∃ s c n d w u t x v z, (MM).f ((MM).divD ((MM).addD ((MM).mulD ((MM).subD (fin hi') (fin lo')) (fin r))
        ((MM).mulD ((MM).subD (fin hi) (fin lo)) ((MM).subD (fin 1) (fin r)))) ((MM).subD (fin hi') (fin lo'))) = fin s ∧
      (MM).f (fin s) = fin s ∧
      (MM).f ((MM).centerOffset (fin lo') (fin hi')) = fin c ∧ (MM).f (fin c) = fin c ∧
      (MM).f ((MM).mulD (fin (-1)) ((MM).centerOffset (fin lo') (fin hi'))) = fin n ∧ (MM).f (fin n) = fin n ∧
      (MM).f ((MM).mulD ((MM).subD ((MM).center (fin lo) (fin hi)) ((MM).center (fin lo') (fin hi')))
        ((MM).sub (fin 1) (fin r))) = fin d ∧ (MM).f (fin d) = fin d ∧
      (MM).f (fin (c + d)) = fin w ∧
      (MM).f (fin (s * n)) = fin u ∧ (MM).f (fin (u + w)) = fin t ∧ (MM).f (fin q) = fin x ∧ (MM).f (fin (s * x)) = fin v ∧
      (MM).f (fin (v + t)) = fin z ∧ |z - (lerp (q / (hi' - lo')) (lerp r lo lo') (lerp r hi hi') - lo')| ≤ 1 / 32 := by
  obtain ⟨s, es, as⟩ := zoom_factor_accuracy R D sin sinf cosf h0 h1 hlo hhi hlo' hhi' hW
  set W := hi' - lo' with hWd
  set N := W * r + (hi - lo) * (1 - r) with hN
  have hW0 : W ≠ 0 := by
    intro h
    norm_num [h] at hW
  have hWb : |W| ≤ 16384 := (abs_sub hi' lo').trans (by linarith)
  have d2 : |1 - r| ≤ 1 := by rw [abs_le]; constructor <;> linarith
  have bN : |N| ≤ 16384 := by
    have b := abs_sub hi lo
    have hw2 : |hi - lo| ≤ 16384 := by linarith
    rw [abs_le] at *
    constructor <;> nlinarith
  have hNW : |N / W| * |W| = |N| := by rw [← abs_mul, div_mul_cancel₀ _ hW0]
  set S := N / W with hS
  have ho := approx_offset R D sin sinf cosf hlo' hhi'
  have hof := approx_offset R D sin sinf cosf hlo hhi
  rw [← hWd] at ho
  -- the middle, negated, with a relative error
  have hm := (((Approx.const (X := -1) (B := 1) (by norm_num)).mul ho).double D 14 (by norm_num) (by norm_num) (by norm_num))
  obtain ⟨m, em, am, bm⟩ := hm.weaken (B' := 8192) (e' := 1 / 2 ^ 37) (hm.size.trans (by norm_num)) (by norm_num)
  have hWh : |-1 * (W / 2)| = |W| / 2 := by
    rw [abs_mul, abs_div]
    norm_num
  have am' : |m| ≤ |W| / 2 + 1 / 2 ^ 37 := by
    have := abs_add_le (m - -1 * (W / 2)) (-1 * (W / 2))
    rw [sub_add_cancel] at this
    linarith
  have en : (MM).f ((MM).mulD (fin (-1)) ((MM).centerOffset (fin lo') (fin hi'))) = fin (R.rnd m) := by
    have : (MM).mulD (fin (-1)) ((MM).centerOffset (fin lo') (fin hi')) = fin m := em
    rw [this]
    refine R.result_of_le (am'.trans ?_)
    norm_num at *
    linarith
  set n := R.rnd m with hn
  have an : |n - -1 * (W / 2)| ≤ |W| / 2 ^ 24 := by
    have h2 := R.error_rel m
    have := abs_add_le (n - m) (m - -1 * (W / 2))
    rw [sub_add_sub_cancel] at this
    norm_num at *
    linarith
  -- the corner, with a relative error
  have ex : (MM).f (fin q) = fin (R.rnd q) := R.result_of_le ((hq.trans hWb).trans (by norm_num))
  set x := R.rnd q with hx
  have ax : |x - q| ≤ |W| / 2 ^ 23 := by
    have h2 := R.error_rel q
    norm_num at *
    linarith
  have prod : ∀ {y Y : ℝ}, |y - Y| ≤ |W| / 2 ^ 23 → |Y| ≤ |W| → |s * y - S * Y| ≤ 5 / 2 ^ 10 := by
    intro y Y h2 h3
    have hy : |y| ≤ 2 * |W| := by
      have := abs_add_le (y - Y) Y
      rw [sub_add_cancel] at this
      norm_num at *
      linarith
    rw [show s * y - S * Y = (s - S) * Y + (s - S) * (y - Y) + S * (y - Y) by ring]
    refine (abs_add_three _ _ _).trans ?_
    rw [abs_mul, abs_mul, abs_mul]
    have t1 : |s - S| * |Y| ≤ 1 / 2 ^ 9 := (mul_le_mul_of_nonneg_left h3 (abs_nonneg _)).trans as
    have t2 : |s - S| * |y - Y| ≤ 1 / 2 ^ 9 / 2 ^ 23 := by
      refine (mul_le_mul_of_nonneg_left h2 (abs_nonneg _)).trans ?_
      rw [← mul_div_assoc]
      gcongr
    have t3 : |S| * |y - Y| ≤ 16384 / 2 ^ 23 := by
      refine (mul_le_mul_of_nonneg_left h2 (abs_nonneg _)).trans ?_
      rw [← mul_div_assoc, hNW]
      gcongr
    norm_num at *
    linarith
  have au : Approx (fin (s * n)) (S * (-1 * (W / 2))) 8192 (5 / 2 ^ 10) := by
    refine ⟨_, rfl, prod (an.trans ?_) ?_, ?_⟩
    · gcongr <;> norm_num
    · rw [hWh]
      linarith [abs_nonneg W]
    · rw [abs_mul, hWh]
      linarith
  have av : Approx (fin (s * x)) (S * q) 16384 (5 / 2 ^ 10) := by
    refine ⟨_, rfl, prod ax hq, ?_⟩
    rw [abs_mul]
    exact (mul_le_mul_of_nonneg_left hq (abs_nonneg _)).trans (hNW.le.trans bN)
  -- the translation
  have ac1 := ((Approx.const hlo).add hof).double D 15 (by norm_num) (by norm_num) (by norm_num)
  have ac2 := ((Approx.const hlo').add ho).double D 15 (by norm_num) (by norm_num) (by norm_num)
  have mid : ∀ {a b : ℝ}, |a| ≤ 8192 → |b| ≤ 8192 → |a + (b - a) / 2| ≤ 8192 := by
    intro a b ha hb
    rw [abs_le] at *
    constructor <;> linarith
  have ad0 := ((ac1.weaken (mid hlo hhi) le_rfl).sub (ac2.weaken (mid hlo' hhi') le_rfl)).double D 15 (by norm_num) (by norm_num) (by norm_num)
  have ar := (Approx.const d2).single R 0 (by norm_num) (by norm_num) (by norm_num)
  have ad1 := (ad0.mul ar).double D 15 (by norm_num) (by norm_num) (by norm_num)
  have ad := ad1.single R 15 (by norm_num) (by norm_num) (by norm_num)
  obtain ⟨d, ed, bd, sd⟩ := ad.weaken (B' := 16384) (e' := 1 / 2 ^ 9) (ad.size.trans (by norm_num)) (by norm_num)
  have hc := (ho.single R 14 (by norm_num) (by norm_num) (by norm_num)).weaken (e' := 1 / 2000) ho.size (by norm_num)
  obtain ⟨c, ec, bc, sc⟩ := hc
  have aw := (Approx.add ⟨c, rfl, bc, sc⟩ ⟨d, rfl, bd, sd⟩).single R 15 (by norm_num) (by norm_num) (by norm_num)
  obtain ⟨w, ew, bw, sw⟩ := aw.weaken (e' := 4 / 2 ^ 10) aw.size (by norm_num)
  have au' := au.single R 14 (by norm_num) (by norm_num) (by norm_num)
  obtain ⟨u, eu, bu, su⟩ := au'.weaken (e' := 6 / 2 ^ 10) au'.size (by norm_num)
  have at_ := (Approx.add ⟨u, rfl, bu, su⟩ ⟨w, rfl, bw, sw⟩).single R 16 (by norm_num) (by norm_num) (by norm_num)
  obtain ⟨t, et, bt, st⟩ := at_.weaken (e' := 12 / 2 ^ 10) at_.size (by norm_num)
  have av' := av.single R 15 (by norm_num) (by norm_num) (by norm_num)
  obtain ⟨v, ev, bv, sv⟩ := av'.weaken (e' := 6 / 2 ^ 10) av'.size (by norm_num)
  have az := (Approx.add ⟨v, rfl, bv, sv⟩ ⟨t, rfl, bt, st⟩).single R 16 (by norm_num) (by norm_num) (by norm_num)
  obtain ⟨z, ez, bz, -⟩ := az
  refine ⟨s, c, n, d, w, u, t, x, v, z, es, idem_f R D sin sinf cosf _ _ es, ec, idem_f R D sin sinf cosf _ _ ec, en,
    idem_f R D sin sinf cosf _ _ en, ?_, idem_f R D sin sinf cosf _ _ ed, ew, eu, et, ex, ev, ez, ?_⟩
  · rw [← ed]
    unfold Machine.center Machine.sub
    simp only [XR.fin_sub]
    rfl
  · have e : lerp (q / W) (lerp r lo lo') (lerp r hi hi') - lo' =
        S * q + (S * (-1 * (W / 2)) + (W / 2 + (lo + (hi - lo) / 2 - (lo' + (hi' - lo') / 2)) * (1 - r))) := by
      have hW' : W ≠ 0 := hW0
      rw [hS, hN]
      unfold lerp
      field_simp
      rw [hWd]
      ring
    rw [e]
    exact bz.trans (by norm_num)

/-- **C100.** After every step of a Zoom between boxes with coordinates of at most 8192, the target at least a pixel wide
and high, every corner of the surface is within 1/32 pixel of where exact arithmetic puts it. -/
theorem C100_zoom (a : Anim Machine.ZoomParams Mat32) (f t : Box) (hp : a.params = ⟨Machine.ofBox f, Machine.ofBox t⟩) (ms : ℕ)
    (hf : |f.tl.x| ≤ 8192 ∧ |f.tl.y| ≤ 8192 ∧ |f.br.x| ≤ 8192 ∧ |f.br.y| ≤ 8192)
    (ht : |t.tl.x| ≤ 8192 ∧ |t.tl.y| ≤ 8192 ∧ |t.br.x| ≤ 8192 ∧ |t.br.y| ≤ 8192)
    (hs : 1 ≤ |t.br.x - t.tl.x| ∧ 1 ≤ |t.br.y - t.tl.y|)
    (corners : Fin 4 → Pt) (i : Fin 4)
    (hc : |(corners i).x| ≤ |t.br.x - t.tl.x| ∧ |(corners i).y| ≤ |t.br.y - t.tl.y|) :
    ∃ r x y : ℝ, ((MM).zoom.step a ms).1.progress = fin r ∧
      (MM).extremes ((MM).zoom.step a ms).1 corners i = ⟨fin x, fin y, fin 0, fin 1⟩ ∧
      |x - (between r f t (corners i)).x| ≤ 1 / 32 ∧ |y - (between r f t (corners i)).y| ≤ 1 / 32 := by
  obtain ⟨r, hr, h0, h1⟩ := clamp_inUnit (a.stepper.value ms)
  obtain ⟨s, c, n, d, w, u, t', x, v, z, a1, a2, a3, a4, a5, a6, a7, a8, a9, a10, a11, a12, a13, a14, a15⟩ :=
    zoom_axis_accuracy R D sin sinf cosf h0 h1 hf.1 hf.2.2.1 ht.1 ht.2.2.1 hs.1 hc.1
  obtain ⟨s', c', n', d', w', u', t'', x', v', z', b1, b2, b3, b4, b5, b6, b7, b8, b9, b10, b11, b12, b13, b14, b15⟩ :=
    zoom_axis_accuracy R D sin sinf cosf h0 h1 hf.2.1 hf.2.2.2 ht.2.1 ht.2.2.2 hs.2 hc.2
  refine ⟨r, z, z', hr, ?_, a15, b15⟩
  show (MM).transformPoint (corners i) ((MM).zoomTransform a.params.frm a.params.dst (clamp (a.stepper.value ms) (fin 0) (fin 1))) = _
  rw [hr, hp]
  unfold Machine.zoomTransform
  simp only [Machine.ofBox, a1, a3, a5, a7, b1, b3, b5, b7]
  exact Machine.zoom_point (fix_zero R D sin sinf cosf) (fix_one R D sin sinf cosf) (fun x y => idem_f R D sin sinf cosf _ _)
    a2 b2 a4 b4 a6 b6 a8 b8 a9 b9 a10 b10 a11 b11 a12 b12 a13 b13 a14 b14

/-- The hypotheses are met by the constructor. -/
example (s : Stepper) : ((MM).zoomNew ⟨⟨0, 0⟩, ⟨20, 10⟩⟩ ⟨⟨100, 50⟩, ⟨500, 400⟩⟩ s).1.params =
    ⟨Machine.ofBox ⟨⟨0, 0⟩, ⟨20, 10⟩⟩, Machine.ofBox ⟨⟨100, 50⟩, ⟨500, 400⟩⟩⟩ := by
  show Machine.ZoomParams.mk ((MM).ensureNonZeroArea _) ((MM).ensureNonZeroArea _) = _
  norm_num [Machine.ensureNonZeroArea, Machine.ofBox, Machine.widen]

end

end Verif.Props
