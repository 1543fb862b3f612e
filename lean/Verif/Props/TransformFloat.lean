import Verif.Lemmas.TransformFloat
import Verif.Lemmas.HalfEven
import Verif.Props.Progress
import Verif.Spec.Float

/-! # Transforms in single precision (C98) -/

namespace Verif.Props

open XR (fin)
open Spec

noncomputable section

theorem halfEven_usual : Usual halfEven := ⟨halfEven_neg, halfEven_below_one⟩

variable (R : Rounding) (D : Rounding64) (sin sinf cosf : ℝ → ℝ)

local notation "MM" => Machine.ieee R D sin sinf cosf

theorem fix_of {x : ℝ} (hs : Single x) (h : |x| ≤ 2 ^ 127) : Machine.Fix (MM) x :=
  R.result_single hs (lt_of_le_of_lt h (by norm_num))

theorem fix_zero : Machine.Fix (MM) 0 := fix_of R D sin sinf cosf single_zero (by norm_num)

theorem fix_one : Machine.Fix (MM) 1 := fix_of R D sin sinf cosf single_one (by norm_num)

theorem rnd_le {x : ℝ} (h : |x| ≤ 2 ^ 127) : |R.rnd x| ≤ 2 ^ 127 := by
  have := R.abs_le_pow (x := x) (k := 127) (by norm_num) (by exact_mod_cast h)
  exact_mod_cast this

theorem fix_rnd {x : ℝ} (h : |x| ≤ 2 ^ 127) : Machine.Fix (MM) (R.rnd x) :=
  fix_of R D sin sinf cosf (R.single x) (rnd_le R h)

theorem f_fin {x : ℝ} (h : |x| ≤ 2 ^ 127) : (MM).f (fin x) = fin (R.rnd x) := R.result_of_le h

theorem d_fin {x : ℝ} {n : ℕ} (hn : n ≤ 1023) (h : |x| ≤ 2 ^ n) :
    (MM).d (fin x) = fin (D.rnd x) ∧ |D.rnd x| ≤ 2 ^ n := by
  have := D.result_of_le (x := x) (k := n) (by omega) (by omega) (by rw [zpow_natCast]; exact h)
  rw [zpow_natCast] at this
  exact this

theorem subD_fin {x y : ℝ} {n : ℕ} (hn : n ≤ 1022) (hx : |x| ≤ 2 ^ n) (hy : |y| ≤ 2 ^ n) :
    (MM).subD (fin x) (fin y) = fin (D.rnd (x - y)) ∧ |D.rnd (x - y)| ≤ 2 ^ (n + 1) := by
  have : |x - y| ≤ 2 ^ (n + 1) := by
    have := abs_sub x y
    rw [pow_succ]
    linarith
  unfold Machine.subD
  rw [XR.fin_sub]
  exact d_fin R D sin sinf cosf (by omega) this

theorem addD_fin {x y : ℝ} {n : ℕ} (hn : n ≤ 1022) (hx : |x| ≤ 2 ^ n) (hy : |y| ≤ 2 ^ n) :
    (MM).addD (fin x) (fin y) = fin (D.rnd (x + y)) ∧ |D.rnd (x + y)| ≤ 2 ^ (n + 1) := by
  have : |x + y| ≤ 2 ^ (n + 1) := by
    have := abs_add_le x y
    rw [pow_succ]
    linarith
  unfold Machine.addD
  rw [XR.fin_add]
  exact d_fin R D sin sinf cosf (by omega) this

theorem mulD_fin {x y : ℝ} {n m : ℕ} (hn : n + m ≤ 1023) (hx : |x| ≤ 2 ^ n) (hy : |y| ≤ 2 ^ m) :
    (MM).mulD (fin x) (fin y) = fin (D.rnd (x * y)) ∧ |D.rnd (x * y)| ≤ 2 ^ (n + m) := by
  have : |x * y| ≤ 2 ^ (n + m) := by
    rw [abs_mul, pow_add]
    exact mul_le_mul hx hy (abs_nonneg _) (by positivity)
  unfold Machine.mulD
  rw [XR.fin_mul]
  exact d_fin R D sin sinf cosf hn this

theorem negD_fin {x : ℝ} {n : ℕ} (hn : n ≤ 1023) (hx : |x| ≤ 2 ^ n) (hd : Double x) :
    (MM).mulD (fin (-1)) (fin x) = fin (-x) := by
  have h := (mulD_fin R D sin sinf cosf (x := -1) (y := x) (n := 0) (m := n) (by omega) (by norm_num) hx).1
  rw [h, show -1 * x = -x by ring, D.exact (double_neg hd)]

/-- The two conversions of half of a size to `float`. -/
theorem offset_fin {lo hi : ℝ} {n : ℕ} (hn : n ≤ 126) (h1 : |lo| ≤ 2 ^ n) (h2 : |hi| ≤ 2 ^ n) :
    ∃ c, (MM).centerOffset (fin lo) (fin hi) = fin c ∧ Double c ∧ |c| ≤ 2 ^ n := by
  obtain ⟨a, b⟩ := subD_fin R D sin sinf cosf (by omega) h2 h1
  unfold Machine.centerOffset
  rw [a]
  have h3 : |D.rnd (hi - lo) / 2| ≤ 2 ^ n := by
    rw [abs_div, abs_of_pos (by norm_num : (0 : ℝ) < 2), div_le_iff₀ (by norm_num), ← pow_succ]
    exact b
  unfold Machine.divD
  rw [XR.fin_div _ (by norm_num)]
  obtain ⟨e1, e2⟩ := d_fin R D sin sinf cosf (by omega) h3
  exact ⟨_, e1, D.double _, e2⟩

theorem pow_mono {x : ℝ} {n m : ℕ} (h : |x| ≤ 2 ^ n) (hnm : n ≤ m) : |x| ≤ 2 ^ m :=
  h.trans (pow_le_pow_right₀ (by norm_num) hnm)

variable {R}

theorem neg_fix (hR : Usual R) {x : ℝ} (h : |x| ≤ 2 ^ 127) : (MM).f (fin (-x)) = fin (-R.rnd x) := by
  rw [f_fin R D sin sinf cosf (by rwa [abs_neg]), hR.symmetric]

/-- The matrix of a finished zoom or bounce. -/
theorem center_one_offset (hR : Usual R) {lx ly hx hy : ℝ} {n : ℕ} (hn : n ≤ 126) (h1 : |lx| ≤ 2 ^ n) (h2 : |hx| ≤ 2 ^ n)
    (h3 : |ly| ≤ 2 ^ n) (h4 : |hy| ≤ 2 ^ n) :
    ∃ cx cy, (MM).f ((MM).centerOffset (fin lx) (fin hx)) = fin cx ∧ (MM).f ((MM).centerOffset (fin ly) (fin hy)) = fin cy ∧
      (MM).f ((MM).mulD (fin (-1)) ((MM).centerOffset (fin lx) (fin hx))) = fin (-cx) ∧
      (MM).f ((MM).mulD (fin (-1)) ((MM).centerOffset (fin ly) (fin hy))) = fin (-cy) ∧
      Machine.Fix (MM) cx ∧ Machine.Fix (MM) cy ∧ Machine.Fix (MM) (-cx) ∧ Machine.Fix (MM) (-cy) := by
  obtain ⟨x, ex, dx, sx⟩ := offset_fin R D sin sinf cosf hn h1 h2
  obtain ⟨y, ey, dy, sy⟩ := offset_fin R D sin sinf cosf hn h3 h4
  have sx' : |x| ≤ 2 ^ 127 := pow_mono sx (by omega)
  have sy' : |y| ≤ 2 ^ 127 := pow_mono sy (by omega)
  refine ⟨R.rnd x, R.rnd y, ?_, ?_, ?_, ?_, fix_rnd R D sin sinf cosf sx', fix_rnd R D sin sinf cosf sy', ?_, ?_⟩
  · rw [ex, f_fin R D sin sinf cosf sx']
  · rw [ey, f_fin R D sin sinf cosf sy']
  · rw [ex, negD_fin R D sin sinf cosf (by omega) sx dx, neg_fix D sin sinf cosf hR sx']
  · rw [ey, negD_fin R D sin sinf cosf (by omega) sy dy, neg_fix D sin sinf cosf hR sy']
  · rw [← hR.symmetric]
    exact fix_rnd R D sin sinf cosf (by rwa [abs_neg])
  · rw [← hR.symmetric]
    exact fix_rnd R D sin sinf cosf (by rwa [abs_neg])

variable (R) in
theorem extremes_ident {P : Type} (a : Anim P Mat32) (h : a.out = Machine.ident) (corners : Fin 4 → Pt) (i : Fin 4)
    (hc : |(corners i).x| ≤ 2 ^ 100 ∧ |(corners i).y| ≤ 2 ^ 100) :
    Unmoved R 0 (corners i) ((MM).extremes a corners i) := by
  unfold Unmoved Machine.extremes
  rw [h]
  have h1 := pow_mono hc.1 (by norm_num : 100 ≤ 127)
  have h2 := pow_mono hc.2 (by norm_num : 100 ≤ 127)
  exact Machine.transform_ident (fix_zero R D sin sinf cosf) (fix_one R D sin sinf cosf) (f_fin R D sin sinf cosf h1)
    (f_fin R D sin sinf cosf h2) (fix_rnd R D sin sinf cosf h1) (fix_rnd R D sin sinf cosf h2)

variable (R) in
/-- The scale of a finished bounce. -/
theorem bounce_scale_end {i mx : ℝ} {n : ℕ} {z : ℝ} (hz : R.rnd (i + R.rnd (1 - i)) = z) (hz' : |z| ≤ 2 ^ 127)
    (hi : |i| ≤ 2 ^ 100) (hm : |mx| ≤ 2 ^ 100) (hn : n < 2 ^ 32) (hsin : ∀ x, |sin x| ≤ 1) :
    (MM).bounceScale (fin 1) i mx n = fin z := by
  have f0 : (MM).f (fin 0) = fin 0 := fix_zero R D sin sinf cosf
  have hpi : |mPi| ≤ 2 ^ 2 := by
    unfold mPi
    norm_num [abs_le]
  obtain ⟨a1, a2⟩ := mulD_fin R D sin sinf cosf (x := 1) (y := mPi) (n := 0) (m := 2) (by norm_num) (by norm_num) hpi
  obtain ⟨b1, b2⟩ := mulD_fin R D sin sinf cosf (x := D.rnd (1 * mPi)) (y := n) (n := 0 + 2) (m := 32) (by norm_num) a2 (by
    rw [abs_of_nonneg (by positivity)]
    exact_mod_cast hn.le)
  have hs : (MM).sampleSineWave (fin 1) n = fin (R.rnd (sin (D.rnd (D.rnd (1 * mPi) * n)))) := by
    unfold Machine.sampleSineWave
    show (MM).f (Machine.call sin ((MM).mulD ((MM).mulD (fin 1) (fin mPi)) (fin n))) = _
    rw [a1, b1]
    exact f_fin R D sin sinf cosf ((hsin _).trans (by norm_num))
  unfold Machine.bounceScale
  rw [hs]
  have s1 : |mx - i| ≤ 2 ^ 127 := by
    have := abs_sub mx i
    norm_num at *
    linarith
  have s2 : |1 - i| ≤ 2 ^ 127 := by
    have := abs_sub 1 i
    norm_num at *
    linarith
  have e1 : (MM).sub (fin mx) (fin i) = fin (R.rnd (mx - i)) := by
    unfold Machine.sub
    rw [XR.fin_sub, f_fin R D sin sinf cosf s1]
  have e2 : (MM).sub (fin 1) (fin 1) = fin 0 := by
    unfold Machine.sub
    rw [XR.fin_sub, sub_self, f0]
  have e3 : (MM).sub (fin 1) (fin i) = fin (R.rnd (1 - i)) := by
    unfold Machine.sub
    rw [XR.fin_sub, f_fin R D sin sinf cosf s2]
  have e4 : (MM).mul (fin (R.rnd (1 - i))) (fin 1) = fin (R.rnd (1 - i)) := by
    unfold Machine.mul
    rw [XR.fin_mul, mul_one]
    exact fix_rnd R D sin sinf cosf s2
  have e5 : (MM).add (fin i) (fin (R.rnd (1 - i))) = fin z := by
    unfold Machine.add
    rw [XR.fin_add, ← hz]
    refine R.result_of_lt ?_
    rw [hz]
    exact lt_of_le_of_lt hz' (by norm_num)
  simp only [e1, e2, e3, e4, e5]
  unfold Machine.mul Machine.add
  rw [XR.fin_mul, mul_zero, f0, XR.fin_mul, zero_mul, f0, XR.fin_add, add_zero]
  refine fix_of R D sin sinf cosf ?_ hz'
  rw [← hz]
  exact R.single _

/-! ## Bounce -/

/-- **C98.** A Bounce step that ends with progress 1 leaves exactly the identity matrix, for every `float` initial scale
from 0 to 2^24, and every corner is reported where it was. -/
theorem C98_bounce_partial (hR : Usual R) (hsin : ∀ x, |sin x| ≤ 1) (a : Anim Bounce.Params Mat32) (ms : ℕ)
    (h : ((MM).bounce.step a ms).1.progress = fin 1)
    (hi : Single a.params.initialScale) (hi0 : 0 ≤ a.params.initialScale) (hi1 : a.params.initialScale ≤ 2 ^ 24)
    (hm : |a.params.maximumScale| ≤ 2 ^ 100) (hn : a.params.nBounce < 2 ^ 32) (hb : Modest a.params.target) :
    (∀ i j, ((MM).bounce.step a ms).1.out i j = fin (if i = j then 1 else 0)) ∧
    ∀ (corners : Fin 4 → Pt) (i : Fin 4), |(corners i).x| ≤ 2 ^ 100 ∧ |(corners i).y| ≤ 2 ^ 100 →
      Unmoved R 0 (corners i) ((MM).extremes ((MM).bounce.step a ms).1 corners i) := by
  have ho : ((MM).bounce.step a ms).1.out = Machine.ident := by
    have h' : AnimClass.clampedProgress (a.stepper.value ms) = fin 1 := h
    show (MM).bounceTransform a.params (AnimClass.clampedProgress (a.stepper.value ms)) = _
    rw [h']
    unfold Machine.bounceTransform
    rw [bounce_scale_end R D sin sinf cosf (R.up_to_one hR.below_one hi hi0 hi1) (by norm_num)
      (by rw [abs_of_nonneg hi0]; norm_num at *; linarith) hm hn hsin]
    obtain ⟨cx, cy, e1, e2, e3, e4, e5, e6, e7, e8⟩ := center_one_offset D sin sinf cosf hR (by norm_num : 100 ≤ 126)
      hb.1 hb.2.2.1 hb.2.1 hb.2.2.2
    simp only [e1, e2, e3, e4]
    exact Machine.center_one (fix_zero R D sin sinf cosf) (fix_one R D sin sinf cosf) e5 e6 e7 e8
  refine ⟨fun i j => ?_, fun corners i hc => extremes_ident R D sin sinf cosf _ ho corners i hc⟩
  rw [ho]
  unfold Machine.ident
  split_ifs <;> rfl

/-- The hypotheses are met by an ordinary animation. -/
example : ∃ a : Anim Bounce.Params Mat32, ∃ D : Rounding64,
    ((Machine.ieee halfEven D Real.sin Real.sin Real.cos).bounce.step a 100).1.progress = fin 1 ∧ Usual halfEven ∧
    (∀ x, |Real.sin x| ≤ 1) ∧ Single a.params.initialScale ∧ 0 ≤ a.params.initialScale ∧ a.params.initialScale ≤ 2 ^ 24 ∧
    |a.params.maximumScale| ≤ 2 ^ 100 ∧ a.params.nBounce < 2 ^ 32 ∧ Modest a.params.target := by
  refine ⟨((Machine.ieee halfEven someRounding64 Real.sin Real.sin Real.cos).bounceNew
    ⟨1 / 4, 3 / 2, 3, ⟨⟨10, 20⟩, ⟨310, 220⟩⟩⟩ (linear 100)).1, someRounding64, ?_, halfEven_usual, Real.abs_sin_le_one,
    ⟨1, -2, by norm_num, by norm_num, by norm_num [Machine.bounceNew, AnimClass.new]⟩, ?_⟩
  · have h : _ = fin (min 1 (((0 + 100 : ℕ) : ℝ) / 100)) :=
      C04_linear_progress (Machine.ieee halfEven someRounding64 Real.sin Real.sin Real.cos).bounce
        ⟨1 / 4, 3 / 2, 3, ⟨⟨10, 20⟩, ⟨310, 220⟩⟩⟩ Machine.ident (by norm_num : (0:ℝ) < 100) [] 100
    refine Eq.trans h ?_
    norm_num
  · norm_num [Machine.bounceNew, AnimClass.new, Modest, abs_le]

variable (R) in
/-- **C98.** Outside that range it can fail: with an initial scale a little below -1/8 the finished bounce is too small by
2^-24, whatever the rounding to nearest. -/
theorem C98_bounce_negative (hsin : ∀ x, |sin x| ≤ 1) (a : Anim Bounce.Params Mat32) (ms : ℕ)
    (h : ((MM).bounce.step a ms).1.progress = fin 1) (hi : a.params.initialScale = -(1 / 8 + 3 / 2 ^ 26))
    (hm : |a.params.maximumScale| ≤ 2 ^ 100) (hn : a.params.nBounce < 2 ^ 32) (hb : Modest a.params.target) :
    Single a.params.initialScale ∧ ((MM).bounce.step a ms).1.out 0 0 = fin (1 - 1 / 2 ^ 24) := by
  refine ⟨⟨-(2 ^ 23 + 3), -26, by norm_num, by norm_num, by rw [hi]; norm_num⟩, ?_⟩
  have h' : AnimClass.clampedProgress (a.stepper.value ms) = fin 1 := h
  have r1 : R.rnd (1 - a.params.initialScale) = 9 / 8 := by
    rw [hi]
    have := R.to_eq (x := 1 - -(1 / 8 + 3 / 2 ^ 26)) (n := 9437184) (k := -23) (by norm_num) (by norm_num) (by norm_num)
      (by norm_num [abs_lt])
    rw [this]
    norm_num
  have r2 : R.rnd (a.params.initialScale + R.rnd (1 - a.params.initialScale)) = 1 - 1 / 2 ^ 24 := by
    rw [r1, hi]
    have := R.to_eq (x := -(1 / 8 + 3 / 2 ^ 26) + 9 / 8) (n := 16777215) (k := -24) (by norm_num) (by norm_num) (by norm_num)
      (by norm_num [abs_lt])
    rw [this]
    norm_num
  show (MM).bounceTransform a.params (AnimClass.clampedProgress (a.stepper.value ms)) 0 0 = _
  rw [h']
  have hz : |(1 - 1 / 2 ^ 24 : ℝ)| ≤ 2 ^ 127 := by norm_num [abs_le]
  unfold Machine.bounceTransform
  rw [bounce_scale_end R D sin sinf cosf r2 hz (by rw [hi]; norm_num [abs_le]) hm hn hsin]
  obtain ⟨x, ex, -, sx⟩ := offset_fin R D sin sinf cosf (by norm_num : 100 ≤ 126) hb.1 hb.2.2.1
  have sx' : |x| ≤ 2 ^ 127 := pow_mono sx (by omega)
  have f0 : (MM).f (fin 0) = fin 0 := fix_zero R D sin sinf cosf
  have f1 : (MM).f (fin 1) = fin 1 := fix_one R D sin sinf cosf
  have f2 : (MM).f (fin (1 - 1 / 2 ^ 24)) = fin (1 - 1 / 2 ^ 24) :=
    fix_of R D sin sinf cosf (by rw [← r2]; exact R.single _) hz
  have f3 : (MM).f (fin (R.rnd x)) = fin (R.rnd x) := fix_rnd R D sin sinf cosf sx'
  have f4 : (MM).f (fin x) = fin (R.rnd x) := f_fin R D sin sinf cosf sx'
  obtain ⟨y, ey, -, sy⟩ := offset_fin R D sin sinf cosf (by norm_num : 100 ≤ 126) hb.2.1 hb.2.2.2
  have sy' : |y| ≤ 2 ^ 127 := pow_mono sy (by omega)
  have f5 : (MM).f (fin y) = fin (R.rnd y) := f_fin R D sin sinf cosf sy'
  simp only [ex, f4, ey, f5]
  generalize (1 - 1 / 2 ^ 24 : ℝ) = z at *
  simp [Machine.mmul, Machine.translate, Machine.scale, Machine.ident, Machine.add, Machine.mul, f0, f1, f2, f3]

/-! ## Zoom -/

variable (R) in
/-- What `EnsureNonZeroArea` does to the target. -/
theorem widen_screen {lo hi : ℝ} (h2 : Double hi) (s2 : |hi| ≤ 2 ^ 52) :
    ∃ h', (MM).widen (fin lo) (fin hi) = fin h' ∧ Double h' ∧ |h'| ≤ 2 ^ 53 ∧ h' ≠ lo := by
  unfold Machine.widen
  by_cases h : hi = lo
  · rw [if_pos (by rw [h])]
    obtain ⟨e, b⟩ := addD_fin R D sin sinf cosf (x := hi) (y := 1) (n := 52) (by norm_num) s2 (by norm_num)
    refine ⟨_, e, D.double _, b, ?_⟩
    have := D.error (x := hi + 1) (k := 53) (by norm_num) (by
      have := abs_add_le hi 1
      norm_num at *
      linarith)
    norm_num at this
    rw [abs_le] at this
    intro hc
    rw [hc, h] at this
    linarith [this.1]
  · rw [if_neg (by rw [XR.fin_inj]; exact h)]
    exact ⟨hi, rfl, h2, pow_mono s2 (by norm_num), h⟩

variable (R) in
theorem widen_modest {lo hi : ℝ} (s2 : |hi| ≤ 2 ^ 100) :
    ∃ h', (MM).widen (fin lo) (fin hi) = fin h' ∧ |h'| ≤ 2 ^ 101 := by
  unfold Machine.widen
  split_ifs
  · obtain ⟨e, b⟩ := addD_fin R D sin sinf cosf (x := hi) (y := 1) (n := 100) (by norm_num) s2 (by norm_num)
    exact ⟨_, e, b⟩
  · exact ⟨hi, rfl, pow_mono s2 (by norm_num)⟩

/-- Different doubles have a difference that does not round to zero. -/
theorem sub_rnd_ne (D : Rounding64) {x y : ℝ} (hx : Double x) (hy : Double y) (h : x ≠ y) : D.rnd (x - y) ≠ 0 := by
  obtain ⟨m, e, -, he, rfl⟩ := hx
  obtain ⟨n, f, -, hf, rfl⟩ := hy
  have key : ∀ (m e : ℤ), -1074 ≤ e → ∃ j : ℤ, (m : ℝ) * 2 ^ e = j * 2 ^ (-1074 : ℤ) := by
    intro m e he
    refine ⟨m * 2 ^ (e + 1074).toNat, ?_⟩
    push_cast
    rw [← zpow_natCast, Int.toNat_of_nonneg (by omega), mul_assoc, ← zpow_add₀ (by norm_num)]
    congr 2
    ring
  obtain ⟨i, hi⟩ := key m e he
  obtain ⟨j, hj⟩ := key n f hf
  rw [hi, hj] at h ⊢
  rw [← sub_mul]
  generalize hu : (2 : ℝ) ^ (-1074 : ℤ) = u at *
  have hp : 0 < u := by rw [← hu]; positivity
  have hd : Double u := by rw [← hu]; exact double_pow (by norm_num)
  have hij : i ≠ j := fun hc => h (by rw [hc])
  rcases lt_or_gt_of_ne hij with hlt | hgt
  · have h1 : (i : ℝ) + 1 ≤ j := by exact_mod_cast hlt
    have h2 := D.mono (show ((i : ℝ) - j) * u ≤ -u by nlinarith)
    rw [D.exact (double_neg hd)] at h2
    linarith
  · have h1 : (j : ℝ) + 1 ≤ i := by exact_mod_cast hgt
    have h2 := D.mono (show u ≤ ((i : ℝ) - j) * u by nlinarith)
    rw [D.exact hd] at h2
    linarith

variable (R) in
/-- The factor of a finished zoom in one direction. -/
theorem zoom_factor_end {lo hi lo' hi' : ℝ} (a1 : |lo| ≤ 2 ^ 101) (a2 : |hi| ≤ 2 ^ 101) (a3 : |lo'| ≤ 2 ^ 101)
    (a4 : |hi'| ≤ 2 ^ 101) (d1 : Double lo') (d2 : Double hi') (hne : hi' ≠ lo') :
    (MM).divD ((MM).addD ((MM).mulD ((MM).subD (fin hi') (fin lo')) (fin 1))
      ((MM).mulD ((MM).subD (fin hi) (fin lo)) ((MM).subD (fin 1) (fin 1)))) ((MM).subD (fin hi') (fin lo')) = fin 1 := by
  obtain ⟨e1, b1⟩ := subD_fin R D sin sinf cosf (by norm_num : 101 ≤ 1022) a4 a3
  obtain ⟨e2, b2⟩ := subD_fin R D sin sinf cosf (by norm_num : 101 ≤ 1022) a2 a1
  have dz : D.rnd 0 = 0 := D.exact double_zero
  have e3 : (MM).subD (fin 1) (fin 1) = fin 0 := by
    have := (subD_fin R D sin sinf cosf (x := 1) (y := 1) (n := 0) (by norm_num) (by norm_num) (by norm_num)).1
    rw [this, sub_self, dz]
  rw [e1, e2, e3]
  set w := D.rnd (hi' - lo') with hw
  have hw0 : w ≠ 0 := sub_rnd_ne D d2 d1 hne
  have hwd : D.rnd w = w := D.exact (D.double _)
  obtain ⟨e4, -⟩ := mulD_fin R D sin sinf cosf (x := w) (y := 1) (n := 102) (m := 0) (by norm_num) b1 (by norm_num)
  obtain ⟨e5, -⟩ := mulD_fin R D sin sinf cosf (x := D.rnd (hi - lo)) (y := 0) (n := 102) (m := 0) (by norm_num) b2 (by norm_num)
  rw [e4, e5, mul_one, mul_zero, dz, hwd]
  obtain ⟨e6, -⟩ := addD_fin R D sin sinf cosf (x := w) (y := 0) (n := 102) (by norm_num) b1 (by norm_num)
  rw [e6, add_zero, hwd]
  unfold Machine.divD
  rw [XR.fin_div _ hw0, div_self hw0]
  have := (d_fin R D sin sinf cosf (x := 1) (n := 0) (by norm_num) (by norm_num)).1
  rw [this, D.exact double_one]

variable (R) in
/-- The translation of a finished zoom in one direction. -/
theorem zoom_translation_end {lo hi lo' hi' : ℝ} (a1 : |lo| ≤ 2 ^ 101) (a2 : |hi| ≤ 2 ^ 101) (a3 : |lo'| ≤ 2 ^ 101)
    (a4 : |hi'| ≤ 2 ^ 101) :
    (MM).f ((MM).mulD ((MM).subD ((MM).center (fin lo) (fin hi)) ((MM).center (fin lo') (fin hi'))) ((MM).sub (fin 1) (fin 1))) = fin 0 := by
  obtain ⟨c, ec, -, bc⟩ := offset_fin R D sin sinf cosf (by norm_num : 101 ≤ 126) a1 a2
  obtain ⟨c', ec', -, bc'⟩ := offset_fin R D sin sinf cosf (by norm_num : 101 ≤ 126) a3 a4
  unfold Machine.center
  rw [ec, ec']
  obtain ⟨e1, b1⟩ := addD_fin R D sin sinf cosf (by norm_num : 101 ≤ 1022) a1 bc
  obtain ⟨e2, b2⟩ := addD_fin R D sin sinf cosf (by norm_num : 101 ≤ 1022) a3 bc'
  rw [e1, e2]
  obtain ⟨e3, b3⟩ := subD_fin R D sin sinf cosf (by norm_num : 102 ≤ 1022) b1 b2
  have e4 : (MM).sub (fin 1) (fin 1) = fin 0 := by
    unfold Machine.sub
    rw [XR.fin_sub, sub_self]
    exact fix_zero R D sin sinf cosf
  rw [e3, e4]
  obtain ⟨e5, -⟩ := mulD_fin R D sin sinf cosf (x := D.rnd (D.rnd (lo + c) - D.rnd (lo' + c'))) (y := 0) (n := 103) (m := 0)
    (by norm_num) b3 (by norm_num)
  rw [e5, mul_zero, D.exact double_zero]
  exact fix_zero R D sin sinf cosf

/-- The boxes an object can hold: a source that is not huge, and the target it was made with. -/
def Boxes (M : Machine) (b : Box) (p : Machine.ZoomParams) : Prop :=
  p.dst = M.ensureNonZeroArea (Machine.ofBox b) ∧
  ∃ x1 y1 x2 y2 : ℝ, p.frm = ⟨fin x1, fin y1, fin x2, fin y2⟩ ∧ |x1| ≤ 2 ^ 101 ∧ |y1| ≤ 2 ^ 101 ∧ |x2| ≤ 2 ^ 101 ∧ |y2| ≤ 2 ^ 101

variable (R) in
theorem boxes_run (b : Box) (ops : List (AnimOp Zoom.Setter)) (hset : ∀ c, .set (.frm c) ∈ ops → Modest c) :
    ∀ a : Anim Machine.ZoomParams Mat32, Boxes (MM) b a.params → Boxes (MM) b ((MM).zoom.run a ops).params := by
  induction ops with
  | nil => exact fun a h => h
  | cons op ops ih =>
    intro a h
    refine ih (fun c hc => hset c (List.mem_cons_of_mem _ hc)) _ ?_
    cases op with
    | step ms => exact h
    | setStepper s => exact h
    | set s =>
      cases s with
      | frm c =>
        have hc := hset c (List.mem_cons_self ..)
        exact ⟨h.1, _, _, _, _, rfl, pow_mono hc.1 (by norm_num), pow_mono hc.2.1 (by norm_num), pow_mono hc.2.2.1 (by norm_num),
          pow_mono hc.2.2.2 (by norm_num)⟩

/-- **C98.** A Zoom step that ends with progress 1 leaves exactly the identity matrix, whatever was set before, for every
target whose coordinates are `double` numbers of at most 2^52, and every corner is reported where it was. -/
theorem C98_zoom_partial (hR : Usual R) (frm dst : Box) (s : Stepper) (ops : List (AnimOp Zoom.Setter)) (ms : ℕ)
    (h : ((MM).zoom.step ((MM).zoom.run ((MM).zoomNew frm dst s).1 ops) ms).1.progress = fin 1)
    (hf : Modest frm) (hset : ∀ c, .set (.frm c) ∈ ops → Modest c) (hd : Screen dst) :
    (∀ i j, ((MM).zoom.step ((MM).zoom.run ((MM).zoomNew frm dst s).1 ops) ms).1.out i j = fin (if i = j then 1 else 0)) ∧
    ∀ (corners : Fin 4 → Pt) (i : Fin 4), |(corners i).x| ≤ 2 ^ 100 ∧ |(corners i).y| ≤ 2 ^ 100 →
      Unmoved R 0 (corners i)
        ((MM).extremes ((MM).zoom.step ((MM).zoom.run ((MM).zoomNew frm dst s).1 ops) ms).1 corners i) := by
  have hB : Boxes (MM) dst ((MM).zoom.run ((MM).zoomNew frm dst s).1 ops).params := by
    refine boxes_run R D sin sinf cosf dst ops hset _ ⟨rfl, ?_⟩
    obtain ⟨x2, ex, bx⟩ := widen_modest R D sin sinf cosf (lo := frm.tl.x) hf.2.2.1
    obtain ⟨y2, ey, bY⟩ := widen_modest R D sin sinf cosf (lo := frm.tl.y) hf.2.2.2
    refine ⟨frm.tl.x, frm.tl.y, x2, y2, ?_, pow_mono hf.1 (by norm_num), pow_mono hf.2.1 (by norm_num), bx, bY⟩
    show (MM).ensureNonZeroArea (Machine.ofBox frm) = _
    simp only [Machine.ensureNonZeroArea, Machine.ofBox, ex, ey]
  generalize (MM).zoom.run ((MM).zoomNew frm dst s).1 ops = a at *
  have ho : ((MM).zoom.step a ms).1.out = Machine.ident := by
    have h' : AnimClass.clampedProgress (a.stepper.value ms) = fin 1 := h
    show (MM).zoomTransform a.params.frm a.params.dst (AnimClass.clampedProgress (a.stepper.value ms)) = _
    rw [h']
    obtain ⟨e, x1, y1, x2, y2, e', b1, b2, b3, b4⟩ := hB
    obtain ⟨⟨d1, d2, d3, d4⟩, s1, s2, s3, s4⟩ := hd
    obtain ⟨hx, ex, dx, sx, nx⟩ := widen_screen R D sin sinf cosf (lo := dst.tl.x) d3 s3
    obtain ⟨hy, ey, dy, sy, ny⟩ := widen_screen R D sin sinf cosf (lo := dst.tl.y) d4 s4
    rw [e, e']
    unfold Machine.zoomTransform
    simp only [Machine.ensureNonZeroArea, Machine.ofBox, ex, ey]
    rw [zoom_factor_end R D sin sinf cosf b1 b3 (pow_mono s1 (by norm_num)) (pow_mono sx (by norm_num)) d1 dx nx,
      zoom_factor_end R D sin sinf cosf b2 b4 (pow_mono s2 (by norm_num)) (pow_mono sy (by norm_num)) d2 dy ny,
      zoom_translation_end R D sin sinf cosf b1 b3 (pow_mono s1 (by norm_num)) (pow_mono sx (by norm_num)),
      zoom_translation_end R D sin sinf cosf b2 b4 (pow_mono s2 (by norm_num)) (pow_mono sy (by norm_num))]
    obtain ⟨cx, cy, e1, e2, e3, e4, e5, e6, e7, e8⟩ := center_one_offset D sin sinf cosf hR (by norm_num : 53 ≤ 126)
      (pow_mono s1 (by norm_num)) sx (pow_mono s2 (by norm_num)) sy
    have f1 : (MM).f (fin 1) = fin 1 := fix_one R D sin sinf cosf
    simp only [e1, e2, e3, e4, f1]
    exact Machine.zoom_one (fix_zero R D sin sinf cosf) (fix_one R D sin sinf cosf) e5 e6 e7 e8
  refine ⟨fun i j => ?_, fun corners i hc => extremes_ident R D sin sinf cosf _ ho corners i hc⟩
  rw [ho]
  unfold Machine.ident
  split_ifs <;> rfl

/-- The hypotheses are met by an ordinary animation. -/
example : ∃ D : Rounding64, ∃ frm dst : Box, ∃ s : Stepper, ∃ ops : List (AnimOp Zoom.Setter),
    ((Machine.ieee halfEven D Real.sin Real.sin Real.cos).zoom.step
      ((Machine.ieee halfEven D Real.sin Real.sin Real.cos).zoom.run
        ((Machine.ieee halfEven D Real.sin Real.sin Real.cos).zoomNew frm dst s).1 ops) 60).1.progress = fin 1 ∧
    Modest frm ∧ (∀ c, .set (.frm c) ∈ ops → Modest c) ∧ Screen dst ∧ ops ≠ [] := by
  refine ⟨someRounding64, ⟨⟨10, 20⟩, ⟨310, 220⟩⟩, ⟨⟨5, 5⟩, ⟨5, 105⟩⟩, linear 100, steps [40], ?_, ?_, ?_, ?_, by simp [steps]⟩
  · have h : _ = fin (min 1 ((([40].sum + 60 : ℕ) : ℝ) / 100)) :=
      C04_linear_progress (Machine.ieee halfEven someRounding64 Real.sin Real.sin Real.cos).zoom
        ⟨(Machine.ieee halfEven someRounding64 Real.sin Real.sin Real.cos).ensureNonZeroArea (Machine.ofBox ⟨⟨10, 20⟩, ⟨310, 220⟩⟩),
          (Machine.ieee halfEven someRounding64 Real.sin Real.sin Real.cos).ensureNonZeroArea (Machine.ofBox ⟨⟨5, 5⟩, ⟨5, 105⟩⟩)⟩
        Machine.ident (by norm_num : (0:ℝ) < 100) [40] 60
    refine Eq.trans h ?_
    norm_num
  · norm_num [Modest, abs_le]
  · simp [steps]
  · refine ⟨⟨?_, ?_, ?_, ?_⟩, ?_⟩
    · exact double_nat (n := 5) (by norm_num)
    · exact double_nat (n := 5) (by norm_num)
    · exact double_nat (n := 5) (by norm_num)
    · exact double_nat (n := 105) (by norm_num)
    · norm_num [abs_le]

variable (R) in
/-- **C98.** Far away from the origin it fails: for a target of width 0 at 2^54, to which the constructor cannot add 1, the
finished zoom is not a number. -/
theorem C98_zoom_far (frm : Box) (y1 y2 : ℝ) (s : Stepper) (ms : ℕ)
    (h : ((MM).zoom.step ((MM).zoomNew frm ⟨⟨2 ^ 54, y1⟩, ⟨2 ^ 54, y2⟩⟩ s).1 ms).1.progress = fin 1) (hf : Modest frm) :
    ((MM).zoom.step ((MM).zoomNew frm ⟨⟨2 ^ 54, y1⟩, ⟨2 ^ 54, y2⟩⟩ s).1 ms).1.out 0 0 = .nan := by
  have hr : D.rnd (2 ^ 54 + 1) = 2 ^ 54 := by
    have h1 := D.error (x := 2 ^ 54 + 1) (k := 55) (by norm_num) (by norm_num [abs_le])
    have h2 := D.nearest (2 ^ 54 + 1) (2 ^ 54) (by
      have := double_pow (k := 54) (by norm_num)
      exact_mod_cast this)
    have h3 : (2 : ℝ) ^ (2 + 52 : ℤ) ≤ |D.rnd (2 ^ 54 + 1)| := by
      have := D.mono (show (2 : ℝ) ^ (54 : ℤ) ≤ 2 ^ 54 + 1 by norm_num)
      rw [D.exact (double_pow (by norm_num))] at this
      exact this.trans (le_abs_self _)
    obtain ⟨j, hj⟩ := double_multiple (D.double _) h3
    rw [hj] at h2 ⊢
    norm_num [abs_le] at h2
    have a : (j : ℝ) < 2 ^ 52 + 1 := by norm_num; linarith [h2.2]
    have b : (2 : ℝ) ^ 52 - 1 < j := by norm_num; linarith [h2.1]
    have a' : j < 2 ^ 52 + 1 := by exact_mod_cast a
    have b' : 2 ^ 52 - 1 < j := by exact_mod_cast b
    have : j = 2 ^ 52 := by omega
    rw [this]
    norm_num
  have hw : (MM).widen (fin (2 ^ 54)) (fin (2 ^ 54)) = fin (2 ^ 54) := by
    unfold Machine.widen
    rw [if_pos rfl]
    have := (addD_fin R D sin sinf cosf (x := 2 ^ 54) (y := 1) (n := 54) (by norm_num) (by norm_num) (by norm_num)).1
    rw [this, hr]
  have h0 : D.rnd 0 = 0 := D.exact double_zero
  have hz : (MM).subD (fin (2 ^ 54)) (fin (2 ^ 54)) = fin 0 := by
    have := (subD_fin R D sin sinf cosf (x := 2 ^ 54) (y := 2 ^ 54) (n := 54) (by norm_num) (by norm_num) (by norm_num)).1
    rw [this, sub_self, h0]
  have h1 : (MM).subD (fin 1) (fin 1) = fin 0 := by
    have := (subD_fin R D sin sinf cosf (x := 1) (y := 1) (n := 0) (by norm_num) (by norm_num) (by norm_num)).1
    rw [this, sub_self, h0]
  obtain ⟨x2, ex, bx⟩ := widen_modest R D sin sinf cosf (lo := frm.tl.x) hf.2.2.1
  obtain ⟨e2, b2⟩ := subD_fin R D sin sinf cosf (by norm_num : 101 ≤ 1022) bx (pow_mono hf.1 (by norm_num : 100 ≤ 101))
  have m1 := (mulD_fin R D sin sinf cosf (x := 0) (y := 1) (n := 0) (m := 0) (by norm_num) (by norm_num) (by norm_num)).1
  have m2 := (mulD_fin R D sin sinf cosf (x := D.rnd (x2 - frm.tl.x)) (y := 0) (n := 102) (m := 0) (by norm_num) b2 (by norm_num)).1
  have m3 := (addD_fin R D sin sinf cosf (x := 0) (y := 0) (n := 0) (by norm_num) (by norm_num) (by norm_num)).1
  rw [zero_mul, h0] at m1
  rw [mul_zero, h0] at m2
  rw [add_zero, h0] at m3
  have hn : (MM).f .nan = .nan := rfl
  have hq : (MM).divD (fin 0) (fin 0) = .nan := by
    unfold Machine.divD
    rw [XR.fin_div_zero]
    simp only [XR.signed, lt_irrefl, if_false]
    rfl
  have h' : AnimClass.clampedProgress (((MM).zoomNew frm ⟨⟨2 ^ 54, y1⟩, ⟨2 ^ 54, y2⟩⟩ s).1.stepper.value ms) = fin 1 := h
  show (MM).zoomTransform ((MM).ensureNonZeroArea (Machine.ofBox frm))
    ((MM).ensureNonZeroArea (Machine.ofBox ⟨⟨2 ^ 54, y1⟩, ⟨2 ^ 54, y2⟩⟩)) (AnimClass.clampedProgress _) 0 0 = _
  rw [h']
  unfold Machine.zoomTransform
  simp only [Machine.ensureNonZeroArea, Machine.ofBox, hw, hz, h1, ex, e2, m1, m2, m3, hq, hn]
  have na : ∀ v, XR.nan + v = .nan := by intro v; cases v <;> rfl
  have nb : ∀ v, XR.nan * v = .nan := by intro v; cases v <;> rfl
  have nd : ∀ v, v * XR.nan = .nan := by intro v; cases v <;> rfl
  simp [Machine.mmul, Machine.scale, Machine.add, Machine.mul, na, nb, nd, hn]

/-! ## Glide -/

/-- **C98.** A Glide step that ends with progress 1 leaves the plane exactly in place: every corner is reported where it
was, at the fixed depth -1 / screen width, rounded. -/
theorem C98_glide (hR : Usual R) (hs : sinf 0 = 0) (hc : cosf 0 = 1) (a : Anim Glide.Params Mat32) (ms : ℕ)
    (h : ((MM).glide.step a ms).1.progress = fin 1) (hb : Modest a.params.target)
    (hx : |a.params.xAxisLocationUnit| ≤ 2 ^ 20) (hy : |a.params.yAxisLocationUnit| ≤ 2 ^ 20)
    (hd : |a.params.initialDistance| ≤ 2 ^ 100) (hrx : |a.params.xRotationAngleDegrees| ≤ 2 ^ 100)
    (hry : |a.params.yRotationAngleDegrees| ≤ 2 ^ 100) (hw : 0 < a.params.screenWidth) :
    ∀ (corners : Fin 4 → Pt) (i : Fin 4), |(corners i).x| ≤ 2 ^ 100 ∧ |(corners i).y| ≤ 2 ^ 100 →
      Unmoved R (R.rnd (D.rnd (-1 / a.params.screenWidth))) (corners i) ((MM).extremes ((MM).glide.step a ms).1 corners i) := by
  have f0 : (MM).f (fin 0) = fin 0 := fix_zero R D sin sinf cosf
  have f1 : (MM).f (fin 1) = fin 1 := fix_one R D sin sinf cosf
  have h' : AnimClass.clampedProgress (a.stepper.value ms) = fin 1 := h
  have hw' : (1 : ℝ) ≤ a.params.screenWidth := by exact_mod_cast hw
  set v := D.rnd (-1 / a.params.screenWidth) with hv
  have bv : |(-1 / a.params.screenWidth : ℝ)| ≤ 2 ^ 0 := by
    rw [abs_div, abs_neg, abs_one, abs_of_pos (by linarith), div_le_iff₀ (by linarith)]
    rw [pow_zero, one_mul]
    exact hw'
  obtain ⟨ev, bv'⟩ := d_fin R D sin sinf cosf (by norm_num : 0 ≤ 1023) bv
  have hp : (MM).f ((MM).divD (fin (-1)) (fin a.params.screenWidth)) = fin (R.rnd v) := by
    unfold Machine.divD
    rw [XR.fin_div _ (by linarith), ev]
    exact f_fin R D sin sinf cosf (pow_mono bv' (by norm_num))
  have e0 : (MM).sub (fin 1) (fin 1) = fin 0 := by
    unfold Machine.sub
    rw [XR.fin_sub, sub_self, f0]
  -- the angles
  have hpi : |mPi / 180| ≤ 2 ^ 0 := by
    unfold mPi
    norm_num [abs_le]
  obtain ⟨ep, bp⟩ := d_fin R D sin sinf cosf (by norm_num : 0 ≤ 1023) hpi
  have ang : ∀ g : ℝ, |g| ≤ 2 ^ 100 → (MM).mul ((MM).degreesToRadians g) (fin 0) = fin 0 := by
    intro g hg
    unfold Machine.degreesToRadians
    have e1 : (MM).divD (fin (MM).pi) (fin 180) = fin (D.rnd (mPi / 180)) := by
      unfold Machine.divD
      rw [XR.fin_div _ (by norm_num)]
      exact ep
    obtain ⟨e2, b2⟩ := mulD_fin R D sin sinf cosf (x := D.rnd (mPi / 180)) (n := 0) (m := 100) (by norm_num) bp hg
    rw [e1, e2, f_fin R D sin sinf cosf (pow_mono b2 (by norm_num))]
    unfold Machine.mul
    rw [XR.fin_mul, mul_zero, f0]
  -- the distance
  have dist : (MM).mul ((MM).mul (fin (-1)) (fin a.params.initialDistance)) (fin 0) = fin 0 := by
    unfold Machine.mul
    rw [XR.fin_mul, f_fin R D sin sinf cosf (by
      rw [abs_mul, abs_neg, abs_one, one_mul]
      exact pow_mono hd (by norm_num)), XR.fin_mul, mul_zero, f0]
  -- the axis
  have axis : ∀ lo hi u : ℝ, |lo| ≤ 2 ^ 100 → |hi| ≤ 2 ^ 100 → |u| ≤ 2 ^ 20 → ∃ c,
      (MM).f ((MM).axisOffset (fin lo) (fin hi) (fin u)) = fin c ∧
      (MM).f ((MM).mulD (fin (-1)) ((MM).axisOffset (fin lo) (fin hi) (fin u))) = fin (-c) ∧ Machine.Fix (MM) c ∧ Machine.Fix (MM) (-c) := by
    intro lo hi u h1 h2 h3
    unfold Machine.axisOffset
    obtain ⟨e1, b1⟩ := subD_fin R D sin sinf cosf (by norm_num : 100 ≤ 1022) h2 h1
    obtain ⟨e2, b2⟩ := mulD_fin R D sin sinf cosf (by norm_num : 101 + 20 ≤ 1023) b1 h3
    rw [e1, e2]
    have b3 := pow_mono b2 (by norm_num : 101 + 20 ≤ 127)
    refine ⟨_, f_fin R D sin sinf cosf b3, ?_, fix_rnd R D sin sinf cosf b3, ?_⟩
    · rw [negD_fin R D sin sinf cosf (by norm_num) b3 (D.double _), neg_fix D sin sinf cosf hR b3]
    · rw [← hR.symmetric]
      exact fix_rnd R D sin sinf cosf (by rwa [abs_neg])
  obtain ⟨cx, x1, x2, x3, x4⟩ := axis _ _ _ hb.1 hb.2.2.1 hx
  obtain ⟨cy, y1, y2, y3, y4⟩ := axis _ _ _ hb.2.1 hb.2.2.2 hy
  have fv : Machine.Fix (MM) (R.rnd v) := fix_rnd R D sin sinf cosf (pow_mono bv' (by norm_num))
  have ho : ((MM).glide.step a ms).1.out = ![![fin 1, fin 0, fin 0, fin 0], ![fin 0, fin 1, fin 0, fin 0],
      ![fin 0, fin 0, fin 0, fin (R.rnd v)], ![fin 0, fin 0, fin 0, fin 1]] := by
    show (MM).glideTransform a.params (AnimClass.clampedProgress (a.stepper.value ms)) = _
    rw [h']
    unfold Machine.glideTransform Machine.perspective
    simp only [e0, ang _ hrx, ang _ hry, dist, hp, x1, x2, y1, y2]
    have hrot := Machine.rotate_zero (M := MM) f0 f1 hs hc
    rw [hrot.1, hrot.2]
    exact Machine.glide_one f0 f1 x3 y3 x4 y4 fv
  intro corners i hcn
  unfold Unmoved Machine.extremes
  rw [ho]
  have h1 := pow_mono hcn.1 (by norm_num : 100 ≤ 127)
  have h2 := pow_mono hcn.2 (by norm_num : 100 ≤ 127)
  have g1 := f_fin R D sin sinf cosf h1
  have g2 := f_fin R D sin sinf cosf h2
  have g3 : (MM).f _ = _ := fix_rnd R D sin sinf cosf h1
  have g4 : (MM).f _ = _ := fix_rnd R D sin sinf cosf h2
  have g5 : (MM).f _ = _ := fv
  simp [Machine.transformPoint, Machine.add, Machine.mul, f0, f1, g1, g2, g3, g4, g5]

/-- The hypotheses are met by an ordinary animation. -/
example : ∃ D : Rounding64, ∃ a : Anim Glide.Params Mat32,
    ((Machine.ieee halfEven D Real.sin Real.sin Real.cos).glide.step a 100).1.progress = fin 1 ∧ Usual halfEven ∧
    Real.sin 0 = 0 ∧ Real.cos 0 = 1 ∧ Modest a.params.target ∧ |a.params.xAxisLocationUnit| ≤ 2 ^ 20 ∧
    |a.params.yAxisLocationUnit| ≤ 2 ^ 20 ∧ |a.params.initialDistance| ≤ 2 ^ 100 ∧ |a.params.xRotationAngleDegrees| ≤ 2 ^ 100 ∧
    |a.params.yRotationAngleDegrees| ≤ 2 ^ 100 ∧ 0 < a.params.screenWidth := by
  refine ⟨someRounding64, ((Machine.ieee halfEven someRounding64 Real.sin Real.sin Real.cos).glideNew
    ⟨100, 30, 45, 1 / 2, 1, 1920, ⟨⟨10, 20⟩, ⟨310, 220⟩⟩⟩ (linear 100)).1, ?_, halfEven_usual, Real.sin_zero, Real.cos_zero, ?_⟩
  · have h : _ = fin (min 1 (((0 + 100 : ℕ) : ℝ) / 100)) :=
      C04_linear_progress (Machine.ieee halfEven someRounding64 Real.sin Real.sin Real.cos).glide
        ⟨100, 30, 45, 1 / 2, 1, 1920, ⟨⟨10, 20⟩, ⟨310, 220⟩⟩⟩ Machine.ident (by norm_num : (0:ℝ) < 100) [] 100
    refine Eq.trans h ?_
    norm_num
  · norm_num [Machine.glideNew, AnimClass.new, Modest, abs_le]

end

end Verif.Props
