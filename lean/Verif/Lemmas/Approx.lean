import Verif.Lemmas.TransformFloat
import Mathlib.Analysis.Real.Pi.Bounds

/-! # Error bounds for rounded computations -/

namespace Verif

open XR (fin)

noncomputable section

/-- `v` is a number within `e` of `X`, and `X` is at most `B` in size. -/
def Approx (v : XR) (X B e : ℝ) : Prop := ∃ x, v = fin x ∧ |x - X| ≤ e ∧ |X| ≤ B

namespace Approx

variable {u v : XR} {X Y B C e g : ℝ}

theorem const (h : |X| ≤ B) : Approx (fin X) X B 0 := ⟨X, rfl, by simp, h⟩

theorem weaken (h : Approx v X B e) {B' e' : ℝ} (hB : |X| ≤ B') (he : e ≤ e') : Approx v X B' e' := by
  obtain ⟨x, hx, h1, -⟩ := h
  exact ⟨x, hx, h1.trans he, hB⟩

theorem size (h : Approx v X B e) : |X| ≤ B := h.choose_spec.2.2

theorem congr (h : Approx v X B e) (hY : X = Y) : Approx v Y B e := hY ▸ h

theorem add (h : Approx u X B e) (h' : Approx v Y C g) : Approx (u + v) (X + Y) (B + C) (e + g) := by
  obtain ⟨x, rfl, h1, h2⟩ := h
  obtain ⟨y, rfl, h3, h4⟩ := h'
  refine ⟨x + y, rfl, ?_, (abs_add_le X Y).trans (by linarith)⟩
  rw [show x + y - (X + Y) = (x - X) + (y - Y) by ring]
  exact (abs_add_le _ _).trans (by linarith)

theorem sub (h : Approx u X B e) (h' : Approx v Y C g) : Approx (u - v) (X - Y) (B + C) (e + g) := by
  obtain ⟨x, rfl, h1, h2⟩ := h
  obtain ⟨y, rfl, h3, h4⟩ := h'
  refine ⟨x - y, XR.fin_sub x y, ?_, (abs_sub X Y).trans (by linarith)⟩
  rw [show x - y - (X - Y) = (x - X) - (y - Y) by ring]
  exact (abs_sub _ _).trans (by linarith)

theorem mul (h : Approx u X B e) (h' : Approx v Y C g) : Approx (u * v) (X * Y) (B * C) (e * C + B * g + e * g) := by
  obtain ⟨x, rfl, h1, h2⟩ := h
  obtain ⟨y, rfl, h3, h4⟩ := h'
  have he : 0 ≤ e := (abs_nonneg _).trans h1
  have hB : 0 ≤ B := (abs_nonneg _).trans h2
  refine ⟨x * y, rfl, ?_, ?_⟩
  · rw [show x * y - X * Y = (x - X) * Y + X * (y - Y) + (x - X) * (y - Y) by ring]
    refine (abs_add_three _ _ _).trans ?_
    rw [abs_mul, abs_mul, abs_mul]
    have a := mul_le_mul h1 h4 (abs_nonneg _) he
    have b := mul_le_mul h2 h3 (abs_nonneg _) hB
    have c := mul_le_mul h1 h3 (abs_nonneg _) he
    linarith
  · rw [abs_mul]
    exact mul_le_mul h2 h4 (abs_nonneg _) hB

/-- Halving. -/
theorem half (h : Approx v X B e) : Approx (v / fin 2) (X / 2) (B / 2) (e / 2) := by
  obtain ⟨x, rfl, h1, h2⟩ := h
  refine ⟨x / 2, XR.fin_div x (by norm_num), ?_, ?_⟩
  · rw [← sub_div, abs_div, abs_of_pos (by norm_num : (0 : ℝ) < 2)]
    linarith
  · rw [abs_div, abs_of_pos (by norm_num : (0 : ℝ) < 2)]
    linarith

theorem single (h : Approx v X B e) (R : Rounding) (k : ℤ) (h1 : -125 ≤ k) (h2 : k ≤ 127) (hk : B + e ≤ 2 ^ k) :
    Approx (R.result v) X B (e + 2 ^ (k - 25)) := by
  obtain ⟨x, rfl, a, b⟩ := h
  have hx : |x| ≤ 2 ^ k := by
    have := abs_add_le (x - X) X
    rw [sub_add_cancel] at this
    linarith
  have hx' : |x| ≤ 2 ^ 127 := by
    refine hx.trans ?_
    have := zpow_le_zpow_right₀ (a := (2 : ℝ)) (by norm_num) h2
    exact_mod_cast this
  refine ⟨R.rnd x, R.result_of_le hx', ?_, b⟩
  have := R.error_pow h1 hx
  rw [show R.rnd x - X = (R.rnd x - x) + (x - X) by ring]
  exact (abs_add_le _ _).trans (by linarith)

theorem double (h : Approx v X B e) (D : Rounding64) (k : ℤ) (h1 : -1021 ≤ k) (h2 : k ≤ 1023) (hk : B + e ≤ 2 ^ k) :
    Approx (D.result v) X B (e + 2 ^ (k - 54)) := by
  obtain ⟨x, rfl, a, b⟩ := h
  have hx : |x| ≤ 2 ^ k := by
    have := abs_add_le (x - X) X
    rw [sub_add_cancel] at this
    linarith
  refine ⟨D.rnd x, (D.result_of_le (by omega) h2 hx).1, ?_, b⟩
  have := D.error h1 hx
  rw [show D.rnd x - X = (D.rnd x - x) + (x - X) by ring]
  exact (abs_add_le _ _).trans (by linarith)

end Approx

/-- The relative error of rounding, with an absolute part for numbers next to zero. -/
theorem Rounding.error_rel (R : Rounding) (x : ℝ) : |R.rnd x - x| ≤ |x| / 2 ^ 24 + 1 / 2 ^ 150 := by
  have tiny : (0 : ℝ) ≤ 1 / 2 ^ 150 := by positivity
  by_cases h : |x| ≤ 2 ^ (-125 : ℤ)
  · have := R.error_pow le_rfl h
    have h0 : (0 : ℝ) ≤ |x| / 2 ^ 24 := by positivity
    have e : (2 : ℝ) ^ ((-125 : ℤ) - 25) = 1 / 2 ^ 150 := by norm_num
    rw [e] at this
    linarith
  · rw [not_le] at h
    have hx : 0 < |x| := lt_trans (by positivity) h
    obtain ⟨n, h1, h2⟩ := exists_mem_Ioc_zpow hx (by norm_num : (1 : ℝ) < 2)
    have hn : (-125 : ℤ) < n + 1 := (zpow_lt_zpow_iff_right₀ (by norm_num : (1 : ℝ) < 2)).1 (h.trans_le h2)
    have := R.error_pow hn.le h2
    have e : (2 : ℝ) ^ (n + 1 - 25) = 2 ^ n / 2 ^ 24 := by
      rw [show n + 1 - 25 = n - (24 : ℕ) by norm_num; ring, zpow_sub₀ (by norm_num), zpow_natCast]
    rw [e] at this
    have : (2 : ℝ) ^ n / 2 ^ 24 ≤ |x| / 2 ^ 24 := by gcongr
    linarith

theorem mPi_near : |mPi - Real.pi| ≤ 2 ^ (-50 : ℤ) := by
  have h1 := Real.pi_gt_d20
  have h2 := Real.pi_lt_d20
  unfold mPi
  norm_num at *
  rw [abs_le]
  constructor <;> linarith

/-! ## Corners under translate, scale, translate -/

namespace Machine

variable {M : Machine}

theorem center_point {p : Pt} {sx sy cx cy nx ny ux uy tx ty qx qy vx vy zx zy : ℝ}
    (f0 : M.f (fin 0) = fin 0) (f1 : M.f (fin 1) = fin 1) (idem : ∀ x y, M.f (fin x) = fin y → M.f (fin y) = fin y)
    (fsx : M.f (fin sx) = fin sx) (fsy : M.f (fin sy) = fin sy)
    (fcx : M.f (fin cx) = fin cx) (fcy : M.f (fin cy) = fin cy)
    (fnx : M.f (fin nx) = fin nx) (fny : M.f (fin ny) = fin ny)
    (hux : M.f (fin (sx * nx)) = fin ux) (huy : M.f (fin (sy * ny)) = fin uy)
    (htx : M.f (fin (ux + cx)) = fin tx) (hty : M.f (fin (uy + cy)) = fin ty)
    (hqx : M.f (fin p.x) = fin qx) (hqy : M.f (fin p.y) = fin qy)
    (hvx : M.f (fin (sx * qx)) = fin vx) (hvy : M.f (fin (sy * qy)) = fin vy)
    (hzx : M.f (fin (vx + tx)) = fin zx) (hzy : M.f (fin (vy + ty)) = fin zy) :
    M.transformPoint p (M.mmul (M.mmul (M.translate (fin cx) (fin cy) (fin 0)) (M.scale (fin sx) (fin sy) (fin 1)))
      (M.translate (fin nx) (fin ny) (fin 0))) = ⟨fin zx, fin zy, fin 0, fin 1⟩ := by
  have i1 := idem _ _ hux
  have i2 := idem _ _ huy
  have i3 := idem _ _ htx
  have i4 := idem _ _ hty
  have i5 := idem _ _ hqx
  have i6 := idem _ _ hqy
  have i7 := idem _ _ hvx
  have i8 := idem _ _ hvy
  simp [transformPoint, mmul, translate, scale, ident, Machine.add, Machine.mul, *]

theorem zoom_point {p : Pt} {sx sy cx cy nx ny ux uy dx dy wx wy tx ty qx qy vx vy zx zy : ℝ}
    (f0 : M.f (fin 0) = fin 0) (f1 : M.f (fin 1) = fin 1) (idem : ∀ x y, M.f (fin x) = fin y → M.f (fin y) = fin y)
    (fsx : M.f (fin sx) = fin sx) (fsy : M.f (fin sy) = fin sy)
    (fcx : M.f (fin cx) = fin cx) (fcy : M.f (fin cy) = fin cy)
    (fnx : M.f (fin nx) = fin nx) (fny : M.f (fin ny) = fin ny)
    (fdx : M.f (fin dx) = fin dx) (fdy : M.f (fin dy) = fin dy)
    (hwx : M.f (fin (cx + dx)) = fin wx) (hwy : M.f (fin (cy + dy)) = fin wy)
    (hux : M.f (fin (sx * nx)) = fin ux) (huy : M.f (fin (sy * ny)) = fin uy)
    (htx : M.f (fin (ux + wx)) = fin tx) (hty : M.f (fin (uy + wy)) = fin ty)
    (hqx : M.f (fin p.x) = fin qx) (hqy : M.f (fin p.y) = fin qy)
    (hvx : M.f (fin (sx * qx)) = fin vx) (hvy : M.f (fin (sy * qy)) = fin vy)
    (hzx : M.f (fin (vx + tx)) = fin zx) (hzy : M.f (fin (vy + ty)) = fin zy) :
    M.transformPoint p (M.mmul (M.mmul (M.mmul (M.translate (fin dx) (fin dy) (fin 0)) (M.translate (fin cx) (fin cy) (fin 0)))
      (M.scale (fin sx) (fin sy) (fin 1))) (M.translate (fin nx) (fin ny) (fin 0))) = ⟨fin zx, fin zy, fin 0, fin 1⟩ := by
  have i1 := idem _ _ hux
  have i2 := idem _ _ huy
  have i3 := idem _ _ htx
  have i4 := idem _ _ hty
  have i5 := idem _ _ hqx
  have i6 := idem _ _ hqy
  have i7 := idem _ _ hvx
  have i8 := idem _ _ hvy
  have i9 := idem _ _ hwx
  have i10 := idem _ _ hwy
  simp [transformPoint, mmul, translate, scale, ident, Machine.add, Machine.mul, *]

end Machine

end

end Verif
