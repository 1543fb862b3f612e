import Verif.Lemmas.Float32
import Verif.Lemmas.Float64
import Verif.Model.TransformFloat

/-! # Rounded transforms -/

namespace Verif

open XR (fin)

noncomputable section

/-! ## Sizes and errors -/

theorem single_pow {k : ℤ} (hk : -149 ≤ k) : Single (2 ^ k) := ⟨1, k, by norm_num, hk, by simp⟩

theorem single_neg {x : ℝ} (h : Single x) : Single (-x) := by
  obtain ⟨m, e, hm, he, rfl⟩ := h
  exact ⟨-m, e, by rwa [abs_neg], he, by push_cast; ring⟩

theorem double_pow {k : ℤ} (hk : -1074 ≤ k) : Double (2 ^ k) := ⟨1, k, by norm_num, hk, by simp⟩

theorem double_neg {x : ℝ} (h : Double x) : Double (-x) := by
  obtain ⟨m, e, hm, he, rfl⟩ := h
  exact ⟨-m, e, by rwa [abs_neg], he, by push_cast; ring⟩

namespace Rounding

variable (R : Rounding)

theorem abs_le_pow {x : ℝ} {k : ℤ} (hk : -149 ≤ k) (h : |x| ≤ 2 ^ k) : |R.rnd x| ≤ 2 ^ k := by
  rw [abs_le] at h ⊢
  have h1 := R.mono h.1
  have h2 := R.mono h.2
  rw [R.exact (single_neg (single_pow hk))] at h1
  rw [R.exact (single_pow hk)] at h2
  exact ⟨h1, h2⟩

/-- Rounding error of numbers up to a power of two. -/
theorem error_pow {x : ℝ} {k : ℤ} (hk : -125 ≤ k) (hx : |x| ≤ 2 ^ k) : |R.rnd x - x| ≤ 2 ^ (k - 25) := by
  have hp : (0 : ℝ) < 2 ^ (k - 24) := by positivity
  have hs : Single (round (x / 2 ^ (k - 24)) * 2 ^ (k - 24)) := by
    refine single_mul ?_ (by omega)
    have a : |x / 2 ^ (k - 24)| ≤ 2 ^ 24 := by
      rw [abs_div, abs_of_pos hp, div_le_iff₀ hp, ← zpow_natCast, ← zpow_add₀ (by norm_num)]
      refine hx.trans_eq ?_
      congr 1
      push_cast
      ring
    have h3 := abs_sub_round (x / 2 ^ (k - 24))
    have h4 : |((round (x / 2 ^ (k - 24)) : ℤ) : ℝ)| < 2 ^ 24 + 1 := by
      calc _ = |x / 2 ^ (k - 24) - (x / 2 ^ (k - 24) - round (x / 2 ^ (k - 24)))| := by congr 1; ring
        _ ≤ |x / 2 ^ (k - 24)| + |x / 2 ^ (k - 24) - round (x / 2 ^ (k - 24))| := abs_sub _ _
        _ < 2 ^ 24 + 1 := by linarith
    have h5 : |round (x / 2 ^ (k - 24))| < 2 ^ 24 + 1 := by
      have : ((|round (x / 2 ^ (k - 24))| : ℤ) : ℝ) < ((2 ^ 24 + 1 : ℤ) : ℝ) := by
        rw [Int.cast_abs]
        refine h4.trans_eq ?_
        norm_num
      exact_mod_cast this
    omega
  refine (R.nearest x _ hs).trans ?_
  have := abs_sub_round (x / 2 ^ (k - 24))
  have e : |(round (x / 2 ^ (k - 24)) : ℝ) * 2 ^ (k - 24) - x| = |x / 2 ^ (k - 24) - round (x / 2 ^ (k - 24))| * 2 ^ (k - 24) := by
    rw [← abs_of_pos hp, ← abs_mul, abs_of_pos hp, ← abs_neg]
    congr 1
    field_simp
    ring
  rw [e]
  calc _ ≤ 1 / 2 * (2 : ℝ) ^ (k - 24) := mul_le_mul_of_nonneg_right this hp.le
    _ = 2 ^ (k - 25) := by
      rw [show k - 24 = (k - 25) + 1 by ring, zpow_add₀ (by norm_num)]
      norm_num
      ring

theorem result_of_lt {x : ℝ} (h : |R.rnd x| < 2 ^ 128) : R.result (fin x) = fin (R.rnd x) := by
  show R.store x = _
  rw [Rounding.store, if_pos h]

theorem result_of_le {x : ℝ} (h : |x| ≤ 2 ^ 127) : R.result (fin x) = fin (R.rnd x) := by
  refine R.result_of_lt (lt_of_le_of_lt (R.abs_le_pow (k := 127) (by norm_num) (by exact_mod_cast h)) ?_)
  norm_num

/-- Numbers a `float` holds stay as they are. -/
theorem result_single {x : ℝ} (hs : Single x) (h : |x| < 2 ^ 128) : R.result (fin x) = fin x := by
  have e := R.exact hs
  rw [R.result_of_lt (by rwa [e]), e]

/-- From an initial scale to one. -/
theorem up_to_one (ht : R.rnd (1 - 1 / 2 ^ 25) = 1) {i : ℝ} (hi : Single i) (h0 : 0 ≤ i) (h1 : i ≤ 2 ^ 24) :
    R.rnd (i + R.rnd (1 - i)) = 1 := by
  by_cases hh : 1 / 2 ≤ i
  · have hs : Single (1 - i) := by
      rcases le_or_gt i 2 with h2 | h2
      · obtain ⟨j, hj⟩ := single_multiple hi (k := -24) (by rw [abs_of_nonneg h0]; norm_num; linarith)
        have hj1 : (j : ℝ) = i * 2 ^ 24 := by
          rw [hj]
          norm_num
          ring
        have : 1 - i = ((2 ^ 24 - j : ℤ) : ℝ) * 2 ^ (-24 : ℤ) := by
          rw [hj]
          push_cast
          norm_num
          ring
        rw [this]
        refine single_mul ?_ (by norm_num)
        have a : (0 : ℝ) ≤ j := by rw [hj1]; positivity
        have b : (j : ℝ) ≤ 2 ^ 25 := by
          rw [hj1]
          nlinarith
        have a' : 0 ≤ j := by exact_mod_cast a
        have b' : j ≤ 2 ^ 25 := by exact_mod_cast b
        rw [abs_le]
        constructor <;> omega
      · have hip : 0 < i := by linarith
        have l1 := Int.zpow_log_le_self (b := 2) (r := i) (by norm_num) hip
        have l2 := Int.lt_zpow_succ_log_self (b := 2) (by norm_num) i
        push_cast at l1 l2
        rcases h1.lt_or_eq with h1 | h1
        · have hlog : Int.log 2 i < 24 := by
            rw [← Int.lt_zpow_iff_log_lt (by norm_num) hip]
            exact_mod_cast h1
          have hlog1 : 1 ≤ Int.log 2 i := by
            rw [← Int.zpow_le_iff_le_log (by norm_num) hip]
            norm_num
            linarith
          obtain ⟨n, hn⟩ : ∃ n : ℕ, Int.log 2 i = n := ⟨(Int.log 2 i).toNat, by omega⟩
          have hn24 : n ≤ 23 := by omega
          obtain ⟨m, hm⟩ : ∃ m : ℕ, n + m = 23 := ⟨23 - n, by omega⟩
          obtain ⟨j, hj⟩ := single_multiple hi (k := n - 23) (by
            rw [abs_of_pos hip, show ((n : ℤ) - 23 + 23) = Int.log 2 i by omega]
            exact l1)
          have hk : ((n : ℤ) - 23) = -(m : ℤ) := by omega
          rw [hk] at hj
          have hj1 : (j : ℝ) = i * 2 ^ m := by
            rw [hj, zpow_neg, zpow_natCast]
            field_simp
          have e : 1 - i = ((2 ^ m - j : ℤ) : ℝ) * 2 ^ (-(m : ℤ)) := by
            rw [hj]
            push_cast
            rw [sub_mul, zpow_neg, zpow_natCast, mul_inv_cancel₀ (by positivity)]
          rw [e]
          refine single_mul ?_ (by omega)
          have a : ((2 ^ m : ℤ) : ℝ) ≤ j := by
            rw [hj1]
            push_cast
            have : (0 : ℝ) < 2 ^ m := by positivity
            nlinarith
          have b : (j : ℝ) < ((2 ^ 24 : ℤ) : ℝ) := by
            rw [hj1]
            have h3 : i < 2 ^ (n + 1) := by
              rw [hn] at l2
              exact_mod_cast l2
            calc i * 2 ^ m < 2 ^ (n + 1) * 2 ^ m := mul_lt_mul_of_pos_right h3 (by positivity)
              _ = 2 ^ 24 := by rw [← pow_add]; congr 1; omega
              _ = ((2 ^ 24 : ℤ) : ℝ) := by norm_num
          have a' : 2 ^ m ≤ j := by exact_mod_cast a
          have b' : j < 2 ^ 24 := by exact_mod_cast b
          have c' : (0 : ℤ) < 2 ^ m := by positivity
          rw [abs_le]
          constructor <;> omega
        · rw [h1]
          refine ⟨1 - 2 ^ 24, 0, by norm_num, by norm_num, by norm_num⟩
    rw [R.exact hs]
    rw [show i + (1 - i) = 1 by ring, R.exact single_one]
  · push Not at hh
    have he := R.error (x := 1 - i) (by linarith) (by linarith)
    rw [abs_le] at he
    have lo : (1 - 1 / 2 ^ 25 : ℝ) ≤ i + R.rnd (1 - i) := by linarith
    have hi' : i + R.rnd (1 - i) ≤ 1 + 1 / 2 ^ 25 := by linarith
    have h2 := R.mono lo
    have h3 := R.mono hi'
    have h4 : R.rnd (1 + 1 / 2 ^ 25) = 1 := by
      have := R.to_eq (x := 1 + 1 / 2 ^ 25) (n := 2 ^ 23) (k := -23) (by norm_num) (by norm_num) (by norm_num)
        (by norm_num [abs_lt])
      rw [this]
      norm_num
    rw [ht] at h2
    rw [h4] at h3
    linarith

end Rounding

namespace Rounding64

variable (D : Rounding64)

theorem abs_le_pow {x : ℝ} {k : ℤ} (hk : -1074 ≤ k) (h : |x| ≤ 2 ^ k) : |D.rnd x| ≤ 2 ^ k := by
  rw [abs_le] at h ⊢
  have h1 := D.mono h.1
  have h2 := D.mono h.2
  rw [D.exact (double_neg (double_pow hk))] at h1
  rw [D.exact (double_pow hk)] at h2
  exact ⟨h1, h2⟩

/-- Small numbers do not overflow. -/
theorem result_of_le {x : ℝ} {k : ℤ} (hk : -1074 ≤ k) (hk2 : k ≤ 1023) (h : |x| ≤ 2 ^ k) :
    D.result (fin x) = fin (D.rnd x) ∧ |D.rnd x| ≤ 2 ^ k := by
  have h1 := D.abs_le_pow hk h
  refine ⟨?_, h1⟩
  show D.store x = _
  rw [Rounding64.store, if_pos]
  refine lt_of_le_of_lt h1 ?_
  generalize hn : 1024 = n
  rw [← zpow_natCast]
  exact zpow_lt_zpow_right₀ (by norm_num) (by omega)

end Rounding64

/-! ## Matrices -/

namespace Machine

variable (M : Machine)

/-- A number that rounding to `float` leaves alone. -/
def Fix (x : ℝ) : Prop := M.f (fin x) = fin x

variable {M}

/-- Moving to the middle, scaling by one and moving back does nothing. -/
theorem center_one {cx cy : ℝ} (h0 : M.Fix 0) (h1 : M.Fix 1) (hx : M.Fix cx) (hy : M.Fix cy) (hx' : M.Fix (-cx))
    (hy' : M.Fix (-cy)) :
    M.mmul (M.mmul (M.translate (fin cx) (fin cy) (fin 0)) (M.scale (fin 1) (fin 1) (fin 1)))
      (M.translate (fin (-cx)) (fin (-cy)) (fin 0)) = ident := by
  unfold Fix at *
  funext i j
  fin_cases i <;> fin_cases j <;> simp [mmul, translate, scale, ident, add, mul, *]

/-- The same after moving by nothing at all. -/
theorem zoom_one {cx cy : ℝ} (h0 : M.Fix 0) (h1 : M.Fix 1) (hx : M.Fix cx) (hy : M.Fix cy) (hx' : M.Fix (-cx))
    (hy' : M.Fix (-cy)) :
    M.mmul (M.mmul (M.mmul (M.translate (fin 0) (fin 0) (fin 0)) (M.translate (fin cx) (fin cy) (fin 0)))
      (M.scale (fin 1) (fin 1) (fin 1))) (M.translate (fin (-cx)) (fin (-cy)) (fin 0)) = ident := by
  unfold Fix at *
  funext i j
  fin_cases i <;> fin_cases j <;> simp [mmul, translate, scale, ident, add, mul, *]

theorem rotate_zero (h0 : M.Fix 0) (h1 : M.Fix 1) (hs : M.sinf 0 = 0) (hc : M.cosf 0 = 1) :
    M.rotate (fin 0) ![fin 1, fin 0, fin 0] = ident ∧ M.rotate (fin 0) ![fin 0, fin 1, fin 0] = ident := by
  unfold Fix at *
  constructor
  all_goals
    funext i j
    fin_cases i <;> fin_cases j <;> simp [rotate, rotation, call, ident, add, sub, mul, *]

/-- What is left of a glide without rotation: the depth `v`. -/
theorem glide_one {cx cy v : ℝ} (h0 : M.Fix 0) (h1 : M.Fix 1) (hx : M.Fix cx) (hy : M.Fix cy) (hx' : M.Fix (-cx))
    (hy' : M.Fix (-cy)) (hv : M.Fix v) :
    M.mmul (M.mmul (M.mmul (M.mmul (M.mmul (M.translate (fin cx) (fin cy) (fin 0)) (M.translate (fin 0) (fin 0) (fin 0)))
      ident) ident) ![![fin 1, fin 0, fin 0, fin 0], ![fin 0, fin 1, fin 0, fin 0], ![fin 0, fin 0, fin 0, fin v], ![fin 0, fin 0, fin 0, fin 1]])
      (M.translate (fin (-cx)) (fin (-cy)) (fin 0)) =
      ![![fin 1, fin 0, fin 0, fin 0], ![fin 0, fin 1, fin 0, fin 0], ![fin 0, fin 0, fin 0, fin v], ![fin 0, fin 0, fin 0, fin 1]] := by
  unfold Fix at *
  funext i j
  fin_cases i <;> fin_cases j <;> simp [mmul, translate, ident, add, mul, *]

theorem transform_ident {p : Pt} {x y : ℝ} (h0 : M.Fix 0) (h1 : M.Fix 1) (hx : M.f (fin p.x) = fin x) (hy : M.f (fin p.y) = fin y)
    (fx : M.Fix x) (fy : M.Fix y) : M.transformPoint p ident = ⟨fin x, fin y, fin 0, fin 1⟩ := by
  unfold Fix at *
  simp [transformPoint, ident, add, mul, *]

/-! ## Without rounding these are the exact transforms -/

/-- A matrix of numbers. -/
def ofMat (A : Mat4) : Mat32 := fun i j => fin (A i j)

theorem exact_mmul (A B : Mat4) : exact.mmul (ofMat A) (ofMat B) = ofMat (A * B) := by
  funext i j
  simp only [mmul, ofMat, add, mul, exact, id, XR.fin_mul, XR.fin_add, Matrix.mul_apply, Fin.sum_univ_four]

theorem exact_translate (x y z : ℝ) : exact.translate (fin x) (fin y) (fin z) = ofMat (Mat4.translate x y z) := by
  funext i j
  fin_cases i <;> fin_cases j <;> simp [translate, ofMat, Mat4.translate, ident, add, mul, exact]

theorem exact_scale (x y z : ℝ) : exact.scale (fin x) (fin y) (fin z) = ofMat (Mat4.scale x y z) := by
  funext i j
  fin_cases i <;> fin_cases j <;> simp [scale, ofMat, Mat4.scale, ident, mul, exact]

theorem exact_rotateX (a : ℝ) : exact.rotate (fin a) ![fin 1, fin 0, fin 0] = ofMat (Mat4.rotateX a) := by
  funext i j
  fin_cases i <;> fin_cases j <;> simp [rotate, rotation, call, ofMat, Mat4.rotateX, ident, add, sub, mul, exact]

theorem exact_rotateY (a : ℝ) : exact.rotate (fin a) ![fin 0, fin 1, fin 0] = ofMat (Mat4.rotateY a) := by
  funext i j
  fin_cases i <;> fin_cases j <;> simp [rotate, rotation, call, ofMat, Mat4.rotateY, ident, add, sub, mul, exact]

theorem exact_perspective {w : ℕ} (h : w ≠ 0) : exact.perspective w = ofMat (Glide.perspective w) := by
  funext i j
  have : (w : ℝ) ≠ 0 := by exact_mod_cast h
  fin_cases i <;> fin_cases j <;>
    simp [perspective, ofMat, Glide.perspective, exact, divD, XR.fin_div _ this]

theorem exact_bounce (p : Bounce.Params) (r : ℝ) : exact.bounceTransform p (fin r) =
    ofMat (Bounce.transform r p.initialScale p.maximumScale p.nBounce p.target) := by
  have h2 : ∀ a : ℝ, fin a / fin 2 = fin (a / 2) := fun a => XR.fin_div a (by norm_num)
  have hs : exact.bounceScale (fin r) p.initialScale p.maximumScale p.nBounce =
      fin (Bounce.scaleFactor r p.initialScale p.maximumScale p.nBounce) := by
    simp [bounceScale, Bounce.scaleFactor, sampleSineWave, Bounce.sampleSineWave, call, exact, sub, mul, add, mulD]
  have hc : ∀ lo hi : ℝ, exact.centerOffset (fin lo) (fin hi) = fin ((hi - lo) / 2) := by
    intro lo hi
    simp [centerOffset, divD, subD, exact, h2]
  have hm : ∀ x : ℝ, exact.f (exact.mulD (fin (-1)) (fin x)) = fin (-1 * x) := fun x => rfl
  have hf : ∀ x : ℝ, exact.f (fin x) = fin x := fun x => rfl
  unfold bounceTransform Bounce.transform boxCenterOffset
  simp only [hs, hc, hm, hf, exact_translate, exact_scale, exact_mmul]

theorem exact_zoom (frm dst : Box) (r : ℝ) (M : Mat4) (h : Zoom.transform r frm dst = some M) :
    exact.zoomTransform (ofBox frm) (ofBox dst) (fin r) = ofMat M := by
  unfold Zoom.transform at h
  by_cases hz : dst.br.x - dst.tl.x = 0 ∨ dst.br.y - dst.tl.y = 0
  · simp [hz] at h
  · simp only [if_neg hz, Option.some.injEq] at h
    push Not at hz
    subst h
    have h2 : ∀ a : ℝ, fin a / fin 2 = fin (a / 2) := fun a => XR.fin_div a (by norm_num)
    have hc : ∀ lo hi : ℝ, exact.centerOffset (fin lo) (fin hi) = fin ((hi - lo) / 2) := by
      intro lo hi
      simp [centerOffset, divD, subD, exact, h2]
    have hd : ∀ x y : ℝ, y ≠ 0 → exact.divD (fin x) (fin y) = fin (x / y) := fun x y hy => XR.fin_div x hy
    have hm : ∀ x y : ℝ, exact.mulD (fin x) (fin y) = fin (x * y) := fun x y => rfl
    have ha : ∀ x y : ℝ, exact.addD (fin x) (fin y) = fin (x + y) := fun x y => rfl
    have hs : ∀ x y : ℝ, exact.subD (fin x) (fin y) = fin (x - y) := fun x y => XR.fin_sub x y
    have hs' : ∀ x y : ℝ, exact.sub (fin x) (fin y) = fin (x - y) := fun x y => XR.fin_sub x y
    have hf : ∀ x : ℝ, exact.f (fin x) = fin x := fun x => rfl
    unfold zoomTransform center ofBox boxCenter boxCenterOffset
    simp only [hc, hs, hs', hm, ha, hd _ _ hz.1, hd _ _ hz.2, hf, exact_translate, exact_scale, exact_mmul]
    rfl

theorem exact_glide (p : Glide.Params) (hw : p.screenWidth ≠ 0) (r : ℝ) :
    exact.glideTransform p (fin r) = ofMat (Glide.transform r p) := by
  have hd : ∀ x y : ℝ, y ≠ 0 → exact.divD (fin x) (fin y) = fin (x / y) := fun x y hy => XR.fin_div x hy
  have hm : ∀ x y : ℝ, exact.mulD (fin x) (fin y) = fin (x * y) := fun x y => rfl
  have hm' : ∀ x y : ℝ, exact.mul (fin x) (fin y) = fin (x * y) := fun x y => rfl
  have hs : ∀ x y : ℝ, exact.subD (fin x) (fin y) = fin (x - y) := fun x y => XR.fin_sub x y
  have hs' : ∀ x y : ℝ, exact.sub (fin x) (fin y) = fin (x - y) := fun x y => XR.fin_sub x y
  have hf : ∀ x : ℝ, exact.f (fin x) = fin x := fun x => rfl
  have hr : ∀ g : ℝ, exact.degreesToRadians g = fin (Glide.degreesToRadians g) := by
    intro g
    unfold degreesToRadians Glide.degreesToRadians
    rw [hd _ _ (by norm_num), hm, hf]
    rfl
  unfold glideTransform axisOffset Glide.transform rotationAxisOffset
  simp only [hr, hs, hs', hm, hm', hf, exact_translate, exact_rotateX, exact_rotateY, exact_perspective hw, exact_mmul]

theorem exact_point (p : Pt) (A : Mat4) : exact.transformPoint p (ofMat A) =
    ⟨fin (Verif.transformPoint p A).x, fin (Verif.transformPoint p A).y, fin (Verif.transformPoint p A).z,
      fin (Verif.transformPoint p A).w⟩ := by
  simp only [transformPoint, Verif.transformPoint, ofMat, add, mul, exact, id, XR.fin_mul, XR.fin_add, Matrix.mulVec, dotProduct,
    Fin.sum_univ_four]
  simp [add_assoc]

end Machine

end

end Verif
