import Verif.Model.Numeric
import Mathlib.Tactic.Linarith
import Mathlib.Tactic.Positivity
import Mathlib.Tactic.NormNum
import Mathlib.Tactic.FieldSimp
import Mathlib.Tactic.Ring

/-! Auxiliary facts about `XR`, `clamp`, `cRound`. -/

namespace Verif.XR

@[simp] theorem fin_inj {a b : ℝ} : fin a = fin b ↔ a = b := by
  constructor
  · intro h; injection h
  · rintro rfl; rfl

@[simp] theorem fin_add (a b : ℝ) : fin a + fin b = fin (a + b) := rfl
@[simp] theorem fin_neg (a : ℝ) : -fin a = fin (-a) := rfl
@[simp] theorem fin_sub (a b : ℝ) : fin a - fin b = fin (a - b) := by
  show fin a + -fin b = _
  simp [sub_eq_add_neg]
@[simp] theorem fin_mul (a b : ℝ) : fin a * fin b = fin (a * b) := rfl
theorem fin_div (a : ℝ) {b : ℝ} (h : b ≠ 0) : fin a / fin b = fin (a / b) := by
  show XR.div (fin a) (fin b) = _
  simp [XR.div, h]
theorem fin_div_zero (a : ℝ) : fin a / fin 0 = XR.signed a := by
  show XR.div (fin a) (fin 0) = _
  simp [XR.div]
@[simp] theorem fin_lt (a b : ℝ) : lt (fin a) (fin b) ↔ a < b := Iff.rfl
@[simp] theorem exp_fin (a : ℝ) : exp (fin a) = fin (Real.exp a) := rfl

theorem stdMin_fin (a b : ℝ) : stdMin (fin a) (fin b) = fin (min a b) := by
  unfold stdMin
  by_cases h : b < a
  · simp [h, min_eq_right h.le]
  · simp [h, min_eq_left (not_lt.mp h)]

/-- `clamp` to the unit interval on a finite value. -/
theorem clamp_fin (v : ℝ) : clamp (fin v) (fin 0) (fin 1) = fin (min 1 (max 0 v)) := by
  unfold clamp
  have : fmax (fin 0) (fin v) = fin (max 0 v) := by
    unfold fmax
    by_cases h : (0:ℝ) < v
    · simp [h, max_eq_right h.le]
    · simp [h, max_eq_left (not_lt.mp h)]
  rw [this]
  unfold fmin
  by_cases h : (1:ℝ) < max 0 v
  · simp only [fin_lt, h, if_true]; rw [min_eq_left h.le]
  · simp only [fin_lt, h, if_false]; rw [min_eq_right (not_lt.mp h)]

theorem clamp_nan : clamp nan (fin 0) (fin 1) = fin 0 := by
  have : fmax (fin 0) nan = fin 0 := rfl
  unfold clamp
  rw [this]
  unfold fmin
  simp only [fin_lt]
  norm_num

theorem clamp_pinf : clamp pinf (fin 0) (fin 1) = fin 1 := by
  have : fmax (fin 0) pinf = pinf := by simp [fmax, lt]
  unfold clamp
  rw [this]
  simp [fmin, lt]

theorem clamp_ninf : clamp ninf (fin 0) (fin 1) = fin 0 := by
  have : fmax (fin 0) ninf = fin 0 := by simp [fmax, lt]
  unfold clamp
  rw [this]
  unfold fmin
  simp only [fin_lt]
  norm_num

end Verif.XR
