import Verif.Model.WobblyDouble
import Mathlib.Data.Int.Log
import Mathlib.Tactic.Linarith
import Mathlib.Tactic.Positivity
import Mathlib.Tactic.NormNum
import Mathlib.Tactic.FieldSimp
import Mathlib.Tactic.Ring

/-! # Rounding to double precision -/

namespace Verif

noncomputable section

theorem double_zero : Double 0 := ⟨0, 0, by norm_num, by norm_num, by simp⟩

theorem double_one : Double 1 := ⟨1, 0, by norm_num, by norm_num, by simp⟩

/-- Multiples of a power of two. -/
theorem double_mul {m e : ℤ} (hm : |m| ≤ 2 ^ 53) (he : -1074 ≤ e) : Double (m * 2 ^ e) := by
  rcases hm.lt_or_eq with h | h
  · exact ⟨m, e, h, he, rfl⟩
  · rcases abs_eq (by norm_num : (0 : ℤ) ≤ 2 ^ 53) |>.1 h with h | h
    · refine ⟨1, e + 53, by norm_num, by omega, ?_⟩
      rw [h, zpow_add₀ (by norm_num)]
      push_cast
      norm_num
      ring
    · refine ⟨-1, e + 53, by norm_num, by omega, ?_⟩
      rw [h, zpow_add₀ (by norm_num)]
      push_cast
      norm_num
      ring

theorem double_nat {n : ℕ} (h : n ≤ 2 ^ 53) : Double n := by
  have := double_mul (m := n) (e := 0) (by rw [abs_of_nonneg (by positivity)]; exact_mod_cast h) (by norm_num)
  simpa using this

/-- Above a power of two the numbers are multiples of the spacing64 there. -/
theorem double_multiple {x : ℝ} (h : Double x) {k : ℤ} (hx : (2 : ℝ) ^ (k + 52) ≤ |x|) : ∃ j : ℤ, x = j * 2 ^ k := by
  obtain ⟨m, e, hm, -, rfl⟩ := h
  have hk : k ≤ e := by
    by_contra hlt
    have : |(m : ℝ) * 2 ^ e| < 2 ^ (k + 52) := by
      rw [abs_mul, abs_of_pos (by positivity : (0 : ℝ) < 2 ^ e)]
      have h1 : |(m : ℝ)| < 2 ^ (53 : ℤ) := by
        have : ((|m| : ℤ) : ℝ) < ((2 ^ 53 : ℤ) : ℝ) := by exact_mod_cast hm
        rw [Int.cast_abs] at this
        refine this.trans_eq ?_
        norm_num
      calc |(m : ℝ)| * 2 ^ e < 2 ^ (53 : ℤ) * 2 ^ e := by
            exact mul_lt_mul_of_pos_right h1 (by positivity)
        _ = (2 : ℝ) ^ (53 + e) := by rw [zpow_add₀ (by norm_num)]
        _ ≤ 2 ^ (k + 52) := zpow_le_zpow_right₀ (by norm_num) (by omega)
    linarith
  refine ⟨m * 2 ^ (e - k).toNat, ?_⟩
  push_cast
  rw [← zpow_natCast, Int.toNat_of_nonneg (by omega), mul_assoc, ← zpow_add₀ (by norm_num)]
  congr 2
  ring

/-- The spacing64 used to round `x`. -/
def spacing64 (x : ℝ) : ℤ := max (-1074) (Int.log 2 |x| - 52)

/-- There is a rounding to nearest. -/
def someRounding64 : Rounding64 where
  rnd x := round (x / 2 ^ spacing64 x) * 2 ^ spacing64 x
  double x := by
    have hp : (0 : ℝ) < 2 ^ spacing64 x := by positivity
    refine double_mul ?_ (le_max_left _ _)
    have h1 : |x| < 2 ^ (spacing64 x + 53) := by
      have := Int.lt_zpow_succ_log_self (b := 2) (by norm_num) |x|
      refine lt_of_lt_of_le (by exact_mod_cast this) (zpow_le_zpow_right₀ (by norm_num) ?_)
      unfold spacing64
      have := le_max_right (-1074) (Int.log 2 |x| - 52)
      omega
    have h2 : |x / 2 ^ spacing64 x| < 2 ^ 53 := by
      rw [abs_div, abs_of_pos hp, div_lt_iff₀ hp, ← zpow_natCast, ← zpow_add₀ (by norm_num)]
      rw [add_comm]
      exact h1
    have h3 := abs_sub_round (x / 2 ^ spacing64 x)
    have h4 : |((round (x / 2 ^ spacing64 x) : ℤ) : ℝ)| < 2 ^ 53 + 1 := by
      calc |((round (x / 2 ^ spacing64 x) : ℤ) : ℝ)| = |x / 2 ^ spacing64 x - (x / 2 ^ spacing64 x - round (x / 2 ^ spacing64 x))| := by congr 1; ring
        _ ≤ |x / 2 ^ spacing64 x| + |x / 2 ^ spacing64 x - round (x / 2 ^ spacing64 x)| := abs_sub _ _
        _ < 2 ^ 53 + 1 := by linarith
    have h5 : |round (x / 2 ^ spacing64 x)| < 2 ^ 53 + 1 := by
      have : ((|round (x / 2 ^ spacing64 x)| : ℤ) : ℝ) < ((2 ^ 53 + 1 : ℤ) : ℝ) := by
        rw [Int.cast_abs]
        refine h4.trans_eq ?_
        norm_num
      exact_mod_cast this
    omega
  nearest x y hy := by
    have hp : (0 : ℝ) < 2 ^ spacing64 x := by positivity
    -- among multiples of the spacing64
    have grid : ∀ j : ℤ, |round (x / 2 ^ spacing64 x) * 2 ^ spacing64 x - x| ≤ |(j : ℝ) * 2 ^ spacing64 x - x| := by
      intro j
      have h := round_le (x / 2 ^ spacing64 x) j
      have e : ∀ i : ℤ, |(i : ℝ) * 2 ^ spacing64 x - x| = |x / 2 ^ spacing64 x - i| * 2 ^ spacing64 x := by
        intro i
        rw [← abs_of_pos hp, ← abs_mul, abs_of_pos hp, ← abs_neg]
        congr 1
        field_simp
        ring
      rw [e, e]
      exact mul_le_mul_of_nonneg_right h hp.le
    by_cases hb : (2 : ℝ) ^ (spacing64 x + 52) ≤ |y|
    · obtain ⟨j, rfl⟩ := double_multiple hy hb
      exact grid j
    · push Not at hb
      rcases max_choice (-1074) (Int.log 2 |x| - 52) with hc | hc
      · -- denormalised range: every float is a multiple
        obtain ⟨m, e, -, he, rfl⟩ := hy
        have hs : spacing64 x = -1074 := hc
        have : ((m : ℝ) * 2 ^ e) = ((m * 2 ^ (e + 1074).toNat : ℤ) : ℝ) * 2 ^ spacing64 x := by
          push_cast
          rw [hs, ← zpow_natCast, Int.toNat_of_nonneg (by omega), mul_assoc, ← zpow_add₀ (by norm_num)]
          congr 2
          ring
        rw [this]
        exact grid _
      · have hs : spacing64 x = Int.log 2 |x| - 52 := hc
        by_cases hx : x = 0
        · subst hx
          simp
        have hlog : (2 : ℝ) ^ (spacing64 x + 52) ≤ |x| := by
          have := Int.zpow_log_le_self (b := 2) (r := |x|) (by norm_num) (abs_pos.2 hx)
          rw [hs]
          simpa using this
        -- the power of two with the sign of x is between
        have e2 : ((2 : ℝ) ^ (spacing64 x + 52)) = ((2 ^ 52 : ℤ) : ℝ) * 2 ^ spacing64 x := by
          rw [add_comm, zpow_add₀ (by norm_num)]
          norm_num
        rcases lt_or_gt_of_ne hx with hn | hn
        · have h1 := grid (-(2 ^ 52))
          rw [abs_of_neg hn] at hlog
          have e3 : ((-(2 ^ 52) : ℤ) : ℝ) * 2 ^ spacing64 x = -(2 : ℝ) ^ (spacing64 x + 52) := by
            rw [e2]
            push_cast
            ring
          rw [e3] at h1
          refine h1.trans ?_
          have := neg_abs_le y
          rw [abs_of_nonneg (by linarith), abs_of_nonneg (by linarith)]
          linarith
        · have h1 := grid (2 ^ 52)
          rw [abs_of_pos hn] at hlog
          rw [← e2] at h1
          refine h1.trans ?_
          have := le_abs_self y
          rw [abs_of_nonpos (by linarith), abs_of_nonpos (by linarith)]
          linarith

namespace Rounding64

variable (R : Rounding64)

theorem exact {x : ℝ} (h : Double x) : R.rnd x = x := by
  have := R.nearest x x h
  simp only [sub_self, abs_zero] at this
  have := abs_nonpos_iff.1 this
  linarith

theorem mono {x y : ℝ} (h : x ≤ y) : R.rnd x ≤ R.rnd y := by
  rcases h.lt_or_eq with h | rfl
  · by_contra hlt
    push Not at hlt
    have h1 := R.nearest x _ (R.double y)
    have h2 := R.nearest y _ (R.double x)
    rcases abs_cases (R.rnd x - x) with ⟨a, _⟩ | ⟨a, _⟩ <;> rcases abs_cases (R.rnd y - x) with ⟨b, _⟩ | ⟨b, _⟩ <;>
      rcases abs_cases (R.rnd y - y) with ⟨c, _⟩ | ⟨c, _⟩ <;> rcases abs_cases (R.rnd x - y) with ⟨d, _⟩ | ⟨d, _⟩ <;>
      linarith
  · exact le_rfl

theorem nonneg {x : ℝ} (h : 0 ≤ x) : 0 ≤ R.rnd x := by
  have := R.mono h
  rwa [R.exact double_zero] at this

theorem one_le {x : ℝ} (h : 1 ≤ x) : 1 ≤ R.rnd x := by
  have := R.mono h
  rwa [R.exact double_one] at this

theorem le_one {x : ℝ} (h : x ≤ 1) : R.rnd x ≤ 1 := by
  have := R.mono h
  rwa [R.exact double_one] at this

/-- Rounding error of numbers up to a power of two. -/
theorem error {x : ℝ} {k : ℤ} (hk : -1021 ≤ k) (hx : |x| ≤ 2 ^ k) : |R.rnd x - x| ≤ 2 ^ (k - 54) := by
  have hp : (0 : ℝ) < 2 ^ (k - 53) := by positivity
  have hs : Double (round (x / 2 ^ (k - 53)) * 2 ^ (k - 53)) := by
    refine double_mul ?_ (by omega)
    have a : |x / 2 ^ (k - 53)| ≤ 2 ^ 53 := by
      rw [abs_div, abs_of_pos hp, div_le_iff₀ hp, ← zpow_natCast, ← zpow_add₀ (by norm_num)]
      refine hx.trans_eq ?_
      congr 1
      push_cast
      ring
    have h3 := abs_sub_round (x / 2 ^ (k - 53))
    have h4 : |((round (x / 2 ^ (k - 53)) : ℤ) : ℝ)| < 2 ^ 53 + 1 := by
      calc _ = |x / 2 ^ (k - 53) - (x / 2 ^ (k - 53) - round (x / 2 ^ (k - 53)))| := by congr 1; ring
        _ ≤ |x / 2 ^ (k - 53)| + |x / 2 ^ (k - 53) - round (x / 2 ^ (k - 53))| := abs_sub _ _
        _ < 2 ^ 53 + 1 := by linarith
    have h5 : |round (x / 2 ^ (k - 53))| < 2 ^ 53 + 1 := by
      have : ((|round (x / 2 ^ (k - 53))| : ℤ) : ℝ) < ((2 ^ 53 + 1 : ℤ) : ℝ) := by
        rw [Int.cast_abs]
        refine h4.trans_eq ?_
        norm_num
      exact_mod_cast this
    omega
  refine (R.nearest x _ hs).trans ?_
  have := abs_sub_round (x / 2 ^ (k - 53))
  have e : |(round (x / 2 ^ (k - 53)) : ℝ) * 2 ^ (k - 53) - x| = |x / 2 ^ (k - 53) - round (x / 2 ^ (k - 53))| * 2 ^ (k - 53) := by
    rw [← abs_of_pos hp, ← abs_mul, abs_of_pos hp, ← abs_neg]
    congr 1
    field_simp
    ring
  rw [e]
  calc _ ≤ 1 / 2 * (2 : ℝ) ^ (k - 53) := mul_le_mul_of_nonneg_right this hp.le
    _ = 2 ^ (k - 54) := by
      rw [show k - 53 = (k - 54) + 1 by ring, zpow_add₀ (by norm_num)]
      norm_num
      ring

/-- Relative rounding error of numbers that are not tiny. -/
theorem relative {x : ℝ} (h : 2 ^ (-1021 : ℤ) ≤ x) : |R.rnd x - x| ≤ x * 2 ^ (-53 : ℤ) := by
  have hx : 0 < x := lt_of_lt_of_le (by positivity) h
  have h1 := Int.zpow_log_le_self (b := 2) (r := x) (by norm_num) hx
  have h2 := Int.lt_zpow_succ_log_self (b := 2) (by norm_num) x
  have h3 : -1021 ≤ Int.log 2 x := by
    rw [← Int.zpow_le_iff_le_log (by norm_num) hx]
    exact_mod_cast h
  have := R.error (x := x) (k := Int.log 2 x + 1) (by omega) (by rw [abs_of_pos hx]; exact_mod_cast h2.le)
  refine this.trans ?_
  rw [show Int.log 2 x + 1 - 54 = Int.log 2 x + -53 by ring, zpow_add₀ (by norm_num)]
  exact mul_le_mul_of_nonneg_right (by exact_mod_cast h1) (by positivity)

end Rounding64

/-- Different doubles differ by more than half of the last place of the smaller. -/
theorem double_gap {x y : ℝ} (hx : Double x) (hy : Double y) (h0 : 0 < x) (h : x < y) : x + x * 2 ^ (-53 : ℤ) < y := by
  have h1 := Int.zpow_log_le_self (b := 2) (r := x) (by norm_num) h0
  have h2 := Int.lt_zpow_succ_log_self (b := 2) (by norm_num) x
  push_cast at h1 h2
  set k := Int.log 2 x - 52 with hk
  have hp : (0 : ℝ) < 2 ^ k := by positivity
  have e1 : (2 : ℝ) ^ Int.log 2 x = 2 ^ (k + 52) := by congr 1; omega
  have e2 : (2 : ℝ) ^ (Int.log 2 x + 1) = 2 ^ k * 2 ^ (53 : ℤ) := by
    rw [← zpow_add₀ (by norm_num)]
    congr 1
    omega
  rw [e1] at h1
  rw [e2] at h2
  obtain ⟨i, hi⟩ := double_multiple hx (h1.trans (le_abs_self _))
  obtain ⟨j, hj⟩ := double_multiple hy ((h1.trans h.le).trans (le_abs_self _))
  have hij : i < j := by
    have : (i : ℝ) * 2 ^ k < j * 2 ^ k := by rw [← hi, ← hj]; exact h
    have := lt_of_mul_lt_mul_right this hp.le
    exact_mod_cast this
  have hij' : (i : ℝ) + 1 ≤ j := by exact_mod_cast hij
  have h3 : x * 2 ^ (-53 : ℤ) < 2 ^ k := by
    have := mul_lt_mul_of_pos_right h2 (by positivity : (0 : ℝ) < 2 ^ (-53 : ℤ))
    rwa [mul_assoc, ← zpow_add₀ (by norm_num), show (53 : ℤ) + -53 = 0 by norm_num, zpow_zero, mul_one] at this
  have h4 := mul_le_mul_of_nonneg_right hij' hp.le
  rw [add_mul, ← hi, ← hj] at h4
  linarith

/-- Quotients of different doubles do not round to one. -/
theorem Rounding64.div_eq_one (R : Rounding64) {x y : ℝ} (hx : Double x) (hy : Double y) (x0 : 0 < x) (y0 : 0 < y)
    (h : R.rnd (x / y) = 1) : x = y := by
  rcases lt_trichotomy x y with hlt | heq | hgt
  · exfalso
    have g := double_gap hx hy x0 hlt
    have h1 : x / y * (1 + 2 ^ (-53 : ℤ)) < 1 := by
      rw [div_mul_eq_mul_div, div_lt_one y0]
      linarith
    have h2 : x / y < 1 := (div_lt_one y0).2 hlt
    have hd : Double (((2 ^ 53 - 1 : ℤ) : ℝ) * 2 ^ (-53 : ℤ)) := double_mul (by norm_num) (by norm_num)
    have := R.nearest (x / y) _ hd
    rw [h, abs_of_pos (by linarith)] at this
    norm_num at this h1
    rcases abs_cases (9007199254740991 / 9007199254740992 - x / y) with ⟨a, _⟩ | ⟨a, _⟩ <;> linarith
  · exact heq
  · exfalso
    have g := double_gap hy hx y0 hgt
    have h1 : 1 + 2 ^ (-53 : ℤ) < x / y := by
      rw [lt_div_iff₀ y0]
      linarith
    have hd : Double (((2 ^ 52 + 1 : ℤ) : ℝ) * 2 ^ (-52 : ℤ)) := double_mul (by norm_num) (by norm_num)
    have := R.nearest (x / y) _ hd
    rw [h] at this
    norm_num at this h1
    rcases abs_cases (4503599627370497 / 4503599627370496 - x / y) with ⟨a, _⟩ | ⟨a, _⟩ <;>
      rcases abs_cases (1 - x / y) with ⟨b, _⟩ | ⟨b, _⟩ <;> linarith

end

end Verif
