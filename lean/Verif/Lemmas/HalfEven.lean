import Verif.Lemmas.Float32

/-! # Rounding halves to even -/

namespace Verif

noncomputable section

open Classical in
/-- The nearest integer, halves to the even one. -/
def nearEven (x : ℝ) : ℤ :=
  if Int.fract x = 1 / 2 then (if Even ⌊x⌋ then ⌊x⌋ else ⌊x⌋ + 1) else round x

theorem half_le {x : ℝ} (h : Int.fract x = 1 / 2) (j : ℤ) : 1 / 2 ≤ |x - j| := by
  have hx : x = ⌊x⌋ + 1 / 2 := by rw [← h]; exact (Int.floor_add_fract x).symm
  rcases le_or_gt j ⌊x⌋ with hj | hj
  · have : (j : ℝ) ≤ ⌊x⌋ := by exact_mod_cast hj
    rw [le_abs]
    left
    linarith
  · have : (⌊x⌋ : ℝ) + 1 ≤ j := by exact_mod_cast hj
    rw [le_abs]
    right
    linarith

theorem nearEven_nearest (x : ℝ) (j : ℤ) : |x - nearEven x| ≤ |x - j| := by
  unfold nearEven
  split_ifs with h h2
  · have hx : x - ⌊x⌋ = 1 / 2 := h
    rw [hx]
    refine le_trans ?_ (half_le h j)
    norm_num
  · have hx : x - (⌊x⌋ + 1 : ℤ) = -(1 / 2) := by
      have : x - ⌊x⌋ = 1 / 2 := h
      push_cast
      linarith
    rw [hx]
    refine le_trans ?_ (half_le h j)
    norm_num
  · exact round_le x j

theorem nearEven_neg (x : ℝ) : nearEven (-x) = -nearEven x := by
  have key : x = ⌊x⌋ + Int.fract x := (Int.floor_add_fract x).symm
  have f0 := Int.fract_nonneg x
  have f1 := Int.fract_lt_one x
  by_cases h : Int.fract x = 1 / 2
  · have hfl : ⌊-x⌋ = -⌊x⌋ - 1 := by
      rw [Int.floor_eq_iff]
      push_cast
      rw [h] at key
      constructor <;> linarith
    have hfr : Int.fract (-x) = 1 / 2 := by
      rw [Int.fract, hfl]
      push_cast
      rw [h] at key
      linarith
    unfold nearEven
    rw [if_pos hfr, if_pos h, hfl]
    by_cases he : Even ⌊x⌋
    · rw [if_pos he, if_neg (by rw [Int.even_sub_one, Int.not_even_iff_odd, Int.not_odd_iff_even, even_neg]; exact he)]
      ring
    · rw [if_neg he, if_pos (by rw [Int.even_sub_one, even_neg]; exact he)]
      ring
  · have hfr : Int.fract (-x) ≠ 1 / 2 := by
      intro hc
      apply h
      have k2 : -x = ⌊-x⌋ + Int.fract (-x) := (Int.floor_add_fract (-x)).symm
      rw [hc] at k2
      have hfl : ⌊x⌋ = -⌊-x⌋ - 1 := by
        rw [Int.floor_eq_iff]
        push_cast
        constructor <;> linarith
      rw [Int.fract, hfl]
      push_cast
      linarith
    unfold nearEven
    rw [if_neg hfr, if_neg h, round_eq, round_eq]
    rcases lt_or_gt_of_ne h with hlt | hgt
    · have a : ⌊x + 1 / 2⌋ = ⌊x⌋ := by
        rw [Int.floor_eq_iff]
        constructor <;> linarith
      have b : ⌊-x + 1 / 2⌋ = -⌊x⌋ := by
        rw [Int.floor_eq_iff]
        push_cast
        constructor <;> linarith
      rw [a, b]
    · have a : ⌊x + 1 / 2⌋ = ⌊x⌋ + 1 := by
        rw [Int.floor_eq_iff]
        push_cast
        constructor <;> linarith
      have b : ⌊-x + 1 / 2⌋ = -(⌊x⌋ + 1) := by
        rw [Int.floor_eq_iff]
        push_cast
        constructor <;> linarith
      rw [a, b]

/-- The default rounding of IEEE 754: to nearest, halves to even. -/
def halfEven : Rounding := roundingOf nearEven nearEven_nearest

theorem spacing_neg (x : ℝ) : spacing (-x) = spacing x := by
  unfold spacing
  rw [abs_neg]

theorem halfEven_neg (x : ℝ) : halfEven.rnd (-x) = -halfEven.rnd x := by
  show (nearEven (-x / 2 ^ spacing (-x)) : ℝ) * 2 ^ spacing (-x) = -((nearEven (x / 2 ^ spacing x) : ℝ) * 2 ^ spacing x)
  rw [spacing_neg, neg_div, nearEven_neg]
  push_cast
  ring

theorem halfEven_below_one : halfEven.rnd (1 - 1 / 2 ^ 25) = 1 := by
  have hs : spacing (1 - 1 / 2 ^ 25) = -24 := by
    have hl : Int.log 2 |(1 - 1 / 2 ^ 25 : ℝ)| = -1 := by
      rw [abs_of_pos (by norm_num)]
      have h1 : (-1 : ℤ) ≤ Int.log 2 (1 - 1 / 2 ^ 25 : ℝ) := by
        rw [← Int.zpow_le_iff_le_log (by norm_num) (by norm_num)]
        norm_num
      have h2 : Int.log 2 (1 - 1 / 2 ^ 25 : ℝ) < 0 := by
        rw [← Int.lt_zpow_iff_log_lt (by norm_num) (by norm_num)]
        norm_num
      omega
    unfold spacing
    rw [hl]
    norm_num
  show (nearEven ((1 - 1 / 2 ^ 25) / 2 ^ spacing (1 - 1 / 2 ^ 25)) : ℝ) * 2 ^ spacing (1 - 1 / 2 ^ 25) = 1
  rw [hs]
  have e : ((1 - 1 / 2 ^ 25 : ℝ) / 2 ^ (-24 : ℤ)) = 16777215 + 1 / 2 := by norm_num
  rw [e]
  have hf : ⌊(16777215 + 1 / 2 : ℝ)⌋ = 16777215 := by
    rw [Int.floor_eq_iff]
    norm_num
  have : nearEven (16777215 + 1 / 2) = 16777216 := by
    unfold nearEven
    rw [if_pos (by rw [Int.fract, hf]; norm_num), hf, if_neg (by decide)]
    norm_num
  rw [this]
  norm_num

end

end Verif
