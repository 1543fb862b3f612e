import Verif.Lemmas.XR
import Verif.Model.Float32
import Mathlib.Data.Int.Log
import Mathlib.Tactic.Linarith
import Mathlib.Tactic.Positivity
import Mathlib.Tactic.NormNum
import Mathlib.Tactic.FieldSimp
import Mathlib.Tactic.Ring

/-! # Rounding to single precision -/

namespace Verif

open XR (fin)

noncomputable section

theorem single_zero : Single 0 := ⟨0, 0, by norm_num, by norm_num, by simp⟩

theorem single_one : Single 1 := ⟨1, 0, by norm_num, by norm_num, by simp⟩

/-- Multiples of a power of two. -/
theorem single_mul {m e : ℤ} (hm : |m| ≤ 2 ^ 24) (he : -149 ≤ e) : Single (m * 2 ^ e) := by
  rcases hm.lt_or_eq with h | h
  · exact ⟨m, e, h, he, rfl⟩
  · rcases abs_eq (by norm_num : (0 : ℤ) ≤ 2 ^ 24) |>.1 h with h | h
    · refine ⟨1, e + 24, by norm_num, by omega, ?_⟩
      rw [h, zpow_add₀ (by norm_num)]
      push_cast
      norm_num
      ring
    · refine ⟨-1, e + 24, by norm_num, by omega, ?_⟩
      rw [h, zpow_add₀ (by norm_num)]
      push_cast
      norm_num
      ring

theorem single_nat {n : ℕ} (h : n ≤ 2 ^ 24) : Single n := by
  have := single_mul (m := n) (e := 0) (by rw [abs_of_nonneg (by positivity)]; exact_mod_cast h) (by norm_num)
  simpa using this

/-- Above a power of two the numbers are multiples of the spacing there. -/
theorem single_multiple {x : ℝ} (h : Single x) {k : ℤ} (hx : (2 : ℝ) ^ (k + 23) ≤ |x|) : ∃ j : ℤ, x = j * 2 ^ k := by
  obtain ⟨m, e, hm, -, rfl⟩ := h
  have hk : k ≤ e := by
    by_contra hlt
    have : |(m : ℝ) * 2 ^ e| < 2 ^ (k + 23) := by
      rw [abs_mul, abs_of_pos (by positivity : (0 : ℝ) < 2 ^ e)]
      have h1 : |(m : ℝ)| < 2 ^ (24 : ℤ) := by
        have : ((|m| : ℤ) : ℝ) < ((2 ^ 24 : ℤ) : ℝ) := by exact_mod_cast hm
        rw [Int.cast_abs] at this
        refine this.trans_eq ?_
        norm_num
      calc |(m : ℝ)| * 2 ^ e < 2 ^ (24 : ℤ) * 2 ^ e := by
            exact mul_lt_mul_of_pos_right h1 (by positivity)
        _ = (2 : ℝ) ^ (24 + e) := by rw [zpow_add₀ (by norm_num)]
        _ ≤ 2 ^ (k + 23) := zpow_le_zpow_right₀ (by norm_num) (by omega)
    linarith
  refine ⟨m * 2 ^ (e - k).toNat, ?_⟩
  push_cast
  rw [← zpow_natCast, Int.toNat_of_nonneg (by omega), mul_assoc, ← zpow_add₀ (by norm_num)]
  congr 2
  ring

/-- The spacing used to round `x`. -/
def spacing (x : ℝ) : ℤ := max (-149) (Int.log 2 |x| - 23)

/-- A rounding to nearest, made from a way `g` of rounding to a nearest integer. -/
def roundingOf (g : ℝ → ℤ) (hg : ∀ x (j : ℤ), |x - g x| ≤ |x - j|) : Rounding where
  rnd x := g (x / 2 ^ spacing x) * 2 ^ spacing x
  single x := by
    have hp : (0 : ℝ) < 2 ^ spacing x := by positivity
    refine single_mul ?_ (le_max_left _ _)
    have h1 : |x| < 2 ^ (spacing x + 24) := by
      have := Int.lt_zpow_succ_log_self (b := 2) (by norm_num) |x|
      refine lt_of_lt_of_le (by exact_mod_cast this) (zpow_le_zpow_right₀ (by norm_num) ?_)
      unfold spacing
      have := le_max_right (-149) (Int.log 2 |x| - 23)
      omega
    have h2 : |x / 2 ^ spacing x| < 2 ^ 24 := by
      rw [abs_div, abs_of_pos hp, div_lt_iff₀ hp, ← zpow_natCast, ← zpow_add₀ (by norm_num)]
      rw [add_comm]
      exact h1
    have h3 := (hg (x / 2 ^ spacing x) _).trans (abs_sub_round (x / 2 ^ spacing x))
    have h4 : |((g (x / 2 ^ spacing x) : ℤ) : ℝ)| < 2 ^ 24 + 1 := by
      calc |((g (x / 2 ^ spacing x) : ℤ) : ℝ)| = |x / 2 ^ spacing x - (x / 2 ^ spacing x - g (x / 2 ^ spacing x))| := by congr 1; ring
        _ ≤ |x / 2 ^ spacing x| + |x / 2 ^ spacing x - g (x / 2 ^ spacing x)| := abs_sub _ _
        _ < 2 ^ 24 + 1 := by linarith
    have h5 : |g (x / 2 ^ spacing x)| < 2 ^ 24 + 1 := by
      have : ((|g (x / 2 ^ spacing x)| : ℤ) : ℝ) < ((2 ^ 24 + 1 : ℤ) : ℝ) := by
        rw [Int.cast_abs]
        refine h4.trans_eq ?_
        norm_num
      exact_mod_cast this
    omega
  nearest x y hy := by
    have hp : (0 : ℝ) < 2 ^ spacing x := by positivity
    -- among multiples of the spacing
    have grid : ∀ j : ℤ, |g (x / 2 ^ spacing x) * 2 ^ spacing x - x| ≤ |(j : ℝ) * 2 ^ spacing x - x| := by
      intro j
      have h := hg (x / 2 ^ spacing x) j
      have e : ∀ i : ℤ, |(i : ℝ) * 2 ^ spacing x - x| = |x / 2 ^ spacing x - i| * 2 ^ spacing x := by
        intro i
        rw [← abs_of_pos hp, ← abs_mul, abs_of_pos hp, ← abs_neg]
        congr 1
        field_simp
        ring
      rw [e, e]
      exact mul_le_mul_of_nonneg_right h hp.le
    by_cases hb : (2 : ℝ) ^ (spacing x + 23) ≤ |y|
    · obtain ⟨j, rfl⟩ := single_multiple hy hb
      exact grid j
    · push Not at hb
      rcases max_choice (-149) (Int.log 2 |x| - 23) with hc | hc
      · -- denormalised range: every float is a multiple
        obtain ⟨m, e, -, he, rfl⟩ := hy
        have hs : spacing x = -149 := hc
        have : ((m : ℝ) * 2 ^ e) = ((m * 2 ^ (e + 149).toNat : ℤ) : ℝ) * 2 ^ spacing x := by
          push_cast
          rw [hs, ← zpow_natCast, Int.toNat_of_nonneg (by omega), mul_assoc, ← zpow_add₀ (by norm_num)]
          congr 2
          ring
        rw [this]
        exact grid _
      · have hs : spacing x = Int.log 2 |x| - 23 := hc
        by_cases hx : x = 0
        · subst hx
          exact (grid 0).trans (by simp)
        have hlog : (2 : ℝ) ^ (spacing x + 23) ≤ |x| := by
          have := Int.zpow_log_le_self (b := 2) (r := |x|) (by norm_num) (abs_pos.2 hx)
          rw [hs]
          simpa using this
        -- the power of two with the sign of x is between
        have e2 : ((2 : ℝ) ^ (spacing x + 23)) = ((2 ^ 23 : ℤ) : ℝ) * 2 ^ spacing x := by
          rw [add_comm, zpow_add₀ (by norm_num)]
          norm_num
        rcases lt_or_gt_of_ne hx with hn | hn
        · have h1 := grid (-(2 ^ 23))
          rw [abs_of_neg hn] at hlog
          have e3 : ((-(2 ^ 23) : ℤ) : ℝ) * 2 ^ spacing x = -(2 : ℝ) ^ (spacing x + 23) := by
            rw [e2]
            push_cast
            ring
          rw [e3] at h1
          refine h1.trans ?_
          have := neg_abs_le y
          rw [abs_of_nonneg (by linarith), abs_of_nonneg (by linarith)]
          linarith
        · have h1 := grid (2 ^ 23)
          rw [abs_of_pos hn] at hlog
          rw [← e2] at h1
          refine h1.trans ?_
          have := le_abs_self y
          rw [abs_of_nonpos (by linarith), abs_of_nonpos (by linarith)]
          linarith

/-- There is a rounding to nearest. -/
def someRounding : Rounding := roundingOf round fun x j => round_le x j

namespace Rounding

variable (R : Rounding)

theorem exact {x : ℝ} (h : Single x) : R.rnd x = x := by
  have := R.nearest x x h
  simp only [sub_self, abs_zero] at this
  have := abs_nonpos_iff.1 this
  linarith

theorem mono {x y : ℝ} (h : x ≤ y) : R.rnd x ≤ R.rnd y := by
  rcases h.lt_or_eq with h | rfl
  · by_contra hlt
    push Not at hlt
    have h1 := R.nearest x _ (R.single y)
    have h2 := R.nearest y _ (R.single x)
    rcases abs_cases (R.rnd x - x) with ⟨a, _⟩ | ⟨a, _⟩ <;> rcases abs_cases (R.rnd y - x) with ⟨b, _⟩ | ⟨b, _⟩ <;>
      rcases abs_cases (R.rnd y - y) with ⟨c, _⟩ | ⟨c, _⟩ <;> rcases abs_cases (R.rnd x - y) with ⟨d, _⟩ | ⟨d, _⟩ <;>
      linarith
  · exact le_rfl

theorem nonneg {x : ℝ} (h : 0 ≤ x) : 0 ≤ R.rnd x := by
  have := R.mono h
  rwa [R.exact single_zero] at this

theorem one_le {x : ℝ} (h : 1 ≤ x) : 1 ≤ R.rnd x := by
  have := R.mono h
  rwa [R.exact single_one] at this

theorem le_one {x : ℝ} (h : x ≤ 1) : R.rnd x ≤ 1 := by
  have := R.mono h
  rwa [R.exact single_one] at this

/-- Rounding error in the unit interval. -/
theorem error {x : ℝ} (h0 : 0 ≤ x) (h1 : x ≤ 1) : |R.rnd x - x| ≤ 1 / 2 ^ 25 := by
  have hs : Single (round (x * 2 ^ 24) * 2 ^ (-24 : ℤ)) := by
    refine single_mul ?_ (by norm_num)
    have a : (0 : ℤ) ≤ round (x * 2 ^ 24) := by
      rw [round_eq, Int.floor_nonneg]
      positivity
    have b : round (x * 2 ^ 24) ≤ 2 ^ 24 := by
      rw [round_eq, ← Int.lt_add_one_iff, Int.floor_lt]
      push_cast
      nlinarith
    rw [abs_of_nonneg a]
    exact b
  refine (R.nearest x _ hs).trans ?_
  have := abs_sub_round (x * 2 ^ 24)
  have e : |(round (x * 2 ^ 24) : ℝ) * 2 ^ (-24 : ℤ) - x| = |x * 2 ^ 24 - round (x * 2 ^ 24)| * 2 ^ (-24 : ℤ) := by
    rw [← abs_of_pos (by positivity : (0 : ℝ) < 2 ^ (-24 : ℤ)), ← abs_mul, abs_of_pos (by positivity : (0 : ℝ) < 2 ^ (-24 : ℤ)),
      ← abs_neg]
    congr 1
    norm_num
    ring
  rw [e]
  calc _ ≤ 1 / 2 * (2 : ℝ) ^ (-24 : ℤ) := mul_le_mul_of_nonneg_right this (by positivity)
    _ = 1 / 2 ^ 25 := by norm_num

/-- Rounding to a known number: nearer than half the spacing. -/
theorem to_eq {x : ℝ} {n k : ℤ} (hx : (2 : ℝ) ^ (k + 23) ≤ x) (hn : |n| ≤ 2 ^ 24) (hk : -149 ≤ k)
    (h : |n * 2 ^ k - x| < 2 ^ k / 2) : R.rnd x = n * 2 ^ k := by
  have hp : (0 : ℝ) < 2 ^ k := by positivity
  have h1 : (2 : ℝ) ^ (k + 23) ≤ R.rnd x := by
    have := R.mono hx
    have hs : Single ((2 : ℝ) ^ (k + 23)) := ⟨1, k + 23, by norm_num, by omega, by simp⟩
    rwa [R.exact hs] at this
  obtain ⟨j, hj⟩ := single_multiple (R.single x) (h1.trans (le_abs_self _))
  have h2 := R.nearest x _ (single_mul hn hk)
  have h3 : |(j : ℝ) * 2 ^ k - n * 2 ^ k| < 2 ^ k := by
    rw [← hj]
    have := abs_sub_le (R.rnd x) x (n * 2 ^ k)
    rw [abs_sub_comm x] at this
    linarith
  have h4 : |((j - n : ℤ) : ℝ)| < 1 := by
    push_cast
    rw [← sub_mul, abs_mul, abs_of_pos hp] at h3
    by_contra hc
    push Not at hc
    nlinarith
  have h5 : |j - n| < 1 := by
    have : ((|j - n| : ℤ) : ℝ) < ((1 : ℤ) : ℝ) := by
      rw [Int.cast_abs]
      simpa using h4
    exact_mod_cast this
  have : j = n := by
    have := Int.abs_lt_one_iff.1 h5
    omega
  rw [hj, this]

end Rounding

/-! ## The linear stepper -/

/-- What `Step` makes of a value of the stepper. -/
def unit : XR → ℝ
  | .fin r => min 1 (max 0 r)
  | .pinf => 1
  | _ => 0

theorem clamp_unit (v : XR) : clamp v (fin 0) (fin 1) = fin (unit v) := by
  cases v with
  | nan => exact XR.clamp_nan
  | ninf => exact XR.clamp_ninf
  | pinf => exact XR.clamp_pinf
  | fin r => exact XR.clamp_fin r

theorem unit_nonneg (v : XR) : 0 ≤ unit v := by
  cases v <;> simp [unit]

theorem unit_le_one (v : XR) : unit v ≤ 1 := by
  cases v <;> simp [unit]

/-- The values a stepper of non-negative length can have. -/
def Good (p : XR) : Prop := p = .pinf ∨ ∃ r, 0 ≤ r ∧ Single r ∧ r < 2 ^ 128 ∧ p = fin r

theorem good_zero : Good (fin 0) := Or.inr ⟨0, le_rfl, single_zero, by norm_num, rfl⟩

namespace Rounding

variable (R : Rounding)

theorem store_cases {x : ℝ} (h : 0 ≤ x) :
    (R.rnd x < 2 ^ 128 ∧ R.store x = fin (R.rnd x)) ∨ (2 ^ 128 ≤ R.rnd x ∧ R.store x = .pinf) := by
  unfold store
  rw [abs_of_nonneg (R.nonneg h)]
  by_cases hc : R.rnd x < 2 ^ 128
  · exact Or.inl ⟨hc, if_pos hc⟩
  · refine Or.inr ⟨not_lt.1 hc, ?_⟩
    rw [if_neg hc]
    have : x ≠ 0 := by
      rintro rfl
      rw [R.exact single_zero] at hc
      norm_num at hc
    unfold XR.signed
    rw [if_pos (lt_of_le_of_ne h (Ne.symm this))]

theorem store_good {x : ℝ} (h : 0 ≤ x) : Good (R.store x) := by
  rcases R.store_cases h with ⟨h1, h2⟩ | ⟨-, h2⟩ <;> rw [h2]
  · exact Or.inr ⟨_, R.nonneg h, R.single x, h1, rfl⟩
  · exact Or.inl rfl

theorem unit_store {x : ℝ} (h : 0 ≤ x) : unit (R.store x) = min 1 (R.rnd x) := by
  rcases R.store_cases h with ⟨h1, h2⟩ | ⟨h1, h2⟩ <;> rw [h2]
  · simp only [unit]
    rw [max_eq_right (R.nonneg h)]
  · simp only [unit]
    rw [min_eq_left]
    refine le_trans ?_ h1
    norm_num

theorem unit_store_error {x : ℝ} (h : 0 ≤ x) : |unit (R.store x) - min 1 x| ≤ 1 / 2 ^ 25 := by
  rw [R.unit_store h]
  rcases le_total x 1 with h1 | h1
  · rw [min_eq_right h1, min_eq_right (R.le_one h1)]
    exact R.error h h1
  · rw [min_eq_left h1, min_eq_left (R.one_le h1)]
    simp

theorem result_good {p : XR} (h : Good p) : R.result p = p := by
  rcases h with rfl | ⟨r, h0, hs, hr, rfl⟩
  · rfl
  · show R.store r = _
    unfold store
    rw [R.exact hs, abs_of_nonneg h0, if_pos hr]

/-- The increment. -/
def share (L : ℝ) (m : ℕ) : XR := R.result (R.result (fin m) / fin L)

theorem share_good {L : ℝ} (hL : 0 < L) (m : ℕ) : Good (R.share L m) := by
  have hm : Good (R.result (fin m)) := R.store_good (Nat.cast_nonneg m)
  unfold share
  rcases hm with h | ⟨r, h0, -, -, h⟩ <;> rw [h]
  · have : (XR.pinf / fin L) = .pinf := by
      show (if L < 0 then XR.ninf else .pinf) = _
      rw [if_neg (not_lt.2 hL.le)]
    rw [this]
    exact Or.inl rfl
  · rw [XR.fin_div _ hL.ne']
    exact R.store_good (by positivity)

theorem share_eq {L : ℝ} (hL : 0 < L) {m : ℕ} (hm : m ≤ 2 ^ 24) : R.share L m = R.store (m / L) := by
  unfold share
  rw [R.result_good (p := fin m) (Or.inr ⟨m, Nat.cast_nonneg m, single_nat hm, ?_, rfl⟩), XR.fin_div _ hL.ne']
  · rfl
  · have : (m : ℝ) ≤ 2 ^ 24 := by exact_mod_cast hm
    refine this.trans_lt (by norm_num)

theorem advance_eq (L : ℝ) (p : XR) (m : ℕ) : R.advance L p m = R.result (p + R.share L m) := rfl

theorem advance_cases {L : ℝ} (hL : 0 < L) {p : XR} (hp : Good p) (m : ℕ) :
    R.advance L p m = .pinf ∧ (p = .pinf ∨ R.share L m = .pinf) ∨
    ∃ r q, 0 ≤ r ∧ Single r ∧ 0 ≤ q ∧ Single q ∧ p = fin r ∧ R.share L m = fin q ∧ R.advance L p m = R.store (r + q) := by
  have hq := R.share_good hL m
  rw [advance_eq]
  rcases hp with rfl | ⟨r, h0, hs, hr, rfl⟩
  · left
    rcases hq with h | ⟨q, h1, -, -, h⟩ <;> rw [h] <;> exact ⟨rfl, Or.inl rfl⟩
  · rcases hq with h | ⟨q, h1, h2, -, h⟩
    · left
      rw [h]
      exact ⟨rfl, Or.inr rfl⟩
    · right
      exact ⟨r, q, h0, hs, h1, h2, rfl, h, by rw [h]; rfl⟩

theorem advance_good {L : ℝ} (hL : 0 < L) {p : XR} (hp : Good p) (m : ℕ) : Good (R.advance L p m) := by
  rcases R.advance_cases hL hp m with ⟨h, -⟩ | ⟨r, q, h0, -, h1, -, -, -, h⟩ <;> rw [h]
  · exact Or.inl rfl
  · exact R.store_good (by positivity)

theorem advance_mono {L : ℝ} (hL : 0 < L) {p : XR} (hp : Good p) (m : ℕ) : unit p ≤ unit (R.advance L p m) := by
  rcases R.advance_cases hL hp m with ⟨h, -⟩ | ⟨r, q, h0, hs, h1, -, rfl, -, h⟩ <;> rw [h]
  · exact unit_le_one p
  · rw [R.unit_store (by positivity)]
    simp only [unit]
    rw [max_eq_right h0]
    refine min_le_min le_rfl ?_
    have := R.mono (show r ≤ r + q by linarith)
    rwa [R.exact hs] at this

theorem advance_unit {L : ℝ} (hL : 0 < L) {p : XR} (hp : Good p) (m : ℕ) :
    |unit (R.advance L p m) - min 1 (unit p + unit (R.share L m))| ≤ 1 / 2 ^ 25 := by
  rcases R.advance_cases hL hp m with ⟨h, h'⟩ | ⟨r, q, h0, hs, h1, -, rfl, hq, h⟩ <;> rw [h]
  · have : 1 ≤ unit p + unit (R.share L m) := by
      have a := unit_nonneg p
      have b := unit_nonneg (R.share L m)
      have c : unit XR.pinf = 1 := rfl
      rcases h' with h' | h'
      · rw [h', c]
        linarith
      · rw [h', c]
        linarith
    rw [min_eq_left this]
    simp [unit]
  · have e : min 1 (unit (fin r) + unit (R.share L m)) = min 1 (r + q) := by
      rw [hq]
      simp only [unit]
      rw [max_eq_right h0, max_eq_right h1]
      rcases le_total 1 r with a | a <;> rcases le_total 1 q with b | b <;> simp only [a, b, min_eq_left, min_eq_right] <;>
        (repeat rw [min_eq_left (by linarith)])
    rw [e]
    exact R.unit_store_error (by positivity)

theorem share_unit {L : ℝ} (hL : 0 < L) {m : ℕ} (hm : m ≤ 2 ^ 24) :
    |unit (R.share L m) - min 1 (m / L)| ≤ 1 / 2 ^ 25 := by
  rw [R.share_eq hL hm]
  exact R.unit_store_error (by positivity)

/-- One call is off by at most 2^-24. -/
theorem advance_error {L : ℝ} (hL : 0 < L) {p : XR} (hp : Good p) {m : ℕ} (hm : m ≤ 2 ^ 24) :
    |unit (R.advance L p m) - min 1 (unit p + m / L)| ≤ 1 / 2 ^ 24 := by
  have h1 := R.advance_unit hL hp m
  have h2 := R.share_unit hL hm
  have ht : 0 ≤ m / L := by positivity
  have hu := unit_nonneg p
  have e : min 1 (unit p + m / L) = min 1 (unit p + min 1 (m / L)) := by
    rcases le_total 1 ((m : ℝ) / L) with a | a
    · rw [min_eq_left a, min_eq_left (by linarith), min_eq_left (by linarith)]
    · rw [min_eq_right a]
  rw [e]
  have h3 : |min 1 (unit p + unit (R.share L m)) - min 1 (unit p + min 1 (m / L))| ≤ |unit (R.share L m) - min 1 (m / L)| := by
    have := abs_min_sub_min_le_max 1 (unit p + unit (R.share L m)) 1 (unit p + min 1 (m / L))
    simpa using this
  have := abs_sub_le (unit (R.advance L p m)) (min 1 (unit p + unit (R.share L m))) (min 1 (unit p + min 1 (m / L)))
  norm_num at h1 h2 h3 this ⊢
  linarith

theorem advance_zero {L : ℝ} (hL : 0 < L) {p : XR} (hp : Good p) : R.advance L p 0 = p := by
  have h : R.share L 0 = fin 0 := by
    rw [R.share_eq hL (by norm_num)]
    simp only [Nat.cast_zero, zero_div]
    exact R.result_good good_zero
  rw [advance_eq, h]
  have : p + fin 0 = p := by
    rcases hp with rfl | ⟨r, -, -, -, rfl⟩
    · rfl
    · simp
  rw [this, R.result_good hp]

/-- The value after the calls `ms`. -/
def raw (L : ℝ) (ms : List ℕ) : XR := ms.foldl (R.advance L) (fin 0)

theorem raw_good {L : ℝ} (hL : 0 < L) (ms : List ℕ) : Good (R.raw L ms) := by
  have : ∀ (ms : List ℕ) (p : XR), Good p → Good (ms.foldl (R.advance L) p) := by
    intro ms
    induction ms with
    | nil => exact fun p h => h
    | cons m ms ih => exact fun p h => ih _ (R.advance_good hL h m)
  exact this ms _ good_zero

theorem raw_snoc (L : ℝ) (ms : List ℕ) (m : ℕ) : R.raw L (ms ++ [m]) = R.advance L (R.raw L ms) m := by
  simp [raw]

theorem raw_mono {L : ℝ} (hL : 0 < L) (ms ms' : List ℕ) : unit (R.raw L ms) ≤ unit (R.raw L (ms ++ ms')) := by
  induction ms' using List.reverseRecOn with
  | nil => simp
  | append_singleton l m ih =>
    rw [← List.append_assoc, R.raw_snoc]
    exact ih.trans (R.advance_mono hL (R.raw_good hL _) m)

theorem raw_error {L : ℝ} (hL : 0 < L) (ms : List ℕ) (h : ∀ m ∈ ms, m ≤ 2 ^ 24) :
    |unit (R.raw L ms) - min 1 ((ms.sum : ℕ) / L)| ≤ ms.length / 2 ^ 24 := by
  induction ms using List.reverseRecOn with
  | nil => simp [raw, unit]
  | append_singleton l m ih =>
    have ih := ih fun x hx => h x (by simp [hx])
    have h1 := R.advance_error hL (R.raw_good hL l) (h m (by simp))
    rw [R.raw_snoc]
    have hm : 0 ≤ m / L := by positivity
    have hl : 0 ≤ ((l.sum : ℕ) : ℝ) / L := by positivity
    have e : min 1 (((l ++ [m]).sum : ℕ) / L) = min 1 (min 1 ((l.sum : ℕ) / L) + m / L) := by
      rw [List.sum_append, List.sum_singleton, Nat.cast_add, add_div]
      rcases le_total 1 (((l.sum : ℕ) : ℝ) / L) with a | a
      · rw [min_eq_left a, min_eq_left (by linarith), min_eq_left (by linarith)]
      · rw [min_eq_right a]
    rw [e]
    have h3 : |min 1 (unit (R.raw L l) + m / L) - min 1 (min 1 ((l.sum : ℕ) / L) + m / L)| ≤
        |unit (R.raw L l) - min 1 ((l.sum : ℕ) / L)| := by
      have := abs_min_sub_min_le_max 1 (unit (R.raw L l) + m / L) 1 (min 1 ((l.sum : ℕ) / L) + m / L)
      simpa using this
    have := abs_sub_le (unit (R.advance L (R.raw L l) m)) (min 1 (unit (R.raw L l) + m / L))
      (min 1 (min 1 ((l.sum : ℕ) / L) + m / L))
    rw [List.length_append, List.length_singleton, Nat.cast_add, Nat.cast_one]
    have e2 : ((l.length : ℝ) + 1) / 2 ^ 24 = l.length / 2 ^ 24 + 1 / 2 ^ 24 := by ring
    rw [e2]
    linarith

/-! ## Ending -/

theorem raw_finished {L : ℝ} (hL : 0 < L) (ms : List ℕ) (m : ℕ) (hm : m ≤ 2 ^ 24)
    (h : 1 - unit (R.raw L ms) + 1 / 2 ^ 25 ≤ m / L) : unit (R.raw L (ms ++ [m])) = 1 := by
  rw [R.raw_snoc]
  have hg := R.raw_good hL ms
  rcases R.advance_cases hL hg m with ⟨e, -⟩ | ⟨r, q, h0, hs, h1, hq, e1, e2, e⟩ <;> rw [e]
  · rfl
  · rw [R.unit_store (by positivity), min_eq_left]
    refine R.one_le ?_
    rw [e1] at h
    simp only [unit] at h
    rw [max_eq_right h0] at h
    have h3 := R.share_unit hL hm
    rw [e2] at h3
    simp only [unit] at h3
    rw [max_eq_right h1] at h3
    have h4 := abs_le.1 h3
    rcases le_total 1 r with a | a
    · linarith
    · rw [min_eq_right a] at h
      rcases le_total 1 q with b | b
      · linarith
      · rw [min_eq_right b] at h4
        rcases le_total 1 ((m : ℝ) / L) with c | c
        · rw [min_eq_left c] at h4
          -- rounding a share of at least one gives at least one
          rw [R.share_eq hL hm] at e2
          have h5 := R.unit_store (x := (m : ℝ) / L) (by positivity)
          rw [e2, min_eq_left (R.one_le c)] at h5
          simp only [unit] at h5
          rw [max_eq_right h1, min_eq_right b] at h5
          linarith
        · rw [min_eq_right c] at h4
          linarith

/-- Adding more than half the spacing just below one brings a number of the unit interval on. -/
theorem sum_gain {r q : ℝ} (h0 : 0 ≤ r) (hs : Single r) (hq : (1 + 1 / 2 ^ 23) / 2 ^ 25 ≤ q) (h1 : r + q ≤ 1) :
    r + 1 / 2 ^ 26 ≤ R.rnd (r + q) := by
  have hq0 : 0 ≤ q := le_trans (by norm_num) hq
  have he := abs_le.1 (R.error (x := r + q) (by linarith) h1)
  have hlt : r < R.rnd (r + q) := by
    norm_num at he hq
    linarith
  rcases le_total (1 / 4) r with h | h
  · obtain ⟨j, hj⟩ := single_multiple hs (k := -25) (by rw [abs_of_nonneg h0]; norm_num; linarith)
    obtain ⟨i, hi⟩ := single_multiple (R.single (r + q)) (k := -25) (by
      rw [abs_of_nonneg (by linarith)]
      norm_num
      linarith)
    rw [hi] at hlt ⊢
    rw [hj] at hlt ⊢
    have hij : j < i := by
      have : (j : ℝ) < i := lt_of_mul_lt_mul_right hlt (by positivity)
      exact_mod_cast this
    have : (j : ℝ) + 1 ≤ i := by exact_mod_cast hij
    norm_num
    linarith
  · rcases le_total (r + q) (1 / 2) with h2 | h2
    · have hs2 : Single (round ((r + q) * 2 ^ 25) * 2 ^ (-25 : ℤ)) := by
        refine single_mul ?_ (by norm_num)
        have a : (0 : ℤ) ≤ round ((r + q) * 2 ^ 25) := by
          rw [round_eq, Int.floor_nonneg]
          positivity
        have b : round ((r + q) * 2 ^ 25) ≤ 2 ^ 24 := by
          rw [round_eq, ← Int.lt_add_one_iff, Int.floor_lt]
          push_cast
          norm_num
          linarith
        rw [abs_of_nonneg a]
        exact b
      have h3 := (abs_le.1 (R.nearest (r + q) _ hs2)).1
      have h4 : |(round ((r + q) * 2 ^ 25) : ℝ) * 2 ^ (-25 : ℤ) - (r + q)| ≤ 1 / 2 ^ 26 := by
        have := abs_le.1 (abs_sub_round ((r + q) * 2 ^ 25))
        rw [abs_le]
        norm_num at this ⊢
        constructor <;> linarith
      norm_num at h3 h4 hq ⊢
      linarith
    · norm_num at he ⊢
      linarith

/-- A frame of more than 2^-25 of the length, by a little, brings the animation on by at least 2^-26. -/
theorem advance_gain {L : ℝ} (hL : 0 < L) {p : XR} (hp : Good p) {m : ℕ} (hm : m ≤ 2 ^ 24)
    (h : L * (1 + 1 / 2 ^ 23) ≤ m * 2 ^ 25) : min 1 (unit p + 1 / 2 ^ 26) ≤ unit (R.advance L p m) := by
  have ht : (1 + 1 / 2 ^ 23) / 2 ^ 25 ≤ (m : ℝ) / L := by
    rw [div_le_div_iff₀ (by norm_num) hL]
    linarith
  have hq : (1 + 1 / 2 ^ 23) / 2 ^ 25 ≤ R.rnd (m / L) := by
    have := R.mono ht
    rwa [R.exact (x := (1 + 1 / 2 ^ 23) / 2 ^ 25) ⟨2 ^ 23 + 1, -48, by norm_num, by norm_num, by norm_num⟩] at this
  rcases R.advance_cases hL hp m with ⟨e, -⟩ | ⟨r, q, h0, hs, hq0, -, rfl, e2, e⟩ <;> rw [e]
  · exact min_le_left _ _
  · rw [R.unit_store (by positivity)]
    refine le_min (min_le_left _ _) ?_
    rcases le_total 1 (r + q) with a | a
    · exact (min_le_left _ _).trans (R.one_le a)
    · refine (min_le_right _ _).trans ?_
      have hq' : q = R.rnd (m / L) := by
        rw [R.share_eq hL hm] at e2
        rcases R.store_cases (x := (m : ℝ) / L) (by positivity) with ⟨-, k⟩ | ⟨-, k⟩ <;> rw [k] at e2
        · simpa using e2.symm
        · simp at e2
      have := R.sum_gain h0 hs (hq' ▸ hq) a
      simp only [unit]
      rw [max_eq_right h0, min_eq_right (by linarith)]
      exact this

theorem raw_gain {L : ℝ} (hL : 0 < L) (ms : List ℕ) (h : ∀ m ∈ ms, m ≤ 2 ^ 24 ∧ L * (1 + 1 / 2 ^ 23) ≤ m * 2 ^ 25) :
    min 1 ((ms.length : ℝ) / 2 ^ 26) ≤ unit (R.raw L ms) := by
  induction ms using List.reverseRecOn with
  | nil => simp [raw, unit]
  | append_singleton l m ih =>
    have ih := ih fun x hx => h x (by simp [hx])
    obtain ⟨h1, h2⟩ := h m (by simp)
    rw [R.raw_snoc]
    refine le_trans ?_ (R.advance_gain hL (R.raw_good hL l) h1 h2)
    rw [List.length_append, List.length_singleton, Nat.cast_add, Nat.cast_one, add_div]
    refine le_min (min_le_left _ _) ?_
    rcases le_total 1 ((l.length : ℝ) / 2 ^ 26) with a | a
    · rw [min_eq_left a] at ih
      exact (min_le_left _ _).trans (by linarith [show (0 : ℝ) ≤ 1 / 2 ^ 26 by norm_num])
    · rw [min_eq_right a] at ih
      exact (min_le_right _ _).trans (by linarith)

/-- Just above one half. -/
theorem half_stuck {x : ℝ} (h : x ≤ 1 / 2 + (1 - 1 / 2 ^ 24) / 2 ^ 25) : R.rnd x ≤ 1 / 2 := by
  have h2 : R.rnd (1 / 2 + (1 - 1 / 2 ^ 24) / 2 ^ 25) = 1 / 2 := by
    rw [R.to_eq (n := 2 ^ 23) (k := -24) (by norm_num) (by norm_num) (by norm_num) (by norm_num)]
    norm_num
  rw [← h2]
  exact R.mono h

/-- With frames of less than 2^-25 of the length, by a little, the middle is never passed. -/
theorem raw_stuck {L : ℝ} (hL : 0 < L) (ms : List ℕ) (h : ∀ m ∈ ms, m ≤ 2 ^ 24 ∧ (m : ℝ) * 2 ^ 25 ≤ L * (1 - 1 / 2 ^ 24)) :
    ∃ r, R.raw L ms = fin r ∧ 0 ≤ r ∧ r ≤ 1 / 2 := by
  induction ms using List.reverseRecOn with
  | nil => exact ⟨0, rfl, le_rfl, by norm_num⟩
  | append_singleton l m ih =>
    obtain ⟨r, e, h0, h1⟩ := ih fun x hx => h x (by simp [hx])
    obtain ⟨hm, hmL⟩ := h m (by simp)
    have ht : (m : ℝ) / L ≤ (1 - 1 / 2 ^ 24) / 2 ^ 25 := by
      rw [div_le_div_iff₀ hL (by norm_num)]
      linarith
    have hq : R.rnd (m / L) ≤ (1 - 1 / 2 ^ 24) / 2 ^ 25 := by
      have := R.mono ht
      rwa [R.exact (x := (1 - 1 / 2 ^ 24) / 2 ^ 25) ⟨2 ^ 24 - 1, -49, by norm_num, by norm_num, by norm_num⟩] at this
    have hq0 : 0 ≤ R.rnd (m / L) := R.nonneg (by positivity)
    have hs : R.share L m = fin (R.rnd (m / L)) := by
      rw [R.share_eq hL hm]
      rcases R.store_cases (x := (m : ℝ) / L) (by positivity) with ⟨-, h⟩ | ⟨h, -⟩
      · exact h
      · exfalso
        have := h.trans hq
        norm_num at this
    have hx : R.rnd (r + R.rnd (m / L)) ≤ 1 / 2 := R.half_stuck (by linarith)
    refine ⟨R.rnd (r + R.rnd (m / L)), ?_, R.nonneg (by linarith), hx⟩
    rw [R.raw_snoc, e, advance_eq, hs]
    show R.store (r + R.rnd (m / L)) = _
    rcases R.store_cases (x := r + R.rnd (m / L)) (by linarith) with ⟨-, h⟩ | ⟨h, -⟩
    · exact h
    · exfalso
      have := h.trans hx
      norm_num at this

end Rounding

end

end Verif
