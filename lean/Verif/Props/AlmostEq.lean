import Verif.Model.Matchers
import Verif.Lemmas.Float64

/-! # `AlmostEq` and `WithinGeometry` (C112) -/

namespace Verif.Props

open Matchers

theorem neg_double {x : ℝ} : Double x → Double (-x) := by
  rintro ⟨m, e, hm, he, rfl⟩
  exact ⟨-m, e, by rwa [abs_neg], he, by push_cast; ring⟩

/-- **C112.** On `double`, with every way of rounding: what `AlmostEq` accepts differs by less than the tolerance. -/
theorem C112_accepted (R : Rounding64) {value tolerance x : ℝ} (ht : Double tolerance)
    (h : almostEq R.rnd value tolerance x) : |x - value| < tolerance := by
  unfold almostEq at h
  by_contra hc
  rw [not_lt, abs_sub_comm] at hc
  have k := R.exact ht
  rcases le_abs.1 hc with g | g
  · have := R.mono g
    rw [k] at this
    have := le_abs_self (R.rnd (value - x))
    linarith
  · have h1 : value - x ≤ -tolerance := by linarith
    have := R.mono h1
    rw [R.exact (neg_double ht)] at this
    have := neg_le_abs (R.rnd (value - x))
    linarith

/-- **C112.** It accepts everything that is as near as some `double` below the tolerance, and with that the value
itself. -/
theorem C112_accepts (R : Rounding64) {value tolerance x t : ℝ} (ht : Double t) (hlt : t < tolerance)
    (h : |x - value| ≤ t) : almostEq R.rnd value tolerance x := by
  unfold almostEq
  obtain ⟨h1, h2⟩ := abs_le.1 h
  have a := R.mono (show value - x ≤ t by linarith)
  have b := R.mono (show -t ≤ value - x by linarith)
  rw [R.exact ht] at a
  rw [R.exact (neg_double ht)] at b
  exact (abs_le.2 ⟨b, a⟩).trans_lt hlt

theorem C112_itself (R : Rounding64) (value : ℝ) {tolerance : ℝ} (h : 0 < tolerance) :
    almostEq R.rnd value tolerance value :=
  C112_accepts R (t := 0) ⟨0, 0, by norm_num, by norm_num, by simp⟩ h (by simp)

example : Double (1 / 4) ∧ Double 0 ∧ (0 : ℝ) < 1 / 4 :=
  ⟨⟨1, -2, by norm_num, by norm_num, by norm_num⟩, ⟨0, 0, by norm_num, by norm_num, by simp⟩, by norm_num⟩

theorem truncate_of_nonneg {t : ℝ} (h : 0 ≤ t) : truncate t = ⌊t⌋ := if_pos h

/-- **C112.** On `int`, only the whole part of the tolerance counts. -/
theorem C112_integers {value x : ℤ} {tolerance : ℝ} (h0 : 0 ≤ tolerance) (h1 : tolerance < 2 ^ 31)
    (hd : |value - x| < 2 ^ 31) : almostEqInt value tolerance x = .ok (|x - value| < ⌊tolerance⌋) := by
  have hf : 0 ≤ ⌊tolerance⌋ := Int.floor_nonneg.2 h0
  have hf' : ⌊tolerance⌋ < 2 ^ 31 := Int.floor_lt.2 (by norm_num at h1 ⊢; exact h1)
  obtain ⟨d1, d2⟩ := abs_lt.1 hd
  unfold almostEqInt
  rw [truncate_of_nonneg h0, if_pos ⟨by omega, hf', by omega, d2⟩, abs_sub_comm]

/-- **C112 (negation).** So with a tolerance below 1 no `int` is almost equal to itself. -/
theorem C112_integers_never {value x : ℤ} {tolerance : ℝ} (h0 : 0 ≤ tolerance) (h1 : tolerance < 1)
    (hd : |value - x| < 2 ^ 31) : almostEqInt value tolerance x = .ok False := by
  rw [C112_integers h0 (by linarith) hd]
  have : ⌊tolerance⌋ = 0 := Int.floor_eq_zero_iff.2 ⟨h0, h1⟩
  rw [this]
  exact congrArg Outcome.ok (eq_false (not_lt.2 (abs_nonneg _)))

example : (0 : ℝ) ≤ 0.5 ∧ (0.5 : ℝ) < 1 ∧ |(7 : ℤ) - 7| < 2 ^ 31 := ⟨by norm_num, by norm_num, by norm_num⟩

/-- **C112.** On `unsigned int` a value that is not above the expected one is compared the same way; one above it is
compared with its distance taken from `2 ^ 32`. -/
theorem C112_unsigned {value x : ℤ} {tolerance : ℝ} (hv : 0 ≤ value ∧ value < 2 ^ 32) (hx : 0 ≤ x ∧ x < 2 ^ 32)
    (h0 : 0 ≤ tolerance) (h1 : tolerance < 2 ^ 32) :
    almostEqUnsigned value tolerance x =
      .ok (if x ≤ value then value - x < ⌊tolerance⌋ else 2 ^ 32 - (x - value) < ⌊tolerance⌋) := by
  have hf : 0 ≤ ⌊tolerance⌋ := Int.floor_nonneg.2 h0
  have hf' : ⌊tolerance⌋ < 2 ^ 32 := Int.floor_lt.2 (by norm_num at h1 ⊢; exact h1)
  unfold almostEqUnsigned
  rw [truncate_of_nonneg h0, if_pos ⟨hf, hf'⟩]
  refine congrArg Outcome.ok ?_
  split_ifs with hc
  · rw [Int.emod_eq_of_lt (by omega) (by omega)]
  · have : (value - x) % 2 ^ 32 = 2 ^ 32 - (x - value) := by omega
    rw [this]

/-- **C112 (negation).** So an `unsigned int` just above the expected value is rejected, the one as far below it
accepted. -/
theorem C112_unsigned_above {value d : ℤ} {tolerance : ℝ} (hd : 0 < d) (ht : (d : ℝ) + 1 ≤ tolerance) (hv : d ≤ value)
    (hs : value + d < 2 ^ 31) (h1 : tolerance < 2 ^ 31) :
    almostEqUnsigned value tolerance (value - d) = .ok True ∧ almostEqUnsigned value tolerance (value + d) = .ok False := by
  have hdr : (0 : ℝ) < d := by exact_mod_cast hd
  have hf : d + 1 ≤ ⌊tolerance⌋ := Int.le_floor.2 (by push_cast; exact ht)
  have hf' : ⌊tolerance⌋ < 2 ^ 31 := Int.floor_lt.2 (by norm_num at h1 ⊢; exact h1)
  have h2 : tolerance < 2 ^ 32 := by linarith
  constructor
  · rw [C112_unsigned ⟨by omega, by omega⟩ ⟨by omega, by omega⟩ (by linarith) h2, if_pos (by omega)]
    exact congrArg Outcome.ok (eq_true (by omega))
  · rw [C112_unsigned ⟨by omega, by omega⟩ ⟨by omega, by omega⟩ (by linarith) h2, if_neg (by omega)]
    exact congrArg Outcome.ok (eq_false (by omega))

example : (0 : ℤ) < 1 ∧ (((1 : ℤ) : ℝ) + 1 ≤ 3) ∧ (1 : ℤ) ≤ 5 ∧ (5 + 1 : ℤ) < 2 ^ 31 ∧ (3 : ℝ) < 2 ^ 31 := by norm_num

/-- **C112.** `WithinGeometry` accepts exactly the points between the corners, edges included. -/
theorem C112_within (parent : Box) (p : Pt) :
    withinGeometry parent p ↔ p.x ∈ Set.Icc parent.tl.x parent.br.x ∧ p.y ∈ Set.Icc parent.tl.y parent.br.y := by
  unfold withinGeometry Box.contains
  simp only [Set.mem_Icc, ge_iff_le]
  tauto

example : withinGeometry ⟨⟨97, 97⟩, ⟨103, 103⟩⟩ ⟨103, 97⟩ := by
  rw [C112_within]
  norm_num

end Verif.Props
