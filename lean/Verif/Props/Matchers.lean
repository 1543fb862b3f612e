import Verif.Model.Matchers
import Verif.Lemmas.XR
import Verif.Lemmas.Outcome

/-! # The matchers for test suites (C91-C94) -/

namespace Verif.Props

open XR (fin)
open Matchers

noncomputable section

theorem close_fin (a b e : ℝ) : closeAtTolerance (fin a) (fin b) e ↔ |b - a| < e := by
  unfold closeAtTolerance
  rw [XR.fin_sub]
  exact Iff.rfl

theorem precision_ok {tol : ℝ} (ht : 0 < tol) : precision tol = .ok () := by
  unfold precision
  have h10 : Real.log 10 ≠ 0 := (Real.log_pos (by norm_num)).ne'
  have h1 : XR.log (fin (1 / tol)) = fin (Real.log (1 / tol)) := by
    have : 0 < 1 / tol := by positivity
    simp only [XR.log]
    rw [if_neg this.le.not_gt, if_neg this.ne']
  have h2 : XR.log (fin 10) = fin (Real.log 10) := by
    simp only [XR.log]
    rw [if_neg (by norm_num), if_neg (by norm_num)]
  rw [XR.fin_div _ ht.ne', h1, h2, XR.fin_div _ h10]

theorem precision_ub {tol : ℝ} (ht : ¬ 0 < tol) : precision tol = .ub := by
  unfold precision
  have h2 : XR.log (fin 10) = fin (Real.log 10) := by
    simp only [XR.log]
    rw [if_neg (by norm_num), if_neg (by norm_num)]
  rcases eq_or_lt_of_le (not_lt.1 ht) with rfl | hlt
  · rw [XR.fin_div_zero, h2, show XR.signed 1 = .pinf by simp [XR.signed]]
    show (match XR.div .pinf (fin (Real.log 10)) with | fin _ => _ | _ => _) = _
    simp only [XR.div]
    rw [if_neg (not_lt.2 (Real.log_nonneg (by norm_num)))]
  · have h1 : XR.log (fin (1 / tol)) = .nan := by
      simp only [XR.log]
      rw [if_pos (by simpa using hlt)]
    rw [XR.fin_div _ hlt.ne, h1]
    rfl

theorem satisfies_ok (F : (ℤ → ℝ) → ℕ → DataModel) {n : ℕ} (hn : n ≤ 31) {tol : ℝ} (ht : 0 < tol) (f : ℤ → ℝ) {Q : ℕ → Prop}
    (h : ∀ i < n, closeAtTolerance (F f (2 ^ n) (2 ^ i)) (fin (f (2 ^ i))) tol ↔ Q i) :
    satisfiesModel F n tol f = .ok (∀ i < n, Q i) := by
  unfold satisfiesModel collect
  rw [if_pos hn, Outcome.bind_ok]
  simp only
  rw [precision_ok ht, Outcome.bind_ok]
  refine congrArg Outcome.ok (propext ⟨fun a i hi => ?_, fun a i => ?_⟩)
  · have := a ⟨i, by simpa using hi⟩
    simp only [List.get_eq_getElem, List.getElem_map, List.getElem_range] at this
    exact (h i hi).1 this
  · have hi : i.val < n := by simpa using i.isLt
    simp only [List.get_eq_getElem, List.getElem_map, List.getElem_range]
    exact (h i hi).2 (a i hi)

/-- `f` is within `tol` of the line through its values at 0 and 1, at every power of two below `2 ^ n`. -/
def OnLine (n : ℕ) (tol : ℝ) (f : ℤ → ℝ) : Prop :=
  ∀ i < n, |f (2 ^ i) - (f 0 + (f 1 - f 0) * 2 ^ i)| < tol

/-- C91: the verdict of `SatisfiesModel (Linear)`. -/
theorem C91_verdict {n : ℕ} (hn : n ≤ 31) {tol : ℝ} (ht : 0 < tol) (f : ℤ → ℝ) :
    satisfiesModel linear n tol f = .ok (OnLine n tol f) := by
  apply satisfies_ok _ hn ht
  intro i hi
  rw [show linear f (2 ^ n) (2 ^ i) = fin (2 ^ i * (f 1 - f 0) + f 0) from rfl, close_fin]
  rw [show 2 ^ i * (f 1 - f 0) + f 0 = f 0 + (f 1 - f 0) * 2 ^ i by ring]

/-- C91: every straight line is accepted. -/
theorem C91_accepts_lines {n : ℕ} (hn : n ≤ 31) {tol : ℝ} (ht : 0 < tol) (a b : ℝ) {f : ℤ → ℝ}
    (hf : ∀ k, f k = a * k + b) : satisfiesModel linear n tol f = .ok True := by
  rw [C91_verdict hn ht]
  congr 1
  refine eq_true fun i _ => ?_
  simp only [hf]
  push_cast
  rw [show a * 2 ^ i + b - (a * 0 + b + (a * 1 + b - (a * 0 + b)) * 2 ^ i) = 0 by ring]
  simpa using ht

/-- C91: nothing but zero and the powers of two below `2 ^ n` is looked at. -/
theorem C91_only_powers (n : ℕ) (tol : ℝ) {f g : ℤ → ℝ} (h0 : g 0 = f 0) (h1 : g 1 = f 1)
    (h : ∀ i < n, g (2 ^ i) = f (2 ^ i)) : satisfiesModel linear n tol g = satisfiesModel linear n tol f := by
  by_cases hn : n ≤ 31
  · by_cases ht : 0 < tol
    · rw [C91_verdict hn ht, C91_verdict hn ht]
      congr 1
      refine propext (forall₂_congr fun i hi => ?_)
      rw [h0, h1, h i hi]
    · simp [satisfiesModel, collect, hn, precision_ub ht]
  · simp [satisfiesModel, collect, hn]

/-- C91: so a function may be accepted although it is far from a line. -/
theorem C91_blind {n : ℕ} (hn : n ≤ 31) {tol : ℝ} (ht : 0 < tol) (v : ℝ) :
    ∃ f : ℤ → ℝ, f 3 = v ∧ (∀ k, k ≠ 3 → f k = 0) ∧ satisfiesModel linear n tol f = .ok True := by
  refine ⟨Function.update (fun _ => 0) 3 v, by simp, fun k hk => by simp [hk], ?_⟩
  rw [C91_only_powers n tol (f := fun _ => 0) (by simp) (by simp), C91_accepts_lines hn ht 0 0 (by simp)]
  intro i hi
  rw [Function.update_of_ne]
  rcases i with _ | i
  · norm_num
  · rw [pow_succ]
    omega

/-- C91 for a real line with the default settings (30 samples, tolerance 10e-9). -/
example : satisfiesModel linear 30 (10e-9) (fun k => -2 * (k : ℝ) + 7) = .ok True :=
  C91_accepts_lines (by norm_num) (by norm_num) (-2) 7 fun _ => rfl

/-- C91 sees that a parabola is not a line. -/
example : satisfiesModel linear 30 (10e-9) (fun k => (k : ℝ) ^ 2) = .ok False := by
  rw [C91_verdict (by norm_num) (by norm_num)]
  refine congrArg Outcome.ok (eq_false fun h => ?_)
  have := h 1 (by norm_num)
  norm_num at this

theorem parabolic_one (f : ℤ → ℝ) (u : ℕ) : parabolic f u 1 = fin (f 1) := by
  unfold parabolic
  simp [XR.pow]

theorem toInt_pow {n : ℕ} (hn : n ≤ 30) : toInt (2 ^ n) = 2 ^ n := by
  unfold toInt
  have h : (2 ^ n : ℕ) ≤ 2 ^ 30 := Nat.pow_le_pow_right (by norm_num) hn
  have h2 : ((2 ^ n : ℕ) : ℤ) = (2 : ℤ) ^ n := by push_cast; rfl
  rw [← h2]
  generalize 2 ^ n = u at h ⊢
  omega

theorem two_pow_ne_one {i : ℕ} (hi : i ≠ 0) : (2 : ℝ) ^ i ≠ 1 :=
  (one_lt_pow₀ (by norm_num) hi).ne'

/-- C92: `SatisfiesModel (Parabolic)` accepts every `c + a x ^ m` unless it is constant. -/
theorem C92_powers {n : ℕ} (hn : n ≤ 30) {tol : ℝ} (ht : 0 < tol) {a m : ℝ} (hm : 0 < m) (c : ℝ) {f : ℤ → ℝ}
    (hf : ∀ k : ℕ, f k = a * (k : ℝ) ^ m + c) :
    satisfiesModel parabolic n tol f = .ok (a ≠ 0 ∨ n ≤ 1) := by
  have f0 : f 0 = c := by simpa [Real.zero_rpow hm.ne'] using hf 0
  have f1 : f 1 = a + c := by simpa using hf 1
  have fp : ∀ i : ℕ, f (2 ^ i) = a * ((2 : ℝ) ^ i) ^ m + c := fun i => by
    have := hf (2 ^ i)
    push_cast at this
    exact this
  rw [satisfies_ok parabolic (Q := fun i => a ≠ 0 ∨ i = 0) (by omega)]
  · congr 1
    refine propext ⟨fun h => ?_, fun h i hi => ?_⟩
    · by_contra hc
      push Not at hc
      rcases h 1 (by omega) with h | h
      · exact h hc.1
      · omega
    · rcases h with h | h
      · exact .inl h
      · exact .inr (by omega)
  · exact ht
  intro i hi
  rcases Nat.eq_zero_or_pos i with rfl | hi0
  · rw [pow_zero, parabolic_one, pow_zero, close_fin]
    simp [ht]
  have hn0 : n ≠ 0 := by omega
  have hu1 : (1 : ℝ) < 2 ^ n := one_lt_pow₀ (by norm_num) hn0
  have hlog : Real.log ((2 : ℝ) ^ n) ≠ 0 := (Real.log_pos hu1).ne'
  have e1 : parabolic f (2 ^ n) (2 ^ i) = fin a * XR.pow (2 ^ i)
      (XR.log (fin (a * ((2 : ℝ) ^ n) ^ m) / fin a) / fin (Real.log (2 ^ n))) + fin c := by
    unfold parabolic
    simp only [toInt_pow hn, fp, f0, f1, add_sub_cancel_right]
    congr 4
    simp only [Nat.cast_pow, Nat.cast_ofNat, XR.log]
    rw [if_neg (not_lt.2 (by positivity)), if_neg (by positivity)]
  by_cases ha : a = 0
  · subst ha
    have : parabolic f (2 ^ n) (2 ^ i) = .nan := by
      rw [e1, zero_mul, XR.fin_div_zero]
      have h1 : XR.signed 0 = .nan := by simp [XR.signed]
      rw [h1]
      show fin 0 * XR.pow (2 ^ i) .nan + fin c = .nan
      rw [XR.pow, if_neg (two_pow_ne_one hi0.ne')]
      rfl
    rw [this]
    constructor
    · exact fun h => absurd h (by rintro h; exact h)
    · rintro (h | h)
      · exact absurd rfl h
      · omega
  · have hpos : 0 < ((2 : ℝ) ^ n) ^ m := Real.rpow_pos_of_pos (by positivity) _
    have : parabolic f (2 ^ n) (2 ^ i) = fin (f (2 ^ i)) := by
      rw [e1, XR.fin_div _ ha, mul_div_cancel_left₀ _ ha]
      have h1 : XR.log (fin (((2 : ℝ) ^ n) ^ m)) = fin (m * Real.log (2 ^ n)) := by
        simp only [XR.log]
        rw [if_neg hpos.le.not_gt, if_neg hpos.ne', Real.log_rpow (by positivity)]
      rw [h1, XR.fin_div _ hlog, mul_div_cancel_right₀ _ hlog, XR.pow, if_neg (two_pow_ne_one hi0.ne'), fp]
      rfl
    rw [this, close_fin]
    simp [ht, ha]

/-- C92: a constant is not accepted, although it is the same function with coefficient zero. -/
theorem C92_constant {n : ℕ} (h2 : 2 ≤ n) (hn : n ≤ 30) {tol : ℝ} (ht : 0 < tol) (c : ℝ) :
    satisfiesModel parabolic n tol (fun _ => c) = .ok False := by
  rw [C92_powers hn ht (a := 0) (m := 1) (by norm_num) c (by simp)]
  congr 1
  refine eq_false ?_
  simp only [ne_eq, not_true_eq_false, false_or]
  omega

/-- C92: with 31 samples the last value taken is that of the lowest `int`, so even `x` itself is not accepted. -/
theorem C92_31_samples {tol : ℝ} (ht : 0 < tol) : satisfiesModel parabolic 31 tol (fun k => k) = .ok False := by
  have h : parabolic (fun k => (k : ℝ)) (2 ^ 31) (2 ^ 1) = .nan := by
    have h1 : toInt (2 ^ 31) = -2 ^ 31 := by norm_num [toInt]
    have h2 : XR.log (fin ((toInt (2 ^ 31) : ℝ) - ((0 : ℤ) : ℝ)) / fin (((1 : ℤ) : ℝ) - ((0 : ℤ) : ℝ))) = .nan := by
      rw [h1, XR.fin_div _ (by norm_num)]
      simp only [XR.log]
      rw [if_pos (by norm_num)]
    unfold parabolic
    simp only [h2]
    show fin _ * XR.pow (2 ^ 1) (XR.div .nan _) + fin _ = .nan
    have h3 : ∀ v, XR.div .nan v = .nan := fun v => by cases v <;> rfl
    rw [h3, XR.pow, if_neg (by norm_num)]
    rfl
  unfold satisfiesModel collect
  rw [if_pos le_rfl, Outcome.bind_ok]
  simp only
  rw [precision_ok ht, Outcome.bind_ok]
  refine congrArg Outcome.ok (eq_false fun a => ?_)
  have := a ⟨1, by simp⟩
  rw [h] at this
  exact this

/-- C92 for a real parabola, and with the default settings (30 samples, tolerance 10e-9). -/
example : satisfiesModel parabolic 30 (10e-9) (fun k => 3 * (k : ℝ) ^ 2 + 5) = .ok True := by
  rw [C92_powers (m := 2) le_rfl (by norm_num) (by norm_num) (a := 3) 5 (fun k => by norm_num)]
  simp

/-- C92's coefficient may be negative and its exponent a fraction. -/
example : satisfiesModel parabolic 10 1 (fun k => -2 * ((k : ℝ) ^ (1 / 2 : ℝ)) + 5) = .ok True := by
  rw [C92_powers (m := 1 / 2) (by norm_num) (by norm_num) (by norm_num) (a := -2) 5 (fun k => by norm_num)]
  simp

/-- C93: the number of samples and the tolerance a matcher can take. -/
theorem C93_defined_iff (F : (ℤ → ℝ) → ℕ → DataModel) (n : ℕ) (tol : ℝ) (f : ℤ → ℝ) :
    (∃ verdict, satisfiesModel F n tol f = .ok verdict) ↔ n ≤ 31 ∧ 0 < tol := by
  unfold satisfiesModel collect
  by_cases h : n ≤ 31
  · rw [if_pos h, Outcome.bind_ok]
    simp only
    by_cases ht : 0 < tol
    · rw [precision_ok ht, Outcome.bind_ok]
      exact ⟨fun _ => ⟨h, ht⟩, fun _ => ⟨_, rfl⟩⟩
    · simp [precision_ub ht, ht]
  · simp [h]

/-- C93: with one sample or none both matchers accept every function. -/
theorem C93_too_few {n : ℕ} (hn : n ≤ 1) {tol : ℝ} (ht : 0 < tol) (f : ℤ → ℝ) :
    satisfiesModel linear n tol f = .ok True ∧ satisfiesModel parabolic n tol f = .ok True := by
  constructor
  · rw [satisfies_ok linear (Q := fun _ => True) (by omega) ht]
    · simp
    · intro i hi
      obtain rfl : i = 0 := by omega
      rw [pow_zero, pow_zero, show linear f (2 ^ n) 1 = fin (1 * (f 1 - f 0) + f 0) from rfl, close_fin]
      simp [ht]
  · rw [satisfies_ok parabolic (Q := fun _ => True) (by omega) ht]
    · simp
    · intro i hi
      obtain rfl : i = 0 := by omega
      rw [pow_zero, pow_zero, parabolic_one, close_fin]
      simp [ht]

/-- C93: two samples are enough for the line to see a function that is not one. -/
theorem C93_two_samples (tol : ℝ) (f : ℤ → ℝ) (ht : 0 < tol) :
    satisfiesModel linear 2 tol f = .ok (|f 2 - 2 * f 1 + f 0| < tol) := by
  rw [C91_verdict (by norm_num) ht]
  congr 1
  refine propext ⟨fun h => ?_, fun h i hi => ?_⟩
  · have := h 1 (by norm_num)
    norm_num at this
    rwa [show f 2 - 2 * f 1 + f 0 = f 2 - (f 0 + (f 1 - f 0) * 2) by ring]
  · rcases i with _ | _ | i
    · norm_num
      exact ht
    · norm_num
      rwa [show f 2 - (f 0 + (f 1 - f 0) * 2) = f 2 - 2 * f 1 + f 0 by ring]
    · omega

/-- C93_two_samples is not vacuous: it sees the parabola. -/
example : satisfiesModel linear 2 1 (fun k => (k : ℝ) ^ 2) = .ok False := by
  rw [C93_two_samples _ _ (by norm_num)]
  refine congrArg Outcome.ok (eq_false ?_)
  norm_num

variable {T U : Type} (A : Traits.Access T) (B : Traits.Access U)

open Classical in
theorem equalFrom_ok (N : NumType) (hN : ∀ a b, N.sub a b = .ok (a - b)) (e : ℝ) (x : T) (y : U) (k : ℕ) : ∀ d,
    equalFrom N A B e x y d k = .ok (∀ j, d ≤ j → j < d + k →
      |(if B.get j y = 0 then N.min else B.get j y) - A.get j x| < e) := by
  induction k with
  | zero =>
    intro d
    unfold equalFrom
    congr 1
    exact (eq_true fun j h1 h2 => absurd h2 (by omega)).symm
  | succ k ih =>
    intro d
    unfold equalFrom
    have h1 : (if B.get d y = 0 then N.isSmall (A.get d x) e else N.close (A.get d x) (B.get d y) e) =
        .ok (|(if B.get d y = 0 then N.min else B.get d y) - A.get d x| < e) := by
      split_ifs with h
      · simp only [NumType.isSmall, NumType.close, hN, Outcome.bind_ok]
        rfl
      · simp only [NumType.close, hN, Outcome.bind_ok]
        rfl
    rw [h1, Outcome.bind_ok, ih]
    by_cases hd : |(if B.get d y = 0 then N.min else B.get d y) - A.get d x| < e
    · rw [if_pos hd]
      congr 1
      refine propext ⟨fun h j h2 h3 => ?_, fun h j h2 h3 => h j (by omega) (by omega)⟩
      rcases Nat.eq_or_lt_of_le h2 with rfl | h4
      · exact hd
      · exact h j (by omega) (by omega)
    · rw [if_neg hd]
      congr 1
      exact (eq_false fun h => hd (h d le_rfl (by omega))).symm

theorem geometricallyEqual_ok (N : NumType) (hN : ∀ a b, N.sub a b = .ok (a - b)) (e : ℝ) (x : T) (y : U) [∀ j, Decidable (B.get j y = 0)] :
    geometricallyEqual N A B e x y = .ok (∀ j < A.dims,
      |(if B.get j y = 0 then N.min else B.get j y) - A.get j x| < e) := by
  unfold geometricallyEqual
  rw [equalFrom_ok A B N hN]
  congr 1
  refine propext ⟨fun h j hj => ?_, fun h j _ hj => ?_⟩
  · convert h j (Nat.zero_le _) (by omega)
  · convert h j (by omega)

/-- `double` or `float`. -/
def Floating (N : NumType) : Prop := N = double ∨ N = float

theorem Floating.sub {N : NumType} (h : Floating N) (a b : ℝ) : N.sub a b = .ok (a - b) := by
  rcases h with rfl | rfl <;> rfl

theorem Floating.min_pos {N : NumType} (h : Floating N) : 0 < N.min := by
  rcases h with rfl | rfl
  · exact zpow_pos (by norm_num) _
  · exact zpow_pos (by norm_num) _

theorem Floating.min_le {N : NumType} (h : Floating N) : N.min ≤ 2 ^ (-126 : ℤ) := by
  rcases h with rfl | rfl
  · exact zpow_le_zpow_right₀ (by norm_num) (by norm_num)
  · exact le_rfl

open Classical in
/-- C94: geometries whose coordinates differ by clearly less than `e` are equal, those with a coordinate that differs
by clearly more are not. The smallest normal `float`, 2^-126, is the width of the doubt. -/
theorem C94_close {N : NumType} (hN : Floating N) {e : ℝ} (x : T) (y : U) :
    ∃ verdict : Prop, geometricallyEqual N A B e x y = .ok verdict ∧
      ((∀ j < A.dims, |B.get j y - A.get j x| < e - 2 ^ (-126 : ℤ)) → verdict) ∧
      (verdict → ∀ j < A.dims, |B.get j y - A.get j x| < e + 2 ^ (-126 : ℤ)) := by
  have h0 := hN.min_pos
  have h1 := hN.min_le
  refine ⟨_, geometricallyEqual_ok A B N hN.sub e x y, fun h j hj => ?_, fun h j hj => ?_⟩
  · have := abs_lt.1 (h j hj)
    rw [abs_lt]
    split_ifs with hz
    · rw [hz] at this
      constructor <;> linarith
    · constructor <;> linarith
  · have := abs_lt.1 (h j hj)
    rw [abs_lt]
    split_ifs at this with hz
    · rw [hz]
      constructor <;> linarith
    · constructor <;> linarith

/-- C94: a geometry is equal to itself. -/
theorem C94_self {N : NumType} (hN : Floating N) {e : ℝ} (he : 2 ^ (-126 : ℤ) < e) (x : T) :
    geometricallyEqual N A A e x x = .ok True := by
  obtain ⟨v, h, h1, _⟩ := C94_close A A hN (e := e) x x
  rw [h]
  congr 1
  refine eq_true (h1 fun j _ => ?_)
  rw [sub_self, abs_zero]
  linarith

/-- C94: where the expected coordinates are not zero the test is exact. -/
theorem C94_nonzero {N : NumType} (hN : Floating N) {e : ℝ} (x : T) (y : U) (h : ∀ j < A.dims, B.get j y ≠ 0) :
    geometricallyEqual N A B e x y = .ok (∀ j < A.dims, |B.get j y - A.get j x| < e) := by
  classical
  rw [geometricallyEqual_ok A B N hN.sub]
  congr 1
  refine propext (forall₂_congr fun j hj => ?_)
  rw [if_neg (h j hj)]

/-- Coordinates that are equal and not zero are passed over. -/
theorem equalFrom_skip {e : ℝ} (he : 0 < e) (x : T) (y : U) {j : ℕ}
    (hx : ∀ i < j, A.get i x = B.get i y ∧ B.get i y ≠ 0) :
    ∀ n d k, d + n = j → equalFrom int A B e x y d (n + k) = equalFrom int A B e x y j k := by
  intro n
  induction n with
  | zero =>
    rintro d k rfl
    rw [Nat.zero_add, Nat.add_zero]
  | succ n ih =>
    intro d k hd
    obtain ⟨h1, h2⟩ := hx d (by omega)
    rw [← ih (d + 1) k (by omega), show n + 1 + k = (n + k) + 1 by omega, equalFrom, if_neg h2]
    unfold NumType.close
    have h0 : int.sub (B.get d y) (A.get d x) = .ok 0 := by
      rw [h1]
      simp [int]
    have h3 : XR.lt (XR.fabs (fin 0)) (fin e) := by
      show |(0 : ℝ)| < e
      simpa using he
    rw [h0, Outcome.bind_ok, Outcome.bind_ok, if_pos h3]

theorem equal_from_first {e : ℝ} (he : 0 < e) (x : T) (y : U) {j : ℕ} (hj : j < A.dims)
    (hx : ∀ i < j, A.get i x = B.get i y ∧ B.get i y ≠ 0) :
    ∃ k, geometricallyEqual int A B e x y = equalFrom int A B e x y j (k + 1) := by
  refine ⟨A.dims - j - 1, ?_⟩
  rw [← equalFrom_skip A B he x y hx j 0 _ (by omega)]
  unfold geometricallyEqual
  congr 1
  omega

/-- C94: but with `int` coordinates a geometry with a zero coordinate is not equal to itself. -/
theorem C94_integers {e : ℝ} (h0 : 0 < e) (he : e ≤ 1) (x : T) (hx : ∃ j < A.dims, A.get j x = 0) :
    geometricallyEqual int A A e x x = .ok False := by
  classical
  obtain ⟨h1, h2⟩ := Nat.find_spec hx
  have h3 : ∀ i < Nat.find hx, A.get i x = A.get i x ∧ A.get i x ≠ 0 := fun i hi =>
    ⟨rfl, fun hc => Nat.find_min hx hi ⟨hi.trans h1, hc⟩⟩
  obtain ⟨k, hk⟩ := equal_from_first A A h0 x x h1 h3
  rw [hk, equalFrom, if_pos h2, h2]
  unfold NumType.isSmall NumType.close
  have h4 : int.sub int.min 0 = .ok (-2 ^ 31) := by norm_num [int]
  rw [h4, Outcome.bind_ok, Outcome.bind_ok, if_neg]
  show ¬ |(-2 ^ 31 : ℝ)| < e
  norm_num
  linarith

/-- C94: and where the coordinates before it are equal and not zero, an `int` coordinate has no defined verdict if it is
positive and zero is expected, or if its distance from the expected one does not fit an `int`. -/
theorem C94_integers_undefined {e : ℝ} (h0 : 0 < e) (x : T) (y : U) {j : ℕ} (hj : j < A.dims)
    (hx : ∀ i < j, A.get i x = B.get i y ∧ B.get i y ≠ 0)
    (h : (B.get j y = 0 ∧ 0 < A.get j x) ∨
      (B.get j y ≠ 0 ∧ (B.get j y - A.get j x < -2 ^ 31 ∨ 2 ^ 31 ≤ B.get j y - A.get j x))) :
    geometricallyEqual int A B e x y = .ub := by
  obtain ⟨k, hk⟩ := equal_from_first A B h0 x y hj hx
  rw [hk, equalFrom]
  rcases h with ⟨h1, h2⟩ | ⟨h1, h2⟩
  · rw [if_pos h1]
    unfold NumType.isSmall NumType.close
    have h3 : int.sub int.min (A.get j x) = .ub := by
      refine if_neg fun hc => ?_
      have : (-2 ^ 31 : ℝ) ≤ -2 ^ 31 - A.get j x := hc.1
      linarith
    rw [h3, Outcome.bind_ub, Outcome.bind_ub]
  · rw [if_neg h1]
    unfold NumType.close
    have h3 : int.sub (B.get j y) (A.get j x) = .ub := by
      refine if_neg fun hc => ?_
      have := hc.1
      have := hc.2
      rcases h2 with h2 | h2 <;> linarith
    rw [h3, Outcome.bind_ub, Outcome.bind_ub]

theorem unsigned_close {e : ℝ} (h0 : 0 < e) (he : e ≤ 1) {a b : ℕ} (ha : a < 2 ^ 32) (hb : b < 2 ^ 32) :
    unsigned.close a b e = .ok (a = b) := by
  unfold NumType.close
  have h1 : unsigned.sub b a = .ok ((((b : ℤ) - a) % 2 ^ 32 : ℤ) : ℝ) := by
    show Outcome.ok _ = _
    rw [show (b : ℝ) - a = (((b : ℤ) - a : ℤ) : ℝ) by push_cast; ring, Int.floor_intCast]
  rw [h1, Outcome.bind_ok]
  congr 1
  show (|((((b : ℤ) - a) % 2 ^ 32 : ℤ) : ℝ)| < e) = _
  rw [abs_of_nonneg (by exact_mod_cast Int.emod_nonneg _ (by norm_num))]
  refine propext ⟨fun h => ?_, fun h => ?_⟩
  · have h2 : ((((b : ℤ) - a) % 2 ^ 32 : ℤ) : ℝ) < ((1 : ℤ) : ℝ) := by push_cast at h ⊢; linarith
    have h3 := Int.cast_lt.1 h2
    omega
  · rw [h]
    simpa using h0

open Classical in
/-- C94: with `unsigned int` coordinates it accepts exactly equal geometries. -/
theorem C94_unsigned {e : ℝ} (h0 : 0 < e) (he : e ≤ 1) (x : T) (y : U) (hx : ∀ j < A.dims, ∃ n : ℕ, A.get j x = n ∧ n < 2 ^ 32)
    (hy : ∀ j < A.dims, ∃ n : ℕ, B.get j y = n ∧ n < 2 ^ 32) :
    geometricallyEqual unsigned A B e x y = .ok (∀ j < A.dims, A.get j x = B.get j y) := by
  have key : ∀ k d, d + k ≤ A.dims → equalFrom unsigned A B e x y d k = .ok (∀ j, d ≤ j → j < d + k → A.get j x = B.get j y) := by
    intro k
    induction k with
    | zero =>
      intro d _
      unfold equalFrom
      congr 1
      exact (eq_true fun j h1 h2 => absurd h2 (by omega)).symm
    | succ k ih =>
      intro d hk
      unfold equalFrom
      have h1 : (if B.get d y = 0 then unsigned.isSmall (A.get d x) e else unsigned.close (A.get d x) (B.get d y) e) =
          .ok (A.get d x = B.get d y) := by
        obtain ⟨a, ha, ha'⟩ := hx d (by omega)
        obtain ⟨b, hb, hb'⟩ := hy d (by omega)
        have hc : unsigned.close (A.get d x) (B.get d y) e = .ok (A.get d x = B.get d y) := by
          rw [ha, hb, unsigned_close h0 he ha' hb']
          congr 1
          exact propext Nat.cast_inj.symm
        split_ifs with h
        · rw [h] at hc ⊢
          exact hc
        · exact hc
      rw [h1, Outcome.bind_ok, ih _ (by omega)]
      by_cases hd : A.get d x = B.get d y
      · rw [if_pos hd]
        congr 1
        refine propext ⟨fun h j h2 h3 => ?_, fun h j h2 h3 => h j (by omega) (by omega)⟩
        rcases Nat.eq_or_lt_of_le h2 with rfl | h4
        · exact hd
        · exact h j (by omega) (by omega)
      · rw [if_neg hd]
        congr 1
        exact (eq_false fun h => hd (h d le_rfl (by omega))).symm
  unfold geometricallyEqual
  rw [key _ _ (by omega)]
  congr 1
  exact propext ⟨fun h j hj => h j (Nat.zero_le _) (by omega), fun h j _ hj => h j (by omega)⟩

/-- C94 for points of `unsigned int`: next to each other is not equal. -/
example : geometricallyEqual unsigned Traits.point Traits.point (10e-7) ⟨7, 0⟩ ⟨8, 0⟩ = .ok False := by
  rw [C94_unsigned _ _ (by norm_num) (by norm_num)]
  · refine congrArg Outcome.ok (eq_false fun h => ?_)
    have := h 0 (by decide)
    norm_num [Traits.point] at this
  · intro j hj
    rcases j with _ | _ | j
    · exact ⟨7, by norm_num [Traits.point], by norm_num⟩
    · exact ⟨0, by norm_num [Traits.point], by norm_num⟩
    · exact absurd hj (by simp [Traits.point])
  · intro j hj
    rcases j with _ | _ | j
    · exact ⟨8, by norm_num [Traits.point], by norm_num⟩
    · exact ⟨0, by norm_num [Traits.point], by norm_num⟩
    · exact absurd hj (by simp [Traits.point])

/-- C94 on points: equal within the tolerance, also next to zero. -/
example : geometricallyEqual double Traits.point Traits.point (10e-7) ⟨1e-7, 5⟩ ⟨0, 5 + 5e-7⟩ = .ok True := by
  obtain ⟨v, h, h1, _⟩ := C94_close Traits.point Traits.point (.inl rfl) (e := 10e-7) ⟨1e-7, 5⟩ ⟨0, 5 + 5e-7⟩
  rw [h]
  refine congrArg Outcome.ok (eq_true (h1 fun j hj => ?_))
  have h126 : (2 : ℝ) ^ (-126 : ℤ) < 1e-7 := by norm_num [zpow_neg]
  rcases j with _ | _ | j
  · show |(0 : ℝ) - 1e-7| < _
    norm_num at h126 ⊢
  · show |(5 + 5e-7 : ℝ) - 5| < _
    norm_num at h126 ⊢
  · have : j + 1 + 1 < 2 := hj
    omega

/-- C94 on points: too far apart in the second coordinate. -/
example : geometricallyEqual double Traits.point Traits.point (10e-7) ⟨3, 5⟩ ⟨3, 6⟩ = .ok False := by
  rw [C94_nonzero Traits.point Traits.point (.inl rfl)]
  · refine congrArg Outcome.ok (eq_false fun h => ?_)
    have h1 : |(6 : ℝ) - 5| < 10e-7 := h 1 (by norm_num [Traits.point])
    norm_num at h1
  · intro j hj
    rcases j with _ | _ | j
    · show (3 : ℝ) ≠ 0
      norm_num
    · show (6 : ℝ) ≠ 0
      norm_num
    · have : j + 1 + 1 < 2 := hj
      omega

/-- C94_integers on a point: the origin, and any point of an axis. -/
example (y : ℝ) : geometricallyEqual int Traits.point Traits.point (10e-7) ⟨0, y⟩ ⟨0, y⟩ = .ok False :=
  C94_integers Traits.point (by norm_num) (by norm_num) _ ⟨0, by norm_num [Traits.point], rfl⟩

/-- C94_integers_undefined: three pixels to the right of a point on the vertical axis. -/
example : geometricallyEqual int Traits.point Traits.point (10e-7) ⟨3, 7⟩ ⟨0, 7⟩ = .ub :=
  C94_integers_undefined Traits.point Traits.point (by norm_num) _ _ (j := 0) (by norm_num [Traits.point])
    (fun i hi => by omega) (Or.inl ⟨rfl, by norm_num [Traits.point]⟩)

end

end Verif.Props
