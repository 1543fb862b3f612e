import Verif.Lemmas.Float32
import Verif.Props.Progress

/-! # Animations in single precision (C87-C90)

`linear32 R L` is the linear stepper with every operation rounded to `float`; `R` is any rounding to nearest. -/

namespace Verif.Props

open XR (fin)
open Spec

noncomputable section

variable {P O S : Type} (R : Rounding)

theorem advance_linear32 (L : ℝ) (ms : List ℕ) : ∀ p : XR,
    advance { linear32 R L with state := p } ms = { linear32 R L with state := ms.foldl (R.advance L) p } := by
  induction ms with
  | nil => exact fun p => rfl
  | cons m ms ih => exact fun p => ih _

theorem advance_reverse32 (s : Stepper) (ms : List ℕ) : ∀ st : s.σ,
    advance { reverse32 R s with state := st } ms = reverse32 R (advance { s with state := st } ms) := by
  induction ms with
  | nil => exact fun p => rfl
  | cons m ms ih => exact fun p => ih _

theorem progress_linear32 (K : AnimClass P O S) (p : P) (o : O) {L : ℝ} (hL : 0 < L) (ms : List ℕ) :
    (K.run (K.new p o (linear32 R L)).1 (steps ms)).progress = fin (unit (R.raw L ms)) := by
  have h0 : R.advance L (fin 0) 0 = fin 0 := R.advance_zero hL good_zero
  have hst : (K.new p o (linear32 R L)).1.stepper = linear32 R L := by
    show ({ linear32 R L with state := R.advance L (fin 0) 0 } : Stepper) = _
    rw [h0]
    rfl
  rcases List.eq_nil_or_concat ms with rfl | ⟨l, m, rfl⟩
  · show R.advance L (fin 0) 0 = _
    rw [h0]
    simp [Rounding.raw, unit]
  · rw [List.concat_eq_append]
    have : steps (S := S) (l ++ [m]) = steps l ++ [.step m] := by simp [steps]
    rw [this, run_append]
    show clamp ((K.run (K.new p o (linear32 R L)).1 (steps l)).stepper.value m) (fin 0) (fin 1) = _
    rw [run_steps_stepper, hst, clamp_unit, R.raw_snoc]
    have := advance_linear32 R L l (fin 0)
    rw [show ({ linear32 R L with state := fin 0 } : Stepper) = linear32 R L from rfl] at this
    rw [this]
    rfl

theorem progress_reverse32 (K : AnimClass P O S) (p : P) (o : O) {L : ℝ} (hL : 0 < L) (ms : List ℕ) :
    (K.run (K.new p o (reverse32 R (linear32 R L))).1 (steps ms)).progress = fin (unit (R.result (fin 1 - R.raw L ms))) := by
  have h0 : R.advance L (fin 0) 0 = fin 0 := R.advance_zero hL good_zero
  have hst : (K.new p o (reverse32 R (linear32 R L))).1.stepper = reverse32 R (linear32 R L) := by
    show ({ reverse32 R (linear32 R L) with state := R.advance L (fin 0) 0 } : Stepper) = _
    rw [h0]
    rfl
  rcases List.eq_nil_or_concat ms with rfl | ⟨l, m, rfl⟩
  · show R.result (fin 1 - R.advance L (fin 0) 0) = fin (unit (R.result (fin 1 - fin 0)))
    rw [h0]
    have : R.result (fin 1 - fin 0) = fin 1 := by
      rw [XR.fin_sub, sub_zero]
      exact R.result_good (Or.inr ⟨1, zero_le_one, single_one, by norm_num, rfl⟩)
    rw [this]
    simp [unit]
  · rw [List.concat_eq_append]
    have : steps (S := S) (l ++ [m]) = steps l ++ [.step m] := by simp [steps]
    rw [this, run_append]
    show clamp ((K.run (K.new p o (reverse32 R (linear32 R L))).1 (steps l)).stepper.value m) (fin 0) (fin 1) = _
    rw [run_steps_stepper, hst, clamp_unit, R.raw_snoc]
    have h2 := advance_reverse32 R (linear32 R L) l (fin 0)
    have h1 := advance_linear32 R L l (fin 0)
    rw [h1] at h2
    rw [show ({ reverse32 R (linear32 R L) with state := fin 0 } : Stepper) = reverse32 R (linear32 R L) from rfl] at h2
    rw [h2]
    rfl

/-! ## Rounding does not turn an animation around -/

/-- **C87.** With a linear stepper of any length the progress never decreases, rounding or not. -/
theorem C87_forwards (K : AnimClass P O S) (p : P) (o : O) {L : ℝ} (hL : 0 < L) (ms more : List ℕ) :
    ∃ x y : ℝ, (K.run (K.new p o (linear32 R L)).1 (steps ms)).progress = fin x ∧
      (K.run (K.new p o (linear32 R L)).1 (steps (ms ++ more))).progress = fin y ∧ 0 ≤ x ∧ x ≤ y ∧ y ≤ 1 :=
  ⟨_, _, progress_linear32 R K p o hL ms, progress_linear32 R K p o hL (ms ++ more), unit_nonneg _, R.raw_mono hL ms more,
    unit_le_one _⟩

theorem result_sub {L : ℝ} (hL : 0 < L) (ms : List ℕ) :
    unit (R.result (fin 1 - R.raw L ms)) = R.rnd (1 - unit (R.raw L ms)) := by
  rcases R.raw_good hL ms with h | ⟨r, h0, -, -, h⟩ <;> rw [h]
  · show (0 : ℝ) = R.rnd (1 - 1)
    rw [sub_self, R.exact single_zero]
  · rw [XR.fin_sub]
    show unit (R.store (1 - r)) = R.rnd (1 - min 1 (max 0 r))
    rw [max_eq_right h0]
    rcases le_total r 1 with h1 | h1
    · rw [min_eq_right h1, R.unit_store (by linarith), min_eq_right (R.le_one (by linarith))]
    · rw [min_eq_left h1, sub_self, R.exact single_zero]
      have hn : R.rnd (1 - r) ≤ 0 := by
        have := R.mono (show 1 - r ≤ 0 by linarith)
        rwa [R.exact single_zero] at this
      unfold Rounding.store
      split_ifs
      · simp only [unit]
        rw [max_eq_left hn]
        norm_num
      · unfold XR.signed
        rw [if_neg (by linarith)]
        split_ifs <;> rfl

/-- **C87.** With a reversed linear stepper it never increases. -/
theorem C87_backwards (K : AnimClass P O S) (p : P) (o : O) {L : ℝ} (hL : 0 < L) (ms more : List ℕ) :
    ∃ x y : ℝ, (K.run (K.new p o (reverse32 R (linear32 R L))).1 (steps ms)).progress = fin x ∧
      (K.run (K.new p o (reverse32 R (linear32 R L))).1 (steps (ms ++ more))).progress = fin y ∧ 0 ≤ y ∧ y ≤ x ∧ x ≤ 1 := by
  refine ⟨_, _, progress_reverse32 R K p o hL ms, progress_reverse32 R K p o hL (ms ++ more), unit_nonneg _, ?_, unit_le_one _⟩
  rw [result_sub R hL, result_sub R hL]
  have := R.raw_mono hL ms more
  exact R.mono (by linarith)

example (p : Bounce.Params) : ∃ x y : ℝ,
    (Bounce.cls.run (Bounce.new p (linear32 someRounding 300)).1 (steps [16])).progress = fin x ∧
    (Bounce.cls.run (Bounce.new p (linear32 someRounding 300)).1 (steps ([16] ++ [17, 16]))).progress = fin y ∧
      0 ≤ x ∧ x ≤ y ∧ y ≤ 1 := C87_forwards someRounding Bounce.cls p _ (by norm_num) [16] [17, 16]

/-! ## Rounding errors stay small -/

/-- **C88.** After `n` steps the progress is off by at most `n` times 2^-24 from total time by length. -/
theorem C88_accurate (K : AnimClass P O S) (p : P) (o : O) {L : ℝ} (hL : 0 < L) (ms : List ℕ) (h : ∀ m ∈ ms, m ≤ 2 ^ 24) :
    ∃ x : ℝ, (K.run (K.new p o (linear32 R L)).1 (steps ms)).progress = fin x ∧
      |x - min 1 ((ms.sum : ℕ) / L)| ≤ ms.length / 2 ^ 24 :=
  ⟨_, progress_linear32 R K p o hL ms, R.raw_error hL ms h⟩

/-- **C88.** The same for a reversed stepper, with half of 2^-24 more for the subtraction. -/
theorem C88_reverse_accurate (K : AnimClass P O S) (p : P) (o : O) {L : ℝ} (hL : 0 < L) (ms : List ℕ)
    (h : ∀ m ∈ ms, m ≤ 2 ^ 24) :
    ∃ x : ℝ, (K.run (K.new p o (reverse32 R (linear32 R L))).1 (steps ms)).progress = fin x ∧
      |x - max 0 (1 - (ms.sum : ℕ) / L)| ≤ (ms.length + 1 / 2) / 2 ^ 24 := by
  refine ⟨_, progress_reverse32 R K p o hL ms, ?_⟩
  rw [result_sub R hL]
  have h1 := R.raw_error hL ms h
  have h2 := R.error (x := 1 - unit (R.raw L ms)) (by linarith [unit_le_one (R.raw L ms)]) (by linarith [unit_nonneg (R.raw L ms)])
  have e : max 0 (1 - ((ms.sum : ℕ) : ℝ) / L) = 1 - min 1 ((ms.sum : ℕ) / L) := by
    rcases le_total 1 (((ms.sum : ℕ) : ℝ) / L) with a | a
    · rw [min_eq_left a, max_eq_left (by linarith)]
      ring
    · rw [min_eq_right a, max_eq_right (by linarith)]
  rw [e]
  rw [abs_le] at h1 h2 ⊢
  have e2 : ((ms.length : ℝ) + 1 / 2) / 2 ^ 24 = ms.length / 2 ^ 24 + 1 / 2 ^ 25 := by
    norm_num
    ring
  rw [e2]
  constructor <;> linarith

/-- Half a second in thirty frames: the progress is right to a millionth. -/
example (K : AnimClass P O S) (p : P) (o : O) : ∃ x : ℝ,
    (K.run (K.new p o (linear32 R 500)).1 (steps (List.replicate 15 16))).progress = fin x ∧ |x - 240 / 500| ≤ 1 / 1000000 := by
  obtain ⟨x, h1, h2⟩ := C88_accurate R K p o (by norm_num : (0 : ℝ) < 500) (List.replicate 15 16) (by simp)
  refine ⟨x, h1, ?_⟩
  norm_num at h2 ⊢
  linarith

/-! ## When an animation ends -/

/-- **C89.** Once the total time has reached the length, at most one more frame is needed, if that frame is not
tiny: its share of the length must be at least the number of frames times 2^-24. -/
theorem C89_one_frame_late (K : AnimClass P O S) (p : P) (o : O) {L : ℝ} (hL : 0 < L) (ms : List ℕ) (m : ℕ)
    (h : ∀ k ∈ ms, k ≤ 2 ^ 24) (hm : m ≤ 2 ^ 24) (ht : L ≤ (ms.sum : ℕ)) (hs : ((ms.length : ℝ) + 1) / 2 ^ 24 ≤ m / L) :
    ¬ (K.step (K.run (K.new p o (linear32 R L)).1 (steps ms)) m).2 ∧
    (K.step (K.run (K.new p o (linear32 R L)).1 (steps ms)) m).1.progress = fin 1 := by
  have hp : (K.step (K.run (K.new p o (linear32 R L)).1 (steps ms)) m).1.progress = fin 1 := by
    have h1 : (K.step (K.run (K.new p o (linear32 R L)).1 (steps ms)) m).1 =
        K.run (K.new p o (linear32 R L)).1 (steps (ms ++ [m])) := by
      have : steps (S := S) (ms ++ [m]) = steps ms ++ [.step m] := by simp [steps]
      rw [this, run_append]
      rfl
    rw [h1, progress_linear32 R K p o hL]
    congr 1
    refine R.raw_finished hL ms m hm ?_
    have h2 := abs_le.1 (R.raw_error hL ms h)
    rw [min_eq_left ((one_le_div hL).2 ht)] at h2
    have e2 : ((ms.length : ℝ) + 1) / 2 ^ 24 = ms.length / 2 ^ 24 + 1 / 2 ^ 24 := by ring
    rw [e2] at hs
    have : (1 : ℝ) / 2 ^ 25 ≤ 1 / 2 ^ 24 := by norm_num
    linarith
  refine ⟨?_, hp⟩
  rw [C02_step_result, hp]
  rintro ⟨r, e, -, h1⟩
  rw [XR.fin_inj] at e
  linarith

/-- **C89.** It does not end early either: with less than `1 - n 2^-24` of the length gone, it is not over. -/
theorem C89_not_early (K : AnimClass P O S) (p : P) (o : O) {L : ℝ} (hL : 0 < L) (ms : List ℕ)
    (h : ∀ k ∈ ms, k ≤ 2 ^ 24) (ht : ((ms.sum : ℕ) : ℝ) / L < 1 - ms.length / 2 ^ 24) :
    ∃ x : ℝ, (K.run (K.new p o (linear32 R L)).1 (steps ms)).progress = fin x ∧ x < 1 := by
  obtain ⟨x, h1, h2⟩ := C88_accurate R K p o hL ms h
  refine ⟨x, h1, ?_⟩
  have h3 := abs_le.1 h2
  have h4 : (0 : ℝ) ≤ ms.length / 2 ^ 24 := by positivity
  rw [min_eq_right (by linarith)] at h3
  linarith

example (K : AnimClass P O S) (p : P) (o : O) :
    ¬ (K.step (K.run (K.new p o (linear32 R 300)).1 (steps (List.replicate 19 16))) 16).2 :=
  (C89_one_frame_late R K p o (by norm_num) (List.replicate 19 16) 16 (by simp) (by norm_num)
    (by norm_num) (by norm_num)).1

example : ∃ ms : List ℕ, (∀ k ∈ ms, k ≤ 2 ^ 24) ∧ ((ms.sum : ℕ) : ℝ) / 300 < 1 - ms.length / 2 ^ 24 :=
  ⟨List.replicate 18 16, by simp, by norm_num⟩

theorem advance192 {x y : ℝ} (n k : ℤ) (hy : y = n * 2 ^ k) (h0 : 0 ≤ x) (hx : (2 : ℝ) ^ (k + 23) ≤ x + 11184811 * 2 ^ (-27 : ℤ)) (hn : |n| ≤ 2 ^ 24)
    (hk : -149 ≤ k) (h : |n * 2 ^ k - (x + 11184811 * 2 ^ (-27 : ℤ))| < (2 : ℝ) ^ k / 2) (h2 : (n : ℝ) * 2 ^ k < 2 ^ 128) :
    R.advance 192 (fin x) 16 = fin y := by
  rw [hy]
  have hs : R.share 192 16 = fin (11184811 * 2 ^ (-27 : ℤ)) := by
    rw [R.share_eq (by norm_num) (by norm_num)]
    have e : R.rnd ((16 : ℕ) / 192) = (11184811 : ℤ) * 2 ^ (-27 : ℤ) := by
      refine R.to_eq (by norm_num) (by norm_num) (by norm_num) ?_
      norm_num [abs_lt]
    rcases R.store_cases (x := ((16 : ℕ) : ℝ) / 192) (by norm_num) with ⟨-, h⟩ | ⟨h, -⟩
    · rw [h, e]
      norm_num
    · rw [e] at h
      norm_num at h
  rw [R.advance_eq, hs]
  show R.store _ = _
  have e := R.to_eq hx hn hk h
  rcases R.store_cases (x := x + 11184811 * 2 ^ (-27 : ℤ)) (by positivity) with ⟨-, h⟩ | ⟨h, -⟩
  · rw [h, e]
  · rw [e] at h
    linarith

/-- **C89.** The extra frame can be needed: 192 milliseconds in twelve frames of 16 are not enough for an animation
of 192 milliseconds. -/
theorem C89_late (K : AnimClass P O S) (p : P) (o : O) :
    (K.step (K.run (K.new p o (linear32 R 192)).1 (steps (List.replicate 11 16))) 16).2 := by
  have h1 : (K.step (K.run (K.new p o (linear32 R 192)).1 (steps (List.replicate 11 16))) 16).1 =
      K.run (K.new p o (linear32 R 192)).1 (steps (List.replicate 11 16 ++ [16])) := by
    have : steps (S := S) (List.replicate 11 16 ++ [16]) = steps (List.replicate 11 16) ++ [.step 16] := by
      simp only [steps, List.map_append, List.map_cons, List.map_nil]
    rw [this, run_append]
    rfl
  have a1 : R.advance 192 (fin 0) 16 = fin (11184811 / 2 ^ 27) := advance192 R 11184811 (-27) (by norm_num) (by norm_num) (by norm_num) (by norm_num) (by norm_num) (by norm_num [abs_lt]) (by norm_num)
  have a2 : R.advance 192 (fin (11184811 / 2 ^ 27)) 16 = fin (11184811 / 2 ^ 26) := advance192 R 11184811 (-26) (by norm_num) (by norm_num) (by norm_num) (by norm_num) (by norm_num) (by norm_num [abs_lt]) (by norm_num)
  have a3 : R.advance 192 (fin (11184811 / 2 ^ 26)) 16 = fin (8388608 / 2 ^ 25) := advance192 R 8388608 (-25) (by norm_num) (by norm_num) (by norm_num) (by norm_num) (by norm_num) (by norm_num [abs_lt]) (by norm_num)
  have a4 : R.advance 192 (fin (8388608 / 2 ^ 25)) 16 = fin (11184811 / 2 ^ 25) := advance192 R 11184811 (-25) (by norm_num) (by norm_num) (by norm_num) (by norm_num) (by norm_num) (by norm_num [abs_lt]) (by norm_num)
  have a5 : R.advance 192 (fin (11184811 / 2 ^ 25)) 16 = fin (13981014 / 2 ^ 25) := advance192 R 13981014 (-25) (by norm_num) (by norm_num) (by norm_num) (by norm_num) (by norm_num) (by norm_num [abs_lt]) (by norm_num)
  have a6 : R.advance 192 (fin (13981014 / 2 ^ 25)) 16 = fin (8388608 / 2 ^ 24) := advance192 R 8388608 (-24) (by norm_num) (by norm_num) (by norm_num) (by norm_num) (by norm_num) (by norm_num [abs_lt]) (by norm_num)
  have a7 : R.advance 192 (fin (8388608 / 2 ^ 24)) 16 = fin (9786709 / 2 ^ 24) := advance192 R 9786709 (-24) (by norm_num) (by norm_num) (by norm_num) (by norm_num) (by norm_num) (by norm_num [abs_lt]) (by norm_num)
  have a8 : R.advance 192 (fin (9786709 / 2 ^ 24)) 16 = fin (11184810 / 2 ^ 24) := advance192 R 11184810 (-24) (by norm_num) (by norm_num) (by norm_num) (by norm_num) (by norm_num) (by norm_num [abs_lt]) (by norm_num)
  have a9 : R.advance 192 (fin (11184810 / 2 ^ 24)) 16 = fin (12582911 / 2 ^ 24) := advance192 R 12582911 (-24) (by norm_num) (by norm_num) (by norm_num) (by norm_num) (by norm_num) (by norm_num [abs_lt]) (by norm_num)
  have a10 : R.advance 192 (fin (12582911 / 2 ^ 24)) 16 = fin (13981012 / 2 ^ 24) := advance192 R 13981012 (-24) (by norm_num) (by norm_num) (by norm_num) (by norm_num) (by norm_num) (by norm_num [abs_lt]) (by norm_num)
  have a11 : R.advance 192 (fin (13981012 / 2 ^ 24)) 16 = fin (15379113 / 2 ^ 24) := advance192 R 15379113 (-24) (by norm_num) (by norm_num) (by norm_num) (by norm_num) (by norm_num) (by norm_num [abs_lt]) (by norm_num)
  have a12 : R.advance 192 (fin (15379113 / 2 ^ 24)) 16 = fin (16777214 / 2 ^ 24) := advance192 R 16777214 (-24) (by norm_num) (by norm_num) (by norm_num) (by norm_num) (by norm_num) (by norm_num [abs_lt]) (by norm_num)
  have hr : R.raw 192 (List.replicate 11 16 ++ [16]) = fin (16777214 / 2 ^ 24) := by
    simp only [Rounding.raw, List.replicate, List.cons_append, List.nil_append, List.foldl_cons, List.foldl_nil,
      a1, a2, a3, a4, a5, a6, a7, a8, a9, a10, a11, a12]
  rw [C02_step_result, h1, progress_linear32 R K p o (by norm_num), hr]
  refine ⟨_, rfl, ?_, ?_⟩ <;> simp only [unit] <;> norm_num

/-! ## An animation that never ends -/

/-- **C90.** With frames of at most (1 - 2^-24) 2^-25 of the length the animation never gets past its middle, however long
it runs. -/
theorem C90_never_ends (K : AnimClass P O S) (p : P) (o : O) {L : ℝ} (hL : 0 < L) (ms : List ℕ)
    (h : ∀ m ∈ ms, m ≤ 2 ^ 24 ∧ (m : ℝ) * 2 ^ 25 ≤ L * (1 - 1 / 2 ^ 24)) :
    ∃ x : ℝ, (K.run (K.new p o (linear32 R L)).1 (steps ms)).progress = fin x ∧ x ≤ 1 / 2 := by
  refine ⟨_, progress_linear32 R K p o hL ms, ?_⟩
  obtain ⟨r, h1, h2, h3⟩ := R.raw_stuck hL ms h
  rw [h1]
  simp only [unit]
  rw [max_eq_right h2]
  exact (min_le_right _ _).trans h3

theorem ones (n : ℕ) : ∃ ms : List ℕ, (∀ m ∈ ms, m = 1) ∧ ms.sum = n ∧ ms.length = n :=
  ⟨List.replicate n 1, fun _ h => List.eq_of_mem_replicate h, by simp, by simp⟩

/-- Ten hours in frames of a millisecond, and any amount of time. -/
example (n : ℕ) : ∃ ms : List ℕ, (∀ m ∈ ms, m ≤ 2 ^ 24 ∧ (m : ℝ) * 2 ^ 25 ≤ 36000000 * (1 - 1 / 2 ^ 24)) ∧ ms.sum = n := by
  obtain ⟨ms, h, hs, -⟩ := ones n
  refine ⟨ms, fun m hm => ?_, hs⟩
  rw [h m hm]
  norm_num

/-- **C90.** With frames of at least (1 + 2^-23) 2^-25 of the length it always ends, after at most 2^26 frames. -/
theorem C90_ends_partial (K : AnimClass P O S) (p : P) (o : O) {L : ℝ} (hL : 0 < L) (ms : List ℕ)
    (h : ∀ m ∈ ms, m ≤ 2 ^ 24 ∧ L * (1 + 1 / 2 ^ 23) ≤ m * 2 ^ 25) (hn : 2 ^ 26 ≤ ms.length) :
    (K.run (K.new p o (linear32 R L)).1 (steps ms)).progress = fin 1 := by
  rw [progress_linear32 R K p o hL]
  congr 1
  refine le_antisymm (unit_le_one _) ?_
  have := R.raw_gain hL ms h
  rw [min_eq_left] at this
  · exact this
  · rw [le_div_iff₀ (by norm_num), one_mul]
    exact_mod_cast hn

/-- Nine hours in frames of a millisecond. -/
example : ∃ ms : List ℕ, (∀ m ∈ ms, m ≤ 2 ^ 24 ∧ (32400000 : ℝ) * (1 + 1 / 2 ^ 23) ≤ m * 2 ^ 25) ∧ 2 ^ 26 ≤ ms.length := by
  obtain ⟨ms, h, -, hl⟩ := ones (2 ^ 26)
  refine ⟨ms, fun m hm => ?_, hl.ge⟩
  rw [h m hm]
  norm_num

end

end Verif.Props
