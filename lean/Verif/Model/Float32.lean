import Verif.Model.Stepper

/-!
# Steppers in single precision

The steppers again, this time with the rounding of `float` arithmetic. The other models use exact numbers.
-/

namespace Verif

noncomputable section

/-- The numbers a `float` can hold (IEEE 754 binary32, denormalised numbers included), except that the exponent
is not bounded above; see `Rounding.store` for overflow. -/
def Single (x : ℝ) : Prop := ∃ m e : ℤ, |m| < 2 ^ 24 ∧ -149 ≤ e ∧ x = m * 2 ^ e

/-- A way of rounding to a nearest `float`. How ties are broken is left open, so round-half-even is one
instance. -/
structure Rounding where
  rnd : ℝ → ℝ
  single : ∀ x, Single (rnd x)
  nearest : ∀ x y, Single y → |rnd x - x| ≤ |y - x|

/-- Rounding with overflow: a rounded result of at least 2^128 is an infinity. -/
def Rounding.store (R : Rounding) (x : ℝ) : XR := if |R.rnd x| < 2 ^ 128 then .fin (R.rnd x) else XR.signed x

/-- Rounding the result of an operation; NaN and infinities stay as they are. -/
def Rounding.result (R : Rounding) : XR → XR
  | .fin x => R.store x
  | v => v

/-- `progress += ms / length` (animation/stepper/linear.h 36): `ms` is converted to `float`, the division and the
addition are each rounded to `float` (no excess precision). -/
def Rounding.advance (R : Rounding) (length : ℝ) (p : XR) (ms : ℕ) : XR :=
  R.result (p + R.result (R.result (.fin ms) / .fin length))

/-- `Linear (length)` (animation/stepper/linear.h 32-39) in `float` arithmetic. -/
def linear32 (R : Rounding) (length : ℝ) : Stepper where
  σ := XR
  state := .fin 0
  call := fun p ms => (R.advance length p ms, R.advance length p ms)

/-- `Reverse (step)` (animation/stepper/reverse.h 34-40) in `float` arithmetic. -/
def reverse32 (R : Rounding) (s : Stepper) : Stepper where
  σ := s.σ
  state := s.state
  call := fun st ms => (R.result (.fin 1 - (s.call st ms).1), (s.call st ms).2)

end

end Verif
