import Mathlib.Data.Real.Basic
import Mathlib.Algebra.Order.Round
import Mathlib.Analysis.SpecialFunctions.Exp

/-!
# Numbers

`float` and `double` are modelled by exact reals.  Where NaN and infinities matter they are
modelled by `XR`: IEEE-754 rules for the special values, exact arithmetic for the others.
Rounding, overflow and signed zero are not modelled (a zero divisor counts as `+0`).
-/

namespace Verif

noncomputable section

/-- A `float`/`double` value: NaN, an infinity, or an (exact) finite number. -/
inductive XR where
  | nan
  | ninf
  | pinf
  | fin (r : ℝ)

namespace XR

/-- C `std::isfinite`. -/
def IsFinite : XR → Prop
  | fin _ => True
  | _ => False

/-- IEEE negation. -/
protected def neg : XR → XR
  | nan => nan
  | ninf => pinf
  | pinf => ninf
  | fin r => fin (-r)

/-- IEEE addition. -/
protected def add : XR → XR → XR
  | fin a, fin b => fin (a + b)
  | nan, _ => nan
  | _, nan => nan
  | pinf, ninf => nan
  | ninf, pinf => nan
  | pinf, _ => pinf
  | _, pinf => pinf
  | ninf, _ => ninf
  | _, ninf => ninf

/-- An infinity with the sign of a finite factor (NaN for zero). -/
protected def signed (r : ℝ) : XR :=
  if 0 < r then pinf else if r < 0 then ninf else nan

/-- IEEE multiplication. -/
protected def mul : XR → XR → XR
  | fin a, fin b => fin (a * b)
  | nan, _ => nan
  | _, nan => nan
  | pinf, pinf => pinf
  | ninf, ninf => pinf
  | pinf, ninf => ninf
  | ninf, pinf => ninf
  | pinf, fin r => XR.signed r
  | fin r, pinf => XR.signed r
  | ninf, fin r => XR.signed (-r)
  | fin r, ninf => XR.signed (-r)

/-- IEEE division; a zero divisor counts as `+0`. -/
protected def div : XR → XR → XR
  | fin a, fin b => if b = 0 then XR.signed a else fin (a / b)
  | nan, _ => nan
  | _, nan => nan
  | fin _, _ => fin 0
  | pinf, fin b => if b < 0 then ninf else pinf
  | ninf, fin b => if b < 0 then pinf else ninf
  | _, _ => nan

instance : Neg XR := ⟨XR.neg⟩
instance : Add XR := ⟨XR.add⟩
instance : Sub XR := ⟨fun a b => a + -b⟩
instance : Mul XR := ⟨XR.mul⟩
instance : Div XR := ⟨XR.div⟩

/-- IEEE `a < b`: false when either side is NaN. -/
def lt : XR → XR → Prop
  | fin a, fin b => a < b
  | nan, _ => False
  | _, nan => False
  | ninf, ninf => False
  | ninf, _ => True
  | pinf, _ => False
  | fin _, pinf => True
  | fin _, ninf => False

open Classical in
/-- `std::min (a, b)` is `(b < a) ? b : a`. -/
def stdMin (a b : XR) : XR := if lt b a then b else a

open Classical in
/-- C `fmin`: the other argument if one is NaN. -/
def fmin : XR → XR → XR
  | nan, b => b
  | a, nan => a
  | a, b => if lt a b then a else b

open Classical in
/-- C `fmax`: the other argument if one is NaN. -/
def fmax : XR → XR → XR
  | nan, b => b
  | a, nan => a
  | a, b => if lt a b then b else a

/-- libm `exp`. -/
def exp : XR → XR
  | nan => nan
  | ninf => fin 0
  | pinf => pinf
  | fin r => fin (Real.exp r)

end XR

/-- `animation::math::clamp` (animation/math.h 28-31): `fmin (higher, fmax (lower, value))`. -/
def clamp (value lower higher : XR) : XR := XR.fmin higher (XR.fmax lower value)

/-- `std::numeric_limits<double>::max ()`. -/
def dblMax : ℝ := (2 ^ 53 - 1) * 2 ^ 971

/-- C `std::round`: nearest integer, halves away from zero. -/
def cRound (x : ℝ) : ℝ := if 0 ≤ x then (⌊x + 1 / 2⌋ : ℝ) else (⌈x - 1 / 2⌉ : ℝ)

/-- What a call did.  `diverges`: it never returns.  `throws`: a C++ exception.  `ub`: undefined
behaviour or a failed `assert`.  `nonfinite`: a division by zero led out of the finite numbers
(this model does not follow the computation further). -/
inductive Outcome (α : Type u) where
  | ok (a : α)
  | diverges
  | throws
  | ub
  | nonfinite

namespace Outcome

def bind {α : Type u} {β : Type v} : Outcome α → (α → Outcome β) → Outcome β
  | ok a, f => f a
  | diverges, _ => diverges
  | throws, _ => throws
  | ub, _ => ub
  | nonfinite, _ => nonfinite

instance : Monad Outcome where
  pure := ok
  bind := bind

/-- Apply a function to a successful result. -/
def mapOk {α : Type u} {β : Type v} (f : α → β) : Outcome α → Outcome β
  | ok a => ok (f a)
  | diverges => diverges
  | throws => throws
  | ub => ub
  | nonfinite => nonfinite

end Outcome

end

end Verif
