import Mathlib.Algebra.BigOperators.Fin
import Mathlib.Data.Nat.Choose.Basic
import Mathlib.Data.Real.Basic

/-! # The surface a wobbly mesh stands for -/

namespace Verif.Spec

noncomputable section

/-- The cubic Bernstein polynomial number `k`. -/
def bernstein (k : ℕ) (t : ℝ) : ℝ := Nat.choose 3 k * t ^ k * (1 - t) ^ (3 - k)

/-- One coordinate of the bicubic Bézier surface with sixteen control points, numbered row by row: `u` goes down the rows
and `v` along them. -/
def patch (control : Fin 16 → ℝ) (u v : ℝ) : ℝ :=
  ∑ k : Fin 16, bernstein (k.val / 4) u * bernstein (k.val % 4) v * control k

end

end Verif.Spec
