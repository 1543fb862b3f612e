import Verif.Model.WobblyDouble

/-!
# Reading the wobbly mesh with rounding

`DeformUnitCoordsToMeshSpace` again, this time with rounding. The coefficients are computed in `double` and stored as
`long double`, so the products and sums are computed in `long double` and each sum is converted to `double`. How precise
`long double` is depends on the platform; it has every `double` and is at least as precise. Overflow is not modelled.
-/

namespace Verif

noncomputable section

/-- Rounding to `long double`: every `double` stays as it is, and the relative error is at most that of `double`. -/
structure Extended where
  rnd : ℝ → ℝ
  exact : ∀ x, Double x → rnd x = x
  error : ∀ x, |rnd x - x| ≤ |x| / 2 ^ 53 + 1 / 2 ^ 200

namespace Wobbly.Rounded

/-- `uCoefficients` or `vCoefficients` (wobbly_internal.h 1287-1315), `double` arithmetic with rounding `r`. -/
def bezierCoeff (r : ℝ → ℝ) (t : ℝ) (n : ℕ) : ℝ :=
  let one_t := r (1 - t)
  let three_t := r (3 * t)
  let t_pow2 := r (t * t)
  let one_t_pow2 := r (one_t * one_t)
  match n with
  | 0 => r (r (one_t * one_t) * one_t)
  | 1 => r (three_t * one_t_pow2)
  | 2 => r (r (3 * t_pow2) * one_t)
  | _ => r (t_pow2 * t)

/-- `x += uCoefficients[j] * vCoefficients[i] * mPoints[xIdx]` (wobbly_internal.h 1328): `l` rounds to `long double`, `r` to
`double`. -/
def accumulate (r l : ℝ → ℝ) (x cu cv m : ℝ) : ℝ := r (l (x + l (l (cu * cv) * m)))

/-- `DeformUnitCoordsToMeshSpace` (wobbly_internal.h 1272-1334), which `Model::DeformTexcoords` (wobbly.cpp 1115-1119) calls. -/
def deformTexcoords (r l : ℝ → ℝ) (m : Mesh) (uv : Pt) : Pt :=
  (List.finRange 16).foldl
    (fun acc i => ⟨accumulate r l acc.x (bezierCoeff r uv.x (row i)) (bezierCoeff r uv.y (col i)) (m i).x,
                   accumulate r l acc.y (bezierCoeff r uv.x (row i)) (bezierCoeff r uv.y (col i)) (m i).y⟩)
    ⟨0, 0⟩

end Wobbly.Rounded

end

end Verif
