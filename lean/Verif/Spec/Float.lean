import Verif.Model.TransformFloat
import Verif.Spec.Animation

/-! # Specification vocabulary for rounded transforms -/

namespace Verif.Spec

noncomputable section

/-- No coordinate is larger than 2^100. -/
def Modest (b : Box) : Prop := |b.tl.x| ≤ 2 ^ 100 ∧ |b.tl.y| ≤ 2 ^ 100 ∧ |b.br.x| ≤ 2 ^ 100 ∧ |b.br.y| ≤ 2 ^ 100

/-- A box whose coordinates are `double` numbers of at most 2^52. -/
def Screen (b : Box) : Prop :=
  (Double b.tl.x ∧ Double b.tl.y ∧ Double b.br.x ∧ Double b.br.y) ∧
  |b.tl.x| ≤ 2 ^ 52 ∧ |b.tl.y| ≤ 2 ^ 52 ∧ |b.br.x| ≤ 2 ^ 52 ∧ |b.br.y| ≤ 2 ^ 52

/-- What the default rounding and rounding halves away from zero have in common: both signs are treated alike, and
the number half way between 1 and the next smaller `float` becomes 1. -/
structure Usual (R : Rounding) : Prop where
  symmetric : ∀ x, R.rnd (-x) = -R.rnd x
  below_one : R.rnd (1 - 1 / 2 ^ 25) = 1

/-- The corner comes out where it went in, converted to `float`, at the depth `z`. -/
def Unmoved (R : Rounding) (z : ℝ) (corner : Pt) (v : XVec4) : Prop :=
  v = ⟨.fin (R.rnd corner.x), .fin (R.rnd corner.y), .fin z, .fin 1⟩

/-- The corner at `q` of the surface of the target `t`, when it is shown as the box a fraction `r` of the way from `f` to `t`. -/
def between (r : ℝ) (f t : Box) (q : Pt) : Pt :=
  ⟨lerp (q.x / (t.br.x - t.tl.x)) (lerp r f.tl.x t.tl.x) (lerp r f.br.x t.br.x) - t.tl.x,
   lerp (q.y / (t.br.y - t.tl.y)) (lerp r f.tl.y t.tl.y) (lerp r f.br.y t.br.y) - t.tl.y⟩

end

end Verif.Spec
