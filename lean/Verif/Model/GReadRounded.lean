import Verif.Model.BezierDouble
import Verif.Model.GRead
import Verif.Model.GWobblyRounded

/-!
# Reading an `AnimationWobblyModel` with rounding

`animation_wobbly_model_query_extremes` compares and rounds to whole numbers only, which doubles do without an error, so the
definition without rounding is used for it.
-/

namespace Verif.GRead.Rounded

noncomputable section

/-- `animation_wobbly_model_deform_texcoords` (model.cpp 145-174), `r` rounds to `double` and `l` to `long double`. -/
def deformTexcoords (r l : ℝ → ℝ) (g : GWobbly.GState) (uv : Pt) (out : Option Pt) : Outcome (Option Pt) :=
  match g.model with
  | none => .ub
  | some s =>
    match out with
    | none => .ok none
    | some _ => .ok (some (Wobbly.Rounded.deformTexcoords r l s.pos uv))

end

end Verif.GRead.Rounded
