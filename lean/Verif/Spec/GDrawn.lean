import Verif.Model.GReadRounded
import Verif.Spec.GVisit

/-!
# Where an `AnimationWobblyModel` is drawn
-/

namespace Verif.Spec

noncomputable section

open Wobbly GWobbly

/-- The place in the rectangle of the model that belongs to unit coordinates: the second goes from left to right, the first
from top to bottom (C55). -/
def Spot.spread (o : Spot) (uv : Pt) : Pt := ⟨o.place.x + uv.y * o.width, o.place.y + uv.x * o.height⟩

/-- `animation_wobbly_model_deform_texcoords` takes the unit square to the rectangle, up to `d`. -/
def DrawnAt (rd l : ℝ → ℝ) (d : ℝ) (g : GState) (o : Spot) : Prop :=
  ∀ uv old : Pt, 0 ≤ uv.x ∧ uv.x ≤ 1 → 0 ≤ uv.y ∧ uv.y ≤ 1 →
    ∃ q, GRead.Rounded.deformTexcoords rd l g uv (some old) = .ok (some q) ∧ Near d q (o.spread uv)

/-- `animation_wobbly_model_query_extremes` gives the corners of the rectangle, up to `d`, in whole numbers. -/
def FramedAt (d : ℝ) (g : GState) (o : Spot) : Prop :=
  ∀ old : Pt, ∃ tl tr bl br : Pt,
    GRead.queryExtremes g (some old) (some old) (some old) (some old) = .ok (some tl, some tr, some bl, some br) ∧
    Near d tl (o.spread ⟨0, 0⟩) ∧ Near d tr (o.spread ⟨0, 1⟩) ∧ Near d bl (o.spread ⟨1, 0⟩) ∧ Near d br (o.spread ⟨1, 1⟩) ∧
    ∃ l r t b : ℤ, tl = ⟨l, t⟩ ∧ tr = ⟨r, t⟩ ∧ bl = ⟨l, b⟩ ∧ br = ⟨r, b⟩

end

end Verif.Spec
