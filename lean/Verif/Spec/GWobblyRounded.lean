import Verif.Spec.GWobbly

/-!
# Specification vocabulary for the GObject layer over the wobbly model, with rounding
-/

namespace Verif.Spec

noncomputable section

open Wobbly GWobbly

/-- The position asked for by the calls: the last absolute one, and the relative ones after it added one by one with the
arithmetic `rd`. -/
def requestedRounded (rd : ℝ → ℝ) (p : Pt) : List GOp → Pt
  | [] => p
  | .moveTo q :: ops | .propPosition (some q) :: ops => requestedRounded rd q ops
  | .moveBy d :: ops => requestedRounded rd ⟨rd (p.x + d.x), rd (p.y + d.y)⟩ ops
  | _ :: ops => requestedRounded rd p ops

end

end Verif.Spec
