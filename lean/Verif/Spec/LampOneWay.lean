import Verif.Spec.LampFloat

/-! # What is asked of the boxes for a rounded magic lamp that never moves back -/

namespace Verif.Spec

/-- The target begins at least a hundredth of a pixel above the top of the source, ends at least a hundredth of a pixel
above the bottom of the source, and is not upside down. -/
structure ClearlyUp (p : MagicLamp.Params) : Prop where
  target : Upright p.target
  top : p.target.tl.y + 0.01 ≤ p.source.tl.y
  bottom : p.target.br.y + 0.01 ≤ p.source.br.y

end Verif.Spec
