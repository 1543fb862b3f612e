import Verif.Spec.Lamp

/-! # Boxes a window can be minimised between -/

namespace Verif.Spec

/-- The box has width and height. -/
def ProperBox (b : Box) : Prop := b.tl.x < b.br.x ∧ b.tl.y < b.br.y

/-- Both boxes have width and height; the target begins above the source and does not end below it. -/
structure GoesUp (p : MagicLamp.Params) : Prop where
  source : ProperBox p.source
  target : ProperBox p.target
  top : p.target.tl.y < p.source.tl.y
  bottom : p.target.br.y ≤ p.source.br.y

end Verif.Spec
