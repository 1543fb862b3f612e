import Verif.Spec.Rest
import Verif.Spec.Wobbly

/-!
# Where a model that is dragged ought to be

While a program holds a model at one point it moves that anchor, moves and resizes the model, and steps it. All of
this changes the place and size of the model; written down with exact numbers.
-/

namespace Verif.Spec

noncomputable section

open Wobbly Wobbly.Rounded

/-- The calls a program makes while it holds one anchor. -/
inductive HeldOp where
  | drag (d : Pt)
  | model (op : FreeOp)

/-- The call, the anchor having number `h`. -/
def HeldOp.call (h : ℕ) : HeldOp → Op
  | .drag d => .moveAnchor h d
  | .model (.step t) => .step t
  | .model (.moveBy d) => .moveBy d
  | .model (.moveTo p) => .moveTo p
  | .model (.resize w h) => .resize w h

/-- What a call does to place and size: dragging moves the place along. -/
def Spot.held (x : Spot) : HeldOp → Spot
  | .drag d => { x with place := ⟨x.place.x + d.x, x.place.y + d.y⟩ }
  | .model op => x.after op

/-- What calls do to place and size. -/
def Spot.heldAll (x : Spot) (ops : List HeldOp) : Spot := ops.foldl Spot.held x

/-- Spots on a screen at the start and after each call. -/
def Spot.StaysHeld (x : Spot) (ops : List HeldOp) : Prop := ∀ n, (x.heldAll (ops.take n)).OnScreen

/-- The calls that are not `Step`. -/
def heldEdits (ops : List HeldOp) : ℕ :=
  (ops.filter fun op => match op with | .model (.step _) => false | _ => true).length

/-- Point number `i` of the lattice. -/
def Spot.point (x : Spot) (i : Idx) : Pt :=
  ⟨x.place.x + (i.val % 4 : ℕ) * (x.width / 3), x.place.y + (i.val / 4 : ℕ) * (x.height / 3)⟩

/-- The coordinates differ by at most `t`. -/
def Near (t : ℝ) (p q : Pt) : Prop := |p.x - q.x| ≤ t ∧ |p.y - q.y| ≤ t

end

end Verif.Spec
