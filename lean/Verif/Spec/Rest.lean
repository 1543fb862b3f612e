import Verif.Model.WobblyDouble

/-!
# Where a model that is only moved and resized ought to be

A model without anchors that is moved and resized should be the lattice of its size at its place. This is written
down with exact numbers.
-/

namespace Verif.Spec

noncomputable section

open Wobbly Wobbly.Rounded

/-- Place and size of a model. -/
structure Spot where
  place : Pt
  width : ℝ
  height : ℝ

/-- What a call does to place and size. -/
def Spot.after (x : Spot) : FreeOp → Spot
  | .step _ => x
  | .moveBy d => { x with place := ⟨x.place.x + d.x, x.place.y + d.y⟩ }
  | .moveTo p => { x with place := p }
  | .resize w h => { x with width := w, height := h }

/-- What calls do to place and size. -/
def Spot.afterAll (x : Spot) (ops : List FreeOp) : Spot := ops.foldl Spot.after x

/-- A spot on a screen: coordinates at most 32768, sides between 1 and 32768 that are doubles. -/
structure Spot.OnScreen (x : Spot) : Prop where
  placeX : |x.place.x| ≤ 32768
  placeY : |x.place.y| ≤ 32768
  widthMin : 1 ≤ x.width
  widthMax : x.width ≤ 32768
  widthDouble : Double x.width
  heightMin : 1 ≤ x.height
  heightMax : x.height ≤ 32768
  heightDouble : Double x.height

/-- Spots on a screen at the start and after each call. -/
def Spot.Stays (x : Spot) (ops : List FreeOp) : Prop := ∀ n, (x.afterAll (ops.take n)).OnScreen

/-- The calls that are not `Step`. -/
def edits (ops : List FreeOp) : ℕ := (ops.filter fun op => match op with | .step _ => false | _ => true).length

/-- What the calls return when nothing ever moves by itself. -/
def calm : FreeOp → Res
  | .step _ => .more False
  | _ => .none

/-- Every point of the mesh is at most `t` from the lattice, in each coordinate. -/
def Spot.Close (x : Spot) (m : Mesh) (t : ℝ) : Prop :=
  ∀ i : Idx, |(m i).x - (x.place.x + (i.val % 4 : ℕ) * (x.width / 3))| ≤ t ∧
    |(m i).y - (x.place.y + (i.val / 4 : ℕ) * (x.height / 3))| ≤ t

end

end Verif.Spec
