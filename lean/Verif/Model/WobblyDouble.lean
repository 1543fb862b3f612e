import Verif.Model.Wobbly

/-!
# Wobbly in double precision

The wobbly model again, this time with the rounding of `double` arithmetic, as long as the program has no anchor.
Without anchors there are no locked points, nothing is inserted into the spring mesh and the target mesh is not
read, so those parts of `Model::Private` are left out. Overflow is not modelled.

Every definition takes the rounding function `r` that is applied to the result of each arithmetic operation. With
`r x = x` these are the definitions of `Model/WobblyPhysics.lean` and `Model/Wobbly.lean` (`Lemmas/WobblyDouble.lean`).
-/

namespace Verif

noncomputable section

/-- The numbers a `double` can hold (IEEE 754 binary64, denormalised numbers included), except that the exponent
is not bounded above. -/
def Double (x : ℝ) : Prop := ∃ m e : ℤ, |m| < 2 ^ 53 ∧ -1074 ≤ e ∧ x = m * 2 ^ e

/-- A way of rounding to a nearest `double`. How ties are broken is left open, so round-half-even is one
instance. -/
structure Rounding64 where
  rnd : ℝ → ℝ
  double : ∀ x, Double (rnd x)
  nearest : ∀ x y, Double y → |rnd x - x| ≤ |y - x|

namespace Wobbly.Rounded

open Classical

variable (r : ℝ → ℝ)

/-- `pointwise_add` (animation/geometry_traits.h 307-315). -/
def add (p q : Pt) : Pt := ⟨r (p.x + q.x), r (p.y + q.y)⟩

/-- `pointwise_subtract` (animation/geometry_traits.h 323-331). -/
def sub (p q : Pt) : Pt := ⟨r (p.x - q.x), r (p.y - q.y)⟩

/-- `scale` (animation/geometry_traits.h 259-267). -/
def scale (p : Pt) (f : ℝ) : Pt := ⟨r (p.x * f), r (p.y * f)⟩

/-- `pointwise_scale` (animation/geometry_traits.h 275-283). -/
def pscale (p q : Pt) : Pt := ⟨r (p.x * q.x), r (p.y * q.y)⟩

/-- `CalculatePositionArray` (wobbly_internal.h 130-147). -/
def positionArray (p tile : Pt) : Mesh := fun i => add r p ⟨r (col i * tile.x), r (row i * tile.y)⟩

/-- `springs::DeltaFromDesired` (wobbly_internal.h 1197-1211). -/
def deltaFromDesired (a b desired : Pt) : Pt :=
  ⟨r (1 / 2 * r (r (b.x - a.x) + desired.x)), r (1 / 2 * r (r (b.y - a.y) + desired.y))⟩

/-- `deltaA` after clipping (wobbly_internal.h 1219-1230). -/
def deltaA (s : Spring) (at_ : Node → Pt) : Pt :=
  resetIfCloseToZero (deltaFromDesired r (at_ s.a) (at_ s.b) (scale r s.desired (-1))) (1 / 2)

/-- `deltaB` after clipping (wobbly_internal.h 1225-1231). -/
def deltaB (s : Spring) (at_ : Node → Pt) : Pt :=
  resetIfCloseToZero (deltaFromDesired r (at_ s.b) (at_ s.a) s.desired) (1 / 2)

/-- `pointwise_add` on the force slot of a node. -/
def addForce (f : Node → Pt) (n : Node) (v : Pt) : Node → Pt := fun m => if m = n then add r (f m) v else f m

/-- `Spring::ApplyForces` (wobbly_internal.h 1214-1249). -/
def applyForces (s : Spring) (k : ℝ) (at_ : Node → Pt) (f : Node → Pt) : (Node → Pt) × Prop :=
  let dA := deltaA r s at_
  let dB := deltaB r s at_
  (addForce r (addForce r f s.a (scale r dA k)) s.b (scale r dB k),
   r (|dA.x| + |dB.x|) > 0 ∨ r (|dA.y| + |dB.y|) > 0)

/-- `SpringMesh::CalculateForces` (wobbly_internal.h 1252-1269). -/
def calculateForces (k : ℝ) (at_ : Node → Pt) (springs : List Spring) : (Node → Pt) × Prop :=
  springs.foldl (fun acc s => let f := applyForces r s k at_ acc.1; (f.1, acc.2 ∨ f.2)) (fun _ => 0, False)

/-- `EulerIntegrate` for one coordinate (wobbly_internal.h 1117-1165, 1096-1113): the new velocity. `0.1` is the
`double` next to it. -/
def eulerVelocity (time friction mass vel force : ℝ) : ℝ :=
  clip (r (1 / 10)) (r (vel + r (r (r (force - r (r (0 + vel) * friction)) * r (1 / mass)) * time)))

/-- `EulerIntegrate` (wobbly_internal.h 1117-1165). -/
def eulerIntegrate (time friction mass : ℝ) (pos vel force : Pt) : Pt × Pt × Prop :=
  let v : Pt := ⟨eulerVelocity r time friction mass vel.x force.x, eulerVelocity r time friction mass vel.y force.y⟩
  (add r pos (scale r v (r (time / 2))), v, |v.x| > 0 ∨ |v.y| > 0)

/-- `SpringStep::operator()` (wobbly_internal.h 1067-1080) with `AnchoredIntegration` (722-764), nothing locked. -/
def springStep (k friction : ℝ) (springs : List Spring) (q : Phys) : Phys × Prop :=
  let f := calculateForces r k (fun n => match n with | .mesh i => q.pos i | .anchor _ => 0) springs
  let e := fun i => eulerIntegrate r 1 friction mass (q.pos i) (q.vel i) (f.1 (.mesh i))
  (⟨fun i => (e i).1, fun i => (e i).2.1⟩, f.2 ∨ ∃ i, (e i).2.2)

/-- `while (Integrate (points, anchors, 1, spring, ...));` (wobbly.cpp 643-648), then point 0. -/
def settle (k friction : ℝ) (springs : List Spring) (q : Phys) : Outcome Pt :=
  let after := fun n => (fun q => (springStep r k friction springs q).1)^[n] q
  if h : ∃ n, ¬ (springStep r k friction springs (after n)).2 then .ok ((after (Nat.find h + 1)).pos 0) else .diverges

/-- `Model::Private` (wobbly.cpp 430-475) without anchors. -/
structure Free where
  width : ℝ
  height : ℝ
  settings : Settings
  pos : Mesh
  vel : Mesh
  springs : List Spring
  lastId : ℕ
  unequal : Prop

namespace Free

/-- `Private::TileSize` (wobbly.cpp 675-680). -/
def tile (s : Free) : Pt := ⟨r (s.width / 3), r (s.height / 3)⟩

/-- `Model::Model` (wobbly.cpp 478-516, 525-541). -/
def new (p : Pt) (w h : ℝ) (settings : Settings) (lastId : ℕ) : Free where
  width := w
  height := h
  settings := settings
  pos := positionArray r p ⟨r (w / 3), r (h / 3)⟩
  vel := fun _ => 0
  springs := baseSprings ⟨r (w / 3), r (h / 3)⟩ lastId
  lastId := lastId + springCount
  unequal := False

/-- `Private::TargetPosition` (wobbly.cpp 657-673), which integrates a copy with a fresh spring mesh (627-654). -/
def targetPosition (s : Free) : Outcome (Free × Pt) :=
  (settle r s.settings.springConstant s.settings.friction (baseSprings (s.tile r) s.lastId) ⟨s.pos, s.vel⟩).bind fun p =>
  .ok ({ s with lastId := s.lastId + springCount }, p)

/-- `Integrate` (wobbly.cpp 569-604): `n` rounds. -/
def integrate (s : Free) : ℕ → Phys → Phys × Prop
  | 0, q => (q, False)
  | n + 1, q =>
    let a := springStep r s.settings.springConstant s.settings.friction s.springs q
    let b := s.integrate n a.1
    (b.1, a.2 ∨ b.2)

/-- `Model::Step` (wobbly.cpp 1079-1113). The number of rounds is computed without rounding error: the division by
16 is exact. -/
def step (s : Free) (t : ℕ) : Free × Res :=
  let a := s.integrate r (stepCount t) ⟨s.pos, s.vel⟩
  let more := (if t ≠ 0 then False else s.unequal) ∨ a.2
  ({ s with pos := a.1.pos, vel := a.1.vel, unequal := more }, .more more)

/-- `Model::MoveModelBy` (wobbly.cpp 936-952). -/
def moveBy (s : Free) (d : Pt) : Free := { s with pos := fun i => add r (s.pos i) d }

/-- `Model::MoveModelTo` (wobbly.cpp 954-968). -/
def moveTo (s : Free) (p : Pt) : Outcome (Free × Res) :=
  (s.targetPosition r).bind fun a => .ok (a.1.moveBy r (sub r p a.2), .none)

/-- `rescale` (wobbly.cpp 997-1002). -/
def rescale (f origin p : Pt) : Pt := add r (pscale r (sub r p origin) f) origin

/-- `Model::ResizeModel` (wobbly.cpp 970-1017). -/
def resize (s : Free) (w h : ℝ) : Outcome (Free × Res) :=
  if ¬ (w > 0 ∧ h > 0) then .ub
  else if s.width = 0 ∨ s.height = 0 then .nonfinite
  else
    let f : Pt := ⟨r (w / s.width), r (h / s.height)⟩
    if Pt.equals f ⟨1, 1⟩ then .ok (s, .none)
    else
      (s.targetPosition r).bind fun a =>
      .ok ({ a.1 with
              pos := fun i => rescale r f a.2 (a.1.pos i)
              springs := a.1.springs.map fun x => { x with desired := pscale r x.desired f }
              width := w
              height := h },
           .none)

end Free

/-- The calls a program without anchors can make. -/
inductive FreeOp where
  | step (t : ℕ)
  | moveBy (d : Pt)
  | moveTo (p : Pt)
  | resize (w h : ℝ)

/-- The call of the full model. -/
def FreeOp.call : FreeOp → Op
  | .step t => .step t
  | .moveBy d => .moveBy d
  | .moveTo p => .moveTo p
  | .resize w h => .resize w h

/-- One call. -/
def Free.exec (s : Free) : FreeOp → Outcome (Free × Res)
  | .step t => .ok (s.step r t)
  | .moveBy d => .ok (s.moveBy r d, .none)
  | .moveTo p => s.moveTo r p
  | .resize w h => s.resize r w h

/-- A sequence of calls and what they return. -/
def Free.run (s : Free) : List FreeOp → Outcome (Free × List Res)
  | [] => .ok (s, [])
  | op :: ops =>
    (s.exec r op).bind fun a =>
    (a.1.run ops).bind fun b =>
    .ok (b.1, a.2 :: b.2)

end Wobbly.Rounded

end

end Verif
