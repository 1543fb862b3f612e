import Verif.Model.Geometry

/-!
# Wobbly: mesh, springs, forces, integration

Models `animation/wobbly/wobbly_internal.h` and the parts of `animation/wobbly/wobbly.cpp` that do
arithmetic.  Truth values are `Prop`s.
-/

namespace Verif.Wobbly

noncomputable section

open Classical

/-- Index of a mesh point (`config::TotalIndices = 4 * 4`, wobbly_internal.h 115-121). -/
abbrev Idx := Fin 16

/-- `MeshArray` (wobbly_internal.h 123): sixteen points, seen through `PointView`s (see C63). -/
abbrev Mesh := Idx → Pt

/-- Row of a mesh index, as computed in `CalculatePositionArray` (wobbly_internal.h 138). -/
def row (i : Idx) : ℕ := i.val / 4
/-- Column of a mesh index (wobbly_internal.h 139). -/
def col (i : Idx) : ℕ := i.val % 4

/-- `Model::Settings` (wobbly.h 106-111). -/
structure Settings where
  springConstant : ℝ
  friction : ℝ
  maximumRange : ℝ

/-- `Model::DefaultSettings` (wobbly.cpp 518-523, wobbly.h 176-179). -/
def defaultSettings : Settings := ⟨8, 3, 500⟩

/-- `Model::Mass` (wobbly.h 178). -/
def mass : ℝ := 15

/-- `ResetIfCloseToZero` for one coordinate (wobbly_internal.h 87-93). -/
def clip (t c : ℝ) : ℝ := if |c| < t then 0 else c

/-- `ResetIfCloseToZero` (wobbly_internal.h 87-93). -/
def resetIfCloseToZero (p : Pt) (t : ℝ) : Pt := ⟨clip t p.x, clip t p.y⟩

/-- `CalculatePositionArray` (wobbly_internal.h 130-147). The loop body for one index does not depend
on the others. -/
def positionArray (p tile : Pt) : Mesh := fun i => p + ⟨col i * tile.x, row i * tile.y⟩

/-- One iteration of the loop in `ClosestIndexToPosition` (wobbly_internal.h 158-167). -/
def closestStep (m : Mesh) (p : Pt) (acc : Option Idx × ℝ) (i : Idx) : Option Idx × ℝ :=
  let d := Pt.distance p (m i)
  if d < acc.2 then (some i, d) else acc

/-- `ClosestIndexToPosition` (wobbly_internal.h 150-171); `none` is the failed assertion at 169. -/
def closestIndex (m : Mesh) (p : Pt) : Option Idx :=
  ((List.finRange 16).foldl (closestStep m p) (none, dblMax)).1

/-! ## Springs -/

/-- What a spring end is attached to: a mesh point, or the heap storage of an inserted anchor
(identified by the anchor's handle number). -/
inductive Node where
  | mesh (i : Idx)
  | anchor (h : ℕ)
  deriving DecidableEq

/-- `Spring` (wobbly_internal.h 222-301). -/
structure Spring where
  id : ℕ
  a : Node
  b : Node
  desired : Pt

/-- `springs::DeltaFromDesired` (wobbly_internal.h 1197-1211). -/
def deltaFromDesired (a b desired : Pt) : Pt :=
  ⟨1 / 2 * (b.x - a.x + desired.x), 1 / 2 * (b.y - a.y + desired.y)⟩

namespace Spring

/-- `deltaA` after clipping (wobbly_internal.h 1219-1230); `ClipThreshold = 0.5` (283). -/
def deltaA (s : Spring) (at_ : Node → Pt) : Pt :=
  resetIfCloseToZero (deltaFromDesired (at_ s.a) (at_ s.b) (s.desired.scale (-1))) (1 / 2)

/-- `deltaB` after clipping (wobbly_internal.h 1225-1231). -/
def deltaB (s : Spring) (at_ : Node → Pt) : Pt :=
  resetIfCloseToZero (deltaFromDesired (at_ s.b) (at_ s.a) s.desired) (1 / 2)

/-- `pointwise_add` on the force slot of a node. -/
def addForce (f : Node → Pt) (n : Node) (v : Pt) : Node → Pt :=
  fun m => if m = n then f m + v else f m

/-- `Spring::ApplyForces` (wobbly_internal.h 1214-1249): the forces afterwards and the result. -/
def applyForces (s : Spring) (k : ℝ) (at_ : Node → Pt) (f : Node → Pt) : (Node → Pt) × Prop :=
  let dA := s.deltaA at_
  let dB := s.deltaB at_
  (addForce (addForce f s.a (dA.scale k)) s.b (dB.scale k),
   |dA.x| + |dB.x| > 0 ∨ |dA.y| + |dB.y| > 0)

/-- `Spring::ScaleLength` (wobbly.cpp 232-236). -/
def scaleLength (s : Spring) (f : Pt) : Spring := { s with desired := s.desired.pscale f }

end Spring

/-- `SpringMesh::CalculateForces` (wobbly_internal.h 1252-1269). The force slots of inserted anchors
are not cleared by the code (they are outside `mForces`); nothing ever reads them, so here all slots
start from zero. -/
def calculateForces (k : ℝ) (at_ : Node → Pt) (springs : List Spring) : (Node → Pt) × Prop :=
  springs.foldl
    (fun acc s => let r := s.applyForces k at_ acc.1; (r.1, acc.2 ∨ r.2))
    (fun _ => 0, False)

/-- The mesh edges in the order of `GenerateBaseSpringMesh` (wobbly.cpp 257-286): for each point the
one below, then the one to the right. The flag says "below". -/
def baseEdges : List (Idx × Idx × Bool) :=
  (List.range 4).flatMap fun j => (List.range 4).flatMap fun i =>
    (if j < 3 then [(Fin.ofNat 16 (j * 4 + i), Fin.ofNat 16 ((j + 1) * 4 + i), true)] else []) ++
    (if i < 3 then [(Fin.ofNat 16 (j * 4 + i), Fin.ofNat 16 (j * 4 + i + 1), false)] else [])

/-- `GenerateBaseSpringMesh` (wobbly.cpp 240-291) when the last identifier issued before is
`lastId`. -/
def baseSprings (tile : Pt) (lastId : ℕ) : List Spring :=
  baseEdges.zipIdx.map fun e =>
    { id := lastId + e.2 + 1
      a := .mesh e.1.1
      b := .mesh e.1.2.1
      desired := if e.1.2.2 then ⟨0, tile.y⟩ else ⟨tile.x, 0⟩ }

/-- `SpringCountForGridSize (4, 4)` (wobbly.cpp 131-136). -/
def springCount : ℕ := ((4 - 1) * (4 - 1)) * 2 + 4 + 4 - 2

/-! ## Integration -/

/-- `EulerIntegrate` for one coordinate (wobbly_internal.h 1117-1165, 1096-1113): the new velocity. -/
def eulerVelocity (time friction mass vel force : ℝ) : ℝ :=
  clip (1 / 10) (vel + (force - vel * friction) * (1 / mass) * time)

/-- `EulerIntegrate` (wobbly_internal.h 1117-1165): new position, new velocity, "still moving". -/
def eulerIntegrate (time friction mass : ℝ) (pos vel force : Pt) : Pt × Pt × Prop :=
  let v : Pt := ⟨eulerVelocity time friction mass vel.x force.x,
                 eulerVelocity time friction mass vel.y force.y⟩
  (pos + v.scale (time / 2), v, |v.x| > 0 ∨ |v.y| > 0)

/-- Positions and velocities of the mesh points. -/
@[ext] structure Phys where
  pos : Mesh
  vel : Mesh

/-- `AnchoredIntegration` (wobbly_internal.h 722-764) with `PerformActions` (350-361): locked points
lose their velocity, the others take an Euler step of time 1 with the model's mass. The loop bodies
for different points do not interfere. -/
def anchoredIntegration (locks : Idx → ℕ) (friction : ℝ) (q : Phys) (forces : Mesh) : Phys × Prop :=
  (⟨fun i => if locks i > 0 then q.pos i
      else (eulerIntegrate 1 friction mass (q.pos i) (q.vel i) (forces i)).1,
    fun i => if locks i > 0 then q.vel i |>.assignValue 0
      else (eulerIntegrate 1 friction mass (q.pos i) (q.vel i) (forces i)).2.1⟩,
   ∃ i, ¬ locks i > 0 ∧ (eulerIntegrate 1 friction mass (q.pos i) (q.vel i) (forces i)).2.2)

/-- What stays fixed during integration: settings, locks, springs, positions of inserted anchors. -/
structure Env where
  k : ℝ
  friction : ℝ
  locks : Idx → ℕ
  springs : List Spring
  apos : ℕ → Pt

/-- Position of a spring end. -/
def Env.at_ (e : Env) (m : Mesh) : Node → Pt
  | .mesh i => m i
  | .anchor h => e.apos h

/-- `SpringStep::operator()` (wobbly_internal.h 1067-1080). -/
def springStep (e : Env) (q : Phys) : Phys × Prop :=
  let r := calculateForces e.k (e.at_ q.pos) e.springs
  let i := anchoredIntegration e.locks e.friction q (fun i => r.1 (.mesh i))
  (i.1, r.2 ∨ i.2)

/-- The state of the loop in `TargetPositionByFullIntegration` after `n` rounds. -/
def settleIter (e : Env) (q : Phys) (n : ℕ) : Phys := (fun q => (springStep e q).1)^[n] q

/-- Round `n` asked for another one. -/
def settleMore (e : Env) (q : Phys) (n : ℕ) : Prop := (springStep e (settleIter e q n)).2

/-- `while (Integrate (points, anchors, 1, spring, ...));` (wobbly.cpp 643-648), then point 0. The
additional constrainment step of `TargetPosition` (wobbly.cpp 671-672) does nothing, because that call
is only made while the target mesh is not active. -/
def settle (e : Env) (q : Phys) : Outcome Pt :=
  if h : ∃ n, ¬ settleMore e q n then .ok ((settleIter e q (Nat.find h + 1)).pos 0) else .diverges

/-- The loop body of `ConstrainmentStep::operator()` for one point that is out of range
(wobbly.cpp 1054-1067). -/
def constrainPoint (maxRange : ℝ) (target point : Pt) : Pt :=
  let range := Pt.distance target point
  let sin := (target.y - point.y) / range
  let cos := (target.x - point.x) / range
  let newRange := min maxRange range
  target - ⟨newRange * cos, newRange * sin⟩

/-- `ConstrainmentStep::operator()` on an active target mesh (wobbly.cpp 1027-1072). `nonfinite` when
a point out of range is at its target (`0 / 0`). -/
def constrain (maxRange : ℝ) (targets pos : Mesh) : Outcome (Mesh × Prop) :=
  if ∃ i, ¬ Pt.distance (targets i) (pos i) < maxRange ∧ Pt.distance (targets i) (pos i) = 0
  then .nonfinite
  else .ok (fun i => if Pt.distance (targets i) (pos i) < maxRange then pos i
                     else constrainPoint maxRange (targets i) (pos i),
            ∃ i, ¬ Pt.distance (targets i) (pos i) < maxRange)

/-! ## Reading the mesh -/

/-- `DeformUnitCoordsToMeshSpace` (wobbly_internal.h 1272-1334). `uCoefficients` go with rows,
`vCoefficients` with columns. -/
def bezierCoeff (t : ℝ) (n : ℕ) : ℝ :=
  match n with
  | 0 => (1 - t) * (1 - t) * (1 - t)
  | 1 => (3 * t) * ((1 - t) * (1 - t))
  | 2 => 3 * (t * t) * (1 - t)
  | _ => (t * t) * t

/-- The double loop of `DeformUnitCoordsToMeshSpace` (wobbly_internal.h 1315-1330). -/
def deformTexcoords (m : Mesh) (uv : Pt) : Pt :=
  (List.finRange 16).foldl
    (fun acc i => ⟨acc.x + bezierCoeff uv.x (row i) * bezierCoeff uv.y (col i) * (m i).x,
                   acc.y + bezierCoeff uv.x (row i) * bezierCoeff uv.y (col i) * (m i).y⟩)
    ⟨0, 0⟩

/-- One coordinate of `SetToExtreme` (wobbly.cpp 1189-1200): choose, then round. -/
def setToExtreme (chooser : ℝ → ℝ → ℝ) (p x : ℝ) : ℝ := cRound (chooser p x)

/-- `BezierMesh::Extremes` (wobbly.cpp 1211-1253): top left, top right, bottom left, bottom right. -/
def extremes (m : Mesh) : Pt × Pt × Pt × Pt :=
  (List.finRange 16).foldl
    (fun e i =>
      (⟨setToExtreme min e.1.x (m i).x, setToExtreme min e.1.y (m i).y⟩,
       ⟨setToExtreme max e.2.1.x (m i).x, setToExtreme min e.2.1.y (m i).y⟩,
       ⟨setToExtreme min e.2.2.1.x (m i).x, setToExtreme max e.2.2.1.y (m i).y⟩,
       ⟨setToExtreme max e.2.2.2.x (m i).x, setToExtreme max e.2.2.2.y (m i).y⟩))
    (⟨dblMax, dblMax⟩, ⟨-dblMax, dblMax⟩, ⟨dblMax, -dblMax⟩, ⟨-dblMax, -dblMax⟩)

end

end Verif.Wobbly
