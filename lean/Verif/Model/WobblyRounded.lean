import Verif.Model.WobblyDouble

/-!
# Wobbly with anchors in double precision

`Model/Wobbly.lean` again, anchors included, with the rounding of `double` arithmetic. As in
`Model/WobblyDouble.lean` every definition takes the rounding function `r` that is applied to the result of each
arithmetic operation, and overflow is not modelled. `sqrt` is correctly rounded, as IEEE 754 asks. What does no
arithmetic (locks, spring lists, the numbering of springs) is used from `Model/Wobbly.lean`.

With `r x = x` these are the definitions of `Model/WobblyPhysics.lean` and `Model/Wobbly.lean`; without anchors they are
those of `Model/WobblyDouble.lean` (both in `Lemmas/WobblyRounded.lean`).
-/

namespace Verif.Wobbly.Rounded

noncomputable section

open Classical

variable (r : ℝ → ℝ)

/-- `dimension::distance` (animation/geometry_traits.h 339-348), the higher dimension first. -/
def distance (p q : Pt) : ℝ :=
  r (Real.sqrt (r (r (0 + r (r (p.y - q.y) * r (p.y - q.y))) + r (r (p.x - q.x) * r (p.x - q.x)))))

/-- One iteration of the loop in `ClosestIndexToPosition` (wobbly_internal.h 158-167). -/
def closestStep (m : Mesh) (p : Pt) (acc : Option Idx × ℝ) (i : Idx) : Option Idx × ℝ :=
  let d := distance r p (m i)
  if d < acc.2 then (some i, d) else acc

/-- `ClosestIndexToPosition` (wobbly_internal.h 150-171); `none` is the failed assertion at 169. -/
def closestIndex (m : Mesh) (p : Pt) : Option Idx := ((List.finRange 16).foldl (closestStep r m p) (none, dblMax)).1

/-- `AnchoredIntegration` (wobbly_internal.h 722-764) with `PerformActions` (350-361). -/
def anchoredIntegration (locks : Idx → ℕ) (friction : ℝ) (q : Phys) (forces : Mesh) : Phys × Prop :=
  (⟨fun i => if locks i > 0 then q.pos i
      else (eulerIntegrate r 1 friction mass (q.pos i) (q.vel i) (forces i)).1,
    fun i => if locks i > 0 then q.vel i |>.assignValue 0
      else (eulerIntegrate r 1 friction mass (q.pos i) (q.vel i) (forces i)).2.1⟩,
   ∃ i, ¬ locks i > 0 ∧ (eulerIntegrate r 1 friction mass (q.pos i) (q.vel i) (forces i)).2.2)

/-- `SpringStep::operator()` (wobbly_internal.h 1067-1080). -/
def springRound (e : Env) (q : Phys) : Phys × Prop :=
  let f := calculateForces r e.k (e.at_ q.pos) e.springs
  let i := anchoredIntegration r e.locks e.friction q (fun i => f.1 (.mesh i))
  (i.1, f.2 ∨ i.2)

/-- The state of the loop in `TargetPositionByFullIntegration` after `n` rounds. -/
def restIter (e : Env) (q : Phys) (n : ℕ) : Phys := (fun q => (springRound r e q).1)^[n] q

/-- Round `n` asked for another one. -/
def restMore (e : Env) (q : Phys) (n : ℕ) : Prop := (springRound r e (restIter r e q n)).2

/-- `while (Integrate (points, anchors, 1, spring, ...));` (wobbly.cpp 643-648), then point 0. -/
def rest (e : Env) (q : Phys) : Outcome Pt :=
  if h : ∃ n, ¬ restMore r e q n then .ok ((restIter r e q (Nat.find h + 1)).pos 0) else .diverges

/-- The loop body of `ConstrainmentStep::operator()` for one point that is out of range
(wobbly.cpp 1054-1067). -/
def constrainPoint (maxRange : ℝ) (target point : Pt) : Pt :=
  let range := distance r target point
  let sin := r (r (target.y - point.y) / range)
  let cos := r (r (target.x - point.x) / range)
  let newRange := min maxRange range
  sub r target ⟨r (newRange * cos), r (newRange * sin)⟩

/-- `ConstrainmentStep::operator()` on an active target mesh (wobbly.cpp 1027-1072). -/
def constrain (maxRange : ℝ) (targets pos : Mesh) : Outcome (Mesh × Prop) :=
  if ∃ i, ¬ distance r (targets i) (pos i) < maxRange ∧ distance r (targets i) (pos i) = 0
  then .nonfinite
  else .ok (fun i => if distance r (targets i) (pos i) < maxRange then pos i
                     else constrainPoint r maxRange (targets i) (pos i),
            ∃ i, ¬ distance r (targets i) (pos i) < maxRange)

/-- `Private::TileSize` (wobbly.cpp 675-680). -/
def tile (s : State) : Pt := ⟨r (s.width / (4 - 1)), r (s.height / (4 - 1))⟩

/-- `Model::Model` (wobbly.cpp 478-516, 525-541). -/
def new (p : Pt) (w h : ℝ) (settings : Settings) (lastId : ℕ) : State where
  width := w
  height := h
  settings := settings
  locks := fun _ => 0
  firstAnchor := none
  targets := positionArray r p ⟨r (w / (4 - 1)), r (h / (4 - 1))⟩
  count := 0
  pos := positionArray r p ⟨r (w / (4 - 1)), r (h / (4 - 1))⟩
  vel := fun _ => 0
  springs := baseSprings ⟨r (w / (4 - 1)), r (h / (4 - 1))⟩ lastId
  pending := []
  lastId := lastId + springCount
  unequal := False
  live := []
  nextHid := 0

/-- The fixed data of `TargetPositionByFullIntegration` (wobbly.cpp 627-641). -/
def restEnv (s : State) : Env :=
  ⟨s.settings.springConstant, s.settings.friction, s.locks, baseSprings (tile r s) s.lastId, fun _ => 0⟩

/-- `Private::TargetPositionByFullIntegration` (wobbly.cpp 627-654). -/
def targetByFullIntegration (s : State) : Outcome Pt := rest r (restEnv r s) ⟨s.pos, s.vel⟩

/-- The origin recalculation strategy (wobbly.cpp 484-497). -/
def recalc (s : State) : Outcome State :=
  (targetByFullIntegration r s).bind fun p => .ok { s.spend with targets := positionArray r p (tile r s) }

/-- `Private::TargetPosition` (wobbly.cpp 657-673). -/
def targetPosition (s : State) : Outcome (State × Pt) :=
  if s.active then .ok (s, s.targets 0)
  else (targetByFullIntegration r s).bind fun p => .ok (s.spend, p)

/-- `TargetMesh::Activate` (wobbly.cpp 1135-1153). -/
def activate (s : State) : Outcome State :=
  let s' := { s with count := s.count + 1 }
  if s'.count = 1 then recalc r s' else .ok s'

/-- Release of a `TargetMesh::Hnd` (wobbly.cpp 1154-1160). -/
def deactivate (s : State) : Outcome State :=
  if s.count = 0 then .ub
  else
    let s' := { s with count := s.count - 1 }
    if s'.count = 1 then recalc r s' else .ok s'

/-- Loop body of `FindSpringToSplit` (wobbly.cpp 322-347). -/
def splitStep (at_ : Node → Pt) (p : Pt) (acc : Split) (s : Spring) : Split :=
  let d1 := distance r (at_ s.a) p
  let acc1 : Split := if d1 < acc.primary then ⟨some s, d1, dblMax⟩ else acc
  if d1 = acc1.primary then
    let d2 := distance r (at_ s.b) p
    if d2 < acc1.secondary then ⟨some s, acc1.primary, d2⟩ else acc1
  else acc1

/-- `FindSpringToSplit` (wobbly.cpp 312-352); `none` is the failed assertion at 350. -/
def findSpringToSplit (at_ : Node → Pt) (p : Pt) (springs : List Spring) : Option Spring :=
  (springs.foldl (splitStep r at_ p) ⟨none, dblMax, dblMax⟩).found

/-- What the anchor installation does to the springs and anchors once everything is known
(wobbly.cpp 380-417). -/
def install (s : State) (p : Pt) (found : Spring) (d1 d2 : Pt) : State :=
  { s with
    springs := removeId s.springs found.id ++
      [⟨s.lastId + 1, .anchor s.nextHid, found.a, sub r d1 p⟩,
       ⟨s.lastId + 2, .anchor s.nextHid, found.b, sub r d2 p⟩]
    lastId := s.lastId + 2
    live := s.live ++ [⟨s.nextHid, .ins p found (s.lastId + 1) (s.lastId + 2)⟩]
    nextHid := s.nextHid + 1 }

/-- `SpringMesh::InstallAnchorSprings` with `InsertPointStrategy` (wobbly.cpp 356-426, 750-845). -/
def insertSprings (s : State) (p : Pt) : Outcome State :=
  if dangling s.springs s.live then .ub
  else
    match findSpringToSplit r (s.env.at_ s.pos) p s.springs with
    | none => .ub
    | some found =>
      (s.preferred (s.env.at_ s.pos found.a)).bind fun d1 =>
      (s.preferred (s.env.at_ s.pos found.b)).bind fun d2 =>
      .ok (install r s p found d1 d2)

/-- `Model::GrabAnchor` (wobbly.cpp 899-916). -/
def grab (s : State) (p : Pt) : Outcome (State × Res) :=
  match closestIndex r s.pos p with
  | none => .ub
  | some i =>
    (activate r { s with unequal := True }).bind fun s1 =>
    let s2 := s1.lock i
    .ok ({ s2 with live := s2.live ++ [⟨s2.nextHid, .grab i⟩], nextHid := s2.nextHid + 1 },
         .handle s2.nextHid)

/-- `Model::InsertAnchor` (wobbly.cpp 918-934). -/
def insert (s : State) (p : Pt) : Outcome (State × Res) :=
  (activate r { s with unequal := True }).bind fun s1 =>
  (insertSprings r s1 p).bind fun s2 =>
  .ok (s2, .handle s1.nextHid)

/-- Movement of an inserted anchor's stored position (`InsertedSprings::MoveBy`, wobbly.cpp
731-735). -/
def shift (d : Pt) : Kind → Kind
  | .grab i => .grab i
  | .ins p st f g => .ins (add r p d) st f g

/-- `Anchor::MoveBy` (wobbly.cpp 107-111; wobbly_internal.h 649-657; wobbly.cpp 731-735, 866-869,
1142-1151). -/
def moveAnchor (s : State) (h : ℕ) (d : Pt) : Outcome (State × Res) :=
  match s.live.find? (fun a => a.hid = h) with
  | none => .ok (s, .none)
  | some a =>
    let targets := if s.active then fun i => add r (s.targets i) d else s.targets
    match a.kind with
    | .grab i =>
      .ok ({ s with targets := targets, pos := Function.update s.pos i (add r (s.pos i) d) }, .none)
    | .ins _ _ _ _ =>
      .ok ({ s with targets := targets,
                    live := s.live.map fun b => if b.hid = h then ⟨b.hid, shift r d b.kind⟩ else b },
           .none)

/-- Destruction of an anchor (wobbly_internal.h 665-666). -/
def release (s : State) (h : ℕ) : Outcome (State × Res) :=
  match s.live.find? (fun a => a.hid = h) with
  | none => .ok (s, .none)
  | some a =>
    (({ s with live := s.live.filter fun b => b.hid ≠ h } : State).releaseKind a.kind).bind fun s1 =>
    (deactivate r s1).bind fun s2 =>
    .ok (s2, .none)

/-- One round of `PerformIntegration` in `Step` (wobbly.cpp 547-566, 1093-1097). -/
def round (s : State) (q : Phys) : Outcome (Phys × Prop) :=
  if s.active then
    (constrain r s.settings.maximumRange s.targets q.pos).bind fun c =>
    let a := springRound r s.env ⟨c.1, q.vel⟩
    .ok (a.1, c.2 ∨ a.2)
  else
    let a := springRound r s.env q
    .ok (a.1, a.2)

/-- `Integrate` (wobbly.cpp 569-604): `n` rounds. -/
def rounds (s : State) : ℕ → Phys → Outcome (Phys × Prop)
  | 0, q => .ok (q, False)
  | n + 1, q =>
    (round r s q).bind fun a =>
    (rounds s n a.1).bind fun b =>
    .ok (b.1, a.2 ∨ b.2)

/-- `Model::Step` (wobbly.cpp 1079-1113). The number of rounds is computed without rounding error. -/
def step (s : State) (t : ℕ) : Outcome (State × Res) :=
  if stepCount t ≠ 0 ∧ dangling s.springs s.live then .ub
  else
    (rounds r s (stepCount t) ⟨s.pos, s.vel⟩).bind fun a =>
    let more := (if t ≠ 0 then False else s.unequal) ∨ a.2
    .ok ({ s with
            pos := if ¬ more ∧ s.active then s.targets else a.1.pos
            vel := a.1.vel
            unequal := more },
         .more more)

/-- `Model::MoveModelBy` (wobbly.cpp 936-952). -/
def moveBy (s : State) (d : Pt) : State :=
  { s with
    pos := fun i => add r (s.pos i) d
    targets := fun i => add r (s.targets i) d
    live := s.live.map fun b => ⟨b.hid, shift r d b.kind⟩ }

/-- `Model::MoveModelTo` (wobbly.cpp 954-968). -/
def moveTo (s : State) (p : Pt) : Outcome (State × Res) :=
  (targetPosition r s).bind fun a => .ok (moveBy r a.1 (sub r p a.2), .none)

/-- Scaling of an inserted anchor's stored position (wobbly_internal.h 967-978). -/
def scaleKind (f origin : Pt) : Kind → Kind
  | .grab i => .grab i
  | .ins p st g h => .ins (Free.rescale r f origin p) st g h

/-- `Model::ResizeModel` (wobbly.cpp 970-1017). -/
def resize (s : State) (w h : ℝ) : Outcome (State × Res) :=
  if ¬ (w > 0 ∧ h > 0) then .ub
  else if s.width = 0 ∨ s.height = 0 then .nonfinite
  else
    let f : Pt := ⟨r (w / s.width), r (h / s.height)⟩
    if Pt.equals f ⟨1, 1⟩ then .ok (s, .none)
    else
      (targetPosition r s).bind fun a =>
      let s1 := a.1
      .ok ({ s1 with
              pos := fun i => Free.rescale r f a.2 (s1.pos i)
              targets := fun i => Free.rescale r f (s1.targets 0) (s1.targets i)
              springs := s1.springs.map fun x => { x with desired := pscale r x.desired f }
              live := s1.live.map fun b => ⟨b.hid, scaleKind r f a.2 b.kind⟩
              width := w
              height := h },
           .none)

/-- One call. -/
def exec (s : State) : Op → Outcome (State × Res)
  | .grab p => grab r s p
  | .insert p => insert r s p
  | .moveAnchor h d => moveAnchor r s h d
  | .release h => release r s h
  | .step t => step r s t
  | .moveBy d => .ok (moveBy r s d, .none)
  | .moveTo p => moveTo r s p
  | .resize w h => resize r s w h
  | .setSettings x => .ok ({ s with settings := x }, .none)
  | .elsewhere n => .ok ({ s with lastId := s.lastId + n }, .none)

/-- A sequence of calls and what they return. -/
def run (s : State) : List Op → Outcome (State × List Res)
  | [] => .ok (s, [])
  | op :: ops =>
    (exec r s op).bind fun a =>
    (run a.1 ops).bind fun b =>
    .ok (b.1, a.2 :: b.2)

end

end Verif.Wobbly.Rounded
