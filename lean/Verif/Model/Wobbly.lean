import Verif.Model.WobblyPhysics

/-!
# Wobbly: the model object and its anchors

Models `wobbly::Model`, `wobbly::Anchor` and their private parts
(`animation/wobbly/wobbly.cpp`, `wobbly.h`, `wobbly_internal.h`).

A state holds the model together with the anchors the program still owns.  Each operation returns an
`Outcome`: an assertion failure, a read through freed memory or an unsigned counter going below zero
is `ub`, an exception is `throws`, a division of zero by zero (or by zero) is `nonfinite`, and a call
that never returns is `diverges`.
-/

namespace Verif.Wobbly

noncomputable section

open Classical

/-- What an anchor object holds (its `Strategy`): `GrabAnchor` (wobbly.cpp 847-879) or
`InsertedSprings` (wobbly.cpp 684-747).  For the latter: the position stored in `data`, the spring
that was taken out of the mesh, and the identifiers of the two springs put in. -/
inductive Kind where
  | grab (i : Idx)
  | ins (pos : Pt) (stolen : Spring) (first second : ℕ)

/-- An `Anchor` the program owns (`ConstrainingAnchor`, wobbly_internal.h 632-667). The number `hid`
identifies it; it also identifies the heap block `data`. -/
structure Live where
  hid : ℕ
  kind : Kind

/-- `Model::Private` (wobbly.cpp 430-475) and the anchors still owned by the program. -/
structure State where
  /-- `mWidth`, `mHeight` -/
  width : ℝ
  height : ℝ
  /-- `mSettings` (a reference to the caller's structure). -/
  settings : Settings
  /-- `mAnchors.anchors` -/
  locks : Idx → ℕ
  /-- `mAnchors.firstAnchor` -/
  firstAnchor : Option Idx
  /-- `mTargets.mPoints` -/
  targets : Mesh
  /-- `mTargets.activationCount` -/
  count : ℕ
  /-- `mPositions` -/
  pos : Mesh
  /-- `mVelocityIntegrator.velocities` -/
  vel : Mesh
  /-- `mSpring.mesh.mSprings.mSprings` -/
  springs : List Spring
  /-- `mSpring.mesh.mSprings.mPending` -/
  pending : List ℕ
  /-- The static `CurrentSpringID` (wobbly.cpp 140-144), shared by all models of the process. -/
  lastId : ℕ
  /-- `mCurrentlyUnequal` -/
  unequal : Prop
  /-- Anchors owned by the program; `mInserted` (wobbly_internal.h 921-990) is the list of the
  inserted ones among them. -/
  live : List Live
  /-- Number of anchors made so far. -/
  nextHid : ℕ

/-- `Private::TileSize` (wobbly.cpp 675-680). -/
def State.tile (s : State) : Pt := ⟨s.width / (4 - 1), s.height / (4 - 1)⟩

/-- `TargetMesh::Active` (wobbly_internal.h 616-620). -/
def State.active (s : State) : Prop := s.count = 1

/-- `Model::Model` (wobbly.cpp 478-516, 525-541). -/
def State.new (p : Pt) (w h : ℝ) (settings : Settings) (lastId : ℕ) : State where
  width := w
  height := h
  settings := settings
  locks := fun _ => 0
  firstAnchor := none
  targets := positionArray p ⟨w / (4 - 1), h / (4 - 1)⟩
  count := 0
  pos := positionArray p ⟨w / (4 - 1), h / (4 - 1)⟩
  vel := fun _ => 0
  springs := baseSprings ⟨w / (4 - 1), h / (4 - 1)⟩ lastId
  pending := []
  lastId := lastId + springCount
  unequal := False
  live := []
  nextHid := 0

/-! ## Storage of inserted anchors -/

/-- The heap block of the inserted anchor `h` and what it holds, if it has not been freed. -/
def anchorData (live : List Live) (h : ℕ) : Option Pt :=
  live.findSome? fun a =>
    match a.kind with
    | .ins p _ _ _ => if a.hid = h then some p else none
    | .grab _ => none

/-- The node can be read. -/
def Node.alive (live : List Live) : Node → Prop
  | .mesh _ => True
  | .anchor h => (anchorData live h).isSome

/-- Some spring refers to a freed block: any pass over the springs that looks at positions or
forces is undefined behaviour. -/
def dangling (springs : List Spring) (live : List Live) : Prop :=
  ∃ s ∈ springs, ¬ (s.a.alive live ∧ s.b.alive live)

/-- Positions read by the springs; the default is never used when nothing dangles. -/
def apos (live : List Live) (h : ℕ) : Pt := (anchorData live h).getD 0

/-- The fixed data of an integration of the real mesh. -/
def State.env (s : State) : Env :=
  ⟨s.settings.springConstant, s.settings.friction, s.locks, s.springs, apos s.live⟩

/-- The fixed data of `TargetPositionByFullIntegration` (wobbly.cpp 627-641): a fresh spring mesh for
the current tile size, no inserted anchors, but the real locks. -/
def State.settleEnv (s : State) : Env :=
  ⟨s.settings.springConstant, s.settings.friction, s.locks, baseSprings s.tile s.lastId, fun _ => 0⟩

/-- `Private::TargetPositionByFullIntegration` (wobbly.cpp 627-654). -/
def State.targetByFullIntegration (s : State) : Outcome Pt := settle s.settleEnv ⟨s.pos, s.vel⟩

/-- The identifiers used up by the fresh spring mesh of a full integration. -/
def State.spend (s : State) : State := { s with lastId := s.lastId + springCount }

/-- The origin recalculation strategy (wobbly.cpp 484-497). -/
def State.recalc (s : State) : Outcome State :=
  s.targetByFullIntegration.bind fun p =>
    .ok { s.spend with targets := positionArray p s.tile }

/-- `Private::TargetPosition` (wobbly.cpp 657-673). -/
def State.targetPosition (s : State) : Outcome (State × Pt) :=
  if s.active then .ok (s, s.targets 0)
  else s.targetByFullIntegration.bind fun p => .ok (s.spend, p)

/-- `TargetMesh::Activate` (wobbly.cpp 1135-1153). -/
def State.activate (s : State) : Outcome State :=
  let s' := { s with count := s.count + 1 }
  if s'.count = 1 then s'.recalc else .ok s'

/-- Release of a `TargetMesh::Hnd` (wobbly.cpp 1154-1160). -/
def State.deactivate (s : State) : Outcome State :=
  if s.count = 0 then .ub
  else
    let s' := { s with count := s.count - 1 }
    if s'.count = 1 then s'.recalc else .ok s'

/-! ## Locks -/

/-- `TrackedAnchors::Lock` (wobbly_internal.h 321-327). -/
def State.lock (s : State) (i : Idx) : State :=
  { s with
    locks := Function.update s.locks i (s.locks i + 1)
    firstAnchor := if s.locks i = 0 ∧ s.firstAnchor = none then some i else s.firstAnchor }

/-- `std::max_element (anchors.begin (), anchors.end ())`: the first index with the largest count. -/
def maxElement (locks : Idx → ℕ) : Idx :=
  (List.finRange 16).foldl (fun best i => if locks best < locks i then i else best) 0

/-- `TrackedAnchors::Unlock` (wobbly_internal.h 329-347). -/
def State.unlock (s : State) (i : Idx) : Outcome State :=
  if s.locks i = 0 then .ub
  else
    let locks := Function.update s.locks i (s.locks i - 1)
    .ok { s with
      locks := locks
      firstAnchor :=
        if locks i = 0 ∧ s.firstAnchor = some i then
          if locks (maxElement locks) > 0 then some (maxElement locks) else none
        else s.firstAnchor }

/-! ## Inserted springs -/

/-- Loop state of `FindSpringToSplit`. -/
structure Split where
  found : Option Spring
  primary : ℝ
  secondary : ℝ

/-- Loop body of `FindSpringToSplit` (wobbly.cpp 322-347). -/
def splitStep (at_ : Node → Pt) (p : Pt) (acc : Split) (s : Spring) : Split :=
  let d1 := Pt.distance (at_ s.a) p
  let acc1 : Split := if d1 < acc.primary then ⟨some s, d1, dblMax⟩ else acc
  if d1 = acc1.primary then
    let d2 := Pt.distance (at_ s.b) p
    if d2 < acc1.secondary then ⟨some s, acc1.primary, d2⟩ else acc1
  else acc1

/-- `FindSpringToSplit` (wobbly.cpp 312-352); `none` is the failed assertion at 350. -/
def findSpringToSplit (at_ : Node → Pt) (p : Pt) (springs : List Spring) : Option Spring :=
  (springs.foldl (splitStep at_ p) ⟨none, dblMax, dblMax⟩).found

/-- Springs without the one carrying an identifier (`std::remove_if` and `erase`,
wobbly_internal.h 895-903, or `find_if` and `erase`, 840-849). Identifiers are unique (C50), so at
most one spring goes; the spring looked for at 840 by address is the one with that identifier. -/
def removeId (springs : List Spring) (id : ℕ) : List Spring :=
  springs.filter fun s => s.id ≠ id

/-- The `remover` of `SpringVector::EmplaceAndTrack` (wobbly_internal.h 889-904). -/
def State.removeTracked (s : State) (id : ℕ) : State :=
  if ∃ x ∈ s.springs, x.id = id then { s with springs := removeId s.springs id }
  else { s with pending := s.pending ++ [id] }

/-- The `replacer` of `SpringVector::TakeMatching` (wobbly_internal.h 851-866). -/
def State.replace (s : State) (sp : Spring) : State :=
  if sp.id ∈ s.pending then { s with pending := s.pending.filter (· ≠ sp.id) }
  else { s with springs := s.springs ++ [sp] }

/-- `getTarget` (wobbly.cpp 765-788): the target of the first mesh point that is where the spring end
is; throws when there is none. -/
def lookupTarget (pos targets : Mesh) (q : Pt) : Outcome Pt :=
  match (List.finRange 16).find? fun i => Pt.equals q (pos i) with
  | some i => .ok (targets i)
  | none => .throws

/-- The position preferences of `InsertPointStrategy` (wobbly.cpp 790-825). -/
def State.preferred (s : State) (q : Pt) : Outcome Pt :=
  if s.active then lookupTarget s.pos s.targets q else .ok q

/-- What the anchor installation does to the springs and anchors once everything is known
(wobbly.cpp 380-417). -/
def State.install (s : State) (p : Pt) (found : Spring) (d1 d2 : Pt) : State :=
  { s with
    springs := removeId s.springs found.id ++
      [⟨s.lastId + 1, .anchor s.nextHid, found.a, d1 - p⟩,
       ⟨s.lastId + 2, .anchor s.nextHid, found.b, d2 - p⟩]
    lastId := s.lastId + 2
    live := s.live ++ [⟨s.nextHid, .ins p found (s.lastId + 1) (s.lastId + 2)⟩]
    nextHid := s.nextHid + 1 }

/-- `SpringMesh::InstallAnchorSprings` with `InsertPointStrategy` (wobbly.cpp 356-426, 750-845). -/
def State.insertSprings (s : State) (p : Pt) : Outcome State :=
  if dangling s.springs s.live then .ub
  else
    match findSpringToSplit (s.env.at_ s.pos) p s.springs with
    | none => .ub
    | some found =>
      (s.preferred (s.env.at_ s.pos found.a)).bind fun d1 =>
      (s.preferred (s.env.at_ s.pos found.b)).bind fun d2 =>
      .ok (s.install p found d1 d2)

/-- Release of what an anchor holds, before its target mesh handle: `~GrabAnchor` (wobbly.cpp 861-864)
or the destructors of the members of `InsertedSprings` in reverse order (wobbly.cpp 742-746). -/
def State.releaseKind (s : State) : Kind → Outcome State
  | .grab i => s.unlock i
  | .ins _ stolen first second => .ok (((s.removeTracked second).removeTracked first).replace stolen)

/-! ## Operations -/

/-- The calls a program can make on a model and its anchors. `elsewhere n` stands for other models of
the process using up `n` spring identifiers. `setSettings` stands for writing to the `Settings` the
model refers to. -/
inductive Op where
  | grab (p : Pt)
  | insert (p : Pt)
  | moveAnchor (h : ℕ) (d : Pt)
  | release (h : ℕ)
  | step (t : ℕ)
  | moveBy (d : Pt)
  | moveTo (p : Pt)
  | resize (w h : ℝ)
  | setSettings (x : Settings)
  | elsewhere (n : ℕ)

/-- What a call returns: the number of the new anchor, the answer of `Step`, or nothing. -/
inductive Res where
  | none
  | handle (h : ℕ)
  | more (b : Prop)

/-- `Model::GrabAnchor` (wobbly.cpp 899-916). -/
def State.grab (s : State) (p : Pt) : Outcome (State × Res) :=
  match closestIndex s.pos p with
  | none => .ub
  | some i =>
    ({ s with unequal := True } : State).activate.bind fun s1 =>
    let s2 := s1.lock i
    .ok ({ s2 with live := s2.live ++ [⟨s2.nextHid, .grab i⟩], nextHid := s2.nextHid + 1 },
         .handle s2.nextHid)

/-- `Model::InsertAnchor` (wobbly.cpp 918-934). -/
def State.insert (s : State) (p : Pt) : Outcome (State × Res) :=
  ({ s with unequal := True } : State).activate.bind fun s1 =>
  (s1.insertSprings p).bind fun s2 =>
  .ok (s2, .handle s1.nextHid)

/-- Movement of an inserted anchor's stored position (`InsertedSprings::MoveBy`, wobbly.cpp
731-735). -/
def Kind.shift (d : Pt) : Kind → Kind
  | .grab i => .grab i
  | .ins p st f g => .ins (p + d) st f g

/-- `Anchor::MoveBy` (wobbly.cpp 107-111; wobbly_internal.h 649-657; wobbly.cpp 731-735, 866-869,
1142-1151). -/
def State.moveAnchor (s : State) (h : ℕ) (d : Pt) : Outcome (State × Res) :=
  match s.live.find? (fun a => a.hid = h) with
  | none => .ok (s, .none)
  | some a =>
    let targets := if s.active then fun i => s.targets i + d else s.targets
    match a.kind with
    | .grab i =>
      .ok ({ s with targets := targets, pos := Function.update s.pos i (s.pos i + d) }, .none)
    | .ins _ _ _ _ =>
      .ok ({ s with targets := targets,
                    live := s.live.map fun b => if b.hid = h then ⟨b.hid, b.kind.shift d⟩ else b },
           .none)

/-- Destruction of an anchor (`~ConstrainingAnchor`: the strategy, then the handle;
wobbly_internal.h 665-666). -/
def State.release (s : State) (h : ℕ) : Outcome (State × Res) :=
  match s.live.find? (fun a => a.hid = h) with
  | none => .ok (s, .none)
  | some a =>
    (({ s with live := s.live.filter fun b => b.hid ≠ h } : State).releaseKind a.kind).bind fun s1 =>
    s1.deactivate.bind fun s2 =>
    .ok (s2, .none)

/-- One round of `PerformIntegration` in `Step` (wobbly.cpp 547-566, 1093-1097): constrainment, then
springs. -/
def State.round (s : State) (q : Phys) : Outcome (Phys × Prop) :=
  if s.active then
    (constrain s.settings.maximumRange s.targets q.pos).bind fun c =>
    let r := springStep s.env ⟨c.1, q.vel⟩
    .ok (r.1, c.2 ∨ r.2)
  else
    let r := springStep s.env q
    .ok (r.1, r.2)

/-- `Integrate` (wobbly.cpp 569-604): `n` rounds. -/
def State.integrate (s : State) : ℕ → Phys → Outcome (Phys × Prop)
  | 0, q => .ok (q, False)
  | n + 1, q =>
    (s.round q).bind fun r =>
    (s.integrate n r.1).bind fun r' =>
    .ok (r'.1, r.2 ∨ r'.2)

/-- Number of rounds for a time in milliseconds, `ceil (time / 16.0)` (wobbly.cpp 1084-1086). -/
def stepCount (t : ℕ) : ℕ := ⌈(t : ℝ) / 16⌉₊

/-- `Model::Step` (wobbly.cpp 1079-1113). -/
def State.step (s : State) (t : ℕ) : Outcome (State × Res) :=
  if stepCount t ≠ 0 ∧ dangling s.springs s.live then .ub
  else
    (s.integrate (stepCount t) ⟨s.pos, s.vel⟩).bind fun r =>
    let more := (if t ≠ 0 then False else s.unequal) ∨ r.2
    .ok ({ s with
            pos := if ¬ more ∧ s.active then s.targets else r.1.pos
            vel := r.1.vel
            unequal := more },
         .more more)

/-- `Model::MoveModelBy` (wobbly.cpp 936-952). -/
def State.moveBy (s : State) (d : Pt) : State :=
  { s with
    pos := fun i => s.pos i + d
    targets := fun i => s.targets i + d
    live := s.live.map fun b => ⟨b.hid, b.kind.shift d⟩ }

/-- `Model::MoveModelTo` (wobbly.cpp 954-968). -/
def State.moveTo (s : State) (p : Pt) : Outcome (State × Res) :=
  s.targetPosition.bind fun r => .ok (r.1.moveBy (p - r.2), .none)

/-- `rescale` (wobbly.cpp 997-1002, wobbly_internal.h 967-978). -/
def rescale (f origin p : Pt) : Pt := (p - origin).pscale f + origin

/-- Scaling of an inserted anchor's stored position (wobbly_internal.h 967-978). -/
def Kind.scale (f origin : Pt) : Kind → Kind
  | .grab i => .grab i
  | .ins p st g h => .ins (rescale f origin p) st g h

/-- `Model::ResizeModel` (wobbly.cpp 970-1017). A failed assertion is `ub`. -/
def State.resize (s : State) (w h : ℝ) : Outcome (State × Res) :=
  if ¬ (w > 0 ∧ h > 0) then .ub
  else if s.width = 0 ∨ s.height = 0 then .nonfinite
  else
    let f : Pt := ⟨w / s.width, h / s.height⟩
    if Pt.equals f ⟨1, 1⟩ then .ok (s, .none)
    else
      s.targetPosition.bind fun r =>
      let s1 := r.1
      .ok ({ s1 with
              pos := fun i => rescale f r.2 (s1.pos i)
              targets := fun i => rescale f (s1.targets 0) (s1.targets i)
              springs := s1.springs.map fun x => x.scaleLength f
              live := s1.live.map fun b => ⟨b.hid, b.kind.scale f r.2⟩
              width := w
              height := h },
           .none)

/-- One call. -/
def State.exec (s : State) : Op → Outcome (State × Res)
  | .grab p => s.grab p
  | .insert p => s.insert p
  | .moveAnchor h d => s.moveAnchor h d
  | .release h => s.release h
  | .step t => s.step t
  | .moveBy d => .ok (s.moveBy d, .none)
  | .moveTo p => s.moveTo p
  | .resize w h => s.resize w h
  | .setSettings x => .ok ({ s with settings := x }, .none)
  | .elsewhere n => .ok ({ s with lastId := s.lastId + n }, .none)

/-- A sequence of calls and what they return. -/
def State.run (s : State) : List Op → Outcome (State × List Res)
  | [] => .ok (s, [])
  | op :: ops =>
    (s.exec op).bind fun r =>
    (r.1.run ops).bind fun r' =>
    .ok (r'.1, r.2 :: r'.2)

end

end Verif.Wobbly
