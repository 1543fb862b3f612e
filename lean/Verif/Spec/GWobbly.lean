import Verif.Model.GWobbly
import Verif.Spec.Wobbly

/-!
# Specification vocabulary for the GObject layer over the wobbly model

What a sequence of GObject calls should amount to, told from the calls alone.
-/

namespace Verif.Spec

noncomputable section

open Wobbly GWobbly

open Classical

/-- What has happened so far, seen from the program: whether it still owns the model, how many anchors it has
made, which of them it has released, which it has given up, and the settings it has asked for. -/
structure Track where
  alive : Bool
  made : ℕ
  released : List ℕ
  gone : List ℕ
  settings : Settings

/-- A program that has just made a model. -/
def Track.start (x : Settings) : Track := ⟨true, 0, [], [], x⟩

/-- The call is made on objects the program still owns, and passes no `NULL`. A model that was given up may
only be followed by calls on anchors released before. -/
def Track.allows (t : Track) : GOp → Prop
  | .anchorMoveBy a _ | .anchorRelease a | .anchorUnref a => a < t.made ∧ a ∉ t.gone ∧ (t.alive ∨ a ∈ t.released)
  | .propPosition none | .propSize none => False
  | _ => t.alive

/-- The bookkeeping after the call. -/
def Track.next (t : Track) : GOp → Track
  | .grab _ | .insert _ => { t with made := t.made + 1 }
  | .anchorRelease a => { t with released := a :: t.released }
  | .anchorUnref a => { t with released := a :: t.released, gone := a :: t.gone }
  | .unrefModel => { t with alive := false }
  | .setSpringK v => { t with settings := { t.settings with springConstant := v } }
  | .setFriction v => { t with settings := { t.settings with friction := v } }
  | .setMaximumRange v => { t with settings := { t.settings with maximumRange := v } }
  | .propSpringK v => if 1 / 10 ≤ v ∧ v ≤ 10 then { t with settings := { t.settings with springConstant := v } } else t
  | .propFriction v => if 1 / 10 ≤ v ∧ v ≤ 10 then { t with settings := { t.settings with friction := v } } else t
  | .propMovementRange v => if 10 ≤ v ∧ v ≤ 1000 then { t with settings := { t.settings with maximumRange := v } } else t
  | _ => t

/-- The calls on the native model that the GObject call should make: none for an anchor already released and
for a number out of range. -/
def Track.native (t : Track) : GOp → List Op
  | .grab p => [.grab p]
  | .insert p => [.insert p]
  | .step n => [.step n]
  | .moveTo p | .propPosition (some p) => [.moveTo p]
  | .moveBy d => [.moveBy d]
  | .resize z | .propSize (some z) => [.resize z.x z.y]
  | .setSpringK v => [.setSettings { t.settings with springConstant := v }]
  | .setFriction v => [.setSettings { t.settings with friction := v }]
  | .setMaximumRange v => [.setSettings { t.settings with maximumRange := v }]
  | .propSpringK v => if 1 / 10 ≤ v ∧ v ≤ 10 then [.setSettings { t.settings with springConstant := v }] else []
  | .propFriction v => if 1 / 10 ≤ v ∧ v ≤ 10 then [.setSettings { t.settings with friction := v }] else []
  | .propMovementRange v => if 10 ≤ v ∧ v ≤ 1000 then [.setSettings { t.settings with maximumRange := v }] else []
  | .anchorMoveBy a d => if a ∈ t.released then [] else [.moveAnchor a d]
  | .anchorRelease a | .anchorUnref a => if a ∈ t.released then [] else [.release a]
  | .elsewhere n => [.elsewhere n]
  | .unrefModel | .propPosition none | .propSize none => []

/-- All calls are allowed. -/
def WellUsed : Track → List GOp → Prop
  | _, [] => True
  | t, op :: ops => t.allows op ∧ WellUsed (t.next op) ops

/-- All native calls. -/
def nativeCalls : Track → List GOp → List Op
  | _, [] => []
  | t, op :: ops => t.native op ++ nativeCalls (t.next op) ops

/-- The bookkeeping after all calls. -/
def Track.after (t : Track) (ops : List GOp) : Track := ops.foldl Track.next t

/-- The answers of `Step` among the results. -/
def stepAnswers : List Res → List Prop := List.filterMap fun
  | .more b => some b
  | _ => none

/-- The answers of `animation_wobbly_model_step` among the results. -/
def gStepAnswers : List GRes → List Prop := List.filterMap fun
  | .more b => some b
  | _ => none

/-- The anchors returned. -/
def gAnchors : List GRes → List ℕ := List.filterMap fun
  | .anchor a => some a
  | _ => none

/-- The call is a release of native anchor `h`. -/
def IsRelease (h : ℕ) : Op → Prop
  | .release k => k = h
  | _ => False

/-- The call is made on native anchor `h`. -/
def IsOnAnchor (h : ℕ) : Op → Prop
  | .release k => k = h
  | .moveAnchor k _ => k = h
  | _ => False

/-- The position asked for by the calls: the last absolute one and the relative ones after it. -/
def requestedPosition (p : Pt) : List GOp → Pt
  | [] => p
  | .moveTo q :: ops | .propPosition (some q) :: ops => requestedPosition q ops
  | .moveBy d :: ops => requestedPosition (p + d) ops
  | _ :: ops => requestedPosition p ops

/-- The size asked for by the calls. -/
def requestedSize (z : Pt) : List GOp → Pt
  | [] => z
  | .resize y :: ops | .propSize (some y) :: ops => requestedSize y ops
  | _ :: ops => requestedSize z ops

/-- The settings a new model gets: the numbers asked for, or zero in place of one out of its range. -/
def builtSettings (springK friction range : ℝ) : Settings :=
  ⟨if 1 / 10 ≤ springK ∧ springK ≤ 10 then springK else 0, if 1 / 10 ≤ friction ∧ friction ≤ 10 then friction else 0,
   if 10 ≤ range ∧ range ≤ 1000 then range else 0⟩

/-- The settings are within the declared ranges of the properties. -/
def InRange (x : Settings) : Prop :=
  (1 / 10 ≤ x.springConstant ∧ x.springConstant ≤ 10) ∧ (1 / 10 ≤ x.friction ∧ x.friction ≤ 10) ∧
  (10 ≤ x.maximumRange ∧ x.maximumRange ≤ 1000)

/-- The call makes no anchor and is not made on one, keeps the model, passes no `NULL` and asks for no empty
size. -/
def Untouching : GOp → Prop
  | .grab _ | .insert _ | .anchorMoveBy _ _ | .anchorRelease _ | .anchorUnref _ | .unrefModel | .propPosition none
  | .propSize none => False
  | .resize z | .propSize (some z) => 0 < z.x ∧ 0 < z.y
  | _ => True

/-- The call is one of the functions that write a setting without looking at its range. -/
def SetsUnchecked : GOp → Prop
  | .setSpringK _ | .setFriction _ | .setMaximumRange _ => True
  | _ => False

end

end Verif.Spec
