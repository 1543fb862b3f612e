import Verif.Model.GWobbly
import Verif.Model.WobblyRounded

/-!
# The GObject layer over the wobbly model, with rounding

`Model/GWobbly.lean` again, with the native model of `Model/WobblyRounded.lean`: `rd` is the rounding function that is
applied to the result of each arithmetic operation. The layer itself computes only the sum in
`animation_wobbly_model_move_by`.
-/

namespace Verif.GWobbly.Rounded

open Wobbly

noncomputable section

open Classical

variable (rd : ℝ → ℝ)

/-- A call on the native objects, which refer to the native model. -/
def call (g : GState) (op : Op) : Outcome (GState × Res) :=
  match g.model with
  | none => .ub
  | some s => (Wobbly.Rounded.exec rd s op).bind fun r => .ok ({ g with model := some r.1, log := g.log ++ [op] }, r.2)

/-- A call on the native objects for its effect only. -/
def run1 (g : GState) (op : Op) : Outcome (GState × GRes) :=
  (call rd g op).bind fun r => .ok (r.1, .none)

/-- `animation_wobbly_anchor_new_for_native_anchor_rvalue` (anchor.cpp 107-118) around the result of
`GrabAnchor` or `InsertAnchor` (model.cpp 82-92, 112-122). -/
def wrap (g : GState) (op : Op) : Outcome (GState × GRes) :=
  (call rd g op).bind fun r =>
    match r.2 with
    | .handle h => .ok ({ r.1 with anchors := r.1.anchors ++ [.obj (some h)] }, .anchor g.anchors.length)
    | _ => .ub

/-- `animation_wobbly_model_move_to` (model.cpp 218-229). -/
def moveTo (g : GState) (p : Pt) : Outcome (GState × GRes) :=
  run1 rd { g with position := p } (.moveTo p)

/-- `animation_wobbly_model_move_by` (model.cpp 238-250). -/
def moveBy (g : GState) (d : Pt) : Outcome (GState × GRes) :=
  run1 rd { g with position := ⟨rd (g.position.x + d.x), rd (g.position.y + d.y)⟩ } (.moveBy d)

/-- `animation_wobbly_model_resize` (model.cpp 259-270). -/
def resize (g : GState) (z : Pt) : Outcome (GState × GRes) :=
  run1 rd { g with size := z } (.resize z.x z.y)

/-- Writing to `priv->settings` (model.cpp 272-300). -/
def setSettings (g : GState) (f : Settings → Settings) : Outcome (GState × GRes) :=
  match g.model with
  | none => .ub
  | some s => run1 rd g (.setSettings (f s.settings))

/-- `animation_wobbly_anchor_release` on a live object (anchor.cpp 72-83). -/
def anchorRelease (g : GState) (a : ℕ) : Outcome GState :=
  match g.anchors[a]? with
  | some (.obj (some h)) =>
    (call rd g (.release h)).bind fun r => .ok { r.1 with anchors := r.1.anchors.set a (.obj none) }
  | some (.obj none) => .ok g
  | _ => .ub

/-- `animation_wobbly_anchor_move_by` (anchor.cpp 52-61). -/
def anchorMoveBy (g : GState) (a : ℕ) (d : Pt) : Outcome (GState × GRes) :=
  match g.anchors[a]? with
  | some (.obj (some h)) => run1 rd g (.moveAnchor h d)
  | some (.obj none) => .ok (g, .none)
  | _ => .ub

/-- One call: the functions above, the property setter (model.cpp 302-330) behind GObject's range check,
`animation_wobbly_model_step` (135-143), `animation_wobbly_model_finalize` (358-369) and
`animation_wobbly_anchor_finalize` (anchor.cpp 85-91). -/
def exec (g : GState) : GOp → Outcome (GState × GRes)
  | .grab p => wrap rd g (.grab p)
  | .insert p => wrap rd g (.insert p)
  | .step t => (call rd g (.step t)).bind fun r =>
      match r.2 with
      | .more b => .ok (r.1, .more b)
      | _ => .ub
  | .moveTo p => moveTo rd g p
  | .moveBy d => moveBy rd g d
  | .resize z => resize rd g z
  | .setSpringK v => setSettings rd g fun x => { x with springConstant := v }
  | .setFriction v => setSettings rd g fun x => { x with friction := v }
  | .setMaximumRange v => setSettings rd g fun x => { x with maximumRange := v }
  | .propSpringK v =>
      if g.model.isNone then .ub else
      if factorOk v then setSettings rd g fun x => { x with springConstant := v } else .ok (g, .none)
  | .propFriction v =>
      if g.model.isNone then .ub else
      if factorOk v then setSettings rd g fun x => { x with friction := v } else .ok (g, .none)
  | .propMovementRange v =>
      if g.model.isNone then .ub else
      if rangeOk v then setSettings rd g fun x => { x with maximumRange := v } else .ok (g, .none)
  | .propPosition (some p) => moveTo rd g p
  | .propPosition none => .ub
  | .propSize (some z) => resize rd g z
  | .propSize none => .ub
  | .unrefModel => if g.model.isNone then .ub else .ok ({ g with model := none }, .none)
  | .anchorMoveBy a d => anchorMoveBy rd g a d
  | .anchorRelease a => (anchorRelease rd g a).bind fun g' => .ok (g', .none)
  | .anchorUnref a => (anchorRelease rd g a).bind fun g' => .ok ({ g' with anchors := g'.anchors.set a .gone }, .none)
  | .elsewhere n => run1 rd g (.elsewhere n)

/-- A sequence of calls and what they return. -/
def run (g : GState) : List GOp → Outcome (GState × List GRes)
  | [] => .ok (g, [])
  | op :: ops =>
    (exec rd g op).bind fun r =>
    (run r.1 ops).bind fun r' =>
    .ok (r'.1, r.2 :: r'.2)

/-- `g_object_new (ANIMATION_WOBBLY_TYPE_MODEL, ...)`: the construct properties are set on zeroed private
data, before there is a native model (model.cpp 272-330), then `constructed` makes it (371-383). A number
out of range is not stored, a `NULL` position or size is dereferenced. -/
def gnew (springK friction range : ℝ) (position size : Option Pt) (lastId : ℕ) : Outcome GState :=
  match position, size with
  | some p, some z =>
    let x : Settings :=
      ⟨if factorOk springK then springK else 0, if factorOk friction then friction else 0,
       if rangeOk range then range else 0⟩
    .ok ⟨some (Wobbly.Rounded.new rd p z.x z.y x lastId), p, z, [], []⟩
  | _, _ => .ub

/-- `animation_wobbly_model_new` (model.cpp 447-461). -/
def modelNew (position size : Pt) (springK friction range : ℝ) (lastId : ℕ) : Outcome GState :=
  gnew rd springK friction range (some position) (some size) lastId

end

end Verif.GWobbly.Rounded
