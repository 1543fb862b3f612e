import Verif.Model.Wobbly

/-!
# The GObject layer over the wobbly model

Models `animation-glib/wobbly/model.cpp` and `animation-glib/wobbly/anchor.cpp`.

One `AnimationWobblyModel` and the `AnimationWobblyAnchor` objects made from it.  A program is assumed to
own one reference to each object; `unref` drops it, which runs `finalize`.  Using an object after that, or
an anchor object that was never made, is `ub`.  The field `log` is not in the code: it records the calls
made on the native `wobbly::Model` and `wobbly::Anchor`.

From GObject itself (not in the repository) this takes: private data starts as zero bytes; properties
marked `G_PARAM_CONSTRUCT` are set once during construction, with their default if not given; a value
outside the declared range is refused with a warning and `set_property` is not called.
-/

namespace Verif.GWobbly

open Wobbly

noncomputable section

open Classical

/-- An `AnimationWobblyAnchor`: finalized, or alive with its `priv->anchor` (anchor.cpp 35-38), which is
null after a release. -/
inductive GAnchor where
  | gone
  | obj (native : Option ℕ)

/-- `AnimationWobblyModelPrivate` (model.cpp 36-44) and the anchor objects made so far, in order. -/
structure GState where
  /-- `priv->model`; `none` once finalized. `priv->settings` is the structure it refers to. -/
  model : Option State
  /-- `priv->prop_position` -/
  position : Pt
  /-- `priv->prop_size` -/
  size : Pt
  anchors : List GAnchor
  /-- Calls made on the native objects (not in the code). -/
  log : List Op

/-- The calls a program can make. The first group are functions, the `prop` ones are `g_object_set` with
that property (a boxed value may be `NULL`). `elsewhere` is as for the native model. -/
inductive GOp where
  | grab (p : Pt)
  | insert (p : Pt)
  | step (t : ℕ)
  | moveTo (p : Pt)
  | moveBy (d : Pt)
  | resize (size : Pt)
  | setSpringK (v : ℝ)
  | setFriction (v : ℝ)
  | setMaximumRange (v : ℝ)
  | propSpringK (v : ℝ)
  | propFriction (v : ℝ)
  | propMovementRange (v : ℝ)
  | propPosition (v : Option Pt)
  | propSize (v : Option Pt)
  | unrefModel
  | anchorMoveBy (a : ℕ) (d : Pt)
  | anchorRelease (a : ℕ)
  | anchorUnref (a : ℕ)
  | elsewhere (n : ℕ)

/-- What a call returns. -/
inductive GRes where
  | none
  | anchor (a : ℕ)
  | more (b : Prop)

/-- The declared range of `spring-k` and `friction` (model.cpp 401-417). -/
def factorOk (v : ℝ) : Prop := 1 / 10 ≤ v ∧ v ≤ 10

/-- The declared range of `movement-range` (model.cpp 419-426). -/
def rangeOk (v : ℝ) : Prop := 10 ≤ v ∧ v ≤ 1000

/-- A call on the native objects, which refer to the native model. -/
def GState.call (g : GState) (op : Op) : Outcome (GState × Res) :=
  match g.model with
  | none => .ub
  | some s => (s.exec op).bind fun r => .ok ({ g with model := some r.1, log := g.log ++ [op] }, r.2)

/-- A call on the native objects for its effect only. -/
def GState.run1 (g : GState) (op : Op) : Outcome (GState × GRes) :=
  (g.call op).bind fun r => .ok (r.1, .none)

/-- `animation_wobbly_anchor_new_for_native_anchor_rvalue` (anchor.cpp 107-118) around the result of
`GrabAnchor` or `InsertAnchor` (model.cpp 82-92, 112-122). -/
def GState.wrap (g : GState) (op : Op) : Outcome (GState × GRes) :=
  (g.call op).bind fun r =>
    match r.2 with
    | .handle h => .ok ({ r.1 with anchors := r.1.anchors ++ [.obj (some h)] }, .anchor g.anchors.length)
    | _ => .ub

/-- `animation_wobbly_model_move_to` (model.cpp 218-229). -/
def GState.moveTo (g : GState) (p : Pt) : Outcome (GState × GRes) :=
  ({ g with position := p } : GState).run1 (.moveTo p)

/-- `animation_wobbly_model_move_by` (model.cpp 238-250). -/
def GState.moveBy (g : GState) (d : Pt) : Outcome (GState × GRes) :=
  ({ g with position := g.position + d } : GState).run1 (.moveBy d)

/-- `animation_wobbly_model_resize` (model.cpp 259-270). -/
def GState.resize (g : GState) (z : Pt) : Outcome (GState × GRes) :=
  ({ g with size := z } : GState).run1 (.resize z.x z.y)

/-- Writing to `priv->settings` (model.cpp 272-300). -/
def GState.setSettings (g : GState) (f : Settings → Settings) : Outcome (GState × GRes) :=
  match g.model with
  | none => .ub
  | some s => g.run1 (.setSettings (f s.settings))

/-- `animation_wobbly_anchor_release` on a live object (anchor.cpp 72-83). -/
def GState.anchorRelease (g : GState) (a : ℕ) : Outcome GState :=
  match g.anchors[a]? with
  | some (.obj (some h)) =>
    (g.call (.release h)).bind fun r => .ok { r.1 with anchors := r.1.anchors.set a (.obj none) }
  | some (.obj none) => .ok g
  | _ => .ub

/-- `animation_wobbly_anchor_move_by` (anchor.cpp 52-61). -/
def GState.anchorMoveBy (g : GState) (a : ℕ) (d : Pt) : Outcome (GState × GRes) :=
  match g.anchors[a]? with
  | some (.obj (some h)) => g.run1 (.moveAnchor h d)
  | some (.obj none) => .ok (g, .none)
  | _ => .ub

/-- One call: the functions above, the property setter (model.cpp 302-330) behind GObject's range check,
`animation_wobbly_model_step` (135-143), `animation_wobbly_model_finalize` (358-369) and
`animation_wobbly_anchor_finalize` (anchor.cpp 85-91). -/
def GState.exec (g : GState) : GOp → Outcome (GState × GRes)
  | .grab p => g.wrap (.grab p)
  | .insert p => g.wrap (.insert p)
  | .step t => (g.call (.step t)).bind fun r =>
      match r.2 with
      | .more b => .ok (r.1, .more b)
      | _ => .ub
  | .moveTo p => g.moveTo p
  | .moveBy d => g.moveBy d
  | .resize z => g.resize z
  | .setSpringK v => g.setSettings fun x => { x with springConstant := v }
  | .setFriction v => g.setSettings fun x => { x with friction := v }
  | .setMaximumRange v => g.setSettings fun x => { x with maximumRange := v }
  | .propSpringK v =>
      if g.model.isNone then .ub else
      if factorOk v then g.setSettings fun x => { x with springConstant := v } else .ok (g, .none)
  | .propFriction v =>
      if g.model.isNone then .ub else
      if factorOk v then g.setSettings fun x => { x with friction := v } else .ok (g, .none)
  | .propMovementRange v =>
      if g.model.isNone then .ub else
      if rangeOk v then g.setSettings fun x => { x with maximumRange := v } else .ok (g, .none)
  | .propPosition (some p) => g.moveTo p
  | .propPosition none => .ub
  | .propSize (some z) => g.resize z
  | .propSize none => .ub
  | .unrefModel => if g.model.isNone then .ub else .ok ({ g with model := none }, .none)
  | .anchorMoveBy a d => g.anchorMoveBy a d
  | .anchorRelease a => (g.anchorRelease a).bind fun g' => .ok (g', .none)
  | .anchorUnref a => (g.anchorRelease a).bind fun g' => .ok ({ g' with anchors := g'.anchors.set a .gone }, .none)
  | .elsewhere n => g.run1 (.elsewhere n)

/-- A sequence of calls and what they return. -/
def GState.run (g : GState) : List GOp → Outcome (GState × List GRes)
  | [] => .ok (g, [])
  | op :: ops =>
    (g.exec op).bind fun r =>
    (r.1.run ops).bind fun r' =>
    .ok (r'.1, r.2 :: r'.2)

/-- `g_object_new (ANIMATION_WOBBLY_TYPE_MODEL, ...)`: the construct properties are set on zeroed private
data, before there is a native model (model.cpp 272-330), then `constructed` makes it (371-383). A number
out of range is not stored, a `NULL` position or size is dereferenced. -/
def gnew (springK friction range : ℝ) (position size : Option Pt) (lastId : ℕ) : Outcome GState :=
  match position, size with
  | some p, some z =>
    let x : Settings :=
      ⟨if factorOk springK then springK else 0, if factorOk friction then friction else 0,
       if rangeOk range then range else 0⟩
    .ok ⟨some (State.new p z.x z.y x lastId), p, z, [], []⟩
  | _, _ => .ub

/-- `animation_wobbly_model_new` (model.cpp 447-461). -/
def modelNew (position size : Pt) (springK friction range : ℝ) (lastId : ℕ) : Outcome GState :=
  gnew springK friction range (some position) (some size) lastId

/-- Reading a property (model.cpp 332-356): `spring-k`, `friction` and `movement-range`. -/
def GState.readSettings (g : GState) : Outcome Settings :=
  match g.model with
  | none => .ub
  | some s => .ok s.settings

end

end Verif.GWobbly
