import Verif.Model.Stepper

/-!
# GObject steppers and their lifetimes

`AnimationLinearStepper`, `AnimationReverseStepper` (both `AnimationStepperHolder`) and
`AnimationStepperWrapper`, together with the animations whose steppers they feed or observe.

A program holds counted references.  `client` counts the references it holds; `inner` those that reverse
steppers hold on their base.  GObject frees an object when the sum reaches zero.  A call that names an
object on which the program holds no reference is not a call a correct program can make; the model skips
it, so that quantifying over all lists of calls means all programs that obey the reference rules.
-/

namespace Verif.GStep

noncomputable section

/-- A pointer to an `AnimationStepper`: to a holder or to a wrapper. -/
inductive SRef where
  | holder (i : ℕ)
  | wrapper (k : ℕ)
deriving DecidableEq

/-- An `AnimationStepperHolder` (animation-glib/stepper/stepper-holder.cpp 37-40), for a reverse stepper
with the base it holds a reference on (animation-glib/stepper/reverse.cpp 37-40). -/
structure Holder where
  client : ℕ
  inner : ℕ
  cell : Stepper
  base : Option SRef

/-- An `AnimationStepperWrapper` (animation-glib/stepper/stepper-wrapper.cpp 37-40): a pointer to the
stepper that is a member of an animation.  It holds no reference on that animation. -/
structure Wrapper where
  client : ℕ
  inner : ℕ
  anim : ℕ

/-- A GObject animation of some class, which owns its native animation. -/
structure AnimObj (P O : Type) where
  client : ℕ
  native : Anim P O

/-- All objects made so far, in order of creation within each kind. -/
structure World (P O : Type) where
  holders : List Holder
  wrappers : List Wrapper
  anims : List (AnimObj P O)

/-- No object yet. -/
def World.empty (P O : Type) : World P O := ⟨[], [], []⟩

/-- The calls of the API that concern steppers. -/
inductive Op (P S : Type) where
  /-- `animation_linear_stepper_new`. -/
  | newLinear (length : ℕ)
  /-- `animation_reverse_stepper_new`. -/
  | newReverse (base : Option SRef)
  /-- `animation_stepper_step`. -/
  | step (r : SRef) (ms : ℕ)
  /-- `g_object_ref` on a stepper. -/
  | ref (r : SRef)
  /-- `g_object_unref` on a stepper. -/
  | unref (r : SRef)
  /-- Construction of an animation with the given parameters and stepper. -/
  | newAnim (p : P) (r : Option SRef)
  /-- `animation_*_animation_step` on an animation. -/
  | stepAnim (j : ℕ) (ms : ℕ)
  /-- A property setter of an animation. -/
  | setAnim (j : ℕ) (s : S)
  /-- `animation_*_animation_set_stepper`. -/
  | setStepper (j : ℕ) (r : SRef)
  /-- `animation_*_animation_get_stepper`, or reading the `stepper` property. -/
  | getStepper (j : ℕ)
  /-- `g_object_unref` on an animation. -/
  | unrefAnim (j : ℕ)

/-- What a call returns. -/
inductive Res where
  | none
  | value (x : XR)
  | running (b : Prop)
  | stepper (r : SRef)
  | anim (j : ℕ)

section

variable {P O S : Type} (N : AnimClass P O S) (out : O)

/-- Whether the program holds a reference on the stepper. -/
def World.holds (w : World P O) : SRef → Prop
  | .holder i => ∃ h, w.holders[i]? = some h ∧ h.client ≠ 0
  | .wrapper k => ∃ h, w.wrappers[k]? = some h ∧ h.client ≠ 0

/-- Whether the program holds a reference on the animation. -/
def World.holdsAnim (w : World P O) (j : ℕ) : Prop := ∃ a, w.anims[j]? = some a ∧ a.client ≠ 0

/-- Reading the `as::Stepper` that the `stepper` property of a stepper object points to
(animation-glib/stepper/stepper-holder.cpp 98-116, stepper-wrapper.cpp 86-104).  A wrapper whose animation
has been freed points into freed memory (animation-glib/transform/transform.cpp 165-176). -/
def World.read (w : World P O) : SRef → Outcome Stepper
  | .holder i =>
    match w.holders[i]? with
    | some h => if h.client + h.inner = 0 then .ub else .ok h.cell
    | .none => .ub
  | .wrapper k =>
    match w.wrappers[k]? with
    | some v =>
      if v.client + v.inner = 0 then .ub
      else
        match w.anims[v.anim]? with
        | some a => if a.client = 0 then .ub else .ok a.native.stepper
        | .none => .ub
    | .none => .ub

/-- Overwriting that `as::Stepper`: what calling it does (stepper-holder.cpp 56-64,
stepper-wrapper.cpp 56-64). -/
def World.write (w : World P O) (r : SRef) (s : Stepper) : World P O :=
  match r with
  | .holder i => { w with holders := w.holders.modify i fun h => { h with cell := s } }
  | .wrapper k =>
    match w.wrappers[k]? with
    | some v =>
      { w with anims := w.anims.modify v.anim fun a => { a with native := { a.native with stepper := s } } }
    | .none => w

/-- `g_object_ref` by the program. -/
def World.addClient (w : World P O) : SRef → World P O
  | .holder i => { w with holders := w.holders.modify i fun h => { h with client := h.client + 1 } }
  | .wrapper k => { w with wrappers := w.wrappers.modify k fun h => { h with client := h.client + 1 } }

/-- `g_value_dup_object` in `animation_reverse_stepper_set_property` (reverse.cpp 66-68). -/
def World.addInner (w : World P O) : SRef → World P O
  | .holder i => { w with holders := w.holders.modify i fun h => { h with inner := h.inner + 1 } }
  | .wrapper k => { w with wrappers := w.wrappers.modify k fun h => { h with inner := h.inner + 1 } }

/-- `g_object_unref`: `byClient` tells whose reference is dropped.  When it was the last one, a holder
frees its own stepper (stepper-holder.cpp 118-129) and, being a reverse stepper, drops its reference on the
base (reverse.cpp 93-101); a wrapper deletes the stepper it points to, which is a member of an animation and
was never allocated on its own (stepper-wrapper.cpp 106-117), hence undefined behaviour.  The base was made
before the reverse stepper, so the number of holders bounds the chain. -/
def World.drop (w : World P O) (byClient : Bool) (r : SRef) : ℕ → Outcome (World P O)
  | 0 => .diverges
  | fuel + 1 =>
    match r with
    | .holder i =>
      match w.holders[i]? with
      | .none => .ub
      | some h =>
        let h' := if byClient then { h with client := h.client - 1 } else { h with inner := h.inner - 1 }
        let w' := { w with holders := w.holders.set i h' }
        if h'.client + h'.inner = 0 then
          match h.base with
          | some b => World.drop w' false b fuel
          | .none => .ok w'
        else .ok w'
    | .wrapper k =>
      match w.wrappers[k]? with
      | .none => .ub
      | some h =>
        let h' := if byClient then { h with client := h.client - 1 } else { h with inner := h.inner - 1 }
        if h'.client + h'.inner = 0 then .ub
        else .ok { w with wrappers := w.wrappers.set k h' }

/-- A native animation made by a GObject constructor: the native constructor runs on a copy of the stepper
and afterwards the `stepper` property is set, which copies it again (bounce.cpp 220-265, and alike). -/
def madeAnim (p : P) (s : Stepper) : Anim P O := AnimClass.setStepper (N.new p out s).1 s

open Classical in
/-- One call. -/
def exec (w : World P O) : Op P S → Outcome (World P O × Res)
  -- linear.cpp 81-105 and 145-151, stepper-holder.cpp 76-96: a heap copy of `Linear (length)`, whatever
  -- the length.
  | .newLinear length =>
    .ok ({ w with holders := w.holders ++ [⟨1, 0, linear length, .none⟩] },
      .stepper (.holder w.holders.length))
  -- reverse.cpp 103-129 and 167-173, constructor-helpers.h 119-135: a copy of the base's stepper is
  -- reversed, `Linear (300)` when there is no base.
  | .newReverse .none =>
    .ok ({ w with holders := w.holders ++ [⟨1, 0, reverse (linear 300), .none⟩] },
      .stepper (.holder w.holders.length))
  | .newReverse (some r) =>
    if w.holds r then
      (w.read r).bind fun s =>
        let w' := w.addInner r
        .ok ({ w' with holders := w'.holders ++ [⟨1, 0, reverse s, some r⟩] },
          .stepper (.holder w.holders.length))
    else .ok (w, .none)
  | .step r ms =>
    if w.holds r then
      (w.read r).bind fun s => .ok (w.write r (s.after ms), .value (s.value ms))
    else .ok (w, .none)
  | .ref r => if w.holds r then .ok (w.addClient r, .none) else .ok (w, .none)
  | .unref r =>
    if w.holds r then (w.drop true r (w.holders.length + 1)).bind fun w' => .ok (w', .none)
    else .ok (w, .none)
  -- bounce.cpp 218-228, and alike: `animation_linear_stepper_new (300)` when there is no stepper.
  | .newAnim p .none =>
    .ok ({ w with anims := w.anims ++ [⟨1, madeAnim N out p (linear 300)⟩] }, .anim w.anims.length)
  | .newAnim p (some r) =>
    if w.holds r then
      (w.read r).bind fun s =>
        .ok ({ w with anims := w.anims ++ [⟨1, madeAnim N out p s⟩] }, .anim w.anims.length)
    else .ok (w, .none)
  | .stepAnim j ms =>
    match w.anims[j]? with
    | some a =>
      if a.client = 0 then .ok (w, .none)
      else .ok ({ w with anims := w.anims.set j { a with native := (N.step a.native ms).1 } },
        .running (N.step a.native ms).2)
    | .none => .ok (w, .none)
  | .setAnim j s =>
    match w.anims[j]? with
    | some a =>
      if a.client = 0 then .ok (w, .none)
      else .ok ({ w with anims := w.anims.set j { a with native := N.set a.native s } }, .none)
    | .none => .ok (w, .none)
  -- bounce.cpp 124-131, and alike: copies what the pointer points to.
  | .setStepper j r =>
    match w.anims[j]? with
    | some a =>
      if a.client = 0 ∨ ¬ w.holds r then .ok (w, .none)
      else
        (w.read r).bind fun s =>
          .ok ({ w with anims := w.anims.set j { a with native := AnimClass.setStepper a.native s } },
            .none)
    | .none => .ok (w, .none)
  -- bounce.cpp 139-145 and 206-208, and alike: a new wrapper on the animation's own stepper.
  | .getStepper j =>
    match w.anims[j]? with
    | some a =>
      if a.client = 0 then .ok (w, .none)
      else .ok ({ w with wrappers := w.wrappers ++ [⟨1, 0, j⟩] }, .stepper (.wrapper w.wrappers.length))
    | .none => .ok (w, .none)
  -- transform.cpp 165-176, grid.cpp: freeing the object frees the native animation.
  | .unrefAnim j =>
    match w.anims[j]? with
    | some a =>
      if a.client = 0 then .ok (w, .none)
      else .ok ({ w with anims := w.anims.set j { a with client := a.client - 1 } }, .none)
    | .none => .ok (w, .none)

/-- A program: the calls in order, as long as behaviour is defined. -/
def run (w : World P O) : List (Op P S) → Outcome (World P O × List Res)
  | [] => .ok (w, [])
  | op :: ops =>
    (exec N out w op).bind fun wr =>
      (run wr.1 ops).bind fun wrs => .ok (wrs.1, wr.2 :: wrs.2)

end

end

end Verif.GStep
