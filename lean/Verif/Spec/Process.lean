import Verif.Spec.Wobbly
import Verif.Model.Process

/-!
# Specification vocabulary for several wobbly models in one program
-/

namespace Verif.Spec

noncomputable section

open Wobbly

/-- The calls on the model itself. -/
def own (ops : List Op) : List Op :=
  ops.filter fun op => match op with
    | .elsewhere _ => false
    | _ => true

/-- What the calls on the model itself returned. -/
def ownResults : List Op → List Res → List Res
  | .elsewhere _ :: ops, _ :: rs => ownResults ops rs
  | _ :: ops, r :: rs => r :: ownResults ops rs
  | _, _ => []

/-- Nothing a program can see tells the two models apart: mesh points, velocities, targets, pins, size,
settings, anchors with their positions, and the springs with what they join and how long they want to be. -/
structure SameModel (s s' : State) : Prop where
  pos : s'.pos = s.pos
  vel : s'.vel = s.vel
  targets : s'.targets = s.targets
  locks : s'.locks = s.locks
  size : s'.width = s.width ∧ s'.height = s.height
  settings : s'.settings = s.settings
  handles : s'.live.map Live.hid = s.live.map Live.hid
  anchors : ∀ h, anchorData s'.live h = anchorData s.live h
  held : ∀ i, heldBy s' i = heldBy s i
  springs : List.Forall₂ (fun y y' : Spring => y'.a = y.a ∧ y'.b = y.b ∧ y'.desired = y.desired) s.springs s'.springs
  unequal : s'.unequal ↔ s.unequal

/-! ## What a model hears of a program -/

open Process

/-- The anchor of model `m` that is dropped when variable `v` gets another value. -/
def dropped (P : Proc) (m v : ℕ) : List Op :=
  match P.vars v with
  | some (n, h) => if n = m then [.release h] else []
  | none => []

/-- The calls that a statement makes on model `m` and its anchors, and changes of the settings it refers
to. -/
def heard (P : Proc) (m : ℕ) : Stmt → List Op
  | .make _ _ _ _ => []
  | .destroy _ => []
  | .write r x =>
    match P.models[m]? with
    | some (some (n, _)) => if n = r then [.setSettings x] else []
    | _ => []
  | .grab v n p => (if n = m then [.grab p] else []) ++ dropped P m v
  | .insert v n p => (if n = m then [.insert p] else []) ++ dropped P m v
  | .drag v d =>
    match P.vars v with
    | some (n, h) => if n = m then [.moveAnchor h d] else []
    | none => []
  | .assign v u => if v = u then [] else dropped P m v
  | .clear v => dropped P m v
  | .step n t => if n = m then [.step t] else []
  | .moveBy n d => if n = m then [.moveBy d] else []
  | .moveTo n p => if n = m then [.moveTo p] else []
  | .resize n w h => if n = m then [.resize w h] else []

/-- The same for a whole program. -/
def heardAll (P : Proc) (m : ℕ) : List Stmt → List Op
  | [] => []
  | st :: sts => heard P m st ++
    match P.exec st with
    | .ok (P', _) => heardAll P' m sts
    | _ => []

/-- The answers of `Step` among the results of calls. -/
def answersIn (rs : List Res) : List Prop :=
  rs.filterMap fun r => match r with
    | .more b => some b
    | _ => none

/-- The answers that `Step` on model `m` gave in the program. -/
def answersGivenBy (m : ℕ) : List Stmt → List Res → List Prop
  | .step n _ :: sts, r :: rs => (if n = m then answersIn [r] else []) ++ answersGivenBy m sts rs
  | _ :: sts, _ :: rs => answersGivenBy m sts rs
  | _, _ => []

end

end Verif.Spec
