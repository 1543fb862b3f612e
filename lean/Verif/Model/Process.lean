import Verif.Model.Wobbly

/-!
# Several wobbly models in one program

Models what the parts of a program share: the spring counter (`NextSpringID`, wobbly.cpp 140-144), the
`Settings` structures the models refer to (wobbly.cpp 472, 504, 518-541), the static `DefaultSettings` that the
JavaScript bindings write to (emscripten.cpp 28-41), and the `Anchor` variables of the program
(wobbly.h 73-100, wobbly.cpp 93-128).
-/

namespace Verif.Process

open Wobbly

/-- The state of a program that uses the library. -/
structure Proc where
  /-- The `Settings` structures of the program. Number 0 is `Model::DefaultSettings` (wobbly.cpp
  518-523). -/
  settings : ℕ → Settings
  /-- `CurrentSpringID` (wobbly.cpp 142). -/
  counter : ℕ
  /-- The models in the order of their construction: which settings each refers to (`mSettings`,
  wobbly.cpp 472) and its state; `none` once destroyed. The fields `settings` and `lastId` of a stored state
  are not used. -/
  models : List (Option (ℕ × State))
  /-- The `Anchor` variables: each holds nothing (`Anchor ()`, wobbly.cpp 99-101, or moved from) or the
  anchor with a number of a model (`priv`, wobbly.h 99). -/
  vars : ℕ → Option (ℕ × ℕ)

/-- A program at its start, with the settings structures it has set up itself. -/
noncomputable def Proc.start (x : ℕ → Settings) : Proc :=
  ⟨fun r => if r = 0 then defaultSettings else x r, 0, [], fun _ => none⟩

/-- A model as it is when it is called: with the settings it refers to and the counter as they are now. -/
def Proc.model (P : Proc) (m : ℕ) : Option State :=
  match P.models[m]? with
  | some (some (r, s)) => some { s with settings := P.settings r, lastId := P.counter }
  | _ => none

/-- A call on model `m`, or on an anchor of it. When the model is gone this reads freed memory. -/
noncomputable def Proc.call (P : Proc) (m : ℕ) (op : Op) : Outcome (Proc × Res) :=
  match P.models[m]? with
  | some (some (r, s)) =>
    (({ s with settings := P.settings r, lastId := P.counter } : State).exec op).bind fun x =>
    .ok ({ P with models := P.models.set m (some (r, x.1)), counter := x.1.lastId }, x.2)
  | _ => .ub

/-- Statements of the program. -/
inductive Stmt where
  /-- `Model (p, w, h, settings)`; with `r = 0` this is `Model (p, w, h)` -/
  | make (p : Pt) (w h : ℝ) (r : ℕ)
  /-- `~Model` -/
  | destroy (m : ℕ)
  /-- Writing to a `Settings` structure; with `r = 0` this is what `SetSpringConstant`, `SetFriction` and
  `SetMaximumRange` do. -/
  | write (r : ℕ) (x : Settings)
  /-- `v = model.GrabAnchor (p)` -/
  | grab (v m : ℕ) (p : Pt)
  /-- `v = model.InsertAnchor (p)` -/
  | insert (v m : ℕ) (p : Pt)
  /-- `v.MoveBy (d)` -/
  | drag (v : ℕ) (d : Pt)
  /-- `v = std::move (u)` -/
  | assign (v u : ℕ)
  /-- `~Anchor`, or `v = Anchor ()` -/
  | clear (v : ℕ)
  | step (m t : ℕ)
  | moveBy (m : ℕ) (d : Pt)
  | moveTo (m : ℕ) (p : Pt)
  | resize (m : ℕ) (w h : ℝ)

/-- Move assignment of a `std::unique_ptr` (wobbly.h 79, 90): the new pointer is stored, then the old
anchor is deleted (wobbly.cpp 93-97). -/
noncomputable def Proc.put (P : Proc) (v : ℕ) (a : Option (ℕ × ℕ)) : Outcome (Proc × Res) :=
  let P' := { P with vars := Function.update P.vars v a }
  match P.vars v with
  | none => .ok (P', .none)
  | some (m, h) => (P'.call m (.release h)).bind fun x => .ok (x.1, .none)

/-- The end of a statement that stores the anchor a call returned. -/
noncomputable def Proc.store (P : Proc) (v m : ℕ) : Res → Outcome (Proc × Res)
  | .handle h => P.put v (some (m, h))
  | _ => .ok (P, .none)

/-- One statement. -/
noncomputable def Proc.exec (P : Proc) : Stmt → Outcome (Proc × Res)
  | .make p w h r =>
    .ok ({ P with models := P.models ++ [some (r, State.new p w h (P.settings r) P.counter)],
                  counter := P.counter + springCount }, .none)
  | .destroy m =>
    match P.models[m]? with
    | some (some _) => .ok ({ P with models := P.models.set m none }, .none)
    | _ => .ub
  | .write r x => .ok ({ P with settings := Function.update P.settings r x }, .none)
  | .grab v m p => (P.call m (.grab p)).bind fun x => x.1.store v m x.2
  | .insert v m p => (P.call m (.insert p)).bind fun x => x.1.store v m x.2
  | .drag v d =>
    match P.vars v with
    | none => .ub
    | some (m, h) => P.call m (.moveAnchor h d)
  | .assign v u =>
    if v = u then .ok (P, .none)
    else ({ P with vars := Function.update P.vars u none } : Proc).put v (P.vars u)
  | .clear v => P.put v none
  | .step m t => P.call m (.step t)
  | .moveBy m d => P.call m (.moveBy d)
  | .moveTo m p => P.call m (.moveTo p)
  | .resize m w h => P.call m (.resize w h)

/-- A sequence of statements and what they return. -/
noncomputable def Proc.run (P : Proc) : List Stmt → Outcome (Proc × List Res)
  | [] => .ok (P, [])
  | st :: sts =>
    (P.exec st).bind fun x =>
    (x.1.run sts).bind fun y =>
    .ok (y.1, x.2 :: y.2)

end Verif.Process
