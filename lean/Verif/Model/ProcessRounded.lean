import Verif.Model.Process
import Verif.Model.WobblyRounded

/-!
# Several wobbly models in one program, with rounding

`Model/Process.lean` again, with the models of `Model/WobblyRounded.lean`: `rd` is the rounding function that is applied
to the result of each arithmetic operation. What the parts of a program share is the same.
-/

namespace Verif.Process.Rounded

open Wobbly

variable (rd : ℝ → ℝ)

/-- A call on model `m`, or on an anchor of it. When the model is gone this reads freed memory. -/
noncomputable def call (P : Proc) (m : ℕ) (op : Op) : Outcome (Proc × Res) :=
  match P.models[m]? with
  | some (some (r, s)) =>
    (Wobbly.Rounded.exec rd { s with settings := P.settings r, lastId := P.counter } op).bind fun x =>
    .ok ({ P with models := P.models.set m (some (r, x.1)), counter := x.1.lastId }, x.2)
  | _ => .ub

/-- Move assignment of a `std::unique_ptr` (wobbly.h 79, 90): the new pointer is stored, then the old
anchor is deleted (wobbly.cpp 93-97). -/
noncomputable def put (P : Proc) (v : ℕ) (a : Option (ℕ × ℕ)) : Outcome (Proc × Res) :=
  let P' := { P with vars := Function.update P.vars v a }
  match P.vars v with
  | none => .ok (P', .none)
  | some (m, h) => (call rd P' m (.release h)).bind fun x => .ok (x.1, .none)

/-- The end of a statement that stores the anchor a call returned. -/
noncomputable def store (P : Proc) (v m : ℕ) : Res → Outcome (Proc × Res)
  | .handle h => put rd P v (some (m, h))
  | _ => .ok (P, .none)

/-- One statement (wobbly.h 73-170, wobbly.cpp 93-128, 478-541; see `Model/Process.lean`). -/
noncomputable def exec (P : Proc) : Stmt → Outcome (Proc × Res)
  | .make p w h r =>
    .ok ({ P with models := P.models ++ [some (r, Wobbly.Rounded.new rd p w h (P.settings r) P.counter)],
                  counter := P.counter + springCount }, .none)
  | .destroy m =>
    match P.models[m]? with
    | some (some _) => .ok ({ P with models := P.models.set m none }, .none)
    | _ => .ub
  | .write r x => .ok ({ P with settings := Function.update P.settings r x }, .none)
  | .grab v m p => (call rd P m (.grab p)).bind fun x => store rd x.1 v m x.2
  | .insert v m p => (call rd P m (.insert p)).bind fun x => store rd x.1 v m x.2
  | .drag v d =>
    match P.vars v with
    | none => .ub
    | some (m, h) => call rd P m (.moveAnchor h d)
  | .assign v u =>
    if v = u then .ok (P, .none)
    else put rd { P with vars := Function.update P.vars u none } v (P.vars u)
  | .clear v => put rd P v none
  | .step m t => call rd P m (.step t)
  | .moveBy m d => call rd P m (.moveBy d)
  | .moveTo m p => call rd P m (.moveTo p)
  | .resize m w h => call rd P m (.resize w h)

/-- A sequence of statements and what they return. -/
noncomputable def run (P : Proc) : List Stmt → Outcome (Proc × List Res)
  | [] => .ok (P, [])
  | st :: sts =>
    (exec rd P st).bind fun x =>
    (run x.1 sts).bind fun y =>
    .ok (y.1, x.2 :: y.2)

end Verif.Process.Rounded
