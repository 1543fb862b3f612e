import Verif.Spec.Process
import Verif.Model.ProcessRounded

/-!
# What a model hears of a program, with rounding
-/

namespace Verif.Spec

open Wobbly Process

/-- The calls that a program makes on model `m` and its anchors, and changes of the settings it refers to; the rounding
decides which anchor a variable holds only as far as it decides whether the statements return. -/
noncomputable def heardAllRounded (rd : ℝ → ℝ) (P : Proc) (m : ℕ) : List Stmt → List Op
  | [] => []
  | st :: sts => heard P m st ++
    match Process.Rounded.exec rd P st with
    | .ok (P', _) => heardAllRounded rd P' m sts
    | _ => []

end Verif.Spec
