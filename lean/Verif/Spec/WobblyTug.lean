import Verif.Spec.Wobbly

/-! # Dragging several anchors at once -/

namespace Verif.Spec

open Wobbly

/-- How far these calls drag the anchor `h`, in total. -/
noncomputable def dragged (h : ℕ) : List Op → Pt
  | [] => 0
  | .moveAnchor k d :: ops => if k = h then d + dragged h ops else dragged h ops
  | _ :: ops => dragged h ops

/-- The program only steps the model and drags anchors, or does something with another model. -/
def Tugs : Op → Prop
  | .step _ | .moveAnchor _ _ | .elsewhere _ => True
  | _ => False

/-- For how many milliseconds the model is stepped by these calls. -/
def steppedFor : List Op → ℕ
  | [] => 0
  | .step t :: ops => t + steppedFor ops
  | _ :: ops => steppedFor ops

/-- In each coordinate, none of these anchors is ever farther than `D` from where it was. -/
def StaysNear (hs : List ℕ) (D : ℝ) (ops : List Op) : Prop :=
  ∀ l, l <+: ops → ∀ h ∈ hs, |(dragged h l).x| ≤ D ∧ |(dragged h l).y| ≤ D

end Verif.Spec
