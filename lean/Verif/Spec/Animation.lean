import Verif.Model.Stepper

/-!
# Specification vocabulary for steppers and animations

Small definitions used to state the properties.  They talk about calls and their observable results
only.
-/

namespace Verif.Spec

noncomputable section

/-- `x` is a number in the unit interval (not NaN, not infinite). -/
def InUnit (x : XR) : Prop := ∃ r : ℝ, x = .fin r ∧ 0 ≤ r ∧ r ≤ 1

/-- What a stepper answers, limited to the unit interval: NaN counts as zero. -/
def limited : XR → ℝ
  | .fin r => if r < 0 then 0 else if 1 < r then 1 else r
  | .pinf => 1
  | .ninf => 0
  | .nan => 0

/-- The values a stepper returns to the calls `ms`, in order. -/
def outputs (s : Stepper) : List ℕ → List XR
  | [] => []
  | m :: ms => (s.invoke m).1 :: outputs (s.invoke m).2 ms

/-- The stepper after the calls `ms`. -/
def advance (s : Stepper) : List ℕ → Stepper
  | [] => s
  | m :: ms => advance (s.invoke m).2 ms

/-- Some call in the history is a `Step`. -/
def HasStep {S : Type} (ops : List (AnimOp S)) : Prop := ∃ ms, AnimOp.step ms ∈ ops

/-- The history that consists of the given `Step`s. -/
def steps {S : Type} (ms : List ℕ) : List (AnimOp S) := ms.map .step

/-- `(1 - p) * a + p * b`. -/
def lerp (p a b : ℝ) : ℝ := (1 - p) * a + p * b

/-- The matrix scales the plane uniformly by `s` about the point `c`, without touching depth. -/
def ScalesAbout (M : Mat4) (c : Pt) (s : ℝ) : Prop :=
  ∀ q : Pt, transformPoint q M = ⟨c.x + s * (q.x - c.x), c.y + s * (q.y - c.y), 0, 1⟩

/-- The middle of a box, in coordinates relative to its top left corner. -/
def middle (b : Box) : Pt := ⟨(b.br.x - b.tl.x) / 2, (b.br.y - b.tl.y) / 2⟩

/-- Squared distance in space. -/
def dist3sq (a b : Vec4) : ℝ := (a.x - b.x) ^ 2 + (a.y - b.y) ^ 2 + (a.z - b.z) ^ 2

/-- Squared distance in the plane. -/
def dist2sq (a b : Pt) : ℝ := (a.x - b.x) ^ 2 + (a.y - b.y) ^ 2

end

end Verif.Spec
