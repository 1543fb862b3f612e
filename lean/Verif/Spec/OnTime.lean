import Verif.Model.Float32
import Verif.Model.Bounce
import Verif.Spec.FrameRate

/-! # Words for what is due at a time -/

namespace Verif.Spec

noncomputable section

/-- `s` is the stepper `Linear (L)` in `float` arithmetic, or its `Reverse`, and `t` is the progress that is due when `T`
milliseconds have passed. -/
def DueAt (R : Rounding) (L : ℝ) (s : Stepper) (T : ℕ) (t : ℝ) : Prop :=
  s = linear32 R L ∧ t = min 1 (T / L) ∨ s = reverse32 R (linear32 R L) ∧ t = max 0 (1 - T / L)

/-- How often `Step` is called in a history. -/
def frames {S : Type} : List (AnimOp S) → ℕ
  | [] => 0
  | .step _ :: ops => frames ops + 1
  | _ :: ops => frames ops

/-- No frame of the history is longer than 2^24 milliseconds (more than four hours). -/
def ShortFrames {S : Type} (ops : List (AnimOp S)) : Prop := ∀ ms, AnimOp.step ms ∈ ops → ms ≤ 2 ^ 24

/-- No coordinate of the box is beyond 8192. -/
def OnScreen (b : Box) : Prop := |b.tl.x| ≤ 8192 ∧ |b.tl.y| ≤ 8192 ∧ |b.br.x| ≤ 8192 ∧ |b.br.y| ≤ 8192

/-- The scale of a Bounce at progress `t`: a sine wave between two lines that close in on 1. -/
def bounceSize (p : Bounce.Params) (t : ℝ) : ℝ :=
  lerp t p.initialScale 1 + (p.maximumScale - p.initialScale) * (1 - t) * Real.sin (t * Real.pi * p.nBounce)

/-- The corner `q` of the surface, scaled by `S` about its middle. -/
def scaledAbout (b : Box) (S : ℝ) (q : Pt) : Pt :=
  ⟨(middle b).x + S * (q.x - (middle b).x), (middle b).y + S * (q.y - (middle b).y)⟩

end

end Verif.Spec
