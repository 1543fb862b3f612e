import Verif.Model.Stepper

/-! # `animation/zoom/zoom.cpp` -/

namespace Verif.Zoom

noncomputable section

/-- `EnsureNonZeroArea` (zoom.cpp 43-53). -/
def ensureNonZeroArea (b : Box) : Box :=
  ⟨⟨b.tl.x, b.tl.y⟩,
   ⟨if b.br.x = b.tl.x then b.br.x + 1 else b.br.x,
    if b.br.y = b.tl.y then b.br.y + 1 else b.br.y⟩⟩

/-- `ComputeZoomTransform` (zoom.cpp 66-123); `none` when the division by `toWidth` or `toHeight`
(93-96) is a division by zero. The unused `invScaleFactor` (98-99) is left out. -/
def transform (progress : ℝ) (frm dst : Box) : Option Mat4 :=
  let fromWidth := frm.br.x - frm.tl.x
  let fromHeight := frm.br.y - frm.tl.y
  let toWidth := dst.br.x - dst.tl.x
  let toHeight := dst.br.y - dst.tl.y
  let fromCenter := boxCenter frm
  let toCenter := boxCenter dst
  let off := boxCenterOffset dst
  let tr : Pt := ⟨(fromCenter.x - toCenter.x) * (1 - progress),
                  (fromCenter.y - toCenter.y) * (1 - progress)⟩
  if toWidth = 0 ∨ toHeight = 0 then none
  else
    let sf : Pt := ⟨(toWidth * progress + fromWidth * (1 - progress)) / toWidth,
                    (toHeight * progress + fromHeight * (1 - progress)) / toHeight⟩
    some (Mat4.translate tr.x tr.y 0 * Mat4.translate off.x off.y 0 * Mat4.scale sf.x sf.y 1 *
      Mat4.translate (-1 * off.x) (-1 * off.y) 0)

/-- Parameters (zoom.cpp 136-137). -/
structure Params where
  frm : Box
  dst : Box

/-- Setters (zoom.cpp 198-200); `To` is read only. The `From` setter stores the box as given. -/
inductive Setter where
  | frm (b : Box)

def applySetter (p : Params) : Setter → Params
  | .frm b => { p with frm := b }

/-- The stored transform; `none` stands for a matrix with non-finite entries. -/
def render (p : Params) (progress : XR) (_old : Option Mat4) : Option Mat4 :=
  match progress with
  | .fin r => transform r p.frm p.dst
  | _ => none

/-- `ZoomAnimation`. -/
def cls : AnimClass Params (Option Mat4) Setter := ⟨render, applySetter⟩

/-- Constructor (zoom.cpp 145-158): both boxes are made non-degenerate first. -/
def new (frm dst : Box) (s : Stepper) : Anim Params (Option Mat4) × Stepper :=
  cls.new ⟨ensureNonZeroArea frm, ensureNonZeroArea dst⟩ (some 1) s

end

end Verif.Zoom
