import Verif.Model.Geometry

/-!
# Steppers and the common shape of the four animations
-/

namespace Verif

noncomputable section

/-- `Stepper = std::function <float (unsigned int)>` (animation/stepper/stepper.h 33): any callable
with private captured state.  Copying a `std::function` copies the captured state, which is why a
plain value models it. -/
structure Stepper where
  σ : Type
  state : σ
  call : σ → ℕ → XR × σ

namespace Stepper

/-- One call: the returned value and the stepper afterwards. -/
def invoke (s : Stepper) (ms : ℕ) : XR × Stepper :=
  ((s.call s.state ms).1, { s with state := (s.call s.state ms).2 })

/-- The value returned by the call `ms`. -/
def value (s : Stepper) (ms : ℕ) : XR := (s.invoke ms).1

/-- The stepper after the call `ms`. -/
def after (s : Stepper) (ms : ℕ) : Stepper := (s.invoke ms).2

end Stepper

/-- `Linear (length)` (animation/stepper/linear.h 32-39) with the given captured `progress`. -/
def linearFrom (progress : XR) (length : ℝ) : Stepper where
  σ := XR
  state := progress
  call := fun p ms => (p + XR.fin ms / XR.fin length, p + XR.fin ms / XR.fin length)

/-- `Linear (length)`: the captured progress starts at zero (animation/stepper/linear.h 33). -/
def linear (length : ℝ) : Stepper := linearFrom (XR.fin 0) length

/-- `Reverse (step)` (animation/stepper/reverse.h 34-40). -/
def reverse (s : Stepper) : Stepper where
  σ := s.σ
  state := s.state
  call := fun st ms => (XR.fin 1 - (s.call st ms).1, (s.call st ms).2)

/-- What distinguishes the four animation classes: `render` recomputes the output (matrix or grid)
from the parameters, a progress value and the old output; `apply` is what the property setters do to
the parameters (animation/property.h 36-42: they only store). -/
structure AnimClass (P O S : Type) where
  render : P → XR → O → O
  apply : P → S → P

/-- The private data of an animation object (bounce.cpp 117-134, glide.cpp 115-138,
zoom.cpp 130-143, magiclamp.cpp 181-206). -/
structure Anim (P O : Type) where
  params : P
  out : O
  progress : XR
  stepper : Stepper

/-- Public operations on an animation. -/
inductive AnimOp (S : Type) where
  | step (ms : ℕ)
  | set (s : S)
  | setStepper (s : Stepper)

namespace AnimClass

variable {P O S : Type} (K : AnimClass P O S)

/-- Construction (bounce.cpp 136-155, glide.cpp 140-168, zoom.cpp 145-158, magiclamp.cpp 208-236):
the *caller's* stepper is called with 0, the result stored without clamping, the stepper copied, the
output computed.  Returns the object and the caller's stepper afterwards. -/
def new (p : P) (o : O) (s : Stepper) : Anim P O × Stepper :=
  ({ params := p, out := K.render p (s.value 0) o, progress := s.value 0, stepper := s.after 0 },
   s.after 0)

/-- The number that `Step` stores as progress. -/
def clampedProgress (v : XR) : XR := clamp v (XR.fin 0) (XR.fin 1)

/-- `Step` (bounce.cpp 177-189, glide.cpp 190-205, zoom.cpp 180-190, magiclamp.cpp 270-285). -/
def step (a : Anim P O) (ms : ℕ) : Anim P O × Prop :=
  let p := clampedProgress (a.stepper.value ms)
  ({ a with progress := p, stepper := a.stepper.after ms, out := K.render a.params p a.out },
   p ≠ XR.fin 0 ∧ p ≠ XR.fin 1)

/-- A property setter (animation/property.h 36-42). -/
def set (a : Anim P O) (s : S) : Anim P O := { a with params := K.apply a.params s }

/-- The `Stepper` property setter (bounce.cpp 200, glide.cpp 218, zoom.cpp 200, magiclamp.cpp 306). -/
def setStepper (a : Anim P O) (s : Stepper) : Anim P O := { a with stepper := s }

/-- One public operation. -/
def exec (a : Anim P O) : AnimOp S → Anim P O
  | .step ms => (K.step a ms).1
  | .set s => K.set a s
  | .setStepper s => setStepper a s

/-- A history of public operations. -/
def run (a : Anim P O) (ops : List (AnimOp S)) : Anim P O := ops.foldl K.exec a

end AnimClass

/-- `Extremes (corners)` of the three matrix animations (bounce.cpp 159-168, glide.cpp 172-181,
zoom.cpp 162-171), which have the same text; `none` when the stored matrix is non-finite. -/
def Anim.extremes {P : Type} (a : Anim P (Option Mat4)) (corners : Fin 4 → Pt) :
    Option (Fin 4 → Vec4) :=
  a.out.map fun M => fun i => transformPoint (corners i) M

end

end Verif
