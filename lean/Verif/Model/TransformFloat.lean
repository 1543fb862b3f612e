import Verif.Model.Float32
import Verif.Model.WobblyDouble
import Verif.Model.Bounce
import Verif.Model.Zoom
import Verif.Model.Glide

/-!
# Bounce, Zoom and Glide with rounding

The three matrix animations again, this time with every operation rounded as the C++ types ask for: `float` for the
parameters, the progress and the matrices, `double` for the coordinates of boxes and corners. Overflow to infinity
and NaN are modelled; signed zero, excess precision and fused multiply-add are not.

The sums of products follow the generic (not SIMD) code of glm 0.9 (`translate`, `scale`, `rotate`, matrix times
matrix, matrix times vector). glm is not part of the repository, so this is trusted.

`Machine` collects what the code relies on. With the machine that does not round (`Machine.exact`) these definitions
are those of `Model/Bounce.lean`, `Model/Zoom.lean` and `Model/Glide.lean` (`Lemmas/TransformFloat.lean`).
-/

namespace Verif

noncomputable section

/-- Rounding to `float` and to `double`, the constant `M_PI`, and the functions of libm. -/
structure Machine where
  f : XR → XR
  d : XR → XR
  pi : ℝ
  sin : ℝ → ℝ
  sinf : ℝ → ℝ
  cosf : ℝ → ℝ

/-- Rounding to `double` with overflow: a rounded result of at least 2^1024 is an infinity. -/
def Rounding64.store (R : Rounding64) (x : ℝ) : XR :=
  if |R.rnd x| < 2 ^ 1024 then .fin (R.rnd x) else XR.signed x

/-- Rounding the result of an operation; NaN and infinities stay as they are. -/
def Rounding64.result (R : Rounding64) : XR → XR
  | .fin x => R.store x
  | v => v

/-- The `double` constant `M_PI`. -/
def mPi : ℝ := 884279719003555 / 2 ^ 48

/-- A machine with IEEE 754 numbers and the given `sin`, `sinf` and `cosf`. -/
def Machine.ieee (R : Rounding) (D : Rounding64) (sin sinf cosf : ℝ → ℝ) : Machine :=
  ⟨R.result, D.result, mPi, sin, sinf, cosf⟩

/-- The machine that does not round. -/
def Machine.exact : Machine := ⟨id, id, Real.pi, Real.sin, Real.sin, Real.cos⟩

/-- `glm::mat4` with `float` entries, written row by row. -/
abbrev Mat32 := Fin 4 → Fin 4 → XR

/-- Four numbers that need not be finite. -/
@[ext] structure XVec4 where
  x : XR
  y : XR
  z : XR
  w : XR

namespace Machine

open XR (fin)

variable (M : Machine)

/-! `float` and `double` operations. -/

def add (a b : XR) : XR := M.f (a + b)
def sub (a b : XR) : XR := M.f (a - b)
def mul (a b : XR) : XR := M.f (a * b)
def addD (a b : XR) : XR := M.d (a + b)
def subD (a b : XR) : XR := M.d (a - b)
def mulD (a b : XR) : XR := M.d (a * b)
def divD (a b : XR) : XR := M.d (a / b)

/-- A function of libm. -/
def call (g : ℝ → ℝ) : XR → XR
  | .fin x => fin (g x)
  | _ => .nan

/-- `glm::mat4 (1.0)`. -/
def ident : Mat32 := fun i j => if i = j then fin 1 else fin 0

/-- `glm::translate (mat4 (1.0), v)`: the last column is `m[0] * v[0] + m[1] * v[1] + m[2] * v[2] + m[3]`. -/
def translate (x y z : XR) : Mat32 := fun i j =>
  if j = 3 then M.add (M.add (M.add (M.mul (ident i 0) x) (M.mul (ident i 1) y)) (M.mul (ident i 2) z)) (ident i 3)
  else ident i j

/-- `glm::scale (mat4 (1.0), v)`: the columns are `m[0] * v[0]`, `m[1] * v[1]`, `m[2] * v[2]`, `m[3]`. -/
def scale (x y z : XR) : Mat32 := fun i j => ![M.mul (ident i 0) x, M.mul (ident i 1) y, M.mul (ident i 2) z, ident i 3] j

/-- The matrix `Rotate` inside `glm::rotate`: entry in row `i` and column `j`, for an axis of length one. -/
def rotation (a : XR) (axis : Fin 3 → XR) (i j : Fin 3) : XR :=
  let c := call M.cosf a
  let s := call M.sinf a
  let temp := fun k => M.mul (M.sub (fin 1) c) (axis k)
  (![![M.add c (M.mul (temp 0) (axis 0)),
       M.sub (M.mul (temp 1) (axis 0)) (M.mul s (axis 2)),
       M.add (M.mul (temp 2) (axis 0)) (M.mul s (axis 1))],
     ![M.add (M.mul (temp 0) (axis 1)) (M.mul s (axis 2)),
       M.add c (M.mul (temp 1) (axis 1)),
       M.sub (M.mul (temp 2) (axis 1)) (M.mul s (axis 0))],
     ![M.sub (M.mul (temp 0) (axis 2)) (M.mul s (axis 1)),
       M.add (M.mul (temp 1) (axis 2)) (M.mul s (axis 0)),
       M.add c (M.mul (temp 2) (axis 2))]] : Fin 3 → Fin 3 → XR) i j

/-- `glm::rotate (mat4 (1.0), a, axis)`: column `j` is
`m[0] * Rotate[j][0] + m[1] * Rotate[j][1] + m[2] * Rotate[j][2]`, the last one `m[3]`. The axis has length one, so
normalising it does nothing. -/
def rotate (a : XR) (axis : Fin 3 → XR) : Mat32 := fun i j =>
  let r := M.rotation a axis
  let col := fun k : Fin 3 =>
    M.add (M.add (M.mul (ident i 0) (r 0 k)) (M.mul (ident i 1) (r 1 k))) (M.mul (ident i 2) (r 2 k))
  ![col 0, col 1, col 2, ident i 3] j

/-- `operator* (mat4, mat4)`: `A[0] * B[j][0] + A[1] * B[j][1] + A[2] * B[j][2] + A[3] * B[j][3]`. -/
def mmul (A B : Mat32) : Mat32 := fun i j =>
  M.add (M.add (M.add (M.mul (A i 0) (B 0 j)) (M.mul (A i 1) (B 1 j))) (M.mul (A i 2) (B 2 j))) (M.mul (A i 3) (B 3 j))

/-- `TransformFlattened2DPointBy3DMatrix` (animation/transform_calculation.h 30-37). The coordinates of `p` are
converted to `float`; `operator* (mat4, vec4)` is `(m[0] * v[0] + m[1] * v[1]) + (m[2] * v[2] + m[3] * v[3])`. -/
def transformPoint (p : Pt) (m : Mat32) : XVec4 :=
  let x := M.f (fin p.x)
  let y := M.f (fin p.y)
  let row := fun i => M.add (M.add (M.mul (m i 0) x) (M.mul (m i 1) y)) (M.add (M.mul (m i 2) (fin 0)) (M.mul (m i 3) (fin 1)))
  ⟨row 0, row 1, row 2, row 3⟩

/-- One coordinate of `ComputeBoxCenterOffset` (animation/box_calculation.h 28-36). -/
def centerOffset (lo hi : XR) : XR := M.divD (M.subD hi lo) (fin 2)

/-- One coordinate of `ComputeBoxCenter` (animation/box_calculation.h 38-45). -/
def center (lo hi : XR) : XR := M.addD lo (M.centerOffset lo hi)

/-- One coordinate of `ComputeRotationAxisOffset` (animation/box_calculation.h 47-57). -/
def axisOffset (lo hi u : XR) : XR := M.mulD (M.subD hi lo) u

/-! ## Bounce -/

/-- `SampleSineWave` (bounce.cpp 48-52): computed in `double`, returned as `float`. -/
def sampleSineWave (progress : XR) (n : ℕ) : XR :=
  M.f (call M.sin (M.mulD (M.mulD progress (fin M.pi)) (fin n)))

/-- `ComputeScaleFactorFromProgressParameters` (bounce.cpp 68-81). -/
def bounceScale (progress : XR) (initialScale maximumScale : ℝ) (n : ℕ) : XR :=
  let sampledSine := M.sampleSineWave progress n
  let range := M.mul (M.sub (fin maximumScale) (fin initialScale)) (M.sub (fin 1) progress)
  let scaleFloor := M.add (fin initialScale) (M.mul (M.sub (fin 1) (fin initialScale)) progress)
  M.add scaleFloor (M.mul range sampledSine)

/-- `ComputeBounceTransform` (bounce.cpp 83-110). -/
def bounceTransform (p : Bounce.Params) (progress : XR) : Mat32 :=
  let cx := M.centerOffset (fin p.target.tl.x) (fin p.target.br.x)
  let cy := M.centerOffset (fin p.target.tl.y) (fin p.target.br.y)
  let s := M.bounceScale progress p.initialScale p.maximumScale p.nBounce
  let centerMat := M.translate (M.f (M.mulD (fin (-1)) cx)) (M.f (M.mulD (fin (-1)) cy)) (fin 0)
  let scaleMat := M.scale s s (fin 1)
  let invCenterMat := M.translate (M.f cx) (M.f cy) (fin 0)
  M.mmul (M.mmul invCenterMat scaleMat) centerMat

/-- `BounceAnimation`. -/
def bounce : AnimClass Bounce.Params Mat32 Bounce.Setter := ⟨fun p r _ => M.bounceTransform p r, Bounce.applySetter⟩

/-- Constructor (bounce.cpp 136-155). -/
def bounceNew (p : Bounce.Params) (s : Stepper) : Anim Bounce.Params Mat32 × Stepper := M.bounce.new p ident s

/-! ## Zoom -/

open Classical in
/-- One coordinate of `EnsureNonZeroArea` (zoom.cpp 43-53): the new right or bottom edge. -/
def widen (lo hi : XR) : XR := if hi = lo then M.addD hi (fin 1) else hi

/-- A box whose coordinates need not be finite. -/
structure XBox where
  x1 : XR
  y1 : XR
  x2 : XR
  y2 : XR

/-- The box as given. -/
def ofBox (b : Box) : XBox := ⟨fin b.tl.x, fin b.tl.y, fin b.br.x, fin b.br.y⟩

/-- `EnsureNonZeroArea` (zoom.cpp 43-53). -/
def ensureNonZeroArea (b : XBox) : XBox := ⟨b.x1, b.y1, M.widen b.x1 b.x2, M.widen b.y1 b.y2⟩

/-- `ComputeZoomTransform` (zoom.cpp 66-123). The unused `invScaleFactor` (98-99) is left out. -/
def zoomTransform (frm dst : XBox) (progress : XR) : Mat32 :=
  let translation := fun lo hi lo' hi' =>
    M.mulD (M.subD (M.center lo hi) (M.center lo' hi')) (M.sub (fin 1) progress)
  let factor := fun lo hi lo' hi' =>
    M.divD (M.addD (M.mulD (M.subD hi' lo') progress) (M.mulD (M.subD hi lo) (M.subD (fin 1) progress))) (M.subD hi' lo')
  let ox := M.centerOffset dst.x1 dst.x2
  let oy := M.centerOffset dst.y1 dst.y2
  let centerMat := M.translate (M.f (M.mulD (fin (-1)) ox)) (M.f (M.mulD (fin (-1)) oy)) (fin 0)
  let scaleMat := M.scale (M.f (factor frm.x1 frm.x2 dst.x1 dst.x2)) (M.f (factor frm.y1 frm.y2 dst.y1 dst.y2)) (fin 1)
  let invCenterMat := M.translate (M.f ox) (M.f oy) (fin 0)
  let translationMat := M.translate (M.f (translation frm.x1 frm.x2 dst.x1 dst.x2))
    (M.f (translation frm.y1 frm.y2 dst.y1 dst.y2)) (fin 0)
  M.mmul (M.mmul (M.mmul translationMat invCenterMat) scaleMat) centerMat

/-- Parameters (zoom.cpp 136-137). -/
structure ZoomParams where
  frm : XBox
  dst : XBox

/-- Setters (zoom.cpp 198-200). -/
def zoomSetter (p : ZoomParams) : Zoom.Setter → ZoomParams
  | .frm b => { p with frm := ofBox b }

/-- `ZoomAnimation`. -/
def zoom : AnimClass ZoomParams Mat32 Zoom.Setter := ⟨fun p r _ => M.zoomTransform p.frm p.dst r, zoomSetter⟩

/-- Constructor (zoom.cpp 145-158): both boxes are made non-degenerate first. -/
def zoomNew (frm dst : Box) (s : Stepper) : Anim ZoomParams Mat32 × Stepper :=
  M.zoom.new ⟨M.ensureNonZeroArea (ofBox frm), M.ensureNonZeroArea (ofBox dst)⟩ ident s

/-! ## Glide -/

/-- `DegreesToRadians` (glide.cpp 47-50): computed in `double`, returned as `float`. -/
def degreesToRadians (degrees : ℝ) : XR := M.f (M.mulD (M.divD (fin M.pi) (fin 180)) (fin degrees))

/-- `CreatePerspectiveDistortionMatrix` (glide.cpp 53-61). -/
def perspective (screenWidth : ℕ) : Mat32 :=
  let v := M.f (M.divD (fin (-1)) (fin screenWidth))
  ![![fin 1, fin 0, fin 0, fin 0], ![fin 0, fin 1, fin 0, fin 0], ![fin 0, fin 0, fin 0, v], ![fin 0, fin 0, fin 0, fin 1]]

/-- `ComputeGlideTransform` (glide.cpp 69-108). -/
def glideTransform (p : Glide.Params) (progress : XR) : Mat32 :=
  let ax := M.axisOffset (fin p.target.tl.x) (fin p.target.br.x) (fin p.xAxisLocationUnit)
  let ay := M.axisOffset (fin p.target.tl.y) (fin p.target.br.y) (fin p.yAxisLocationUnit)
  let centerMat := M.translate (M.f (M.mulD (fin (-1)) ax)) (M.f (M.mulD (fin (-1)) ay)) (fin 0)
  let angle := fun degrees => M.mul (M.degreesToRadians degrees) (M.sub (fin 1) progress)
  let xRotationMat := M.rotate (angle p.xRotationAngleDegrees) ![fin 1, fin 0, fin 0]
  let yRotationMat := M.rotate (angle p.yRotationAngleDegrees) ![fin 0, fin 1, fin 0]
  let translationMat := M.translate (fin 0) (fin 0)
    (M.mul (M.mul (fin (-1)) (fin p.initialDistance)) (M.sub (fin 1) progress))
  let invCenterMat := M.translate (M.f ax) (M.f ay) (fin 0)
  M.mmul (M.mmul (M.mmul (M.mmul (M.mmul invCenterMat translationMat) xRotationMat) yRotationMat)
    (M.perspective p.screenWidth)) centerMat

/-- `GlideAnimation`. -/
def glide : AnimClass Glide.Params Mat32 Glide.Setter := ⟨fun p r _ => M.glideTransform p r, Glide.applySetter⟩

/-- Constructor (glide.cpp 140-168). -/
def glideNew (p : Glide.Params) (s : Stepper) : Anim Glide.Params Mat32 × Stepper := M.glide.new p ident s

/-- `Extremes (corners)` (bounce.cpp 159-168, glide.cpp 172-181, zoom.cpp 162-171). The `float` results become
`double`, which changes nothing. -/
def extremes {P : Type} (a : Anim P Mat32) (corners : Fin 4 → Pt) : Fin 4 → XVec4 :=
  fun i => M.transformPoint (corners i) a.out

end Machine

end

end Verif
