import Verif.Model.MagicLamp
import Verif.Model.TransformFloat

/-!
# The magic lamp with rounding

The magic lamp again, this time with every operation rounded as the C++ types ask for: `float` for the parameters, the
progress and nearly all of the arithmetic, `double` for the coordinates of boxes, vertices and unit coordinates.
Overflow to infinity and NaN are modelled; signed zero (a zero divisor counts as `+0`), excess precision and fused
multiply-add are not.

With the machine that does not round these definitions are those of `Model/MagicLamp.lean` (`Lemmas/LampFloat.lean`).
-/

namespace Verif.Machine

open XR (fin)
open MagicLamp (Vertex Grid Params pred)

noncomputable section

variable (M : Machine) (ex : ℝ → ℝ)

def div (a b : XR) : XR := M.f (a / b)

/-- A `size_t` converted to `float`. -/
def size (n : ℝ) : XR := M.f (fin n)

/-- libm's `exp`. -/
def exp : XR → XR
  | .nan => .nan
  | .ninf => fin 0
  | .pinf => .pinf
  | .fin r => M.d (fin (ex r))

/-- `Sigmoid` (magiclamp.cpp 59-63): the argument of `exp` is computed in `float`, the rest in `double`, and the result
is converted to `float`. -/
def sigmoid (x : XR) (bend offset : ℝ) : XR :=
  M.f (M.divD (fin 1) (M.addD (fin 1) (M.exp ex (M.mul (-(fin bend)) (M.sub x (fin offset))))))

/-- One side of a box as `float` (magiclamp.cpp 89-92). -/
def side (lo hi : ℝ) : XR := M.f (M.subD (fin hi) (fin lo))

/-- One coordinate of `sourcePoint` or `targetPoint` (magiclamp.cpp 109-116): the offset is computed in `float`, the sum
in `double`. -/
def latticeCoord (lo hi : ℝ) (k n : ℕ) : XR :=
  M.addD (fin lo) (M.div (M.mul (M.size k) (M.side lo hi)) (M.size (pred n)))

/-- `yStretchProgress` (magiclamp.cpp 120-121). -/
def stretchProgress (stretch : ℝ) (gh : ℕ) (invProgress : XR) (j : ℕ) : XR :=
  let yStretchFactor := M.div (fin 1) (M.sub (fin 1) (M.mul (M.div (M.size j) (M.size (pred gh))) (fin stretch)))
  XR.stdMin (M.mul invProgress yStretchFactor) (fin 1)

/-- `stretchedYCoord` (magiclamp.cpp 118-123). -/
def stretchedY (p : Params) (invProgress : XR) (j : ℕ) : XR :=
  let sourceY := M.latticeCoord p.source.tl.y p.source.br.y j p.gh
  let targetY := M.latticeCoord p.target.tl.y p.target.br.y j p.gh
  let yDelta := M.f (M.subD sourceY targetY)
  M.f (M.addD targetY (M.mul yDelta (M.stretchProgress p.stretch p.gh invProgress j)))

/-- `xDeformationFactor` (magiclamp.cpp 124-126). -/
def deformation (p : Params) (invProgress y : XR) : XR :=
  let topLeftTargetY := M.f (fin p.target.tl.y)
  let topLeftSourceY := M.f (fin p.source.tl.y)
  let yDistance := M.sub topLeftSourceY topLeftTargetY
  let sigmoid0 := M.sigmoid ex (fin 0) p.bend p.offset
  let sigmoid1 := M.sigmoid ex (fin 1) p.bend p.offset
  let xDeformationProgress :=
    M.mul (XR.stdMin (M.sub (fin 1) (M.div (M.sub topLeftSourceY y) yDistance)) (fin 1))
      (XR.stdMin (M.mul invProgress (fin p.deformSpeed)) (fin 1))
  M.div (M.sub (M.sigmoid ex xDeformationProgress p.bend p.offset) sigmoid0) (M.sub sigmoid1 sigmoid0)

/-- The body of the loop in `MoveGridVerticallyTowardsTargetWithXSigmoidDeformation` (magiclamp.cpp 89-132): the new
coordinates of vertex `(i, j)`. -/
def lampVertex (p : Params) (progress : XR) (i j : ℕ) : Vertex :=
  let invProgress := M.sub (fin 1) progress
  let sourceX := M.latticeCoord p.source.tl.x p.source.br.x i p.gw
  let targetX := M.latticeCoord p.target.tl.x p.target.br.x i p.gw
  let stretchedYCoord := M.stretchedY p invProgress j
  let xDeformationFactor := M.deformation ex p invProgress stretchedYCoord
  let stretchedXCoord := M.f (M.addD targetX (M.mulD (M.subD sourceX targetX) xDeformationFactor))
  ⟨stretchedXCoord, stretchedYCoord⟩

/-- The inner loop (magiclamp.cpp 107-133) from column `i`, `n` columns to go; `f i j` is the vertex to write. -/
def fillRow (gw : ℕ) (f : ℕ → ℕ → Vertex) (j : ℕ) : ℕ → ℕ → Grid → Outcome Grid
  | _, 0, g => .ok g
  | i, n + 1, g => (MagicLamp.write g (j * gw + i) (f i j)).bind (fillRow gw f j (i + 1) n)

/-- The outer loop (magiclamp.cpp 105-134) from row `j`, `n` rows to go. -/
def fillRows (gw : ℕ) (f : ℕ → ℕ → Vertex) : ℕ → ℕ → Grid → Outcome Grid
  | _, 0, g => .ok g
  | j, n + 1, g => (fillRow gw f j 0 gw g).bind (fillRows gw f (j + 1) n)

/-- Recomputing the stored grid (magiclamp.cpp 77-135); a grid already damaged by an out-of-bounds write stays so. -/
def lampRender (p : Params) (progress : XR) (old : Outcome Grid) : Outcome Grid :=
  old.bind (fillRows p.gw (M.lampVertex ex p progress) 0 p.gh)

/-- `MagicLampAnimation`. -/
def lamp : AnimClass Params (Outcome Grid) MagicLamp.Setter := ⟨M.lampRender ex, MagicLamp.applySetter⟩

/-- Constructor (magiclamp.cpp 208-236). -/
def lampNew (p : Params) (s : Stepper) : Anim Params (Outcome Grid) × Stepper :=
  (M.lamp ex).new p (.ok (MagicLamp.initializeGrid p.gw p.gh)) s

/-- `static_cast <size_t> (v)` of a `double`: truncation; undefined for NaN, infinities, `v ≤ -1` and `v ≥ 2^64`. -/
def toSize : XR → Outcome ℕ
  | .fin r => if r ≤ -1 ∨ 2 ^ 64 ≤ r then .ub else .ok ⌊r⌋₊
  | _ => .ub

/-- `xUnit` or `yUnit` (magiclamp.cpp 155-159): the place in the cell that starts at vertex `k`, as `float`. -/
def cellUnit (u : ℝ) (n k : ℕ) : XR :=
  let cell := M.div (fin 1) (M.size (pred n))
  M.f (M.divD (M.subD (fin u) (M.mul cell (M.size k))) cell)

/-- `a * (1.0f - t) + b * t` for vertex coordinates `a` and `b`, computed in `double` and stored as `float`
(magiclamp.cpp 161-164, 167-170). -/
def blend (a b t : XR) : XR := M.f (M.addD (M.mulD a (M.sub (fin 1) t)) (M.mulD b t))

/-- `a + (b - a) * t` in `float` (magiclamp.cpp 165, 171). -/
def slide (a b t : XR) : XR := M.add a (M.mul (M.sub b a) t)

/-- `InterpolateIntoGrid` (magiclamp.cpp 141-174). `clampedUV` (145-146) is computed and not used. -/
def lampInterpolate (uv : Pt) (gw gh : ℕ) (g : Grid) : Outcome Vertex :=
  (toSize (M.mulD (fin uv.x) (M.d (fin (pred gw))))).bind fun left =>
  (toSize (M.mulD (fin uv.y) (M.d (fin (pred gh))))).bind fun top =>
  if gw = 0 ∨ gh = 0 then .ub else
  let right := min (gw - 1) (left + 1)
  let bottom := min (gh - 1) (top + 1)
  let xUnit := M.cellUnit uv.x gw left
  let yUnit := M.cellUnit uv.y gh top
  (MagicLamp.read g (left + top * gw)).bind fun lt =>
  (MagicLamp.read g (left + bottom * gw)).bind fun lb =>
  (MagicLamp.read g (right + top * gw)).bind fun rt =>
  (MagicLamp.read g (right + bottom * gw)).bind fun rb =>
  .ok ⟨M.slide (M.blend lt.x lb.x yUnit) (M.blend rt.x rb.x yUnit) xUnit,
    M.slide (M.blend lt.y rt.y xUnit) (M.blend lb.y rb.y xUnit) yUnit⟩

end

end Verif.Machine
