import Verif.Model.Stepper

/-!
# `animation/magiclamp/magiclamp.cpp`

Vertex arithmetic is done in `XR`, so that divisions by zero are visible.
-/

namespace Verif.MagicLamp

noncomputable section

open XR (fin)

/-- A grid vertex (`animation::Point`), possibly with non-finite coordinates. -/
@[ext] structure Vertex where
  x : XR
  y : XR

/-- A finite vertex. -/
def Vertex.ofPt (p : Pt) : Vertex := ⟨fin p.x, fin p.y⟩

/-- The vertex storage `std::vector<Point>`; accesses are checked against its length. -/
abbrev Grid := List Vertex

/-- `InitializeGridObjects` (magiclamp.cpp 52-57): `gridWidth * gridHeight` default points. -/
def initializeGrid (gw gh : ℕ) : Grid := List.replicate (gw * gh) ⟨fin 0, fin 0⟩

/-- `Sigmoid` (magiclamp.cpp 59-63). -/
def sigmoid (x : XR) (bend offset : ℝ) : XR :=
  fin 1 / (fin 1 + XR.exp (-(fin bend) * (x - fin offset)))

/-- Parameters (magiclamp.cpp 192-201). -/
structure Params where
  source : Box
  target : Box
  gw : ℕ
  gh : ℕ
  bend : ℝ
  offset : ℝ
  stretch : ℝ
  deformSpeed : ℝ

/-- `size_t` subtraction `n - 1` as it enters the floating-point divisions: wraps for `n = 0`
(then the loops below do not run). -/
def pred (n : ℕ) : ℝ := if n = 0 then 2 ^ 64 - 1 else (n : ℝ) - 1

/-- The body of the loop in `MoveGridVerticallyTowardsTargetWithXSigmoidDeformation`
(magiclamp.cpp 89-129): the new coordinates of vertex `(i, j)`. -/
def vertex (p : Params) (progress : XR) (i j : ℕ) : Vertex :=
  let sourceWidth := fin (p.source.br.x - p.source.tl.x)
  let sourceHeight := fin (p.source.br.y - p.source.tl.y)
  let targetWidth := fin (p.target.br.x - p.target.tl.x)
  let targetHeight := fin (p.target.br.y - p.target.tl.y)
  let topLeftTargetY := p.target.tl.y
  let topLeftSourceY := p.source.tl.y
  let yDistance := fin (topLeftSourceY - topLeftTargetY)
  let invProgress := fin 1 - progress
  let sigmoid0 := sigmoid (fin 0) p.bend p.offset
  let sigmoid1 := sigmoid (fin 1) p.bend p.offset
  let sigmoid1SubSigmoid0 := sigmoid1 - sigmoid0
  let sourceX := fin p.source.tl.x + fin i * sourceWidth / fin (pred p.gw)
  let sourceY := fin p.source.tl.y + fin j * sourceHeight / fin (pred p.gh)
  let targetX := fin p.target.tl.x + fin i * targetWidth / fin (pred p.gw)
  let targetY := fin p.target.tl.y + fin j * targetHeight / fin (pred p.gh)
  let yStretchFactor := fin 1 / (fin 1 - (fin j / fin (pred p.gh)) * fin p.stretch)
  let yStretchProgress := XR.stdMin (invProgress * yStretchFactor) (fin 1)
  let yDelta := sourceY - targetY
  let stretchedY := targetY + yDelta * yStretchProgress
  let xDeformationProgress :=
    XR.stdMin (fin 1 - (fin topLeftSourceY - stretchedY) / yDistance) (fin 1) *
      XR.stdMin (invProgress * fin p.deformSpeed) (fin 1)
  let xDeformationFactor :=
    (sigmoid xDeformationProgress p.bend p.offset - sigmoid0) / sigmoid1SubSigmoid0
  let stretchedX := targetX + (sourceX - targetX) * xDeformationFactor
  ⟨stretchedX, stretchedY⟩

/-- `grid[k] = v` with the bounds check that C++ leaves out. -/
def write (g : Grid) (k : ℕ) (v : Vertex) : Outcome Grid :=
  if k < g.length then .ok (g.set k v) else .ub

/-- The inner loop (magiclamp.cpp 107-133) from column `i`, `n` columns to go. -/
def moveRow (p : Params) (progress : XR) (j : ℕ) : ℕ → ℕ → Grid → Outcome Grid
  | _, 0, g => .ok g
  | i, n + 1, g =>
    (write g (j * p.gw + i) (vertex p progress i j)).bind (moveRow p progress j (i + 1) n)

/-- The outer loop (magiclamp.cpp 105-134) from row `j`, `n` rows to go. -/
def moveRows (p : Params) (progress : XR) : ℕ → ℕ → Grid → Outcome Grid
  | _, 0, g => .ok g
  | j, n + 1, g =>
    (moveRow p progress j 0 p.gw g).bind (moveRows p progress (j + 1) n)

/-- `MoveGridVerticallyTowardsTargetWithXSigmoidDeformation` (magiclamp.cpp 77-135). -/
def moveGrid (p : Params) (progress : XR) (g : Grid) : Outcome Grid :=
  moveRows p progress 0 p.gh g

/-- `grid[k]` with the bounds check that C++ leaves out. -/
def read (g : Grid) (k : ℕ) : Outcome Vertex :=
  match g[k]? with
  | some v => .ok v
  | none => .ub

/-- `static_cast <size_t> (r)`: truncation; undefined for `r ≤ -1`. -/
def toSize (r : ℝ) : Outcome ℕ := if r ≤ -1 then .ub else .ok ⌊r⌋₊

/-- `InterpolateIntoGrid` (magiclamp.cpp 141-174). `clampedUV` (145-146) is computed and not used.
`gw - 1` and `gh - 1` are `size_t`: for width or height 0 every access is out of bounds. Indices are natural numbers
here; in the code an index of 2^64 or more wraps around, which takes a coordinate of at least 2^64
divided by the number of vertices. -/
def interpolate (uv : Pt) (gw gh : ℕ) (g : Grid) : Outcome Vertex :=
  (toSize (uv.x * pred gw)).bind fun left =>
  (toSize (uv.y * pred gh)).bind fun top =>
  if gw = 0 ∨ gh = 0 then .ub else
  let right := min (gw - 1) (left + 1)
  let bottom := min (gh - 1) (top + 1)
  let cellW := fin 1 / fin (pred gw)
  let cellH := fin 1 / fin (pred gh)
  let xUnit := (fin uv.x - cellW * fin left) / cellW
  let yUnit := (fin uv.y - cellH * fin top) / cellH
  (read g (left + top * gw)).bind fun lt =>
  (read g (left + bottom * gw)).bind fun lb =>
  (read g (right + top * gw)).bind fun rt =>
  (read g (right + bottom * gw)).bind fun rb =>
  let xLeft := lt.x * (fin 1 - yUnit) + lb.x * yUnit
  let xRight := rt.x * (fin 1 - yUnit) + rb.x * yUnit
  let x := xLeft + (xRight - xLeft) * xUnit
  let yTop := lt.y * (fin 1 - xUnit) + rt.y * xUnit
  let yBottom := lb.y * (fin 1 - xUnit) + rb.y * xUnit
  let y := yTop + (yBottom - yTop) * yUnit
  .ok ⟨x, y⟩

/-- `Extremes` (magiclamp.cpp 240-261): top left, top right, bottom left, bottom right. The fixed
coordinates `(.., .., 0, 1)` are left out. Width or height 0 makes an index wrap around. -/
def extremes (gw gh : ℕ) (g : Grid) : Outcome (Vertex × Vertex × Vertex × Vertex) :=
  if gw = 0 ∨ gh = 0 then .ub else
  (read g 0).bind fun tl =>
  (read g (gw - 1)).bind fun tr =>
  (read g ((gh - 1) * gw)).bind fun bl =>
  (read g ((gh - 1) * gw + gw - 1)).bind fun br =>
  .ok (tl, tr, bl, br)

/-- Setters (magiclamp.cpp 299-306). `GridResolution` only stores the numbers. -/
inductive Setter where
  | source (b : Box)
  | target (b : Box)
  | gridResolution (gw gh : ℕ)
  | bend (v : ℝ)
  | offset (v : ℝ)
  | stretch (v : ℝ)
  | deformSpeed (v : ℝ)

def applySetter (p : Params) : Setter → Params
  | .source b => { p with source := b }
  | .target b => { p with target := b }
  | .gridResolution gw gh => { p with gw := gw, gh := gh }
  | .bend v => { p with bend := v }
  | .offset v => { p with offset := v }
  | .stretch v => { p with stretch := v }
  | .deformSpeed v => { p with deformSpeed := v }

/-- Recomputing the stored grid; a grid already damaged by an out-of-bounds write stays so. -/
def render (p : Params) (progress : XR) (old : Outcome Grid) : Outcome Grid :=
  old.bind (moveGrid p progress)

/-- `MagicLampAnimation`. -/
def cls : AnimClass Params (Outcome Grid) Setter := ⟨render, applySetter⟩

/-- Constructor (magiclamp.cpp 208-236). -/
def new (p : Params) (s : Stepper) : Anim Params (Outcome Grid) × Stepper :=
  cls.new p (.ok (initializeGrid p.gw p.gh)) s

end

end Verif.MagicLamp
