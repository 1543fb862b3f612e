import Verif.Model.Numeric
import Mathlib.Analysis.SpecialFunctions.Pow.Real
import Mathlib.LinearAlgebra.Matrix.Notation

/-!
# Points, boxes and transforms

Models `animation/geometry.h`, `geometry_traits.h`, `box_calculation.h`,
`transform_calculation.h`.
-/

namespace Verif

noncomputable section

/-- `PointModel<double>` (animation/geometry.h 222-261), also used for what a `PointView` shows. -/
@[ext] structure Pt where
  x : ℝ
  y : ℝ

namespace Pt

/-- `dimension::pointwise_add` (animation/geometry_traits.h 307-315). -/
instance : Add Pt := ⟨fun p q => ⟨p.x + q.x, p.y + q.y⟩⟩
/-- `dimension::pointwise_subtract` (animation/geometry_traits.h 323-331). -/
instance : Sub Pt := ⟨fun p q => ⟨p.x - q.x, p.y - q.y⟩⟩
/-- `dimension::scale` by `-1`. -/
instance : Neg Pt := ⟨fun p => ⟨-p.x, -p.y⟩⟩
/-- Default constructor (animation/geometry.h 231-235). -/
instance : Zero Pt := ⟨⟨0, 0⟩⟩

/-- `dimension::scale` (animation/geometry_traits.h 259-267). -/
def scale (p : Pt) (f : ℝ) : Pt := ⟨p.x * f, p.y * f⟩

/-- `dimension::pointwise_scale` (animation/geometry_traits.h 275-283). -/
def pscale (p q : Pt) : Pt := ⟨p.x * q.x, p.y * q.y⟩

/-- `dimension::pointwise_div` (animation/geometry_traits.h 291-299); `nonfinite` when a divisor is
zero. -/
def pdiv (p q : Pt) : Outcome Pt :=
  if q.x = 0 ∨ q.y = 0 then .nonfinite else .ok ⟨p.x / q.x, p.y / q.y⟩

/-- `dimension::assign` (animation/geometry_traits.h 227-235): the new value of `dst`. -/
def assign (_dst src : Pt) : Pt := ⟨src.x, src.y⟩

/-- `dimension::assign_value` (animation/geometry_traits.h 243-251). -/
def assignValue (_dst : Pt) (c : ℝ) : Pt := ⟨c, c⟩

/-- `dimension::distance` (animation/geometry_traits.h 339-348). -/
def distance (l r : Pt) : ℝ :=
  Real.sqrt (0 + (l.y - r.y) * (l.y - r.y) + (l.x - r.x) * (l.x - r.x))

/-- `dimension::equals` (animation/geometry_traits.h 357-366). The `sqrt` of a truth value in the
code is that truth value. -/
def equals (l r : Pt) : Prop := l.y = r.y ∧ l.x = r.x

/-- `PointModel::swap` (animation/geometry.h 243-247): the two new values. -/
def swap (a b : Pt) : Pt × Pt := (⟨b.x, b.y⟩, ⟨a.x, a.y⟩)

/-- `PointModel::operator=` (animation/geometry.h 249-254): swap with a copy, keep the first. -/
def opAssign (self other : Pt) : Pt := (swap self other).1

end Pt

/-- `PointView<double>` (animation/geometry.h 76-184): a window on two consecutive entries of a flat
array of coordinates.  The array itself is passed to the operations, like the memory it is. -/
structure PointView where
  offset : ℕ

namespace PointView

/-- Constructors from an array and a point index (animation/geometry.h 88-110). -/
def mk' (index : ℕ) : PointView := ⟨index * 2⟩

/-- `get<Offset>` (animation/geometry.h 165-170). -/
def get (v : PointView) (array : ℕ → ℝ) (o : ℕ) : ℝ := array (v.offset + o)

/-- `set<Offset>` (animation/geometry.h 172-178): the array afterwards. -/
def set (v : PointView) (array : ℕ → ℝ) (o : ℕ) (value : ℝ) : ℕ → ℝ :=
  fun k => if k = v.offset + o then value else array k

/-- Conversion to a read-only view (animation/geometry.h 158-163), which goes through the
constructor. -/
def toConst (v : PointView) : PointView := mk' (v.offset / 2)

/-- The point seen through a view. -/
def point (v : PointView) (array : ℕ → ℝ) : Pt := ⟨v.get array 0, v.get array 1⟩

/-- The in-place operations of geometry_traits.h (`assign`, `pointwise_add`, ...; 227-331) applied to a
view: each coordinate `d` is set to `f d (current value)`, the higher dimension first
(animation/geometry_traits.h 66-125). -/
def update (v : PointView) (array : ℕ → ℝ) (f : ℕ → ℝ → ℝ) : ℕ → ℝ :=
  let a1 := v.set array 1 (f 1 (v.get array 1))
  v.set a1 0 (f 0 (v.get a1 0))

end PointView

/-- `Box<Point>` (animation/geometry.h 313-354). -/
@[ext] structure Box where
  tl : Pt
  br : Pt

/-- `Box::contains` (animation/geometry.h 356-369). -/
def Box.contains (b : Box) (p : Pt) : Prop :=
  p.x ≥ b.tl.x ∧ p.x ≤ b.br.x ∧ p.y ≥ b.tl.y ∧ p.y ≤ b.br.y

/-- `Vector4DModel<double>` (animation/geometry.h 381-427). -/
@[ext] structure Vec4 where
  x : ℝ
  y : ℝ
  z : ℝ
  w : ℝ

/-- `Vector4DModel::swap` (animation/geometry.h 408-414): the new values of `a` and `b`. The third
and fourth lines of the C++ exchange `a.z` with `b.w` and `a.w` with `b.z`. -/
def Vec4.swap (a b : Vec4) : Vec4 × Vec4 :=
  (⟨b.x, b.y, b.w, b.z⟩, ⟨a.x, a.y, a.w, a.z⟩)

/-- `Vector4DModel::operator=` (animation/geometry.h 416-421). -/
def Vec4.opAssign (self other : Vec4) : Vec4 := (Vec4.swap self other).1

/-- `Vector4DModel` copy constructor (animation/geometry.h 400-406). -/
def Vec4.copyCtor (other : Vec4) : Vec4 := ⟨other.x, other.y, other.z, other.w⟩

/-- `ComputeBoxCenterOffset` (animation/box_calculation.h 28-36). -/
def boxCenterOffset (b : Box) : Pt :=
  ⟨(b.br.x - b.tl.x) / 2, (b.br.y - b.tl.y) / 2⟩

/-- `ComputeBoxCenter` (animation/box_calculation.h 38-45). -/
def boxCenter (b : Box) : Pt := b.tl + boxCenterOffset b

/-- `ComputeRotationAxisOffset` (animation/box_calculation.h 47-57). -/
def rotationAxisOffset (b : Box) (u v : ℝ) : Pt :=
  ⟨(b.br.x - b.tl.x) * u, (b.br.y - b.tl.y) * v⟩

/-- `ComputeRotationAxis` (animation/box_calculation.h 59-68). -/
def rotationAxis (b : Box) (u v : ℝ) : Pt := b.tl + rotationAxisOffset b u v

/-- `glm::mat4`, written in the usual row-by-row way (`M r c`); glm itself stores columns. -/
abbrev Mat4 := Matrix (Fin 4) (Fin 4) ℝ

namespace Mat4

/-- `glm::translate (mat4 (1.0), vec3 (x, y, z))` (trusted textbook form). -/
def translate (x y z : ℝ) : Mat4 :=
  !![1, 0, 0, x; 0, 1, 0, y; 0, 0, 1, z; 0, 0, 0, 1]

/-- `glm::scale (mat4 (1.0), vec3 (x, y, z))` (trusted textbook form). -/
def scale (x y z : ℝ) : Mat4 :=
  !![x, 0, 0, 0; 0, y, 0, 0; 0, 0, z, 0; 0, 0, 0, 1]

/-- `glm::rotate (mat4 (1.0), a, vec3 (1, 0, 0))` (trusted textbook form). -/
def rotateX (a : ℝ) : Mat4 :=
  !![1, 0, 0, 0; 0, Real.cos a, -Real.sin a, 0; 0, Real.sin a, Real.cos a, 0; 0, 0, 0, 1]

/-- `glm::rotate (mat4 (1.0), a, vec3 (0, 1, 0))` (trusted textbook form). -/
def rotateY (a : ℝ) : Mat4 :=
  !![Real.cos a, 0, Real.sin a, 0; 0, 1, 0, 0; -Real.sin a, 0, Real.cos a, 0; 0, 0, 0, 1]

end Mat4

/-- `TransformFlattened2DPointBy3DMatrix` (animation/transform_calculation.h 30-37):
`matrix * (x, y, 0, 1)`. -/
def transformPoint (p : Pt) (m : Mat4) : Vec4 :=
  let t := m.mulVec ![p.x, p.y, 0, 1]
  ⟨t 0, t 1, t 2, t 3⟩

end

end Verif
