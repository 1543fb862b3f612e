import Verif.Model.Geometry

/-!
# The dimension traits

Models `animation/geometry_traits.h` for an arbitrary type that implements the `Dimension` trait, with
the recursion of the code from the highest dimension down.  `Model/Geometry.lean` gives the same
functions for two-dimensional points written out; that the two agree is part of C74.
-/

namespace Verif.Traits

noncomputable section

/-- An implementation of the `Dimension` trait: `Dimension<T>::dimensions` and
`DimensionAccess<T, D>::get` and `set` (animation/geometry_traits.h 32-63). For `D` at or above
`dimensions` the unspecialised template gives zero and does nothing. `has D` says whether a program that uses
`get<D>` or `set<D>` compiles. -/
structure Access (T : Type) where
  dims : ℕ
  get : ℕ → T → ℝ
  set : ℕ → ℝ → T → T
  has : ℕ → Prop := fun _ => True

/-- `PointModel` (animation/geometry.h 263-311). -/
def point : Access Pt where
  dims := 2
  get
    | 0, p => p.x
    | 1, p => p.y
    | _, _ => 0
  set
    | 0, v, p => { p with x := v }
    | 1, v, p => { p with y := v }
    | _, _, p => p

/-- `Vector4DModel` (animation/geometry.h 431-499). -/
def vector4 : Access Vec4 where
  dims := 4
  get
    | 0, p => p.x
    | 1, p => p.y
    | 2, p => p.z
    | 3, p => p.w
    | _, _ => 0
  set
    | 0, v, p => { p with x := v }
    | 1, v, p => { p with y := v }
    | 2, v, p => { p with z := v }
    | 3, v, p => { p with w := v }
    | _, _, p => p

/-- `PointView` (animation/geometry.h 186-211) on the given array, as an access to the array.  The
template is specialised for every `D`; the `static_assert`s at 168 and 176 stop the compiler for `D` of 2 and more. -/
def view (v : PointView) : Access (ℕ → ℝ) where
  dims := 2
  get := fun d a => v.get a d
  set := fun d x a => v.set a d x
  has := fun d => d < 2

variable {T U : Type} (A : Access T) (B : Access U)

/-- `detail::MutateRecursive` (animation/geometry_traits.h 66-84). -/
def mutate (f : ℝ → ℝ) : ℕ → T → T
  | 0, p => A.set 0 (f (A.get 0 p)) p
  | d + 1, p => mutate f d (A.set (d + 1) (f (A.get (d + 1) p)) p)

/-- `detail::VectorApplyOntoRecursive` (animation/geometry_traits.h 86-105). -/
def vectorApply (f : ℝ → ℝ → ℝ) : ℕ → T → U → T
  | 0, p, q => A.set 0 (f (A.get 0 p) (B.get 0 q)) p
  | d + 1, p, q => vectorApply f d (A.set (d + 1) (f (A.get (d + 1) p) (B.get (d + 1) q)) p) q

/-- `detail::ScalarApplyOntoRecursive` (animation/geometry_traits.h 107-125). -/
def scalarApply (f : ℝ → ℝ → ℝ) : ℕ → T → ℝ → T
  | 0, p, c => A.set 0 (f (A.get 0 p) c) p
  | d + 1, p, c => scalarApply f d (A.set (d + 1) (f (A.get (d + 1) p) c) p) c

/-- `detail::ReduceCoordinatePairsRecursive` (animation/geometry_traits.h 127-158). -/
def reduce {R : Type} (f : ℝ → ℝ → R → R) : ℕ → T → U → R → R
  | 0, p, q, acc => f (A.get 0 p) (B.get 0 q) acc
  | d + 1, p, q, acc => reduce f d p q (f (A.get (d + 1) p) (B.get (d + 1) q) acc)

/-- Whether a program that combines a first operand of type `T` with a second one of type `U` compiles: `vector_map_onto`
(animation/geometry_traits.h 175-188) and `vector_reduce` (205-219) are instantiated for every dimension of the first. -/
def compiles : Prop := ∀ d < A.dims, A.has d ∧ B.has d

/-- `for_each_coordinate` (animation/geometry_traits.h 161-173). -/
def forEachCoordinate (f : ℝ → ℝ) (p : T) : T := mutate A f (A.dims - 1) p

/-- `assign` (animation/geometry_traits.h 220-235): the new value of `dst`. -/
def assign (dst : T) (src : U) : T := vectorApply A B (fun _ r => r) (A.dims - 1) dst src

/-- `assign_value` (animation/geometry_traits.h 237-251). -/
def assignValue (dst : T) (c : ℝ) : T := scalarApply A (fun _ r => r) (A.dims - 1) dst c

/-- `scale` (animation/geometry_traits.h 253-267). -/
def scale (dst : T) (c : ℝ) : T := scalarApply A (fun l r => l * r) (A.dims - 1) dst c

/-- `pointwise_scale` (animation/geometry_traits.h 269-283). -/
def pointwiseScale (dst : T) (src : U) : T := vectorApply A B (fun l r => l * r) (A.dims - 1) dst src

open Classical in
/-- `pointwise_div` (animation/geometry_traits.h 285-299). A division by zero gives an infinity or NaN. -/
def pointwiseDiv (dst : T) (src : U) : Outcome T :=
  if ∃ i < A.dims, B.get i src = 0 then .nonfinite else .ok (vectorApply A B (fun l r => l / r) (A.dims - 1) dst src)

/-- `pointwise_add` (animation/geometry_traits.h 301-315). -/
def pointwiseAdd (dst : T) (src : U) : T := vectorApply A B (fun l r => l + r) (A.dims - 1) dst src

/-- `pointwise_subtract` (animation/geometry_traits.h 317-331). -/
def pointwiseSubtract (dst : T) (src : U) : T := vectorApply A B (fun l r => l - r) (A.dims - 1) dst src

/-- `distance` (animation/geometry_traits.h 333-348). -/
def distance (l : T) (r : U) : ℝ :=
  Real.sqrt (reduce A B (fun l r acc => acc + (l - r) * (l - r)) (A.dims - 1) l r 0)

/-- `equals` (animation/geometry_traits.h 350-366). The `sqrt` of a truth value in the code is that
truth value. -/
def equals (l : T) (r : U) : Prop := reduce A B (fun l r acc => acc ∧ l = r) (A.dims - 1) l r True

/-- `detail::VectorApplyOntoRecursive` (animation/geometry_traits.h 86-105) when both operands are in the memory `m`, so
that a coordinate that was written is read as written. -/
def vectorApplyShared {M : Type} (A B : Access M) (f : ℝ → ℝ → ℝ) : ℕ → M → M
  | 0, m => A.set 0 (f (A.get 0 m) (B.get 0 m)) m
  | d + 1, m => vectorApplyShared A B f d (A.set (d + 1) (f (A.get (d + 1) m) (B.get (d + 1) m)) m)

end

end Verif.Traits
