import Verif.Model.Traits
import Verif.Model.Geometry
import Mathlib.Analysis.SpecialFunctions.Pow.Real

/-!
# The matchers for test suites

Models `matchers/mathematical_model_matcher.h`: `SatisfiesModel` with `Linear` and `Parabolic`, `Eq`,
and `AlmostEq`; and `matchers/within_geometry_matcher.h`. The `Generator` under test is a function of an `int` with finite values. What the matchers print is
left out. `exponential::DecayModel` is left out: it calls a member `get` that `PointModel` does not have (line
135), so no program can use it.
-/

namespace Verif

noncomputable section

namespace XR

/-- libm `log`. -/
def log : XR → XR
  | nan => nan
  | ninf => nan
  | pinf => pinf
  | fin r => if r < 0 then nan else if r = 0 then ninf else fin (Real.log r)

/-- libm `pow (t, e)` for a finite `t` of at least one. One to any power is one, NaN included. -/
def pow (t : ℝ) (e : XR) : XR :=
  if t = 1 then fin 1 else
    match e with
    | nan => nan
    | ninf => fin 0
    | pinf => pinf
    | fin r => fin (t ^ r)

/-- `std::fabs`. -/
def fabs : XR → XR
  | nan => nan
  | ninf => pinf
  | pinf => pinf
  | fin r => fin |r|

end XR

namespace Matchers

open XR (fin)

/-- A `DataModel` (mathematical_model_matcher.h 71-89): only its `prediction` matters. -/
abbrev DataModel := ℝ → XR

/-- The conversion of an `unsigned int` to `int` (modulo 2^32, as every supported compiler does it). -/
def toInt (u : ℕ) : ℤ := (u + 2 ^ 31) % 2 ^ 32 - 2 ^ 31

/-- `linear::Model::Create` and `prediction` (mathematical_model_matcher.h 234-259). -/
def linear (f : ℤ → ℝ) (_upperBound : ℕ) : DataModel :=
  let constant := f 0
  let gradient := f 1 - constant
  fun t => fin (t * gradient + constant)

/-- `parabolic::Model::Create` and `prediction` (mathematical_model_matcher.h 287-369). -/
def parabolic (f : ℤ → ℝ) (upperBound : ℕ) : DataModel :=
  let zero := f 0
  let one := f 1
  let upper := f (toInt upperBound)
  let constant := zero
  let xCoefficient := one - constant
  let logUpper := XR.log (fin upperBound)
  let logFUpperMinusCOverN := XR.log (fin (upper - constant) / fin xCoefficient)
  let xExponent := logFUpperMinusCOverN / logUpper
  fun t => fin xCoefficient * XR.pow t xExponent + fin constant

/-- `testing::close_at_tolerance` (mathematical_model_matcher.h 430-434). -/
def closeAtTolerance (lhs rhs : XR) (epsilon : ℝ) : Prop := XR.lt (XR.fabs (rhs - lhs)) (fin epsilon)

/-- `impl::CollectForPowerRange` (mathematical_model_matcher.h 55-68) from zero: converting 2^31 and more to `int`
is undefined. (For 2^31 samples and more `reserve` would throw first; that is not told apart.) -/
def collect (f : ℤ → ℝ) (n : ℕ) : Outcome (List ℝ) :=
  if n ≤ 31 then .ok ((List.range n).map fun i => f (2 ^ i)) else .ub

/-- The number of digits for printing (mathematical_model_matcher.h 744-745), which is worked out whether or not anything
is printed: converting an infinite value or NaN to `int` is undefined. Finite values of
doubles are below 400. Tolerances so small that their inverse overflows are not told apart here. -/
def precision (tolerance : ℝ) : Outcome Unit :=
  match XR.log (fin 1 / fin tolerance) / XR.log (fin 10) with
  | fin _ => .ok ()
  | _ => .ub

/-- `MathematicalModelMatcher::MatchAndExplain` (mathematical_model_matcher.h 723-779), the result of matching
`SatisfiesModel (factory, WithSamples (n), WithTolerance (tolerance))` against a generator. -/
def satisfiesModel (factory : (ℤ → ℝ) → ℕ → DataModel) (n : ℕ) (tolerance : ℝ) (f : ℤ → ℝ) : Outcome Prop :=
  (collect f n).bind fun collection =>
    let model := factory f (2 ^ n)
    (precision tolerance).bind fun _ => .ok (∀ i : Fin collection.length, closeAtTolerance (model (2 ^ i.val)) (fin (collection.get i)) tolerance)

/-- A data type of coordinates: its subtraction and `std::numeric_limits <T>::min ()`. -/
structure NumType where
  sub : ℝ → ℝ → Outcome ℝ
  min : ℝ

/-- `double`. -/
def double : NumType := ⟨fun a b => .ok (a - b), 2 ^ (-1022 : ℤ)⟩

/-- `float`. -/
def float : NumType := ⟨fun a b => .ok (a - b), 2 ^ (-126 : ℤ)⟩

/-- `int`: a difference that does not fit is undefined. -/
def int : NumType := ⟨fun a b => if -2 ^ 31 ≤ a - b ∧ a - b < 2 ^ 31 then .ok (a - b) else .ub, -2 ^ 31⟩

/-- `unsigned int`: the difference is taken modulo 2^32. -/
def unsigned : NumType := ⟨fun a b => .ok ((⌊a - b⌋ % 2 ^ 32 : ℤ) : ℝ), 0⟩

/-- `close_at_tolerance` for coordinates of one type. -/
def NumType.close (T : NumType) (lhs rhs epsilon : ℝ) : Outcome Prop :=
  (T.sub rhs lhs).bind fun d => .ok (XR.lt (XR.fabs (fin d)) (fin epsilon))

/-- `testing::is_small` (mathematical_model_matcher.h 436-440). -/
def NumType.isSmall (T : NumType) (value epsilon : ℝ) : Outcome Prop := T.close value T.min epsilon

open Classical in
/-- `Equal<…>::apply` (mathematical_model_matcher.h 527-562) from dimension `d` on; `k` dimensions are left.
`epsilon` is the `float` nearest to `10e-7`. -/
def equalFrom {T U : Type} (N : NumType) (A : Traits.Access T) (B : Traits.Access U) (epsilon : ℝ) (lhs : T)
    (rhs : U) (d : ℕ) : ℕ → Outcome Prop
  | 0 => .ok True
  | k + 1 =>
    (if B.get d rhs = 0 then N.isSmall (A.get d lhs) epsilon else N.close (A.get d lhs) (B.get d rhs) epsilon).bind
      fun result => if result then equalFrom N A B epsilon lhs rhs (d + 1) k else .ok False

/-- `GeometricallyEqualMatcher::MatchAndExplain` (mathematical_model_matcher.h 512-518, 564-571): `lhs` is the value
under test. -/
def geometricallyEqual {T U : Type} (N : NumType) (A : Traits.Access T) (B : Traits.Access U) (epsilon : ℝ)
    (lhs : T) (rhs : U) : Outcome Prop := equalFrom N A B epsilon lhs rhs 0 A.dims

/-- What the library knows about a type: `Dimension<T>::data_type`, which is `none` for `void`, and the coordinates. -/
structure Registered (T : Type) where
  dataType : Option NumType
  access : Traits.Access T

/-- The unspecialised `Dimension` and `DimensionAccess` (animation/geometry_traits.h 32-51), for every type that does not
implement the trait. -/
def unregistered (T : Type) : Registered T := ⟨some int, ⟨0, fun _ _ => 0, fun _ _ p => p, fun _ => True⟩⟩

/-- `Eq` (mathematical_model_matcher.h 600-698): whether `x` matches `Eq (y)`. `IsGeometry` looks at the data type alone. The
ordinary comparison is that of Google Mock. -/
def eq {T : Type} (R : Registered T) (epsilon : ℝ) (x y : T) : Outcome Prop :=
  match R.dataType with
  | none => .ok (x = y)
  | some N => geometricallyEqual N R.access R.access epsilon x y

/-- `AlmostEqMatcher <double>::MatchAndExplain` (mathematical_model_matcher.h 475-482): whether `x` matches
`AlmostEq (value, tolerance)`. `r` rounds the difference. The `float` tolerance is a `double` too. -/
def almostEq (r : ℝ → ℝ) (value tolerance x : ℝ) : Prop := |r (value - x)| < tolerance

/-- The conversion of a `float` to an integer type drops the fraction. -/
def truncate (t : ℝ) : ℤ := if 0 ≤ t then ⌊t⌋ else ⌈t⌉

open Classical in
/-- The same for `int`: `std::bind` converts the tolerance to `int`. The conversion and the subtraction are
undefined when the result does not fit. -/
def almostEqInt (value : ℤ) (tolerance : ℝ) (x : ℤ) : Outcome Prop :=
  if -2 ^ 31 ≤ truncate tolerance ∧ truncate tolerance < 2 ^ 31 ∧ -2 ^ 31 ≤ value - x ∧ value - x < 2 ^ 31 then
    .ok (|value - x| < truncate tolerance)
  else .ub

open Classical in
/-- The same for `unsigned int`: the subtraction is modulo `2^32`. -/
def almostEqUnsigned (value : ℤ) (tolerance : ℝ) (x : ℤ) : Outcome Prop :=
  if 0 ≤ truncate tolerance ∧ truncate tolerance < 2 ^ 32 then .ok ((value - x) % 2 ^ 32 < truncate tolerance) else .ub

/-- `WithinGeometryMatcher::MatchAndExplain` (within_geometry_matcher.h 50-55) for a box. -/
def withinGeometry (parent : Box) (child : Pt) : Prop := parent.contains child

end Matchers

end

end Verif
