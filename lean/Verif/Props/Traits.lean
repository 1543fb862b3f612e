import Verif.Model.Traits
import Mathlib.Algebra.BigOperators.Group.Finset.Basic
import Mathlib.Algebra.BigOperators.Intervals
import Mathlib.Analysis.InnerProductSpace.PiL2

/-! # Geometry helpers in any number of dimensions (C74, C75, C142, C143) -/

namespace Verif.Props

open Traits

noncomputable section

/-- A type with at least one coordinate, on which setting a coordinate makes it read back and leaves
the other coordinates alone. -/
structure Coordinates {T : Type} (A : Access T) : Prop where
  pos : 0 < A.dims
  get_set : ∀ i j v p, i < A.dims → j < A.dims → A.get i (A.set j v p) = if i = j then v else A.get i p

section

variable {T U : Type} {A : Access T} (hA : Coordinates A) (B : Access U)
include hA

theorem get_vectorApply (f : ℝ → ℝ → ℝ) (d : ℕ) (hd : d < A.dims) (p : T) (q : U) (i : ℕ)
    (hi : i < A.dims) :
    A.get i (vectorApply A B f d p q) = if i ≤ d then f (A.get i p) (B.get i q) else A.get i p := by
  induction d generalizing p with
  | zero =>
    rw [vectorApply, hA.get_set _ _ _ _ hi hd]
    by_cases h : i = 0
    · subst h; simp
    · rw [if_neg h, if_neg (by omega)]
  | succ d ih =>
    rw [vectorApply, ih (by omega), hA.get_set _ _ _ _ hi hd]
    by_cases h : i = d + 1
    · subst h; simp
    · by_cases h' : i ≤ d
      · rw [if_pos h', if_neg h, if_pos (by omega)]
      · rw [if_neg h', if_neg h, if_neg (by omega)]

theorem get_scalarApply (f : ℝ → ℝ → ℝ) (d : ℕ) (hd : d < A.dims) (p : T) (c : ℝ) (i : ℕ)
    (hi : i < A.dims) :
    A.get i (scalarApply A f d p c) = if i ≤ d then f (A.get i p) c else A.get i p := by
  induction d generalizing p with
  | zero =>
    rw [scalarApply, hA.get_set _ _ _ _ hi hd]
    by_cases h : i = 0
    · subst h; simp
    · rw [if_neg h, if_neg (by omega)]
  | succ d ih =>
    rw [scalarApply, ih (by omega), hA.get_set _ _ _ _ hi hd]
    by_cases h : i = d + 1
    · subst h; simp
    · by_cases h' : i ≤ d
      · rw [if_pos h', if_neg h, if_pos (by omega)]
      · rw [if_neg h', if_neg h, if_neg (by omega)]

theorem get_mutate (f : ℝ → ℝ) (d : ℕ) (hd : d < A.dims) (p : T) (i : ℕ) (hi : i < A.dims) :
    A.get i (mutate A f d p) = if i ≤ d then f (A.get i p) else A.get i p := by
  induction d generalizing p with
  | zero =>
    rw [mutate, hA.get_set _ _ _ _ hi hd]
    by_cases h : i = 0
    · subst h; simp
    · rw [if_neg h, if_neg (by omega)]
  | succ d ih =>
    rw [mutate, ih (by omega), hA.get_set _ _ _ _ hi hd]
    by_cases h : i = d + 1
    · subst h; simp
    · by_cases h' : i ≤ d
      · rw [if_pos h', if_neg h, if_pos (by omega)]
      · rw [if_neg h', if_neg h, if_neg (by omega)]

/-- **C74.** For every type that implements the `Dimension` trait, the in-place helpers work coordinate
by coordinate, on all coordinates of the destination. -/
theorem C74_coordinatewise (p : T) (q : U) (c : ℝ) (f : ℝ → ℝ) (i : ℕ) (hi : i < A.dims) :
    A.get i (assign A B p q) = B.get i q ∧
    A.get i (assignValue A p c) = c ∧
    A.get i (scale A p c) = A.get i p * c ∧
    A.get i (pointwiseScale A B p q) = A.get i p * B.get i q ∧
    A.get i (pointwiseAdd A B p q) = A.get i p + B.get i q ∧
    A.get i (pointwiseSubtract A B p q) = A.get i p - B.get i q ∧
    A.get i (forEachCoordinate A f p) = f (A.get i p) := by
  have hd : A.dims - 1 < A.dims := by have := hA.pos; omega
  have hle : i ≤ A.dims - 1 := by omega
  refine ⟨?_, ?_, ?_, ?_, ?_, ?_, ?_⟩
  · rw [assign, get_vectorApply hA B _ _ hd _ _ _ hi, if_pos hle]
  · rw [assignValue, get_scalarApply hA _ _ hd _ _ _ hi, if_pos hle]
  · rw [scale, get_scalarApply hA _ _ hd _ _ _ hi, if_pos hle]
  · rw [pointwiseScale, get_vectorApply hA B _ _ hd _ _ _ hi, if_pos hle]
  · rw [pointwiseAdd, get_vectorApply hA B _ _ hd _ _ _ hi, if_pos hle]
  · rw [pointwiseSubtract, get_vectorApply hA B _ _ hd _ _ _ hi, if_pos hle]
  · rw [forEachCoordinate, get_mutate hA _ _ hd _ _ hi, if_pos hle]

/-- **C74.** `pointwise_div` undoes `pointwise_scale`: when no coordinate of the divisor is zero the quotient times the
divisor is the dividend; when one is zero the result is not a number that can be drawn. -/
theorem C74_divide (p : T) (q : U) :
    ((∀ i < A.dims, B.get i q ≠ 0) → ∃ d, pointwiseDiv A B p q = .ok d ∧ ∀ i < A.dims, A.get i d * B.get i q = A.get i p) ∧
    ((∃ i < A.dims, B.get i q = 0) → pointwiseDiv A B p q = .nonfinite) := by
  constructor
  · intro h
    refine ⟨_, if_neg (by rintro ⟨i, hi, h0⟩; exact h i hi h0), fun i hi => ?_⟩
    have hd : A.dims - 1 < A.dims := by have := hA.pos; omega
    rw [get_vectorApply hA B _ _ hd _ _ _ hi, if_pos (by omega)]
    exact div_mul_cancel₀ _ (h i hi)
  · exact fun h => if_pos h

end

section

variable {T U : Type} (A : Access T) (B : Access U)

theorem reduce_sum (d : ℕ) (p : T) (q : U) (acc : ℝ) :
    reduce A B (fun l r acc => acc + (l - r) * (l - r)) d p q acc =
      acc + ∑ i ∈ Finset.range (d + 1), (A.get i p - B.get i q) ^ 2 := by
  induction d generalizing acc with
  | zero => simp [reduce, pow_two]
  | succ d ih => rw [reduce, ih, Finset.sum_range_succ _ (d + 1)]; ring

theorem reduce_all (d : ℕ) (p : T) (q : U) (acc : Prop) :
    reduce A B (fun l r acc => acc ∧ l = r) d p q acc ↔
      acc ∧ ∀ i ≤ d, A.get i p = B.get i q := by
  induction d generalizing acc with
  | zero => simp [reduce]
  | succ d ih =>
    rw [reduce, ih, and_assoc]
    refine and_congr_right fun _ => ⟨fun ⟨h1, h2⟩ i hi => ?_, fun h => ⟨h _ le_rfl, fun i hi => h i (by omega)⟩⟩
    rcases Nat.lt_or_ge d i with h | h
    · obtain rfl : i = d + 1 := by omega
      exact h1
    · exact h2 i h

/-- **C74.** `distance` is the Euclidean distance over all coordinates, and `equals` is equality of all
coordinates. -/
theorem C74_distance_equals (hA : 0 < A.dims) (p : T) (q : U) :
    distance A B p q = Real.sqrt (∑ i ∈ Finset.range A.dims, (A.get i p - B.get i q) ^ 2) ∧
    (equals A B p q ↔ ∀ i < A.dims, A.get i p = B.get i q) := by
  have e : A.dims - 1 + 1 = A.dims := by omega
  constructor
  · rw [distance, reduce_sum, zero_add, e]
  · rw [equals, reduce_all, true_and]
    exact ⟨fun h i hi => h i (by omega), fun h i hi => h i (by omega)⟩

end

/-- **C74.** The types of the library that implement the trait: two-dimensional points, views on them,
and four-vectors. -/
theorem C74_types (v : PointView) : Coordinates point ∧ Coordinates vector4 ∧ Coordinates (view v) := by
  refine ⟨⟨by decide, ?_⟩, ⟨by decide, ?_⟩, ⟨Nat.two_pos, ?_⟩⟩
  · intro i j x p hi hj
    obtain rfl | rfl : i = 0 ∨ i = 1 := by have : i < 2 := hi; omega
    all_goals obtain rfl | rfl : j = 0 ∨ j = 1 := by have : j < 2 := hj; omega
    all_goals simp [point]
  · intro i j x p hi hj
    obtain rfl | rfl | rfl | rfl : i = 0 ∨ i = 1 ∨ i = 2 ∨ i = 3 := by have : i < 4 := hi; omega
    all_goals obtain rfl | rfl | rfl | rfl : j = 0 ∨ j = 1 ∨ j = 2 ∨ j = 3 := by have : j < 4 := hj; omega
    all_goals simp [vector4]
  · intro i j x a hi hj
    simp [view, PointView.get, PointView.set]

/-- **C74.** On two-dimensional points the helpers are the operations used in the rest of the model. -/
theorem C74_points (p q : Pt) (c : ℝ) :
    assign point point p q = Pt.assign p q ∧ assignValue point p c = Pt.assignValue p c ∧
    scale point p c = p.scale c ∧ pointwiseScale point point p q = p.pscale q ∧
    pointwiseAdd point point p q = p + q ∧ pointwiseSubtract point point p q = p - q ∧
    pointwiseDiv point point p q = p.pdiv q ∧ distance point point p q = Pt.distance p q ∧ (equals point point p q ↔ Pt.equals p q) := by
  refine ⟨rfl, rfl, rfl, rfl, rfl, rfl, ?_, rfl, ?_⟩
  · have h : (∃ i < point.dims, point.get i q = 0) ↔ q.x = 0 ∨ q.y = 0 := by
      constructor
      · rintro ⟨i, hi, h⟩
        rcases i with _ | _ | i
        · exact .inl h
        · exact .inr h
        · exact absurd hi (by simp [point])
      · rintro (h | h)
        · exact ⟨0, by decide, h⟩
        · exact ⟨1, by decide, h⟩
    unfold pointwiseDiv Pt.pdiv
    by_cases hc : q.x = 0 ∨ q.y = 0
    · rw [if_pos (h.2 hc), if_pos hc]
    · rw [if_neg (fun hx => hc (h.1 hx)), if_neg hc]
      rfl
  · simp [equals, reduce, point, Pt.equals]

/-- `C74_divide` on points. -/
example : pointwiseDiv point point ⟨6, 9⟩ ⟨2, 3⟩ = .ok ⟨3, 3⟩ := by
  refine (if_neg ?_).trans (congrArg Outcome.ok ?_)
  · rintro ⟨i, hi, h⟩
    rcases i with _ | _ | i
    · norm_num [point] at h
    · norm_num [point] at h
    · exact absurd hi (by simp [point])
  · norm_num [vectorApply, point]

/-- **C74.** Applied to a view the helpers change the array as `PointView.update` does, which C63 shows
to touch only the one point. -/
theorem C74_views (v : PointView) (array : ℕ → ℝ) (q : Pt) (c : ℝ) :
    assign (view v) point array q = v.update array (fun d _ => point.get d q) ∧
    pointwiseAdd (view v) point array q = v.update array (fun d x => x + point.get d q) ∧
    pointwiseSubtract (view v) point array q = v.update array (fun d x => x - point.get d q) ∧
    pointwiseScale (view v) point array q = v.update array (fun d x => x * point.get d q) ∧
    scale (view v) array c = v.update array (fun _ x => x * c) ∧
    assignValue (view v) array c = v.update array (fun _ _ => c) :=
  ⟨rfl, rfl, rfl, rfl, rfl, rfl⟩

example : distance vector4 vector4 ⟨0, 0, 0, 0⟩ ⟨1, 1, 1, 1⟩ = 2 := by
  rw [(C74_distance_equals vector4 vector4 (by decide) _ _).1,
    show (2 : ℝ) = Real.sqrt (2 ^ 2) by rw [Real.sqrt_sq]; norm_num]
  congr 1
  simp only [vector4, Finset.sum_range_succ, Finset.sum_range_zero]
  norm_num

/-- **C75.** A point assigned to a four-vector has depth and `w` zero; a four-vector assigned to a point loses them; and going
there and back keeps the point. -/
theorem C75_point (p : Pt) (v : Vec4) :
    assign vector4 point v p = ⟨p.x, p.y, 0, 0⟩ ∧ assign point vector4 p v = ⟨v.x, v.y⟩ ∧
    assign point vector4 p (assign vector4 point v p) = p := ⟨rfl, rfl, rfl⟩

/-- **C75.** Points, four-vectors and points seen through a view can be combined in every way but one: a program in which a
four-vector comes first and a view second does not compile. So there is no way to read beyond the point of a view. -/
theorem C75_compiles (v w : PointView) :
    compiles point point ∧ compiles point vector4 ∧ compiles point (view v) ∧ compiles vector4 point ∧ compiles vector4 vector4 ∧
    compiles (view v) point ∧ compiles (view v) vector4 ∧ compiles (view v) (view w) ∧ ¬ compiles vector4 (view v) := by
  refine ⟨?_, ?_, ?_, ?_, ?_, ?_, ?_, ?_, fun h => ?_⟩
  on_goal 9 => exact absurd (h 2 (by decide)).2 (by simp [view])
  all_goals
    intro d hd
    simp only [point, vector4, view] at hd ⊢
  all_goals simp [hd]

example : assign vector4 point ⟨1, 2, 3, 4⟩ ⟨5, 6⟩ = ⟨5, 6, 0, 0⟩ := (C75_point _ _).1

/-- **C142 (partial).** Between geometries of the same number of dimensions `==` and `distance` do not depend on the order. Missing:
geometries of different dimensions, for which the claim is false. -/
theorem C142_symmetric_partial {T U : Type} (A : Access T) (B : Access U) (h : A.dims = B.dims) (hA : 0 < A.dims) (p : T) (q : U) :
    (equals A B p q ↔ equals B A q p) ∧ distance A B p q = distance B A q p := by
  obtain ⟨d1, e1⟩ := C74_distance_equals A B hA p q
  obtain ⟨d2, e2⟩ := C74_distance_equals B A (h ▸ hA) q p
  refine ⟨?_, ?_⟩
  · rw [e1, e2, h]
    exact forall₂_congr fun i _ => eq_comm
  · rw [d1, d2, h]
    congr 1
    exact Finset.sum_congr rfl fun i _ => by ring

/-- **C142.** The distance is zero exactly between equal geometries. -/
theorem C142_zero {T U : Type} (A : Access T) (B : Access U) (hA : 0 < A.dims) (p : T) (q : U) :
    0 ≤ distance A B p q ∧ (distance A B p q = 0 ↔ equals A B p q) := by
  obtain ⟨d1, e1⟩ := C74_distance_equals A B hA p q
  rw [d1, e1]
  refine ⟨Real.sqrt_nonneg _, ?_⟩
  rw [Real.sqrt_eq_zero (Finset.sum_nonneg fun i _ => sq_nonneg _), Finset.sum_eq_zero_iff_of_nonneg fun i _ => sq_nonneg _]
  simp only [Finset.mem_range, pow_eq_zero_iff two_ne_zero, sub_eq_zero]

/-- **C142.** The way over a third geometry, which has as many dimensions as the first, is not shorter. -/
theorem C142_triangle {T U W : Type} (A : Access T) (B : Access U) (C : Access W) (h : A.dims = B.dims) (hA : 0 < A.dims)
    (p : T) (q : U) (z : W) : distance A C p z ≤ distance A B p q + distance B C q z := by
  obtain ⟨d1, -⟩ := C74_distance_equals A C hA p z
  obtain ⟨d2, -⟩ := C74_distance_equals A B hA p q
  obtain ⟨d3, -⟩ := C74_distance_equals B C (h ▸ hA) q z
  have key : ∀ f g : ℕ → ℝ, Real.sqrt (∑ i ∈ Finset.range A.dims, (f i - g i) ^ 2) =
      dist (WithLp.toLp 2 fun i : Fin A.dims => f i : EuclideanSpace ℝ (Fin A.dims)) (WithLp.toLp 2 fun i : Fin A.dims => g i) := by
    intro f g
    rw [EuclideanSpace.dist_eq, Finset.sum_range]
    congr 1
    refine Finset.sum_congr rfl fun i _ => ?_
    rw [Real.dist_eq, sq_abs]
  rw [d1, d2, d3, ← h, key, key, key]
  exact dist_triangle _ _ _

/-- **C142.** Equality is transitive when the second geometry has as many dimensions as the first. -/
theorem C142_transitive {T U W : Type} (A : Access T) (B : Access U) (C : Access W) (h : A.dims = B.dims) (hA : 0 < A.dims)
    (p : T) (q : U) (z : W) (h1 : equals A B p q) (h2 : equals B C q z) : equals A C p z := by
  rw [(C74_distance_equals A B hA p q).2] at h1
  rw [(C74_distance_equals B C (h ▸ hA) q z).2] at h2
  rw [(C74_distance_equals A C hA p z).2]
  exact fun i hi => (h1 i hi).trans (h2 i (h ▸ hi))

/-- **C142 (negation).** A point that comes first is compared with a four-vector by `x` and `y` only; in the other order `z` and `w`
have to be zero as well. -/
theorem C142_mixed (p : Pt) (v : Vec4) :
    (equals point vector4 p v ↔ p.x = v.x ∧ p.y = v.y) ∧
    (equals vector4 point v p ↔ p.x = v.x ∧ p.y = v.y ∧ v.z = 0 ∧ v.w = 0) := by
  constructor
  · simp only [equals, reduce, point, vector4, true_and]
    exact and_comm
  · simp only [equals, reduce, point, vector4, true_and]
    constructor
    · rintro ⟨⟨⟨h3, h2⟩, h1⟩, h0⟩
      exact ⟨h0.symm, h1.symm, h2, h3⟩
    · rintro ⟨h0, h1, h2, h3⟩
      exact ⟨⟨⟨h3, h2⟩, h1.symm⟩, h0.symm⟩

/-- So order matters for `==` and for `distance`, and equality is not transitive. -/
theorem C142_order_matters :
    (∃ p v, equals point vector4 p v ∧ ¬ equals vector4 point v p ∧ distance point vector4 p v ≠ distance vector4 point v p) ∧
    ∃ v p u, equals vector4 point v p ∧ equals point vector4 p u ∧ ¬ equals vector4 vector4 v u := by
  have e1 : equals point vector4 ⟨1, 2⟩ ⟨1, 2, 3, 4⟩ := (C142_mixed _ _).1.2 ⟨rfl, rfl⟩
  have e2 : ¬ equals vector4 point ⟨1, 2, 3, 4⟩ ⟨1, 2⟩ := by
    rw [(C142_mixed _ _).2]
    norm_num
  refine ⟨⟨⟨1, 2⟩, ⟨1, 2, 3, 4⟩, e1, e2, fun h => ?_⟩, ⟨1, 2, 0, 0⟩, ⟨1, 2⟩, ⟨1, 2, 3, 4⟩, ?_, e1, fun h => ?_⟩
  · rw [(C142_zero point vector4 (by decide) _ _).2.2 e1] at h
    exact e2 ((C142_zero vector4 point (by decide) _ _).2.1 h.symm)
  · rw [(C142_mixed _ _).2]
    norm_num
  · have := (C74_distance_equals vector4 vector4 (by decide) _ _).2.1 h 2 (by decide)
    norm_num [vector4] at this

/-- The hypotheses of C142 hold for a point, a view and a point. -/
example : distance point point ⟨0, 0⟩ ⟨5, 5⟩ ≤
    distance point (view (PointView.mk' 3)) ⟨0, 0⟩ (fun k => (k : ℝ)) + distance (view (PointView.mk' 3)) point (fun k => (k : ℝ)) ⟨5, 5⟩ :=
  C142_triangle point (view (PointView.mk' 3)) point rfl (by decide) _ _ _

theorem get_shared (i j d : ℕ) (m : ℕ → ℝ) (x : ℝ) (o : ℕ) (ho : o < d) (hd : d < 2) :
    (PointView.mk' j).get ((PointView.mk' i).set m d x) o = (PointView.mk' j).get m o := by
  have h : j * 2 + o ≠ i * 2 + d := by omega
  exact if_neg h

/-- **C143.** When a point of a mesh is changed by means of a point of the same mesh, be it another or the same, the result is that of
using a copy of the latter: the new point is made from the two old ones, and no other point changes. -/
theorem C143_same_mesh (f : ℝ → ℝ → ℝ) (i j : ℕ) (m : ℕ → ℝ) :
    (∀ k, (PointView.mk' k).point (vectorApplyShared (view (PointView.mk' i)) (view (PointView.mk' j)) f 1 m) =
      if k = i then ⟨f ((PointView.mk' i).point m).x ((PointView.mk' j).point m).x,
        f ((PointView.mk' i).point m).y ((PointView.mk' j).point m).y⟩ else (PointView.mk' k).point m) ∧
    vectorApplyShared (view (PointView.mk' i)) (view (PointView.mk' j)) f 1 m =
      vectorApply (view (PointView.mk' i)) point f 1 m ((PointView.mk' j).point m) := by
  have key : vectorApplyShared (view (PointView.mk' i)) (view (PointView.mk' j)) f 1 m =
      vectorApply (view (PointView.mk' i)) point f 1 m ((PointView.mk' j).point m) := by
    simp only [vectorApplyShared, vectorApply, view, point, zero_add]
    rw [get_shared i j 1 m _ 0 (by omega) (by omega)]
    rfl
  refine ⟨fun k => ?_, key⟩
  rw [key]
  simp only [vectorApply, view, point, PointView.point, PointView.get, PointView.set, PointView.mk', zero_add, add_zero]
  by_cases hk : k = i
  · subst hk
    simp
  · rw [if_neg hk, if_neg (by omega), if_neg (by omega), if_neg (by omega), if_neg (by omega)]

/-- **C143.** A geometry that is combined with itself: the same holds for every type with the trait. -/
theorem C143_itself {T : Type} {A : Access T} (hA : Coordinates A) (f : ℝ → ℝ → ℝ) (p : T) (i : ℕ) (hi : i < A.dims) :
    A.get i (vectorApplyShared A A f (A.dims - 1) p) = f (A.get i p) (A.get i p) := by
  have key : ∀ d < A.dims, ∀ q : T, ∀ i < A.dims,
      A.get i (vectorApplyShared A A f d q) = if i ≤ d then f (A.get i q) (A.get i q) else A.get i q := by
    intro d
    induction d with
    | zero =>
      intro hd q i hi
      rw [vectorApplyShared, hA.get_set _ _ _ _ hi hd]
      by_cases h : i = 0
      · subst h; simp
      · rw [if_neg h, if_neg (by omega)]
    | succ d ih =>
      intro hd q i hi
      rw [vectorApplyShared, ih (by omega) _ i hi, hA.get_set _ _ _ _ hi hd]
      by_cases h : i = d + 1
      · subst h; simp
      · by_cases h' : i ≤ d
        · rw [if_pos h', if_neg h, if_pos (by omega)]
        · rw [if_neg h', if_neg h, if_neg (by omega)]
  rw [key _ (by omega) _ _ hi, if_pos (by omega)]

/-- A mesh point subtracted from itself is zero; added to its neighbour it moves that one alone. -/
example : (PointView.mk' 2).point (vectorApplyShared (view (PointView.mk' 2)) (view (PointView.mk' 2)) (fun l r => l - r) 1 fun k => (k : ℝ)) =
    ⟨0, 0⟩ := by
  rw [(C143_same_mesh _ 2 2 _).1 2, if_pos rfl, sub_self, sub_self]

end

end Verif.Props
