import Verif.Lemmas.Geometry

/-! # Points, vectors, boxes, views (C26, C27, C63) -/

namespace Verif.Props

/-- **C26 (negation).** Assigning a four-coordinate vector makes the two equal only when `z` and `w` agree. -/
theorem C26_vec4_assign_differs (a b : Vec4) : Vec4.opAssign a b = b ↔ b.z = b.w := by
  constructor
  · intro e
    exact (congrArg Vec4.z e).symm
  · intro h
    ext
    · rfl
    · rfl
    · exact h.symm
    · exact h

example : (⟨1, 2, 3, 4⟩ : Vec4).z ≠ (⟨1, 2, 3, 4⟩ : Vec4).w := by norm_num

/-- **C26 (partial).** Copy construction copies all four coordinates; assignment gets `x` and `y` right,
and all of the vector when `z = w`; assigning the result once more gives the original.  Missing: assignment
with different `z` and `w`, where the claim is false. -/
theorem C26_vec4_copy_partial (a b : Vec4) :
    Vec4.copyCtor b = b ∧ (Vec4.opAssign a b).x = b.x ∧ (Vec4.opAssign a b).y = b.y ∧
      (b.z = b.w → Vec4.opAssign a b = b) ∧
      Vec4.opAssign a (Vec4.opAssign a b) = b := by
  refine ⟨rfl, rfl, rfl, fun h => ?_, rfl⟩
  ext
  · rfl
  · rfl
  · exact h.symm
  · exact h

/-- **C26.** Assigning points, by `operator=` or by `dimension::assign`, makes them equal. -/
theorem C26_point_assign (a b : Pt) : Pt.opAssign a b = b ∧ Pt.assign a b = b := ⟨rfl, rfl⟩

/-- **C26.** `dimension::equals` after assignment of points is true, and it is true only for equal
points. -/
theorem C26_point_equals (a b : Pt) : Pt.equals (Pt.opAssign a b) b ∧ (Pt.equals a b ↔ a = b) := by
  refine ⟨⟨rfl, rfl⟩, fun ⟨h1, h2⟩ => Pt.ext h2 h1, ?_⟩
  rintro rfl
  exact ⟨rfl, rfl⟩

/-- **C27.** A box contains exactly the points of the closed rectangle between its corners. -/
theorem C27_contains_closed (b : Box) (p : Pt) :
    b.contains p ↔ p.x ∈ Set.Icc b.tl.x b.br.x ∧ p.y ∈ Set.Icc b.tl.y b.br.y := by
  simp only [Box.contains, Set.mem_Icc, ge_iff_le]
  tauto

/-- **C27.** Moving box and point together does not change containment; a box contains both its
corners exactly when it is not inverted; an inverted box contains nothing. -/
theorem C27_contains_translate (b : Box) (p d : Pt) :
    (Box.contains ⟨b.tl + d, b.br + d⟩ (p + d) ↔ b.contains p) ∧
    ((b.contains b.tl ∧ b.contains b.br) ↔ (b.tl.x ≤ b.br.x ∧ b.tl.y ≤ b.br.y)) ∧
    ((b.br.x < b.tl.x ∨ b.br.y < b.tl.y) → ¬ b.contains p) := by
  refine ⟨?_, ?_, ?_⟩
  · simp [Box.contains]
  · simp only [Box.contains, ge_iff_le, le_refl, true_and, and_true]
    tauto
  · rintro h ⟨h1, h2, h3, h4⟩
    rcases h with h | h <;> linarith

/-- **C27.** Boxes are convex: a box that contains two points contains everything between them. -/
theorem C27_contains_convex (b : Box) (p q : Pt) (hp : b.contains p) (hq : b.contains q) (t : ℝ)
    (h0 : 0 ≤ t) (h1 : t ≤ 1) :
    b.contains ⟨(1 - t) * p.x + t * q.x, (1 - t) * p.y + t * q.y⟩ := by
  obtain ⟨a1, a2, a3, a4⟩ := hp
  obtain ⟨b1, b2, b3, b4⟩ := hq
  refine ⟨?_, ?_, ?_, ?_⟩ <;> simp only [ge_iff_le] at * <;> nlinarith

example : (⟨⟨0, 0⟩, ⟨10, 5⟩⟩ : Box).contains ⟨10, 0⟩ := by
  refine ⟨?_, ?_, ?_, ?_⟩ <;> norm_num

/-- **C27.** The axis point at unit location `(u, v)` of a box divides its width and height in these proportions, and is
in the box when the box is not inverted and `u`, `v` are between 0 and 1; the centre is the one at `(1/2, 1/2)`. -/
theorem C27_axis_point (b : Box) (u v : ℝ) :
    (rotationAxis b u v).x = b.tl.x + u * (b.br.x - b.tl.x) ∧ (rotationAxis b u v).y = b.tl.y + v * (b.br.y - b.tl.y) ∧
    (b.tl.x ≤ b.br.x → b.tl.y ≤ b.br.y → u ∈ Set.Icc 0 1 → v ∈ Set.Icc 0 1 → b.contains (rotationAxis b u v)) ∧
    (boxCenter b).x = (b.tl.x + b.br.x) / 2 ∧ (boxCenter b).y = (b.tl.y + b.br.y) / 2 := by
  have hx : (rotationAxis b u v).x = b.tl.x + u * (b.br.x - b.tl.x) := by
    simp [rotationAxis, rotationAxisOffset]
    try ring
  have hy : (rotationAxis b u v).y = b.tl.y + v * (b.br.y - b.tl.y) := by
    simp [rotationAxis, rotationAxisOffset]
    try ring
  refine ⟨hx, hy, ?_, ?_, ?_⟩
  · rintro h1 h2 ⟨u0, u1⟩ ⟨v0, v1⟩
    refine ⟨?_, ?_, ?_, ?_⟩ <;> simp only [hx, hy, ge_iff_le] <;> nlinarith
  · simp [boxCenter, boxCenterOffset]
    ring
  · simp [boxCenter, boxCenterOffset]
    ring

example : (⟨⟨0, 0⟩, ⟨10, 5⟩⟩ : Box).contains (rotationAxis ⟨⟨0, 0⟩, ⟨10, 5⟩⟩ (1 / 4) 1) :=
  (C27_axis_point _ _ _).2.2.1 (by norm_num) (by norm_num) (by constructor <;> norm_num) (by constructor <;> norm_num)

/-- The points stored in a flat array of coordinates: `x₀ y₀ x₁ y₁ ...`. -/
def pointsOf (array : ℕ → ℝ) (i : ℕ) : Pt := ⟨array (2 * i), array (2 * i + 1)⟩

/-- **C63.** The view on point `i` shows point `i`, also after conversion to a read-only view; an
in-place operation through it changes exactly point `i`, coordinate by coordinate, and no other
point. -/
theorem C63_view_exact (array : ℕ → ℝ) (i : ℕ) (f : ℕ → ℝ → ℝ) :
    (PointView.mk' i).point array = pointsOf array i ∧
    (PointView.mk' i).toConst.point array = pointsOf array i ∧
    ∀ k, pointsOf ((PointView.mk' i).update array f) k =
      if k = i then ⟨f 0 (pointsOf array i).x, f 1 (pointsOf array i).y⟩ else pointsOf array k := by
  refine ⟨?_, ?_, fun k => ?_⟩
  · simp [PointView.mk', PointView.point, PointView.get, pointsOf, mul_comm]
  · simp [PointView.mk', PointView.toConst, PointView.point, PointView.get, pointsOf, mul_comm]
  · by_cases h : k = i
    · subst h
      simp [pointsOf, PointView.update, PointView.set, PointView.get, PointView.mk', mul_comm]
    · rw [if_neg h]
      simp only [pointsOf, PointView.update, PointView.set, PointView.get, PointView.mk']
      rw [if_neg (by omega), if_neg (by omega), if_neg (by omega), if_neg (by omega)]

end Verif.Props
