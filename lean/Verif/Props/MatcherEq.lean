import Verif.Props.Matchers

/-! # What `Eq` looks at (C144) -/

namespace Verif.Props

open Matchers

noncomputable section

variable {T U : Type}

theorem equalFrom_congr (N : NumType) (A : Traits.Access T) (B B' : Traits.Access U) (e : ℝ) {x x' : T} {y y' : U} :
    ∀ k d, (∀ j, j < d + k → A.get j x = A.get j x') → (∀ j, j < d + k → B.get j y = B'.get j y') →
      equalFrom N A B e x y d k = equalFrom N A B' e x' y' d k := by
  intro k
  induction k with
  | zero => intro d _ _; rfl
  | succ k ih =>
    intro d hx hy
    unfold equalFrom
    rw [hx d (by omega), hy d (by omega), ih (d + 1) (fun j hj => hx j (by omega)) (fun j hj => hy j (by omega))]

/-- C144: the verdict depends on nothing but the coordinates that the type under test has. -/
theorem C144_coordinates (N : NumType) (A : Traits.Access T) (B : Traits.Access U) (e : ℝ) {x x' : T} {y y' : U}
    (hx : ∀ j < A.dims, A.get j x = A.get j x') (hy : ∀ j < A.dims, B.get j y = B.get j y') :
    geometricallyEqual N A B e x y = geometricallyEqual N A B e x' y' :=
  equalFrom_congr N A B B e A.dims 0 (fun j hj => hx j (by omega)) (fun j hj => hy j (by omega))

/-- C144: so `Eq` accepts every value of a type that does not implement the `Dimension` trait. -/
theorem C144_unregistered (e : ℝ) (x y : T) : eq (unregistered T) e x y = .ok True := rfl

/-- C144: the ordinary comparison is made for a type whose data type is `void`. -/
theorem C144_void (A : Traits.Access T) (e : ℝ) (x y : T) : eq ⟨none, A⟩ e x y = .ok (x = y) := rfl

/-- C144: a point matches a four-vector if it matches the point of the first two coordinates. -/
theorem C144_point (N : NumType) (e : ℝ) (p : Pt) (v : Vec4) :
    geometricallyEqual N Traits.point Traits.vector4 e p v = geometricallyEqual N Traits.point Traits.point e p ⟨v.x, v.y⟩ := by
  rfl

/-- C144: a four-vector matches a point if it matches the four-vector with zeros in the other places. -/
theorem C144_vector4 (N : NumType) (e : ℝ) (v : Vec4) (p : Pt) :
    geometricallyEqual N Traits.vector4 Traits.point e v p =
      geometricallyEqual N Traits.vector4 Traits.vector4 e v ⟨p.x, p.y, 0, 0⟩ := by
  rfl

/-- C144: so a `double` or `float` four-vector that matches a point has last coordinates within `e` of zero, give or take the
smallest normal `float`. -/
theorem C144_zeros {N : NumType} (hN : Floating N) {e : ℝ} (v : Vec4) (p : Pt) :
    ∃ verdict, geometricallyEqual N Traits.vector4 Traits.point e v p = .ok verdict ∧
      (verdict → |v.z| < e + 2 ^ (-126 : ℤ) ∧ |v.w| < e + 2 ^ (-126 : ℤ)) := by
  obtain ⟨b, h, _, h2⟩ := C94_close Traits.vector4 Traits.vector4 hN (e := e) v ⟨p.x, p.y, 0, 0⟩
  refine ⟨b, (C144_vector4 N e v p).trans h, fun hb => ⟨?_, ?_⟩⟩
  · have h3 : |(0 : ℝ) - v.z| < e + 2 ^ (-126 : ℤ) := h2 hb 2 (by norm_num [Traits.vector4])
    rwa [zero_sub, abs_neg] at h3
  · have h3 : |(0 : ℝ) - v.w| < e + 2 ^ (-126 : ℤ) := h2 hb 3 (by norm_num [Traits.vector4])
    rwa [zero_sub, abs_neg] at h3

/-- C144 on numbers: five matches `Eq (6)`. -/
example : eq (unregistered ℕ) (10e-7) 5 6 = .ok True := C144_unregistered _ _ _

/-- C144_coordinates: four-vectors that differ in the last two coordinates only are the same to a point. -/
example : geometricallyEqual double Traits.point Traits.vector4 (10e-7) ⟨1, 2⟩ ⟨1, 2, 3, 4⟩ =
    geometricallyEqual double Traits.point Traits.vector4 (10e-7) ⟨1, 2⟩ ⟨1, 2, 30, 40⟩ := by
  refine C144_coordinates double Traits.point Traits.vector4 _ (fun _ _ => rfl) fun j hj => ?_
  rcases j with _ | _ | j
  · rfl
  · rfl
  · exact absurd hj (by simp [Traits.point])

/-- C144_point: so a point matches a four-vector whose last two coordinates are anything. -/
example (z w : ℝ) : geometricallyEqual double Traits.point Traits.vector4 (10e-7) ⟨1, 2⟩ ⟨1, 2, z, w⟩ = .ok True := by
  rw [C144_point]
  exact C94_self Traits.point (.inl rfl) (by norm_num [zpow_neg]) _

/-- C144_zeros: a four-vector with five in the last place matches no point. -/
example (p : Pt) : ∃ verdict, geometricallyEqual double Traits.vector4 Traits.point (10e-7) ⟨1, 2, 0, 5⟩ p = .ok verdict ∧
    ¬ verdict := by
  obtain ⟨b, h, h2⟩ := C144_zeros (N := double) (.inl rfl) (e := 10e-7) ⟨1, 2, 0, 5⟩ p
  refine ⟨b, h, fun hb => ?_⟩
  have h3 : |(5 : ℝ)| < 10e-7 + 2 ^ (-126 : ℤ) := (h2 hb).2
  norm_num [zpow_neg] at h3

/-- C144_vector4: but the other way round they have to be zero. -/
example : geometricallyEqual double Traits.vector4 Traits.point (10e-7) ⟨1, 2, 0, 5⟩ ⟨1, 2⟩ = .ok False := by
  rw [C144_vector4]
  obtain ⟨v, h, _, h2⟩ := C94_close Traits.vector4 Traits.vector4 (.inl rfl) (e := 10e-7) ⟨1, 2, 0, 5⟩ ⟨1, 2, 0, 0⟩
  rw [h]
  refine congrArg Outcome.ok (eq_false fun hv => ?_)
  have h3 : |(0 : ℝ) - 5| < 10e-7 + 2 ^ (-126 : ℤ) := h2 hv 3 (by norm_num [Traits.vector4])
  norm_num [zpow_neg] at h3

end

end Verif.Props
