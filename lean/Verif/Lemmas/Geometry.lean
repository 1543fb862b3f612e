import Verif.Model.Geometry
import Verif.Lemmas.XR

/-! Auxiliary facts about points and matrices. -/

namespace Verif

namespace Pt
@[simp] theorem add_x (p q : Pt) : (p + q).x = p.x + q.x := rfl
@[simp] theorem add_y (p q : Pt) : (p + q).y = p.y + q.y := rfl
@[simp] theorem sub_x (p q : Pt) : (p - q).x = p.x - q.x := rfl
@[simp] theorem sub_y (p q : Pt) : (p - q).y = p.y - q.y := rfl
@[simp] theorem neg_x (p : Pt) : (-p).x = -p.x := rfl
@[simp] theorem neg_y (p : Pt) : (-p).y = -p.y := rfl
@[simp] theorem zero_x : (0 : Pt).x = 0 := rfl
@[simp] theorem zero_y : (0 : Pt).y = 0 := rfl
@[simp] theorem scale_x (p : Pt) (f : ℝ) : (p.scale f).x = p.x * f := rfl
@[simp] theorem scale_y (p : Pt) (f : ℝ) : (p.scale f).y = p.y * f := rfl
@[simp] theorem pscale_x (p q : Pt) : (p.pscale q).x = p.x * q.x := rfl
@[simp] theorem pscale_y (p q : Pt) : (p.pscale q).y = p.y * q.y := rfl
end Pt

/-- The last row is `(0, 0, 0, 1)`. -/
def Affine (M : Mat4) : Prop := M 3 0 = 0 ∧ M 3 1 = 0 ∧ M 3 2 = 0 ∧ M 3 3 = 1

theorem Affine.mul {A B : Mat4} (hA : Affine A) (hB : Affine B) : Affine (A * B) := by
  obtain ⟨a0, a1, a2, a3⟩ := hA
  obtain ⟨b0, b1, b2, b3⟩ := hB
  refine ⟨?_, ?_, ?_, ?_⟩ <;> simp [Matrix.mul_apply, Fin.sum_univ_four, *]

theorem affine_translate (x y z : ℝ) : Affine (Mat4.translate x y z) := by
  simp [Affine, Mat4.translate]
theorem affine_scale (x y z : ℝ) : Affine (Mat4.scale x y z) := by
  simp [Affine, Mat4.scale]
theorem affine_rotateX (a : ℝ) : Affine (Mat4.rotateX a) := by
  simp [Affine, Mat4.rotateX]
theorem affine_rotateY (a : ℝ) : Affine (Mat4.rotateY a) := by
  simp [Affine, Mat4.rotateY]

theorem Affine.w {M : Mat4} (h : Affine M) (p : Pt) : (transformPoint p M).w = 1 := by
  obtain ⟨a0, a1, a2, a3⟩ := h
  simp [transformPoint, Matrix.mulVec, dotProduct, Fin.sum_univ_four, *]

end Verif
