import Verif.Lemmas.Approx

/-! Auxiliary facts: the matrices of a Glide with rounding. -/

namespace Verif

open XR (fin)

noncomputable section

namespace Machine

variable {M : Machine}

/-- `glm::rotate` about the first axis. -/
theorem rotate_x {a c' s' w k c s n : ℝ} (f0 : M.f (fin 0) = fin 0) (f1 : M.f (fin 1) = fin 1)
    (idem : ∀ x y, M.f (fin x) = fin y → M.f (fin y) = fin y) (hc' : M.cosf a = c') (hs' : M.sinf a = s')
    (hw : M.f (fin (1 - c')) = fin w) (hk : M.f (fin (c' + w)) = fin k) (hc : M.f (fin c') = fin c) (hs : M.f (fin s') = fin s)
    (hn : M.f (fin (0 - s)) = fin n) :
    M.rotate (fin a) ![fin 1, fin 0, fin 0] = ![![fin k, fin 0, fin 0, fin 0], ![fin 0, fin c, fin n, fin 0],
      ![fin 0, fin s, fin c, fin 0], ![fin 0, fin 0, fin 0, fin 1]] := by
  have i1 := idem _ _ hw
  have i2 := idem _ _ hk
  have i3 := idem _ _ hc
  have i4 := idem _ _ hs
  have i5 := idem _ _ hn
  rw [zero_sub] at hn
  funext i j
  fin_cases i <;> fin_cases j <;> simp [rotate, rotation, call, ident, add, sub, mul, *]

/-- `glm::rotate` about the second axis. -/
theorem rotate_y {a c' s' w k c s n : ℝ} (f0 : M.f (fin 0) = fin 0) (f1 : M.f (fin 1) = fin 1)
    (idem : ∀ x y, M.f (fin x) = fin y → M.f (fin y) = fin y) (hc' : M.cosf a = c') (hs' : M.sinf a = s')
    (hw : M.f (fin (1 - c')) = fin w) (hk : M.f (fin (c' + w)) = fin k) (hc : M.f (fin c') = fin c) (hs : M.f (fin s') = fin s)
    (hn : M.f (fin (0 - s)) = fin n) :
    M.rotate (fin a) ![fin 0, fin 1, fin 0] = ![![fin c, fin 0, fin s, fin 0], ![fin 0, fin k, fin 0, fin 0],
      ![fin n, fin 0, fin c, fin 0], ![fin 0, fin 0, fin 0, fin 1]] := by
  have i1 := idem _ _ hw
  have i2 := idem _ _ hk
  have i3 := idem _ _ hc
  have i4 := idem _ _ hs
  have i5 := idem _ _ hn
  rw [zero_sub] at hn
  funext i j
  fin_cases i <;> fin_cases j <;> simp [rotate, rotation, call, ident, add, sub, mul, *]

/-- Everything in front of the perspective matrix. -/
theorem glide_head {ax ay dz k1 c1 s1 n1 k2 c2 s2 n2 p00 p02 p10 p11 p12 p20 p21 p22 : ℝ}
    (f0 : M.f (fin 0) = fin 0) (f1 : M.f (fin 1) = fin 1) (idem : ∀ x y, M.f (fin x) = fin y → M.f (fin y) = fin y)
    (fax : M.f (fin ax) = fin ax) (fay : M.f (fin ay) = fin ay) (fdz : M.f (fin dz) = fin dz)
    (fk1 : M.f (fin k1) = fin k1) (fc1 : M.f (fin c1) = fin c1) (fs1 : M.f (fin s1) = fin s1) (fn1 : M.f (fin n1) = fin n1)
    (h00 : M.f (fin (k1 * c2)) = fin p00) (h02 : M.f (fin (k1 * s2)) = fin p02) (h10 : M.f (fin (n1 * n2)) = fin p10)
    (h11 : M.f (fin (c1 * k2)) = fin p11) (h12 : M.f (fin (n1 * c2)) = fin p12) (h20 : M.f (fin (c1 * n2)) = fin p20)
    (h21 : M.f (fin (s1 * k2)) = fin p21) (h22 : M.f (fin (c1 * c2)) = fin p22) :
    M.mmul (M.mmul (M.mmul (M.translate (fin ax) (fin ay) (fin 0)) (M.translate (fin 0) (fin 0) (fin dz)))
      ![![fin k1, fin 0, fin 0, fin 0], ![fin 0, fin c1, fin n1, fin 0], ![fin 0, fin s1, fin c1, fin 0],
        ![fin 0, fin 0, fin 0, fin 1]])
      ![![fin c2, fin 0, fin s2, fin 0], ![fin 0, fin k2, fin 0, fin 0], ![fin n2, fin 0, fin c2, fin 0],
        ![fin 0, fin 0, fin 0, fin 1]] =
      ![![fin p00, fin 0, fin p02, fin ax], ![fin p10, fin p11, fin p12, fin ay], ![fin p20, fin p21, fin p22, fin dz],
        ![fin 0, fin 0, fin 0, fin 1]] := by
  have e1 : M.mmul (M.translate (fin ax) (fin ay) (fin 0)) (M.translate (fin 0) (fin 0) (fin dz)) =
      ![![fin 1, fin 0, fin 0, fin ax], ![fin 0, fin 1, fin 0, fin ay], ![fin 0, fin 0, fin 1, fin dz],
        ![fin 0, fin 0, fin 0, fin 1]] := by
    funext i j
    fin_cases i <;> fin_cases j <;> simp [mmul, translate, ident, add, mul, *]
  have e2 : M.mmul ![![fin 1, fin 0, fin 0, fin ax], ![fin 0, fin 1, fin 0, fin ay], ![fin 0, fin 0, fin 1, fin dz],
        ![fin 0, fin 0, fin 0, fin 1]] ![![fin k1, fin 0, fin 0, fin 0], ![fin 0, fin c1, fin n1, fin 0],
        ![fin 0, fin s1, fin c1, fin 0], ![fin 0, fin 0, fin 0, fin 1]] =
      ![![fin k1, fin 0, fin 0, fin ax], ![fin 0, fin c1, fin n1, fin ay], ![fin 0, fin s1, fin c1, fin dz],
        ![fin 0, fin 0, fin 0, fin 1]] := by
    funext i j
    fin_cases i <;> fin_cases j <;> simp [mmul, add, mul, *]
  rw [e1, e2]
  have i1 := idem _ _ h00
  have i2 := idem _ _ h02
  have i3 := idem _ _ h10
  have i4 := idem _ _ h11
  have i5 := idem _ _ h12
  have i6 := idem _ _ h20
  have i7 := idem _ _ h21
  have i8 := idem _ _ h22
  funext i j
  fin_cases i <;> fin_cases j <;> simp [mmul, add, mul, *]

/-- The steps from one row `(p0, p1, p2, a)` of that matrix to a coordinate of the corner `(x, y)`. -/
structure GlideRow (M : Machine) (p0 p1 p2 a v nx ny x y : ℝ) (z : ℝ) where
  q : ℝ
  hq : M.f (fin (p2 * v)) = fin q
  t : ℝ
  ht : M.f (fin (q + a)) = fin t
  u0 : ℝ
  hu0 : M.f (fin (p0 * nx)) = fin u0
  u1 : ℝ
  hu1 : M.f (fin (p1 * ny)) = fin u1
  u : ℝ
  hu : M.f (fin (u0 + u1)) = fin u
  m : ℝ
  hm : M.f (fin (u + t)) = fin m
  g0 : ℝ
  hg0 : M.f (fin (p0 * x)) = fin g0
  g1 : ℝ
  hg1 : M.f (fin (p1 * y)) = fin g1
  g : ℝ
  hg : M.f (fin (g0 + g1)) = fin g
  hz : M.f (fin (g + m)) = fin z

/-- The perspective matrix and what follows. -/
theorem glide_tail {p : Pt} {ax ay dz v nx ny x y p00 p01 p02 p10 p11 p12 p20 p21 p22 zx zy zz : ℝ}
    (f0 : M.f (fin 0) = fin 0) (f1 : M.f (fin 1) = fin 1) (idem : ∀ x y, M.f (fin x) = fin y → M.f (fin y) = fin y)
    (fv : M.f (fin v) = fin v) (fnx : M.f (fin nx) = fin nx) (fny : M.f (fin ny) = fin ny)
    (hx : M.f (fin p.x) = fin x) (hy : M.f (fin p.y) = fin y)
    (f00 : M.f (fin p00) = fin p00) (f01 : M.f (fin p01) = fin p01) (f10 : M.f (fin p10) = fin p10)
    (f11 : M.f (fin p11) = fin p11) (f20 : M.f (fin p20) = fin p20) (f21 : M.f (fin p21) = fin p21)
    (fax : M.f (fin ax) = fin ax) (fay : M.f (fin ay) = fin ay) (fdz : M.f (fin dz) = fin dz)
    (rx : GlideRow M p00 p01 p02 ax v nx ny x y zx) (ry : GlideRow M p10 p11 p12 ay v nx ny x y zy)
    (rz : GlideRow M p20 p21 p22 dz v nx ny x y zz) :
    M.transformPoint p (M.mmul (M.mmul ![![fin p00, fin p01, fin p02, fin ax], ![fin p10, fin p11, fin p12, fin ay],
        ![fin p20, fin p21, fin p22, fin dz], ![fin 0, fin 0, fin 0, fin 1]]
        ![![fin 1, fin 0, fin 0, fin 0], ![fin 0, fin 1, fin 0, fin 0], ![fin 0, fin 0, fin 0, fin v], ![fin 0, fin 0, fin 0, fin 1]])
        (M.translate (fin nx) (fin ny) (fin 0))) = ⟨fin zx, fin zy, fin zz, fin 1⟩ := by
  have row : ∀ {p0 p1 p2 a z : ℝ} (r : GlideRow M p0 p1 p2 a v nx ny x y z),
      (M.f (fin r.q) = fin r.q ∧ M.f (fin r.t) = fin r.t ∧ M.f (fin r.u0) = fin r.u0 ∧ M.f (fin r.u1) = fin r.u1) ∧
      M.f (fin r.u) = fin r.u ∧ M.f (fin r.m) = fin r.m ∧ M.f (fin r.g) = fin r.g := fun r =>
    ⟨⟨idem _ _ r.hq, idem _ _ r.ht, idem _ _ r.hu0, idem _ _ r.hu1⟩, idem _ _ r.hu, idem _ _ r.hm, idem _ _ r.hg⟩
  have e1 : M.mmul ![![fin p00, fin p01, fin p02, fin ax], ![fin p10, fin p11, fin p12, fin ay],
        ![fin p20, fin p21, fin p22, fin dz], ![fin 0, fin 0, fin 0, fin 1]]
        ![![fin 1, fin 0, fin 0, fin 0], ![fin 0, fin 1, fin 0, fin 0], ![fin 0, fin 0, fin 0, fin v], ![fin 0, fin 0, fin 0, fin 1]] =
      ![![fin p00, fin p01, fin 0, fin rx.t], ![fin p10, fin p11, fin 0, fin ry.t], ![fin p20, fin p21, fin 0, fin rz.t],
        ![fin 0, fin 0, fin 0, fin 1]] := by
    obtain ⟨⟨i1, i2, -, -⟩, -⟩ := row rx
    obtain ⟨⟨j1, j2, -, -⟩, -⟩ := row ry
    obtain ⟨⟨k1, k2, -, -⟩, -⟩ := row rz
    have a1 := rx.hq
    have a2 := rx.ht
    have a3 := ry.hq
    have a4 := ry.ht
    have a5 := rz.hq
    have a6 := rz.ht
    funext i j
    fin_cases i <;> fin_cases j <;> simp [mmul, add, mul, *]
  have e2 : M.mmul ![![fin p00, fin p01, fin 0, fin rx.t], ![fin p10, fin p11, fin 0, fin ry.t],
        ![fin p20, fin p21, fin 0, fin rz.t], ![fin 0, fin 0, fin 0, fin 1]] (M.translate (fin nx) (fin ny) (fin 0)) =
      ![![fin p00, fin p01, fin 0, fin rx.m], ![fin p10, fin p11, fin 0, fin ry.m], ![fin p20, fin p21, fin 0, fin rz.m],
        ![fin 0, fin 0, fin 0, fin 1]] := by
    obtain ⟨⟨-, i2, i3, i4⟩, i5, -, -⟩ := row rx
    obtain ⟨⟨-, j2, j3, j4⟩, j5, -, -⟩ := row ry
    obtain ⟨⟨-, k2, k3, k4⟩, k5, -, -⟩ := row rz
    have a1 := rx.hu0
    have a2 := rx.hu1
    have a3 := rx.hu
    have a4 := rx.hm
    have b1 := ry.hu0
    have b2 := ry.hu1
    have b3 := ry.hu
    have b4 := ry.hm
    have c1 := rz.hu0
    have c2 := rz.hu1
    have c3 := rz.hu
    have c4 := rz.hm
    funext i j
    fin_cases i <;> fin_cases j <;> simp [mmul, translate, ident, add, mul, *]
  rw [e1, e2]
  obtain ⟨-, -, i5, i6⟩ := row rx
  obtain ⟨-, -, j5, j6⟩ := row ry
  obtain ⟨-, -, k5, k6⟩ := row rz
  simp only [transformPoint, add, mul, hx, hy, Matrix.cons_val, XR.fin_mul, XR.fin_add, mul_zero, mul_one, zero_mul, zero_add,
    f0, f1, rx.hg0, rx.hg1, rx.hg, rx.hz, ry.hg0, ry.hg1, ry.hg, ry.hz, rz.hg0, rz.hg1, rz.hg, rz.hz, i5, j5, k5]

end Machine

end

end Verif
