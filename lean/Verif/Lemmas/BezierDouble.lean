import Verif.Model.BezierDouble
import Verif.Lemmas.WobblyMesh
import Verif.Lemmas.WobblyDouble
import Verif.Lemmas.LampRound

/-! Auxiliary facts: the rounding error of reading the wobbly mesh. -/

namespace Verif.Wobbly.Rounded

noncomputable section

/-- Without rounding this is the exact model. -/
theorem exact_deform (m : Mesh) (uv : Pt) : deformTexcoords id id m uv = Wobbly.deformTexcoords m uv := by
  unfold deformTexcoords Wobbly.deformTexcoords accumulate
  have h : ∀ t n, bezierCoeff id t n = Wobbly.bezierCoeff t n := by
    intro t n
    rcases n with _ | _ | _ | n <;> rfl
  simp only [h, id]

variable (R : Rounding64)

theorem error_one {x : ℝ} (h : |x| ≤ 1) : |R.rnd x - x| ≤ 1 / 2 ^ 54 := by
  have := R.error (k := 0) (by norm_num) (by simpa using h)
  norm_num at this ⊢
  exact this

theorem error_four {x : ℝ} (h : |x| ≤ 4) : |R.rnd x - x| ≤ 4 / 2 ^ 54 := by
  have := R.error (k := 2) (by norm_num) (by norm_num; exact h)
  norm_num at this ⊢
  exact this

/-- A rounded product of two approximations. -/
theorem product_error {a A b B e f p : ℝ} (h1 : |a - A| ≤ e) (h2 : |b - B| ≤ f) (hA : |A| ≤ p) (hb : |b| ≤ 1) :
    |a * b - A * B| ≤ e + p * f := by
  have e1 : a * b - A * B = (a - A) * b + A * (b - B) := by ring
  rw [e1]
  refine (abs_add_le _ _).trans ?_
  rw [abs_mul, abs_mul]
  have := abs_nonneg (a - A)
  have := abs_nonneg (b - B)
  have := abs_nonneg A
  have h3 : |a - A| * |b| ≤ e := by nlinarith [abs_nonneg b]
  have h4 : |A| * |b - B| ≤ p * f := mul_le_mul hA h2 (abs_nonneg _) ((abs_nonneg _).trans hA)
  linarith

theorem coeff_le_one {t : ℝ} (h0 : 0 ≤ t) (h1 : t ≤ 1) (n : ℕ) : Wobbly.bezierCoeff t n ≤ 1 := by
  have hs := coeff_sum t
  have c := fun k => coeff_nonneg h0 h1 k
  rcases n with _ | _ | _ | n
  · linarith [c 0, c 1, c 2, c 3]
  · linarith [c 0, c 1, c 2, c 3]
  · linarith [c 0, c 1, c 2, c 3]
  · have : Wobbly.bezierCoeff t (n + 1 + 1 + 1) = Wobbly.bezierCoeff t 3 := rfl
    linarith [c 0, c 1, c 2, c 3]

/-- The rounded coefficients. -/
theorem coeff_near {t : ℝ} (h0 : 0 ≤ t) (h1 : t ≤ 1) (n : ℕ) :
    |bezierCoeff R.rnd t n - Wobbly.bezierCoeff t n| ≤ 16 / 2 ^ 54 := by
  set o := R.rnd (1 - t) with ho
  have o0 : 0 ≤ o := R.nonneg (by linarith)
  have o1 : o ≤ 1 := R.le_one (by linarith)
  have oe : |o - (1 - t)| ≤ 1 / 2 ^ 54 := error_one R (by rw [abs_le]; constructor <;> linarith)
  set q := R.rnd (t * t) with hq
  have tt1 : t * t ≤ 1 := by nlinarith
  have q0 : 0 ≤ q := R.nonneg (by positivity)
  have q1 : q ≤ 1 := R.le_one tt1
  have qe : |q - t * t| ≤ 1 / 2 ^ 54 := error_one R (by rw [abs_of_nonneg (by positivity)]; exact tt1)
  set w := R.rnd (o * o) with hw
  have oo1 : o * o ≤ 1 := by nlinarith
  have w0 : 0 ≤ w := R.nonneg (by positivity)
  have w1 : w ≤ 1 := R.le_one oo1
  have ao : |o| ≤ 1 := by rw [abs_of_nonneg o0]; exact o1
  have a1 : |1 - t| ≤ 1 := by rw [abs_le]; constructor <;> linarith
  have we : |w - (1 - t) * (1 - t)| ≤ 3 / 2 ^ 54 := by
    have r1 := error_one R (x := o * o) (by rw [abs_of_nonneg (by positivity)]; exact oo1)
    have r2 := product_error oe oe a1 ao
    have := abs_sub_le w (o * o) ((1 - t) * (1 - t))
    rw [← hw] at r1
    linarith
  have aw : |w| ≤ 1 := by rw [abs_of_nonneg w0]; exact w1
  have at1 : |t| ≤ 1 := by rw [abs_of_nonneg h0]; exact h1
  have a2 : |(1 - t) * (1 - t)| ≤ 1 := by
    rw [abs_mul]
    nlinarith [abs_nonneg (1 - t)]
  rcases n with _ | _ | _ | n
  · change |R.rnd (w * o) - (1 - t) * (1 - t) * (1 - t)| ≤ _
    have r1 := error_one R (x := w * o) (by rw [abs_mul]; nlinarith [abs_nonneg o, abs_nonneg w])
    have r2 := product_error we oe a2 ao
    have := abs_sub_le (R.rnd (w * o)) (w * o) ((1 - t) * (1 - t) * (1 - t))
    linarith
  · change |R.rnd (R.rnd (3 * t) * w) - 3 * t * ((1 - t) * (1 - t))| ≤ _
    set z := R.rnd (3 * t) with hz
    have ze : |z - 3 * t| ≤ 4 / 2 ^ 54 := error_four R (by rw [abs_of_nonneg (by positivity)]; linarith)
    have a3 : |3 * t| ≤ 3 := by rw [abs_of_nonneg (by positivity)]; linarith
    have r2 := product_error ze we a3 aw
    have hc : |3 * t * ((1 - t) * (1 - t))| ≤ 1 / 2 := by
      rw [abs_of_nonneg (by have : 0 ≤ 1 - t := by linarith
                            positivity)]
      nlinarith [sq_nonneg (3 * t - 1), mul_nonneg h0 (sq_nonneg (t - 1 / 3)), sq_nonneg (t - 1)]
    have hx : |z * w| ≤ 1 := by
      have := abs_sub_abs_le_abs_sub (z * w) (3 * t * ((1 - t) * (1 - t)))
      norm_num at *
      linarith
    have r1 := error_one R hx
    have := abs_sub_le (R.rnd (z * w)) (z * w) (3 * t * ((1 - t) * (1 - t)))
    linarith
  · change |R.rnd (R.rnd (3 * q) * o) - 3 * (t * t) * (1 - t)| ≤ _
    set z := R.rnd (3 * q) with hz
    have ze : |z - 3 * (t * t)| ≤ 7 / 2 ^ 54 := by
      have r1 := error_four R (x := 3 * q) (by rw [abs_of_nonneg (by positivity)]; linarith)
      have r2 : |3 * q - 3 * (t * t)| ≤ 3 * (1 / 2 ^ 54) := by
        rw [← mul_sub, abs_mul, abs_of_pos (by norm_num : (0 : ℝ) < 3)]
        linarith
      have := abs_sub_le z (3 * q) (3 * (t * t))
      rw [← hz] at r1
      linarith
    have a3 : |3 * (t * t)| ≤ 3 := by rw [abs_of_nonneg (by positivity)]; linarith
    have r2 := product_error ze oe a3 ao
    have hc : |3 * (t * t) * (1 - t)| ≤ 1 / 2 := by
      rw [abs_of_nonneg (by have : 0 ≤ 1 - t := by linarith
                            positivity)]
      nlinarith [sq_nonneg (3 * t - 2), mul_nonneg h0 (sq_nonneg (t - 2 / 3)), mul_nonneg h0 (sub_nonneg.2 h1)]
    have hx : |z * o| ≤ 1 := by
      have := abs_sub_abs_le_abs_sub (z * o) (3 * (t * t) * (1 - t))
      norm_num at *
      linarith
    have r1 := error_one R hx
    have := abs_sub_le (R.rnd (z * o)) (z * o) (3 * (t * t) * (1 - t))
    linarith
  · change |R.rnd (q * t) - t * t * t| ≤ _
    have r1 := error_one R (x := q * t) (by rw [abs_of_nonneg (by positivity)]; nlinarith)
    have hq2 : |t * t| ≤ 1 := by rw [abs_of_nonneg (by positivity)]; exact tt1
    have r2 := product_error qe (show |t - t| ≤ 0 by simp) hq2 at1
    have := abs_sub_le (R.rnd (q * t)) (q * t) (t * t * t)
    linarith

variable (L : Extended)

/-- One round of the loop. -/
theorem accumulate_near {x X a A b C m B E : ℝ} (hB : 1 ≤ B) (hE : E ≤ B) (hx : |x - X| ≤ E)
    (ha : |a - A| ≤ 16 / 2 ^ 54) (hb : |b - C| ≤ 16 / 2 ^ 54) (hA : |A| ≤ 1) (hC : |C| ≤ 1) (hm : |m| ≤ B)
    (hS : |X + A * C * m| ≤ B) : |accumulate R.rnd L.rnd x a b m - (X + A * C * m)| ≤ E + 80 / 2 ^ 54 * B := by
  have tiny : (1 : ℝ) / 2 ^ 200 ≤ 1 / 2 ^ 54 := by norm_num
  have hB0 : 0 ≤ B := by linarith
  have hAC : |A * C| ≤ 1 := by
    rw [abs_mul]
    nlinarith [abs_nonneg A, abs_nonneg C]
  have p0 : |a * b - A * C| ≤ 34 / 2 ^ 54 := by
    have e1 : a * b - A * C = (a - A) * C + A * (b - C) + (a - A) * (b - C) := by ring
    rw [e1]
    refine (abs_add_le _ _).trans ((add_le_add_left (abs_add_le _ _) _).trans ?_)
    rw [abs_mul, abs_mul, abs_mul]
    have h1 : |a - A| * |C| ≤ 16 / 2 ^ 54 * 1 := mul_le_mul ha hC (abs_nonneg _) (by positivity)
    have h2 : |A| * |b - C| ≤ 1 * (16 / 2 ^ 54) := mul_le_mul hA hb (abs_nonneg _) (by positivity)
    have h3 : |a - A| * |b - C| ≤ 16 / 2 ^ 54 * (16 / 2 ^ 54) := mul_le_mul ha hb (abs_nonneg _) (by positivity)
    norm_num at *
    linarith
  have p0' : |a * b| ≤ 2 := by
    have := abs_sub_abs_le_abs_sub (a * b) (A * C)
    norm_num at *
    linarith
  set p := L.rnd (a * b) with hp
  have p1 : |p - A * C| ≤ 40 / 2 ^ 54 := by
    have h1 := L.error (a * b)
    have h2 := abs_sub_le p (a * b) (A * C)
    rw [← hp] at h1
    norm_num at *
    linarith
  have p2 : |p * m - A * C * m| ≤ 40 / 2 ^ 54 * B := by
    rw [← sub_mul, abs_mul]
    exact mul_le_mul p1 hm (abs_nonneg _) (by positivity)
  have p2' : |p * m| ≤ 2 * B := by
    have h1 := abs_sub_abs_le_abs_sub (p * m) (A * C * m)
    have h2 : |A * C * m| ≤ 1 * B := by
      rw [abs_mul]
      exact mul_le_mul hAC hm (abs_nonneg _) (by positivity)
    norm_num at *
    linarith
  set q := L.rnd (p * m) with hq
  have q1 : |q - A * C * m| ≤ 46 / 2 ^ 54 * B := by
    have h1 := L.error (p * m)
    have h2 := abs_sub_le q (p * m) (A * C * m)
    rw [← hq] at h1
    norm_num at *
    linarith
  have s0 : |x + q - (X + A * C * m)| ≤ E + 46 / 2 ^ 54 * B := by
    rw [show x + q - (X + A * C * m) = (x - X) + (q - A * C * m) by ring]
    exact (abs_add_le _ _).trans (by linarith)
  have s0' : |x + q| ≤ 3 * B := by
    have h1 := abs_sub_abs_le_abs_sub (x + q) (X + A * C * m)
    norm_num at *
    linarith
  unfold accumulate
  rw [← hp, ← hq]
  set z := L.rnd (x + q) with hz
  have z1 : |z - (x + q)| ≤ 7 / 2 ^ 54 * B := by
    have h1 := L.error (x + q)
    rw [← hz] at h1
    norm_num at *
    linarith
  have z1' : |z| ≤ 4 * B := by
    have h1 := abs_sub_abs_le_abs_sub z (x + q)
    norm_num at *
    linarith
  have y1 : |R.rnd z - z| ≤ 9 / 2 ^ 54 * B := by
    have h1 := R.error_rel z
    norm_num at *
    linarith
  have t1 := abs_sub_le (R.rnd z) z (X + A * C * m)
  have t2 := abs_sub_le z (x + q) (X + A * C * m)
  linarith

/-- The loop. -/
theorem loop_near {cu cv CU CV m : Idx → ℝ} {B : ℝ} (hB : 1 ≤ B) (hu : ∀ i, |cu i - CU i| ≤ 16 / 2 ^ 54)
    (hv : ∀ i, |cv i - CV i| ≤ 16 / 2 ^ 54) (hU : ∀ i, 0 ≤ CU i ∧ CU i ≤ 1) (hV : ∀ i, 0 ≤ CV i ∧ CV i ≤ 1)
    (hm : ∀ i, |m i| ≤ B) (l : List Idx) :
    ∀ {x X W E : ℝ}, |x - X| ≤ E → |X| ≤ W * B → 0 ≤ W → W + (l.map fun i => CU i * CV i).sum ≤ 1 →
      E + l.length * (80 / 2 ^ 54 * B) ≤ B →
      |l.foldl (fun acc i => accumulate R.rnd L.rnd acc (cu i) (cv i) (m i)) x - (X + (l.map fun i => CU i * CV i * m i).sum)| ≤
        E + l.length * (80 / 2 ^ 54 * B) := by
  induction l with
  | nil =>
    intro x X W E h _ _ _ _
    simpa using h
  | cons i l ih =>
    intro x X W E h1 h2 h3 h4 h5
    simp only [List.map_cons, List.sum_cons, List.length_cons, List.foldl_cons] at h4 h5 ⊢
    have w0 : 0 ≤ CU i * CV i := mul_nonneg (hU i).1 (hV i).1
    have hs : 0 ≤ (l.map fun i => CU i * CV i).sum := by
      refine List.sum_nonneg fun y hy => ?_
      obtain ⟨k, -, rfl⟩ := List.mem_map.1 hy
      exact mul_nonneg (hU k).1 (hV k).1
    have hB0 : 0 ≤ B := by linarith
    have hl : 0 ≤ (l.length : ℝ) * (80 / 2 ^ 54 * B) := by positivity
    have hterm : |CU i * CV i * m i| ≤ CU i * CV i * B := by
      rw [abs_mul, abs_of_nonneg w0]
      exact mul_le_mul_of_nonneg_left (hm i) w0
    have hX : |X + CU i * CV i * m i| ≤ (W + CU i * CV i) * B := by
      refine (abs_add_le _ _).trans ?_
      linarith
    have hE : E ≤ B := by
      push_cast at h5
      have : 0 ≤ 80 / 2 ^ 54 * B := by positivity
      linarith
    have key := accumulate_near R L hB hE h1 (hu i) (hv i) (by rw [abs_of_nonneg (hU i).1]; exact (hU i).2)
      (by rw [abs_of_nonneg (hV i).1]; exact (hV i).2) (hm i) (hX.trans (by nlinarith))
    have := ih key hX (by linarith) (by linarith) (by push_cast at h5; linarith)
    rw [add_assoc] at this
    refine this.trans ?_
    push_cast
    linarith

theorem loop_split (f g : ℝ → Idx → ℝ) (l : List Idx) : ∀ a : Pt,
    l.foldl (fun (acc : Pt) i => (⟨f acc.x i, g acc.y i⟩ : Pt)) a = ⟨l.foldl f a.x, l.foldl g a.y⟩ := by
  induction l with
  | nil => intro a; rfl
  | cons i l ih => intro a; simp only [List.foldl_cons]; rw [ih]

theorem loop_weights {uv : Pt} {g : Idx → ℝ} {B : ℝ} (hB : 1 ≤ B) (hg : ∀ i, |g i| ≤ B)
    (u0 : 0 ≤ uv.x) (u1 : uv.x ≤ 1) (v0 : 0 ≤ uv.y) (v1 : uv.y ≤ 1) (l : List Idx) (hl : l.length = 16)
    (hw : (l.map (weight uv)).sum = 1) :
    |l.foldl (fun acc i => accumulate R.rnd L.rnd acc (bezierCoeff R.rnd uv.x (row i))
        (bezierCoeff R.rnd uv.y (col i)) (g i)) 0 - (l.map fun i => weight uv i * g i).sum| ≤ B / 2 ^ 43 := by
  have key := loop_near R L (cu := fun i => bezierCoeff R.rnd uv.x (row i)) (cv := fun i => bezierCoeff R.rnd uv.y (col i))
    (CU := fun i => Wobbly.bezierCoeff uv.x (row i)) (CV := fun i => Wobbly.bezierCoeff uv.y (col i)) (m := g) hB
    (fun i => coeff_near R u0 u1 (row i)) (fun i => coeff_near R v0 v1 (col i))
    (fun i => ⟨coeff_nonneg u0 u1 _, coeff_le_one u0 u1 _⟩) (fun i => ⟨coeff_nonneg v0 v1 _, coeff_le_one v0 v1 _⟩) hg
    l (x := 0) (X := 0) (W := 0) (E := 0) (by simp) (by simp) le_rfl (by
      rw [zero_add]
      exact hw.le)
      (by rw [hl]; norm_num; linarith)
  rw [hl, zero_add, zero_add] at key
  refine key.trans ?_
  norm_num
  linarith

/-- The whole of `DeformTexcoords`. -/
theorem deform_near {m : Mesh} {uv : Pt} {B : ℝ} (hB : 1 ≤ B) (hx : ∀ i, |(m i).x| ≤ B) (hy : ∀ i, |(m i).y| ≤ B)
    (u0 : 0 ≤ uv.x) (u1 : uv.x ≤ 1) (v0 : 0 ≤ uv.y) (v1 : uv.y ≤ 1) :
    |(deformTexcoords R.rnd L.rnd m uv).x - (Wobbly.deformTexcoords m uv).x| ≤ B / 2 ^ 43 ∧
    |(deformTexcoords R.rnd L.rnd m uv).y - (Wobbly.deformTexcoords m uv).y| ≤ B / 2 ^ 43 := by
  have hw : ((List.finRange 16).map (weight uv)).sum = 1 := by
    rw [← Fin.sum_univ_def]
    exact weight_sum uv
  have h1 := loop_weights R L hB hx u0 u1 v0 v1 (List.finRange 16) (List.length_finRange) hw
  have h2 := loop_weights R L hB hy u0 u1 v0 v1 (List.finRange 16) (List.length_finRange) hw
  rw [← Fin.sum_univ_def] at h1 h2
  rw [deform_eq]
  unfold deformTexcoords
  have sp := loop_split (fun acc i => accumulate R.rnd L.rnd acc (bezierCoeff R.rnd uv.x (row i)) (bezierCoeff R.rnd uv.y (col i)) (m i).x)
    (fun acc i => accumulate R.rnd L.rnd acc (bezierCoeff R.rnd uv.x (row i)) (bezierCoeff R.rnd uv.y (col i)) (m i).y)
    (List.finRange 16) ⟨0, 0⟩
  simp only [] at sp
  rw [sp]
  exact ⟨h1, h2⟩

end

end Verif.Wobbly.Rounded
