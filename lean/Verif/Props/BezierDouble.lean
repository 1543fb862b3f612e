import Mathlib.Tactic.IntervalCases
import Verif.Spec.Patch
import Verif.Spec.Wobbly
import Verif.Lemmas.BezierDouble
import Verif.Props.WobblyMesh
import Verif.Props.WobblyDouble

/-! # Reading the wobbly mesh in double precision (C55, C106) -/

namespace Verif.Props

open Wobbly Wobbly.Rounded Spec Outcome

noncomputable section

theorem coeff_bernstein (t : ℝ) {n : ℕ} (h : n < 4) : Wobbly.bezierCoeff t n = bernstein n t := by
  unfold bernstein
  have c2 : Nat.choose 3 2 = 3 := rfl
  have c1 : Nat.choose 3 1 = 3 := rfl
  interval_cases n
  · change (1 - t) * (1 - t) * (1 - t) = _
    rw [Nat.choose_zero_right]
    push_cast
    ring
  · change 3 * t * ((1 - t) * (1 - t)) = _
    rw [c1]
    push_cast
    ring
  · change 3 * (t * t) * (1 - t) = _
    rw [c2]
    push_cast
    ring
  · change t * t * t = _
    rw [Nat.choose_self]
    push_cast
    ring

/-- **C55.** `DeformTexcoords` is the bicubic Bézier surface whose control points are the points of the mesh. -/
theorem C55_surface (m : Mesh) (uv : Pt) : Wobbly.deformTexcoords m uv =
    ⟨patch (fun k => (m k).x) uv.x uv.y, patch (fun k => (m k).y) uv.x uv.y⟩ := by
  rw [deform_eq]
  unfold patch
  have h : ∀ i : Idx, weight uv i = bernstein (i.val / 4) uv.x * bernstein (i.val % 4) uv.y := by
    intro i
    unfold weight
    rw [coeff_bernstein _ (by unfold row; omega), coeff_bernstein _ (by unfold col; omega)]
    rfl
  simp only [h]

example : (Wobbly.deformTexcoords (fun k => if k = 5 then ⟨64, 0⟩ else 0) ⟨1 / 2, 1 / 2⟩).x = 9 := by
  rw [C55_surface]
  simp only [patch, sum_mesh]
  norm_num [bernstein, Fin.ext_iff]

variable (R : Rounding64) (L : Extended)

/-- **C106.** In doubles, for unit coordinates in `[0, 1]`, `DeformTexcoords` is at most `B / 2^43` from the Bézier surface
in each coordinate, `B` being a bound on the coordinates of the mesh. -/
theorem C106_near_surface {m : Mesh} {uv : Pt} {B : ℝ} (hB : 1 ≤ B) (hm : ∀ k, |(m k).x| ≤ B ∧ |(m k).y| ≤ B)
    (hu : 0 ≤ uv.x ∧ uv.x ≤ 1) (hv : 0 ≤ uv.y ∧ uv.y ≤ 1) :
    |(deformTexcoords R.rnd L.rnd m uv).x - patch (fun k => (m k).x) uv.x uv.y| ≤ B / 2 ^ 43 ∧
    |(deformTexcoords R.rnd L.rnd m uv).y - patch (fun k => (m k).y) uv.x uv.y| ≤ B / 2 ^ 43 := by
  have h := deform_near R L hB (fun k => (hm k).1) (fun k => (hm k).2) hu.1 hu.2 hv.1 hv.2
  rw [C55_surface] at h
  exact h

theorem coeff_zero {n : ℕ} (h : n < 4) : bezierCoeff R.rnd 0 n = if n = 0 then 1 else 0 := by
  have d0 : R.rnd 0 = 0 := rnd_zero R
  have d1 : R.rnd 1 = 1 := R.exact ⟨1, 0, by norm_num, by norm_num, by norm_num⟩
  interval_cases n <;> simp [Rounded.bezierCoeff, d0, d1]

theorem coeff_one {n : ℕ} (h : n < 4) : bezierCoeff R.rnd 1 n = if n = 3 then 1 else 0 := by
  have d0 : R.rnd 0 = 0 := rnd_zero R
  have d1 : R.rnd 1 = 1 := R.exact ⟨1, 0, by norm_num, by norm_num, by norm_num⟩
  interval_cases n <;> simp [Rounded.bezierCoeff, d0, d1]

theorem accumulate_skip {x c m : ℝ} (hx : Double x) (hc : c = 0) : R.rnd (L.rnd (x + L.rnd (L.rnd c * m))) = x := by
  have l0 : L.rnd 0 = 0 := L.exact 0 ⟨0, 0, by norm_num, by norm_num, by norm_num⟩
  rw [hc, l0, zero_mul, l0, add_zero, L.exact x hx, R.exact hx]

theorem accumulate_take {c m : ℝ} (hm : Double m) (hc : c = 1) : R.rnd (L.rnd (0 + L.rnd (L.rnd c * m))) = m := by
  have l1 : L.rnd 1 = 1 := L.exact 1 ⟨1, 0, by norm_num, by norm_num, by norm_num⟩
  rw [hc, l1, one_mul, L.exact m hm, zero_add, L.exact m hm, R.exact hm]

/-- A loop that takes one point and skips the others. -/
theorem loop_pick (c : Idx → ℝ) (g : Idx → ℝ) (hg : ∀ i, Double (g i)) (k : Idx) (hc : ∀ i, c i = if i = k then 1 else 0)
    (l : List Idx) (hn : l.Nodup) : ∀ x, (x = 0 ∨ k ∉ l ∧ x = g k) →
    l.foldl (fun acc i => R.rnd (L.rnd (acc + L.rnd (L.rnd (c i) * g i)))) x = if k ∈ l then g k else x := by
  induction l with
  | nil => intro x _; simp
  | cons i l ih =>
    intro x hx
    rw [List.nodup_cons] at hn
    rw [List.foldl_cons]
    by_cases h : i = k
    · subst h
      obtain rfl | ⟨h', -⟩ := hx
      · rw [accumulate_take R L (hg i) (by rw [hc, if_pos rfl]), ih hn.2 _ (Or.inr ⟨hn.1, rfl⟩), if_neg hn.1]
        simp
      · exact absurd (List.mem_cons_self) h'
    · have hd : Double x := by
        obtain rfl | ⟨-, rfl⟩ := hx
        · exact ⟨0, 0, by norm_num, by norm_num, by norm_num⟩
        · exact hg k
      rw [accumulate_skip R L hd (by rw [hc, if_neg h])]
      rw [ih hn.2 x (hx.imp id fun h' => ⟨fun hk => h'.1 (List.mem_cons_of_mem _ hk), h'.2⟩)]
      simp [Ne.symm h]

theorem deform_pick {m : Mesh} (hm : ∀ k, Double (m k).x ∧ Double (m k).y) (uv : Pt) (k : Idx)
    (hc : ∀ i, bezierCoeff R.rnd uv.x (row i) * bezierCoeff R.rnd uv.y (col i) = if i = k then 1 else 0) :
    deformTexcoords R.rnd L.rnd m uv = m k := by
  have sp := loop_split
    (fun acc i => accumulate R.rnd L.rnd acc (bezierCoeff R.rnd uv.x (row i)) (bezierCoeff R.rnd uv.y (col i)) (m i).x)
    (fun acc i => accumulate R.rnd L.rnd acc (bezierCoeff R.rnd uv.x (row i)) (bezierCoeff R.rnd uv.y (col i)) (m i).y)
    (List.finRange 16) ⟨0, 0⟩
  simp only [] at sp
  unfold Rounded.deformTexcoords
  rw [sp]
  have h1 := loop_pick R L _ (fun i => (m i).x) (fun i => (hm i).1) k hc (List.finRange 16) (List.nodup_finRange 16) 0 (Or.inl rfl)
  have h2 := loop_pick R L _ (fun i => (m i).y) (fun i => (hm i).2) k hc (List.finRange 16) (List.nodup_finRange 16) 0 (Or.inl rfl)
  rw [if_pos (List.mem_finRange k)] at h1 h2
  unfold accumulate
  rw [h1, h2]

/-- **C106.** The four unit corners are exact: they give the corner points of the mesh, as they are stored. -/
theorem C106_corners {m : Mesh} (hm : ∀ k, Double (m k).x ∧ Double (m k).y) :
    deformTexcoords R.rnd L.rnd m ⟨0, 0⟩ = m 0 ∧ deformTexcoords R.rnd L.rnd m ⟨0, 1⟩ = m 3 ∧
    deformTexcoords R.rnd L.rnd m ⟨1, 0⟩ = m 12 ∧ deformTexcoords R.rnd L.rnd m ⟨1, 1⟩ = m 15 := by
  have hr : ∀ i : Idx, row i < 4 := fun i => by unfold row; omega
  have hc : ∀ i : Idx, col i < 4 := fun i => by unfold col; omega
  refine ⟨deform_pick R L hm _ 0 fun i => ?_, deform_pick R L hm _ 3 fun i => ?_, deform_pick R L hm _ 12 fun i => ?_,
    deform_pick R L hm _ 15 fun i => ?_⟩ <;>
    simp only [coeff_zero R (hr i), coeff_one R (hr i), coeff_zero R (hc i), coeff_one R (hc i)] <;>
    fin_cases i <;> simp [row, col]

/-- **C106.** The point read lies in the box spanned by the mesh, up to that error. -/
theorem C106_in_box {m : Mesh} {uv : Pt} {B l r t b : ℝ} (hB : 1 ≤ B) (hm : ∀ k, |(m k).x| ≤ B ∧ |(m k).y| ≤ B)
    (hu : 0 ≤ uv.x ∧ uv.x ≤ 1) (hv : 0 ≤ uv.y ∧ uv.y ≤ 1)
    (hbox : ∀ k, l ≤ (m k).x ∧ (m k).x ≤ r ∧ t ≤ (m k).y ∧ (m k).y ≤ b) :
    let q := deformTexcoords R.rnd L.rnd m uv
    l - B / 2 ^ 43 ≤ q.x ∧ q.x ≤ r + B / 2 ^ 43 ∧ t - B / 2 ^ 43 ≤ q.y ∧ q.y ≤ b + B / 2 ^ 43 := by
  intro q
  obtain ⟨h1, h2⟩ := deform_near R L hB (fun k => (hm k).1) (fun k => (hm k).2) hu.1 hu.2 hv.1 hv.2
  obtain ⟨w, w0, w1, ex, ey⟩ := C56_in_hull m uv hu hv
  have low : ∀ (a : ℝ) (g : Idx → ℝ), (∀ i, a ≤ g i) → a ≤ ∑ i, w i * g i := by
    intro a g hg
    calc a = ∑ i, w i * a := by rw [← Finset.sum_mul, w1, one_mul]
      _ ≤ _ := Finset.sum_le_sum fun i _ => mul_le_mul_of_nonneg_left (hg i) (w0 i)
  have high : ∀ (a : ℝ) (g : Idx → ℝ), (∀ i, g i ≤ a) → ∑ i, w i * g i ≤ a := by
    intro a g hg
    calc ∑ i, w i * g i ≤ ∑ i, w i * a := Finset.sum_le_sum fun i _ => mul_le_mul_of_nonneg_left (hg i) (w0 i)
      _ = a := by rw [← Finset.sum_mul, w1, one_mul]
  rw [abs_le, ex] at h1
  rw [abs_le, ey] at h2
  have a1 := low l _ fun k => (hbox k).1
  have a2 := high r _ fun k => (hbox k).2.1
  have a3 := low t _ fun k => (hbox k).2.2.1
  have a4 := high b _ fun k => (hbox k).2.2.2
  refine ⟨?_, ?_, ?_, ?_⟩ <;> linarith

/-- A mesh that is close to a regular one on a screen is drawn as close to its rectangle, up to rounding. -/
theorem near_rectangle {m : Mesh} {o : Spot} {t : ℝ} (ho : o.OnScreen) (ht : t ≤ 262144)
    (hc : ∀ k : Idx, |(m k).x - (o.place.x + (k.val % 4 : ℕ) * (o.width / 3))| ≤ t ∧
      |(m k).y - (o.place.y + (k.val / 4 : ℕ) * (o.height / 3))| ≤ t) :
    (∀ k, |(m k).x| ≤ 524288 ∧ |(m k).y| ≤ 524288) ∧
    ∀ uv : Pt, 0 ≤ uv.x ∧ uv.x ≤ 1 → 0 ≤ uv.y ∧ uv.y ≤ 1 →
      |(deformTexcoords R.rnd L.rnd m uv).x - (o.place.x + uv.y * o.width)| ≤ 1 / 262144 + t ∧
      |(deformTexcoords R.rnd L.rnd m uv).y - (o.place.y + uv.x * o.height)| ≤ 1 / 262144 + t := by
  have bound : ∀ {y a k c t : ℝ}, |y - (a + k * (c / 3))| ≤ t → t ≤ 262144 → |a| ≤ 32768 → 0 ≤ k → k ≤ 3 → 0 ≤ c →
      c ≤ 32768 → |y| ≤ 524288 := by
    intro y a k c t h1 h2 h3 h4 h5 h6 h7
    rw [abs_le] at h1 h3 ⊢
    have k1 : 0 ≤ k * (c / 3) := by positivity
    have k2 : k * (c / 3) ≤ 3 * (c / 3) := mul_le_mul_of_nonneg_right h5 (by positivity)
    constructor <;> linarith
  have hk : ∀ k : Idx, ((k.val % 4 : ℕ) : ℝ) ≤ 3 ∧ ((k.val / 4 : ℕ) : ℝ) ≤ 3 := fun k =>
    ⟨by exact_mod_cast (by omega : k.val % 4 ≤ 3), by exact_mod_cast (by omega : k.val / 4 ≤ 3)⟩
  have hm : ∀ k, |(m k).x| ≤ 524288 ∧ |(m k).y| ≤ 524288 := fun k =>
    ⟨bound (hc k).1 ht ho.placeX (by positivity) (hk k).1 (by linarith [ho.widthMin]) ho.widthMax,
     bound (hc k).2 ht ho.placeY (by positivity) (hk k).2 (by linarith [ho.heightMin]) ho.heightMax⟩
  refine ⟨hm, fun uv hu hv => ?_⟩
  obtain ⟨h1, h2⟩ := deform_near R L (by norm_num) (fun k => (hm k).1) (fun k => (hm k).2) hu.1 hu.2 hv.1 hv.2
  have hl := C55_linear_precision _ o.place (o.width / 3) (o.height / 3)
    ((isMeshLattice_iff (positionArray o.place ⟨o.width / 3, o.height / 3⟩) _ _ _).2 rfl) uv
  have wn : ∀ i, 0 ≤ weight uv i := fun i => mul_nonneg (coeff_nonneg hu.1 hu.2 _) (coeff_nonneg hv.1 hv.2 _)
  have near : ∀ (f g : Idx → ℝ) (t : ℝ), (∀ i, |f i - g i| ≤ t) →
      |∑ i, weight uv i * f i - ∑ i, weight uv i * g i| ≤ t := by
    intro f g t hfg
    rw [← Finset.sum_sub_distrib]
    calc |∑ i, (weight uv i * f i - weight uv i * g i)| ≤ ∑ i, |weight uv i * f i - weight uv i * g i| :=
          Finset.abs_sum_le_sum_abs _ _
      _ ≤ ∑ i, weight uv i * t := Finset.sum_le_sum fun i _ => by
          rw [← mul_sub, abs_mul, abs_of_nonneg (wn i)]
          exact mul_le_mul_of_nonneg_left (hfg i) (wn i)
      _ = t := by rw [← Finset.sum_mul, weight_sum, one_mul]
  rw [deform_eq] at hl h1 h2
  rw [Pt.ext_iff] at hl
  have n1 := near _ (fun i => (positionArray o.place ⟨o.width / 3, o.height / 3⟩ i).x) _ fun i => (hc i).1
  have n2 := near _ (fun i => (positionArray o.place ⟨o.width / 3, o.height / 3⟩ i).y) _ fun i => (hc i).2
  have e1 := hl.1
  have e2 := hl.2
  simp only [] at e1 e2 h1 h2
  rw [e1] at n1
  rw [e2] at n2
  rw [show 3 * (o.width / 3) = o.width by ring] at n1
  rw [show 3 * (o.height / 3) = o.height by ring] at n2
  have small : (524288 : ℝ) / 2 ^ 43 ≤ 1 / 262144 := by norm_num
  exact ⟨(abs_sub_le _ _ _).trans (add_le_add (h1.trans small) n1), (abs_sub_le _ _ _).trans (add_le_add (h2.trans small) n2)⟩

/-- **C106.** A model that is only moved and resized, on a screen, maps the unit square onto its rectangle: each coordinate
of the point read is off by at most 2^-18 pixels per call made, the constructor and the reading included. -/
theorem C106_rest {p : Pt} {w h : ℝ} {x : Settings} {b : ℕ} {ops : List FreeOp} (hr : Spot.Stays ⟨p, w, h⟩ ops)
    (hn : edits ops < 65536) :
    ∃ s, (Free.new R.rnd p w h x b).run R.rnd ops = .ok (s, ops.map calm) ∧
      ∀ uv : Pt, 0 ≤ uv.x ∧ uv.x ≤ 1 → 0 ≤ uv.y ∧ uv.y ≤ 1 →
        let o := Spot.afterAll ⟨p, w, h⟩ ops
        let q := deformTexcoords R.rnd L.rnd s.pos uv
        |q.x - (o.place.x + uv.y * o.width)| ≤ (edits ops + 2) / 262144 ∧
        |q.y - (o.place.y + uv.x * o.height)| ≤ (edits ops + 2) / 262144 := by
  obtain ⟨s, e, hc, -⟩ := C96_rest_in_doubles R (x := x) (b := b) hr hn
  refine ⟨s, e, fun uv hu hv => ?_⟩
  intro o q
  have ho : o.OnScreen := by simpa using hr ops.length
  have hn' : (edits ops : ℝ) + 1 ≤ 65536 := by exact_mod_cast hn
  have t4 : ((edits ops : ℝ) + 1) / 262144 ≤ 1 / 4 := by linarith
  have sum : ((edits ops : ℝ) + 2) / 262144 = 1 / 262144 + (edits ops + 1) / 262144 := by ring
  rw [sum]
  exact (near_rectangle R L ho (by linarith) hc).2 uv hu hv

/-- Where `long double` is `double`. -/
def sameDouble : Extended := ⟨someRounding64.rnd, fun _ h => someRounding64.exact h, someRounding64.error_rel⟩

example : |(deformTexcoords someRounding64.rnd sameDouble.rnd (fun k => if k = 5 then ⟨64, 0⟩ else 0) ⟨1 / 2, 1 / 2⟩).x - 9| ≤
    64 / 2 ^ 43 := by
  have h := (C106_near_surface someRounding64 sameDouble (m := fun k => if k = 5 then ⟨64, 0⟩ else 0) (uv := ⟨1 / 2, 1 / 2⟩)
    (B := 64) (by norm_num) (fun k => by split_ifs <;> norm_num) (by norm_num) (by norm_num)).1
  have e : patch (fun k => ((if k = 5 then ⟨64, 0⟩ else 0 : Pt)).x) (1 / 2) (1 / 2) = 9 := by
    simp only [patch, sum_mesh]
    norm_num [bernstein, Fin.ext_iff]
  rw [e] at h
  exact h

example : deformTexcoords someRounding64.rnd sameDouble.rnd (fun k => ⟨k.val, 7⟩) ⟨1, 0⟩ = ⟨12, 7⟩ := by
  have h := (C106_corners someRounding64 sameDouble (m := fun k => ⟨k.val, 7⟩) fun k =>
    ⟨double_nat (by omega), by exact_mod_cast double_nat (n := 7) (by norm_num)⟩).2.2.1
  rw [h]
  ext <;> norm_num

example {x : Settings} {b : ℕ} : ∃ s rs, (Free.new someRounding64.rnd ⟨10, 20⟩ 300 200 x b).run someRounding64.rnd screenOps = .ok (s, rs) ∧
    |(deformTexcoords someRounding64.rnd sameDouble.rnd s.pos ⟨1 / 2, 1 / 4⟩).x - 155| ≤ 5 / 262144 := by
  obtain ⟨s, e, h⟩ := C106_rest someRounding64 sameDouble (x := x) (b := b) screenOps_stays (by simp [edits, screenOps])
  refine ⟨s, _, e, ?_⟩
  have h1 := (h ⟨1 / 2, 1 / 4⟩ (by norm_num) (by norm_num)).1
  norm_num [edits, screenOps, Spot.afterAll, Spot.after] at h1 ⊢
  exact h1

end

end Verif.Props
