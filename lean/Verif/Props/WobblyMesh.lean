import Verif.Lemmas.WobblyMesh
import Verif.Lemmas.WobblySplit
import Verif.Lemmas.Outcome

/-! # Wobbly: reading the mesh and single steps (C34-C37, C55-C57) -/

namespace Verif.Props

open Wobbly Spec

/-! ## Springs -/

/-- **C34.** The two forces a spring applies are equal and opposite (on two different ends), whatever was
accumulated before, and no other slot changes. -/
theorem C34_equal_and_opposite (s : Spring) (k : ℝ) (at_ f : Node → Pt) (hab : s.a ≠ s.b) :
    (s.applyForces k at_ f).1 s.a - f s.a = -((s.applyForces k at_ f).1 s.b - f s.b) ∧
    ∀ n, n ≠ s.a → n ≠ s.b → (s.applyForces k at_ f).1 n = f n := by
  refine ⟨?_, ?_⟩
  · rw [applyForces_force, applyForces_force]
    simp [contribution, hab, hab.symm]
  · intro n h1 h2
    rw [applyForces_force]
    simp [contribution, h1, h2]

example : (⟨1, .mesh 0, .mesh 1, ⟨10, 0⟩⟩ : Spring).a ≠ (⟨1, .mesh 0, .mesh 1, ⟨10, 0⟩⟩ : Spring).b := by
  decide

/-- **C34.** Over any set of places that includes all spring ends, the forces of all springs add up to
zero. -/
theorem C34_forces_sum_to_zero (k : ℝ) (at_ : Node → Pt) (springs : List Spring) (nodes : Finset Node)
    (h : ∀ s ∈ springs, s.a ∈ nodes ∧ s.b ∈ nodes) :
    ∑ n ∈ nodes, (calculateForces k at_ springs).1 n = 0 := by
  simp only [calculateForces_force]
  induction springs with
  | nil => simp
  | cons s l ih =>
    simp only [List.map_cons, List.sum_cons, Finset.sum_add_distrib]
    rw [ih fun s' hs' => h s' (List.mem_cons_of_mem _ hs'), add_zero]
    obtain ⟨ha, hb⟩ := h s (by simp)
    simp [contribution, Finset.sum_sub_distrib, Finset.sum_ite_eq', ha, hb]

example : ∀ s ∈ [(⟨1, .mesh 0, .anchor 7, ⟨10, 0⟩⟩ : Spring)],
    s.a ∈ ({.mesh 0, .anchor 7} : Finset Node) ∧ s.b ∈ ({.mesh 0, .anchor 7} : Finset Node) := by
  decide

/-- **C35.** In each coordinate the first end is pulled with `springConstant / 2` times the deviation
from the desired length, and with nothing when the deviation is below one pixel. The second end gets the
opposite. -/
theorem C35_spring_law (s : Spring) (k : ℝ) (at_ f : Node → Pt) (hab : s.a ≠ s.b) :
    ((s.applyForces k at_ f).1 s.a).x = (f s.a).x + pull k (deviation at_ s).x ∧
    ((s.applyForces k at_ f).1 s.a).y = (f s.a).y + pull k (deviation at_ s).y ∧
    ((s.applyForces k at_ f).1 s.b).x = (f s.b).x - pull k (deviation at_ s).x ∧
    ((s.applyForces k at_ f).1 s.b).y = (f s.b).y - pull k (deviation at_ s).y := by
  refine ⟨?_, ?_, ?_, ?_⟩ <;> rw [applyForces_force] <;>
    simp [contribution, hab, hab.symm, pullPt, sub_eq_add_neg]

/-- **C35.** `ApplyForces` returns false exactly when the spring is less than one pixel from its desired
length in both coordinates; for a non-zero spring constant this is also exactly when it applies no
force. -/
theorem C35_dead_zone (s : Spring) (k : ℝ) (at_ f : Node → Pt) :
    (¬ (s.applyForces k at_ f).2 ↔ InDeadZone at_ s) ∧
    (k ≠ 0 → s.a ≠ s.b → ((s.applyForces k at_ f).1 = f ↔ InDeadZone at_ s)) := by
  refine ⟨by rw [applyForces_more, not_not], fun hk hab => ⟨fun h => ?_, fun h => ?_⟩⟩
  · have e : f s.a + contribution k at_ s s.a = f s.a := by
      rw [← applyForces_force, h]
    have e' : pullPt k at_ s = 0 := by
      have : contribution k at_ s s.a = 0 := by simpa using e
      simpa [contribution, hab] using this
    have aux : ∀ d, pull k d = 0 → |d| < 1 := by
      intro d hd
      by_contra hc
      simp only [pull, hc, if_false] at hd
      rcases mul_eq_zero.1 hd with h0 | h0
      · exact hk (by linarith)
      · rw [h0] at hc
        simp at hc
    exact ⟨aux _ (congrArg Pt.x e'), aux _ (congrArg Pt.y e')⟩
  · funext n
    rw [applyForces_force]
    simp [contribution, pullPt_zero h]

/-- **C35.** A stretched or compressed spring pulls its ends towards the desired length: for a positive
spring constant the force has the sign of the deviation. -/
theorem C35_towards_desired (k dev : ℝ) (hk : 0 < k) :
    (1 ≤ dev → 0 < pull k dev) ∧ (dev ≤ -1 → pull k dev < 0) := by
  refine ⟨fun h => ?_, fun h => ?_⟩
  · have : ¬ |dev| < 1 := by
      rw [abs_of_nonneg (by linarith)]
      linarith
    simp only [pull, this, if_false]
    positivity
  · have : ¬ |dev| < 1 := by
      rw [abs_of_nonpos (by linarith)]
      linarith
    simp only [pull, this, if_false]
    nlinarith

/-! ## Integration -/

/-- **C36.** After a step every velocity coordinate is zero or at least 0.1 in magnitude. -/
theorem C36_clipped (e : Env) (q : Phys) (i : Idx) : ClippedVelocity ((springStep e q).1.vel i) := by
  have aux : ∀ c : ℝ, clip (1 / 10) c = 0 ∨ 1 / 10 ≤ |clip (1 / 10) c| := by
    intro c
    unfold clip
    split_ifs with h
    · left; rfl
    · right; exact not_lt.1 h
  simp only [springStep, anchoredIntegration, ClippedVelocity]
  split_ifs
  · simp [Pt.assignValue]
  · exact ⟨aux _, aux _⟩

/-- **C36.** A step asks for more exactly when some point has velocity left or some spring was at least
one pixel off. -/
theorem C36_more_iff (e : Env) (q : Phys) :
    (springStep e q).2 ↔
      (∃ i, (springStep e q).1.vel i ≠ ⟨0, 0⟩) ∨ ∃ s ∈ e.springs, ¬ InDeadZone (e.at_ q.pos) s := by
  have hv : ∀ v : Pt, v ≠ ⟨0, 0⟩ ↔ |v.x| > 0 ∨ |v.y| > 0 := by
    intro v
    rw [ne_eq, Pt.ext_iff]
    simp only [gt_iff_lt, abs_pos]
    tauto
  simp only [springStep, calculateForces_more, anchoredIntegration]
  rw [or_comm]
  apply or_congr _ Iff.rfl
  apply exists_congr
  intro i
  rw [hv]
  split_ifs with h
  · simp [h, Pt.assignValue]
  · simp only [h, not_false_eq_true, true_and]
    rfl

/-- **C36.** A step moves a point by half its new velocity and does not move a locked one, which loses its
velocity. -/
theorem C36_moves_by_velocity (e : Env) (q : Phys) (i : Idx) :
    ((springStep e q).1.pos i).x = (q.pos i).x + ((springStep e q).1.vel i).x / 2 ∧
    ((springStep e q).1.pos i).y = (q.pos i).y + ((springStep e q).1.vel i).y / 2 ∧
    (e.locks i > 0 → (springStep e q).1.pos i = q.pos i ∧ (springStep e q).1.vel i = ⟨0, 0⟩) := by
  simp only [springStep, anchoredIntegration]
  split_ifs with h
  · simp [h, Pt.assignValue]
  · refine ⟨?_, ?_, fun h' => absurd h' h⟩
    · simp [eulerIntegrate]
      ring
    · simp [eulerIntegrate]
      ring

/-- The velocity coordinate after `n` steps without force. -/
noncomputable def coast (friction : ℝ) (n : ℕ) (v : ℝ) : ℝ :=
  (fun v => eulerVelocity 1 friction mass v 0)^[n] v

/-- **C36.** Without force, friction between zero and the mass of 15 never speeds a point up or turns it around,
and positive friction stops it after finitely many steps, for good. -/
theorem C36_friction_stops (friction v : ℝ) (h0 : 0 < friction) (h1 : friction ≤ 15) :
    (∀ n, |coast friction (n + 1) v| ≤ |coast friction n v| ∧ 0 ≤ coast friction n v * v) ∧
    ∃ n, ∀ k, n ≤ k → coast friction k v = 0 := by
  have h2 : friction ≤ 15 := h1
  refine ⟨fun n => ⟨?_, ?_⟩, ?_⟩
  · unfold coast
    rw [Function.iterate_succ_apply']
    refine (free_abs_le friction _).trans ?_
    have : |1 - friction / 15| ≤ 1 := by
      rw [abs_le]
      constructor <;> linarith
    nlinarith [abs_nonneg ((fun v => eulerVelocity 1 friction mass v 0)^[n] v)]
  · unfold coast
    induction n with
    | zero =>
      simp only [Function.iterate_zero, id]
      exact mul_self_nonneg v
    | succ n ih =>
      rw [Function.iterate_succ_apply', eulerVelocity_free]
      unfold clip
      split_ifs
      · simp
      · have : 0 ≤ 1 - friction / 15 := by linarith
        calc (0 : ℝ) ≤ (1 - friction / 15) * (((fun v => eulerVelocity 1 friction mass v 0)^[n] v) * v) :=
              mul_nonneg this ih
          _ = _ := by ring
  · obtain ⟨n, hn⟩ := free_stops friction v h0 (by linarith)
    refine ⟨n, fun k hk => ?_⟩
    obtain ⟨j, rfl⟩ := Nat.exists_eq_add_of_le hk
    unfold coast
    rw [add_comm, Function.iterate_add_apply, hn]
    induction j with
    | zero => rfl
    | succ j ih =>
      rw [Function.iterate_succ_apply', ih (by omega), eulerVelocity_free]
      simp [clip_zero]

example : (0 : ℝ) < defaultSettings.friction ∧ defaultSettings.friction ≤ 15 := by
  norm_num [defaultSettings]

/-! ## Range constraint -/

/-- **C37.** For a positive maximum range the constraint never leaves the finite numbers; afterwards every
point is within range of its target, points that were in range are untouched, and each of the others is
on the segment between its target and where it was, at exactly the maximum range. It reports whether some
point was out of range. -/
theorem C37_range_respected (max : ℝ) (hmax : 0 < max) (targets pos : Mesh) :
    ∃ pos' more, constrain max targets pos = .ok (pos', more) ∧
      (∀ i, euclid (targets i) (pos' i) ≤ max) ∧
      (∀ i, euclid (targets i) (pos i) < max → pos' i = pos i) ∧
      (∀ i, max ≤ euclid (targets i) (pos i) →
        OnSegment (targets i) (pos i) (pos' i) ∧ euclid (targets i) (pos' i) = max) ∧
      (more ↔ ∃ i, max ≤ euclid (targets i) (pos i)) := by
  unfold constrain
  rw [if_neg]
  swap
  · rintro ⟨i, h1, h2⟩
    rw [h2] at h1
    exact h1 hmax
  refine ⟨_, _, rfl, ?_, ?_, ?_, ?_⟩
  · intro i
    rw [← Pt.distance_eq]
    split_ifs with h
    · exact h.le
    · have h' := not_lt.1 h
      exact (constrainPoint_dist max _ _ (by linarith) hmax.le h').le
  · intro i h
    rw [← Pt.distance_eq] at h
    rw [if_pos h]
  · intro i h
    rw [← Pt.distance_eq] at h ⊢
    rw [if_neg (not_lt.2 h)]
    have hne : Pt.distance (targets i) (pos i) ≠ 0 := by linarith
    refine ⟨?_, constrainPoint_dist max _ _ hne hmax.le h⟩
    rw [constrainPoint_eq max _ _ hne h]
    refine ⟨max / Pt.distance (targets i) (pos i), ?_, ?_, rfl, rfl⟩
    · exact div_nonneg hmax.le (Pt.distance_nonneg _ _)
    · exact (div_le_one (by linarith)).2 h
  · simp only [not_lt, Pt.distance_eq]

example : (0 : ℝ) < defaultSettings.maximumRange := by norm_num [defaultSettings]

/-- **C37 (finding).** With a maximum range of zero (or less) and a point on its target the constraint
divides zero by zero. -/
theorem C37_zero_range_nonfinite (max : ℝ) (hmax : max ≤ 0) (targets pos : Mesh) (i : Idx)
    (hi : pos i = targets i) : constrain max targets pos = .nonfinite := by
  unfold constrain
  rw [if_pos]
  refine ⟨i, ?_, ?_⟩
  · rw [hi, Pt.distance_self]
    exact not_lt.2 hmax
  · rw [hi, Pt.distance_self]

/-! ## Texture coordinates and extremes -/

/-- **C55.** On a regular lattice with tiles of size `tx` by `ty` (so the mesh is `3 tx` wide and `3 ty`
high) the deformation is affine, with the first unit coordinate going down and the second going right. -/
theorem C55_linear_precision (m : Mesh) (p : Pt) (tx ty : ℝ) (h : IsMeshLattice m p tx ty) (uv : Pt) :
    deformTexcoords m uv = ⟨p.x + uv.y * (3 * tx), p.y + uv.x * (3 * ty)⟩ := by
  rw [(isMeshLattice_iff m p tx ty).1 h, deform_eq]
  have hs := weight_sum uv
  have hr := weight_sum_row uv (fun n => (n : ℝ))
  have hc := weight_sum_col uv (fun n => (n : ℝ))
  have l1 := coeff_linear uv.x
  have l2 := coeff_linear uv.y
  ext
  · simp only [positionArray, Pt.add_x]
    have : ∀ i : Idx, weight uv i * (p.x + (col i : ℝ) * tx) = p.x * weight uv i + tx * (weight uv i * (col i : ℝ)) := by
      intro i
      ring
    simp only [this, Finset.sum_add_distrib, ← Finset.mul_sum, hs, hc]
    push_cast
    linear_combination tx * l2
  · simp only [positionArray, Pt.add_y]
    have : ∀ i : Idx, weight uv i * (p.y + (row i : ℝ) * ty) = p.y * weight uv i + ty * (weight uv i * (row i : ℝ)) := by
      intro i
      ring
    simp only [this, Finset.sum_add_distrib, ← Finset.mul_sum, hs, hr]
    push_cast
    linear_combination ty * l1

example : IsMeshLattice (positionArray ⟨5, 6⟩ ⟨10, 20⟩) ⟨5, 6⟩ 10 20 :=
  (isMeshLattice_iff _ _ _ _).2 rfl

/-- **C55.** For every mesh the four unit corners go to the four corner points of the mesh: number 0 (top
left), 3 (top right), 12 (bottom left) and 15 (bottom right). -/
theorem C55_corners (m : Mesh) :
    deformTexcoords m ⟨0, 0⟩ = m 0 ∧ deformTexcoords m ⟨0, 1⟩ = m 3 ∧
    deformTexcoords m ⟨1, 0⟩ = m 12 ∧ deformTexcoords m ⟨1, 1⟩ = m 15 := by
  refine ⟨?_, ?_, ?_, ?_⟩ <;> rw [deform_eq] <;> ext <;> simp only <;> rw [sum_mesh] <;>
    simp [weight, row, col, bezierCoeff]

/-- **C56.** For unit coordinates in `[0, 1]` the deformed point is a convex combination of the mesh
points. -/
theorem C56_in_hull (m : Mesh) (uv : Pt) (hu : 0 ≤ uv.x ∧ uv.x ≤ 1) (hv : 0 ≤ uv.y ∧ uv.y ≤ 1) :
    InHull m (deformTexcoords m uv) := by
  refine ⟨weight uv, ?_, weight_sum uv, ?_, ?_⟩
  · intro i
    exact mul_nonneg (coeff_nonneg hu.1 hu.2 _) (coeff_nonneg hv.1 hv.2 _)
  · rw [deform_eq]
  · rw [deform_eq]

/-- **C57.** `Extremes` returns the corners (top left, top right, bottom left, bottom right) of one box,
each of whose sides is a smallest or largest coordinate of the mesh rounded to a nearest integer. -/
theorem C57_extremes (m : Mesh) (h : ∀ i, |(m i).x| ≤ maxDouble ∧ |(m i).y| ≤ maxDouble) :
    ∃ l r t b : ℝ, extremes m = (⟨l, t⟩, ⟨r, t⟩, ⟨l, b⟩, ⟨r, b⟩) ∧
      (∃ i, RoundsTo (m i).x l ∧ ∀ j, (m i).x ≤ (m j).x) ∧
      (∃ i, RoundsTo (m i).x r ∧ ∀ j, (m j).x ≤ (m i).x) ∧
      (∃ i, RoundsTo (m i).y t ∧ ∀ j, (m i).y ≤ (m j).y) ∧
      (∃ i, RoundsTo (m i).y b ∧ ∀ j, (m j).y ≤ (m i).y) := by
  simp only [maxDouble_eq] at h
  have rt : ∀ x, RoundsTo x (cRound x) := fun x => ⟨cRound_isInt x, cRound_near x⟩
  refine ⟨_, _, _, _, extremes_eq m, ?_, ?_, ?_, ?_⟩
  · obtain ⟨i, h1, h2⟩ := min_attained (fun i => (m i).x) fun i => (abs_le.1 (h i).1).2
    exact ⟨i, by rw [minOf, h1]; exact rt _, h2⟩
  · obtain ⟨i, h1, h2⟩ := max_attained (fun i => (m i).x) fun i => (abs_le.1 (h i).1).1
    exact ⟨i, by rw [maxOf, h1]; exact rt _, h2⟩
  · obtain ⟨i, h1, h2⟩ := min_attained (fun i => (m i).y) fun i => (abs_le.1 (h i).2).2
    exact ⟨i, by rw [minOf, h1]; exact rt _, h2⟩
  · obtain ⟨i, h1, h2⟩ := max_attained (fun i => (m i).y) fun i => (abs_le.1 (h i).2).1
    exact ⟨i, by rw [maxOf, h1]; exact rt _, h2⟩

example : ∀ i : Idx, |((fun _ => ⟨3, 4⟩ : Mesh) i).x| ≤ maxDouble ∧ |((fun _ => ⟨3, 4⟩ : Mesh) i).y| ≤ maxDouble := by
  intro i
  have : (4 : ℝ) ≤ maxDouble := by
    unfold maxDouble
    have h : (1 : ℝ) ≤ 2 ^ 971 := one_le_pow₀ (by norm_num)
    generalize (2 : ℝ) ^ 971 = y at h
    norm_num
    linarith
  constructor
  · simp only
    rw [abs_of_pos (by norm_num)]
    linarith
  · simp only
    rw [abs_of_pos (by norm_num)]
    linarith

/-- **C57.** Every mesh point, and everything `DeformTexcoords` can return for coordinates in `[0, 1]`
(C56), is inside the reported box up to half a pixel on each side. -/
theorem C57_within_half_pixel (m : Mesh) (h : ∀ i, |(m i).x| ≤ maxDouble ∧ |(m i).y| ≤ maxDouble) (q : Pt)
    (hq : InHull m q) :
    (extremes m).1.x - 1 / 2 ≤ q.x ∧ q.x ≤ (extremes m).2.2.2.x + 1 / 2 ∧
    (extremes m).1.y - 1 / 2 ≤ q.y ∧ q.y ≤ (extremes m).2.2.2.y + 1 / 2 := by
  obtain ⟨l, r, t, b, e, ⟨i1, r1, m1⟩, ⟨i2, r2, m2⟩, ⟨i3, r3, m3⟩, ⟨i4, r4, m4⟩⟩ := C57_extremes m h
  obtain ⟨w, w0, w1, hx, hy⟩ := hq
  rw [e, hx, hy]
  simp only
  have lo : ∀ (c : Idx → ℝ) (a : ℝ), (∀ i, a ≤ c i) → a ≤ ∑ i, w i * c i := by
    intro c a ha
    calc a = ∑ i, w i * a := by rw [← Finset.sum_mul, w1, one_mul]
      _ ≤ _ := Finset.sum_le_sum fun i _ => mul_le_mul_of_nonneg_left (ha i) (w0 i)
  have hi : ∀ (c : Idx → ℝ) (a : ℝ), (∀ i, c i ≤ a) → ∑ i, w i * c i ≤ a := by
    intro c a ha
    calc _ ≤ ∑ i, w i * a := Finset.sum_le_sum fun i _ => mul_le_mul_of_nonneg_left (ha i) (w0 i)
      _ = a := by rw [← Finset.sum_mul, w1, one_mul]
  have b1 := abs_le.1 r1.2
  have b2 := abs_le.1 r2.2
  have b3 := abs_le.1 r3.2
  have b4 := abs_le.1 r4.2
  refine ⟨?_, ?_, ?_, ?_⟩
  · have := lo _ _ m1
    linarith
  · have := hi _ _ m2
    linarith
  · have := lo _ _ m3
    linarith
  · have := hi _ _ m4
    linarith

example (m : Mesh) : InHull m (m 5) :=
  ⟨fun i => if i = 5 then 1 else 0, by intro i; dsimp only; split_ifs <;> norm_num, by simp, by simp, by simp⟩

/-- **C56.** So for unit coordinates in `[0, 1]` what `DeformTexcoords` returns is inside the box `Extremes` reports, up to
half a pixel on each side. -/
theorem C56_in_extremes (m : Mesh) (h : ∀ i, |(m i).x| ≤ maxDouble ∧ |(m i).y| ≤ maxDouble) {uv : Pt}
    (hu : 0 ≤ uv.x ∧ uv.x ≤ 1) (hv : 0 ≤ uv.y ∧ uv.y ≤ 1) :
    (extremes m).1.x - 1 / 2 ≤ (deformTexcoords m uv).x ∧ (deformTexcoords m uv).x ≤ (extremes m).2.2.2.x + 1 / 2 ∧
    (extremes m).1.y - 1 / 2 ≤ (deformTexcoords m uv).y ∧ (deformTexcoords m uv).y ≤ (extremes m).2.2.2.y + 1 / 2 :=
  C57_within_half_pixel m h _ (C56_in_hull m uv hu hv)

/-- **C57 (negation).** The documented containment is false: the box of every new model whose left side is more than half
way between two pixels misses the left column of mesh points. -/
theorem C57_misses_point {p : Pt} {w h : ℝ} (x : Settings) (b : ℕ)
    (hm : ∀ i, |((State.new p w h x b).pos i).x| ≤ maxDouble ∧ |((State.new p w h x b).pos i).y| ≤ maxDouble) (hw : 0 ≤ w)
    {n : ℤ} (h1 : n + 1 / 2 < p.x) (h2 : p.x < n + 1) {i : Idx} (hi : col i = 0) :
    ((State.new p w h x b).pos i).x < (extremes (State.new p w h x b).pos).1.x := by
  have hx : ∀ j, ((State.new p w h x b).pos j).x = p.x + col j * (w / (4 - 1)) := fun _ => rfl
  obtain ⟨l, r, t, b', e, ⟨i1, ⟨⟨z, hz⟩, r1⟩, hmin⟩, -⟩ := C57_extremes _ hm
  have hl : ((State.new p w h x b).pos i1).x = p.x := by
    have := hmin i
    rw [hx, hx, hi] at this
    have : (0 : ℝ) ≤ col i1 * (w / (4 - 1)) := mul_nonneg (Nat.cast_nonneg _) (div_nonneg hw (by norm_num))
    rw [hx]
    push_cast at *
    linarith
  rw [e]
  simp only
  rw [hx, hi, hz]
  rw [hl, hz] at r1
  have := abs_le.1 r1
  have h0 : (n : ℝ) < z := by linarith
  have : (n : ℝ) + 1 ≤ z := by exact_mod_cast h0
  push_cast
  linarith

example : (∀ i, |((State.new ⟨3 / 4, 0⟩ 300 300 defaultSettings 0).pos i).x| ≤ maxDouble ∧
    |((State.new ⟨3 / 4, 0⟩ 300 300 defaultSettings 0).pos i).y| ≤ maxDouble) ∧ ((0 : ℤ) : ℝ) + 1 / 2 < 3 / 4 ∧ col 4 = 0 := by
  refine ⟨fun i => ?_, by norm_num, rfl⟩
  have hc : (col i : ℝ) ≤ 3 := by exact_mod_cast (show col i ≤ 3 by unfold col; omega)
  have hr : (row i : ℝ) ≤ 3 := by exact_mod_cast (show row i ≤ 3 by unfold row; omega)
  have h0 : (0 : ℝ) ≤ col i := Nat.cast_nonneg _
  have h0' : (0 : ℝ) ≤ row i := Nat.cast_nonneg _
  have hM : (1000 : ℝ) ≤ maxDouble := by
    unfold maxDouble
    have h1 : (1 : ℝ) ≤ 2 ^ 971 := one_le_pow₀ (by norm_num)
    have h2 : (1000 : ℝ) ≤ 2 ^ 53 - 1 := by norm_num
    calc (1000 : ℝ) = 1000 * 1 := by ring
      _ ≤ _ := mul_le_mul h2 h1 (by norm_num) (by linarith)
  have hx : ((State.new ⟨3 / 4, 0⟩ 300 300 defaultSettings 0).pos i).x = 3 / 4 + col i * (300 / (4 - 1)) := rfl
  have hy : ((State.new ⟨3 / 4, 0⟩ 300 300 defaultSettings 0).pos i).y = 0 + row i * (300 / (4 - 1)) := rfl
  rw [hx, hy, abs_of_nonneg (by linarith), abs_of_nonneg (by linarith)]
  constructor <;> linarith

end Verif.Props
