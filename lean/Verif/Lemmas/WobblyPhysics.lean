import Verif.Spec.Wobbly
import Verif.Lemmas.Geometry

/-! Auxiliary facts about the mesh, springs and integration. -/

namespace Verif

namespace Pt

instance : AddCommGroup Pt where
  add_assoc a b c := by ext <;> simp [add_assoc]
  zero_add a := by ext <;> simp
  add_zero a := by ext <;> simp
  nsmul := nsmulRec
  zsmul := zsmulRec
  neg_add_cancel a := by ext <;> simp
  add_comm a b := by ext <;> simp [add_comm]
  sub_eq_add_neg a b := by ext <;> simp [sub_eq_add_neg]

@[simp] theorem sum_x {ι : Type*} (s : Finset ι) (f : ι → Pt) : (∑ i ∈ s, f i).x = ∑ i ∈ s, (f i).x := by
  classical
  induction s using Finset.induction_on with
  | empty => simp
  | insert a s ha ih => simp [Finset.sum_insert ha, ih]

@[simp] theorem sum_y {ι : Type*} (s : Finset ι) (f : ι → Pt) : (∑ i ∈ s, f i).y = ∑ i ∈ s, (f i).y := by
  classical
  induction s using Finset.induction_on with
  | empty => simp
  | insert a s ha ih => simp [Finset.sum_insert ha, ih]

@[simp] theorem listSum_x (l : List Pt) : (l.sum).x = (l.map Pt.x).sum := by
  induction l with
  | nil => simp
  | cons a l ih => simp [ih]

@[simp] theorem listSum_y (l : List Pt) : (l.sum).y = (l.map Pt.y).sum := by
  induction l with
  | nil => simp
  | cons a l ih => simp [ih]

theorem distance_eq (p q : Pt) : Pt.distance p q = Spec.euclid p q := by
  unfold Pt.distance Spec.euclid
  congr 1
  ring

theorem distance_comm (p q : Pt) : Pt.distance p q = Pt.distance q p := by
  unfold Pt.distance
  congr 1
  ring

theorem distance_nonneg (p q : Pt) : 0 ≤ Pt.distance p q := Real.sqrt_nonneg _

theorem distance_self (p : Pt) : Pt.distance p p = 0 := by simp [Pt.distance]

theorem distance_sq (p q : Pt) :
    Pt.distance p q ^ 2 = (p.x - q.x) ^ 2 + (p.y - q.y) ^ 2 := by
  unfold Pt.distance
  rw [Real.sq_sqrt (by nlinarith [mul_self_nonneg (p.y - q.y), mul_self_nonneg (p.x - q.x)])]
  ring

theorem distance_eq_zero {p q : Pt} : Pt.distance p q = 0 ↔ p = q := by
  constructor
  · intro h
    have := distance_sq p q
    rw [h] at this
    have hx : (p.x - q.x) ^ 2 = 0 := by nlinarith [sq_nonneg (p.x - q.x), sq_nonneg (p.y - q.y)]
    have hy : (p.y - q.y) ^ 2 = 0 := by nlinarith [sq_nonneg (p.x - q.x), sq_nonneg (p.y - q.y)]
    ext
    · nlinarith [pow_eq_zero_iff (two_ne_zero) |>.1 hx]
    · nlinarith [pow_eq_zero_iff (two_ne_zero) |>.1 hy]
  · rintro rfl
    exact distance_self p

theorem distance_translate (p q d : Pt) : Pt.distance (p + d) (q + d) = Pt.distance p q := by
  unfold Pt.distance
  simp

theorem distance_le (p q : Pt) : Pt.distance p q ≤ |p.x - q.x| + |p.y - q.y| := by
  unfold Pt.distance
  rw [Real.sqrt_le_left (by positivity)]
  nlinarith [abs_nonneg (p.x - q.x), abs_nonneg (p.y - q.y), sq_abs (p.x - q.x), sq_abs (p.y - q.y),
    mul_nonneg (abs_nonneg (p.x - q.x)) (abs_nonneg (p.y - q.y))]

theorem equals_iff (p q : Pt) : Pt.equals p q ↔ p = q := by
  constructor
  · rintro ⟨h1, h2⟩
    exact Pt.ext h2 h1
  · rintro rfl
    exact ⟨rfl, rfl⟩

end Pt

theorem dblMax_pos : 0 < dblMax := by
  unfold dblMax
  positivity

theorem dblMax_one : 1 ≤ dblMax := by
  unfold dblMax
  have h : (1 : ℝ) ≤ 2 ^ 971 := one_le_pow₀ (by norm_num)
  generalize (2 : ℝ) ^ 971 = y at h
  norm_num
  linarith

namespace Wobbly

open Spec

theorem maxDouble_eq : maxDouble = dblMax := by
  unfold maxDouble dblMax
  rfl

theorem maxDouble_one : 1 ≤ maxDouble := maxDouble_eq ▸ dblMax_one

theorem distance_lt_dblMax {p q : Pt} (hp : Representable p) (hq : Representable q) :
    Pt.distance p q < dblMax := by
  have hpos := dblMax_pos
  obtain ⟨a, b⟩ := hp
  obtain ⟨c, d⟩ := hq
  unfold Pt.distance
  rw [Real.sqrt_lt' hpos]
  rw [maxDouble_eq, abs_le] at a b c d
  generalize dblMax = D at *
  have h1 : 0 ≤ (D / 2 - (p.y - q.y)) * (D / 2 + (p.y - q.y)) :=
    mul_nonneg (by linarith) (by linarith)
  have h2 : 0 ≤ (D / 2 - (p.x - q.x)) * (D / 2 + (p.x - q.x)) :=
    mul_nonneg (by linarith) (by linarith)
  nlinarith

/-! ### Closest point -/

theorem closest_fold (m : Mesh) (p : Pt) (l : List Idx) (hl : l.Pairwise (· < ·)) :
    (l.foldl (closestStep m p) (none, dblMax) = (none, dblMax) ∧ ∀ j ∈ l, dblMax ≤ Pt.distance p (m j)) ∨
    ∃ i ∈ l, l.foldl (closestStep m p) (none, dblMax) = (some i, Pt.distance p (m i)) ∧
      Pt.distance p (m i) < dblMax ∧
      (∀ j ∈ l, Pt.distance p (m i) ≤ Pt.distance p (m j)) ∧
      ∀ j ∈ l, j < i → Pt.distance p (m i) < Pt.distance p (m j) := by
  induction l using List.reverseRecOn with
  | nil => left; simp
  | append_singleton l a ih =>
    rw [List.pairwise_append] at hl
    obtain ⟨hl1, -, hl2⟩ := hl
    rw [List.foldl_append]
    rcases ih hl1 with ⟨h1, h2⟩ | ⟨i, hi, h1, h2, h3, h4⟩
    · rw [h1]
      by_cases ha : Pt.distance p (m a) < dblMax
      · right
        refine ⟨a, by simp, by simp [closestStep, ha], ha, ?_, ?_⟩
        · intro j hj
          rcases List.mem_append.1 hj with hj | hj
          · exact ha.le.trans (h2 j hj)
          · simp only [List.mem_singleton] at hj
            subst hj
            exact le_refl _
        · intro j hj hja
          rcases List.mem_append.1 hj with hj | hj
          · exact ha.trans_le (h2 j hj)
          · simp only [List.mem_singleton] at hj
            exact absurd (hj ▸ hja) (lt_irrefl _)
      · left
        refine ⟨by simp [closestStep, ha], ?_⟩
        intro j hj
        rcases List.mem_append.1 hj with hj | hj
        · exact h2 j hj
        · simp only [List.mem_singleton] at hj
          subst hj
          exact not_lt.1 ha
    · right
      rw [h1]
      by_cases ha : Pt.distance p (m a) < Pt.distance p (m i)
      · refine ⟨a, by simp, by simp [closestStep, ha], ha.trans h2, ?_, ?_⟩
        · intro j hj
          rcases List.mem_append.1 hj with hj | hj
          · exact ha.le.trans (h3 j hj)
          · simp only [List.mem_singleton] at hj
            subst hj
            exact le_refl _
        · intro j hj hja
          rcases List.mem_append.1 hj with hj | hj
          · exact ha.trans_le (h3 j hj)
          · simp only [List.mem_singleton] at hj
            exact absurd (hj ▸ hja) (lt_irrefl _)
      · refine ⟨i, by simp [hi], by simp [closestStep, ha], h2, ?_, ?_⟩
        · intro j hj
          rcases List.mem_append.1 hj with hj | hj
          · exact h3 j hj
          · simp only [List.mem_singleton] at hj
            subst hj
            exact not_lt.1 ha
        · intro j hj hja
          rcases List.mem_append.1 hj with hj | hj
          · exact h4 j hj hja
          · simp only [List.mem_singleton] at hj
            subst hj
            exact absurd (hl2 i hi j (by simp)) (not_lt.2 hja.le)

theorem closestIndex_spec (m : Mesh) (p : Pt) :
    (closestIndex m p = none ∧ ∀ j, dblMax ≤ Pt.distance p (m j)) ∨
    ∃ i, closestIndex m p = some i ∧ IsFirstNearest m p i := by
  rcases closest_fold m p (List.finRange 16) (List.pairwise_lt_finRange 16) with ⟨h1, h2⟩ | ⟨i, -, h1, -, h2, h3⟩
  · left
    exact ⟨by simp [closestIndex, h1], fun j => h2 j (List.mem_finRange j)⟩
  · right
    refine ⟨i, by simp [closestIndex, h1], ?_, ?_⟩
    · intro j
      simpa only [Pt.distance_eq] using h2 j (List.mem_finRange j)
    · intro j hj
      simpa only [Pt.distance_eq] using h3 j (List.mem_finRange j) hj

/-! ### Forces -/

theorem clip_eq_zero {t c : ℝ} : clip t c = 0 ↔ (|c| < t ∨ c = 0) := by
  unfold clip
  split_ifs with h
  · simp [h]
  · simp [h]

theorem clip_neg (t c : ℝ) : clip t (-c) = -clip t c := by
  unfold clip
  rw [abs_neg]
  split_ifs <;> simp

theorem clip_zero (t : ℝ) : clip t 0 = 0 := by
  unfold clip
  split_ifs <;> rfl

theorem half_clip_mul (k dev : ℝ) : clip (1 / 2) (1 / 2 * dev) * k = pull k dev := by
  unfold clip pull
  have : |1 / 2 * dev| < 1 / 2 ↔ |dev| < 1 := by
    rw [abs_mul, abs_of_pos (by norm_num : (0 : ℝ) < 1 / 2)]
    constructor <;> intro h <;> linarith
  simp only [this]
  split_ifs
  · simp
  · ring

theorem pull_neg (k dev : ℝ) : pull k (-dev) = -pull k dev := by
  unfold pull
  rw [abs_neg]
  split_ifs <;> ring

/-- The force a spring puts on its first end. -/
noncomputable def pullPt (k : ℝ) (at_ : Node → Pt) (s : Spring) : Pt :=
  ⟨pull k (deviation at_ s).x, pull k (deviation at_ s).y⟩

theorem deltaA_scale (s : Spring) (k : ℝ) (at_ : Node → Pt) : (s.deltaA at_).scale k = pullPt k at_ s := by
  ext
  · simp only [Spring.deltaA, resetIfCloseToZero, deltaFromDesired, Pt.scale_x, pullPt]
    rw [← half_clip_mul]
    congr 2
    simp only [deviation]
    ring
  · simp only [Spring.deltaA, resetIfCloseToZero, deltaFromDesired, Pt.scale_y, pullPt]
    rw [← half_clip_mul]
    congr 2
    simp only [deviation]
    ring

theorem deltaB_eq (s : Spring) (at_ : Node → Pt) : s.deltaB at_ = -s.deltaA at_ := by
  ext
  · simp only [Spring.deltaB, Spring.deltaA, resetIfCloseToZero, deltaFromDesired, Pt.scale_x, Pt.neg_x]
    rw [← clip_neg]
    congr 1
    ring
  · simp only [Spring.deltaB, Spring.deltaA, resetIfCloseToZero, deltaFromDesired, Pt.scale_y, Pt.neg_y]
    rw [← clip_neg]
    congr 1
    ring

theorem deltaB_scale (s : Spring) (k : ℝ) (at_ : Node → Pt) : (s.deltaB at_).scale k = -pullPt k at_ s := by
  rw [deltaB_eq, ← deltaA_scale]
  ext <;> simp

theorem clip_half_eq_zero (dev : ℝ) : clip (1 / 2) (1 / 2 * dev) = 0 ↔ |dev| < 1 := by
  have h2 : |1 / 2 * dev| = 1 / 2 * |dev| := by
    rw [abs_mul, abs_of_pos (by norm_num : (0 : ℝ) < 1 / 2)]
  rw [clip_eq_zero, h2]
  constructor
  · rintro (h | h)
    · linarith
    · have : dev = 0 := by linarith
      simp [this]
  · intro h
    left
    linarith

theorem deltaA_x_zero (s : Spring) (at_ : Node → Pt) : (s.deltaA at_).x = 0 ↔ |(deviation at_ s).x| < 1 := by
  rw [← clip_half_eq_zero]
  simp only [Spring.deltaA, resetIfCloseToZero, deltaFromDesired, Pt.scale_x, deviation]
  ring_nf

theorem deltaA_y_zero (s : Spring) (at_ : Node → Pt) : (s.deltaA at_).y = 0 ↔ |(deviation at_ s).y| < 1 := by
  rw [← clip_half_eq_zero]
  simp only [Spring.deltaA, resetIfCloseToZero, deltaFromDesired, Pt.scale_y, deviation]
  ring_nf

theorem abs_add_abs_neg_pos (c : ℝ) : |c| + |-c| > 0 ↔ c ≠ 0 := by
  rw [abs_neg]
  constructor
  · rintro h rfl
    simp at h
  · intro h
    have := abs_pos.2 h
    linarith

/-- `ApplyForces` asks for more exactly outside the dead zone. -/
theorem applyForces_more (s : Spring) (k : ℝ) (at_ f : Node → Pt) :
    (s.applyForces k at_ f).2 ↔ ¬ InDeadZone at_ s := by
  simp only [Spring.applyForces, deltaB_eq, Pt.neg_x, Pt.neg_y, abs_add_abs_neg_pos, ne_eq, deltaA_x_zero,
    deltaA_y_zero, InDeadZone]
  tauto

/-- The two forces of one spring, as seen by a node. -/
noncomputable def contribution (k : ℝ) (at_ : Node → Pt) (s : Spring) (n : Node) : Pt :=
  (if n = s.a then pullPt k at_ s else 0) - (if n = s.b then pullPt k at_ s else 0)

theorem applyForces_force (s : Spring) (k : ℝ) (at_ f : Node → Pt) (n : Node) :
    (s.applyForces k at_ f).1 n = f n + contribution k at_ s n := by
  simp only [Spring.applyForces, Spring.addForce, deltaA_scale, deltaB_scale, contribution]
  split_ifs <;> abel

theorem calculateForces_aux (k : ℝ) (at_ : Node → Pt) (springs : List Spring) (f0 : Node → Pt) (b : Prop)
    (n : Node) :
    (springs.foldl (fun acc s => let r := s.applyForces k at_ acc.1; (r.1, acc.2 ∨ r.2)) (f0, b)).1 n =
      f0 n + (springs.map fun s => contribution k at_ s n).sum ∧
    ((springs.foldl (fun acc s => let r := s.applyForces k at_ acc.1; (r.1, acc.2 ∨ r.2)) (f0, b)).2 ↔
      b ∨ ∃ s ∈ springs, ¬ InDeadZone at_ s) := by
  induction springs generalizing f0 b with
  | nil => simp
  | cons s l ih =>
    obtain ⟨h1, h2⟩ := ih (s.applyForces k at_ f0).1 (b ∨ (s.applyForces k at_ f0).2)
    refine ⟨?_, ?_⟩
    · simp only [List.foldl_cons]
      rw [h1, applyForces_force]
      simp [add_assoc]
    · simp only [List.foldl_cons]
      rw [h2, applyForces_more]
      simp [or_assoc]

theorem calculateForces_force (k : ℝ) (at_ : Node → Pt) (springs : List Spring) (n : Node) :
    (calculateForces k at_ springs).1 n = (springs.map fun s => contribution k at_ s n).sum := by
  have := (calculateForces_aux k at_ springs (fun _ => 0) False n).1
  simpa [calculateForces] using this

theorem calculateForces_more (k : ℝ) (at_ : Node → Pt) (springs : List Spring) :
    (calculateForces k at_ springs).2 ↔ ∃ s ∈ springs, ¬ InDeadZone at_ s := by
  have := (calculateForces_aux k at_ springs (fun _ => 0) False (.mesh 0)).2
  simpa [calculateForces] using this

theorem pullPt_zero {k : ℝ} {at_ : Node → Pt} {s : Spring} (h : InDeadZone at_ s) : pullPt k at_ s = 0 := by
  ext
  · simp [pullPt, pull, h.1]
  · simp [pullPt, pull, h.2]

theorem calculateForces_dead (k : ℝ) (at_ : Node → Pt) (springs : List Spring)
    (h : ∀ s ∈ springs, InDeadZone at_ s) (n : Node) : (calculateForces k at_ springs).1 n = 0 := by
  rw [calculateForces_force]
  apply List.sum_eq_zero
  intro x hx
  obtain ⟨s, hs, rfl⟩ := List.mem_map.1 hx
  simp [contribution, pullPt_zero (h s hs)]

end Wobbly

end Verif
