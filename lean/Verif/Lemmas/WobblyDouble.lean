import Verif.Lemmas.Float64
import Verif.Lemmas.WobblyOps

/-! # The wobbly model in double precision -/

namespace Verif.Wobbly.Rounded

noncomputable section

open Classical Outcome

variable (R : Rounding64)

/-! ## What a round does when nothing is out of place -/

theorem rnd_zero : R.rnd 0 = 0 := R.exact double_zero

theorem rnd_half : R.rnd (1 / 2) = 1 / 2 :=
  R.exact ⟨1, -1, by norm_num, by norm_num, by norm_num⟩

/-- The spring does nothing. -/
def Slack (y : Spring) (at_ : Node → Pt) : Prop := deltaA R.rnd y at_ = 0 ∧ deltaB R.rnd y at_ = 0

theorem addForce_zero (f : Node → Pt) (hf : ∀ n, f n = 0) (n : Node) (k : ℝ) :
    ∀ m, addForce R.rnd f n (scale R.rnd 0 k) m = 0 := by
  intro m
  unfold addForce add scale
  split_ifs
  · simp [hf, rnd_zero, Pt.ext_iff]
  · exact hf m

theorem fold_slack {k : ℝ} {at_ : Node → Pt} : ∀ (l : List Spring) (acc : (Node → Pt) × Prop), (∀ y ∈ l, Slack R y at_) →
    (∀ n, acc.1 n = 0) →
    (∀ n, (l.foldl (fun acc s => let f := applyForces R.rnd s k at_ acc.1; (f.1, acc.2 ∨ f.2)) acc).1 n = 0) ∧
    ((l.foldl (fun acc s => let f := applyForces R.rnd s k at_ acc.1; (f.1, acc.2 ∨ f.2)) acc).2 ↔ acc.2) := by
  intro l
  induction l with
  | nil => intro acc _ h; exact ⟨h, Iff.rfl⟩
  | cons y l ih =>
    intro acc hl ha
    obtain ⟨h1, h2⟩ := hl y (by simp)
    have hf : ∀ n, (applyForces R.rnd y k at_ acc.1).1 n = 0 := by
      simp only [applyForces, h1, h2]
      exact addForce_zero R _ (addForce_zero R _ ha _ _) _ _
    have hm : ¬ (applyForces R.rnd y k at_ acc.1).2 := by
      simp [applyForces, h1, h2, rnd_zero]
    have := ih ((applyForces R.rnd y k at_ acc.1).1, acc.2 ∨ (applyForces R.rnd y k at_ acc.1).2)
      (fun z hz => hl z (List.mem_cons_of_mem _ hz)) hf
    refine ⟨this.1, this.2.trans ?_⟩
    simp [hm]

theorem forces_slack {k : ℝ} {at_ : Node → Pt} {l : List Spring} (hl : ∀ y ∈ l, Slack R y at_) :
    (∀ n, (calculateForces R.rnd k at_ l).1 n = 0) ∧ ¬ (calculateForces R.rnd k at_ l).2 := by
  have := fold_slack R (k := k) l (fun _ => 0, False) hl (fun _ => rfl)
  exact ⟨this.1, fun h => this.2.1 h⟩

theorem clip_cases (t c : ℝ) : clip t c = 0 ∨ t ≤ |clip t c| := by
  unfold clip
  split_ifs with h
  · exact Or.inl rfl
  · exact Or.inr (not_lt.1 h)

theorem pair_zero {a b : ℝ} (ha : a = 0 ∨ 1 / 2 ≤ |a|) (hb : b = 0 ∨ 1 / 2 ≤ |b|) (h : ¬ R.rnd (|a| + |b|) > 0) :
    a = 0 ∧ b = 0 := by
  have hlt : |a| + |b| < 1 / 2 := by
    by_contra hc
    push Not at hc
    have := R.mono hc
    rw [rnd_half] at this
    exact h (by linarith)
  have h1 := abs_nonneg a
  have h2 := abs_nonneg b
  refine ⟨ha.resolve_right ?_, hb.resolve_right ?_⟩ <;> intro hc <;> linarith

theorem apply_slack {y : Spring} {k : ℝ} {at_ f : Node → Pt} (h : ¬ (applyForces R.rnd y k at_ f).2) : Slack R y at_ := by
  simp only [applyForces, not_or] at h
  obtain ⟨h1, h2⟩ := h
  have x := pair_zero R (clip_cases _ _) (clip_cases _ _) h1
  have y := pair_zero R (clip_cases _ _) (clip_cases _ _) h2
  exact ⟨Pt.ext x.1 y.1, Pt.ext x.2 y.2⟩

theorem fold_more {k : ℝ} {at_ : Node → Pt} : ∀ (l : List Spring) (acc : (Node → Pt) × Prop),
    ¬ (l.foldl (fun acc s => let f := applyForces R.rnd s k at_ acc.1; (f.1, acc.2 ∨ f.2)) acc).2 →
    ¬ acc.2 ∧ ∀ y ∈ l, Slack R y at_ := by
  intro l
  induction l with
  | nil => intro acc h; exact ⟨h, by simp⟩
  | cons y l ih =>
    intro acc h
    obtain ⟨h1, h2⟩ := ih _ h
    simp only [not_or] at h1
    refine ⟨h1.1, fun z hz => ?_⟩
    rcases List.mem_cons.1 hz with rfl | hz
    · exact apply_slack R h1.2
    · exact h2 z hz

/-- Mesh coordinates are doubles. -/
def Doubles (m : Mesh) : Prop := ∀ i, Double (m i).x ∧ Double (m i).y

/-- Where the springs look. -/
def meshAt (m : Mesh) : Node → Pt := fun n => match n with | .mesh i => m i | .anchor _ => 0

theorem springStep_eq (k friction : ℝ) (l : List Spring) (q : Phys) :
    springStep R.rnd k friction l q =
      (⟨fun i => (eulerIntegrate R.rnd 1 friction mass (q.pos i) (q.vel i)
          ((calculateForces R.rnd k (meshAt q.pos) l).1 (.mesh i))).1,
        fun i => (eulerIntegrate R.rnd 1 friction mass (q.pos i) (q.vel i)
          ((calculateForces R.rnd k (meshAt q.pos) l).1 (.mesh i))).2.1⟩,
        (calculateForces R.rnd k (meshAt q.pos) l).2 ∨
          ∃ i : Idx, (eulerIntegrate R.rnd 1 friction mass (q.pos i) (q.vel i)
            ((calculateForces R.rnd k (meshAt q.pos) l).1 (.mesh i))).2.2) := rfl

/-- Nothing moves in a resting mesh. -/
theorem step_slack {k friction : ℝ} {l : List Spring} {q : Phys} (hd : Doubles q.pos) (hv : ∀ i, q.vel i = 0)
    (hl : ∀ y ∈ l, Slack R y (meshAt q.pos)) :
    (springStep R.rnd k friction l q).1 = q ∧ ¬ (springStep R.rnd k friction l q).2 := by
  obtain ⟨hf, hm⟩ := forces_slack R (k := k) hl
  have e : ∀ i, eulerIntegrate R.rnd 1 friction mass (q.pos i) (q.vel i)
      ((calculateForces R.rnd k (meshAt q.pos) l).1 (.mesh i)) = (q.pos i, q.vel i, False) := by
    intro i
    rw [hf, hv]
    have : ∀ c, eulerVelocity R.rnd 1 friction mass 0 c = if c = 0 then 0 else eulerVelocity R.rnd 1 friction mass 0 c := by
      intro c
      split_ifs with hc
      · rw [hc]
        simp [eulerVelocity, rnd_zero, clip]
      · rfl
    have h0 : eulerVelocity R.rnd 1 friction mass 0 0 = 0 := by rw [this]; simp
    simp only [eulerIntegrate, Pt.zero_x, Pt.zero_y, h0, add, scale, zero_mul, rnd_zero, add_zero]
    rw [R.exact (hd i).1, R.exact (hd i).2]
    simp [Pt.ext_iff]
  have e' : springStep R.rnd k friction l q = (q, (calculateForces R.rnd k (meshAt q.pos) l).2 ∨ ∃ i : Idx, False) := by
    rw [springStep_eq]
    simp only [e]
  rw [e']
  refine ⟨rfl, ?_⟩
  simp [hm]

/-- What it takes for a round to report that nothing moves. -/
theorem step_quiet {k friction : ℝ} {l : List Spring} {q : Phys} (hd : Doubles q.pos)
    (h : ¬ (springStep R.rnd k friction l q).2) :
    (springStep R.rnd k friction l q).1.pos = q.pos ∧ (∀ i, (springStep R.rnd k friction l q).1.vel i = 0) ∧
      ∀ y ∈ l, Slack R y (meshAt q.pos) := by
  simp only [springStep, not_or, not_exists] at h
  obtain ⟨h1, h2⟩ := h
  have hs : ∀ y ∈ l, Slack R y (meshAt q.pos) := (fold_more R l _ h1).2
  have hv : ∀ i, (springStep R.rnd k friction l q).1.vel i = 0 := by
    intro i
    have := h2 i
    simp only [eulerIntegrate, gt_iff_lt, abs_pos, not_or, not_not] at this
    exact Pt.ext this.1 this.2
  refine ⟨?_, hv, hs⟩
  funext i
  have := hv i
  simp only [springStep, eulerIntegrate] at this ⊢
  rw [this]
  simp only [add, scale, Pt.zero_x, Pt.zero_y, zero_mul, rnd_zero, add_zero]
  rw [R.exact (hd i).1, R.exact (hd i).2]

end

end Verif.Wobbly.Rounded
