import Verif.Lemmas.WobblyInv
import Verif.Lemmas.WobblySplit
import Verif.Lemmas.WobblyMesh

/-! Meshes at rest: single steps, full integration, histories. -/

namespace Verif.Wobbly

open Spec Outcome

theorem euler_zero (f : ℝ) (p : Pt) : eulerIntegrate 1 f mass p 0 0 = (p, 0, False) := by
  have h : eulerVelocity 1 f mass 0 0 = 0 := by
    rw [eulerVelocity_free]
    simp [clip_zero]
  unfold eulerIntegrate
  simp only [Pt.zero_x, Pt.zero_y, h, abs_zero, gt_iff_lt, lt_irrefl, or_self, Prod.mk.injEq, and_true]
  refine ⟨?_, rfl⟩
  ext <;> simp

/-- No spring out of its dead zone and no velocity: nothing moves. -/
theorem springStep_rest {e : Env} {q : Phys} (hd : ∀ s ∈ e.springs, InDeadZone (e.at_ q.pos) s)
    (hv : ∀ i, q.vel i = 0) : springStep e q = (q, False) := by
  have hf : ∀ i, (calculateForces e.k (e.at_ q.pos) e.springs).1 (.mesh i) = 0 := fun i =>
    calculateForces_dead _ _ _ hd _
  have hm : ¬ (calculateForces e.k (e.at_ q.pos) e.springs).2 := by
    rw [calculateForces_more]
    rintro ⟨s, hs, h⟩
    exact h (hd s hs)
  unfold springStep anchoredIntegration
  simp only [hf, hv, euler_zero, and_false, exists_false, or_false, Prod.mk.injEq, ite_self]
  refine ⟨?_, by simp [hm]⟩
  ext1
  · rfl
  · funext i
    simp only [hv]
    split_ifs <;> rfl

/-- A step that does not ask for more moved nothing, left no velocity and found every spring in its
dead zone. -/
theorem springStep_still {e : Env} {q : Phys} (h : ¬ (springStep e q).2) :
    (springStep e q).1 = ⟨q.pos, fun _ => 0⟩ ∧ ∀ s ∈ e.springs, InDeadZone (e.at_ q.pos) s := by
  unfold springStep anchoredIntegration at h ⊢
  simp only [calculateForces_more, not_or, not_exists, not_and, not_not] at h
  obtain ⟨h1, h2⟩ := h
  refine ⟨?_, h1⟩
  have hvel : ∀ i, ¬ e.locks i > 0 → (eulerIntegrate 1 e.friction mass (q.pos i) (q.vel i)
      ((calculateForces e.k (e.at_ q.pos) e.springs).1 (.mesh i))).2.1 = 0 := by
    intro i hi
    have := h2 i hi
    simp only [eulerIntegrate, not_or, gt_iff_lt, abs_pos, not_not] at this ⊢
    exact Pt.ext this.1 this.2
  ext1
  · funext i
    simp only
    split_ifs with hi
    · rfl
    · have := hvel i hi
      simp only [eulerIntegrate] at this ⊢
      rw [this]
      ext <;> simp
  · funext i
    simp only
    split_ifs with hi
    · simp only [Pt.assignValue]
      rfl
    · exact hvel i hi

/-- Once at rest a spring system stays there. -/
theorem springStep_still_again {e : Env} {q : Phys} (h : ¬ (springStep e q).2) :
    springStep e (springStep e q).1 = ((springStep e q).1, False) := by
  obtain ⟨h1, h2⟩ := springStep_still h
  rw [h1]
  exact springStep_rest h2 fun _ => rfl

set_option maxRecDepth 10000 in
theorem baseEdges_geom : ∀ x ∈ baseEdges, if x.2.2 then row x.2.1 = row x.1 + 1 ∧ col x.2.1 = col x.1
    else row x.2.1 = row x.1 ∧ col x.2.1 = col x.1 + 1 := by decide

/-- A base spring on the lattice for the same tile has exactly its desired length. -/
theorem base_deviation {e : Env} {p tile : Pt} {b : ℕ} {x : Spring} (hx : x ∈ baseSprings tile b) :
    deviation (e.at_ (positionArray p tile)) x = 0 := by
  simp only [baseSprings, List.mem_map] at hx
  obtain ⟨⟨y, n⟩, hy, rfl⟩ := hx
  have hmem : y ∈ baseEdges := (List.mem_zipIdx hy).2.2 ▸ List.getElem_mem _
  have hg := baseEdges_geom y hmem
  obtain ⟨i, j, f⟩ := y
  cases f with
  | true =>
    simp only [if_true] at hg
    ext <;> simp [deviation, Env.at_, positionArray, hg.1, hg.2] <;> ring
  | false =>
    simp only [Bool.false_eq_true, if_false] at hg
    ext <;> simp [deviation, Env.at_, positionArray, hg.1, hg.2] <;> ring

theorem dead_of_zero {at_ : Node → Pt} {x : Spring} (h : deviation at_ x = 0) : InDeadZone at_ x := by
  unfold InDeadZone
  rw [h]
  simp

theorem settleIter_zero (e : Env) (q : Phys) : settleIter e q 0 = q := rfl

theorem settleIter_succ (e : Env) (q : Phys) (n : ℕ) :
    settleIter e q (n + 1) = (springStep e (settleIter e q n)).1 := by
  unfold settleIter
  rw [Function.iterate_succ_apply']

open Classical in
/-- What the full integration returns. -/
theorem settle_ok {e : Env} {q : Phys} {p : Pt} (h : settle e q = .ok p) :
    ∃ n, ¬ settleMore e q n ∧ (∀ m < n, settleMore e q m) ∧ p = (settleIter e q (n + 1)).pos 0 := by
  unfold settle at h
  split_ifs at h with hx
  simp only [Outcome.ok.injEq] at h
  exact ⟨Nat.find hx, Nat.find_spec hx, fun m hm => not_not.1 (Nat.find_min hx hm), h.symm⟩

open Classical in
theorem settle_of {e : Env} {q : Phys} {n : ℕ} (h : ¬ settleMore e q n) (hm : ∀ m < n, settleMore e q m) :
    settle e q = .ok ((settleIter e q (n + 1)).pos 0) := by
  have hx : ∃ n, ¬ settleMore e q n := ⟨n, h⟩
  unfold settle
  rw [dif_pos hx]
  have : Nat.find hx = n := (Nat.find_eq_iff hx).2 ⟨h, fun m hm' => not_not.2 (hm m hm')⟩
  rw [this]

theorem settle_diverges {e : Env} {q : Phys} : settle e q = .diverges ↔ ∀ n, settleMore e q n := by
  unfold settle
  split_ifs with hx
  · simp only [reduceCtorEq, false_iff, not_forall]
    exact hx
  · simpa using hx

theorem settle_cases (e : Env) (q : Phys) : (∃ p, settle e q = .ok p) ∨ settle e q = .diverges := by
  unfold settle
  split_ifs with hx
  · exact Or.inl ⟨_, rfl⟩
  · exact Or.inr rfl

/-- Full integration of a mesh that is already at rest returns its first point. -/
theorem settle_rest {e : Env} {q : Phys} (hd : ∀ s ∈ e.springs, InDeadZone (e.at_ q.pos) s)
    (hv : ∀ i, q.vel i = 0) : settle e q = .ok (q.pos 0) := by
  have h := springStep_rest hd hv
  have := settle_of (e := e) (q := q) (n := 0) (by simp [settleMore, settleIter_zero, h]) (by simp)
  rw [this, settleIter_succ, settleIter_zero, h]

end Verif.Wobbly
