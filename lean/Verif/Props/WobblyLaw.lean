import Verif.Spec.Motion
import Verif.Lemmas.WobblySettle
import Verif.Props.WobblyAnchors
import Verif.Props.WobblyMesh

/-! # The law of motion (C95) -/

namespace Verif.Props

open Wobbly Spec Outcome Classical

noncomputable section

variable {p : Pt} {w h : ℝ} {x : Settings} {b : ℕ} {ops : List Op} {s : State} {rs : List Res}

theorem endAt_eq (s : State) (m : Mesh) : endAt s m = s.env.at_ m := by
  funext n
  cases n <;> rfl

theorem sum_x (l : List Spring) (f : Spring → Pt) : ((l.map f).sum).x = (l.map fun y => (f y).x).sum := by
  induction l with
  | nil => rfl
  | cons a l ih => simp [ih]

theorem sum_y (l : List Spring) (f : Spring → Pt) : ((l.map f).sum).y = (l.map fun y => (f y).y).sum := by
  induction l with
  | nil => rfl
  | cons a l ih => simp [ih]

theorem netForce_x (s : State) (m : Mesh) (i : Idx) :
    ((calculateForces s.env.k (s.env.at_ m) s.env.springs).1 (.mesh i)).x = netForce Pt.x s m i := by
  rw [calculateForces_force, sum_x]
  unfold netForce
  congr 1
  refine List.map_congr_left fun y _ => ?_
  unfold forceOf contribution
  rw [endAt_eq]
  simp only [eq_comm (a := Node.mesh i), Pt.sub_x]
  congr 1 <;> split_ifs <;> rfl

theorem netForce_y (s : State) (m : Mesh) (i : Idx) :
    ((calculateForces s.env.k (s.env.at_ m) s.env.springs).1 (.mesh i)).y = netForce Pt.y s m i := by
  rw [calculateForces_force, sum_y]
  unfold netForce
  congr 1
  refine List.map_congr_left fun y _ => ?_
  unfold forceOf contribution
  rw [endAt_eq]
  simp only [eq_comm (a := Node.mesh i), Pt.sub_y]
  congr 1 <;> split_ifs <;> rfl

theorem newVelocity_eq (friction v f : ℝ) : eulerVelocity 1 friction mass v f = newVelocity friction v f := by
  have : v + (f - v * friction) * (1 / mass) * 1 = v + (f - friction * v) / 15 := by
    unfold mass
    ring
  unfold eulerVelocity clip newVelocity
  rw [this]

theorem springStep_ticks (hl : ∀ i, s.locks i = heldBy s i) (m : Mesh) :
    Ticks s m (springStep s.env ⟨m, s.vel⟩).1.pos (springStep s.env ⟨m, s.vel⟩).1.vel := by
  have e : ∀ i, s.env.locks i = heldBy s i := hl
  refine ⟨?_, ?_, ?_, ?_, ?_⟩ <;> intro i hi <;> rw [← e i] at hi
  · exact (C36_moves_by_velocity _ _ i).2.2 hi
  · simp only [springStep, anchoredIntegration]
    rw [if_neg (by omega)]
    simp only [eulerIntegrate]
    rw [newVelocity_eq, netForce_x]
    rfl
  · simp only [springStep, anchoredIntegration]
    rw [if_neg (by omega)]
    simp only [eulerIntegrate]
    rw [newVelocity_eq, netForce_y]
    rfl
  · exact (C36_moves_by_velocity _ _ i).1
  · exact (C36_moves_by_velocity _ _ i).2.1

theorem not_dangling (h : EndsOwned s) : ¬ dangling s.springs s.live := endsOwned_iff.1 h

/-- **C95.** Unless exactly one anchor is owned, `Step (16)` is one tick of the law of motion from where the mesh
is, and its answer is whether some point has velocity or some spring is a pixel or more off. -/
theorem C95_free_tick (e : (State.new p w h x b).run ops = .ok (s, rs)) (h1 : (owned [] ops rs).length ≠ 1)
    (hd : EndsOwned s) :
    ∃ s' more, s.exec (.step 16) = .ok (s', .more more) ∧ Ticks s s.pos s'.pos s'.vel ∧
      (more ↔ (∃ i, s'.vel i ≠ ⟨0, 0⟩) ∨ ∃ y ∈ s.springs, ¬ InDeadZone (endAt s s.pos) y) := by
  have ha : ¬ s.active := fun h => h1 ((C45_tracking_iff e).1 h)
  have hl : ∀ i, s.locks i = heldBy s i := fun i => (C46_locks_count e i).1
  have hcount : stepCount 16 = 1 := by
    unfold stepCount
    norm_num
  have hround : s.round ⟨s.pos, s.vel⟩ = .ok ((springStep s.env ⟨s.pos, s.vel⟩).1, (springStep s.env ⟨s.pos, s.vel⟩).2) := by
    unfold State.round
    rw [if_neg ha]
  simp only [State.exec, State.step, hcount, State.integrate, hround, bind_ok, or_false]
  rw [if_neg (fun h => not_dangling hd h.2)]
  refine ⟨_, _, rfl, ?_, ?_⟩
  · have := springStep_ticks hl s.pos
    simpa only [ha, and_false, if_false] using this
  · rw [endAt_eq]
    have hm : (springStep s.env ⟨s.pos, s.vel⟩).2 ↔ (∃ i, (springStep s.env ⟨s.pos, s.vel⟩).1.vel i ≠ ⟨0, 0⟩) ∨
        ∃ y ∈ s.springs, ¬ InDeadZone (s.env.at_ s.pos) y := C36_more_iff s.env ⟨s.pos, s.vel⟩
    simp only [hm, ne_eq, OfNat.ofNat_ne_zero, not_false_eq_true, if_true, false_or]

/-- **C95.** While exactly one anchor is owned, `Step (16)` first brings every point within the maximum range of its
target. From there the law of motion applies. If no point has velocity, no spring is a pixel or more off and
no point was out of range, the answer is false and every point jumps to its target. -/
theorem C95_held_tick (e : (State.new p w h x b).run ops = .ok (s, rs)) (h1 : (owned [] ops rs).length = 1)
    (hd : EndsOwned s) (hR : 0 < s.settings.maximumRange) :
    ∃ m s' more, (∀ i, BroughtWithin s.settings.maximumRange (s.targets i) (s.pos i) (m i)) ∧
      s.exec (.step 16) = .ok (s', .more more) ∧
      (more ↔ (∃ i, s'.vel i ≠ ⟨0, 0⟩) ∨ (∃ y ∈ s.springs, ¬ InDeadZone (endAt s m) y) ∨
        ∃ i, s.settings.maximumRange ≤ euclid (s.targets i) (s.pos i)) ∧
      ∃ pos', Ticks s m pos' s'.vel ∧ (more → s'.pos = pos') ∧ (¬ more → s'.pos = s.targets) := by
  have ha := (C45_tracking_iff e).2 h1
  have hl : ∀ i, s.locks i = heldBy s i := fun i => (C46_locks_count e i).1
  have hcount : stepCount 16 = 1 := by
    unfold stepCount
    norm_num
  obtain ⟨m, moved, hc, -, k1, k2, k3⟩ := C37_range_respected _ hR s.targets s.pos
  have hround : s.round ⟨s.pos, s.vel⟩ = .ok ((springStep s.env ⟨m, s.vel⟩).1,
      moved ∨ (springStep s.env ⟨m, s.vel⟩).2) := by
    unfold State.round
    rw [if_pos ha]
    simp only [hc, bind_ok]
  refine ⟨m, ?_⟩
  simp only [State.exec, State.step, hcount, State.integrate, hround, bind_ok, or_false]
  rw [if_neg (fun h => not_dangling hd h.2)]
  refine ⟨_, _, fun i => ⟨k1 i, k2 i⟩, rfl, ?_, _, springStep_ticks hl m, ?_, ?_⟩
  · rw [endAt_eq]
    have hm : (springStep s.env ⟨m, s.vel⟩).2 ↔ (∃ i, (springStep s.env ⟨m, s.vel⟩).1.vel i ≠ ⟨0, 0⟩) ∨
        ∃ y ∈ s.springs, ¬ InDeadZone (s.env.at_ m) y := C36_more_iff s.env ⟨m, s.vel⟩
    simp only [k3, hm, ne_eq, OfNat.ofNat_ne_zero, not_false_eq_true, if_true, false_or]
    constructor
    · rintro (h | h | h)
      · exact Or.inr (Or.inr h)
      · exact Or.inl h
      · exact Or.inr (Or.inl h)
    · rintro (h | h | h)
      · exact Or.inr (Or.inl h)
      · exact Or.inr (Or.inr h)
      · exact Or.inl h
  · intro hm
    exact if_neg fun h => h.1 hm
  · intro hm
    exact if_pos ⟨hm, ha⟩

example : demo.run [.moveBy ⟨5, 7⟩] = .ok (demo.moveBy ⟨5, 7⟩, [.none]) ∧
    (owned [] [.moveBy ⟨5, 7⟩] [.none]).length ≠ 1 ∧ EndsOwned (demo.moveBy ⟨5, 7⟩) := by
  refine ⟨rfl, by simp [owned], ?_⟩
  intro y hy n hn
  obtain ⟨⟨i, hi⟩, ⟨j, hj⟩⟩ := base_ends_mesh hy
  rw [hi, hj] at hn
  simp at hn

example : ∃ s rs, demo.run [.grab ⟨90, 10⟩] = .ok (s, rs) ∧ (owned [] [.grab ⟨90, 10⟩] rs).length = 1 ∧ EndsOwned s ∧
    0 < s.settings.maximumRange := by
  obtain ⟨i, t, n, -, -, h⟩ := demo_grab ⟨90, 10⟩ (rep_small (by norm_num [abs_of_pos]) (by norm_num [abs_of_pos]))
  refine ⟨_, [.handle 0], run_one h, rfl, ?_, ?_⟩
  · intro y hy n hn
    obtain ⟨⟨i, hi⟩, ⟨j, hj⟩⟩ := base_ends_mesh hy
    rw [hi, hj] at hn
    simp at hn
  · show (0 : ℝ) < 500
    norm_num

/-- **C45.** While exactly one anchor is owned and the mesh has not settled, `Step (16)` leaves every point within the
maximum range of its target but for the movement of that very tick, which is half its velocity. -/
theorem C45_active_tick (e : (State.new p w h x b).run ops = .ok (s, rs)) (h1 : (owned [] ops rs).length = 1)
    (hd : EndsOwned s) (hR : 0 < s.settings.maximumRange) :
    ∃ s' more, s.exec (.step 16) = .ok (s', .more more) ∧ (more → ∀ i, ∃ m,
      euclid (s.targets i) m ≤ s.settings.maximumRange ∧
      (s'.pos i).x = m.x + (s'.vel i).x / 2 ∧ (s'.pos i).y = m.y + (s'.vel i).y / 2) := by
  obtain ⟨m, s', more, hm, hx, -, pos', ht, hp, -⟩ := C95_held_tick e h1 hd hR
  refine ⟨s', more, hx, fun h i => ⟨m i, ?_, ?_⟩⟩
  · rcases lt_or_ge (euclid (s.targets i) (s.pos i)) s.settings.maximumRange with hl | hl
    · rw [(hm i).1 hl]
      exact hl.le
    · exact ((hm i).2 hl).2.le
  · rw [hp h]
    rcases Nat.eq_zero_or_pos (heldBy s i) with h0 | h0
    · exact ⟨ht.posX i h0, ht.posY i h0⟩
    · obtain ⟨k1, k2⟩ := ht.pinned i h0
      rw [k1, k2]
      simp

/-- The last round of an integration with active targets. -/
theorem integrate_in_range (ha : s.active) (hR : 0 < s.settings.maximumRange) :
    ∀ (n : ℕ) (q : Phys), ∃ r more, s.integrate n q = .ok (r, more) ∧ (n ≠ 0 → ∀ i, ∃ m,
      euclid (s.targets i) m ≤ s.settings.maximumRange ∧
      (r.pos i).x = m.x + (r.vel i).x / 2 ∧ (r.pos i).y = m.y + (r.vel i).y / 2) := by
  intro n
  induction n with
  | zero => exact fun q => ⟨q, False, rfl, fun h => absurd rfl h⟩
  | succ n ih =>
    intro q
    obtain ⟨m, moved, hc, k0, -⟩ := C37_range_respected _ hR s.targets q.pos
    have hround : s.round q = .ok ((springStep s.env ⟨m, q.vel⟩).1, moved ∨ (springStep s.env ⟨m, q.vel⟩).2) := by
      unfold State.round
      rw [if_pos ha]
      simp only [hc, bind_ok]
    obtain ⟨r, more, hi, hk⟩ := ih (springStep s.env ⟨m, q.vel⟩).1
    refine ⟨r, (moved ∨ (springStep s.env ⟨m, q.vel⟩).2) ∨ more, by simp only [State.integrate, hround, bind_ok, hi], fun _ => ?_⟩
    by_cases h0 : n = 0
    · subst h0
      simp only [State.integrate, Outcome.ok.injEq, Prod.mk.injEq] at hi
      rw [← hi.1]
      exact fun i => ⟨m i, k0 i, (C36_moves_by_velocity _ _ i).1, (C36_moves_by_velocity _ _ i).2.1⟩
    · exact hk h0

/-- **C37.** As seen from outside: while exactly one anchor is owned and the maximum range is positive, `Step` returns,
whatever the time. Afterwards every point of the mesh is within the maximum range of its target but for the movement of
the last tick, which is half its velocity; or `Step` answered false and every point is on its target. -/
theorem C37_after_step (e : (State.new p w h x b).run ops = .ok (s, rs)) (h1 : (owned [] ops rs).length = 1)
    (hd : EndsOwned s) (hR : 0 < s.settings.maximumRange) {t : ℕ} (ht : t ≠ 0) :
    ∃ s' more, s.exec (.step t) = .ok (s', .more more) ∧ (¬ more → s'.pos = s.targets) ∧ (more → ∀ i, ∃ m,
      euclid (s.targets i) m ≤ s.settings.maximumRange ∧
      (s'.pos i).x = m.x + (s'.vel i).x / 2 ∧ (s'.pos i).y = m.y + (s'.vel i).y / 2) := by
  have ha := (C45_tracking_iff e).2 h1
  have hcount := stepCount_pos ht
  obtain ⟨r, moved, hi, hk⟩ := integrate_in_range ha hR (stepCount t) ⟨s.pos, s.vel⟩
  simp only [State.exec, State.step, hi, bind_ok]
  rw [if_neg (fun h => not_dangling hd h.2)]
  refine ⟨_, _, rfl, fun hm => if_pos ⟨hm, ha⟩, fun hm i => ?_⟩
  obtain ⟨m, k1, k2, k3⟩ := hk hcount i
  refine ⟨m, k1, ?_⟩
  simp only [if_neg fun h : ¬ _ ∧ s.active => h.1 hm]
  exact ⟨k2, k3⟩

theorem newVelocity_clipped (f v F : ℝ) : newVelocity f v F = 0 ∨ 1 / 10 ≤ |newVelocity f v F| := by
  unfold newVelocity
  split_ifs with h
  · exact .inl rfl
  · exact .inr (not_lt.1 h)

theorem newVelocity_near (f v F : ℝ) : |newVelocity f v F - (v + (F - f * v) / 15)| ≤ 1 / 10 := by
  unfold newVelocity
  split_ifs with h
  · rw [zero_sub, abs_neg]
    exact h.le
  · norm_num

/-- **C36.** As seen from outside: unless exactly one anchor is owned, `Step (16)` moves each coordinate of each mesh point
not at all or by at least a twentieth of a pixel. -/
theorem C36_displacement (e : (State.new p w h x b).run ops = .ok (s, rs)) (h1 : (owned [] ops rs).length ≠ 1)
    (hd : EndsOwned s) :
    ∃ s' more, s.exec (.step 16) = .ok (s', .more more) ∧ ∀ i,
      ((s'.pos i).x = (s.pos i).x ∨ 1 / 20 ≤ |(s'.pos i).x - (s.pos i).x|) ∧
      ((s'.pos i).y = (s.pos i).y ∨ 1 / 20 ≤ |(s'.pos i).y - (s.pos i).y|) := by
  obtain ⟨s', more, hx, ht, -⟩ := C95_free_tick e h1 hd
  refine ⟨s', more, hx, fun i => ?_⟩
  rcases Nat.eq_zero_or_pos (heldBy s i) with h0 | h0
  · rw [ht.posX i h0, ht.posY i h0, ht.velX i h0, ht.velY i h0]
    have key : ∀ {a v : ℝ}, v = 0 ∨ 1 / 10 ≤ |v| → a + v / 2 = a ∨ 1 / 20 ≤ |a + v / 2 - a| := by
      intro a v hv
      rcases hv with rfl | hv
      · left
        ring
      · right
        rw [add_sub_cancel_left, abs_div, abs_of_pos (by norm_num : (0 : ℝ) < 2)]
        linarith
    exact ⟨key (newVelocity_clipped _ _ _), key (newVelocity_clipped _ _ _)⟩
  · rw [(ht.pinned i h0).1]
    exact ⟨.inl rfl, .inl rfl⟩

theorem sum_netForce (c : Pt → ℝ) (m : Mesh) (hm : ∀ y ∈ s.springs, (∃ i, y.a = .mesh i) ∧ ∃ j, y.b = .mesh j) :
    ∑ i, netForce c s m i = 0 := by
  unfold netForce
  suffices h : ∀ l : List Spring, (∀ y ∈ l, (∃ i, y.a = .mesh i) ∧ ∃ j, y.b = .mesh j) →
      ∑ i, (l.map (forceOf c s m i)).sum = 0 from h s.springs hm
  intro l
  induction l with
  | nil => simp
  | cons y l ih =>
    intro hm
    simp only [List.map_cons, List.sum_cons, Finset.sum_add_distrib]
    rw [ih fun z hz => hm z (List.mem_cons_of_mem _ hz), add_zero]
    obtain ⟨⟨i, hi⟩, j, hj⟩ := hm y (List.mem_cons_self ..)
    unfold forceOf
    rw [Finset.sum_sub_distrib, hi, hj]
    simp

/-- **C34.** As seen from outside: the springs of a model without anchors cannot set it in motion as a whole. In one tick the
sum of the velocities of all mesh points only shrinks by friction, up to the velocities below 0.1 that are dropped, of
which each point has at most one per coordinate. -/
theorem C34_momentum (e : (State.new p w h x b).run ops = .ok (s, rs)) (h1 : owned [] ops rs = []) (hd : EndsOwned s) :
    ∃ s' more, s.exec (.step 16) = .ok (s', .more more) ∧
      |∑ i, (s'.vel i).x - (1 - s.settings.friction / 15) * ∑ i, (s.vel i).x| ≤ 16 / 10 ∧
      |∑ i, (s'.vel i).y - (1 - s.settings.friction / 15) * ∑ i, (s.vel i).y| ≤ 16 / 10 := by
  obtain ⟨s', more, hx, ht, -⟩ := C95_free_tick e (by rw [h1]; simp) hd
  have hl : s.live = [] := by
    have := live_owned e
    rw [show (State.new p w h x b).live.map Live.hid = [] from rfl, h1] at this
    exact List.map_eq_nil_iff.1 this
  have h0 : ∀ i, heldBy s i = 0 := by
    intro i
    unfold heldBy
    rw [hl]
    rfl
  have hm : ∀ y ∈ s.springs, (∃ i, y.a = .mesh i) ∧ ∃ j, y.b = .mesh j := by
    intro y hy
    constructor
    · cases ha : y.a with
      | mesh i => exact ⟨i, rfl⟩
      | anchor n =>
        obtain ⟨q, hq⟩ := hd y hy n (.inl ha)
        rw [hl] at hq
        cases hq
    · cases hb : y.b with
      | mesh i => exact ⟨i, rfl⟩
      | anchor n =>
        obtain ⟨q, hq⟩ := hd y hy n (.inr hb)
        rw [hl] at hq
        cases hq
  have key : ∀ (c : Pt → ℝ) (v' v : Idx → ℝ), (∀ i, v' i = newVelocity s.settings.friction (v i) (netForce c s s.pos i)) →
      |∑ i, v' i - (1 - s.settings.friction / 15) * ∑ i, v i| ≤ 16 / 10 := by
    intro c v' v hv
    have e1 : ∑ i, v' i - (1 - s.settings.friction / 15) * ∑ i, v i =
        ∑ i, (newVelocity s.settings.friction (v i) (netForce c s s.pos i) -
          (v i + (netForce c s s.pos i - s.settings.friction * v i) / 15)) := by
      have hz := sum_netForce (s := s) c s.pos hm
      rw [Finset.mul_sum, ← Finset.sum_sub_distrib]
      have e2 : ∑ i, (newVelocity s.settings.friction (v i) (netForce c s s.pos i) -
          (v i + (netForce c s s.pos i - s.settings.friction * v i) / 15)) =
          ∑ i, (v' i - (1 - s.settings.friction / 15) * v i) - (∑ i, netForce c s s.pos i) / 15 := by
        rw [div_eq_mul_inv (∑ i, netForce c s s.pos i), Finset.sum_mul, ← Finset.sum_sub_distrib]
        refine Finset.sum_congr rfl fun i _ => ?_
        rw [hv i]
        ring
      rw [e2, hz]
      ring
    rw [e1]
    refine (Finset.abs_sum_le_sum_abs _ _).trans ?_
    refine (Finset.sum_le_sum fun i _ => newVelocity_near s.settings.friction (v i) (netForce c s s.pos i)).trans ?_
    rw [Finset.sum_const]
    simp
    norm_num
  exact ⟨s', more, hx, key Pt.x _ _ fun i => ht.velX i (h0 i), key Pt.y _ _ fun i => ht.velY i (h0 i)⟩

/-- The hypotheses hold for a model that was moved and resized. -/
example : owned [] [.moveBy ⟨5, 7⟩] [.none] = [] := rfl

end

end Verif.Props
