import Verif.Lemmas.WobblyTick
import Verif.Props.WobblyLaw
import Verif.Props.WobblyBook

/-! # Wobbly: one tick in double precision (C130)

`run R.rnd (Rounded.new R.rnd p w h x b) ops = .ok (s, rs)` says: in `double` arithmetic with the rounding `R` a model is made
at `p` with size `w` by `h` and settings `x`, the calls `ops` all return, giving `rs`, and `s` is the state reached. -/

namespace Verif.Props

open Wobbly Wobbly.Rounded Spec Outcome Classical

noncomputable section

variable {R : Rounding64} {p : Pt} {w h : ℝ} {x : Settings} {b : ℕ} {ops : List Op} {rs : List Res} {s : State}

/-- How far the code takes the springs to be off. -/
def codeMeasures (R : Rounding64) (s : State) (m : Mesh) (y : Spring) : Pt :=
  ⟨2 * (Rounded.deltaA R.rnd y (s.env.at_ m)).x, 2 * (Rounded.deltaA R.rnd y (s.env.at_ m)).y⟩

theorem codeMeasures_ok (hodd : Symmetric R) (L : LengthsDouble s) (O : Ordinarily s) {m : Mesh}
    (hm : ∀ i, |(m i).x| ≤ 32769 ∧ |(m i).y| ≤ 32769) {y : Spring} (hy : y ∈ s.springs) :
    (Measured (deviation (endAt s m) y).x (codeMeasures R s m y).x ∧
      Measured (deviation (endAt s m) y).y (codeMeasures R s m y).y) ∧
    ((Rounded.deltaB R.rnd y (s.env.at_ m)).x = -(Rounded.deltaA R.rnd y (s.env.at_ m)).x ∧
      (Rounded.deltaB R.rnd y (s.env.at_ m)).y = -(Rounded.deltaA R.rnd y (s.env.at_ m)).y) ∧
    |(Rounded.deltaA R.rnd y (s.env.at_ m)).x| ≤ 49155 ∧ |(Rounded.deltaA R.rnd y (s.env.at_ m)).y| ≤ 49155 := by
  have hend : ∀ n, n = y.a ∨ n = y.b → |(s.env.at_ m n).x| ≤ 32769 ∧ |(s.env.at_ m n).y| ≤ 32769 := by
    intro n hn
    cases n with
    | mesh i => exact hm i
    | anchor k =>
      have := O.ends y hy _ hn
      exact ⟨le_trans this.1 (by norm_num), le_trans this.2 (by norm_num)⟩
  obtain ⟨d1, d2⟩ := L.springs y hy
  obtain ⟨l1, l2⟩ := O.lengths y hy
  obtain ⟨a1, a2⟩ := hend y.a (.inl rfl)
  obtain ⟨b1, b2⟩ := hend y.b (.inr rfl)
  obtain ⟨x1, x2, x3⟩ := measure R hodd a1 b1 l1 d1
  obtain ⟨y1, y2, y3⟩ := measure R hodd a2 b2 l2 d2
  rw [endAt_eq]
  exact ⟨⟨x2, y2⟩, ⟨x1, y1⟩, x3, y3⟩

theorem force_flag (r : ℝ → ℝ) (k : ℝ) (at_ : Node → Pt) (l : List Spring) (acc : (Node → Pt) × Prop) :
    (l.foldl (fun acc s => let f := Rounded.applyForces r s k at_ acc.1; (f.1, acc.2 ∨ f.2)) acc).2 ↔
      acc.2 ∨ ∃ y ∈ l, r (|(Rounded.deltaA r y at_).x| + |(Rounded.deltaB r y at_).x|) > 0 ∨
        r (|(Rounded.deltaA r y at_).y| + |(Rounded.deltaB r y at_).y|) > 0 := by
  induction l generalizing acc with
  | nil => simp
  | cons y l ih =>
    rw [List.foldl_cons, ih]
    simp only [Rounded.applyForces, List.mem_cons, exists_eq_or_imp, or_assoc]

theorem pulls_iff {a : ℝ} (ha : a = 0 ∨ 1 / 2 ≤ |a|) : R.rnd (|a| + |(-a)|) > 0 ↔ a ≠ 0 := by
  rw [abs_neg]
  constructor
  · rintro h rfl
    rw [abs_zero, add_zero, R.exact double_zero] at h
    exact lt_irrefl _ h
  · intro h
    have h2 := ha.resolve_left h
    have := R.one_le (x := |a| + |a|) (by linarith)
    linarith

/-- One round of the integration obeys the law of motion up to rounding. -/
theorem round_ticks (hodd : Symmetric R) (L : LengthsDouble s) (O : Ordinarily s) (hl : ∀ i, s.locks i = heldBy s i) {m : Mesh}
    (hm : ∀ i, |(m i).x| ≤ 32769 ∧ |(m i).y| ≤ 32769) :
    NearlyTicks s m (codeMeasures R s m) (springRound R.rnd s.env ⟨m, s.vel⟩).1.pos (springRound R.rnd s.env ⟨m, s.vel⟩).1.vel ∧
    ((springRound R.rnd s.env ⟨m, s.vel⟩).2 ↔ (∃ i, (springRound R.rnd s.env ⟨m, s.vel⟩).1.vel i ≠ ⟨0, 0⟩) ∨
      ∃ y ∈ s.springs, codeMeasures R s m y ≠ ⟨0, 0⟩) := by
  have hk : |s.env.k| ≤ 16 := abs_le.2 ⟨by linarith [O.constant.1, show s.env.k = s.settings.springConstant from rfl], O.constant.2⟩
  have C := fun y hy => codeMeasures_ok hodd L O hm (y := y) hy
  have hlen : (s.springs.length : ℝ) ≤ 64 := by exact_mod_cast O.springs
  have fx := fun i => slots R (i := i) hk s.springs (A := fun y => (Rounded.deltaA R.rnd y (s.env.at_ m)).x)
    (B := fun y => (Rounded.deltaB R.rnd y (s.env.at_ m)).x) (fun y hy => (C y hy).2.2.1) (fun y hy => (C y hy).2.1.1) 0
    (by rw [abs_zero]; norm_num; linarith)
  have fy := fun i => slots R (i := i) hk s.springs (A := fun y => (Rounded.deltaA R.rnd y (s.env.at_ m)).y)
    (B := fun y => (Rounded.deltaB R.rnd y (s.env.at_ m)).y) (fun y hy => (C y hy).2.2.2) (fun y hy => (C y hy).2.1.2) 0
    (by rw [abs_zero]; norm_num; linarith)
  have gx : ∀ i, |((Rounded.calculateForces R.rnd s.env.k (s.env.at_ m) s.env.springs).1 (.mesh i)).x -
      measuredForce Pt.x s (codeMeasures R s m) i| ≤ 1 / 2 ^ 20 + 1 / 2 ^ 27 ∧
      |((Rounded.calculateForces R.rnd s.env.k (s.env.at_ m) s.env.springs).1 (.mesh i)).x| ≤ 100669568 := by
    intro i
    obtain ⟨h1, h2⟩ := fx i
    unfold Rounded.calculateForces
    rw [slot_x]
    constructor
    · rw [zero_add] at h1
      refine le_trans h1 ?_
      norm_num
      linarith
    · refine le_trans h2 ?_
      rw [abs_zero]
      linarith
  have gy : ∀ i, |((Rounded.calculateForces R.rnd s.env.k (s.env.at_ m) s.env.springs).1 (.mesh i)).y -
      measuredForce Pt.y s (codeMeasures R s m) i| ≤ 1 / 2 ^ 20 + 1 / 2 ^ 27 ∧
      |((Rounded.calculateForces R.rnd s.env.k (s.env.at_ m) s.env.springs).1 (.mesh i)).y| ≤ 100669568 := by
    intro i
    obtain ⟨h1, h2⟩ := fy i
    unfold Rounded.calculateForces
    rw [slot_y]
    constructor
    · rw [zero_add] at h1
      refine le_trans h1 ?_
      norm_num
      linarith
    · refine le_trans h2 ?_
      rw [abs_zero]
      linarith
  have ex := fun i => euler_near R O.friction.1 O.friction.2 (O.vel i).1 (gx i).1 (gx i).2
  have ey := fun i => euler_near R O.friction.1 O.friction.2 (O.vel i).2 (gy i).1 (gy i).2
  have e : ∀ i, s.env.locks i = heldBy s i := hl
  refine ⟨⟨fun y hy => (C y hy).1, ?_, ?_, ?_, ?_, ?_⟩, ?_⟩
  · intro i hi
    rw [← e i] at hi
    simp only [springRound, Rounded.anchoredIntegration]
    rw [if_pos hi, if_pos hi]
    exact ⟨rfl, rfl⟩
  · intro i hi
    rw [← e i] at hi
    simp only [springRound, Rounded.anchoredIntegration]
    rw [if_neg (by omega)]
    exact (ex i).1
  · intro i hi
    rw [← e i] at hi
    simp only [springRound, Rounded.anchoredIntegration]
    rw [if_neg (by omega)]
    exact (ey i).1
  · intro i hi
    rw [← e i] at hi
    simp only [springRound, Rounded.anchoredIntegration]
    rw [if_neg (by omega), if_neg (by omega)]
    exact move_near R (hm i).1 (ex i).2
  · intro i hi
    rw [← e i] at hi
    simp only [springRound, Rounded.anchoredIntegration]
    rw [if_neg (by omega), if_neg (by omega)]
    exact move_near R (hm i).2 (ey i).2
  · have hf : (Rounded.calculateForces R.rnd s.env.k (s.env.at_ m) s.env.springs).2 ↔
        ∃ y ∈ s.springs, codeMeasures R s m y ≠ ⟨0, 0⟩ := by
      unfold Rounded.calculateForces
      rw [force_flag]
      simp only [false_or]
      refine exists_congr fun y => and_congr_right fun hy => ?_
      obtain ⟨-, ⟨q1, q2⟩, -⟩ := C y hy
      have c1 : (Rounded.deltaA R.rnd y (s.env.at_ m)).x = 0 ∨ 1 / 2 ≤ |(Rounded.deltaA R.rnd y (s.env.at_ m)).x| := clip_cases _ _
      have c2 : (Rounded.deltaA R.rnd y (s.env.at_ m)).y = 0 ∨ 1 / 2 ≤ |(Rounded.deltaA R.rnd y (s.env.at_ m)).y| := clip_cases _ _
      rw [q1, q2, pulls_iff c1, pulls_iff c2]
      unfold codeMeasures
      simp only [ne_eq, Pt.mk.injEq, not_and_or, mul_eq_zero, OfNat.ofNat_ne_zero, false_or]
    simp only [springRound]
    rw [hf, or_comm]
    refine or_congr_left ?_
    simp only [Rounded.anchoredIntegration]
    refine exists_congr fun i => ?_
    by_cases hi : s.env.locks i > 0
    · rw [if_pos hi]
      simp only [hi, not_true_eq_false, false_and, false_iff, not_not]
      rfl
    · rw [if_neg hi]
      simp only [hi, not_false_eq_true, true_and, Rounded.eulerIntegrate, gt_iff_lt, abs_pos]
      rw [Ne, Ne, Ne, Pt.mk.injEq, not_and_or]

/-- **C130.** In `double` arithmetic, unless exactly one anchor is owned, `Step (16)` returns and is, up to rounding, one tick
of the law of motion from where the mesh is; its answer is whether some point has velocity or some spring was measured to be
off. -/
theorem C130_free_tick (hodd : Symmetric R) (e : run R.rnd (Rounded.new R.rnd p w h x b) ops = .ok (s, rs))
    (h1 : (owned [] ops rs).length ≠ 1) (hd : EndsOwned s) (O : Ordinarily s) :
    ∃ s' more E, exec R.rnd s (.step 16) = .ok (s', .more more) ∧ NearlyTicks s s.pos E s'.pos s'.vel ∧
      (more ↔ (∃ i, s'.vel i ≠ ⟨0, 0⟩) ∨ ∃ y ∈ s.springs, E y ≠ ⟨0, 0⟩) := by
  have ha : ¬ s.active := fun h => h1 ((C126_tracking e).2.1 h)
  have hcount : stepCount 16 = 1 := by
    unfold stepCount
    norm_num
  obtain ⟨t1, t2⟩ := round_ticks hodd (run_lengths (new_lengths R p w h x b) e) O (fun i => (C126_locks e i).1)
    (m := s.pos) fun i => ⟨le_trans (O.pos i).1 (by norm_num), le_trans (O.pos i).2 (by norm_num)⟩
  have hround : Rounded.round R.rnd s ⟨s.pos, s.vel⟩ =
      .ok ((springRound R.rnd s.env ⟨s.pos, s.vel⟩).1, (springRound R.rnd s.env ⟨s.pos, s.vel⟩).2) := by
    unfold Rounded.round
    rw [if_neg ha]
  simp only [exec, Rounded.step, hcount, Rounded.rounds, hround, bind_ok, or_false]
  rw [if_neg (fun h => not_dangling hd h.2)]
  refine ⟨_, _, codeMeasures R s s.pos, rfl, ?_, ?_⟩
  · simpa only [ha, and_false, if_false] using t1
  · simp only [t2, ne_eq, OfNat.ofNat_ne_zero, not_false_eq_true, if_true, false_or]

/-- **C130.** While exactly one anchor is owned, `Step (16)` returns. It first brings every point within the maximum range of
its target, up to rounding. From there it is, up to rounding, one tick of the law of motion. If no point has velocity, no
spring was measured to be off and no point to be out of range, the answer is false and every point jumps exactly to its
target. -/
theorem C130_held_tick (hodd : Symmetric R) (e : run R.rnd (Rounded.new R.rnd p w h x b) ops = .ok (s, rs))
    (h1 : (owned [] ops rs).length = 1) (hd : EndsOwned s) (O : Ordinarily s)
    (hR : 1 ≤ s.settings.maximumRange ∧ s.settings.maximumRange ≤ 32768) :
    ∃ m s' more E, ∃ out : Idx → Prop,
      (∀ i, NearlyBrought s.settings.maximumRange (s.targets i) (s.pos i) (m i) (out i)) ∧
      exec R.rnd s (.step 16) = .ok (s', .more more) ∧
      (more ↔ (∃ i, s'.vel i ≠ ⟨0, 0⟩) ∨ (∃ y ∈ s.springs, E y ≠ ⟨0, 0⟩) ∨ ∃ i, out i) ∧
      ∃ pos', NearlyTicks s m E pos' s'.vel ∧ (more → s'.pos = pos') ∧ (¬ more → s'.pos = s.targets) := by
  have ha : s.active := (C126_tracking e).2.2 h1
  have hcount : stepCount 16 = 1 := by
    unfold stepCount
    norm_num
  have B := fun i => brought R (O.targets i) (O.pos i) hR.1 hR.2
  have hc : ¬ ∃ i, ¬ Rounded.distance R.rnd (s.targets i) (s.pos i) < s.settings.maximumRange ∧
      Rounded.distance R.rnd (s.targets i) (s.pos i) = 0 := by
    rintro ⟨i, h2, h3⟩
    rw [h3] at h2
    linarith [hR.1]
  obtain ⟨t1, t2⟩ := round_ticks hodd (run_lengths (new_lengths R p w h x b) e) O (fun i => (C126_locks e i).1)
    (m := fun i => if Rounded.distance R.rnd (s.targets i) (s.pos i) < s.settings.maximumRange then s.pos i
      else Rounded.constrainPoint R.rnd s.settings.maximumRange (s.targets i) (s.pos i)) fun i => (B i).2
  set m : Mesh := fun i => if Rounded.distance R.rnd (s.targets i) (s.pos i) < s.settings.maximumRange then s.pos i
      else Rounded.constrainPoint R.rnd s.settings.maximumRange (s.targets i) (s.pos i) with hm
  have hround : Rounded.round R.rnd s ⟨s.pos, s.vel⟩ = .ok ((springRound R.rnd s.env ⟨m, s.vel⟩).1,
      (∃ i, ¬ Rounded.distance R.rnd (s.targets i) (s.pos i) < s.settings.maximumRange) ∨
        (springRound R.rnd s.env ⟨m, s.vel⟩).2) := by
    unfold Rounded.round
    rw [if_pos ha]
    unfold Rounded.constrain
    rw [if_neg hc]
    rfl
  simp only [exec, Rounded.step, hcount, Rounded.rounds, hround, bind_ok, or_false]
  rw [if_neg (fun h => not_dangling hd h.2)]
  refine ⟨m, _, _, codeMeasures R s m, fun i => ¬ Rounded.distance R.rnd (s.targets i) (s.pos i) < s.settings.maximumRange,
    fun i => (B i).1, rfl, ?_, _, t1, ?_, ?_⟩
  · simp only [t2, ne_eq, OfNat.ofNat_ne_zero, not_false_eq_true, if_true, false_or]
    constructor
    · rintro (h | h | h)
      · exact Or.inr (Or.inr h)
      · exact Or.inl h
      · exact Or.inr (Or.inl h)
    · rintro (h | h | h)
      · exact Or.inr (Or.inl h)
      · exact Or.inr (Or.inr h)
      · exact Or.inl h
  · intro hm
    exact if_neg fun h => h.1 hm
  · intro hm
    exact if_pos ⟨hm, ha⟩

theorem forces_cancel {c : Pt → ℝ} {E : Spring → Pt} (h : ∀ y ∈ s.springs, (∃ i, y.a = .mesh i) ∧ ∃ j, y.b = .mesh j) :
    ∑ i, measuredForce c s E i = 0 := by
  unfold measuredForce
  generalize s.springs = l at h
  induction l with
  | nil => simp
  | cons y l ih =>
    obtain ⟨⟨i, hi⟩, j, hj⟩ := h y (by simp)
    simp only [List.map_cons, List.sum_cons, Finset.sum_add_distrib, ih fun z hz => h z (by simp [hz]), add_zero,
      Finset.sum_sub_distrib, hi, hj, Node.mesh.injEq, Finset.sum_ite_eq, Finset.mem_univ, if_true, sub_self]

theorem near_free {f v F v' : ℝ} (h : NearVelocity f v F v') : |v' - freeVelocity f v F| ≤ 1 / 10 + 1 / 2 ^ 22 := by
  rcases h with ⟨rfl, h⟩ | ⟨-, h⟩
  · rw [zero_sub, abs_neg]
    exact h.le
  · linarith

theorem momentum_near {f : ℝ} {v F v' : Idx → ℝ} (hF : ∑ i, F i = 0) (h : ∀ i, NearVelocity f (v i) (F i) (v' i)) :
    |∑ i, v' i - (1 - f / 15) * ∑ i, v i| ≤ 16 / 10 + 1 / 2 ^ 18 := by
  have e : ∑ i, v' i - (1 - f / 15) * ∑ i, v i = ∑ i, (v' i - freeVelocity f (v i) (F i)) := by
    have hr : ∀ i, freeVelocity f (v i) (F i) = (1 - f / 15) * v i + 1 / 15 * F i := fun i => by unfold freeVelocity; ring
    simp only [hr, Finset.sum_sub_distrib, Finset.sum_add_distrib, ← Finset.mul_sum, hF, mul_zero, add_zero]
  rw [e]
  refine (Finset.abs_sum_le_sum_abs _ _).trans ?_
  refine (Finset.sum_le_card_nsmul _ _ _ fun i _ => near_free (h i)).trans ?_
  norm_num

/-- **C130.** So while no anchor is owned, one tick only loses the momentum friction takes: the sum of all velocities is that of
before times `1 - friction / 15`, but for the velocities below 0.1 that are cut and for rounding. -/
theorem C130_momentum (hodd : Symmetric R) (e : run R.rnd (Rounded.new R.rnd p w h x b) ops = .ok (s, rs))
    (h0 : owned [] ops rs = []) (O : Ordinarily s) :
    ∃ s' more, exec R.rnd s (.step 16) = .ok (s', .more more) ∧
      |∑ i, (s'.vel i).x - (1 - s.settings.friction / 15) * ∑ i, (s.vel i).x| ≤ 16 / 10 + 1 / 2 ^ 18 ∧
      |∑ i, (s'.vel i).y - (1 - s.settings.friction / 15) * ∑ i, (s.vel i).y| ≤ 16 / 10 + 1 / 2 ^ 18 := by
  have hlive : s.live = [] := by
    have := run_owned e
    have h2 : s.live.map Live.hid = owned [] ops rs := this
    rw [h0] at h2
    exact List.map_eq_nil_iff.1 h2
  have hm : ∀ y ∈ s.springs, (∃ i, y.a = .mesh i) ∧ ∃ j, y.b = .mesh j := by
    intro y hy
    have hp := (C126_springs_restored e (by intro a ha; rw [hlive] at ha; exact absurd ha List.not_mem_nil)).1
    have := hp.subset (List.mem_map.2 ⟨y, hy, rfl⟩)
    obtain ⟨z, hz, hzy⟩ := List.mem_map.1 this
    simp only [Prod.mk.injEq] at hzy
    rw [← hzy.2.1, ← hzy.2.2]
    exact baseSprings_mesh hz
  have hd : EndsOwned s := by
    intro y hy k hk
    obtain ⟨⟨i1, h1⟩, i2, h2⟩ := hm y hy
    rw [h1, h2] at hk
    rcases hk with hk | hk <;> cases hk
  have hfree : ∀ i, heldBy s i = 0 := by
    intro i
    unfold heldBy
    rw [hlive]
    rfl
  obtain ⟨s', more, E, ex, t, -⟩ := C130_free_tick hodd e (by rw [h0]; simp) hd O
  exact ⟨s', more, ex, momentum_near (forces_cancel hm) fun i => t.velX i (hfree i),
    momentum_near (forces_cancel hm) fun i => t.velY i (hfree i)⟩

/-- A rounding that treats a number and its opposite alike. -/
def evenHanded (R : Rounding64) : Rounding64 where
  rnd x := if 0 ≤ x then R.rnd x else -R.rnd (-x)
  double x := by
    split_ifs
    · exact R.double x
    · exact double_neg (R.double (-x))
  nearest x y hy := by
    split_ifs
    · exact R.nearest x y hy
    · have := R.nearest (-x) (-y) (double_neg hy)
      rw [show -R.rnd (-x) - x = -(R.rnd (-x) - -x) by ring, abs_neg]
      rwa [show -y - -x = -(y - x) by ring, abs_neg] at this

/-- There is such a rounding. -/
example : Symmetric (evenHanded someRounding64) := by
  intro x
  show (if 0 ≤ -x then _ else _) = -(if 0 ≤ x then _ else _)
  rcases lt_trichotomy x 0 with h | rfl | h
  · rw [if_pos (by linarith), if_neg (by linarith), neg_neg]
  · rw [neg_zero, if_pos le_rfl, if_pos le_rfl, someRounding64.exact double_zero, neg_zero]
  · rw [if_neg (by linarith), if_pos h.le, neg_neg]

theorem whole_ordinarily {s : State} (hs : s.springs = baseSprings ⟨100, 100⟩ b) (hp : s.pos = wholeMesh)
    (ht : s.targets = wholeMesh) (hv : ∀ i, s.vel i = 0) (hx : s.settings = ⟨8, 5, 500⟩) : Ordinarily s := by
  have hw : ∀ i, |(wholeMesh i).x| ≤ 32768 ∧ |(wholeMesh i).y| ≤ 32768 := by
    intro i
    obtain ⟨h1, h2⟩ := wholeMesh_small i
    have c0 : (0 : ℝ) ≤ col i := Nat.cast_nonneg _
    have r0 : (0 : ℝ) ≤ row i := Nat.cast_nonneg _
    simp only [wholeMesh]
    rw [abs_of_nonneg (by positivity), abs_of_nonneg (by positivity)]
    constructor <;> linarith
  refine ⟨by rw [hx]; norm_num, by rw [hx]; norm_num, ?_, ?_, ?_, by rw [hp]; exact hw, by rw [ht]; exact hw, ?_⟩
  · rw [hs]
    have h24 : (baseSprings ⟨100, 100⟩ b).length = 24 := by
      simp [baseSprings, baseEdges_length]
    omega
  · intro y hy
    rw [hs] at hy
    simp only [baseSprings, List.mem_map] at hy
    obtain ⟨z, -, rfl⟩ := hy
    dsimp only
    split_ifs <;> norm_num
  · intro y hy n hn
    rw [hs] at hy
    obtain ⟨⟨i1, h1⟩, i2, h2⟩ := baseSprings_mesh hy
    rcases hn with rfl | rfl
    · rw [h1]
      show |(s.pos i1).x| ≤ _ ∧ |(s.pos i1).y| ≤ _
      rw [hp]
      exact hw i1
    · rw [h2]
      show |(s.pos i2).x| ≤ _ ∧ |(s.pos i2).y| ≤ _
      rw [hp]
      exact hw i2
  · intro i
    rw [hv i]
    norm_num

/-- The hypotheses of `C130_free_tick` and `C130_momentum`. -/
example (b : ℕ) : run R.rnd (Rounded.new R.rnd ⟨0, 0⟩ 300 300 ⟨8, 5, 500⟩ b) [] =
      .ok (Rounded.new R.rnd ⟨0, 0⟩ 300 300 ⟨8, 5, 500⟩ b, []) ∧ owned [] [] [] = [] ∧
    Ordinarily (Rounded.new R.rnd ⟨0, 0⟩ 300 300 ⟨8, 5, 500⟩ b) := by
  obtain ⟨h1, h2, -⟩ := whole_new R ⟨8, 5, 500⟩ b
  exact ⟨rfl, rfl, whole_ordinarily h2 h1 h1 (fun _ => rfl) rfl⟩

/-- Those of `C130_held_tick`: a mesh point is held. -/
example (b : ℕ) (i : Idx) : ∃ s rs,
    run R.rnd (Rounded.new R.rnd ⟨0, 0⟩ 300 300 ⟨8, 5, 500⟩ b) [.grab (wholeMesh i)] = .ok (s, rs) ∧
    (owned [] [.grab (wholeMesh i)] rs).length = 1 ∧ EndsOwned s ∧ Ordinarily s ∧ s.settings.maximumRange = 500 := by
  obtain ⟨s, e, hp, hv, ht, -, -, hx, hsp, -⟩ :=
    whole_grab R (b := b) (x := ⟨8, 5, 500⟩) (by norm_num) (by norm_num) i
  refine ⟨s, [.handle 0], by simp only [run, e, bind_ok], rfl, ?_, whole_ordinarily hsp hp ht hv hx, by rw [hx]⟩
  intro y hy k hk
  rw [hsp] at hy
  obtain ⟨⟨i1, h1⟩, i2, h2⟩ := baseSprings_mesh hy
  rw [h1, h2] at hk
  rcases hk with hk | hk <;> cases hk

end

end Verif.Props
