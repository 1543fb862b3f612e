import Verif.Lemmas.WobblyShift
import Verif.Lemmas.WobblyDemo

/-! Integration without the range constraint; settling. -/

namespace Verif.Wobbly

open Spec Outcome

theorem springStep_congr {e1 e2 : Env} {q : Phys} (hl : e2.locks = e1.locks) (hf : e2.friction = e1.friction)
    (hforce : ∀ i, (calculateForces e2.k (e2.at_ q.pos) e2.springs).1 (.mesh i) =
      (calculateForces e1.k (e1.at_ q.pos) e1.springs).1 (.mesh i))
    (hmore : (calculateForces e2.k (e2.at_ q.pos) e2.springs).2 ↔
      (calculateForces e1.k (e1.at_ q.pos) e1.springs).2) : springStep e2 q = springStep e1 q := by
  unfold springStep
  simp only [hl, hf, hforce, hmore]

/-- Springs only matter as a multiset. -/
theorem springStep_perm {e1 e2 : Env} (hk : e2.k = e1.k) (hf : e2.friction = e1.friction) (hl : e2.locks = e1.locks)
    (ha : e2.apos = e1.apos) (hs : e2.springs.Perm e1.springs) (q : Phys) : springStep e2 q = springStep e1 q := by
  have hat : e2.at_ q.pos = e1.at_ q.pos := by
    funext n
    cases n <;> simp [Env.at_, ha]
  refine springStep_congr hl hf ?_ ?_
  · intro i
    rw [calculateForces_force, calculateForces_force, hk, hat]
    exact (hs.map _).sum_eq
  · rw [calculateForces_more, calculateForces_more, hat]
    constructor <;> rintro ⟨x, hx, h⟩
    · exact ⟨x, hs.mem_iff.1 hx, h⟩
    · exact ⟨x, hs.mem_iff.2 hx, h⟩

/-- Without inserted anchors the full integration works with the real springs. -/
theorem springStep_settleEnv {b : ℕ} {s : State} (hs : Inv b s) (hl : BaseLen b s) (hn : NoneInserted s) (q : Phys) :
    springStep s.settleEnv q = springStep s.env q := by
  obtain ⟨g, hg, hb⟩ := baseSprings_relabel s.tile b s.lastId
  have h1 : springStep s.settleEnv q =
      springStep ⟨s.settings.springConstant, s.settings.friction, s.locks, baseSprings s.tile b, apos s.live⟩ q := by
    have hm : EndsShift 0 (baseSprings s.tile b) (Env.at_ ⟨s.settings.springConstant, s.settings.friction, s.locks,
        baseSprings s.tile b, apos s.live⟩ q.pos) (s.settleEnv.at_ q.pos) := by
      intro x hx
      obtain ⟨⟨i, hi⟩, j, hj⟩ := baseSprings_mesh hx
      rw [hi, hj]
      constructor <;> ext <;> simp [Env.at_]
    have hc : calculateForces s.settings.springConstant (s.settleEnv.at_ q.pos) (baseSprings s.tile s.lastId) =
        calculateForces s.settings.springConstant (Env.at_ ⟨s.settings.springConstant, s.settings.friction, s.locks,
          baseSprings s.tile b, apos s.live⟩ q.pos) (baseSprings s.tile b) := by
      rw [hb, calculateForces_map hg]
      exact calculateForces_shift hm
    refine springStep_congr rfl rfl ?_ ?_
    · intro i
      exact congrFun (congrArg Prod.fst hc) _
    · exact iff_of_eq (congrArg Prod.snd hc)
  rw [h1]
  exact springStep_perm (e1 := s.env)
    (e2 := ⟨s.settings.springConstant, s.settings.friction, s.locks, baseSprings s.tile b, apos s.live⟩)
    rfl rfl rfl rfl (springs_perm hs hl hn).symm q

theorem settleIter_congr {e1 e2 : Env} (h : ∀ q, springStep e2 q = springStep e1 q) (q : Phys) (n : ℕ) :
    settleIter e2 q n = settleIter e1 q n := by
  induction n with
  | zero => rfl
  | succ n ih => rw [settleIter_succ, settleIter_succ, ih, h]

theorem settle_congr {e1 e2 : Env} (h : ∀ q, springStep e2 q = springStep e1 q) (q : Phys) :
    settle e2 q = settle e1 q := by
  have hm : ∀ n, settleMore e2 q n = settleMore e1 q n := by
    intro n
    unfold settleMore
    rw [settleIter_congr h, h]
  rcases settle_cases e1 q with ⟨p, hp⟩ | hd
  · obtain ⟨n, h1, h2, rfl⟩ := settle_ok hp
    rw [hp, settle_of (e := e2) (n := n) (by rw [hm]; exact h1) (fun m hmn => by rw [hm]; exact h2 m hmn),
      settleIter_congr h]
  · rw [hd, settle_diverges]
    intro n
    rw [hm]
    exact settle_diverges.1 hd n

theorem settleIter_add (e : Env) (q : Phys) (n m : ℕ) :
    settleIter e q (n + m) = settleIter e (settleIter e q n) m := by
  induction m with
  | zero => rfl
  | succ m ih => rw [← Nat.add_assoc, settleIter_succ, settleIter_succ, ih]

theorem settleMore_add (e : Env) (q : Phys) (n m : ℕ) :
    settleMore e q (n + m) ↔ settleMore e (settleIter e q n) m := by
  unfold settleMore
  rw [settleIter_add]

/-- After a round that does not ask for more, nothing changes any more. -/
theorem settled_forever {e : Env} {q : Phys} {n : ℕ} (h : ¬ settleMore e q n) (m : ℕ) :
    ¬ settleMore e q (n + m) ∧ settleIter e q (n + 1 + m) = settleIter e q (n + 1) ∧
      (settleIter e q (n + m)).pos = (settleIter e q n).pos := by
  have h1 := springStep_still h
  have h2 := springStep_still_again h
  have hfix : ∀ m, settleIter e q (n + 1 + m) = settleIter e q (n + 1) := by
    intro m
    induction m with
    | zero => rfl
    | succ m ih =>
      rw [← Nat.add_assoc, settleIter_succ, ih, settleIter_succ, h2]
  have hp : (settleIter e q (n + 1)).pos = (settleIter e q n).pos := by
    rw [settleIter_succ, h1.1]
  refine ⟨?_, hfix m, ?_⟩
  · cases m with
    | zero => exact h
    | succ m =>
      have e1 : n + (m + 1) = n + 1 + m := by omega
      rw [e1]
      unfold settleMore
      rw [hfix m, settleIter_succ, h2]
      exact fun h => h
  · cases m with
    | zero => rfl
    | succ m =>
      have e1 : n + (m + 1) = n + 1 + m := by omega
      rw [e1, hfix m, hp]

/-- Any still round shows the settled position. -/
theorem settle_at {e : Env} {q : Phys} {p : Pt} (h : settle e q = .ok p) {m : ℕ} (hm : ¬ settleMore e q m) :
    (settleIter e q m).pos 0 = p := by
  obtain ⟨n, h1, h2, rfl⟩ := settle_ok h
  have hnm : n ≤ m := by
    by_contra hc
    exact hm (h2 m (by omega))
  obtain ⟨k, rfl⟩ := Nat.exists_eq_add_of_le hnm
  have ha := settled_forever h1 k
  have hb := settled_forever h1 1
  rw [ha.2.2, hb.2.2]

/-! ## Steps without the range constraint -/

theorem round_inactive {s : State} (ha : ¬ s.active) (q : Phys) :
    s.round q = .ok ((springStep s.env q).1, (springStep s.env q).2) := by
  unfold State.round
  rw [if_neg ha]

theorem integrate_inactive {s : State} (ha : ¬ s.active) (n : ℕ) (q : Phys) :
    s.integrate n q = .ok (settleIter s.env q n, ∃ m < n, settleMore s.env q m) := by
  induction n generalizing q with
  | zero => simp [State.integrate, settleIter_zero]
  | succ n ih =>
    simp only [State.integrate, round_inactive ha, bind_ok, ih, Outcome.ok.injEq, Prod.mk.injEq, eq_iff_iff]
    constructor
    · have := settleIter_add s.env q 1 n
      rw [Nat.add_comm 1 n] at this
      rw [this]
      rfl
    · constructor
      · rintro (h | ⟨m, hm, h⟩)
        · exact ⟨0, by omega, h⟩
        · refine ⟨1 + m, by omega, ?_⟩
          rw [settleMore_add]
          exact h
      · rintro ⟨m, hm, h⟩
        cases m with
        | zero => exact Or.inl h
        | succ m =>
          refine Or.inr ⟨m, by omega, ?_⟩
          rw [Nat.add_comm, settleMore_add] at h
          exact h

/-- `s` with other positions and velocities. -/
def State.withPhys (s : State) (q : Phys) (u : Prop) : State := { s with pos := q.pos, vel := q.vel, unequal := u }

theorem withPhys_env (s : State) (q : Phys) (u : Prop) : (s.withPhys q u).env = s.env := rfl

theorem stepCount_zero : stepCount 0 = 0 := by simp [stepCount]

theorem stepCount_pos {t : ℕ} (h : t ≠ 0) : stepCount t ≠ 0 := by
  unfold stepCount
  have : (0 : ℝ) < t / 16 := by
    have : (0 : ℝ) < t := by exact_mod_cast Nat.pos_of_ne_zero h
    positivity
  have := Nat.ceil_pos.2 this
  omega

theorem stepCount_eq (t : ℕ) : stepCount t = (t + 15) / 16 := by
  unfold stepCount
  rcases Nat.eq_zero_or_pos ((t + 15) / 16) with h | h
  · have : t = 0 := by omega
    subst this
    simp
  · rw [Nat.ceil_eq_iff (by omega)]
    constructor
    · rw [lt_div_iff₀ (by norm_num)]
      have : ((t + 15) / 16 - 1) * 16 < t := by omega
      exact_mod_cast this
    · rw [div_le_iff₀ (by norm_num)]
      have : t ≤ (t + 15) / 16 * 16 := by omega
      exact_mod_cast this

theorem step_inactive {s : State} (ha : ¬ s.active) {t : ℕ} (hd : stepCount t ≠ 0 → ¬ dangling s.springs s.live) :
    s.step t = .ok (s.withPhys (settleIter s.env ⟨s.pos, s.vel⟩ (stepCount t))
      ((if t ≠ 0 then False else s.unequal) ∨ ∃ m < stepCount t, settleMore s.env ⟨s.pos, s.vel⟩ m),
      .more ((if t ≠ 0 then False else s.unequal) ∨ ∃ m < stepCount t, settleMore s.env ⟨s.pos, s.vel⟩ m)) := by
  unfold State.step
  rw [if_neg (fun h => hd h.1 h.2), integrate_inactive ha, bind_ok]
  simp only [ha, and_false, if_false]
  rfl

/-- Total number of ticks. -/
noncomputable def ticks (ts : List ℕ) : ℕ := (ts.map stepCount).sum

/-- A sequence of steps without range constraint is a number of ticks. -/
theorem steps_inactive {s : State} (ha : ¬ s.active) {ts : List ℕ} (hd : ticks ts ≠ 0 → ¬ dangling s.springs s.live) :
    ∃ u rs, s.run (ts.map .step) = .ok (s.withPhys (settleIter s.env ⟨s.pos, s.vel⟩ (ticks ts)) u, rs) := by
  induction ts generalizing s with
  | nil => exact ⟨s.unequal, [], rfl⟩
  | cons t ts ih =>
    have ht : ticks (t :: ts) = stepCount t + ticks ts := by simp [ticks]
    rw [ht] at hd ⊢
    simp only [List.map_cons, State.run, State.exec]
    rw [step_inactive ha (fun h => hd (by omega)), bind_ok]
    obtain ⟨u, rs, h⟩ := @ih (s.withPhys (settleIter s.env ⟨s.pos, s.vel⟩ (stepCount t))
      ((if t ≠ 0 then False else s.unequal) ∨ ∃ m < stepCount t, settleMore s.env ⟨s.pos, s.vel⟩ m)) ha
      (fun h => hd (by omega))
    simp only [h, bind_ok]
    rw [settleIter_add]
    exact ⟨u, _, rfl⟩

theorem run_append (s : State) (a b : List Op) :
    s.run (a ++ b) = (s.run a).bind fun r => (r.1.run b).bind fun r' => .ok (r'.1, r.2 ++ r'.2) := by
  induction a generalizing s with
  | nil =>
    simp only [List.nil_append, State.run, bind_ok]
    cases s.run b <;> rfl
  | cons op a ih =>
    simp only [List.cons_append, State.run, ih]
    cases s.exec op with
    | ok r =>
      simp only [bind_ok]
      cases r.1.run a with
      | ok r1 =>
        simp only [bind_ok]
        cases r1.1.run b <;> rfl
      | diverges => rfl
      | throws => rfl
      | ub => rfl
      | nonfinite => rfl
    | diverges => rfl
    | throws => rfl
    | ub => rfl
    | nonfinite => rfl

/-! ## Stillness -/

theorem Quiet.run {s : State} (h : Quiet s) (hu : ¬ s.unequal) (ts : List ℕ) :
    s.run (ts.map .step) = .ok (s, ts.map fun _ => .more False) := by
  have hu' : s.unequal = False := by simpa using hu
  have hs : { s with unequal := False } = s := by
    rw [← hu']
  induction ts with
  | nil => rfl
  | cons t ts ih =>
    have h1 : s.exec (.step t) = .ok (s, .more False) := by
      simp only [State.exec]
      rw [h.step]
      have : (if t ≠ 0 then False else s.unequal) = False := by
        rw [hu']
        simp
      simp only [this, hs]
    simp only [List.map_cons, State.run, h1, bind_ok, ih]

/-- After a step that reports no movement, without range constraint. -/
theorem quiet_of_still_inactive {s s' : State} {t : ℕ} {m : Prop} (ha : ¬ s.active) (ht : t ≠ 0)
    (e : s.step t = .ok (s', .more m)) (hm : ¬ m) : Quiet s' ∧ ¬ s'.unequal ∧ s'.pos = s.pos := by
  have hc := stepCount_pos ht
  have hd : ¬ dangling s.springs s.live := by
    intro h
    unfold State.step at e
    rw [if_pos ⟨hc, h⟩] at e
    simp at e
  rw [step_inactive ha (fun _ => hd)] at e
  simp only [Outcome.ok.injEq, Prod.mk.injEq, Res.more.injEq] at e
  obtain ⟨rfl, rfl⟩ := e
  have hu : ¬ (State.withPhys s (settleIter s.env ⟨s.pos, s.vel⟩ (stepCount t)) _).unequal := hm
  simp only [not_or, not_exists, not_and] at hm
  have h0 := hm.2 0 (by omega)
  obtain ⟨n, hn⟩ := Nat.exists_eq_succ_of_ne_zero hc
  have h1 := springStep_still h0
  have hfix := (settled_forever h0 n).2.1
  have hi : settleIter s.env ⟨s.pos, s.vel⟩ (stepCount t) = ⟨s.pos, fun _ => 0⟩ := by
    rw [hn, show n.succ = 0 + 1 + n by omega, hfix, settleIter_succ, h1.1]
    rfl
  refine ⟨⟨?_, ?_, hd, fun h => absurd h ha⟩, hu, ?_⟩
  · intro x hx
    have := h1.2 x hx
    simp only [State.withPhys, hi]
    exact this
  · intro i
    simp only [State.withPhys, hi]
  · simp only [State.withPhys, hi]

/-- An active round that does not ask for more. -/
theorem round_active_still {s : State} (ha : s.active) {q q' : Phys} {m : Prop} (e : s.round q = .ok (q', m))
    (hm : ¬ m) : q' = ⟨q.pos, fun _ => 0⟩ ∧ (∀ x ∈ s.springs, InDeadZone (s.env.at_ q.pos) x) ∧
      ∀ i, Pt.distance (s.targets i) (q.pos i) < s.settings.maximumRange := by
  unfold State.round at e
  rw [if_pos ha, bind_eq_ok] at e
  obtain ⟨⟨c, mv⟩, hc, e⟩ := e
  simp only [Outcome.ok.injEq, Prod.mk.injEq] at e
  obtain ⟨rfl, rfl⟩ := e
  rw [not_or] at hm
  unfold constrain at hc
  split_ifs at hc
  simp only [Outcome.ok.injEq, Prod.mk.injEq] at hc
  obtain ⟨hc, hmv⟩ := hc
  have hr : ∀ i, Pt.distance (s.targets i) (q.pos i) < s.settings.maximumRange := by
    intro i
    by_contra hi
    exact hm.1 (hmv ▸ ⟨i, hi⟩)
  have hcq : c = q.pos := by
    rw [← hc]
    funext i
    rw [if_pos (hr i)]
  subst hcq
  have := springStep_still hm.2
  exact ⟨this.1, this.2, hr⟩

/-- After an active step that reports no movement the mesh is at the targets without velocity. -/
theorem still_active {s s' : State} {t : ℕ} {m : Prop} (ha : s.active) (ht : t ≠ 0)
    (e : s.step t = .ok (s', .more m)) (hm : ¬ m) :
    s' = { s with pos := s.targets, vel := fun _ => 0, unequal := False } ∧ ¬ dangling s.springs s.live ∧
      (∀ x ∈ s.springs, InDeadZone (s.env.at_ s.pos) x) ∧
      ∀ i, Pt.distance (s.targets i) (s.pos i) < s.settings.maximumRange := by
  have hc := stepCount_pos ht
  have hd : ¬ dangling s.springs s.live := by
    intro h
    unfold State.step at e
    rw [if_pos ⟨hc, h⟩] at e
    simp at e
  unfold State.step at e
  rw [if_neg (fun h => hd h.2), bind_eq_ok] at e
  obtain ⟨⟨q, mi⟩, hi, e⟩ := e
  simp only [Outcome.ok.injEq, Prod.mk.injEq, Res.more.injEq] at e
  obtain ⟨rfl, rfl⟩ := e
  have hmi : ¬ mi := fun h => hm (Or.inr h)
  obtain ⟨n, hn⟩ := Nat.exists_eq_succ_of_ne_zero hc
  have key : ∀ (n : ℕ) (q0 q : Phys) (mi : Prop), s.integrate (n + 1) q0 = .ok (q, mi) → ¬ mi →
      q = ⟨q0.pos, fun _ => 0⟩ ∧ (∀ x ∈ s.springs, InDeadZone (s.env.at_ q0.pos) x) ∧
      ∀ i, Pt.distance (s.targets i) (q0.pos i) < s.settings.maximumRange := by
    intro n
    induction n with
    | zero =>
      intro q0 q mi h hmi
      simp only [State.integrate] at h
      rw [bind_eq_ok] at h
      obtain ⟨⟨q1, m1⟩, h1, h⟩ := h
      simp only [bind_ok, Outcome.ok.injEq, Prod.mk.injEq, or_false] at h
      obtain ⟨rfl, rfl⟩ := h
      exact round_active_still ha h1 hmi
    | succ n ih =>
      intro q0 q mi h hmi
      unfold State.integrate at h
      rw [bind_eq_ok] at h
      obtain ⟨⟨q1, m1⟩, h1, h⟩ := h
      rw [bind_eq_ok] at h
      obtain ⟨⟨q2, m2⟩, h2, h⟩ := h
      simp only [Outcome.ok.injEq, Prod.mk.injEq] at h
      obtain ⟨rfl, rfl⟩ := h
      rw [not_or] at hmi
      obtain ⟨rfl, h3, h4⟩ := round_active_still ha h1 hmi.1
      have := ih _ _ _ h2 hmi.2
      exact ⟨this.1, h3, h4⟩
  rw [hn] at hi
  obtain ⟨rfl, h3, h4⟩ := key n _ _ _ hi hmi
  refine ⟨?_, hd, h3, h4⟩
  have hmf : ((if t ≠ 0 then False else s.unequal) ∨ mi) = False := by simpa using hm
  simp only [State.mk.injEq, true_and, and_true]
  exact ⟨if_pos ⟨hm, ha⟩, hmf⟩

end Verif.Wobbly
