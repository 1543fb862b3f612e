import Verif.Lemmas.WobblyBookSlow
import Verif.Lemmas.WobblyStep

/-! `Step` in the model with rounding, whatever the rounding: held points, ticks, the two coordinates. -/

namespace Verif.Wobbly.Rounded

open Wobbly Spec Outcome Classical

variable {r : ℝ → ℝ} {s : State}

/-! ### Held points and velocities -/

theorem springRound_locked (e : Env) (q : Phys) {i : Idx} (h : e.locks i > 0) :
    (springRound r e q).1.pos i = q.pos i ∧ (springRound r e q).1.vel i = 0 := by
  simp only [springRound, anchoredIntegration, if_pos h]
  exact ⟨trivial, rfl⟩

/-- A velocity coordinate that a tick can leave behind. -/
def Cut (r : ℝ → ℝ) (v : Pt) : Prop := (v.x = 0 ∨ r (1 / 10) ≤ |v.x|) ∧ (v.y = 0 ∨ r (1 / 10) ≤ |v.y|)

theorem clip_cut (t c : ℝ) : clip t c = 0 ∨ t ≤ |clip t c| := by
  unfold clip
  split_ifs with h
  · exact .inl rfl
  · exact .inr (not_lt.1 h)

theorem springRound_cut (e : Env) (q : Phys) (i : Idx) : Cut r ((springRound r e q).1.vel i) := by
  simp only [springRound, anchoredIntegration]
  split_ifs
  · exact ⟨.inl rfl, .inl rfl⟩
  · exact ⟨clip_cut _ _, clip_cut _ _⟩

theorem round_held {q q' : Phys} {m : Prop} (e : round r s q = .ok (q', m)) :
    (∀ i, Cut r (q'.vel i)) ∧ ∀ i, s.locks i > 0 → q'.vel i = 0 ∧
      ((s.active → distance r (s.targets i) (q.pos i) < s.settings.maximumRange) → q'.pos i = q.pos i) := by
  unfold round at e
  split_ifs at e with ha
  · rw [bind_eq_ok] at e
    obtain ⟨⟨c, mv⟩, hc, e⟩ := e
    simp only [Outcome.ok.injEq, Prod.mk.injEq] at e
    obtain ⟨rfl, -⟩ := e
    refine ⟨springRound_cut _ _, fun i h => ?_⟩
    have := springRound_locked (r := r) s.env ⟨c, q.vel⟩ h
    refine ⟨this.2, fun hr => ?_⟩
    rw [this.1]
    unfold constrain at hc
    split_ifs at hc
    simp only [Outcome.ok.injEq, Prod.mk.injEq] at hc
    rw [← hc.1]
    simp only
    rw [if_pos (hr ha)]
  · simp only [Outcome.ok.injEq, Prod.mk.injEq] at e
    obtain ⟨rfl, -⟩ := e
    refine ⟨springRound_cut _ _, fun i h => ?_⟩
    have := springRound_locked (r := r) s.env q h
    exact ⟨this.2, fun _ => this.1⟩

theorem rounds_held {n : ℕ} {q q' : Phys} {m : Prop} (e : rounds r s n q = .ok (q', m)) :
    (n ≠ 0 → ∀ i, Cut r (q'.vel i)) ∧ ∀ i, s.locks i > 0 → (n ≠ 0 → q'.vel i = 0) ∧
      ((s.active → distance r (s.targets i) (q.pos i) < s.settings.maximumRange) → q'.pos i = q.pos i) := by
  induction n generalizing q m with
  | zero =>
    simp only [rounds, Outcome.ok.injEq, Prod.mk.injEq] at e
    rw [← e.1]
    exact ⟨fun h => absurd rfl h, fun i _ => ⟨fun h => absurd rfl h, fun _ => rfl⟩⟩
  | succ n ih =>
    simp only [rounds] at e
    rw [bind_eq_ok] at e
    obtain ⟨⟨q1, m1⟩, h1, e⟩ := e
    rw [bind_eq_ok] at e
    obtain ⟨⟨q2, m2⟩, h2, e⟩ := e
    simp only [Outcome.ok.injEq, Prod.mk.injEq] at e
    obtain ⟨rfl, -⟩ := e
    have r1 := round_held h1
    have r2 := ih h2
    refine ⟨fun _ => ?_, fun i hi => ⟨fun _ => ?_, fun hr => ?_⟩⟩
    · cases n with
      | zero =>
        simp only [rounds, Outcome.ok.injEq, Prod.mk.injEq] at h2
        rw [← h2.1]
        exact r1.1
      | succ n => exact r2.1 (by omega)
    · cases n with
      | zero =>
        simp only [rounds, Outcome.ok.injEq, Prod.mk.injEq] at h2
        rw [← h2.1]
        exact (r1.2 i hi).1
      | succ n => exact (r2.2 i hi).1 (by omega)
    · have h3 := (r1.2 i hi).2 hr
      have h4 : q1.pos i = q.pos i := h3
      have := (r2.2 i hi).2 (fun ha => by
        show distance r (s.targets i) (q1.pos i) < _
        rw [h4]
        exact hr ha)
      exact this.trans h4

theorem springRound_rest (e : Env) (q : Phys) (h : ¬ (springRound r e q).2) (i : Idx) : (springRound r e q).1.vel i = 0 := by
  by_cases hl : e.locks i > 0
  · exact (springRound_locked e q hl).2
  · have h1 : ¬ (anchoredIntegration r e.locks e.friction q fun i => (calculateForces r e.k (e.at_ q.pos) e.springs).1 (.mesh i)).2 :=
      fun hh => h (.inr hh)
    simp only [springRound, anchoredIntegration, if_neg hl] at h1 ⊢
    have h2 := not_exists.1 h1 i
    simp only [eulerIntegrate, gt_iff_lt, abs_pos, not_and, not_or, not_not] at h2 ⊢
    exact Pt.ext (h2 hl).1 (h2 hl).2

theorem round_rest {q q' : Phys} {m : Prop} (e : round r s q = .ok (q', m)) (hm : ¬ m) (i : Idx) : q'.vel i = 0 := by
  unfold round at e
  split_ifs at e with ha
  · rw [bind_eq_ok] at e
    obtain ⟨⟨c, mv⟩, hc, e⟩ := e
    simp only [Outcome.ok.injEq, Prod.mk.injEq] at e
    obtain ⟨rfl, rfl⟩ := e
    exact springRound_rest _ _ (fun h => hm (.inr h)) i
  · simp only [Outcome.ok.injEq, Prod.mk.injEq] at e
    obtain ⟨rfl, rfl⟩ := e
    exact springRound_rest _ _ hm i

theorem rounds_rest {n : ℕ} {q q' : Phys} {m : Prop} (e : rounds r s n q = .ok (q', m)) (hm : ¬ m) (hn : n ≠ 0) (i : Idx) :
    q'.vel i = 0 := by
  induction n generalizing q m with
  | zero => exact absurd rfl hn
  | succ n ih =>
    simp only [rounds] at e
    rw [bind_eq_ok] at e
    obtain ⟨⟨q1, m1⟩, h1, e⟩ := e
    rw [bind_eq_ok] at e
    obtain ⟨⟨q2, m2⟩, h2, e⟩ := e
    simp only [Outcome.ok.injEq, Prod.mk.injEq] at e
    obtain ⟨rfl, rfl⟩ := e
    cases n with
    | zero =>
      simp only [rounds, Outcome.ok.injEq, Prod.mk.injEq] at h2
      rw [← h2.1]
      exact round_rest h1 (fun h => hm (.inl h)) i
    | succ n => exact ih h2 (fun h => hm (.inr h)) (by omega)

/-- What a `Step` that returns did. -/
theorem step_did {t : ℕ} {s' : State} {m : Prop} (e : exec r s (.step t) = .ok (s', .more m)) :
    ∃ q u, rounds r s (stepCount t) ⟨s.pos, s.vel⟩ = .ok (q, u) ∧ s'.vel = q.vel ∧
      (m ↔ (if t ≠ 0 then False else s.unequal) ∨ u) ∧ s'.pos = if ¬ m ∧ s.active then s.targets else q.pos := by
  simp only [exec] at e
  unfold step at e
  by_cases hd : stepCount t ≠ 0 ∧ dangling s.springs s.live
  · rw [if_pos hd] at e
    cases e
  · rw [if_neg hd, bind_eq_ok] at e
    obtain ⟨⟨q, u⟩, hi, e⟩ := e
    simp only [Outcome.ok.injEq, Prod.mk.injEq, Res.more.injEq] at e
    obtain ⟨rfl, rfl⟩ := e
    exact ⟨q, u, hi, rfl, Iff.rfl, by dsimp only; congr⟩

/-! ### Time -/

theorem step_zero (s : State) :
    exec r s (.step 0) = .ok ({ s with pos := if ¬ s.unequal ∧ s.active then s.targets else s.pos }, .more s.unequal) := by
  simp only [exec]
  unfold step
  rw [stepCount_zero, if_neg (by simp)]
  simp only [rounds, bind_ok]
  by_cases hu : s.unequal <;> by_cases ha : s.active <;> simp [hu, ha]

theorem unequal_runR {s' : State} {ops : List Op} {rs : List Res} (e : run r s ops = .ok (s', rs)) :
    s'.unequal = pendingFlag s.unequal ops rs := by
  induction ops generalizing s rs with
  | nil =>
    simp only [run, Outcome.ok.injEq, Prod.mk.injEq] at e
    rw [← e.1]
    rfl
  | cons op ops ih =>
    simp only [run] at e
    rw [bind_eq_ok] at e
    obtain ⟨⟨s1, r1⟩, h1, e⟩ := e
    rw [bind_eq_ok] at e
    obtain ⟨⟨s2, r2⟩, h2, e⟩ := e
    simp only [Outcome.ok.injEq, Prod.mk.injEq] at e
    obtain ⟨rfl, rfl⟩ := e
    have hih := ih h2
    simp only at hih
    rw [hih]
    cases op with
    | grab q =>
      obtain ⟨j, t, n, -, hn, rfl, rfl⟩ := grab_fields h1
      rfl
    | insert q =>
      obtain ⟨t, n, found, d1, d2, hn, -, rfl, rfl⟩ := insert_fields h1
      rfl
    | step t =>
      obtain ⟨P, V, m, rfl, rfl⟩ := step_fields h1
      rfl
    | moveAnchor k d =>
      obtain ⟨rfl, ⟨t, m, rfl⟩ | ⟨t, rfl⟩⟩ := moveAnchor_fields h1 <;> rfl
    | release k =>
      rcases release_fields h1 with ⟨-, rfl, rfl⟩ | ⟨a, s3, t, n, ha, h3, h0, hn, rfl, rfl⟩
      · rfl
      · cases hk : a.kind with
        | grab j =>
          rw [hk] at h3
          obtain ⟨-, rfl⟩ := unlock_ok h3
          rfl
        | ins q st f g =>
          rw [hk] at h3
          simp only [State.releaseKind, Outcome.ok.injEq] at h3
          rw [removeTracked_eq, removeTracked_eq, replace_eq] at h3
          rw [← h3]
          rfl
    | moveBy d =>
      simp only [exec, Outcome.ok.injEq, Prod.mk.injEq] at h1
      rw [← h1.1, ← h1.2]
      rfl
    | moveTo q =>
      obtain ⟨n, d, -, rfl, rfl⟩ := moveTo_fields h1
      rfl
    | resize w h =>
      obtain ⟨rfl, rfl | ⟨n, pos, t, f, q, hn, rfl⟩⟩ := resize_fields h1 <;> rfl
    | setSettings y =>
      simp only [exec, Outcome.ok.injEq, Prod.mk.injEq] at h1
      rw [← h1.1, ← h1.2]
      rfl
    | elsewhere y =>
      simp only [exec, Outcome.ok.injEq, Prod.mk.injEq] at h1
      rw [← h1.1, ← h1.2]
      rfl

theorem step_ticks (s : State) {t t' : ℕ} (h : stepCount t = stepCount t') (h0 : t = 0 ↔ t' = 0) :
    exec r s (.step t) = exec r s (.step t') := by
  simp only [exec, step, h, ne_eq, h0]

theorem steps_danglingR (hd : dangling s.springs s.live) {ts : List ℕ} (ht : ticks ts ≠ 0) :
    run r s (ts.map .step) = .ub := by
  induction ts generalizing s with
  | nil => simp [ticks] at ht
  | cons t ts ih =>
    have hs : ticks (t :: ts) = stepCount t + ticks ts := by simp [ticks]
    simp only [List.map_cons, run]
    by_cases h0 : t = 0
    · subst h0
      rw [step_zero, bind_ok]
      simp only
      rw [ih (by exact hd) (by rw [stepCount_zero] at hs; omega)]
      rfl
    · simp only [exec]
      unfold step
      rw [if_pos ⟨stepCount_pos h0, hd⟩]
      rfl

theorem restMore_add (e : Env) (q : Phys) (m n : ℕ) : restMore r e q (m + n) ↔ restMore r e (restIter r e q m) n := by
  unfold restMore
  rw [restIter_add]

theorem rounds_answers (ha : ¬ s.active) (n : ℕ) (q : Phys) :
    ∃ u, rounds r s n q = .ok (restIter r s.env q n, u) ∧ (u ↔ ∃ k < n, restMore r s.env q k) := by
  induction n generalizing q with
  | zero => exact ⟨False, rfl, by simp⟩
  | succ n ih =>
    obtain ⟨u, hu, hk⟩ := ih (springRound r s.env q).1
    simp only [rounds, round, if_neg ha, bind_ok, hu]
    refine ⟨(springRound r s.env q).2 ∨ u, ?_, ?_⟩
    · rw [Nat.add_comm, restIter_add]
      rfl
    · rw [hk]
      constructor
      · rintro (h | ⟨k, hk, h⟩)
        · exact ⟨0, by omega, h⟩
        · exact ⟨1 + k, by omega, (restMore_add _ _ _ _).2 h⟩
      · rintro ⟨k, hk, h⟩
        rcases k with _ | k
        · exact .inl h
        · rw [Nat.add_comm, restMore_add] at h
          exact .inr ⟨k, by omega, h⟩

theorem steps_answersR (ha : ¬ s.active) {ts : List ℕ} (hd : ticks ts ≠ 0 → ¬ dangling s.springs s.live) :
    ∃ u rs, run r s (ts.map .step) =
      .ok ({ s with pos := (restIter r s.env ⟨s.pos, s.vel⟩ (ticks ts)).pos,
                    vel := (restIter r s.env ⟨s.pos, s.vel⟩ (ticks ts)).vel, unequal := u }, rs) ∧
      ((∀ t ∈ ts, t ≠ 0) → ((∃ m, Res.more m ∈ rs ∧ m) ↔ ∃ k < ticks ts, restMore r s.env ⟨s.pos, s.vel⟩ k)) := by
  induction ts generalizing s with
  | nil => exact ⟨s.unequal, [], rfl, by simp [ticks]⟩
  | cons t ts ih =>
    have ht : ticks (t :: ts) = stepCount t + ticks ts := by simp [ticks]
    obtain ⟨u, hu, huk⟩ := rounds_answers (r := r) ha (stepCount t) ⟨s.pos, s.vel⟩
    have e1 : ∃ u', exec r s (.step t) =
        .ok ({ s with pos := (restIter r s.env ⟨s.pos, s.vel⟩ (stepCount t)).pos,
                      vel := (restIter r s.env ⟨s.pos, s.vel⟩ (stepCount t)).vel, unequal := u' }, .more u') ∧
        (t ≠ 0 → (u' ↔ u)) := by
      simp only [exec, step]
      rw [if_neg (fun h => hd (by rw [ht]; omega) h.2), hu, bind_ok]
      simp only [ha, and_false, if_false]
      exact ⟨_, rfl, fun h0 => by simp [h0]⟩
    obtain ⟨u', e1, hu'⟩ := e1
    obtain ⟨u'', rs, e2, hm⟩ := @ih
      { s with pos := (restIter r s.env ⟨s.pos, s.vel⟩ (stepCount t)).pos,
               vel := (restIter r s.env ⟨s.pos, s.vel⟩ (stepCount t)).vel, unequal := u' } ha (fun h => hd (by omega))
    simp only [List.map_cons, run, e1, bind_ok, e2]
    rw [ht, restIter_add]
    refine ⟨u'', _, rfl, fun h0 => ?_⟩
    have hm' : (∃ m, Res.more m ∈ rs ∧ m) ↔ ∃ k < ticks ts, restMore r s.env (restIter r s.env ⟨s.pos, s.vel⟩ (stepCount t)) k :=
      hm fun t' ht' => h0 t' (List.mem_cons_of_mem _ ht')
    have hu1 := (hu' (h0 t (by simp))).trans huk
    constructor
    · rintro ⟨m, hmem, hmt⟩
      rcases List.mem_cons.1 hmem with h1 | h1
      · simp only [Res.more.injEq] at h1
        rw [h1] at hmt
        obtain ⟨k, hk, hkk⟩ := hu1.1 hmt
        exact ⟨k, by omega, hkk⟩
      · obtain ⟨k, hk, hkk⟩ := hm'.1 ⟨m, h1, hmt⟩
        exact ⟨stepCount t + k, by omega, (restMore_add _ _ _ _).2 hkk⟩
    · rintro ⟨k, hk, hkk⟩
      by_cases hlt : k < stepCount t
      · exact ⟨_, List.mem_cons_self, hu1.2 ⟨k, hlt, hkk⟩⟩
      · obtain ⟨j, rfl⟩ := Nat.exists_eq_add_of_le (not_lt.1 hlt)
        obtain ⟨m, h1, h2⟩ := hm'.2 ⟨j, by omega, (restMore_add _ _ _ _).1 hkk⟩
        exact ⟨m, List.mem_cons_of_mem _ h1, h2⟩

/-! ### The two coordinates -/

/-- What is needed of a coordinate: that the operations do not mix it with the other one. -/
structure IsCoordR (r : ℝ → ℝ) (c : Pt → ℝ) : Prop where
  add : ∀ {p q p' q' : Pt}, c p' = c p → c q' = c q → c (add r p' q') = c (add r p q)
  scale : ∀ {p p' : Pt} (k : ℝ), c p' = c p → c (scale r p' k) = c (scale r p k)
  deltas : ∀ {y y' : Spring} {at_ at' : Node → Pt}, c (at' y'.a) = c (at_ y.a) → c (at' y'.b) = c (at_ y.b) →
    c y'.desired = c y.desired → c (deltaA r y' at') = c (deltaA r y at_) ∧ c (deltaB r y' at') = c (deltaB r y at_)
  euler : ∀ {f : ℝ} {p v F p' v' F' : Pt}, c p' = c p → c v' = c v → c F' = c F →
    c (eulerIntegrate r 1 f mass p' v' F').1 = c (eulerIntegrate r 1 f mass p v F).1 ∧
    c (eulerIntegrate r 1 f mass p' v' F').2.1 = c (eulerIntegrate r 1 f mass p v F).2.1

theorem isCoordR_x (r : ℝ → ℝ) : IsCoordR r Pt.x where
  add h1 h2 := by simp only [Rounded.add, h1, h2]
  scale k h := by simp only [Rounded.scale, h]
  deltas h1 h2 h3 := by simp only [deltaA, deltaB, resetIfCloseToZero, deltaFromDesired, Rounded.scale, h1, h2, h3, and_self]
  euler h1 h2 h3 := by simp only [eulerIntegrate, Rounded.add, Rounded.scale, h1, h2, h3, and_self]

theorem isCoordR_y (r : ℝ → ℝ) : IsCoordR r Pt.y where
  add h1 h2 := by simp only [Rounded.add, h1, h2]
  scale k h := by simp only [Rounded.scale, h]
  deltas h1 h2 h3 := by simp only [deltaA, deltaB, resetIfCloseToZero, deltaFromDesired, Rounded.scale, h1, h2, h3, and_self]
  euler h1 h2 h3 := by simp only [eulerIntegrate, Rounded.add, Rounded.scale, h1, h2, h3, and_self]

theorem forces_agreeR {c : Pt → ℝ} (hc : IsCoordR r c) {e1 e2 : Env} (h : EnvAgree c e1 e2) {p1 p2 : Mesh}
    (hp : ∀ i, c (p2 i) = c (p1 i)) (n : Node) :
    c ((calculateForces r e2.k (e2.at_ p2) e2.springs).1 n) = c ((calculateForces r e1.k (e1.at_ p1) e1.springs).1 n) := by
  have hat : ∀ m, c (e2.at_ p2 m) = c (e1.at_ p1 m) := by
    intro m
    cases m with
    | mesh i => exact hp i
    | anchor j => exact h.apos j
  rw [h.k]
  have hs := h.springs
  unfold calculateForces
  have key : ∀ (acc acc' : (Node → Pt) × Prop), (∀ n, c (acc'.1 n) = c (acc.1 n)) → ∀ n,
      c ((e2.springs.foldl (fun acc s => let f := applyForces r s e1.k (e2.at_ p2) acc.1; (f.1, acc.2 ∨ f.2)) acc').1 n) =
        c ((e1.springs.foldl (fun acc s => let f := applyForces r s e1.k (e1.at_ p1) acc.1; (f.1, acc.2 ∨ f.2)) acc).1 n) := by
    generalize e1.springs = l1 at hs ⊢
    generalize e2.springs = l2 at hs ⊢
    induction hs with
    | nil => exact fun acc acc' ha n => ha n
    | @cons y y' l l' hy _ ih =>
      intro acc acc' ha
      simp only [List.foldl_cons]
      apply ih
      intro m
      obtain ⟨d1, d2⟩ := hc.deltas (y := y) (y' := y') (at_ := e1.at_ p1) (at' := e2.at_ p2) (by rw [hy.1, hat])
        (by rw [hy.2.1, hat]) hy.2.2
      have step : ∀ (f f' : Node → Pt) (k : Node) (v v' : Pt), (∀ n, c (f' n) = c (f n)) → c v' = c v →
          ∀ n, c (addForce r f' k v' n) = c (addForce r f k v n) := by
        intro f f' k v v' hf hv n
        unfold addForce
        split_ifs
        · exact hc.add (hf n) hv
        · exact hf n
      simp only [applyForces]
      rw [hy.1, hy.2.1]
      exact step _ _ _ _ _ (step _ _ _ _ _ ha (hc.scale _ d1)) (hc.scale _ d2) m
  exact key _ _ (fun _ => rfl) n

theorem springRound_agree {c : Pt → ℝ} (hc : IsCoordR r c) {e1 e2 : Env} (h : EnvAgree c e1 e2) {q1 q2 : Phys}
    (hp : ∀ i, c (q2.pos i) = c (q1.pos i)) (hv : ∀ i, c (q2.vel i) = c (q1.vel i)) (i : Idx) :
    c ((springRound r e2 q2).1.pos i) = c ((springRound r e1 q1).1.pos i) ∧
    c ((springRound r e2 q2).1.vel i) = c ((springRound r e1 q1).1.vel i) := by
  by_cases hl : e1.locks i > 0
  · have hl2 : e2.locks i > 0 := by rw [h.locks]; exact hl
    have a := springRound_locked (r := r) e1 q1 hl
    have b := springRound_locked (r := r) e2 q2 hl2
    rw [a.1, a.2, b.1, b.2]
    exact ⟨hp i, rfl⟩
  · have hl2 : ¬ e2.locks i > 0 := by rw [h.locks]; exact hl
    unfold springRound anchoredIntegration
    simp only [hl, hl2, if_false]
    rw [h.friction]
    exact hc.euler (hp i) (hv i) (forces_agreeR hc h hp _)

theorem restIter_agree {c : Pt → ℝ} (hc : IsCoordR r c) {e1 e2 : Env} (h : EnvAgree c e1 e2) {q1 q2 : Phys}
    (hp : ∀ i, c (q2.pos i) = c (q1.pos i)) (hv : ∀ i, c (q2.vel i) = c (q1.vel i)) (n : ℕ) :
    ∀ i, c ((restIter r e2 q2 n).pos i) = c ((restIter r e1 q1 n).pos i) ∧
    c ((restIter r e2 q2 n).vel i) = c ((restIter r e1 q1 n).vel i) := by
  induction n with
  | zero => exact fun i => ⟨hp i, hv i⟩
  | succ n ih =>
    intro i
    rw [restIter_succ, restIter_succ]
    exact springRound_agree hc h (fun i => (ih i).1) (fun i => (ih i).2) i

theorem agree_stepsR {c : Pt → ℝ} (hc : IsCoordR r c) {s s' : State} (h : AgreeIn c s s') (ha : s.count ≠ 1)
    (ha' : s'.count ≠ 1) (ts : List ℕ) :
    Matches (fun a a' => AgreeIn c a.1 a'.1) (run r s (ts.map .step)) (run r s' (ts.map .step)) := by
  by_cases hd : ticks ts ≠ 0 ∧ dangling s.springs s.live
  · rw [steps_danglingR hd.2 hd.1, steps_danglingR ((dangling_agree h).2 hd.2) hd.1]
    trivial
  · obtain ⟨u, r1, h1, -⟩ := steps_answersR (r := r) (s := s) ha (ts := ts) (fun h hh => hd ⟨h, hh⟩)
    obtain ⟨u', r2, h2, -⟩ := steps_answersR (r := r) (s := s') ha' (ts := ts)
      (fun hh hh' => hd ⟨hh, (dangling_agree h).1 hh'⟩)
    rw [h1, h2]
    have := restIter_agree hc (envAgree_of h) (q1 := ⟨s.pos, s.vel⟩) (q2 := ⟨s'.pos, s'.vel⟩) h.pos h.vel (ticks ts)
    exact ⟨fun i => (this i).1, fun i => (this i).2, h.anchors, h.springs, h.locks, h.springConstant, h.friction⟩

theorem anchorData_moveR (l : List Live) (h : ℕ) (d : Pt) (k : ℕ) :
    anchorData (l.map fun b => if b.hid = h then ⟨b.hid, shift r d b.kind⟩ else b) k =
      if k = h then (anchorData l k).map (fun p => add r p d) else anchorData l k := by
  have := anchorData_map_kind l (fun j x => if j = h then shift r d x else x) (fun j p => if j = h then add r p d else p)
    (by
      intro j x
      cases x <;> simp only [shift] <;> split_ifs <;> rfl) k
  have e : (l.map fun b => if b.hid = h then (⟨b.hid, shift r d b.kind⟩ : Live) else b) =
      l.map fun b => ⟨b.hid, if b.hid = h then shift r d b.kind else b.kind⟩ := by
    apply List.map_congr_left
    intro b _
    split_ifs <;> rfl
  rw [e, this]
  split_ifs
  · rfl
  · simp

theorem anchorData_shiftR (l : List Live) (d : Pt) (k : ℕ) :
    anchorData (l.map fun b => ⟨b.hid, shift r d b.kind⟩) k = (anchorData l k).map fun p => add r p d :=
  anchorData_map_kind l (fun _ x => shift r d x) (fun _ p => add r p d) (by intro j x; cases x <;> rfl) k

theorem anchorData_scaleR (l : List Live) (f o : Pt) (k : ℕ) :
    anchorData (l.map fun b => ⟨b.hid, scaleKind r f o b.kind⟩) k = (anchorData l k).map fun p => Free.rescale r f o p :=
  anchorData_map_kind l (fun _ x => scaleKind r f o x) (fun _ p => Free.rescale r f o p) (by intro j x; cases x <;> rfl) k

end Verif.Wobbly.Rounded
