import Verif.Lemmas.WobblySlow
import Verif.Props.WobblyHang

/-! # Wobbly: slow models come to rest (C122) -/

namespace Verif.Props

open Wobbly Spec Outcome

variable {p : Pt} {w h : ℝ} {x : Settings} {b : ℕ} {ops : List Op} {rs : List Res} {s : State}

/-- **C122.** Calls on a slow model return, whatever anchors the program owns: `MoveModelTo`, `ResizeModel` (from and to
positive sizes), `GrabAnchor` (with representable coordinates), `InsertAnchor` (likewise, and if a `Step`
would not read freed memory, C49), and every release of an anchor. -/
theorem C122_calls_return (e : (State.new p w h x b).run ops = .ok (s, rs)) (hf : 0 < s.settings.friction)
    (hf' : s.settings.friction ≤ 15) (hs : Slow s) :
    (∀ q, ∃ r, s.exec (.moveTo q) = .ok r) ∧
    (0 < s.width → 0 < s.height → ∀ w' h', 0 < w' → 0 < h' → ∃ r, s.exec (.resize w' h') = .ok r) ∧
    ((∀ i, Representable (s.pos i)) → ∀ q, Representable q → ∃ r, s.exec (.grab q) = .ok r) ∧
    (s.exec (.step 16) ≠ .ub →
      (∀ y ∈ s.springs, Representable (s.env.at_ s.pos y.a) ∧ Representable (s.env.at_ s.pos y.b)) →
      ∀ q, Representable q → ∃ r, s.exec (.insert q) = .ok r) ∧
    ∀ k, ∃ r, s.exec (.release k) = .ok r := by
  have ht : ∃ z, s.targetPosition = .ok z := by
    unfold State.targetPosition
    split_ifs with ha
    · exact ⟨_, rfl⟩
    · obtain ⟨q, hq, -⟩ := slow_target hs hf hf'
      rw [hq]
      exact ⟨_, rfl⟩
  have hact : ∃ z, ({ s with unequal := True } : State).activate = .ok z :=
    slow_activate (s := { s with unequal := True }) ⟨hs.right, hs.below⟩ hf hf'
  obtain ⟨z, hz⟩ := ht
  refine ⟨fun q => ?_, fun hw hh w' h' hw' hh' => ?_, fun hz q hq => ?_, fun hr hz q hq => ?_, fun k => ?_⟩
  · simp only [State.exec, State.moveTo]
    rw [hz]
    exact ⟨_, rfl⟩
  · simp only [State.exec, State.resize]
    rw [if_neg (by simp [hw', hh']), if_neg (by simp [hw.ne', hh.ne']), hz]
    split_ifs
    · exact ⟨_, rfl⟩
    · exact ⟨_, rfl⟩
  · obtain ⟨i, hi, -⟩ := closest_of_representable hz hq
    obtain ⟨y, hy⟩ := hact
    simp only [State.exec]
    unfold State.grab
    simp only [hi, hy, bind_ok]
    exact ⟨_, rfl⟩
  · rcases C51_insert_defined e hr hz hq with hr | hd
    · exact hr
    · exfalso
      obtain ⟨y, hy⟩ := hact
      simp only [State.exec, State.insert, hy, bind_ok] at hd
      rw [State.insertSprings] at hd
      split_ifs at hd
      · simp [Outcome.bind] at hd
      · split at hd
        · simp [Outcome.bind] at hd
        · have hp : ∀ (g : Pt → Outcome State) (y : State) (q : Pt), (∀ d, g d ≠ .diverges) →
              (y.preferred q).bind g ≠ .diverges := by
            intro g y q hg
            unfold State.preferred lookupTarget
            split_ifs
            · split
              · exact hg _
              · simp [Outcome.bind]
            · exact hg _
          have h2 : ∀ o : Outcome State, o ≠ .diverges → ∀ g : State → Outcome (State × Res), (∀ y, g y ≠ .diverges) →
              o.bind g ≠ .diverges := by
            intro o ho g hg
            cases o with
            | ok y => exact hg y
            | diverges => exact absurd rfl ho
            | throws => simp [Outcome.bind]
            | ub => simp [Outcome.bind]
            | nonfinite => simp [Outcome.bind]
          exact h2 _ (hp _ _ _ fun d => hp _ _ _ fun d' => by simp) _ (by simp) hd
  · rcases C46_no_underflow e k with h | h
    · exact h
    · exfalso
      have hno : ∀ (z : State) (g : State → Outcome (State × Res)), z.deactivate.bind g = .diverges →
          (∀ y, g y ≠ .diverges) → z.pos = s.pos → z.vel = s.vel → z.width = s.width → z.height = s.height →
          z.settings = s.settings → False := by
        intro z g hd hg h1 h2 h3 h4 h5
        have hz : Slow z := by
          constructor
          · rw [h1, h2, h3, h5]
            exact hs.right
          · rw [h1, h2, h4, h5]
            exact hs.below
        by_cases hc : z.count = 0
        · unfold State.deactivate at hd
          rw [if_pos hc] at hd
          simp [Outcome.bind] at hd
        · obtain ⟨y, hy⟩ := slow_deactivate hz (by rw [h5]; exact hf) (by rw [h5]; exact hf') hc
          rw [hy, bind_ok] at hd
          exact hg _ hd
      simp only [State.exec, State.release] at h
      cases hf : s.live.find? (fun a => decide (a.hid = k)) with
      | none =>
        rw [hf] at h
        simp at h
      | some a =>
        rw [hf] at h
        simp only at h
        cases hk : a.kind with
        | grab i =>
          rw [hk] at h
          simp only [State.releaseKind, State.unlock] at h
          by_cases hl : s.locks i = 0
          · rw [if_pos hl] at h
            simp [Outcome.bind] at h
          · rw [if_neg hl, bind_ok] at h
            exact hno _ _ h (by simp) rfl rfl rfl rfl rfl
        | ins q st f g =>
          rw [hk] at h
          simp only [State.releaseKind, bind_ok] at h
          rw [removeTracked_eq, removeTracked_eq, replace_eq] at h
          exact hno _ _ h (by simp) rfl rfl rfl rfl rfl

/-- **C122.** `MoveModelTo (q)` on a slow model that does not follow targets moves it by `q` less a place where the top
left corner comes to rest, which is no further from where that corner is than it still has to go. -/
theorem C122_moves_by (e : (State.new p w h x b).run ops = .ok (s, rs)) (h1 : (owned [] ops rs).length ≠ 1)
    (hf : 0 < s.settings.friction) (hf' : s.settings.friction ≤ 15) (hs : Slow s) :
    ∃ z : Pt, |z.x - (s.pos 0).x| ≤ stillToGo s.settings.friction (s.vel 0).x ∧
      |z.y - (s.pos 0).y| ≤ stillToGo s.settings.friction (s.vel 0).y ∧
      ∀ q, ∃ s' r, s.exec (.moveTo q) = .ok (s', r) ∧ ∀ i, s'.pos i = s.pos i + (q - z) := by
  have ha : ¬ s.active := fun ha => h1 ((C45_tracking_iff e).1 ha)
  obtain ⟨z, hz, hx, hy⟩ := slow_target hs hf hf'
  refine ⟨z, hx, hy, fun q => ?_⟩
  simp only [State.exec, State.moveTo]
  unfold State.targetPosition
  rw [if_neg ha, hz]
  exact ⟨_, _, rfl, fun i => rfl⟩

/-- **C122.** A slow model without inserted anchors that does not follow targets (no anchor, or several) comes to rest:
there is a mesh within reach which every sequence of steps attains once it has lasted as many ticks as the velocities
take to fade, and from then on `Step` answers that nothing moves. -/
theorem C122_comes_to_rest (e : (State.new p w h x b).run ops = .ok (s, rs))
    (hr : AllAlong ResizeAllowed (State.new p w h x b) ops) (h1 : (owned [] ops rs).length ≠ 1) (hn : NoneInserted s)
    (hf : 0 < s.settings.friction) (hf' : s.settings.friction ≤ 15) (hs : Slow s) :
    ∃ m, WithinReach s m ∧ ∀ n, 1 ≤ n → FadedAfter n s → ∀ ts : List ℕ, n ≤ (ts.map fun t => (t + 15) / 16).sum →
      ∃ s' rs', s.run (ts.map .step) = .ok (s', rs') ∧ s'.pos = m ∧ (∀ i, s'.vel i = 0) ∧
        ∀ t, t ≠ 0 → ∃ s'', s'.exec (.step t) = .ok (s'', .more False) ∧ s''.pos = m := by
  have hI := inv_run e
  have hB := baseLen_run hr e
  have hperm := springs_perm hI hB hn
  have ha : ¬ s.active := fun ha => h1 ((C45_tracking_iff e).1 ha)
  have hS : SlowEnv s.env ⟨s.pos, s.vel⟩ := slow_base hs s.env b rfl fun y hy => hperm.mem_iff.1 hy
  obtain ⟨N, hN, hv⟩ := fades hf hf' s.vel
  have key : ∀ n, n ≠ 0 → FadedAfter n s → ∀ m, n ≤ m → (settleIter s.env ⟨s.pos, s.vel⟩ m).vel = (fun _ => 0) ∧
      ¬ settleMore s.env ⟨s.pos, s.vel⟩ m := by
    intro n hn hv m hm
    obtain ⟨k, rfl⟩ := Nat.exists_eq_add_of_le hm
    have hmore := slow_not_more (e := s.env) hf hf' hS hn hv
    have hz := slow_stops (e := s.env) hf hf' hS hn hv
    refine ⟨?_, (settled_forever hmore k).1⟩
    cases k with
    | zero => exact funext hz
    | succ k =>
      have h2 := (settled_forever hmore k).2.1
      rw [show n + (k + 1) = n + 1 + k by omega, h2, settleIter_succ]
      rw [(springStep_still hmore).1]
  have hNm := key N hN hv
  refine ⟨(settleIter s.env ⟨s.pos, s.vel⟩ N).pos, fun i => ?_, fun n hn1 hfade ts hts => ?_⟩
  · obtain ⟨a, c⟩ := (slow_iter (e := s.env) hf hf' hS N).1 i
    have a1 := stillToGo_nonneg (f := s.env.friction) hf hf' ((settleIter s.env ⟨s.pos, s.vel⟩ N).vel i).x
    have a2 := stillToGo_nonneg (f := s.env.friction) hf hf' ((settleIter s.env ⟨s.pos, s.vel⟩ N).vel i).y
    refine ⟨?_, ?_⟩
    · have : s.env.friction = s.settings.friction := rfl
      rw [this] at a a1
      simp only at a
      linarith
    · have : s.env.friction = s.settings.friction := rfl
      rw [this] at c a2
      simp only at c
      linarith
  · have hts' : n ≤ ticks ts := by
      unfold ticks
      simp only [funext stepCount_eq]
      exact hts
    have hk := key n (by omega) hfade
    obtain ⟨u, rs', hrun⟩ := steps_inactive (s := s) ha (ts := ts) (fun _ => fine_of_perm hperm)
    have hsame : ∀ m, n ≤ m → (settleIter s.env ⟨s.pos, s.vel⟩ m).pos = (settleIter s.env ⟨s.pos, s.vel⟩ N).pos := by
      intro m hm
      have h1 := (settled_forever (hk m hm).2 N).2.2
      have h2 := (settled_forever (hNm N (le_refl _)).2 m).2.2
      rw [Nat.add_comm] at h2
      rw [← h1, h2]
    have hq : Quiet (s.withPhys (settleIter s.env ⟨s.pos, s.vel⟩ (ticks ts)) u) := by
      refine ⟨?_, fun i => congrFun (hk _ hts').1 i, fine_of_perm hperm, fun h => absurd h ha⟩
      exact (slow_iter (e := s.env) hf hf' hS (ticks ts)).2.1.dead hf hf'
    refine ⟨_, rs', hrun, hsame _ hts', fun i => congrFun (hk _ hts').1 i, fun t ht => ?_⟩
    simp only [State.exec]
    rw [hq.step]
    simp only [if_pos ht]
    exact ⟨_, rfl, hsame _ hts'⟩

/-- **C122.** Eight ticks are enough for the velocities of any slow model to fade. -/
theorem C122_within_eight_ticks (hf : 0 < s.settings.friction) (hf' : s.settings.friction ≤ 15) (hs : Slow s) :
    FadedAfter 8 s := by
  intro i
  obtain ⟨h1, h2⟩ := slow_all hf hf' hs i
  exact ⟨eight_ticks hf hf' h1, eight_ticks hf hf' h2⟩

/-- **C122.** A slow model held by one anchor made by `GrabAnchor` comes to rest on its targets, if no point can still
get as far as the maximum range from its target: after as many ticks as the velocities take to fade, the next `Step`
answers that nothing moves and leaves every point exactly on its target without velocity. -/
theorem C122_held (e : (State.new p w h x b).run ops = .ok (s, rs))
    (hr : AllAlong ResizeAllowed (State.new p w h x b) ops) (h1 : (owned [] ops rs).length = 1) (hn : NoneInserted s)
    (hf : 0 < s.settings.friction) (hf' : s.settings.friction ≤ 15) (hs : Slow s)
    (hR : ∀ i, euclid (s.targets i) (s.pos i) + stillToGo s.settings.friction (s.vel i).x +
      stillToGo s.settings.friction (s.vel i).y < s.settings.maximumRange)
    {n : ℕ} (hn1 : 1 ≤ n) (hfade : FadedAfter n s) {ts : List ℕ} (ht : ∀ t ∈ ts, t ≠ 0)
    (hts : n ≤ (ts.map fun t => (t + 15) / 16).sum) :
    ∃ s' rs', s.run (ts.map .step) = .ok (s', rs') ∧ ∀ t, t ≠ 0 →
      ∃ s'', s'.exec (.step t) = .ok (s'', .more False) ∧ s''.pos = s.targets ∧ ∀ i, s''.vel i = 0 := by
  have hI := inv_run e
  have hperm := springs_perm hI (baseLen_run hr e) hn
  have ha : s.active := (C45_tracking_iff e).2 h1
  have hS : SlowEnv s.env ⟨s.pos, s.vel⟩ := slow_base hs s.env b rfl fun y hy => hperm.mem_iff.1 hy
  have hd := fine_of_perm hperm
  have hpos : 0 < s.settings.maximumRange := by
    have := hR 0
    have a1 := stillToGo_nonneg hf hf' (s.vel 0).x
    have a2 := stillToGo_nonneg hf hf' (s.vel 0).y
    have a3 : 0 ≤ euclid (s.targets 0) (s.pos 0) := Real.sqrt_nonneg _
    linarith
  have hq : Quiet { s with pos := s.targets, vel := fun _ => 0 } :=
    quiet_of_rest (s := { s with pos := s.targets, vel := fun _ => 0 }) hperm ⟨hI.targets, fun _ => rfl⟩
      fun _ => ⟨rfl, hpos⟩
  have hts' : n ≤ ticks ts := by
    unfold ticks
    simp only [funext stepCount_eq]
    exact hts
  have hI' := slow_iter (e := s.env) hf hf' hS (ticks ts)
  have hmore : ∀ m, ¬ settleMore s.env (settleIter s.env ⟨s.pos, s.vel⟩ (ticks ts)) m := by
    intro m
    rw [← settleMore_add]
    obtain ⟨k, hk⟩ := Nat.exists_eq_add_of_le hts'
    rw [hk, Nat.add_assoc]
    exact (settled_forever (slow_not_more (e := s.env) hf hf' hS (by omega) hfade) (k + m)).1
  obtain ⟨u, rs', hrun | hrun⟩ := steps_in_range hf hf' ha hd hq hS hR ht
  · refine ⟨_, _, hrun, fun t ht0 => ?_⟩
    have h2 := (step_in_range (s := s.withPhys (settleIter s.env ⟨s.pos, s.vel⟩ (ticks ts)) u) hf hf' ha hd hI'.2.1
      (InRange.fading (s := s) (q := ⟨s.pos, s.vel⟩) hR hI'.1) ht0).2 (by
        rintro ⟨m, -, hm⟩
        exact hmore m hm)
    exact ⟨_, h2, rfl, fun _ => rfl⟩
  · refine ⟨_, _, hrun, fun t ht0 => ?_⟩
    have hQ : Quiet (s.withPhys ⟨s.targets, fun _ => 0⟩ u) := hq.unequal _
    simp only [State.exec]
    rw [hQ.step]
    simp only [if_pos ht0]
    exact ⟨_, rfl, rfl, fun _ => rfl⟩

/-! ## A slow model in motion -/

/-- A mesh with its first point one pixel to the right pulls on the two neighbours of that point. -/
theorem slid_force (i : Idx) (h0 : i ≠ 0) :
    (baseEdges.map (edgeForce 8 (fun j => if j = 0 then ⟨1, 0⟩ else 0) i)).sum =
      if i = 1 ∨ i = 4 then ⟨4, 0⟩ else 0 := by
  rw [baseEdges_list]
  fin_cases i <;> first | exact absurd rfl h0 | skip
  all_goals
    simp [edgeForce, edgePull, pull]
    try norm_num
    try rfl
  all_goals ext <;> simp

theorem slid_neighbours : ∀ i j : Idx, (j.val = i.val + 1 ∧ i.val % 4 ≠ 3) ∨ j.val = i.val + 4 →
    ((i = 0 → j = 1 ∨ j = 4) ∧ j ≠ 0 ∧ (i = 15 → False)) ∧ (j.val = i.val + 1 ∧ i.val % 4 ≠ 3 → row j = row i ∧ col j = col i + 1) ∧
    (j.val = i.val + 4 → row j = row i + 1 ∧ col j = col i) := by decide

theorem slid_bound (i j : Idx) (h0 : i = 0 → j = 1 ∨ j = 4) (hj : j ≠ 0) :
    |(if j = 0 then ⟨1, 0⟩ else if j = 1 ∨ j = 4 then ⟨2 / 15, 0⟩ else 0 : Pt).x -
        (if i = 0 then ⟨1, 0⟩ else if i = 1 ∨ i = 4 then ⟨2 / 15, 0⟩ else 0 : Pt).x| +
      |(if i = 1 ∨ i = 4 then ⟨4 / 15, 0⟩ else 0 : Pt).x| / 4 + |(if j = 1 ∨ j = 4 then ⟨4 / 15, 0⟩ else 0 : Pt).x| / 4 < 1 ∧
    |(if j = 0 then ⟨1, 0⟩ else if j = 1 ∨ j = 4 then ⟨2 / 15, 0⟩ else 0 : Pt).y -
        (if i = 0 then ⟨1, 0⟩ else if i = 1 ∨ i = 4 then ⟨2 / 15, 0⟩ else 0 : Pt).y| +
      |(if i = 1 ∨ i = 4 then ⟨4 / 15, 0⟩ else 0 : Pt).y| / 4 +
      |(if j = 1 ∨ j = 4 then ⟨4 / 15, 0⟩ else 0 : Pt).y| / 4 < 1 := by
  rw [if_neg hj]
  by_cases hi : i = 0
  · have hj' := h0 hi
    have hi' : ¬ (i = 1 ∨ i = 4) := by
      rw [hi]
      decide
    rw [if_pos hj', if_pos hi, if_neg hi', if_pos hj']
    norm_num [abs_of_neg]
  · rw [if_neg hi]
    by_cases h1 : i = 1 ∨ i = 4 <;> by_cases h2 : j = 1 ∨ j = 4 <;> simp only [h1, h2, if_true, if_false] <;>
      norm_num [abs_of_neg]

/-- Friction 10: grab the first and the last mesh point, move the first one by a pixel, `Step (16)`. Then two points move
and the model is slow. -/
theorem slid_history (p : Pt) {w h : ℝ} (b : ℕ) (hw : w ≠ 0) (hh : h ≠ 0)
    (hz : ∀ i, Representable ((State.new p w h ⟨8, 10, 500⟩ b).pos i)) :
    ∃ s rs, (State.new p w h ⟨8, 10, 500⟩ b).run ([0, 15].map (fun i => .grab ((State.new p w h ⟨8, 10, 500⟩ b).pos i)) ++
        [.moveAnchor 0 ⟨1, 0⟩, .step 16]) = .ok (s, rs) ∧ s.live.length ≠ 1 ∧ NoneInserted s ∧ s.settings.friction = 10 ∧
      Slow s ∧ (s.vel 1).x = 4 / 15 ∧ FadedAfter 1 s := by
  set m := State.new p w h ⟨8, 10, 500⟩ b with hm
  obtain ⟨s1, rs1, e1, hH⟩ := hold_points p ⟨8, 10, 500⟩ b hw hh hz [0, 15]
  have hl1 : s1.live = [⟨0, .grab 0⟩, ⟨1, .grab 15⟩] := hH.live
  have hc1 : s1.count = 2 := hH.count
  have e2 := moveAnchor_grab_inactive (s := s1) (k := 0) (i := 0) (d := ⟨1, 0⟩) (by omega) (by rw [hl1]; rfl)
  set s2 : State := { s1 with pos := Function.update s1.pos 0 (s1.pos 0 + ⟨1, 0⟩) } with hs2
  have hna : ¬ s2.active := by
    show s1.count ≠ 1
    omega
  have hspr : s2.springs = baseSprings m.tile b := hH.springs
  have hnd : ¬ dangling s2.springs s2.live := by
    rintro ⟨y, hy, hh⟩
    rw [hspr] at hy
    obtain ⟨⟨i, hi⟩, j, hj⟩ := base_ends_mesh hy
    rw [hi, hj] at hh
    exact hh ⟨trivial, trivial⟩
  have e3 := step_inactive hna (t := 16) (fun _ => hnd)
  have hsc : stepCount 16 = 1 := by rw [stepCount_eq]
  rw [hsc] at e3
  have hpos2 : ∀ i, s2.pos i = positionArray p m.tile i + (if i = 0 then ⟨1, 0⟩ else 0 : Pt) := by
    intro i
    show Function.update s1.pos 0 (s1.pos 0 + ⟨1, 0⟩) i = _
    rw [hH.pos]
    by_cases hi : i = 0
    · subst hi
      rw [Function.update_self]
      rfl
    · rw [Function.update_of_ne hi, if_neg hi]
      show positionArray p m.tile i = _
      ext <;> simp
  have hvel2 : ∀ i, s2.vel i = 0 := fun i => by
    show s1.vel i = 0
    rw [hH.vel]
    rfl
  have hset : s2.settings = ⟨8, 10, 500⟩ := hH.settings
  have hlk : ∀ i, s2.locks i = [0, 15].count i := hH.locks
  have hforce : ∀ i, i ≠ 0 → (calculateForces s2.env.k (s2.env.at_ s2.pos) s2.env.springs).1 (.mesh i) =
      if i = 1 ∨ i = 4 then ⟨4, 0⟩ else 0 := by
    intro i hi
    have hk : s2.env.k = 8 := by
      show s2.settings.springConstant = 8
      rw [hset]
    have hs : s2.env.springs = baseSprings m.tile b := hspr
    rw [hk, hs, force_disp (e := s2.env) (p := p) (b := b) 8 hpos2 i, slid_force i hi]
  have hfr : s2.env.friction = 10 := by
    show s2.settings.friction = 10
    rw [hset]
  have hv : ∀ i, (settleIter s2.env ⟨s2.pos, s2.vel⟩ 1).vel i = if i = 1 ∨ i = 4 then ⟨4 / 15, 0⟩ else 0 := by
    intro i
    rw [settleIter_succ, settleIter_zero]
    unfold springStep anchoredIntegration eulerIntegrate
    simp only
    by_cases hi : s2.env.locks i > 0
    · rw [if_pos hi]
      have : ¬ (i = 1 ∨ i = 4) := by
        rintro (rfl | rfl)
        · have h2 : s2.locks 1 > 0 := hi
          rw [hlk] at h2
          revert h2
          decide
        · have h2 : s2.locks 4 > 0 := hi
          rw [hlk] at h2
          revert h2
          decide
      rw [if_neg this]
      rfl
    · have hi0 : i ≠ 0 := by
        rintro rfl
        apply hi
        show s2.locks 0 > 0
        rw [hlk]
        decide
      rw [if_neg hi, hforce i hi0, hvel2, hfr]
      by_cases h14 : i = 1 ∨ i = 4
      · rw [if_pos h14, if_pos h14]
        unfold eulerVelocity mass clip
        ext <;> norm_num
      · rw [if_neg h14, if_neg h14]
        unfold eulerVelocity mass clip
        ext <;> norm_num
  have hp : ∀ i, (settleIter s2.env ⟨s2.pos, s2.vel⟩ 1).pos i = positionArray p m.tile i +
      (if i = 0 then ⟨1, 0⟩ else if i = 1 ∨ i = 4 then ⟨2 / 15, 0⟩ else 0 : Pt) := by
    intro i
    have hvi := hv i
    rw [settleIter_succ, settleIter_zero] at hvi ⊢
    by_cases hi : s2.env.locks i > 0
    · have h1 : (springStep s2.env ⟨s2.pos, s2.vel⟩).1.pos i = s2.pos i := by
        unfold springStep anchoredIntegration
        simp only
        rw [if_pos hi]
      have h2 : (springStep s2.env ⟨s2.pos, s2.vel⟩).1.vel i = 0 := by
        unfold springStep anchoredIntegration
        simp only
        rw [if_pos hi]
        rfl
      rw [h1, hpos2]
      rw [h2] at hvi
      by_cases h14 : i = 1 ∨ i = 4
      · rw [if_pos h14] at hvi
        have := congrArg Pt.x hvi
        norm_num at this
      · rw [if_neg h14]
    · have hi0 : i ≠ 0 := by
        rintro rfl
        apply hi
        show s2.locks 0 > 0
        rw [hlk]
        decide
      have h1 : (springStep s2.env ⟨s2.pos, s2.vel⟩).1.pos i = s2.pos i +
          ((springStep s2.env ⟨s2.pos, s2.vel⟩).1.vel i).scale (1 / 2) := by
        unfold springStep anchoredIntegration eulerIntegrate
        simp only
        rw [if_neg hi, if_neg hi]
      rw [h1, hvi, hpos2, if_neg hi0, if_neg hi0]
      by_cases h14 : i = 1 ∨ i = 4
      · rw [if_pos h14, if_pos h14]
        ext <;> simp [Pt.scale]
        norm_num
      · rw [if_neg h14, if_neg h14]
        ext <;> simp [Pt.scale]
  have e3' : s2.exec (.step 16) = _ := e3
  have e := run_snoc (run_snoc e1 e2) e3'
  rw [List.append_assoc] at e
  have hgo : ∀ v, stillToGo 10 v = |v| / 4 := by
    intro v
    unfold stillToGo
    ring
  have htx : m.tile.x = w / 3 := by
    show w / (4 - 1) = w / 3
    norm_num
  have hty : m.tile.y = h / 3 := by
    show h / (4 - 1) = h / 3
    norm_num
  have hmw : s1.width = w := hH.size.1
  have hmh : s1.height = h := hH.size.2
  refine ⟨_, _, e, by show s1.live.length ≠ 1; rw [hl1]; simp, ?_, ?_, ⟨?_, ?_⟩, ?_, ?_⟩
  · intro a ha
    have ha' : a ∈ s1.live := ha
    rw [hl1] at ha'
    simp only [List.mem_cons, List.not_mem_nil, or_false] at ha'
    rcases ha' with rfl | rfl <;> rintro ⟨_, _, _, _, h⟩ <;> simp at h
  · show s2.settings.friction = 10
    rw [hset]
  · intro i j hij
    obtain ⟨⟨g0, gj, -⟩, gr, -⟩ := slid_neighbours i j (Or.inl hij)
    show KeepsWithinOne s2.settings.friction (((settleIter s2.env ⟨s2.pos, s2.vel⟩ 1).pos j).x -
        ((settleIter s2.env ⟨s2.pos, s2.vel⟩ 1).pos i).x) (s1.width / 3)
        ((settleIter s2.env ⟨s2.pos, s2.vel⟩ 1).vel i).x ((settleIter s2.env ⟨s2.pos, s2.vel⟩ 1).vel j).x ∧
      KeepsWithinOne s2.settings.friction (((settleIter s2.env ⟨s2.pos, s2.vel⟩ 1).pos j).y -
        ((settleIter s2.env ⟨s2.pos, s2.vel⟩ 1).pos i).y) 0
        ((settleIter s2.env ⟨s2.pos, s2.vel⟩ 1).vel i).y ((settleIter s2.env ⟨s2.pos, s2.vel⟩ 1).vel j).y
    rw [hp, hp, hv, hv, hset, hmw]
    have hc := (gr hij).2
    have hro := (gr hij).1
    have k := slid_bound i j g0 gj
    simp only [KeepsWithinOne, hgo, positionArray, Pt.add_x, Pt.add_y, hc, hro, htx] at k ⊢
    refine ⟨lt_of_eq_of_lt ?_ k.1, lt_of_eq_of_lt ?_ k.2⟩
    · congr 3
      push_cast
      ring
    · congr 3
      ring
  · intro i j hij
    obtain ⟨⟨g0, gj, -⟩, -, gb⟩ := slid_neighbours i j (Or.inr hij)
    show KeepsWithinOne s2.settings.friction (((settleIter s2.env ⟨s2.pos, s2.vel⟩ 1).pos j).x -
        ((settleIter s2.env ⟨s2.pos, s2.vel⟩ 1).pos i).x) 0
        ((settleIter s2.env ⟨s2.pos, s2.vel⟩ 1).vel i).x ((settleIter s2.env ⟨s2.pos, s2.vel⟩ 1).vel j).x ∧
      KeepsWithinOne s2.settings.friction (((settleIter s2.env ⟨s2.pos, s2.vel⟩ 1).pos j).y -
        ((settleIter s2.env ⟨s2.pos, s2.vel⟩ 1).pos i).y) (s1.height / 3)
        ((settleIter s2.env ⟨s2.pos, s2.vel⟩ 1).vel i).y ((settleIter s2.env ⟨s2.pos, s2.vel⟩ 1).vel j).y
    rw [hp, hp, hv, hv, hset, hmh]
    have hc := (gb hij).2
    have hro := (gb hij).1
    have k := slid_bound i j g0 gj
    simp only [KeepsWithinOne, hgo, positionArray, Pt.add_x, Pt.add_y, hc, hro, hty] at k ⊢
    refine ⟨lt_of_eq_of_lt ?_ k.1, lt_of_eq_of_lt ?_ k.2⟩
    · congr 3
      ring
    · congr 3
      push_cast
      ring
  · show ((settleIter s2.env ⟨s2.pos, s2.vel⟩ 1).vel 1).x = 4 / 15
    rw [hv]
    simp
  · intro i
    show (1 - s2.settings.friction / 15) ^ 1 * |((settleIter s2.env ⟨s2.pos, s2.vel⟩ 1).vel i).x| < 1 / 10 ∧
      (1 - s2.settings.friction / 15) ^ 1 * |((settleIter s2.env ⟨s2.pos, s2.vel⟩ 1).vel i).y| < 1 / 10
    rw [hv, hset]
    split_ifs
    · norm_num [abs_of_pos]
    · norm_num

/-- The hypotheses of `C122_calls_return`, `C122_moves_by` and `C122_comes_to_rest` in a history after which points move. -/
example : ∃ ops s rs, (State.new ⟨0, 0⟩ 300 300 ⟨8, 10, 500⟩ 0).run ops = .ok (s, rs) ∧
    AllAlong ResizeAllowed (State.new ⟨0, 0⟩ 300 300 ⟨8, 10, 500⟩ 0) ops ∧ (owned [] ops rs).length ≠ 1 ∧ NoneInserted s ∧
    s.settings.friction = 10 ∧ Slow s ∧ (s.vel 1).x = 4 / 15 ∧ FadedAfter 1 s := by
  obtain ⟨s, rs, e, h1, h2, h3, h4, h5, h6⟩ := slid_history ⟨0, 0⟩ (w := 300) (h := 300) 0 (by norm_num) (by norm_num) demo_rep
  refine ⟨_, s, rs, e, allAlong_of (fun op hop s' => ?_) _, fun hc => h1 ?_, h2, h3, h4, h5, h6⟩
  · simp only [List.map_cons, List.map_nil, List.cons_append, List.nil_append, List.mem_cons, List.not_mem_nil,
      or_false] at hop
    rcases hop with rfl | rfl | rfl | rfl <;> trivial
  · have := (C45_tracking_iff e).2 hc
    by_contra hl
    exact (not_active_iff e).1 hl this

/-- Those of `C122_held`, for one held point that was moved by a third of a pixel. -/
example : ∃ ops s rs, (State.new ⟨0, 0⟩ 300 300 defaultSettings 0).run ops = .ok (s, rs) ∧
    AllAlong ResizeAllowed (State.new ⟨0, 0⟩ 300 300 defaultSettings 0) ops ∧ (owned [] ops rs).length = 1 ∧
    NoneInserted s ∧ Slow s ∧ FadedAfter 1 s ∧ ∀ i, euclid (s.targets i) (s.pos i) +
      stillToGo s.settings.friction (s.vel i).x + stillToGo s.settings.friction (s.vel i).y < s.settings.maximumRange := by
  obtain ⟨i, t, n, -, ht, hg⟩ := demo_grab ⟨0, 0⟩ (rep_small (by norm_num) (by norm_num))
  set s1 := grabbed demo i t n with hs1
  have hc1 : s1.count = 1 := rfl
  have hl1 : s1.live = [⟨0, .grab i⟩] := by simp [hs1, grabbed, demo, State.new]
  set s2 : State := { s1 with targets := fun j => s1.targets j + ⟨1 / 3, 0⟩
                              pos := Function.update s1.pos i (s1.pos i + ⟨1 / 3, 0⟩) } with hs2
  have e2 : s1.exec (.moveAnchor 0 ⟨1 / 3, 0⟩) = .ok (s2, .none) := by
    simp only [State.exec, State.moveAnchor, hl1]
    have hact : s1.active := hc1
    simp [hact, hs2, hl1]
  have e1 : (State.new ⟨0, 0⟩ 300 300 defaultSettings 0).run [.grab ⟨0, 0⟩] = .ok (s1, [.handle 0]) := by
    simp only [State.run]
    rw [show (State.new ⟨0, 0⟩ 300 300 defaultSettings 0).exec (.grab ⟨0, 0⟩) = _ from hg]
    rfl
  have e := run_snoc e1 e2
  have hpos : ∀ j, s2.pos j = demo.pos j + (if j = i then ⟨1 / 3, 0⟩ else 0 : Pt) := by
    intro j
    show Function.update demo.pos i (demo.pos i + ⟨1 / 3, 0⟩) j = _
    by_cases hj : j = i
    · subst hj
      rw [Function.update_self, if_pos rfl]
    · rw [Function.update_of_ne hj, if_neg hj]
      ext <;> simp
  have hvel : ∀ j, s2.vel j = 0 := fun j => rfl
  have hd : ∀ a c : Idx, |(if a = i then ⟨1 / 3, 0⟩ else 0 : Pt).x - (if c = i then ⟨1 / 3, 0⟩ else 0 : Pt).x| < 1 ∧
      |(if a = i then ⟨1 / 3, 0⟩ else 0 : Pt).y - (if c = i then ⟨1 / 3, 0⟩ else 0 : Pt).y| < 1 := by
    intro a c
    by_cases h1 : a = i <;> by_cases h2 : c = i <;> simp only [h1, h2, if_true, if_false] <;> norm_num [abs_of_pos]
  have hwid : s2.width = 300 := rfl
  have hhei : s2.height = 300 := rfl
  refine ⟨_, s2, _, e, allAlong_of (fun op hop s' => ?_) _, (C45_tracking_iff e).1 hc1, ?_, ⟨?_, ?_⟩, ?_, ?_⟩
  · simp only [List.cons_append, List.nil_append, List.mem_cons, List.not_mem_nil, or_false] at hop
    rcases hop with rfl | rfl <;> trivial
  · intro a ha
    have ha' : a ∈ s1.live := ha
    rw [hl1, List.mem_singleton] at ha'
    subst ha'
    rintro ⟨_, _, _, _, h⟩
    simp at h
  · intro a c hac
    have hg := (slid_neighbours a c (Or.inl hac)).2.1 hac
    rw [hpos, hpos, hvel, hvel, demo_pos, demo_pos, hwid]
    simp only [KeepsWithinOne, Pt.zero_x, Pt.zero_y, stillToGo_zero, add_zero, Pt.add_x, Pt.add_y, hg.1, hg.2]
    refine ⟨lt_of_eq_of_lt (congrArg _ ?_) (hd c a).1, lt_of_eq_of_lt (congrArg _ ?_) (hd c a).2⟩
    · push_cast
      ring
    · ring
  · intro a c hac
    have hg := (slid_neighbours a c (Or.inr hac)).2.2 hac
    rw [hpos, hpos, hvel, hvel, demo_pos, demo_pos, hhei]
    simp only [KeepsWithinOne, Pt.zero_x, Pt.zero_y, stillToGo_zero, add_zero, Pt.add_x, Pt.add_y, hg.1, hg.2]
    refine ⟨lt_of_eq_of_lt (congrArg _ ?_) (hd c a).1, lt_of_eq_of_lt (congrArg _ ?_) (hd c a).2⟩
    · ring
    · push_cast
      ring
  · intro j
    rw [hvel]
    norm_num
  · intro j
    have htar : s2.targets j = demo.pos j + ⟨1 / 3, 0⟩ := by
      show t j + ⟨1 / 3, 0⟩ = _
      rw [ht]
    rw [hvel, htar, hpos]
    simp only [Pt.zero_x, Pt.zero_y, stillToGo_zero, add_zero]
    have hmax : s2.settings.maximumRange = 500 := rfl
    rw [hmax]
    have h2 := euclid_moved (demo.pos j + ⟨1 / 3, 0⟩) (demo.pos j + ⟨1 / 3, 0⟩)
      (demo.pos j + (if j = i then ⟨1 / 3, 0⟩ else 0 : Pt))
    have h3 : euclid (demo.pos j + ⟨1 / 3, 0⟩) (demo.pos j + ⟨1 / 3, 0⟩) = 0 := by
      unfold euclid
      simp
    rw [h3] at h2
    refine lt_of_le_of_lt h2 ?_
    by_cases hj : j = i
    · simp [hj]
    · simp only [if_neg hj, Pt.add_x, Pt.add_y, Pt.zero_x, Pt.zero_y]
      rw [show (demo.pos j).x + 0 - ((demo.pos j).x + 1 / 3) = -(1 / 3) by ring,
        show (demo.pos j).y + 0 - ((demo.pos j).y + 0) = 0 by ring, abs_neg]
      norm_num

end Verif.Props
