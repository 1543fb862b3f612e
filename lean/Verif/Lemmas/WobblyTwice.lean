import Verif.Lemmas.WobblyVisit

/-! # Steps that report no movement, in double precision and with anchors -/

namespace Verif.Wobbly.Rounded

noncomputable section

open Classical Outcome

variable {R : Rounding64} {s : State}

/-! ## All coordinates are doubles -/

/-- Mesh and targets consist of doubles. -/
structure AllDouble (s : State) : Prop where
  pos : Doubles s.pos
  targets : Doubles s.targets

theorem round_doubles {q q' : Phys} {b : Prop} (hq : Doubles q.pos) (e : Rounded.round R.rnd s q = .ok (q', b)) :
    Doubles q'.pos := by
  have key : ∀ a : Phys, Doubles a.pos → Doubles (springRound R.rnd s.env a).1.pos := by
    intro a ha j
    simp only [springRound, anchoredIntegration]
    split_ifs
    · exact ha j
    · exact ⟨R.double _, R.double _⟩
  unfold Rounded.round at e
  split_ifs at e
  · rw [bind_eq_ok] at e
    obtain ⟨c, ec, e⟩ := e
    simp only [Outcome.ok.injEq, Prod.mk.injEq] at e
    obtain ⟨rfl, -⟩ := e
    refine key _ ?_
    unfold constrain at ec
    split_ifs at ec
    simp only [Outcome.ok.injEq] at ec
    rw [← ec]
    intro j
    show Double (if _ then _ else _ : Pt).x ∧ Double (if _ then _ else _ : Pt).y
    split_ifs
    · exact hq j
    · exact ⟨R.double _, R.double _⟩
  · simp only [Outcome.ok.injEq, Prod.mk.injEq] at e
    obtain ⟨rfl, -⟩ := e
    exact key _ hq

theorem rounds_doubles {n : ℕ} {q q' : Phys} {b : Prop} (hq : Doubles q.pos) (e : Rounded.rounds R.rnd s n q = .ok (q', b)) :
    Doubles q'.pos := by
  induction n generalizing q b with
  | zero =>
    simp only [Rounded.rounds, Outcome.ok.injEq, Prod.mk.injEq] at e
    obtain ⟨rfl, -⟩ := e
    exact hq
  | succ n ih =>
    simp only [Rounded.rounds, bind_eq_ok, Outcome.ok.injEq, Prod.mk.injEq] at e
    obtain ⟨a, e1, c, e2, rfl, -⟩ := e
    exact ih (round_doubles hq e1) e2

theorem step_double {s' : State} {t : ℕ} {y : Res} (h : AllDouble s) (e : Rounded.step R.rnd s t = .ok (s', y)) : AllDouble s' := by
  unfold Rounded.step at e
  by_cases hd : stepCount t ≠ 0 ∧ dangling s.springs s.live
  · rw [if_pos hd] at e
    cases e
  rw [if_neg hd, bind_eq_ok] at e
  obtain ⟨a, ea, e⟩ := e
  simp only [Outcome.ok.injEq, Prod.mk.injEq] at e
  obtain ⟨rfl, -⟩ := e
  refine ⟨?_, h.targets⟩
  have key : ∀ (c : Prop) [Decidable c], Doubles (if c then s.targets else a.1.pos) := by
    intro c _
    split_ifs
    · exact h.targets
    · exact rounds_doubles h.pos ea
  exact key _

theorem recalc_double {s' : State} (h : AllDouble s) (e : recalc R.rnd s = .ok s') : AllDouble s' := by
  unfold recalc at e
  rw [bind_eq_ok] at e
  obtain ⟨p, -, e⟩ := e
  simp only [Outcome.ok.injEq] at e
  rw [← e]
  exact ⟨h.pos, fun _ => ⟨R.double _, R.double _⟩⟩

theorem activate_double {s' : State} (h : AllDouble s) (e : activate R.rnd s = .ok s') : AllDouble s' := by
  unfold activate at e
  dsimp only at e
  split_ifs at e
  · exact recalc_double (s := { s with count := s.count + 1 }) ⟨h.pos, h.targets⟩ e
  · simp only [Outcome.ok.injEq] at e
    rw [← e]
    exact ⟨h.pos, h.targets⟩

theorem deactivate_double {s' : State} (h : AllDouble s) (e : deactivate R.rnd s = .ok s') : AllDouble s' := by
  unfold deactivate at e
  dsimp only at e
  split_ifs at e
  · exact recalc_double (s := { s with count := s.count - 1 }) ⟨h.pos, h.targets⟩ e
  · simp only [Outcome.ok.injEq] at e
    rw [← e]
    exact ⟨h.pos, h.targets⟩

theorem target_double {a : State × Pt} (h : AllDouble s) (e : targetPosition R.rnd s = .ok a) : AllDouble a.1 := by
  unfold targetPosition at e
  split_ifs at e
  · simp only [Outcome.ok.injEq] at e
    rw [← e]
    exact h
  · rw [bind_eq_ok] at e
    obtain ⟨p, -, e⟩ := e
    simp only [Outcome.ok.injEq] at e
    rw [← e]
    exact ⟨h.pos, h.targets⟩

theorem removeTracked_double (h : AllDouble s) (id : ℕ) : AllDouble (s.removeTracked id) := by
  unfold State.removeTracked
  split_ifs <;> exact ⟨h.pos, h.targets⟩

theorem replace_double (h : AllDouble s) (x : Spring) : AllDouble (s.replace x) := by
  unfold State.replace
  split_ifs <;> exact ⟨h.pos, h.targets⟩

theorem exec_double {s' : State} {op : Op} {y : Res} (h : AllDouble s) (e : exec R.rnd s op = .ok (s', y)) : AllDouble s' := by
  cases op with
  | grab p =>
    simp only [exec, grab] at e
    split at e
    · cases e
    rw [bind_eq_ok] at e
    obtain ⟨s1, e1, e⟩ := e
    simp only [Outcome.ok.injEq, Prod.mk.injEq] at e
    obtain ⟨rfl, -⟩ := e
    have := activate_double (s := { s with unequal := True }) ⟨h.pos, h.targets⟩ e1
    exact ⟨this.pos, this.targets⟩
  | insert p =>
    simp only [exec, insert, bind_eq_ok] at e
    obtain ⟨s1, e1, s2, e2, e⟩ := e
    simp only [Outcome.ok.injEq, Prod.mk.injEq] at e
    obtain ⟨rfl, -⟩ := e
    have := activate_double (s := { s with unequal := True }) ⟨h.pos, h.targets⟩ e1
    unfold insertSprings at e2
    split_ifs at e2
    split at e2
    · cases e2
    simp only [bind_eq_ok, Outcome.ok.injEq] at e2
    obtain ⟨d1, -, d2, -, rfl⟩ := e2
    exact ⟨this.pos, this.targets⟩
  | moveAnchor hid d =>
    simp only [exec, moveAnchor] at e
    split at e
    · simp only [Outcome.ok.injEq, Prod.mk.injEq] at e
      obtain ⟨rfl, -⟩ := e
      exact h
    have ht : Doubles (if s.active then fun i => add R.rnd (s.targets i) d else s.targets) := by
      split_ifs
      · exact fun _ => ⟨R.double _, R.double _⟩
      · exact h.targets
    split at e
    · simp only [Outcome.ok.injEq, Prod.mk.injEq] at e
      obtain ⟨rfl, -⟩ := e
      refine ⟨fun j => ?_, ht⟩
      dsimp only
      rw [Function.update_apply]
      split_ifs
      · exact ⟨R.double _, R.double _⟩
      · exact h.pos j
    · simp only [Outcome.ok.injEq, Prod.mk.injEq] at e
      obtain ⟨rfl, -⟩ := e
      exact ⟨h.pos, ht⟩
  | release hid =>
    simp only [exec, release] at e
    split at e
    · simp only [Outcome.ok.injEq, Prod.mk.injEq] at e
      obtain ⟨rfl, -⟩ := e
      exact h
    rename_i a ha
    simp only [bind_eq_ok, Outcome.ok.injEq, Prod.mk.injEq] at e
    obtain ⟨s1, e1, s2, e2, rfl, -⟩ := e
    refine deactivate_double ?_ e2
    cases hk : a.kind with
    | grab i =>
      simp only [hk, State.releaseKind, State.unlock] at e1
      split_ifs at e1
      all_goals
        simp only [Outcome.ok.injEq] at e1
        rw [← e1]
        exact ⟨h.pos, h.targets⟩
    | ins p st f g =>
      simp only [hk, State.releaseKind, Outcome.ok.injEq] at e1
      rw [← e1]
      refine replace_double (removeTracked_double (removeTracked_double ?_ _) _) _
      exact ⟨h.pos, h.targets⟩
  | step t => exact step_double h e
  | moveBy d =>
    simp only [exec, Outcome.ok.injEq, Prod.mk.injEq] at e
    obtain ⟨rfl, -⟩ := e
    exact ⟨fun _ => ⟨R.double _, R.double _⟩, fun _ => ⟨R.double _, R.double _⟩⟩
  | moveTo p =>
    simp only [exec, moveTo, bind_eq_ok, Outcome.ok.injEq, Prod.mk.injEq] at e
    obtain ⟨a, -, rfl, -⟩ := e
    exact ⟨fun _ => ⟨R.double _, R.double _⟩, fun _ => ⟨R.double _, R.double _⟩⟩
  | resize w hh =>
    simp only [exec, resize] at e
    split_ifs at e
    · simp only [Outcome.ok.injEq, Prod.mk.injEq] at e
      obtain ⟨rfl, -⟩ := e
      exact h
    · simp only [bind_eq_ok, Outcome.ok.injEq, Prod.mk.injEq] at e
      obtain ⟨a, -, rfl, -⟩ := e
      exact ⟨fun _ => ⟨R.double _, R.double _⟩, fun _ => ⟨R.double _, R.double _⟩⟩
  | setSettings x =>
    simp only [exec, Outcome.ok.injEq, Prod.mk.injEq] at e
    obtain ⟨rfl, -⟩ := e
    exact ⟨h.pos, h.targets⟩
  | elsewhere n =>
    simp only [exec, Outcome.ok.injEq, Prod.mk.injEq] at e
    obtain ⟨rfl, -⟩ := e
    exact ⟨h.pos, h.targets⟩

theorem run_double {s' : State} {ops : List Op} {ys : List Res} (h : AllDouble s) (e : run R.rnd s ops = .ok (s', ys)) :
    AllDouble s' := by
  induction ops generalizing s ys with
  | nil =>
    simp only [run, Outcome.ok.injEq, Prod.mk.injEq] at e
    obtain ⟨rfl, -⟩ := e
    exact h
  | cons op ops ih =>
    simp only [run, bind_eq_ok, Outcome.ok.injEq, Prod.mk.injEq] at e
    obtain ⟨a, ea, c, ec, rfl, -⟩ := e
    exact ih (exec_double h ea) ec

theorem new_double (R : Rounding64) (p : Pt) (w h : ℝ) (x : Settings) (b : ℕ) : AllDouble (Rounded.new R.rnd p w h x b) :=
  ⟨fun _ => ⟨R.double _, R.double _⟩, fun _ => ⟨R.double _, R.double _⟩⟩

/-! ## The anchors are counted -/

/-- The tracker counts the live anchors, and these have different numbers. -/
structure Counted (s : State) : Prop where
  count : s.count = s.live.length
  fresh : ∀ a ∈ s.live, a.hid < s.nextHid
  apart : (s.live.map Live.hid).Nodup

variable {r : ℝ → ℝ}

theorem recalc_same {s' : State} (e : recalc r s = .ok s') : s'.count = s.count ∧ s'.live = s.live ∧ s'.nextHid = s.nextHid := by
  unfold recalc at e
  rw [bind_eq_ok] at e
  obtain ⟨p, -, e⟩ := e
  simp only [Outcome.ok.injEq] at e
  rw [← e]
  exact ⟨rfl, rfl, rfl⟩

theorem activate_same {s' : State} (e : activate r s = .ok s') :
    s'.count = s.count + 1 ∧ s'.live = s.live ∧ s'.nextHid = s.nextHid := by
  unfold activate at e
  dsimp only at e
  split_ifs at e
  · exact recalc_same e
  · simp only [Outcome.ok.injEq] at e
    rw [← e]
    exact ⟨rfl, rfl, rfl⟩

theorem deactivate_same {s' : State} (e : deactivate r s = .ok s') :
    s'.count = s.count - 1 ∧ s'.live = s.live ∧ s'.nextHid = s.nextHid := by
  unfold deactivate at e
  dsimp only at e
  split_ifs at e
  · exact recalc_same e
  · simp only [Outcome.ok.injEq] at e
    rw [← e]
    exact ⟨rfl, rfl, rfl⟩

theorem releaseKind_same {s' : State} {k : Kind} (e : s.releaseKind k = .ok s') :
    s'.count = s.count ∧ s'.live = s.live ∧ s'.nextHid = s.nextHid := by
  cases k with
  | grab i =>
    simp only [State.releaseKind, State.unlock] at e
    split_ifs at e
    all_goals
      simp only [Outcome.ok.injEq] at e
      rw [← e]
      exact ⟨rfl, rfl, rfl⟩
  | ins p st f g =>
    have h1 : ∀ (s : State) (n : ℕ), (s.removeTracked n).count = s.count ∧ (s.removeTracked n).live = s.live ∧
        (s.removeTracked n).nextHid = s.nextHid := by
      intro s n
      unfold State.removeTracked
      split_ifs <;> exact ⟨rfl, rfl, rfl⟩
    have h2 : ∀ (s : State) (n : Spring), (s.replace n).count = s.count ∧ (s.replace n).live = s.live ∧
        (s.replace n).nextHid = s.nextHid := by
      intro s n
      unfold State.replace
      split_ifs <;> exact ⟨rfl, rfl, rfl⟩
    simp only [State.releaseKind, Outcome.ok.injEq] at e
    rw [← e]
    simp only [h1, h2, and_self]

theorem Counted.append (C : Counted s) {s' : State} {a : Live} (e1 : s'.count = s.count + 1) (e2 : s'.live = s.live ++ [a])
    (e3 : s'.nextHid = s.nextHid + 1) (ea : a.hid = s.nextHid) : Counted s' := by
  refine ⟨by rw [e1, e2, C.count]; simp, fun b hb => ?_, ?_⟩
  · rw [e2, List.mem_append, List.mem_singleton] at hb
    rw [e3]
    rcases hb with hb | rfl
    · exact (C.fresh b hb).trans (Nat.lt_succ_self _)
    · omega
  · rw [e2, List.map_append, List.nodup_append]
    refine ⟨C.apart, by simp, ?_⟩
    intro n hn m hm
    obtain ⟨b, hb, rfl⟩ := List.mem_map.1 hn
    simp only [List.map_cons, List.map_nil, List.mem_singleton] at hm
    have := C.fresh b hb
    omega

theorem exec_counted {s' : State} {op : Op} {y : Res} (C : Counted s) (e : exec r s op = .ok (s', y)) : Counted s' := by
  have same : ∀ {s' : State}, s'.count = s.count → s'.live = s.live → s'.nextHid = s.nextHid → Counted s' := by
    intro s' e1 e2 e3
    exact ⟨by rw [e1, e2]; exact C.count, by rw [e2, e3]; exact C.fresh, by rw [e2]; exact C.apart⟩
  have mapped : ∀ {s' : State} (g : Live → Live), (∀ b, (g b).hid = b.hid) → s'.count = s.count → s'.live = s.live.map g →
      s'.nextHid = s.nextHid → Counted s' := by
    intro s' g hg e1 e2 e3
    refine ⟨by rw [e1, e2, List.length_map]; exact C.count, fun b hb => ?_, ?_⟩
    · rw [e2] at hb
      obtain ⟨c, hc, rfl⟩ := List.mem_map.1 hb
      rw [hg, e3]
      exact C.fresh c hc
    · rw [e2, List.map_map, show Live.hid ∘ g = Live.hid from funext hg]
      exact C.apart
  cases op with
  | grab p =>
    simp only [exec, grab] at e
    split at e
    · cases e
    rw [bind_eq_ok] at e
    obtain ⟨s1, e1, e⟩ := e
    simp only [Outcome.ok.injEq, Prod.mk.injEq] at e
    obtain ⟨rfl, -⟩ := e
    obtain ⟨c1, c2, c3⟩ := activate_same e1
    exact C.append c1 (congrArg (· ++ _) c2) (congrArg (· + 1) c3) c3
  | insert p =>
    simp only [exec, insert, bind_eq_ok] at e
    obtain ⟨s1, e1, s2, e2, e⟩ := e
    simp only [Outcome.ok.injEq, Prod.mk.injEq] at e
    obtain ⟨rfl, -⟩ := e
    obtain ⟨c1, c2, c3⟩ := activate_same e1
    unfold insertSprings at e2
    split_ifs at e2
    split at e2
    · cases e2
    simp only [bind_eq_ok, Outcome.ok.injEq] at e2
    obtain ⟨d1, -, d2, -, rfl⟩ := e2
    exact C.append c1 (congrArg (· ++ _) c2) (congrArg (· + 1) c3) c3
  | moveAnchor hid d =>
    simp only [exec, moveAnchor] at e
    split at e
    · simp only [Outcome.ok.injEq, Prod.mk.injEq] at e
      obtain ⟨rfl, -⟩ := e
      exact C
    split at e
    · simp only [Outcome.ok.injEq, Prod.mk.injEq] at e
      obtain ⟨rfl, -⟩ := e
      exact same rfl rfl rfl
    · simp only [Outcome.ok.injEq, Prod.mk.injEq] at e
      obtain ⟨rfl, -⟩ := e
      exact mapped (fun b => if b.hid = hid then ⟨b.hid, shift r d b.kind⟩ else b) (fun b => by split_ifs <;> rfl) rfl rfl rfl
  | release hid =>
    simp only [exec, release] at e
    split at e
    · simp only [Outcome.ok.injEq, Prod.mk.injEq] at e
      obtain ⟨rfl, -⟩ := e
      exact C
    rename_i a ha
    simp only [bind_eq_ok, Outcome.ok.injEq, Prod.mk.injEq] at e
    obtain ⟨s1, e1, s2, e2, rfl, -⟩ := e
    obtain ⟨c1, c2, c3⟩ := releaseKind_same e1
    obtain ⟨c4, c5, c6⟩ := deactivate_same e2
    have hl : s2.live = s.live.filter fun b => b.hid ≠ hid := c5.trans c2
    have hk : s2.count = s.count - 1 := c4.trans (congrArg (· - 1) c1)
    have hn : s2.nextHid = s.nextHid := c6.trans c3
    have hm := List.mem_of_find?_eq_some ha
    have hh : a.hid = hid := by simpa using List.find?_some ha
    refine ⟨?_, fun b hb => ?_, ?_⟩
    · rw [hk, hl, C.count]
      have one : ∀ l : List Live, a ∈ l → (l.map Live.hid).Nodup →
          (l.filter fun b => decide (b.hid ≠ hid)).length = l.length - 1 := by
        intro l
        induction l with
        | nil => intro h; cases h
        | cons c l ih =>
          intro hc hn
          rw [List.map_cons, List.nodup_cons] at hn
          by_cases hcc : c.hid = hid
          · rw [List.filter_cons_of_neg (by simpa using hcc), List.filter_eq_self.2]
            · simp
            · intro b hb
              have : b.hid ≠ hid := fun hx => hn.1 (by rw [hcc, ← hx]; exact List.mem_map_of_mem hb)
              simpa using this
          · have hac : a ∈ l := by
              rcases List.mem_cons.1 hc with rfl | hc
              · exact absurd hh hcc
              · exact hc
            rw [List.filter_cons_of_pos (by simpa using hcc), List.length_cons, ih hac hn.2, List.length_cons]
            have := List.length_pos_of_mem hac
            omega
      exact (one s.live hm C.apart).symm
    · rw [hl] at hb
      rw [hn]
      exact C.fresh b (List.mem_of_mem_filter hb)
    · rw [hl]
      exact C.apart.sublist ((List.filter_sublist).map _)
  | step t =>
    simp only [exec] at e
    unfold Rounded.step at e
    by_cases hd : stepCount t ≠ 0 ∧ dangling s.springs s.live
    · rw [if_pos hd] at e
      cases e
    rw [if_neg hd, bind_eq_ok] at e
    obtain ⟨a, -, e⟩ := e
    simp only [Outcome.ok.injEq, Prod.mk.injEq] at e
    obtain ⟨rfl, -⟩ := e
    exact same rfl rfl rfl
  | moveBy d =>
    simp only [exec, Outcome.ok.injEq, Prod.mk.injEq] at e
    obtain ⟨rfl, -⟩ := e
    exact mapped (fun b => ⟨b.hid, shift r d b.kind⟩) (fun _ => rfl) rfl rfl rfl
  | moveTo p =>
    simp only [exec, moveTo, bind_eq_ok, Outcome.ok.injEq, Prod.mk.injEq] at e
    obtain ⟨a, ea, rfl, -⟩ := e
    unfold targetPosition at ea
    split_ifs at ea
    · simp only [Outcome.ok.injEq] at ea
      rw [← ea]
      exact mapped (fun b => ⟨b.hid, shift r _ b.kind⟩) (fun _ => rfl) rfl rfl rfl
    · rw [bind_eq_ok] at ea
      obtain ⟨p, -, ea⟩ := ea
      simp only [Outcome.ok.injEq] at ea
      rw [← ea]
      exact mapped (fun b => ⟨b.hid, shift r _ b.kind⟩) (fun _ => rfl) rfl rfl rfl
  | resize w hh =>
    simp only [exec, resize] at e
    split_ifs at e
    · simp only [Outcome.ok.injEq, Prod.mk.injEq] at e
      obtain ⟨rfl, -⟩ := e
      exact C
    · simp only [bind_eq_ok, Outcome.ok.injEq, Prod.mk.injEq] at e
      obtain ⟨a, ea, rfl, -⟩ := e
      unfold targetPosition at ea
      split_ifs at ea
      · simp only [Outcome.ok.injEq] at ea
        rw [← ea]
        exact mapped (fun b => ⟨b.hid, scaleKind r _ _ b.kind⟩) (fun _ => rfl) rfl rfl rfl
      · rw [bind_eq_ok] at ea
        obtain ⟨p, -, ea⟩ := ea
        simp only [Outcome.ok.injEq] at ea
        rw [← ea]
        exact mapped (fun b => ⟨b.hid, scaleKind r _ _ b.kind⟩) (fun _ => rfl) rfl rfl rfl
  | setSettings x =>
    simp only [exec, Outcome.ok.injEq, Prod.mk.injEq] at e
    obtain ⟨rfl, -⟩ := e
    exact same rfl rfl rfl
  | elsewhere n =>
    simp only [exec, Outcome.ok.injEq, Prod.mk.injEq] at e
    obtain ⟨rfl, -⟩ := e
    exact same rfl rfl rfl

theorem run_counted {s' : State} {ops : List Op} {ys : List Res} (C : Counted s) (e : run r s ops = .ok (s', ys)) : Counted s' := by
  induction ops generalizing s ys with
  | nil =>
    simp only [run, Outcome.ok.injEq, Prod.mk.injEq] at e
    obtain ⟨rfl, -⟩ := e
    exact C
  | cons op ops ih =>
    simp only [run, bind_eq_ok, Outcome.ok.injEq, Prod.mk.injEq] at e
    obtain ⟨a, ea, c, ec, rfl, -⟩ := e
    exact ih (exec_counted C ea) ec

theorem new_counted (r : ℝ → ℝ) (p : Pt) (w h : ℝ) (x : Settings) (b : ℕ) : Counted (Rounded.new r p w h x b) :=
  ⟨rfl, fun _ h => (List.not_mem_nil h).elim, List.nodup_nil⟩

/-! ## Rounds without movement -/

/-- Nothing pulls and nothing is out of range. -/
structure Idle (R : Rounding64) (s : State) (m : Mesh) : Prop where
  near : s.active → ∀ j, distance R.rnd (s.targets j) (m j) < s.settings.maximumRange
  slack : ∀ y ∈ s.springs, Slack R y (s.env.at_ m)

theorem spring_idle {q : Phys} (hd : Doubles q.pos) (hv : ∀ j, q.vel j = 0)
    (hl : ∀ y ∈ s.springs, Slack R y (s.env.at_ q.pos)) :
    (springRound R.rnd s.env q).1 = q ∧ ¬ (springRound R.rnd s.env q).2 := by
  obtain ⟨hf, hm⟩ := forces_slack R (k := s.env.k) hl
  have e : ∀ j, eulerIntegrate R.rnd 1 s.env.friction mass (q.pos j) (q.vel j)
      ((calculateForces R.rnd s.env.k (s.env.at_ q.pos) s.env.springs).1 (.mesh j)) = (q.pos j, q.vel j, False) := by
    intro j
    have h0 : eulerVelocity R.rnd 1 s.env.friction mass 0 0 = 0 := by simp [eulerVelocity, rnd_zero, clip]
    have hf' : (calculateForces R.rnd s.env.k (s.env.at_ q.pos) s.env.springs).1 (.mesh j) = 0 := hf _
    rw [hf', hv]
    simp only [eulerIntegrate, Pt.zero_x, Pt.zero_y, h0, add, scale, zero_mul, rnd_zero, add_zero]
    rw [R.exact (hd j).1, R.exact (hd j).2]
    simp [Pt.ext_iff]
  have er : springRound R.rnd s.env q =
      (q, (calculateForces R.rnd s.env.k (s.env.at_ q.pos) s.env.springs).2 ∨ ∃ j, ¬ s.env.locks j > 0 ∧ False) := by
    unfold springRound anchoredIntegration
    simp only [e, ite_self]
    have : (fun j => if s.env.locks j > 0 then (q.vel j).assignValue 0 else q.vel j) = q.vel := by
      funext j
      rw [hv j]
      split_ifs <;> rfl
    rw [this]
  rw [er]
  refine ⟨rfl, ?_⟩
  rintro (hb | ⟨j, -, hb⟩)
  · exact hm hb
  · exact hb

theorem constrain_idle {m : Mesh} {d : ℝ} {t : Mesh} (h : ∀ j, distance R.rnd (t j) (m j) < d) :
    constrain R.rnd d t m = .ok (m, False) := by
  unfold constrain
  rw [if_neg (by
    rintro ⟨j, hj, -⟩
    exact hj (h j))]
  have e1 : (fun j => if distance R.rnd (t j) (m j) < d then m j else constrainPoint R.rnd d (t j) (m j)) = m := by
    funext j
    exact if_pos (h j)
  have e2 : (∃ j, ¬ distance R.rnd (t j) (m j) < d) = False := by
    refine propext ⟨?_, False.elim⟩
    rintro ⟨j, hj⟩
    exact hj (h j)
  rw [e1, e2]

theorem Idle.round {q : Phys} (I : Idle R s q.pos) (hd : Doubles q.pos) (hv : ∀ j, q.vel j = 0) :
    ∃ b, Rounded.round R.rnd s q = .ok (q, b) ∧ ¬ b := by
  obtain ⟨e, hm⟩ := spring_idle (s := s) hd hv I.slack
  unfold Rounded.round
  by_cases ha : s.active
  · rw [if_pos ha, constrain_idle (I.near ha)]
    simp only [bind_ok]
    rw [show (⟨q.pos, q.vel⟩ : Phys) = q from rfl, e]
    exact ⟨_, rfl, fun h => h.elim id hm⟩
  · rw [if_neg ha]
    simp only [e]
    exact ⟨_, rfl, hm⟩

theorem Idle.rounds {q : Phys} (I : Idle R s q.pos) (hd : Doubles q.pos) (hv : ∀ j, q.vel j = 0) (n : ℕ) :
    ∃ b, Rounded.rounds R.rnd s n q = .ok (q, b) ∧ ¬ b := by
  induction n with
  | zero => exact ⟨_, rfl, fun h => h⟩
  | succ n ih =>
    obtain ⟨b, e, hb⟩ := I.round hd hv
    obtain ⟨c, e2, hc⟩ := ih
    simp only [Rounded.rounds, e, e2, bind_ok]
    exact ⟨_, rfl, fun hx => hx.elim hb hc⟩

theorem round_idle {q q' : Phys} {b : Prop} (hd : Doubles q.pos) (e : Rounded.round R.rnd s q = .ok (q', b)) (hb : ¬ b) :
    Idle R s q.pos ∧ q'.pos = q.pos ∧ ∀ j, q'.vel j = 0 := by
  have hv := round_quiet e hb
  have key : ∀ a : Phys, Doubles a.pos → ¬ (springRound R.rnd s.env a).2 → (∀ j, (springRound R.rnd s.env a).1.vel j = 0) →
      (∀ y ∈ s.springs, Slack R y (s.env.at_ a.pos)) ∧ (springRound R.rnd s.env a).1.pos = a.pos := by
    intro a ha hm hz
    simp only [springRound, not_or] at hm
    refine ⟨(fold_more R s.springs _ hm.1).2, ?_⟩
    funext j
    have hj := hz j
    simp only [springRound, anchoredIntegration, eulerIntegrate] at hj ⊢
    split_ifs at hj ⊢
    · rfl
    · rw [hj]
      simp only [add, scale, Pt.zero_x, Pt.zero_y, zero_mul, rnd_zero, add_zero]
      rw [R.exact (ha j).1, R.exact (ha j).2]
  unfold Rounded.round at e
  by_cases ha : s.active
  · rw [if_pos ha, bind_eq_ok] at e
    obtain ⟨c, ec, e⟩ := e
    simp only [Outcome.ok.injEq, Prod.mk.injEq] at e
    obtain ⟨e1, e2⟩ := e
    rw [← e2, not_or] at hb
    have near : ∀ j, distance R.rnd (s.targets j) (q.pos j) < s.settings.maximumRange := by
      intro j
      by_contra hj
      unfold constrain at ec
      split_ifs at ec
      simp only [Outcome.ok.injEq] at ec
      rw [← ec] at hb
      exact hb.1 ⟨j, hj⟩
    rw [constrain_idle near] at ec
    obtain rfl := Outcome.ok.inj ec
    obtain ⟨k1, k2⟩ := key ⟨q.pos, q.vel⟩ hd hb.2 (by rw [e1]; exact hv)
    exact ⟨⟨fun _ => near, k1⟩, by rw [← e1]; exact k2, hv⟩
  · rw [if_neg ha] at e
    simp only [Outcome.ok.injEq, Prod.mk.injEq] at e
    obtain ⟨e1, e2⟩ := e
    rw [← e2] at hb
    obtain ⟨k1, k2⟩ := key q hd hb (by rw [e1]; exact hv)
    exact ⟨⟨fun h => absurd h ha, k1⟩, by rw [← e1]; exact k2, hv⟩

theorem rounds_idle {n : ℕ} (hn : n ≠ 0) {q q' : Phys} {b : Prop} (hd : Doubles q.pos)
    (e : Rounded.rounds R.rnd s n q = .ok (q', b)) (hb : ¬ b) : Idle R s q.pos ∧ q'.pos = q.pos ∧ ∀ j, q'.vel j = 0 := by
  obtain ⟨n, rfl⟩ := Nat.exists_eq_succ_of_ne_zero hn
  simp only [Rounded.rounds, bind_eq_ok, Outcome.ok.injEq, Prod.mk.injEq] at e
  obtain ⟨a, e1, c, e2, rfl, rfl⟩ := e
  rw [not_or] at hb
  obtain ⟨I, ep, hv⟩ := round_idle hd e1 hb.1
  obtain ⟨b', e3, -⟩ := Idle.rounds (q := a.1) (by rw [ep]; exact I) (by rw [ep]; exact hd) hv n
  rw [e3] at e2
  obtain rfl := Outcome.ok.inj e2
  exact ⟨I, ep, hv⟩

/-- What a `Step` that reports no movement tells. -/
theorem step_idle {s' : State} {t : ℕ} (h : AllDouble s) (ht : t ≠ 0) (e : Rounded.step R.rnd s t = .ok (s', .more False)) :
    Idle R s s.pos ∧ s' = { s with pos := if s.active then s.targets else s.pos, vel := fun _ => 0, unequal := False } ∧
      ¬ dangling s.springs s.live := by
  unfold Rounded.step at e
  by_cases hc : stepCount t ≠ 0 ∧ dangling s.springs s.live
  · rw [if_pos hc] at e
    cases e
  have hs : ¬ dangling s.springs s.live := fun hx => hc ⟨stepCount_pos ht, hx⟩
  rw [if_neg hc, bind_eq_ok] at e
  obtain ⟨a, ea, e⟩ := e
  simp only [Outcome.ok.injEq, Prod.mk.injEq, Res.more.injEq] at e
  obtain ⟨e1, e2⟩ := e
  rw [if_pos ht] at e2
  have hb : ¬ a.2 := fun hx => by
    rw [← e2]
    exact Or.inr hx
  obtain ⟨I, ep, hv⟩ := rounds_idle (stepCount_pos ht) h.pos ea hb
  refine ⟨I, ?_, hs⟩
  rw [← e1]
  have hu : ((if t ≠ 0 then False else s.unequal) ∨ a.2) = False := by rw [if_pos ht]; exact e2
  have hp : (if ¬ ((if t ≠ 0 then False else s.unequal) ∨ a.2) ∧ s.active then s.targets else a.1.pos) =
      if s.active then s.targets else s.pos := by
    rw [ep]
    by_cases ha : s.active
    · rw [if_pos ha, if_pos ⟨by rw [hu]; exact not_false, ha⟩]
    · rw [if_neg ha, if_neg fun hx => ha hx.2]
  have hv' : a.1.vel = fun _ => 0 := funext hv
  have key : ∀ (m m' u u' : Mesh) (c c' : Prop), m = m' → u = u' → c = c' →
      ({ s with pos := m, vel := u, unequal := c } : State) = { s with pos := m', vel := u', unequal := c' } := by
    rintro m m' u u' c c' rfl rfl rfl
    rfl
  exact key _ _ _ _ _ _ hp hv' hu

/-- A model in which nothing pulls does not move. -/
theorem idle_step (h : AllDouble s) (I : Idle R s s.pos) (ha : s.active → s.pos = s.targets) (hv : ∀ j, s.vel j = 0)
    (hu : ¬ s.unequal) (hs : ¬ dangling s.springs s.live) (t : ℕ) : Rounded.step R.rnd s t = .ok (s, .more False) := by
  obtain ⟨b, e, hb⟩ := Idle.rounds (q := ⟨s.pos, s.vel⟩) I h.pos hv (stepCount t)
  have hf : ((if t ≠ 0 then False else s.unequal) ∨ b) = False := by
    refine propext ⟨fun hx => ?_, False.elim⟩
    rcases hx with hx | hx
    · split_ifs at hx
      exact hu hx
    · exact hb hx
  have hu' : s.unequal = False := propext ⟨hu, False.elim⟩
  unfold Rounded.step
  rw [if_neg fun hc => hs hc.2, e]
  simp only [bind_ok, hf]
  have hp : (if ¬ False ∧ s.active then s.targets else s.pos) = s.pos := by
    by_cases hc : s.active
    · rw [if_pos ⟨not_false, hc⟩, ha hc]
    · rw [if_neg fun hx => hc hx.2]
  rw [hp]
  have e1 : ∀ (u : Prop), u = s.unequal → ({ s with unequal := u } : State) = s := by
    rintro u rfl
    rfl
  exact congrArg (fun z => Outcome.ok (z, Res.more False)) (e1 False hu'.symm)

/-- A model in which nothing pulls answers false. -/
theorem idle_answer (h : AllDouble s) (I : Idle R s s.pos) (hv : ∀ j, s.vel j = 0) (hs : ¬ dangling s.springs s.live) {t : ℕ}
    (ht : t ≠ 0) : ∃ s', Rounded.step R.rnd s t = .ok (s', .more False) := by
  obtain ⟨b, e, hb⟩ := Idle.rounds (q := ⟨s.pos, s.vel⟩) I h.pos hv (stepCount t)
  unfold Rounded.step
  rw [if_neg fun hc => hs hc.2, e]
  have hf : ((if t ≠ 0 then False else s.unequal) ∨ b) = False := by
    refine propext ⟨fun h => ?_, False.elim⟩
    rcases h with h | h
    · rwa [if_pos ht] at h
    · exact hb h
  have key : ∀ (z : State) (u : Prop), u = False → ∃ s', Outcome.ok (z, Res.more u) = .ok (s', .more False) := by
    rintro z _ rfl
    exact ⟨_, rfl⟩
  exact key _ _ hf

theorem mesh_ends_sound {l : List Spring} {a : List Live} (ends : ∀ y ∈ l, (∃ i, y.a = .mesh i) ∧ ∃ j, y.b = .mesh j) :
    ¬ dangling l a := by
  rintro ⟨y, hy, hn⟩
  obtain ⟨⟨i, hi⟩, j, hj⟩ := ends y hy
  rw [hi, hj] at hn
  exact hn ⟨trivial, trivial⟩

theorem run_snoc {l : List Op} {c : State} {ys : List Res} {op : Op} {y : Res} {d : State} (h1 : run r s l = .ok (c, ys))
    (h2 : exec r c op = .ok (d, y)) : run r s (l ++ [op]) = .ok (d, ys ++ [y]) := by
  induction l generalizing s ys with
  | nil =>
    simp only [run, Outcome.ok.injEq, Prod.mk.injEq] at h1
    obtain ⟨rfl, rfl⟩ := h1
    simp only [List.nil_append, run, h2, bind_ok]
  | cons o l ih =>
    simp only [run, bind_eq_ok, Outcome.ok.injEq, Prod.mk.injEq] at h1
    obtain ⟨z, hz, z', hz', rfl, rfl⟩ := h1
    simp only [List.cons_append, run, hz, bind_ok, ih hz']

end

end Verif.Wobbly.Rounded
