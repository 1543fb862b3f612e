import Verif.Lemmas.WobblyStep
import Verif.Lemmas.WobblySettle
import Verif.Lemmas.WobblyResize
import Verif.Lemmas.WobblyQuiet
import Verif.Spec.Drag

/-! Where a model that nobody holds would come to rest, and what a first anchor makes of it. -/

namespace Verif.Wobbly

open Outcome Spec

/-- Stepping until nothing moves finds the place that a full integration finds. -/
theorem unheld_settles {b : ℕ} {s s1 : State} (hI : Inv b s) (hB : BaseLen b s) (hl : s.live = []) {ts : List ℕ} {t : ℕ}
    (ht : t ≠ 0) {rs : List Res} {m : Prop} (es : s.run ((ts ++ [t]).map .step) = .ok (s1, rs ++ [.more m])) (hm : ¬ m) :
    s.targetByFullIntegration = .ok (s1.pos 0) := by
  have hn := noneInserted_nil hl
  have hc : s.count = 0 := by rw [hI.count, hl]; rfl
  have ha : ¬ s.active := by
    unfold State.active
    omega
  have hd : ¬ dangling s.springs s.live := fine_of_perm (springs_perm hI hB hn)
  rw [List.map_append, run_append, bind_eq_ok] at es
  obtain ⟨⟨s2, r2⟩, es1, es⟩ := es
  rw [bind_eq_ok] at es
  obtain ⟨⟨s3, r3⟩, es2, es⟩ := es
  simp only [Outcome.ok.injEq, Prod.mk.injEq] at es
  obtain ⟨rfl, hrs⟩ := es
  simp only [List.map_cons, List.map_nil, State.run, State.exec] at es2
  rw [bind_eq_ok] at es2
  obtain ⟨⟨s4, r4⟩, es2, es3⟩ := es2
  simp only [bind_ok, Outcome.ok.injEq, Prod.mk.injEq] at es3
  obtain ⟨rfl, rfl⟩ := es3
  have : r4 = .more m := by
    have := congrArg List.getLast? hrs
    simpa using this
  subst this
  obtain ⟨u, rr, hrun⟩ := steps_inactive ha (ts := ts) (fun _ => hd)
  rw [hrun] at es1
  simp only [Outcome.ok.injEq, Prod.mk.injEq] at es1
  obtain ⟨hs2, -⟩ := es1
  have ha2 : ¬ s2.active := by
    rw [← hs2]
    exact ha
  have h3 := (quiet_of_still_inactive ha2 ht es2 hm).2.2
  rw [h3]
  have hcp := stepCount_pos ht
  have hd2 : ¬ dangling s2.springs s2.live := by rw [← hs2]; exact hd
  rw [step_inactive ha2 (fun _ => hd2)] at es2
  simp only [Outcome.ok.injEq, Prod.mk.injEq, Res.more.injEq] at es2
  rw [← es2.2] at hm
  simp only [not_or, not_exists, not_and] at hm
  have h0 := hm.2 0 (by omega)
  have h4 : ¬ settleMore s.env ⟨s.pos, s.vel⟩ (ticks ts) := by
    have := settleMore_add s.env ⟨s.pos, s.vel⟩ (ticks ts) 0
    rw [Nat.add_zero] at this
    rw [this]
    rw [← hs2] at h0
    exact h0
  have hset : settle s.settleEnv ⟨s.pos, s.vel⟩ = settle s.env ⟨s.pos, s.vel⟩ :=
    settle_congr (fun q => springStep_settleEnv hI hB hn q) _
  unfold State.targetByFullIntegration
  rw [hset]
  rcases settle_cases s.env ⟨s.pos, s.vel⟩ with ⟨c, hc⟩ | hv
  · rw [hc, ← hs2]
    exact congrArg _ (settle_at hc h4).symm
  · exact absurd (settle_diverges.1 hv _) h4

/-- And the other way round. -/
theorem settles_unheld {b : ℕ} {s : State} (hI : Inv b s) (hB : BaseLen b s) (hl : s.live = []) {c : Pt}
    (h : s.targetByFullIntegration = .ok c) :
    ∃ n s1 rs, s.run ((List.replicate n 16 ++ [16]).map .step) = .ok (s1, rs ++ [.more False]) ∧ s1.pos 0 = c := by
  have hn := noneInserted_nil hl
  have hc : s.count = 0 := by rw [hI.count, hl]; rfl
  have ha : ¬ s.active := by
    unfold State.active
    omega
  have hd : ¬ dangling s.springs s.live := fine_of_perm (springs_perm hI hB hn)
  have hset : settle s.env ⟨s.pos, s.vel⟩ = .ok c := by
    rw [← h]
    exact settle_congr (fun q => (springStep_settleEnv hI hB hn q).symm) _
  obtain ⟨n, h1, -, -⟩ := settle_ok hset
  have h16 : stepCount 16 = 1 := by norm_num [stepCount]
  have htk : ticks (List.replicate n 16) = n := by simp [ticks, h16]
  obtain ⟨u, rr, hrun⟩ := steps_inactive ha (ts := List.replicate n 16) (fun _ => hd)
  rw [htk] at hrun
  have hst := step_inactive (s := s.withPhys (settleIter s.env ⟨s.pos, s.vel⟩ n) u) (t := 16) ha (fun _ => hd)
  have hm : ¬ settleMore s.env (settleIter s.env ⟨s.pos, s.vel⟩ n) 0 := by
    rw [← settleMore_add]
    exact h1
  have hmore : ((if (16 : ℕ) ≠ 0 then False else u) ∨
      ∃ m < stepCount 16, settleMore s.env (settleIter s.env ⟨s.pos, s.vel⟩ n) m) = False := by
    rw [h16, if_pos (by norm_num)]
    simp only [false_or, eq_iff_iff, iff_false, not_exists, not_and]
    intro m hlt
    have : m = 0 := by omega
    rw [this]
    exact hm
  refine ⟨n, (s.withPhys (settleIter s.env ⟨s.pos, s.vel⟩ n) u).withPhys
    (settleIter s.env (settleIter s.env ⟨s.pos, s.vel⟩ n) 1) False, rr, ?_, ?_⟩
  · rw [List.map_append, run_append, hrun, bind_ok]
    simp only [List.map_cons, List.map_nil, State.run, State.exec]
    rw [hst]
    have e1 : (s.withPhys (settleIter s.env ⟨s.pos, s.vel⟩ n) u).env = s.env := rfl
    have e2 : (s.withPhys (settleIter s.env ⟨s.pos, s.vel⟩ n) u).unequal = u := rfl
    have e3 : (⟨(s.withPhys (settleIter s.env ⟨s.pos, s.vel⟩ n) u).pos,
      (s.withPhys (settleIter s.env ⟨s.pos, s.vel⟩ n) u).vel⟩ : Phys) = settleIter s.env ⟨s.pos, s.vel⟩ n := rfl
    rw [e1, e2, e3, hmore, h16]
    rfl
  · show (settleIter s.env (settleIter s.env ⟨s.pos, s.vel⟩ n) 1).pos 0 = c
    rw [← settleIter_add]
    have := settled_forever h1 1
    exact settle_at hset this.1

/-- Activation by the first anchor. -/
theorem activate_first {s : State} (hc : s.count = 0) {c : Pt} (h : s.targetByFullIntegration = .ok c) :
    ({ s with unequal := True } : State).activate =
      .ok { s with unequal := True, count := s.count + 1, targets := positionArray c s.tile, lastId := s.lastId + springCount } := by
  unfold State.activate
  simp only
  rw [if_pos (by rw [hc])]
  unfold State.recalc
  have : State.targetByFullIntegration { ({ s with unequal := True } : State) with count := s.count + 1 } = .ok c := h
  simp only at this ⊢
  rw [this]
  rfl

/-- A model held by one anchor, the targets of which are the lattice of its spot. -/
structure Tracks (k : ℕ) (o : Spot) (s : State) : Prop where
  live : ∃ kd, s.live = [⟨k, kd⟩]
  count : s.count = 1
  width : s.width = o.width
  height : s.height = o.height
  targets : ∀ i, s.targets i = o.point i

theorem point_positionArray (c : Pt) (s : State) (i : Idx) :
    positionArray c s.tile i = (⟨c, s.width, s.height⟩ : Spot).point i := by
  ext <;> simp only [positionArray, State.tile, Spot.point, col, row, Pt.add_x, Pt.add_y] <;> norm_num

theorem grab_tracks {s s' : State} (hl : s.live = []) (hc : s.count = 0) {c : Pt} (h : s.targetByFullIntegration = .ok c)
    {g : Pt} {k : ℕ} (e : s.exec (.grab g) = .ok (s', .handle k)) : Tracks k ⟨c, s.width, s.height⟩ s' := by
  simp only [State.exec, State.grab] at e
  split at e
  · simp at e
  · rename_i i hi
    rw [activate_first hc h, bind_ok] at e
    simp only [Outcome.ok.injEq, Prod.mk.injEq, Res.handle.injEq] at e
    obtain ⟨rfl, rfl⟩ := e
    refine ⟨⟨.grab i, ?_⟩, ?_, rfl, rfl, fun j => point_positionArray c s j⟩
    · simp [State.lock, hl]
    · simp [State.lock, hc]

theorem insert_tracks {s s' : State} (hl : s.live = []) (hc : s.count = 0) {c : Pt} (h : s.targetByFullIntegration = .ok c)
    {g : Pt} {k : ℕ} (e : s.exec (.insert g) = .ok (s', .handle k)) : Tracks k ⟨c, s.width, s.height⟩ s' := by
  simp only [State.exec, State.insert] at e
  rw [activate_first hc h, bind_ok, bind_eq_ok] at e
  obtain ⟨s1, h1, e⟩ := e
  unfold State.insertSprings at h1
  split_ifs at h1
  split at h1
  · simp at h1
  · rename_i found hf
    rw [bind_eq_ok] at h1
    obtain ⟨d1, -, h1⟩ := h1
    rw [bind_eq_ok] at h1
    obtain ⟨d2, -, h1⟩ := h1
    simp only [Outcome.ok.injEq, Prod.mk.injEq, Res.handle.injEq] at e h1
    obtain ⟨rfl, rfl⟩ := e
    subst h1
    refine ⟨⟨.ins g found (s.lastId + springCount + 1) (s.lastId + springCount + 2), ?_⟩, ?_, rfl, rfl,
      fun j => point_positionArray c s j⟩
    · simp [State.install, hl]
    · simp [State.install, hc]

theorem tracks_held {k : ℕ} {o : Spot} {s s' : State} (T : Tracks k o s) {op : HeldOp} {r : Res}
    (e : s.exec (op.call k) = .ok (s', r)) : Tracks k (o.held op) s' := by
  obtain ⟨⟨kd, hl⟩, hc, hw, hh, ht⟩ := T
  have hact : s.active := hc
  have hz : s.targets 0 = o.place := by
    rw [ht]
    ext <;> simp [Spot.point]
  cases op with
  | drag d =>
    obtain ⟨-, ⟨hf, -⟩ | ⟨a, -, ⟨i, -, rfl⟩ | ⟨-, rfl⟩⟩⟩ := moveAnchor_ok e
    · rw [hl] at hf
      simp at hf
    all_goals
      have hm : movedTargets s d = fun i => s.targets i + d := by
        unfold movedTargets
        rw [if_pos hact]
      refine ⟨?_, hc, hw, hh, fun i => ?_⟩
    · exact ⟨kd, hl⟩
    · simp only [hm, ht]
      ext <;> simp [Spot.point, Spot.held] <;> ring
    · exact ⟨kd.shift d, by simp [hl]⟩
    · simp only [hm, ht]
      ext <;> simp [Spot.point, Spot.held] <;> ring
  | model op =>
    cases op with
    | step t =>
      obtain ⟨P, V, m, rfl, -⟩ := step_ok e
      exact ⟨⟨kd, hl⟩, hc, hw, hh, ht⟩
    | moveBy d =>
      simp only [HeldOp.call, State.exec, Outcome.ok.injEq, Prod.mk.injEq] at e
      obtain ⟨rfl, -⟩ := e
      refine ⟨⟨kd.shift d, by simp [State.moveBy, hl]⟩, hc, hw, hh, fun i => ?_⟩
      simp only [State.moveBy, ht]
      ext <;> simp [Spot.point, Spot.held, Spot.after] <;> ring
    | moveTo q =>
      simp only [HeldOp.call, State.exec, State.moveTo, State.targetPosition] at e
      rw [if_pos hact, bind_ok] at e
      simp only [Outcome.ok.injEq, Prod.mk.injEq] at e
      obtain ⟨rfl, -⟩ := e
      refine ⟨⟨kd.shift (q - s.targets 0), by simp [State.moveBy, hl]⟩, hc, hw, hh, fun i => ?_⟩
      simp only [State.moveBy, ht]
      ext <;> simp [Spot.point, Spot.held, Spot.after] <;> ring
    | resize w h =>
      obtain ⟨h1, h2, hw0, hh0, -, ⟨rfl, rfl, rfl⟩ | ⟨n, q, -, -, htp, rfl⟩⟩ := resize_ok e
      · refine ⟨⟨kd, hl⟩, hc, rfl, rfl, fun i => ?_⟩
        rw [ht]
        simp only [Spot.point, Spot.held, Spot.after, hw, hh]
      · have hq : q = s.targets 0 := by
          unfold State.targetPosition at htp
          rw [if_pos hact] at htp
          simp only [Outcome.ok.injEq, Prod.mk.injEq] at htp
          exact htp.2.symm
        subst hq
        refine ⟨⟨_, by simp [resized, hl]; rfl⟩, hc, rfl, rfl, fun i => ?_⟩
        simp only [resized]
        rw [hz, ht]
        rw [hw] at hw0
        rw [hh] at hh0
        simp only [hw, hh]
        ext <;> simp [Spot.point, Spot.held, Spot.after, rescale, Pt.pscale] <;> field_simp <;> ring

theorem tracks_run {k : ℕ} {o : Spot} {s s' : State} (T : Tracks k o s) {held : List HeldOp} {rs : List Res}
    (e : s.run (held.map (HeldOp.call k)) = .ok (s', rs)) : Tracks k (o.heldAll held) s' := by
  induction held generalizing s o rs with
  | nil =>
    simp only [List.map_nil, State.run, Outcome.ok.injEq, Prod.mk.injEq] at e
    rw [← e.1]
    exact T
  | cons op ops ih =>
    simp only [List.map_cons, State.run] at e
    rw [bind_eq_ok] at e
    obtain ⟨⟨s1, r1⟩, h1, e⟩ := e
    rw [bind_eq_ok] at e
    obtain ⟨⟨s2, r2⟩, h2, e⟩ := e
    simp only [Outcome.ok.injEq, Prod.mk.injEq] at e
    rw [e.1] at h2
    exact ih (tracks_held T h1) h2

open Classical in
/-- The target that a first inserted anchor takes for a mesh point: that of the first point in the same place. -/
theorem lookup_first (pos targets : Mesh) (i : Idx) :
    ∃ j, pos j = pos i ∧ (∀ j', pos j' = pos i → j ≤ j') ∧ lookupTarget pos targets (pos i) = .ok (targets j) := by
  unfold lookupTarget
  cases hf : (List.finRange 16).find? fun j => Pt.equals (pos i) (pos j) with
  | none =>
    rw [List.find?_eq_none] at hf
    have := hf i (List.mem_finRange i)
    simp [Pt.equals_iff] at this
  | some j =>
    have h1 := List.find?_some hf
    simp only [decide_eq_true_eq, Pt.equals_iff] at h1
    refine ⟨j, h1.symm, fun j' hj' => ?_, rfl⟩
    by_contra hc
    rw [List.find?_eq_some_iff_getElem] at hf
    obtain ⟨-, n, hn, hj, hlt⟩ := hf
    simp only [List.length_finRange, List.getElem_finRange] at hn hj hlt
    have hjn : j.val = n := by rw [← hj]; rfl
    have hv : j'.val < j.val := Fin.lt_def.1 (not_le.1 hc)
    have := hlt j'.val (by omega)
    simp [Pt.equals_iff, hj'] at this

end Verif.Wobbly
