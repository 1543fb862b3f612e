import Verif.Lemmas.GVisit

/-! # The GObject layer over the wobbly model, whatever the rounding (C134)

Everything is about histories: `g0` is a model just made by `animation_wobbly_model_new`, and `g` is what a sequence of calls
makes of it. `rd` is the rounding applied to the result of every arithmetic operation.
-/

namespace Verif.Props

open Wobbly GWobbly Spec Outcome Classical

noncomputable section

variable {rd : ℝ → ℝ} {p z : Pt} {k f r : ℝ} {b : ℕ} {g0 g : GState} {ops : List GOp} {rs : List GRes}

/-- **C134.** A program that uses only objects it still owns gets exactly what the native model gives, with the same
arithmetic, for the requests it made; if the native calls fail to return, so do the GObject calls. -/
theorem C134_native_history (rd : ℝ → ℝ) (p z : Pt) (k f r : ℝ) (b : ℕ) (ops : List GOp)
    (hw : WellUsed (Track.start (builtSettings k f r)) ops) :
    Matches (fun (u : GState × List GRes) (u' : State × List Res) =>
        u.1.model = (if .unrefModel ∈ ops then none else some u'.1) ∧
        u.1.log = nativeCalls (Track.start (builtSettings k f r)) ops ∧
        gStepAnswers u.2 = stepAnswers u'.2 ∧
        gAnchors u.2 = List.range (gAnchors u.2).length)
      ((GWobbly.Rounded.modelNew rd p z k f r b).bind fun g0 => GWobbly.Rounded.run rd g0 ops)
      (Wobbly.Rounded.run rd (Wobbly.Rounded.new rd p z.x z.y (builtSettings k f r) b)
        (nativeCalls (Track.start (builtSettings k f r)) ops)) := by
  rw [GWobbly.Rounded.new_ok, bind_ok]
  have hs := GWobbly.Rounded.run_sim (rd := rd) (GWobbly.Rounded.rel_start (rd := rd) p z _ b) (ok_start _) hw
  revert hs
  generalize GWobbly.Rounded.run rd _ ops = x
  generalize Wobbly.Rounded.run rd _ (nativeCalls _ ops) = y
  intro hs
  cases x <;> cases y <;> simp only [Matches] at hs ⊢
  obtain ⟨h1, h2, h3, h4⟩ := hs
  refine ⟨?_, by simpa using h2, h3, ?_⟩
  · rw [h1.model]
    have := alive_after (t := Track.start (builtSettings k f r)) (ops := ops)
    by_cases hu : GOp.unrefModel ∈ ops
    · rw [if_pos hu, if_neg (by rw [this]; simp [hu])]
    · rw [if_neg hu, if_pos (this.2 ⟨rfl, hu⟩)]
  · have hz : (Track.start (builtSettings k f r)).made = 0 := rfl
    rw [hz] at h4
    rw [h4]
    simp

/-- A grab, a move, a step, a release, another move, and only then the model and the anchor are given up. -/
example : WellUsed (Track.start (builtSettings 8 3 500))
    [.grab ⟨1, 2⟩, .anchorMoveBy 0 ⟨5, 0⟩, .step 16, .anchorRelease 0, .anchorMoveBy 0 ⟨1, 0⟩, .anchorRelease 0,
      .unrefModel, .anchorUnref 0] := by
  simp [WellUsed, Track.allows, Track.start, Track.next]

/-- In double precision such histories return: a model is made, grabbed, nudged, stepped, let go of and given up. -/
theorem rounded_sample (R : Rounding64) (last : List GOp) (hl : last = [.anchorRelease 0, .unrefModel] ∨ last = [.unrefModel]) :
    ∃ g0 g rs, GWobbly.Rounded.modelNew R.rnd ⟨0, 0⟩ ⟨(300 : ℕ), (200 : ℕ)⟩ 8 3 500 0 = .ok g0 ∧
      GWobbly.Rounded.run R.rnd g0 ([.grab ⟨150, 90⟩, .anchorMoveBy 0 ⟨1 / 16, 0⟩, .step 16] ++ last) = .ok (g, rs) := by
  have ok : ∀ (a c : ℝ), |a| ≤ 1000 → |c| ≤ 1000 → Spot.OnScreen ⟨⟨a, c⟩, (300 : ℕ), (200 : ℕ)⟩ := by
    intro a c ha hc
    exact ⟨by show |a| ≤ _; linarith, by show |c| ≤ _; linarith, by norm_num, by norm_num, double_nat (by omega), by norm_num, by norm_num,
      double_nat (by omega)⟩
  have e : builtSettings 8 3 500 = ⟨8, 3, 500⟩ := by unfold builtSettings; norm_num
  have H : Peaceful R.rnd (builtSettings 8 3 500) (Wobbly.Rounded.new R.rnd ⟨0, 0⟩ (300 : ℕ) (200 : ℕ) (builtSettings 8 3 500) 0)
      ⟨⟨0, 0⟩, (300 : ℕ), (200 : ℕ)⟩ 0 := .new (ok 0 0 (by norm_num) (by norm_num))
  have hx : 1 ≤ (builtSettings 8 3 500).maximumRange := by rw [e]; norm_num
  have Q := peaceful_quiet (R := R) (Or.inl rfl) hx H (by norm_num)
  obtain ⟨s1, s2, s3, s4, e1, e2, e3, e4, -⟩ := Q.nudge R hx (by norm_num) (g := ⟨150, 90⟩) (d := ⟨1 / 16, 0⟩) (by norm_num [abs_le])
    (by norm_num [abs_le]) (by norm_num [abs_le]) (by norm_num) (ok (0 + 1 / 16) (0 + 0) (by norm_num [abs_le]) (by norm_num))
  have hz : (Wobbly.Rounded.new R.rnd ⟨0, 0⟩ (300 : ℕ) (200 : ℕ) (builtSettings 8 3 500) 0).nextHid = 0 := rfl
  rw [hz] at e2 e4
  simp only [List.map_cons, List.map_nil, HeldOp.call, Wobbly.Rounded.run] at e2
  rw [bind_eq_ok] at e2
  obtain ⟨⟨s1', y⟩, e2, e2'⟩ := e2
  simp only [bind_ok, Outcome.ok.injEq, Prod.mk.injEq] at e2'
  obtain ⟨rfl, -⟩ := e2'
  have hw : WellUsed (Track.start (builtSettings 8 3 500))
      ([.grab ⟨150, 90⟩, .anchorMoveBy 0 ⟨1 / 16, 0⟩, .step 16] ++ last) := by
    rcases hl with rfl | rfl <;> simp [WellUsed, Track.allows, Track.start, Track.next]
  have hs := GWobbly.Rounded.run_sim (rd := R.rnd)
    (GWobbly.Rounded.rel_start (rd := R.rnd) ⟨0, 0⟩ ⟨(300 : ℕ), (200 : ℕ)⟩ (builtSettings 8 3 500) 0) (ok_start _) hw
  have hn : ∃ u, Wobbly.Rounded.run R.rnd (Wobbly.Rounded.new R.rnd ⟨0, 0⟩ (300 : ℕ) (200 : ℕ) (builtSettings 8 3 500) 0)
      (nativeCalls (Track.start (builtSettings 8 3 500))
        ([.grab ⟨150, 90⟩, .anchorMoveBy 0 ⟨1 / 16, 0⟩, .step 16] ++ last)) = .ok u := by
    rcases hl with rfl | rfl
    · refine ⟨(s4, [.handle 0, y, .more False, .none]), ?_⟩
      have hc : nativeCalls (Track.start (builtSettings 8 3 500))
          ([.grab ⟨150, 90⟩, .anchorMoveBy 0 ⟨1 / 16, 0⟩, .step 16] ++ [.anchorRelease 0, .unrefModel]) =
          [.grab ⟨150, 90⟩, .moveAnchor 0 ⟨1 / 16, 0⟩, .step 16, .release 0] := by
        simp [nativeCalls, Track.native, Track.start, Track.next]
      rw [hc]
      simp only [Wobbly.Rounded.run, e1, bind_ok, e2, e3, e4]
      rfl
    · refine ⟨(s3, [.handle 0, y, .more False]), ?_⟩
      have hc : nativeCalls (Track.start (builtSettings 8 3 500))
          ([.grab ⟨150, 90⟩, .anchorMoveBy 0 ⟨1 / 16, 0⟩, .step 16] ++ [.unrefModel]) =
          [.grab ⟨150, 90⟩, .moveAnchor 0 ⟨1 / 16, 0⟩, .step 16] := by
        simp [nativeCalls, Track.native, Track.start, Track.next]
      rw [hc]
      simp only [Wobbly.Rounded.run, e1, bind_ok, e2, e3]
      rfl
  obtain ⟨u, hu⟩ := hn
  rw [hu] at hs
  obtain ⟨⟨g, rs⟩, h, -⟩ := matches_ok' hs
  exact ⟨_, g, rs, GWobbly.Rounded.new_ok _ _ _ _ _ _, h⟩

/-- **C134.** After `animation_wobbly_anchor_release`, moving the anchor or releasing it again has no effect, and dropping it
touches neither the model nor any native object; this holds even once the model is gone. -/
theorem C134_inert (h0 : GWobbly.Rounded.modelNew rd p z k f r b = .ok g0) (hrun : GWobbly.Rounded.run rd g0 ops = .ok (g, rs))
    {a : ℕ} (hr : .anchorRelease a ∈ ops) (hu : .anchorUnref a ∉ ops) :
    (∀ d, GWobbly.Rounded.exec rd g (.anchorMoveBy a d) = .ok (g, .none)) ∧
    GWobbly.Rounded.exec rd g (.anchorRelease a) = .ok (g, .none) ∧
    ∃ g', GWobbly.Rounded.exec rd g (.anchorUnref a) = .ok (g', .none) ∧ g'.model = g.model ∧ g'.log = g.log := by
  obtain ⟨hw, s, rs', e, h, -⟩ := GWobbly.Rounded.history h0 hrun
  have hrel : a ∈ ((Track.start (builtSettings k f r)).after ops).released := released_after.2 (Or.inr (Or.inl hr))
  have hgone : a ∉ ((Track.start (builtSettings k f r)).after ops).gone := by
    rw [gone_after]
    rintro (h | h)
    · cases h
    · exact hu h
  have hok : ∀ {t : Track} {l : List GOp}, Track.Ok t → WellUsed t l → Track.Ok (t.after l) := by
    intro t l
    induction l generalizing t with
    | nil => exact fun h _ => h
    | cons op l ih => exact fun h hw => ih (ok_next h hw.1) hw.2
  have hlt := (hok (ok_start _) hw).released a hrel
  have hs := h.slot a hlt
  rw [if_neg hgone, if_pos hrel] at hs
  refine ⟨fun d => ?_, ?_, ?_⟩
  · simp only [GWobbly.Rounded.exec, GWobbly.Rounded.anchorMoveBy, hs]
  · simp only [GWobbly.Rounded.exec, GWobbly.Rounded.anchorRelease, hs, bind_ok]
  · simp only [GWobbly.Rounded.exec, GWobbly.Rounded.anchorRelease, hs, bind_ok]
    exact ⟨_, rfl, rfl, rfl⟩

example (R : Rounding64) : ∃ g0 g rs, GWobbly.Rounded.modelNew R.rnd ⟨0, 0⟩ ⟨(300 : ℕ), (200 : ℕ)⟩ 8 3 500 0 = .ok g0 ∧
    GWobbly.Rounded.run R.rnd g0 [.grab ⟨150, 90⟩, .anchorMoveBy 0 ⟨1 / 16, 0⟩, .step 16, .anchorRelease 0, .unrefModel] = .ok (g, rs) ∧
    GOp.anchorRelease 0 ∈ [GOp.grab ⟨150, 90⟩, .anchorMoveBy 0 ⟨1 / 16, 0⟩, .step 16, .anchorRelease 0, .unrefModel] ∧
    GOp.anchorUnref 0 ∉ [GOp.grab ⟨150, 90⟩, .anchorMoveBy 0 ⟨1 / 16, 0⟩, .step 16, .anchorRelease 0, .unrefModel] := by
  obtain ⟨g0, g, rs, h1, h2⟩ := rounded_sample R _ (Or.inl rfl)
  exact ⟨g0, g, rs, h1, h2, by simp, by simp⟩

/-- **C134.** The native anchor is released exactly once if the program releases or drops the anchor object, in whatever order
and however often, and not otherwise; nothing is done with it afterwards. -/
theorem C134_released_once (h0 : GWobbly.Rounded.modelNew rd p z k f r b = .ok g0)
    (hrun : GWobbly.Rounded.run rd g0 ops = .ok (g, rs)) (a : ℕ) :
    g.log.countP (IsRelease a) = (if .anchorRelease a ∈ ops ∨ .anchorUnref a ∈ ops then 1 else 0) ∧
    ∀ l1 o l2 o' l3, g.log = l1 ++ o :: (l2 ++ o' :: l3) → IsRelease a o → ¬ IsOnAnchor a o' := by
  obtain ⟨hw, s, rs', e, h, hl⟩ := GWobbly.Rounded.history h0 hrun
  obtain ⟨h1, h2⟩ := released_count (t := Track.start (builtSettings k f r)) (ops := ops) (a := a) (by simp [Track.start])
  rw [hl]
  refine ⟨h1, ?_⟩
  intro l1 o l2 o' l3 hlog
  rw [hlog, List.pairwise_append, List.pairwise_cons] at h2
  exact h2.2.1.1 o' (by simp)

/-- **C134.** The stored position is the last absolute position asked for, by function or by property, with the relative
requests after it added one by one in the arithmetic used; the stored size is the last size asked for. -/
theorem C134_requests (h0 : GWobbly.Rounded.modelNew rd p z k f r b = .ok g0)
    (hrun : GWobbly.Rounded.run rd g0 ops = .ok (g, rs)) :
    g.position = requestedRounded rd p ops ∧ g.size = requestedSize z ops := by
  rw [GWobbly.Rounded.new_ok, Outcome.ok.injEq] at h0
  subst h0
  exact GWobbly.Rounded.run_request hrun

/-- **C134.** Reading the settings gives what construction stored and the later requests made of it: the functions always
write, the properties only numbers in their range. -/
theorem C134_settings (h0 : GWobbly.Rounded.modelNew rd p z k f r b = .ok g0)
    (hrun : GWobbly.Rounded.run rd g0 ops = .ok (g, rs)) (hd : .unrefModel ∉ ops) :
    g.readSettings = .ok ((Track.start (builtSettings k f r)).after ops).settings := by
  obtain ⟨hw, s, rs', e, h, -⟩ := GWobbly.Rounded.history h0 hrun
  have hm := h.model
  rw [if_pos (alive_after.2 ⟨rfl, hd⟩)] at hm
  unfold GState.readSettings
  rw [hm]
  exact congrArg _ h.sett

/-- Two relative moves with a rounding that drops the fraction: the stored position is not the exact sum. -/
example : ∃ g0 g rs, GWobbly.Rounded.modelNew (fun x => ⌊x⌋) ⟨0, 0⟩ ⟨300, 200⟩ 8 3 500 0 = .ok g0 ∧
    GWobbly.Rounded.run (fun x => ⌊x⌋) g0 [.moveBy ⟨1 / 2, 5⟩, .moveBy ⟨1 / 2, 5⟩, .propFriction 5] = .ok (g, rs) ∧
    GOp.unrefModel ∉ [GOp.moveBy ⟨1 / 2, 5⟩, .moveBy ⟨1 / 2, 5⟩, .propFriction 5] ∧ g.position = ⟨0, 10⟩ := by
  have hv : factorOk 5 := by unfold factorOk; norm_num
  have hrun : ∃ u, GWobbly.Rounded.run (fun x => ⌊x⌋) ⟨some (Wobbly.Rounded.new (fun x => ⌊x⌋) ⟨0, 0⟩ 300 200 (builtSettings 8 3 500) 0),
      ⟨0, 0⟩, ⟨300, 200⟩, [], []⟩ [.moveBy ⟨1 / 2, 5⟩, .moveBy ⟨1 / 2, 5⟩, .propFriction 5] = .ok u := by
    simp only [GWobbly.Rounded.run, GWobbly.Rounded.exec, GWobbly.Rounded.moveBy, GWobbly.Rounded.run1, GWobbly.Rounded.call,
      Wobbly.Rounded.exec, bind_ok, GWobbly.Rounded.setSettings, if_pos hv, Option.isNone_some, Bool.false_eq_true, if_false]
    exact ⟨_, rfl⟩
  obtain ⟨⟨g, rs⟩, hrun⟩ := hrun
  refine ⟨_, g, rs, GWobbly.Rounded.new_ok _ _ _ _ _ _, hrun, by simp, ?_⟩
  rw [(C134_requests (rd := fun x => ⌊x⌋) (p := ⟨0, 0⟩) (z := ⟨300, 200⟩) (k := 8) (f := 3) (r := 500) (b := 0)
    (GWobbly.Rounded.new_ok _ _ _ _ _ _) hrun).1]
  simp only [requestedRounded]
  ext <;> norm_num

/-- **C134 (finding).** An anchor that was not released must not outlive its model: moving it, releasing it or merely dropping
it then reaches into freed memory, whatever the rounding. -/
theorem C134_outlived (h0 : GWobbly.Rounded.modelNew rd p z k f r b = .ok g0)
    (hrun : GWobbly.Rounded.run rd g0 ops = .ok (g, rs)) {a : ℕ} (hdead : .unrefModel ∈ ops) (hr : .anchorRelease a ∉ ops) :
    (∀ d, GWobbly.Rounded.exec rd g (.anchorMoveBy a d) = .ub) ∧ GWobbly.Rounded.exec rd g (.anchorRelease a) = .ub ∧
    GWobbly.Rounded.exec rd g (.anchorUnref a) = .ub := by
  obtain ⟨hw, s, rs', e, h, -⟩ := GWobbly.Rounded.history h0 hrun
  have hn : ¬ (a < ((Track.start (builtSettings k f r)).after ops).made ∧
      a ∉ ((Track.start (builtSettings k f r)).after ops).gone ∧
      (((Track.start (builtSettings k f r)).after ops).alive = true ∨
        a ∈ ((Track.start (builtSettings k f r)).after ops).released)) := by
    rintro ⟨-, hg, ha | hx⟩
    · exact (alive_after.1 ha).2 hdead
    · rcases released_after.1 hx with hx | hx | hx
      · cases hx
      · exact hr hx
      · exact hg (gone_after.2 (Or.inr hx))
  exact ⟨fun d => GWobbly.Rounded.exec_misuse h hn, GWobbly.Rounded.exec_misuse h hn, GWobbly.Rounded.exec_misuse h hn⟩

example (R : Rounding64) : ∃ g0 g rs, GWobbly.Rounded.modelNew R.rnd ⟨0, 0⟩ ⟨(300 : ℕ), (200 : ℕ)⟩ 8 3 500 0 = .ok g0 ∧
    GWobbly.Rounded.run R.rnd g0 [.grab ⟨150, 90⟩, .anchorMoveBy 0 ⟨1 / 16, 0⟩, .step 16, .unrefModel] = .ok (g, rs) ∧
    GOp.anchorRelease 0 ∉ [GOp.grab ⟨150, 90⟩, .anchorMoveBy 0 ⟨1 / 16, 0⟩, .step 16, .unrefModel] := by
  obtain ⟨g0, g, rs, h1, h2⟩ := rounded_sample R _ (Or.inr rfl)
  exact ⟨g0, g, rs, h1, h2, by simp⟩

end

end Verif.Props
