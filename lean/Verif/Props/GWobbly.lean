import Verif.Lemmas.GWobblyHist

/-!
# Properties of the GObject layer over the wobbly model

Everything is about histories: `g0` is a model just made by `animation_wobbly_model_new`, and `g` is what a
sequence of calls makes of it.
-/

namespace Verif.Props

open Wobbly GWobbly Spec Outcome

noncomputable section

open Classical

variable {p z : Pt} {k f r : ℝ} {b : ℕ} {g0 g : GState} {ops : List GOp} {rs : List GRes}

/-! ## C59: anchors -/

/-- **C59.** A program that uses only objects it still owns gets exactly what the native model gives for the
requests it made: the model object holds the native model as those requests leave it, the requests went to the
native objects in that order, `animation_wobbly_model_step` gives the native answers and anchors come in order.
If the native calls fail to return, so do the GObject calls. -/
theorem C59_native_history (p z : Pt) (k f r : ℝ) (b : ℕ) (ops : List GOp)
    (hw : WellUsed (Track.start (builtSettings k f r)) ops) :
    Matches (fun (u : GState × List GRes) (u' : State × List Res) =>
        u.1.model = (if .unrefModel ∈ ops then none else some u'.1) ∧
        u.1.log = nativeCalls (Track.start (builtSettings k f r)) ops ∧
        gStepAnswers u.2 = stepAnswers u'.2 ∧
        gAnchors u.2 = List.range (gAnchors u.2).length)
      ((modelNew p z k f r b).bind fun g0 => g0.run ops)
      ((State.new p z.x z.y (builtSettings k f r) b).run (nativeCalls (Track.start (builtSettings k f r)) ops)) := by
  rw [new_ok, bind_ok]
  have hs := run_sim (rel_start p z _ b) (ok_start _) hw
  revert hs
  generalize GState.run _ ops = x
  generalize State.run _ (nativeCalls _ ops) = y
  intro hs
  cases x <;> cases y <;> simp only [Matches] at hs ⊢
  obtain ⟨h1, h2, h3, h4⟩ := hs
  refine ⟨?_, by simpa using h2, h3, ?_⟩
  · rw [h1.model]
    have := alive_after (t := Track.start (builtSettings k f r)) (ops := ops)
    by_cases hu : GOp.unrefModel ∈ ops
    · rw [if_pos hu, if_neg (by rw [this]; simp [hu])]
    · rw [if_neg hu, if_pos (this.2 ⟨rfl, hu⟩)]
  · have hz : (Track.start (builtSettings k f r)).made = 0 := rfl
    rw [hz] at h4
    rw [h4]
    simp

/-- A grab, a move, a step, a release, another move, and only then the model and the anchor are given up. -/
example : WellUsed (Track.start (builtSettings 8 3 500))
    [.grab ⟨1, 2⟩, .anchorMoveBy 0 ⟨5, 0⟩, .step 16, .anchorRelease 0, .anchorMoveBy 0 ⟨1, 0⟩, .anchorRelease 0,
      .unrefModel, .anchorUnref 0] := by
  simp [WellUsed, Track.allows, Track.start, Track.next]

/-- **C59.** After `animation_wobbly_anchor_release`, moving the anchor or releasing it again has no effect, and
dropping it touches neither the model nor any native object; this holds even once the model is gone. -/
theorem C59_inert (h0 : modelNew p z k f r b = .ok g0) (hrun : g0.run ops = .ok (g, rs)) {a : ℕ}
    (hr : .anchorRelease a ∈ ops) (hu : .anchorUnref a ∉ ops) :
    (∀ d, g.exec (.anchorMoveBy a d) = .ok (g, .none)) ∧ g.exec (.anchorRelease a) = .ok (g, .none) ∧
    ∃ g', g.exec (.anchorUnref a) = .ok (g', .none) ∧ g'.model = g.model ∧ g'.log = g.log := by
  obtain ⟨hw, s, rs', e, h, -⟩ := history h0 hrun
  have hrel : a ∈ ((Track.start (builtSettings k f r)).after ops).released := released_after.2 (Or.inr (Or.inl hr))
  have hgone : a ∉ ((Track.start (builtSettings k f r)).after ops).gone := by
    rw [gone_after]
    rintro (h | h)
    · cases h
    · exact hu h
  have hok : ∀ {t : Track} {l : List GOp}, Track.Ok t → WellUsed t l → Track.Ok (t.after l) := by
    intro t l
    induction l generalizing t with
    | nil => exact fun h _ => h
    | cons op l ih => exact fun h hw => ih (ok_next h hw.1) hw.2
  have hlt := (hok (ok_start _) hw).released a hrel
  have hs := h.slot a hlt
  rw [if_neg hgone, if_pos hrel] at hs
  refine ⟨fun d => ?_, ?_, ?_⟩
  · simp only [GState.exec, GState.anchorMoveBy, hs]
  · simp only [GState.exec, GState.anchorRelease, hs, bind_ok]
  · simp only [GState.exec, GState.anchorRelease, hs, bind_ok]
    exact ⟨_, rfl, rfl, rfl⟩

example : ∃ g0 g rs, modelNew ⟨0, 0⟩ ⟨300, 300⟩ 8 3 500 0 = .ok g0 ∧
    g0.run [.grab ⟨0, 0⟩, .anchorRelease 0, .unrefModel] = .ok (g, rs) ∧
    GOp.anchorRelease 0 ∈ [GOp.grab ⟨0, 0⟩, .anchorRelease 0, .unrefModel] ∧
    GOp.anchorUnref 0 ∉ [GOp.grab ⟨0, 0⟩, .anchorRelease 0, .unrefModel] := by
  obtain ⟨g0, g, rs, h1, h2, -⟩ := sample [.unrefModel] (Or.inr rfl)
  exact ⟨g0, g, rs, h1, h2, by simp, by simp⟩

/-- **C59.** The native anchor is released exactly once if the program releases or drops the anchor object, in
whatever order and however often, and not otherwise; nothing is done with it afterwards. -/
theorem C59_released_once (h0 : modelNew p z k f r b = .ok g0) (hrun : g0.run ops = .ok (g, rs)) (a : ℕ) :
    g.log.countP (IsRelease a) = (if .anchorRelease a ∈ ops ∨ .anchorUnref a ∈ ops then 1 else 0) ∧
    ∀ l1 o l2 o' l3, g.log = l1 ++ o :: (l2 ++ o' :: l3) → IsRelease a o → ¬ IsOnAnchor a o' := by
  obtain ⟨hw, s, rs', e, h, hl⟩ := history h0 hrun
  obtain ⟨h1, h2⟩ := released_count (t := Track.start (builtSettings k f r)) (ops := ops) (a := a) (by simp [Track.start])
  rw [hl]
  refine ⟨h1, ?_⟩
  intro l1 o l2 o' l3 hlog
  rw [hlog, List.pairwise_append, List.pairwise_cons] at h2
  exact h2.2.1.1 o' (by simp)

example : ∃ g0 g rs, modelNew ⟨0, 0⟩ ⟨300, 300⟩ 8 3 500 0 = .ok g0 ∧
    g0.run [.grab ⟨0, 0⟩, .anchorRelease 0] = .ok (g, rs) := by
  obtain ⟨g0, g, rs, h1, h2, -⟩ := sample [] (Or.inl rfl)
  exact ⟨g0, g, rs, h1, h2⟩

/-! ## C60: position and size -/

/-- **C60.** The stored position is the last absolute position asked for, by function or by property, moved by
the relative requests after it; the stored size is the last size asked for. -/
theorem C60_requests (h0 : modelNew p z k f r b = .ok g0) (hrun : g0.run ops = .ok (g, rs)) :
    g.position = requestedPosition p ops ∧ g.size = requestedSize z ops := by
  rw [new_ok, Outcome.ok.injEq] at h0
  subst h0
  exact run_request hrun

example : ∃ g0 g rs, modelNew ⟨0, 0⟩ ⟨300, 300⟩ 8 3 500 0 = .ok g0 ∧
    g0.run [.grab ⟨0, 0⟩, .anchorRelease 0] = .ok (g, rs) := by
  obtain ⟨g0, g, rs, h1, h2, -⟩ := sample [] (Or.inl rfl)
  exact ⟨g0, g, rs, h1, h2⟩

example : requestedPosition ⟨0, 0⟩ [.moveBy ⟨1, 1⟩, .moveTo ⟨10, 20⟩, .step 16, .moveBy ⟨5, 0⟩] = ⟨15, 20⟩ := by
  simp only [requestedPosition]
  ext <;> norm_num

/-- **C60.** Setting the position or size property is calling the function; a `NULL` is not survived. -/
theorem C60_property_is_call (g : GState) (q : Pt) :
    g.exec (.propPosition (some q)) = g.exec (.moveTo q) ∧ g.exec (.propSize (some q)) = g.exec (.resize q) ∧
    g.exec (.propPosition none) = .ub ∧ g.exec (.propSize none) = .ub := ⟨rfl, rfl, rfl, rfl⟩

/-- **C60.** As long as no anchor is made, every history of moves, resizes to non-empty sizes, steps and changes
of settings returns, and leaves the mesh at rest as a regular lattice at the position and of the size asked
for. -/
theorem C60_follows (hz : 0 < z.x ∧ 0 < z.y) (h0 : modelNew p z k f r b = .ok g0) (hu : ∀ op ∈ ops, Untouching op) :
    ∃ g rs s, g0.run ops = .ok (g, rs) ∧ g.model = some s ∧ RestsAt (requestedPosition p ops) s ∧
      s.width = (requestedSize z ops).x ∧ s.height = (requestedSize z ops).y := by
  rw [new_ok, Outcome.ok.injEq] at h0
  subst h0
  obtain ⟨⟨s, rs', e, h⟩, hw, ha⟩ := untouched_run (t := Track.start (builtSettings k f r)) (ops := ops)
    (untouched_new p z (builtSettings k f r) b) hz rfl hu
  have hs := run_sim (rel_start p z _ b) (ok_start _) hw
  rw [e] at hs
  obtain ⟨⟨g, rs⟩, e2, h1, -⟩ := matches_ok' hs
  refine ⟨g, rs, s, e2, ?_, ?_, h.width, h.height⟩
  · have := h1.model
    rwa [if_pos ha] at this
  · have := h.rest.restsAt
    rwa [h.pos] at this

example : (0 : ℝ) < (⟨300, 200⟩ : Pt).x ∧ (0 : ℝ) < (⟨300, 200⟩ : Pt).y ∧
    ∀ op ∈ [GOp.moveTo ⟨10, 20⟩, .resize ⟨50, 40⟩, .step 16, .moveBy ⟨5, 0⟩, .propMovementRange 5, .setFriction 0],
      Untouching op := by
  simp [Untouching]

/-! ## C64: anchors and the life of the model -/

/-- **C64 (finding).** An anchor that was not released must not outlive its model: moving it, releasing it or
merely dropping it then reaches into freed memory. Here after any history that made the anchor and gave up the
model. -/
theorem C64_outlived (h0 : modelNew p z k f r b = .ok g0) (hrun : g0.run ops = .ok (g, rs)) {a : ℕ}
    (hdead : .unrefModel ∈ ops) (hr : .anchorRelease a ∉ ops) :
    (∀ d, g.exec (.anchorMoveBy a d) = .ub) ∧ g.exec (.anchorRelease a) = .ub ∧ g.exec (.anchorUnref a) = .ub := by
  obtain ⟨hw, s, rs', e, h, -⟩ := history h0 hrun
  have hn : ¬ (a < ((Track.start (builtSettings k f r)).after ops).made ∧
      a ∉ ((Track.start (builtSettings k f r)).after ops).gone ∧
      (((Track.start (builtSettings k f r)).after ops).alive = true ∨
        a ∈ ((Track.start (builtSettings k f r)).after ops).released)) := by
    rintro ⟨-, hg, ha | hx⟩
    · exact (alive_after.1 ha).2 hdead
    · rcases released_after.1 hx with hx | hx | hx
      · cases hx
      · exact hr hx
      · exact hg (gone_after.2 (Or.inr hx))
  exact ⟨fun d => exec_misuse h hn, exec_misuse h hn, exec_misuse h hn⟩

/-- **C64 (finding).** Such histories exist: making a model of modest size anywhere, grabbing it at any point
near by, and giving up first the model, then the anchor. -/
theorem C64_drop_order (p z q : Pt) (k f r : ℝ) (b : ℕ)
    (hp : |p.x| ≤ 100000 ∧ |p.y| ≤ 100000) (hz : |z.x| ≤ 100000 ∧ |z.y| ≤ 100000)
    (hq : |q.x| ≤ 100000 ∧ |q.y| ≤ 100000) :
    ((modelNew p z k f r b).bind fun g0 => g0.run [.grab q, .unrefModel, .anchorUnref 0]) = .ub ∧
    ∃ u, ((modelNew p z k f r b).bind fun g0 => g0.run [.grab q, .anchorUnref 0, .unrefModel]) = .ok u := by
  have hrest : AtRest (State.new p z.x z.y (builtSettings k f r) b) := new_atRest _ _ _ _ _
  have hrep : ∀ i, Representable ((State.new p z.x z.y (builtSettings k f r) b).pos i) := by
    intro i
    obtain ⟨h1, h2⟩ := lattice_bounds i
    have h1' : (0 : ℝ) ≤ col i := Nat.cast_nonneg _
    have h2' : (0 : ℝ) ≤ row i := Nat.cast_nonneg _
    have e : (State.new p z.x z.y (builtSettings k f r) b).pos i =
        ⟨p.x + col i * (z.x / 3), p.y + row i * (z.y / 3)⟩ := by
      ext <;> simp [State.new, positionArray] <;> norm_num
    rw [e]
    have bx : |(col i : ℝ) * (z.x / 3)| ≤ 100000 := by
      rw [abs_mul, abs_div, abs_of_nonneg h1', abs_of_pos (by norm_num : (0:ℝ) < 3)]
      have := abs_nonneg z.x
      have := hz.1
      nlinarith
    have by_ : |(row i : ℝ) * (z.y / 3)| ≤ 100000 := by
      rw [abs_mul, abs_div, abs_of_nonneg h2', abs_of_pos (by norm_num : (0:ℝ) < 3)]
      have := abs_nonneg z.y
      have := hz.2
      nlinarith
    refine rep_small ?_ ?_
    · have := abs_add_le p.x (col i * (z.x / 3))
      have := hp.1
      simp only
      linarith
    · have := abs_add_le p.y (row i * (z.y / 3))
      have := hp.2
      simp only
      linarith
  obtain ⟨i, t, n, hi, eg, ht, -⟩ := grab_atRest (p := q) hrest hrep (rep_small (by linarith [hq.1]) (by linarith [hq.2]))
  rw [new_ok, bind_ok]
  have e1 : (State.new p z.x z.y (builtSettings k f r) b).exec (.grab q) = _ := eg
  constructor
  · simp only [GState.run, GState.exec, GState.wrap, GState.call, e1, bind_ok, Option.isNone_some]
    simp [GState.anchorRelease, GState.call, State.new]
  · have hrel : ∃ s', (grabbed (State.new p z.x z.y (builtSettings k f r) b) i t n).exec (.release 0) = .ok (s', .none) := by
      simp only [State.exec, State.release]
      have hf : (grabbed (State.new p z.x z.y (builtSettings k f r) b) i t n).live.find? (fun a => decide (a.hid = 0)) =
          some ⟨0, .grab i⟩ := by
        simp [grabbed, State.new]
      rw [hf]
      simp only [State.releaseKind, State.unlock]
      rw [if_neg (by simp [grabbed, State.new, State.lock])]
      simp only [bind_ok, State.deactivate]
      rw [if_neg (by simp [grabbed, State.new, State.lock]), if_neg (by simp [grabbed, State.new, State.lock])]
      exact ⟨_, rfl⟩
    obtain ⟨s', e2⟩ := hrel
    refine ⟨(⟨none, p, z, [.gone], [.grab q, .release 0]⟩, [.anchor 0, .none, .none]), ?_⟩
    simp only [GState.run, GState.exec, GState.wrap, GState.call, e1, bind_ok, List.nil_append, GState.anchorRelease]
    have hz : (State.new p z.x z.y (builtSettings k f r) b).nextHid = 0 := rfl
    simp [hz, e2]

example : |(300 : ℝ)| ≤ 100000 := by norm_num

example : ∃ g0 g rs, modelNew ⟨0, 0⟩ ⟨300, 300⟩ 8 3 500 0 = .ok g0 ∧
    g0.run [.grab ⟨0, 0⟩, .unrefModel] = .ok (g, rs) ∧
    GOp.anchorRelease 0 ∉ [GOp.grab ⟨0, 0⟩, .unrefModel] := by
  obtain ⟨g0, g, rs, h1, h2⟩ := sample_outlived
  exact ⟨g0, g, rs, h1, h2, by simp⟩

/-- **C64, partial.** Once every anchor made has been released, any further moves and releases of them leave
everything as it is, whether or not the model has been given up since. What is missing is any protection of an
unreleased anchor (`C64_outlived`). -/
theorem C64_released_first_partial (h0 : modelNew p z k f r b = .ok g0) (hrun : g0.run ops = .ok (g, rs))
    (hall : ∀ a, a < (gAnchors rs).length → .anchorRelease a ∈ ops ∧ .anchorUnref a ∉ ops)
    {more : List GOp} (hm : ∀ op ∈ more, ∃ a d, a < (gAnchors rs).length ∧
      (op = .anchorMoveBy a d ∨ op = .anchorRelease a)) :
    ∃ rs', g.run more = .ok (g, rs') := by
  induction more with
  | nil => exact ⟨[], rfl⟩
  | cons op more ih =>
    obtain ⟨rs', e⟩ := ih fun o ho => hm o (List.mem_cons_of_mem _ ho)
    obtain ⟨a, d, ha, ho⟩ := hm op List.mem_cons_self
    obtain ⟨h1, h2⟩ := hall a ha
    obtain ⟨i1, i2, -⟩ := C59_inert h0 hrun h1 h2
    rcases ho with rfl | rfl
    · exact ⟨.none :: rs', by simp only [GState.run, i1, bind_ok, e]⟩
    · exact ⟨.none :: rs', by simp only [GState.run, i2, bind_ok, e]⟩

example : ∃ g0 g rs, modelNew ⟨0, 0⟩ ⟨300, 300⟩ 8 3 500 0 = .ok g0 ∧
    g0.run [.grab ⟨0, 0⟩, .anchorRelease 0, .unrefModel] = .ok (g, rs) ∧
    ∀ a, a < (gAnchors rs).length → GOp.anchorRelease a ∈ [GOp.grab ⟨0, 0⟩, .anchorRelease 0, .unrefModel] ∧
      GOp.anchorUnref a ∉ [GOp.grab ⟨0, 0⟩, .anchorRelease 0, .unrefModel] := by
  obtain ⟨g0, g, rs, h1, h2, h3⟩ := sample [.unrefModel] (Or.inr rfl)
  refine ⟨g0, g, rs, h1, h2, fun a ha => ?_⟩
  rw [h3] at ha
  have : a = 0 := by simpa using ha
  subst this
  simp

/-! ## C65: settings -/

/-- **C65.** Reading the settings gives what construction stored and the later requests made of it: the
functions always write, the properties only numbers in their range. -/
theorem C65_read (h0 : modelNew p z k f r b = .ok g0) (hrun : g0.run ops = .ok (g, rs)) (hd : .unrefModel ∉ ops) :
    g.readSettings = .ok ((Track.start (builtSettings k f r)).after ops).settings := by
  obtain ⟨hw, s, rs', e, h, -⟩ := history h0 hrun
  have hm := h.model
  rw [if_pos (alive_after.2 ⟨rfl, hd⟩)] at hm
  unfold GState.readSettings
  rw [hm]
  exact congrArg _ h.sett

example : ∃ g0 g rs, modelNew ⟨0, 0⟩ ⟨300, 300⟩ 8 3 500 0 = .ok g0 ∧
    g0.run [.grab ⟨0, 0⟩, .anchorRelease 0] = .ok (g, rs) := by
  obtain ⟨g0, g, rs, h1, h2, -⟩ := sample [] (Or.inl rfl)
  exact ⟨g0, g, rs, h1, h2⟩

/-- **C65, partial.** Made with numbers in range and changed only through properties, the settings stay in
range. Missing: the functions check nothing (`C65_unchecked`) and construction out of range leaves zero
(`C65_construct_zero`). -/
theorem C65_in_range_partial (h0 : modelNew p z k f r b = .ok g0) (hrun : g0.run ops = .ok (g, rs))
    (hin : InRange ⟨k, f, r⟩) (hc : ∀ op ∈ ops, ¬ SetsUnchecked op) {x : Settings} (hx : g.readSettings = .ok x) :
    InRange x := by
  have key : ∀ {t : Track} {l : List GOp}, InRange t.settings → (∀ op ∈ l, ¬ SetsUnchecked op) →
      InRange (t.after l).settings := by
    intro t l
    induction l generalizing t with
    | nil => exact fun h _ => h
    | cons op l ih =>
      intro h hl
      refine ih (t := t.next op) ?_ fun o ho => hl o (List.mem_cons_of_mem _ ho)
      have ho := hl op List.mem_cons_self
      cases op
      case setSpringK v => exact absurd trivial ho
      case setFriction v => exact absurd trivial ho
      case setMaximumRange v => exact absurd trivial ho
      case propSpringK v =>
        simp only [Track.next]
        split_ifs with hv
        · exact ⟨hv, h.2.1, h.2.2⟩
        · exact h
      case propFriction v =>
        simp only [Track.next]
        split_ifs with hv
        · exact ⟨h.1, hv, h.2.2⟩
        · exact h
      case propMovementRange v =>
        simp only [Track.next]
        split_ifs with hv
        · exact ⟨h.1, h.2.1, hv⟩
        · exact h
      all_goals exact h
  have hd : .unrefModel ∉ ops := by
    intro hd
    obtain ⟨hw, s, rs', e, h, -⟩ := history h0 hrun
    have hm := h.model
    rw [if_neg (fun ha => (alive_after.1 ha).2 hd)] at hm
    unfold GState.readSettings at hx
    rw [hm] at hx
    cases hx
  rw [C65_read h0 hrun hd, Outcome.ok.injEq] at hx
  subst hx
  refine key ?_ hc
  show InRange (builtSettings k f r)
  obtain ⟨h1, h2, h3⟩ := hin
  unfold builtSettings
  rw [if_pos h1, if_pos h2, if_pos h3]
  exact ⟨h1, h2, h3⟩

example : InRange ⟨8, 3, 500⟩ := by unfold InRange; norm_num

/-- **C65 (finding).** The functions write any number. -/
theorem C65_unchecked (h0 : modelNew p z k f r b = .ok g0) (hrun : g0.run ops = .ok (g, rs)) (hd : .unrefModel ∉ ops)
    (v : ℝ) :
    (∃ g' x, g.exec (.setSpringK v) = .ok (g', .none) ∧ g'.readSettings = .ok x ∧ x.springConstant = v) ∧
    (∃ g' x, g.exec (.setFriction v) = .ok (g', .none) ∧ g'.readSettings = .ok x ∧ x.friction = v) ∧
    (∃ g' x, g.exec (.setMaximumRange v) = .ok (g', .none) ∧ g'.readSettings = .ok x ∧ x.maximumRange = v) := by
  obtain ⟨hw, s, rs', e, h, -⟩ := history h0 hrun
  have hm := h.model
  rw [if_pos (alive_after.2 ⟨rfl, hd⟩)] at hm
  refine ⟨?_, ?_, ?_⟩ <;>
  · simp only [GState.exec, GState.setSettings, hm, GState.run1, GState.call, State.exec, bind_ok]
    exact ⟨_, _, rfl, rfl, rfl⟩

example : ∃ g0 g rs, modelNew ⟨0, 0⟩ ⟨300, 300⟩ 8 3 500 0 = .ok g0 ∧
    g0.run [.grab ⟨0, 0⟩, .anchorRelease 0] = .ok (g, rs) := by
  obtain ⟨g0, g, rs, h1, h2, -⟩ := sample [] (Or.inl rfl)
  exact ⟨g0, g, rs, h1, h2⟩

/-- **C65 (finding).** A number out of range given to `animation_wobbly_model_new` is neither used nor replaced
by the default: the setting is zero. With a zero movement range, grabbing the model and stepping divides zero
by zero. -/
theorem C65_construct_zero (p z : Pt) (k f r : ℝ) (b : ℕ) (hr : ¬ (10 ≤ r ∧ r ≤ 1000)) :
    (∃ g0 x, modelNew p z k f r b = .ok g0 ∧ g0.readSettings = .ok x ∧ x.maximumRange = 0) ∧
    ∀ (q : Pt) (t : ℕ), 0 < t → Representable q → |p.x| + |z.x| ≤ maxDouble / 4 → |p.y| + |z.y| ≤ maxDouble / 4 →
      ((modelNew p z k f r b).bind fun g0 => g0.run [.grab q, .step t]) = .nonfinite := by
  have hz : (builtSettings k f r).maximumRange = 0 := if_neg hr
  rw [new_ok]
  refine ⟨⟨_, builtSettings k f r, rfl, rfl, hz⟩, ?_⟩
  intro q t ht hq hpx hpy
  have hrep : ∀ i, Representable (positionArray p ⟨z.x / 3, z.y / 3⟩ i) := by
    intro i
    have part : ∀ {a s c : ℝ}, 0 ≤ c → c ≤ 3 → |a| + |s| ≤ maxDouble / 4 → |a + c * (s / 3)| ≤ maxDouble / 4 := by
      intro a s c h0 h3 hs
      refine (abs_add_le _ _).trans (le_trans ?_ hs)
      have : |c * (s / 3)| ≤ |s| := by
        rw [abs_mul, abs_div, abs_of_nonneg h0, abs_of_pos (by norm_num : (0 : ℝ) < 3)]
        nlinarith [abs_nonneg s]
      linarith
    have hc : (col i : ℝ) ≤ 3 ∧ (row i : ℝ) ≤ 3 := by
      have h1 : col i ≤ 3 := by unfold col; omega
      have h2 : row i ≤ 3 := by unfold row; omega
      exact ⟨by exact_mod_cast h1, by exact_mod_cast h2⟩
    exact ⟨part (by positivity) hc.1 hpx, part (by positivity) hc.2 hpy⟩
  have hrest : AtRest (State.new p z.x z.y (builtSettings k f r) b) := new_atRest _ _ _ _ _
  have hpos : (State.new p z.x z.y (builtSettings k f r) b).pos = positionArray p ⟨z.x / 3, z.y / 3⟩ := by
    simp only [State.new]
    norm_num
  obtain ⟨i, t', n, hi, eg, h0, -⟩ := grab_atRest (p := q) hrest (by rw [hpos]; exact hrep) hq
  have htg := h0 rfl
  subst htg
  have e1 : (State.new p z.x z.y (builtSettings k f r) b).exec (.grab q) = _ := eg
  rw [bind_ok]
  simp only [GState.run, GState.exec, GState.wrap, GState.call, e1, bind_ok]
  have e2 : (grabbed (State.new p z.x z.y (builtSettings k f r) b) i
      (State.new p z.x z.y (builtSettings k f r) b).pos n).exec (.step t) = .nonfinite := by
    simp only [State.exec, State.step]
    have hfine : ¬ dangling (grabbed (State.new p z.x z.y (builtSettings k f r) b) i
      (State.new p z.x z.y (builtSettings k f r) b).pos n).springs (grabbed (State.new p z.x z.y (builtSettings k f r) b) i
      (State.new p z.x z.y (builtSettings k f r) b).pos n).live := by
      rintro ⟨y, hy, hn⟩
      obtain ⟨⟨a1, h1⟩, ⟨a2, h2⟩⟩ := base_ends_mesh (show y ∈ baseSprings _ _ from hy)
      rw [h1, h2] at hn
      exact hn ⟨trivial, trivial⟩
    rw [if_neg (fun hh => hfine hh.2)]
    have hcount : stepCount t = stepCount t - 1 + 1 := by
      have : 0 < stepCount t := by
        unfold stepCount
        rw [Nat.ceil_pos]
        positivity
      omega
    rw [hcount]
    have hround : (grabbed (State.new p z.x z.y (builtSettings k f r) b) i
        (State.new p z.x z.y (builtSettings k f r) b).pos n).round ⟨(grabbed (State.new p z.x z.y (builtSettings k f r) b) i
        (State.new p z.x z.y (builtSettings k f r) b).pos n).pos, (grabbed (State.new p z.x z.y (builtSettings k f r) b) i
        (State.new p z.x z.y (builtSettings k f r) b).pos n).vel⟩ = .nonfinite := by
      unfold State.round
      rw [if_pos (by simp [State.active, grabbed, State.new, State.lock])]
      have : constrain (grabbed (State.new p z.x z.y (builtSettings k f r) b) i
        (State.new p z.x z.y (builtSettings k f r) b).pos n).settings.maximumRange (grabbed (State.new p z.x z.y (builtSettings k f r) b) i
        (State.new p z.x z.y (builtSettings k f r) b).pos n).targets (grabbed (State.new p z.x z.y (builtSettings k f r) b) i
        (State.new p z.x z.y (builtSettings k f r) b).pos n).pos = .nonfinite := by
        unfold constrain
        rw [if_pos]
        refine ⟨0, ?_, ?_⟩
        · simp [grabbed, State.new, State.lock, Pt.distance_self, hz]
        · simp [grabbed, State.new, State.lock, Pt.distance_self]
      simp only [this, bind_nonfinite]
    simp only [State.integrate, hround, bind_nonfinite]
  simp only [e2, bind_nonfinite]

/-- A movement range of 1500, which the documentation of the native model would allow, for a square of side 300. -/
example : ¬ ((10 : ℝ) ≤ 1500 ∧ (1500 : ℝ) ≤ 1000) ∧ |(0 : ℝ)| + |300| ≤ maxDouble / 4 := by
  have := maxDouble_big
  refine ⟨by norm_num, ?_⟩
  rw [abs_zero, abs_of_pos (by norm_num : (0 : ℝ) < 300)]
  linarith

end

end Verif.Props
