import Verif.Lemmas.GTug
import Verif.Props.WobblyAdrift
import Verif.Props.WobblyHaul

/-! # The mesh of an `AnimationWobblyModel` neither runs away nor overflows (C146) -/

namespace Verif.Props

open Spec Outcome Wobbly GWobbly GWobbly.Rounded

section

variable {R : Rounding64} {rd : ℝ → ℝ} {p z : Pt} {k f r : ℝ} {b : ℕ} {g0 g : GState} {ops : List GOp} {rs : List GRes} {s : State}

open Classical in
/-- What the history tells about the native model and the anchors. -/
theorem gheld (h0 : modelNew rd p z k f r b = .ok g0) (hrun : GWobbly.Rounded.run rd g0 ops = .ok (g, rs))
    (hm : g.model = some s) : ∃ t nops ys, Rel t g s ∧ Track.Ok t ∧ t.alive = true ∧
      Wobbly.Rounded.run rd (Wobbly.Rounded.new rd p z.x z.y (builtSettings k f r) b) nops = .ok (s, ys) ∧
      owned [] nops ys = heldAnchors ops rs ∧ (∀ a, a ∈ gAnchors rs ↔ a < t.made) ∧
      (∀ a, a ∈ t.released ↔ .anchorRelease a ∈ ops ∨ .anchorUnref a ∈ ops) ∧ ∀ a, a ∈ t.gone ↔ .anchorUnref a ∈ ops := by
  rw [GWobbly.Rounded.new_ok, Outcome.ok.injEq] at h0
  subst h0
  have R0 := rel_start (rd := rd) p z (builtSettings k f r) b
  have O0 := GWobbly.ok_start (builtSettings k f r)
  have hw := wellUsed_of_ok R0 O0 hrun
  have hs := run_sim (rd := rd) R0 O0 hw
  rw [hrun] at hs
  obtain ⟨⟨s1, ys⟩, e, h1, -, -, h4⟩ := GWobbly.matches_ok hs
  have hal : ((Track.start (builtSettings k f r)).after ops).alive = true := by
    by_contra hh
    have := h1.model
    rw [if_neg hh, hm] at this
    cases this
  have hs1 : s1 = s := by
    have := h1.model
    rw [if_pos hal, hm] at this
    exact (Option.some.inj this).symm
  subst hs1
  have okAll : ∀ (l : List GOp) (t : Track), Track.Ok t → WellUsed t l → Track.Ok (t.after l) := by
    intro l
    induction l with
    | nil => exact fun t ht _ => ht
    | cons op l ih => exact fun t ht hw => ih _ (ok_next ht hw.1) hw.2
  have hids := hids_run R0 O0 hw rfl e
  rw [Wobbly.Rounded.run_owned e] at hids
  have h4' : gAnchors rs = List.range ((Track.start (builtSettings k f r)).after ops).made := by
    rw [h4]
    simp [Track.start]
  refine ⟨_, _, ys, h1, okAll _ _ O0 hw, hal, e, hids.trans ?_, fun a => ?_, fun a => ?_, fun a => ?_⟩
  · unfold Track.holds heldAnchors
    rw [h4']
    refine List.filter_congr fun a _ => ?_
    have := released_after (t := Track.start (builtSettings k f r)) (ops := ops) (a := a)
    simp only [decide_eq_decide]
    rw [this]
    simp [Track.start]
  · rw [h4', List.mem_range]
  · rw [released_after]
    simp [Track.start]
  · rw [gone_after]
    simp [Track.start]

/-- The calls made from here on reach the native model as steps and drags. -/
theorem gtug (h0 : modelNew rd p z k f r b = .ok g0) (hrun : GWobbly.Rounded.run rd g0 ops = .ok (g, rs))
    (hm : g.model = some s) {more : List GOp} (tugs : ∀ op ∈ more, GTugs op)
    (usable : ∀ a d, .anchorMoveBy a d ∈ more → a ∈ gAnchors rs ∧ .anchorUnref a ∉ ops) :
    ∃ t nops ys, (Rel t g s ∧ Track.Ok t ∧ t.alive = true) ∧
      Wobbly.Rounded.run rd (Wobbly.Rounded.new rd p z.x z.y (builtSettings k f r) b) nops = .ok (s, ys) ∧
      owned [] nops ys = heldAnchors ops rs ∧ (heldAnchors ops rs = [] → ∀ a < t.made, a ∈ t.released) ∧
      (∀ op ∈ more, t.allows op) ∧
      (∀ {q : ℝ → ℝ} {M : ℝ} {P : Prop}, GKeepsWithin q M P g more → ∀ l, l <+: nativeCalls t more → ∀ s' us,
        Wobbly.Rounded.run q s l = .ok (s', us) → AnchorsWithin M s' ∧ (P → RestWithin M s')) ∧
      (GWobbly.Rounded.exec rd g (.step 16) ≠ .ub → Wobbly.Rounded.exec rd s (.step 16) ≠ .ub) := by
  obtain ⟨t, nops, ys, hrel, ok, hal, e, hown, hmade, hrls, hgone⟩ := gheld h0 hrun hm
  have allow : ∀ op ∈ more, t.allows op := by
    intro op hop
    cases op with
    | step n => exact hal
    | anchorMoveBy a d =>
      obtain ⟨u1, u2⟩ := usable a d hop
      exact ⟨(hmade a).1 u1, fun hg => u2 ((hgone a).1 hg), Or.inl hal⟩
    | _ => exact (tugs _ hop).elim
  refine ⟨t, nops, ys, ⟨hrel, ok, hal⟩, e, hown, fun hnil a ha => ?_, allow, fun {q M P} keeps l hl s' us el => ?_, fun hu hub => hu ?_⟩
  · by_contra hn
    have : a ∈ heldAnchors ops rs := by
      unfold heldAnchors
      rw [List.mem_filter]
      refine ⟨(hmade a).2 ha, ?_⟩
      rw [hrls, not_or] at hn
      simpa using hn
    rw [hnil] at this
    cases this
  · obtain ⟨m, hmp, rfl⟩ := tugs_prefix tugs hl
    obtain ⟨g', rs', k1, k2, -⟩ := tugs_sim (rd := q) hrel ok hal (fun o ho => tugs o (hmp.subset ho))
      (fun o ho => allow o (hmp.subset ho)) el
    exact keeps m hmp g' rs' s' k1 k2
  · simp only [GWobbly.Rounded.exec, GWobbly.Rounded.call, hm, hub]
    rfl

theorem gTicks_eq {more : List GOp} (h : ∀ op ∈ more, GTugs op) : ticksIn (gSteps more) = gTicks more := by
  induction more with
  | nil => rfl
  | cons op more ih =>
    have ih' := ih fun o ho => h o (List.mem_cons_of_mem _ ho)
    have h0 := h op List.mem_cons_self
    cases op with
    | step t =>
      simp only [gSteps, gTicks, ← ih']
      simp [ticksIn]
    | anchorMoveBy a d => exact ih'
    | _ => exact h0.elim

/-- **C146.** A program makes an `AnimationWobblyModel`, does anything with it, and goes on to step it and drag its anchors,
of which it holds any number up to 40, and to use anchors it has released. The mesh and, meanwhile, the anchors it holds are
within `M`; with a single anchor the resting places are as well, and with none the steps take less than `2 ^ 33` ticks. Then
every call returns, all positions stay within `2 ^ 46 * M` and all velocities within `2 ^ 37 * M`, and nothing overflows:
whatever rounding does beyond `2 ^ 500`, the mesh and the answers are those of double precision without a limit to exponents. -/
theorem C146_glib_bounded (hr : ∀ x, |x| ≤ 2 ^ 500 → rd x = R.rnd x) (h0 : modelNew rd p z k f r b = .ok g0)
    (hrun : GWobbly.Rounded.run rd g0 ops = .ok (g, rs)) (hm : g.model = some s) (hx : Spec.InRange s.settings)
    (h40 : (heldAnchors ops rs).length ≤ 40)
    (hu : heldAnchors ops rs ≠ [] → GWobbly.Rounded.exec rd g (.step 16) ≠ .ub)
    {M : ℝ} (hM : 1000 ≤ M) (hM' : M ≤ 2 ^ 180) (hs : AllWithin M s) (more : List GOp) (tugs : ∀ op ∈ more, GTugs op)
    (usable : ∀ a d, .anchorMoveBy a d ∈ more → a ∈ gAnchors rs ∧ .anchorUnref a ∉ ops)
    (brief : heldAnchors ops rs = [] → gTicks more < 2 ^ 33)
    (keeps : GKeepsWithin R.rnd M ((heldAnchors ops rs).length = 1) g more) :
    ∃ g' rs' s', GWobbly.Rounded.run rd g more = .ok (g', rs') ∧ g'.model = some s' ∧
      (∀ i, Within (2 ^ 46 * M) (s'.pos i) ∧ Within (2 ^ 37 * M) (s'.vel i)) ∧
      ∃ g2 rs2, GWobbly.Rounded.run R.rnd g more = .ok (g2, rs2) ∧ g2.model = some s' ∧ gStepAnswers rs2 = gStepAnswers rs' := by
  obtain ⟨t, nops, ys, ⟨hrel, ok, hal⟩, e, hown, hfree, allow, keep', hub'⟩ := gtug h0 hrun hm tugs usable
  obtain ⟨⟨hk, hk'⟩, ⟨hf, hf'⟩, hr1, hr2⟩ := hx
  have M0 : 0 ≤ M := by linarith
  have keep := keep' keeps
  have hub := fun hne => hub' (hu hne)
  have tugs' := tugs_all (t := t) tugs
  have native : ∃ s' us, Wobbly.Rounded.run rd s (nativeCalls t more) = .ok (s', us) ∧
      Wobbly.Rounded.run R.rnd s (nativeCalls t more) = .ok (s', us) ∧
      ∀ i, Within (2 ^ 46 * M) (s'.pos i) ∧ Within (2 ^ 37 * M) (s'.vel i) := by
    have wide : ∀ {B C : ℝ} {q : Pt}, B ≤ C → Within (B * M) q → Within (C * M) q := fun hBC hq =>
      hq.mono (mul_le_mul_of_nonneg_right hBC M0)
    rcases Nat.lt_trichotomy (heldAnchors ops rs).length 1 with hlen | hlen | hlen
    · have hnil : heldAnchors ops rs = [] := List.length_eq_zero_iff.1 (by omega)
      have hsteps := tugs_steps tugs allow (hfree hnil)
      have hticks : ticksIn (gSteps more) < 2 ^ 33 := by
        rw [gTicks_eq tugs]
        exact brief hnil
      have h190 : M ≤ 2 ^ 190 := hM'.trans (pow_le_pow_right₀ (by norm_num) (by omega))
      have h1M : 1 ≤ M := by linarith
      obtain ⟨s', us, k1, k2⟩ := C145_bounded hr e (hown.trans hnil) hk hk' hf hf' h1M h190 hs _ hticks
      have k3 := C145_no_overflow hr e (hown.trans hnil) hk hk' hf hf' h1M h190 hs _ hticks
      rw [hsteps]
      exact ⟨s', us, k1, k3 ▸ k1, k2⟩
    · have hne : heldAnchors ops rs ≠ [] := fun h => by rw [h] at hlen; cases hlen
      have hA : KeepsHoldWithin R.rnd M s (nativeCalls t more) := fun l hl s' us el =>
        ⟨(keep l hl s' us el).1, (keep l hl s' us el).2 hlen⟩
      have h1 : (owned [] nops ys).length = 1 := by rw [hown]; exact hlen
      obtain ⟨s', us, k1, k2⟩ := C139_bounded hr e h1 (hub hne) (by linarith) hk' hf hf' (by linarith) hr2 (by linarith) hM' hs _
        tugs' hA
      have k3 := C139_no_overflow hr e h1 (hub hne) (by linarith) hk' hf hf' (by linarith) hr2 (by linarith) hM' hs _ tugs' hA
      exact ⟨s', us, k1, k3 ▸ k1, fun i => ⟨wide (by norm_num) (k2 i).1, wide (by norm_num) (k2 i).2⟩⟩
    · have hne : heldAnchors ops rs ≠ [] := fun h => by rw [h] at hlen; cases hlen
      have hA : KeepsAnchorsWithin R.rnd M s (nativeCalls t more) := fun l hl s' us el => (keep l hl s' us el).1
      have h2 : 2 ≤ (owned [] nops ys).length := by rw [hown]; exact hlen
      have h40' : (owned [] nops ys).length ≤ 40 := by rw [hown]; exact h40
      have k3 := C138_no_overflow hr e h2 h40' (hub hne) hk hk' hf hf' (by linarith)
        (hM'.trans (pow_le_pow_right₀ (by norm_num) (by omega))) hs _ tugs' hA
      obtain ⟨ha, hids, hl, hdeg, hd, hfirm, -⟩ := anchored_facts e h2 (hub hne) (c := s.settings.springConstant / 30)
        (by linarith)
      have F := (Wobbly.Rounded.agrees_self R).fine (M := M) (by linarith) (hM'.trans (pow_le_pow_right₀ (by norm_num) (by omega)))
      obtain ⟨s', us, k1, -, k2⟩ := Wobbly.Rounded.tug_fine (by linarith) F ha hids hl hdeg hd (by linarith) hk' hf hf' hfirm hs _ tugs' hA
      exact ⟨s', us, k3.trans k1, k1, fun i => ⟨wide (by norm_num) (k2 i).1, wide (by norm_num) (k2 i).2⟩⟩
  obtain ⟨s', us, n1, n2, n3⟩ := native
  obtain ⟨g', rs', k1, k2, k3⟩ := tugs_sim hrel ok hal tugs allow n1
  obtain ⟨g2, rs2, k4, k5, k6⟩ := tugs_sim hrel ok hal tugs allow n2
  exact ⟨g', rs', s', k1, k2, n3, g2, rs2, k4, k5, k6.trans k3.symm⟩

end

/-! The hypotheses can be met: a model of 300 by 300 is grabbed at a corner and dragged `2 ^ 100` pixels away, and further. -/

theorem calls_prefix {t : Track} {l more : List GOp} (h : l <+: more) : nativeCalls t l <+: nativeCalls t more := by
  induction l generalizing t more with
  | nil => exact List.nil_prefix
  | cons op l ih =>
    cases more with
    | nil => cases List.prefix_nil.1 h
    | cons o more =>
      obtain ⟨rfl, h'⟩ := List.cons_prefix_cons.1 h
      exact (List.prefix_append_right_inj _).2 (ih h')

/-- A model of 300 by 300 grabbed at a corner through the GObject layer. -/
theorem gsolo (R : Rounding64) (b : ℕ) : ∃ g0 g s, modelNew R.rnd ⟨0, 0⟩ ⟨300, 300⟩ 8 5 500 b = .ok g0 ∧
    GWobbly.Rounded.run R.rnd g0 [.grab (wholeMesh 0)] = .ok (g, [.anchor 0]) ∧ g.model = some s ∧ Spec.InRange s.settings ∧
    heldAnchors [.grab (wholeMesh 0)] [.anchor 0] = [0] ∧ GWobbly.Rounded.exec R.rnd g (.step 16) ≠ .ub ∧ AllWithin (2 ^ 9) s ∧ Solo 9 s := by
  obtain ⟨s1, er, -, h2, h3, h4, P⟩ := solo_model R b
  have hb : builtSettings 8 5 500 = ⟨8, 5, 500⟩ := by
    unfold builtSettings
    norm_num
  have h0 := GWobbly.Rounded.new_ok (rd := R.rnd) ⟨0, 0⟩ ⟨300, 300⟩ 8 5 500 b
  set g0 : GState := ⟨some (Wobbly.Rounded.new R.rnd ⟨0, 0⟩ 300 300 (builtSettings 8 5 500) b), ⟨0, 0⟩, ⟨300, 300⟩, [], []⟩ with hg0
  have e1 : Wobbly.Rounded.exec R.rnd (Wobbly.Rounded.new R.rnd ⟨0, 0⟩ 300 300 ⟨8, 5, 500⟩ b) (.grab (wholeMesh 0)) = .ok (s1, .handle 0) := by
    simp only [Wobbly.Rounded.run, bind_eq_ok, Outcome.ok.injEq, Prod.mk.injEq, List.cons.injEq] at er
    obtain ⟨⟨s2, y⟩, e2, ⟨s3, ys⟩, ⟨rfl, -⟩, rfl, rfl, -⟩ := er
    exact e2
  obtain ⟨g, hrun, hm⟩ : ∃ g, GWobbly.Rounded.run R.rnd g0 [.grab (wholeMesh 0)] = .ok (g, [.anchor 0]) ∧ g.model = some s1 := by
    refine ⟨⟨some s1, ⟨0, 0⟩, ⟨300, 300⟩, [.obj (some 0)], [.grab (wholeMesh 0)]⟩, ?_, rfl⟩
    · simp only [GWobbly.Rounded.run, GWobbly.Rounded.exec, GWobbly.Rounded.wrap, GWobbly.Rounded.call, hg0, hb, e1, bind_ok]
      rfl
  have hheld : heldAnchors [.grab (wholeMesh 0)] [.anchor 0] = [0] := by simp [heldAnchors, gAnchors]
  refine ⟨g0, g, s1, h0, hrun, hm, ?_, hheld, fun hub => h2 ?_, h4, P⟩
  · rw [h3]
    unfold Spec.InRange
    norm_num
  · simp only [GWobbly.Rounded.exec, GWobbly.Rounded.call, hm] at hub
    cases he : Wobbly.Rounded.exec R.rnd s1 (.step 16) with
    | ok v =>
      obtain ⟨s2, y⟩ := v
      obtain ⟨-, -, b, rfl⟩ := exec_frame he
      rw [he] at hub
      cases hub
    | ub => rfl
    | _ =>
      rw [he] at hub
      cases hub

/-- What holds natively after each of the calls holds of the GObject model. -/
theorem gsolo_keeps {R : Rounding64} {b : ℕ} {g0 g : GState} {s : State} (h0 : modelNew R.rnd ⟨0, 0⟩ ⟨300, 300⟩ 8 5 500 b = .ok g0)
    (hrun : GWobbly.Rounded.run R.rnd g0 [.grab (wholeMesh 0)] = .ok (g, [.anchor 0])) (hm : g.model = some s)
    {more : List GOp} (tugs : ∀ op ∈ more, GTugs op) (usable : ∀ a d, GOp.anchorMoveBy a d ∈ more → a = 0) {M : ℝ}
    (K : ∀ t : Track, 0 ∉ t.released → KeepsHoldWithin R.rnd M s (nativeCalls t more)) (P : Prop) : GKeepsWithin R.rnd M P g more := by
  obtain ⟨t, nops, ys, hrel, ok, hal, -, -, hmade, hrls, hgone⟩ := gheld h0 hrun hm
  intro l hl g' rs' s' el hs'
  have allow : ∀ op ∈ l, t.allows op := by
    intro op hop
    have hop' := hl.subset hop
    cases op with
    | step n => exact hal
    | anchorMoveBy a d =>
      rw [usable a d hop']
      exact ⟨(hmade 0).1 (by simp [gAnchors]), by rw [hgone]; simp, Or.inl hal⟩
    | _ => exact (tugs _ hop').elim
  obtain ⟨s2, us, k1, k2⟩ := tugs_back hrel ok hal (fun o ho => tugs o (hl.subset ho)) allow el
  rw [hs'] at k2
  obtain rfl := Option.some.inj k2
  have k := K t (by rw [hrls]; simp) _ (calls_prefix (t := t) hl) _ _ k1
  exact ⟨k.1, fun _ => k.2⟩

example (R : Rounding64) (b : ℕ) : ∃ g0 ops g rs s more, modelNew R.rnd ⟨0, 0⟩ ⟨300, 300⟩ 8 5 500 b = .ok g0 ∧
    GWobbly.Rounded.run R.rnd g0 ops = .ok (g, rs) ∧ g.model = some s ∧ Spec.InRange s.settings ∧ (heldAnchors ops rs).length = 1 ∧
    GWobbly.Rounded.exec R.rnd g (.step 16) ≠ .ub ∧ AllWithin (2 ^ 104) s ∧
    more = [.step 16, .anchorMoveBy 0 ⟨2 ^ 100, 10⟩, .step 480, .anchorMoveBy 0 ⟨-200, 2 ^ 99⟩, .step 160] ∧
    (∀ op ∈ more, GTugs op) ∧ (∀ a d, .anchorMoveBy a d ∈ more → a ∈ gAnchors rs ∧ .anchorUnref a ∉ ops) ∧
    GKeepsWithin R.rnd (2 ^ 104) ((heldAnchors ops rs).length = 1) g more := by
  obtain ⟨g0, g, s, h0, hrun, hm, h1, h2, h3, h4, P⟩ := gsolo R b
  have hup : ∀ {q : Pt}, Within (2 ^ 9) q → Within (2 ^ 104) q := fun h => Wobbly.Rounded.Small.up (n := 9) (m := 104) h (by omega)
  have P : Solo 100 s := ⟨P.live, P.busy, P.locks, P.range, P.first.up (by omega), fun i => (P.rest i).up (by omega)⟩
  have tugs : ∀ op ∈ ([.step 16, .anchorMoveBy 0 ⟨2 ^ 100, 10⟩, .step 480, .anchorMoveBy 0 ⟨-200, 2 ^ 99⟩, .step 160] : List GOp), GTugs op := by
    intro op hop
    simp only [List.mem_cons, List.not_mem_nil, or_false] at hop
    rcases hop with rfl | rfl | rfl | rfl | rfl <;> trivial
  have usable : ∀ a d, GOp.anchorMoveBy a d ∈
      ([.step 16, .anchorMoveBy 0 ⟨2 ^ 100, 10⟩, .step 480, .anchorMoveBy 0 ⟨-200, 2 ^ 99⟩, .step 160] : List GOp) → a = 0 := by
    intro a d hop
    simp only [List.mem_cons, List.not_mem_nil, or_false, reduceCtorEq, false_or, GOp.anchorMoveBy.injEq] at hop
    rcases hop with ⟨h, -⟩ | ⟨h, -⟩ <;> exact h
  refine ⟨g0, _, g, _, s, _, h0, hrun, hm, h1, by rw [h2]; rfl, h3,
    ⟨fun i => hup (h4.1 i), fun i => hup (h4.2.1 i), fun z hz => hup (h4.2.2 z hz)⟩, rfl, tugs, fun a d h => ?_,
    gsolo_keeps h0 hrun hm tugs usable (fun t ht => ?_) _⟩
  · rw [usable a d h]
    exact ⟨by simp [gAnchors], by simp⟩
  · have hn : nativeCalls t [.step 16, .anchorMoveBy 0 ⟨2 ^ 100, 10⟩, .step 480, .anchorMoveBy 0 ⟨-200, 2 ^ 99⟩, .step 160] =
        [.step 16, .moveAnchor 0 ⟨2 ^ 100, 10⟩, .step 480, .moveAnchor 0 ⟨-200, 2 ^ 99⟩, .step 160] := by
      simp [nativeCalls, Track.native, Track.next, ht]
    rw [hn]
    exact solo_keeps P

end Verif.Props
