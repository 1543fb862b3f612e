import Verif.Lemmas.WobblyLengths
import Verif.Lemmas.WobblyResize
import Verif.Props.WobblyAnchors

/-! # Wobbly: moving and resizing the whole model (C38-C40, C42-C44) -/

namespace Verif.Props

open Wobbly Spec Outcome

variable {p : Pt} {w h : ℝ} {x : Settings} {b : ℕ} {ops : List Op} {rs : List Res} {s : State}

theorem shiftedBy_moveBy (s : State) (d : Pt) : ShiftedBy d s (s.moveBy d) where
  pos _ := rfl
  targets _ := rfl
  anchors := anchorData_shift s.live d
  held i := by
    unfold heldBy State.moveBy
    rw [List.countP_map]
    congr 1
    funext a
    simp only [Function.comp]
    cases a.kind <;> rfl
  vel := rfl
  springs := rfl
  locks := rfl
  count := rfl
  settings := rfl
  size := ⟨rfl, rfl⟩

theorem matches_mapOk {α β : Type} {R : α → β → Prop} {f : α → β} (hR : ∀ a, R a (f a)) (o : Outcome α) :
    Matches R o (o.mapOk f) := by
  cases o <;> simp [Matches, hR]

/-- **C38.** The same history on a model made elsewhere, with all absolute positions shifted alike, returns the
same values and leads to the same model shifted (mesh, targets, anchors), or fails in the same way. -/
theorem C38_translation_invariant (p : Pt) (w h : ℝ) (x : Settings) (b : ℕ) (ops : List Op) (d : Pt) :
    Matches (fun r r' => r'.2 = r.2 ∧ ShiftedBy d r.1 r'.1) ((State.new p w h x b).run ops)
      ((State.new (p + d) w h x b).run (ops.map (shiftOp d))) := by
  have e : State.new (p + d) w h x b = (State.new p w h x b).moveBy d := by
    unfold State.new State.moveBy
    simp only [positionArray_add]
    rfl
  rw [e, run_shift]
  exact matches_mapOk (fun a => ⟨rfl, shiftedBy_moveBy _ _⟩) _

example : (∃ s, demo.run [.grab ⟨90, 10⟩, .release 0] = .ok (s, [.handle 0, .none])) ∧
    [Op.grab ⟨90, 10⟩, .release 0].map (shiftOp ⟨5, 7⟩) = [.grab ⟨95, 17⟩, .release 0] := by
  refine ⟨demo_grab_release _ (rep_small (by norm_num [abs_of_pos]) (by norm_num [abs_of_pos])), ?_⟩
  simp only [List.map_cons, shiftOp, List.map_nil]
  congr 2
  ext <;> norm_num

/-- **C39.** `MoveModelBy (d)` moves every mesh point, the target mesh and the inserted anchors by exactly `d`
and leaves all else alone. -/
theorem C39_move_by (s : State) (d : Pt) :
    ∃ s', s.exec (.moveBy d) = .ok (s', .none) ∧ ShiftedBy d s s' :=
  ⟨_, rfl, shiftedBy_moveBy s d⟩

/-- **C39.** Spring deviations are not changed by it, if they can be read at all (C49). -/
theorem C39_deviations (hu : s.exec (.step 16) ≠ .ub) (d : Pt) {s' : State} {r : Res}
    (em : s.exec (.moveBy d) = .ok (s', r)) {y : Spring} (hy : y ∈ s.springs) :
    deviation (s'.env.at_ s'.pos) y = deviation (s.env.at_ s.pos) y := by
  have hd := not_dangling_of_step (by norm_num) hu
  simp only [State.exec, Outcome.ok.injEq, Prod.mk.injEq] at em
  obtain ⟨rfl, -⟩ := em
  have hh := ends_shift hd d s.pos y hy
  have e1 : (s.moveBy d).env.at_ (s.moveBy d).pos = (s.moveBy d).env.at_ (Mesh.shift d s.pos) := rfl
  rw [e1]
  unfold deviation
  rw [hh.1, hh.2]
  ext <;> simp

example : demo.exec (.step 16) ≠ .ub ∧ demo.springs ≠ [] :=
  ⟨(C49_no_dangling_partial (ops := []) rfl trivial).2 16, inv_springs_ne (inv_new _ _ _ _ _)⟩

/-- **C39.** Later calls give the same results and the same motion, up to the shift; in particular later
`Step`s, which have no position to shift. -/
theorem C39_later_calls (s : State) (d : Pt) {s' : State} {r : Res} (em : s.exec (.moveBy d) = .ok (s', r)) :
    (∀ ops, Matches (fun r r' => r'.2 = r.2 ∧ ShiftedBy d r.1 r'.1) (s.run ops) (s'.run (ops.map (shiftOp d)))) ∧
    ∀ ts : List ℕ, Matches (fun r r' => r'.2 = r.2 ∧ ShiftedBy d r.1 r'.1) (s.run (ts.map .step))
      (s'.run (ts.map .step)) := by
  simp only [State.exec, Outcome.ok.injEq, Prod.mk.injEq] at em
  obtain ⟨rfl, -⟩ := em
  have h1 : ∀ ops, Matches (fun r r' => r'.2 = r.2 ∧ ShiftedBy d r.1 r'.1) (s.run ops)
      ((s.moveBy d).run (ops.map (shiftOp d))) := by
    intro ops
    rw [run_shift]
    exact matches_mapOk (fun a => ⟨rfl, shiftedBy_moveBy _ _⟩) _
  refine ⟨h1, fun ts => ?_⟩
  have := h1 (ts.map .step)
  rw [List.map_map] at this
  exact this

theorem moveTo_target {q : Pt} {s' : State} {r : Res} (e : s.exec (.moveTo q) = .ok (s', r)) :
    (∃ s'', s'.targetPosition = .ok (s'', q)) ∧ ∃ n d, s' = ({ s with lastId := n } : State).moveBy d := by
  obtain ⟨n, d, -, hs, -⟩ := moveTo_ok e
  refine ⟨?_, n, d, hs⟩
  simp only [State.exec, State.moveTo] at e
  rw [bind_eq_ok] at e
  obtain ⟨⟨s1, o⟩, h1, e⟩ := e
  simp only [Outcome.ok.injEq, Prod.mk.injEq] at e
  obtain ⟨rfl, -⟩ := e
  have hq : o + (q - o) = q := by ext <;> simp
  rw [targetPosition_shift]
  unfold State.targetPosition at h1 ⊢
  split_ifs at h1 with ha
  · simp only [Outcome.ok.injEq, Prod.mk.injEq] at h1
    obtain ⟨rfl, rfl⟩ := h1
    rw [if_pos ha, mapOk_ok]
    exact ⟨_, by rw [hq]⟩
  · rw [bind_eq_ok] at h1
    obtain ⟨o', h1, h2⟩ := h1
    simp only [Outcome.ok.injEq, Prod.mk.injEq] at h2
    obtain ⟨rfl, rfl⟩ := h2
    have ha' : ¬ s.spend.active := ha
    rw [if_neg ha']
    have h3 : s.spend.targetByFullIntegration = .ok o' := by
      have := target_shift (d := 0) (s1 := s) (s2 := s.spend) rfl rfl rfl (by funext i; simp [Mesh.shift, State.spend]) rfl
      rw [this, h1, mapOk_ok]
      simp
    rw [h3, bind_ok, mapOk_ok]
    exact ⟨_, by rw [hq]⟩

/-- **C40.** `MoveModelTo (q)`, if it returns, only shifts the model. From then on the model counts as being at `q`:
`MoveModelTo (q + d)` returns and shifts it by `d`. -/
theorem C40_settled_position {q : Pt} {s' : State} {r : Res} (e : s.exec (.moveTo q) = .ok (s', r)) :
    (∃ d, ShiftedBy d s s') ∧ ∀ d, ∃ s'' r', s'.exec (.moveTo (q + d)) = .ok (s'', r') ∧ ShiftedBy d s' s'' := by
  obtain ⟨⟨z, h1⟩, n, d, rfl⟩ := moveTo_target e
  refine ⟨?_, fun d' => ?_⟩
  · have := shiftedBy_moveBy { s with lastId := n } d
    exact ⟨d, ⟨this.pos, this.targets, this.anchors, this.held, this.vel, this.springs, this.locks, this.count,
      this.settings, this.size⟩⟩
  · have hz : ∃ n', z = { ({ s with lastId := n } : State).moveBy d with lastId := n' } := by
      unfold State.targetPosition at h1
      split_ifs at h1
      · simp only [Outcome.ok.injEq, Prod.mk.injEq] at h1
        exact ⟨n, h1.1.symm⟩
      · rw [bind_eq_ok] at h1
        obtain ⟨o, -, h1⟩ := h1
        simp only [Outcome.ok.injEq, Prod.mk.injEq] at h1
        exact ⟨_, h1.1.symm⟩
    obtain ⟨n', rfl⟩ := hz
    refine ⟨_, .none, by simp only [State.exec, State.moveTo, h1, bind_ok]; rfl, ?_⟩
    rw [show q + d' - q = d' by ext <;> simp]
    have := shiftedBy_moveBy { ({ s with lastId := n } : State).moveBy d with lastId := n' } d'
    exact ⟨this.pos, this.targets, this.anchors, this.held, this.vel, this.springs, this.locks, this.count,
      this.settings, this.size⟩

/-- **C40.** In use: after any history (without resizing while an anchor is inserted), if exactly one anchor is
live or only grabs are live, call `MoveModelTo (q)` and then `Step` until it answers that nothing moves. The
top-left mesh point is then exactly at `q`. -/
theorem C40_comes_to_rest_there (e : (State.new p w h x b).run ops = .ok (s, rs))
    (hr : AllAlong ResizeAllowed (State.new p w h x b) ops) (hl : s.live.length = 1 ∨ NoneInserted s) {q : Pt}
    {s' : State} {r : Res} (em : s.exec (.moveTo q) = .ok (s', r)) {ts : List ℕ} {t : ℕ} (ht : t ≠ 0)
    {s'' : State} {rs' : List Res} {m : Prop}
    (es : s'.run ((ts ++ [t]).map .step) = .ok (s'', rs' ++ [.more m])) (hm : ¬ m) : s''.pos 0 = q := by
  obtain ⟨⟨z, ht1⟩, n, d, hs'⟩ := moveTo_target em
  have hI := inv_run e
  have hB := baseLen_run hr e
  rw [List.map_append, run_append, bind_eq_ok] at es
  obtain ⟨⟨s1, r1⟩, es1, es⟩ := es
  rw [bind_eq_ok] at es
  obtain ⟨⟨s2, r2⟩, es2, es⟩ := es
  simp only [Outcome.ok.injEq, Prod.mk.injEq] at es
  obtain ⟨rfl, hrs⟩ := es
  simp only [List.map_cons, List.map_nil, State.run, State.exec] at es2
  rw [bind_eq_ok] at es2
  obtain ⟨⟨s3, r3⟩, es2, es3⟩ := es2
  simp only [bind_ok, Outcome.ok.injEq, Prod.mk.injEq] at es3
  obtain ⟨rfl, rfl⟩ := es3
  have : r3 = .more m := by
    have := congrArg List.getLast? hrs
    simpa using this
  subst this
  by_cases ha : s'.active
  · -- tracking: the mesh is put on the targets
    have hst : ∀ (ts : List ℕ) (z z' : State) (rr : List Res), z.run (ts.map .step) = .ok (z', rr) →
        z'.targets = z.targets ∧ z'.count = z.count := by
      intro ts
      induction ts with
      | nil =>
        intro z z' rr h
        simp only [List.map_nil, State.run, Outcome.ok.injEq, Prod.mk.injEq] at h
        rw [← h.1]
        exact ⟨rfl, rfl⟩
      | cons a ts ih =>
        intro z z' rr h
        simp only [List.map_cons, State.run, State.exec] at h
        rw [bind_eq_ok] at h
        obtain ⟨⟨z1, r1⟩, h1, h⟩ := h
        rw [bind_eq_ok] at h
        obtain ⟨⟨z2, r2⟩, h2, h⟩ := h
        simp only [Outcome.ok.injEq, Prod.mk.injEq] at h
        obtain ⟨P, V, m, rfl, -⟩ := step_ok h1
        have := ih _ _ _ h2
        rw [← h.1]
        exact this
    have h1 := hst ts s' s1 r1 es1
    have ha1 : s1.active := by
      unfold State.active
      rw [h1.2]
      exact ha
    have h3 := (still_active ha1 ht es2 hm).1
    rw [h3]
    simp only
    rw [h1.1]
    unfold State.targetPosition at ht1
    rw [if_pos ha] at ht1
    simp only [Outcome.ok.injEq, Prod.mk.injEq] at ht1
    exact ht1.2
  · have hn : NoneInserted s := by
      rcases hl with hl | hl
      · have hc : s.count = 1 := by rw [hI.count]; exact hl
        rw [hs'] at ha
        exact absurd hc ha
      · exact hl
    have hI' : Inv b s' := inv_exec s _ s' _ hI em
    have hB' : BaseLen b s' := (baseLen_exec s _ s' _ ⟨hI, hB⟩ (show ResizeAllowed s (.moveTo q) from trivial) em).2
    have hn' : NoneInserted s' := by
      rw [hs']
      intro a hma
      simp only [State.moveBy, List.mem_map] at hma
      obtain ⟨c, hc, rfl⟩ := hma
      rintro ⟨a1, a2, a3, a4, hk⟩
      simp only at hk
      cases hck : c.kind with
      | grab i =>
        rw [hck] at hk
        simp [Kind.shift] at hk
      | ins b1 b2 b3 b4 => exact hn c hc ⟨_, _, _, _, hck⟩
    have hset : settle s'.env ⟨s'.pos, s'.vel⟩ = .ok q := by
      unfold State.targetPosition at ht1
      rw [if_neg ha, bind_eq_ok] at ht1
      obtain ⟨q', h1, h2⟩ := ht1
      simp only [Outcome.ok.injEq, Prod.mk.injEq] at h2
      rw [← h2.2, ← h1]
      unfold State.targetByFullIntegration
      exact settle_congr (fun q => (springStep_settleEnv hI' hB' hn' q).symm) _
    have hd : ¬ dangling s'.springs s'.live := fine_of_perm (springs_perm hI' hB' hn')
    obtain ⟨u, rr, hrun⟩ := steps_inactive ha (ts := ts) (fun _ => hd)
    rw [hrun] at es1
    simp only [Outcome.ok.injEq, Prod.mk.injEq] at es1
    obtain ⟨hs1, -⟩ := es1
    have ha1 : ¬ s1.active := by
      rw [← hs1]
      exact ha
    have h3 := (quiet_of_still_inactive ha1 ht es2 hm).2.2
    rw [h3]
    have hc := stepCount_pos ht
    have hd1 : ¬ dangling s1.springs s1.live := by rw [← hs1]; exact hd
    rw [step_inactive ha1 (fun _ => hd1)] at es2
    simp only [Outcome.ok.injEq, Prod.mk.injEq, Res.more.injEq] at es2
    rw [← es2.2] at hm
    simp only [not_or, not_exists, not_and] at hm
    have h0 := hm.2 0 (by omega)
    have h4 : ¬ settleMore s'.env ⟨s'.pos, s'.vel⟩ (ticks ts) := by
      have := settleMore_add s'.env ⟨s'.pos, s'.vel⟩ (ticks ts) 0
      rw [Nat.add_zero] at this
      rw [this]
      rw [← hs1] at h0
      exact h0
    have := settle_at hset h4
    rw [← hs1]
    exact this

example : ∃ s' s'', demo.exec (.moveTo ⟨50, 60⟩) = .ok (s', .none) ∧
    s'.run (([16] ++ [16]).map .step) = .ok (s'', [.more False] ++ [.more False]) := by
  have hr : AtRest demo := new_atRest _ _ _ _ _
  have hc : ¬ demo.active := by simp [demo, State.new, State.active]
  refine ⟨demo.spend.moveBy (⟨50, 60⟩ - demo.pos 0), demo.spend.moveBy (⟨50, 60⟩ - demo.pos 0), ?_, ?_⟩
  · simp only [State.exec, State.moveTo, hr.targetPosition hc, bind_ok]
  · have hQ : Quiet (demo.spend.moveBy (⟨50, 60⟩ - demo.pos 0)) := by
      refine quiet_of_rest (b := 0) (List.Perm.refl _) ⟨?_, hr.vel⟩ (fun h => absurd h hc)
      have := positionArray_add (demo.pos 0) demo.tile (⟨50, 60⟩ - demo.pos 0)
      rw [← hr.pos] at this
      exact this.symm
    exact hQ.run (fun h => h) [16, 16]

/-- **C42.** Resizing to the current size leaves the whole model as it is. -/
theorem C42_same_size (hw : 0 < s.width) (hh : 0 < s.height) :
    s.exec (.resize s.width s.height) = .ok (s, .none) := by
  simp only [State.exec, State.resize]
  rw [if_neg (by simp [hw, hh]), if_neg (by simp [hw.ne', hh.ne']), if_pos]
  rw [Pt.equals_iff]
  ext <;> simp [hw.ne', hh.ne']

example : 0 < demo.width ∧ 0 < demo.height := by simp [demo, State.new]

/-- **C43.** Resizing a resting model without anchors to any positive sizes, one after the other, always
returns and gives the resting model of the last size at the same top-left position, with the springs of a
fresh model of that size; no later `Step` moves anything or asks for more. -/
theorem C43_rest_kept (e : (State.new p w h x b).run ops = .ok (s, rs))
    (hr : AllAlong ResizeAllowed (State.new p w h x b) ops) (hl : s.live = []) {q : Pt} (hq : RestsAt q s)
    (hw : 0 < s.width) (hh : 0 < s.height) {sizes : List (ℝ × ℝ)} (hz : ∀ z ∈ sizes, 0 < z.1 ∧ 0 < z.2) {w' h' : ℝ}
    (hw' : 0 < w') (hh' : 0 < h') :
    ∃ s' rs', s.run ((sizes ++ [(w', h')]).map fun z => .resize z.1 z.2) = .ok (s', rs') ∧ s'.width = w' ∧
      s'.height = h' ∧ RestsAt q s' ∧ s'.springs.Perm (State.new q w' h' x b).springs ∧
      ∀ ts : List ℕ, ∃ s'' rs'', s'.run (ts.map .step) = .ok (s'', rs'') ∧ s''.pos = s'.pos ∧ s''.vel = s'.vel ∧
        ∀ (n t : ℕ), ts[n]? = some t → t ≠ 0 → rs''[n]? = some (.more False) := by
  have hI := inv_run e
  have hB := baseLen_run hr e
  obtain ⟨hrest, hp0⟩ := atRest_of hq
  have hc : ¬ s.active := by
    unfold State.active
    rw [hI.count, hl]
    simp
  obtain ⟨s1, r1, e1, a1, p1, w1, t1, c1, v1, x1, l1, g1⟩ := resizes_rest hrest hc hw hh hz
  have hc1 : ¬ s1.active := by
    unfold State.active
    rw [c1]
    exact hc
  obtain ⟨s2, e2, a2, p2, w2, t2, c2, v2, x2, l2, g2⟩ := resize_rest a1 hc1 w1 t1 hw' hh'
  have hsp : s2.springs.Perm (baseSprings s2.tile b) := by
    have key : ∀ f : Pt, (baseSprings s.tile b).map (fun y => y.scaleLength f) = baseSprings (s.tile.pscale f) b := by
      intro f
      unfold baseSprings
      rw [List.map_map]
      refine List.map_congr_left fun y _ => ?_
      simp only [Function.comp, Spring.scaleLength, Spring.mk.injEq, true_and]
      split_ifs <;> ext <;> simp [Pt.pscale]
    have hperm := springs_perm hI hB (noneInserted_nil hl)
    have htile : s2.tile = s.tile.pscale ⟨w' / s.width, h' / s.height⟩ := by
      have := hw.ne'
      have := hh.ne'
      ext <;> simp only [State.tile, Pt.pscale, w2, t2] <;> field_simp
    rw [htile, ← key, g2, g1, List.map_map]
    have : ((fun y : Spring => y.scaleLength ⟨w' / s1.width, h' / s1.height⟩) ∘
        fun y : Spring => y.scaleLength ⟨s1.width / s.width, s1.height / s.height⟩) =
        fun y : Spring => y.scaleLength ⟨w' / s.width, h' / s.height⟩ := by
      funext y
      simp only [Function.comp, Spring.scaleLength, Spring.mk.injEq, true_and]
      have := hw.ne'
      have := hh.ne'
      have := w1.ne'
      have := t1.ne'
      ext <;> simp only [Pt.pscale] <;> field_simp
    rw [this]
    exact hperm.map _
  refine ⟨s2, r1 ++ [.none], ?_, w2, t2, ?_, ?_, ?_⟩
  · rw [List.map_append, run_append, e1, bind_ok]
    simp only [List.map_cons, List.map_nil, State.run, e2, bind_ok]
  · have := a2.restsAt
    rwa [p2, p1, hp0] at this
  · have : (State.new q w' h' x b).springs = baseSprings s2.tile b := by
      unfold State.tile
      rw [w2, t2]
      rfl
    rw [this]
    exact hsp
  · intro ts
    have hQ : Quiet s2 := quiet_of_rest hsp a2 (fun h => absurd h (by unfold State.active; rw [c2]; exact hc1))
    obtain ⟨s3, r3, e3⟩ := hQ.steps_ok ts
    obtain ⟨h1, h2, -, h4⟩ := hQ.steps e3
    exact ⟨s3, r3, e3, h1, h2, h4⟩

/-- **C43.** Going through intermediate sizes gives the same model as resizing directly. -/
theorem C43_intermediate_sizes (e : (State.new p w h x b).run ops = .ok (s, rs)) (hl : s.live = []) {q : Pt}
    (hq : RestsAt q s) (hw : 0 < s.width) (hh : 0 < s.height) {sizes : List (ℝ × ℝ)}
    (hz : ∀ z ∈ sizes, 0 < z.1 ∧ 0 < z.2) {w' h' : ℝ} (hw' : 0 < w') (hh' : 0 < h') :
    ∃ s1 rs1 s2 rs2, s.run ((sizes ++ [(w', h')]).map fun z => .resize z.1 z.2) = .ok (s1, rs1) ∧
      s.run [.resize w' h'] = .ok (s2, rs2) ∧ s1.pos = s2.pos ∧ s1.vel = s2.vel ∧ s1.springs = s2.springs ∧
      s1.width = s2.width ∧ s1.height = s2.height ∧ s1.settings = s2.settings := by
  have hI := inv_run e
  obtain ⟨hrest, hp0⟩ := atRest_of hq
  have hc : ¬ s.active := by
    unfold State.active
    rw [hI.count, hl]
    simp
  obtain ⟨s0, r0, e0, a0, p0, w0, t0, c0, v0, x0, l0, g0⟩ := resizes_rest hrest hc hw hh hz
  have hc0 : ¬ s0.active := by
    unfold State.active
    rw [c0]
    exact hc
  obtain ⟨s1, e1, a1, p1, w1, t1, c1, v1, x1, l1, g1⟩ := resize_rest a0 hc0 w0 t0 hw' hh'
  obtain ⟨s2, e2, a2, p2, w2, t2, c2, v2, x2, l2, g2⟩ := resize_rest hrest hc hw hh hw' hh'
  refine ⟨s1, r0 ++ [.none], s2, [.none], ?_, run_one e2, ?_, ?_, ?_, ?_, ?_, ?_⟩
  · rw [List.map_append, run_append, e0, bind_ok]
    simp only [List.map_cons, List.map_nil, State.run, e1, bind_ok]
  · rw [a1.pos, a2.pos, p1, p2, p0]
    unfold State.tile
    rw [w1, w2, t1, t2]
  · rw [v1, v2, v0]
  · rw [g1, g2, g0, List.map_map]
    refine List.map_congr_left fun y _ => ?_
    simp only [Function.comp, Spring.scaleLength, Spring.mk.injEq, true_and]
    have := hw.ne'
    have := hh.ne'
    have := w0.ne'
    have := t0.ne'
    ext <;> simp only [Pt.pscale] <;> field_simp
  · rw [w1, w2]
  · rw [t1, t2]
  · rw [x1, x2, x0]

example : demo.live = [] ∧ RestsAt ⟨0, 0⟩ demo ∧ 0 < demo.width ∧ 0 < demo.height := by
  refine ⟨rfl, ?_, by simp [demo, State.new], by simp [demo, State.new]⟩
  have := (new_atRest ⟨0, 0⟩ 300 300 defaultSettings 0).restsAt
  have h0 : (State.new ⟨0, 0⟩ 300 300 defaultSettings 0).pos 0 = ⟨0, 0⟩ := positionArray_zero _ _
  rwa [h0] at this

/-- **C44 (partial).** Whenever no inserted anchor is live, the springs are those of a fresh model of the current
size. Missing: histories with a resize while an inserted anchor is live, where the claim is false
(`C44_stale_length`). -/
theorem C44_lengths_partial (e : (State.new p w h x b).run ops = .ok (s, rs)) (hn : NoneInserted s)
    (hr : AllAlong ResizeAllowed (State.new p w h x b) ops) :
    s.springs.Perm (State.new p s.width s.height x b).springs :=
  C48_lengths_restored e hn hr

/-- **C44.** Exactly which lengths the springs have once no inserted anchor is live, whatever the history: each has the
length it was made with, scaled by every resize that found it in the mesh. So they are the springs of a model of the current
size exactly if the resizes that missed a spring cancel out, for every spring in the coordinate in which it has a length. -/
theorem C44_lengths (e : (State.new p w h x b).run ops = .ok (s, rs)) (hn : NoneInserted s) :
    s.springs.Perm ((State.new p w h x b).springs.map fun y =>
      ⟨y.id, y.a, y.b, ⟨y.desired.x * (grown y.id (State.new p w h x b) ops).x,
        y.desired.y * (grown y.id (State.new p w h x b) ops).y⟩⟩) ∧
    (w ≠ 0 → h ≠ 0 → (s.springs.Perm (State.new p s.width s.height x b).springs ↔ ∀ y ∈ (State.new p w h x b).springs,
      (y.desired.x ≠ 0 → (grown y.id (State.new p w h x b) ops).x = s.width / w) ∧
      (y.desired.y ≠ 0 → (grown y.id (State.new p w h x b) ops).y = s.height / h))) := by
  have hg := springs_grown e hn
  refine ⟨hg, fun hw hh => ?_⟩
  have e0 : (State.new p s.width s.height x b).springs =
      (baseSprings (State.new p w h x b).tile b).map fun y => y.scaleLength ⟨s.width / w, s.height / h⟩ := by
    have : (State.new p s.width s.height x b).tile =
        (State.new p w h x b).tile.pscale ⟨s.width / w, s.height / h⟩ := by
      ext
      · simp only [State.tile, State.new, Pt.pscale_x]
        field_simp
      · simp only [State.tile, State.new, Pt.pscale_y]
        field_simp
    change baseSprings (State.new p s.width s.height x b).tile b = _
    rw [this]
    simp only [baseSprings, List.map_map]
    refine List.map_congr_left fun y _ => ?_
    simp only [Function.comp, Spring.scaleLength, Spring.mk.injEq, true_and]
    split_ifs <;> ext <;> simp
  rw [e0, show s.springs.Perm _ ↔ _ from ⟨fun k => hg.symm.trans k, fun k => hg.trans k⟩]
  refine (perm_scaled_iff (fun y => grown y.id (State.new p w h x b) ops) (fun _ => ⟨s.width / w, s.height / h⟩)).trans ?_
  refine forall₂_congr fun y _ => ?_
  rw [Pt.ext_iff]
  simp only [Pt.pscale_x, Pt.pscale_y]
  constructor
  · rintro ⟨h1, h2⟩
    exact ⟨fun k => mul_left_cancel₀ k h1, fun k => mul_left_cancel₀ k h2⟩
  · rintro ⟨h1, h2⟩
    refine ⟨?_, ?_⟩
    · by_cases k : y.desired.x = 0
      · rw [k]; ring
      · rw [h1 k]
    · by_cases k : y.desired.y = 0
      · rw [k]; ring
      · rw [h2 k]

/-- **C44 (negation).** Insert an anchor anywhere in a resting model, double the size, release the anchor. No
anchor is live and the mesh is the resting lattice of the new size, but one spring still has its old length:
the springs are not those of a model of that size, and `Step` answers that the model moves. -/
theorem C44_stale_length (p : Pt) (w h : ℝ) (x : Settings) (b : ℕ) (q : Pt) (hw : 3 ≤ w) (hh : 3 ≤ h)
    (hz : ∀ i, Representable ((State.new p w h x b).pos i)) (hq : Representable q) :
    ∃ s rs, (State.new p w h x b).run [.insert q, .resize (2 * w) (2 * h), .release 0] = .ok (s, rs) ∧
      s.live = [] ∧ RestsAt p s ∧ ¬ s.springs.Perm (State.new p s.width s.height x b).springs ∧
      ∃ s', s.exec (.step 16) = .ok (s', .more True) := by
  set m := State.new p w h x b with hm
  have hI : Inv b m := inv_new p w h x b
  have hA : Anchored m := anchored_new p w h x b
  have hR : AtRest m := new_atRest p w h x b
  have hp0 : m.pos 0 = p := positionArray_zero _ _
  have hrep : ∀ y ∈ m.springs, Representable (m.env.at_ m.pos y.a) ∧ Representable (m.env.at_ m.pos y.b) := by
    intro y hy
    obtain ⟨⟨i, hi⟩, j, hj⟩ := base_ends_mesh (t := ⟨w / (4 - 1), h / (4 - 1)⟩) (b := b) hy
    rw [hi, hj]
    exact ⟨hz i, hz j⟩
  obtain ⟨t, n, found, hf, hn, -, htp, -, e1⟩ := insert_atRest hI hR hA.not_dangling hrep hq
  have ht : t = m.pos := htp rfl
  set s1 := (preInsert m t n).install q found (m.env.at_ m.pos found.a) (m.env.at_ m.pos found.b) with hs1
  have e1' : m.exec (.insert q) = .ok (s1, .handle 0) := e1
  have hact : s1.active := rfl
  have hlive : s1.live = [⟨0, .ins q found (n + 1) (n + 2)⟩] := rfl
  have hwid : s1.width = w ∧ s1.height = h := ⟨rfl, rfl⟩
  have hpos1 : s1.pos = m.pos := rfl
  have hw0 : w ≠ 0 := by linarith
  have hh0 : h ≠ 0 := by linarith
  have e2 : s1.exec (.resize (2 * w) (2 * h)) = .ok (resized s1 (2 * w) (2 * h) p, .none) := by
    simp only [State.exec, State.resize, hwid]
    rw [if_neg (by simp; constructor <;> linarith), if_neg (by simp [hw0, hh0]), if_neg]
    · unfold State.targetPosition
      rw [if_pos hact, bind_ok]
      have ht0 : s1.targets 0 = p := by
        have : s1.targets = t := rfl
        rw [this, ht, hp0]
      simp only [ht0]
      simp only [resized, hwid, ht0]
    · rw [hwid.1, hwid.2, Pt.equals_iff, Pt.ext_iff]
      simp only [mul_div_assoc, div_self hw0]
      norm_num
  set s2 := resized s1 (2 * w) (2 * h) p with hs2
  have hlive2 : s2.live = [⟨0, (Kind.ins q found (n + 1) (n + 2)).scale ⟨2 * w / w, 2 * h / h⟩ p⟩] := rfl
  have hidn : found.id ≤ n := by
    have : 0 < (m.springs.map Spring.id).count found.id := List.count_pos_iff.2 (List.mem_map_of_mem hf)
    exact le_trans (hI.idsLe found.id (by omega)).2 hn
  have e3 : s2.exec (.release 0) = .ok ({ s2 with
      live := [], count := 0
      springs := removeId (removeId s2.springs (n + 2)) (n + 1) ++ [found] }, .none) := by
    simp only [State.exec, State.release]
    have hfind : s2.live.find? (fun a => decide (a.hid = 0)) =
        some ⟨0, (Kind.ins q found (n + 1) (n + 2)).scale ⟨2 * w / w, 2 * h / h⟩ p⟩ := by
      rw [hlive2]
      rfl
    have hfil : s2.live.filter (fun b => decide (b.hid ≠ 0)) = [] := by
      rw [hlive2]
      rfl
    rw [hfind]
    simp only [Kind.scale, State.releaseKind, bind_ok, hfil]
    have hmem : ∀ k, k = n + 1 ∨ k = n + 2 → ∃ y ∈ s2.springs, y.id = k := by
      intro k hk
      rcases hk with rfl | rfl
      · exact ⟨(⟨n + 1, .anchor 0, found.a, m.env.at_ m.pos found.a - q⟩ : Spring).scaleLength ⟨2 * w / w, 2 * h / h⟩,
          List.mem_map_of_mem (by rw [hs1]; simp [State.install, preInsert, hm, State.new]), rfl⟩
      · exact ⟨(⟨n + 2, .anchor 0, found.b, m.env.at_ m.pos found.b - q⟩ : Spring).scaleLength ⟨2 * w / w, 2 * h / h⟩,
          List.mem_map_of_mem (by rw [hs1]; simp [State.install, preInsert, hm, State.new]), rfl⟩
    have hpend : s2.pending = [] := rfl
    have hcount : s2.count = 1 := rfl
    unfold State.removeTracked
    simp only
    rw [if_pos (hmem _ (Or.inr rfl))]
    simp only
    rw [if_pos]
    swap
    · obtain ⟨y, hy, hk⟩ := hmem _ (Or.inl rfl)
      refine ⟨y, List.mem_filter.2 ⟨hy, ?_⟩, hk⟩
      simp [hk]
    unfold State.replace
    simp only [hpend, List.not_mem_nil, if_false]
    unfold State.deactivate
    simp only [hcount, if_neg (by decide : ¬ ((1 : ℕ) = 0)), if_neg (by decide : ¬ ((1 : ℕ) - 1 = 1)), bind_ok]
  set s3 : State := { s2 with
      live := [], count := 0
      springs := removeId (removeId s2.springs (n + 2)) (n + 1) ++ [found] } with hs3
  have hrun : m.run [.insert q, .resize (2 * w) (2 * h), .release 0] = .ok (s3, [.handle 0, .none, .none]) := by
    simp only [State.run, e1', bind_ok, e2, e3]
  have htile : s3.tile = m.tile.pscale ⟨2, 2⟩ := by
    have e1 : s3.width = 2 * w := rfl
    have e2 : s3.height = 2 * h := rfl
    ext <;> simp [State.tile, Pt.pscale, e1, e2, hm, State.new] <;> ring
  have hpos3 : s3.pos = positionArray p s3.tile := by
    funext i
    have h1 : s3.pos i = rescale ⟨2 * w / w, 2 * h / h⟩ p (m.pos i) := rfl
    have h2 : m.pos = positionArray p m.tile := rfl
    rw [h1, h2, rescale_lattice, htile]
    congr 2
    ext <;> simp [hw0, hh0]
  have hrest3 : RestsAt p s3 := restsAt_iff.2 ⟨hpos3, fun i => rfl⟩
  have hfound3 : found ∈ s3.springs := by
    rw [hs3]
    simp
  have hnot : ¬ InDeadZone (s3.env.at_ s3.pos) found := by
    have hfb : found ∈ baseSprings m.tile b := hf
    have hend := base_ends_mesh hfb
    obtain ⟨⟨i, hi⟩, j, hj⟩ := hend
    have hdev := base_deviation (e := s3.env) (p := p) hfb
    simp only [deviation, hi, hj, Env.at_, Pt.ext_iff] at hdev
    obtain ⟨d1, d2⟩ := hdev
    have hdes : found.desired = ⟨0, m.tile.y⟩ ∨ found.desired = ⟨m.tile.x, 0⟩ := by
      simp only [baseSprings, List.mem_map] at hfb
      obtain ⟨y, -, rfl⟩ := hfb
      simp only
      split_ifs
      · exact Or.inl rfl
      · exact Or.inr rfl
    intro hD
    simp only [InDeadZone, deviation, hi, hj, Env.at_, hpos3, htile] at hD
    simp only [positionArray, Pt.pscale, Pt.zero_x, Pt.zero_y, Pt.add_x, Pt.add_y] at hD d1 d2
    have tx : m.tile.x = w / 3 := by simp [State.tile, hm, State.new]; norm_num
    have ty : m.tile.y = h / 3 := by simp [State.tile, hm, State.new]; norm_num
    rw [tx] at hD d1
    rw [ty] at hD d2
    rcases hdes with hdes | hdes
    · rw [hdes, ty] at hD d2
      have := (abs_lt.1 hD.2).2
      linarith
    · rw [hdes, tx] at hD d1
      have := (abs_lt.1 hD.1).2
      linarith
  refine ⟨s3, _, hrun, rfl, hrest3, ?_, ?_⟩
  · intro hperm
    exact hnot (dead_of_perm hperm (atRest_of hrest3).1 found hfound3)
  · have ha3 : ¬ s3.active := by
      rw [hs3]
      simp [State.active]
    have hd3 : ¬ dangling s3.springs s3.live := by
      rintro ⟨y, hy, hbad⟩
      have hmesh : (∃ i, y.a = .mesh i) ∧ ∃ j, y.b = .mesh j := by
        have hfe := base_ends_mesh (t := m.tile) (b := b) hf
        simp only [hs3, List.mem_append, List.mem_singleton] at hy
        rcases hy with hy | rfl
        · simp only [removeId, List.mem_filter, decide_eq_true_eq] at hy
          obtain ⟨⟨hy, hy2⟩, hy1⟩ := hy
          have hy' : y ∈ s1.springs.map fun x => x.scaleLength ⟨2 * w / w, 2 * h / h⟩ := hy
          rw [List.mem_map] at hy'
          obtain ⟨z, hz1, rfl⟩ := hy'
          simp only [hs1, State.install, preInsert, List.mem_append, List.mem_cons, List.not_mem_nil, or_false] at hz1
          rcases hz1 with hz1 | rfl | rfl
          · exact base_ends_mesh (t := m.tile) (b := b) (x := z) (List.mem_of_mem_filter hz1)
          · exact absurd rfl hy1
          · exact absurd rfl hy2
        · exact hfe
      obtain ⟨⟨i, hi⟩, j, hj⟩ := hmesh
      rw [hi, hj] at hbad
      exact hbad ⟨trivial, trivial⟩
    have hst := step_inactive ha3 (t := 16) (fun _ => hd3)
    by_cases hmm : ((if (16 : ℕ) ≠ 0 then False else s3.unequal) ∨
        ∃ k < stepCount 16, settleMore s3.env ⟨s3.pos, s3.vel⟩ k)
    · rw [eq_true hmm] at hst
      exact ⟨_, hst⟩
    · have := (quiet_of_still_inactive ha3 (by norm_num) hst hmm)
      have hD := this.1.dead found hfound3
      rw [this.2.2] at hD
      exact absurd hD hnot

example : 3 ≤ (300 : ℝ) ∧ (∀ i, Representable ((State.new ⟨0, 0⟩ 300 300 defaultSettings 0).pos i)) ∧
    Representable ⟨50, 50⟩ :=
  ⟨by norm_num, demo_rep, rep_small (by norm_num [abs_of_pos]) (by norm_num [abs_of_pos])⟩

/-- The same history meets the hypotheses of `C44_lengths`. -/
example : ∃ s rs, demo.run [.insert ⟨50, 50⟩, .resize (2 * 300) (2 * 300), .release 0] = .ok (s, rs) ∧ NoneInserted s := by
  obtain ⟨s, rs, e, hl, -⟩ := C44_stale_length ⟨0, 0⟩ 300 300 defaultSettings 0 ⟨50, 50⟩ (by norm_num) (by norm_num)
    demo_rep (rep_small (by norm_num [abs_of_pos]) (by norm_num [abs_of_pos]))
  exact ⟨s, rs, e, noneInserted_nil hl⟩

end Verif.Props
