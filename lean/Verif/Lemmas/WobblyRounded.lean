import Verif.Model.WobblyRounded
import Verif.Lemmas.WobblyDoubleExact

/-! # `Model/WobblyRounded.lean` agrees with the two models it joins -/

namespace Verif.Wobbly.Rounded

noncomputable section

open Classical Outcome

/-! ## Without rounding -/

theorem distance_id (p q : Pt) : distance id p q = Pt.distance p q := rfl

theorem closestIndex_id (m : Mesh) (p : Pt) : closestIndex id m p = Wobbly.closestIndex m p := rfl

theorem anchoredIntegration_id (locks : Idx → ℕ) (friction : ℝ) (q : Phys) (f : Mesh) :
    anchoredIntegration id locks friction q f = Wobbly.anchoredIntegration locks friction q f := by
  unfold anchoredIntegration Wobbly.anchoredIntegration
  simp only [eulerIntegrate_id]

theorem springRound_id (e : Env) (q : Phys) : springRound id e q = Wobbly.springStep e q := by
  unfold springRound Wobbly.springStep
  rw [calculateForces_id]
  simp only [anchoredIntegration_id]

/-- The loop of a full integration for any kind of round. -/
def loop (f : Phys → Phys × Prop) (q : Phys) : Outcome Pt :=
  if h : ∃ n, ¬ (f ((fun q => (f q).1)^[n] q)).2 then .ok (((fun q => (f q).1)^[Nat.find h + 1] q).pos 0) else .diverges

theorem rest_loop (r : ℝ → ℝ) (e : Env) (q : Phys) : rest r e q = loop (springRound r e) q := rfl

theorem settle_loop (e : Env) (q : Phys) : Wobbly.settle e q = loop (Wobbly.springStep e) q := rfl

theorem free_loop (r : ℝ → ℝ) (k friction : ℝ) (l : List Spring) (q : Phys) :
    settle r k friction l q = loop (springStep r k friction l) q := rfl

theorem rest_id (e : Env) (q : Phys) : rest id e q = Wobbly.settle e q := by
  rw [rest_loop, settle_loop, show springRound id e = Wobbly.springStep e from funext (springRound_id e)]

theorem constrain_id (x : ℝ) (t m : Mesh) : constrain id x t m = Wobbly.constrain x t m := rfl

theorem targetByFullIntegration_id (s : State) : targetByFullIntegration id s = s.targetByFullIntegration :=
  rest_id _ _

theorem recalc_id (s : State) : recalc id s = s.recalc := by
  unfold recalc State.recalc
  rw [targetByFullIntegration_id]
  rfl

theorem targetPosition_id (s : State) : targetPosition id s = s.targetPosition := by
  unfold targetPosition State.targetPosition
  rw [targetByFullIntegration_id]

theorem activate_id (s : State) : activate id s = s.activate := by
  unfold activate State.activate
  simp only [recalc_id]

theorem deactivate_id (s : State) : deactivate id s = s.deactivate := by
  unfold deactivate State.deactivate
  simp only [recalc_id]

theorem round_id (s : State) (q : Phys) : round id s q = s.round q := by
  unfold round State.round
  simp only [constrain_id, springRound_id]

theorem rounds_id (s : State) (n : ℕ) (q : Phys) : rounds id s n q = s.integrate n q := by
  induction n generalizing q with
  | zero => rfl
  | succ n ih => simp only [rounds, State.integrate, round_id, ih]

theorem shift_id (d : Pt) (k : Kind) : shift id d k = k.shift d := by cases k <;> rfl

theorem scaleKind_id (f o : Pt) (k : Kind) : scaleKind id f o k = k.scale f o := by cases k <;> rfl

theorem moveBy_id (s : State) (d : Pt) : moveBy id s d = s.moveBy d := by
  unfold moveBy State.moveBy
  simp only [shift_id]
  rfl

theorem insertSprings_id (s : State) (p : Pt) : insertSprings id s p = s.insertSprings p := rfl

/-- Without rounding every call does what it does in the exact model. -/
theorem exec_exact (s : State) (op : Op) : exec id s op = s.exec op := by
  cases op with
  | grab p =>
    simp only [exec, State.exec, grab, State.grab, closestIndex_id, activate_id]
    rfl
  | insert p => simp only [exec, State.exec, insert, State.insert, activate_id, insertSprings_id]
  | moveAnchor h d =>
    simp only [exec, State.exec, moveAnchor, State.moveAnchor, shift_id]
    rfl
  | release h =>
    simp only [exec, State.exec, release, State.release, deactivate_id]
    rfl
  | step t => simp only [exec, State.exec, step, State.step, rounds_id]
  | moveBy d => simp only [exec, State.exec, moveBy_id]
  | moveTo p => simp only [exec, State.exec, moveTo, State.moveTo, targetPosition_id, moveBy_id, sub_id]
  | resize w h =>
    simp only [exec, State.exec, resize, State.resize, targetPosition_id, scaleKind_id]
    rfl
  | setSettings x => rfl
  | elsewhere n => rfl

/-- Without rounding the models are the same. -/
theorem run_exact (s : State) (ops : List Op) : run id s ops = s.run ops := by
  induction ops generalizing s with
  | nil => rfl
  | cons op ops ih => simp only [run, State.run, exec_exact, ih]

theorem new_exact (p : Pt) (w h : ℝ) (x : Settings) (b : ℕ) : new id p w h x b = State.new p w h x b := rfl

/-! ## Without anchors -/

variable (r : ℝ → ℝ)

theorem springRound_free {e : Env} (hl : ∀ i, e.locks i = 0) (ha : ∀ h, e.apos h = 0) (q : Phys) :
    springRound r e q = springStep r e.k e.friction e.springs q := by
  have h1 : e.at_ q.pos = fun n => match n with | .mesh i => q.pos i | .anchor _ => 0 := by
    funext n
    cases n with
    | mesh i => rfl
    | anchor h => exact ha h
  unfold springRound springStep anchoredIntegration
  simp only [h1, hl, lt_irrefl, if_false, not_false_eq_true, true_and]
  rfl

theorem rest_free {e : Env} (hl : ∀ i, e.locks i = 0) (ha : ∀ h, e.apos h = 0) (q : Phys) :
    rest r e q = settle r e.k e.friction e.springs q := by
  rw [rest_loop, free_loop, show springRound r e = springStep r e.k e.friction e.springs from
    funext (springRound_free r hl ha)]

theorem rounds_free {s : State} (h : NoAnchor s) (n : ℕ) (q : Phys) :
    rounds r s n q = .ok ((part s).integrate r n q) := by
  induction n generalizing q with
  | zero => rfl
  | succ n ih =>
    have := springRound_free r (e := s.env) h.locks h.apos q
    simp only [rounds, round, if_neg h.idle, bind_ok, ih, Free.integrate]
    rw [this]
    rfl

theorem tile_free (s : State) : tile r s = (part s).tile r := by
  unfold tile Free.tile part
  norm_num

theorem rest_target {s : State} (h : NoAnchor s) :
    targetByFullIntegration r s = settle r s.settings.springConstant s.settings.friction
      (baseSprings ((part s).tile r) s.lastId) ⟨s.pos, s.vel⟩ := by
  unfold targetByFullIntegration
  rw [rest_free r (e := restEnv r s) h.locks (fun _ => rfl), ← tile_free]
  rfl

theorem target_free {s : State} (h : NoAnchor s) :
    (part s).targetPosition r = (targetPosition r s).bind fun a => .ok (part a.1, a.2) := by
  unfold targetPosition Free.targetPosition
  rw [if_neg h.idle, rest_target r h]
  show (settle r s.settings.springConstant s.settings.friction (baseSprings ((part s).tile r) s.lastId) ⟨s.pos, s.vel⟩).bind _ =
    ((settle r s.settings.springConstant s.settings.friction (baseSprings ((part s).tile r) s.lastId) ⟨s.pos, s.vel⟩).bind _).bind _
  cases settle r s.settings.springConstant s.settings.friction (baseSprings ((part s).tile r) s.lastId) ⟨s.pos, s.vel⟩ <;> rfl

theorem rest_outcome (e : Env) (q : Phys) : (∃ p, rest r e q = .ok p) ∨ rest r e q = .diverges := by
  unfold rest
  split_ifs
  · exact Or.inl ⟨_, rfl⟩
  · exact Or.inr rfl

theorem exec_free {s : State} (h : NoAnchor s) (op : FreeOp) : Same (exec r s op.call) ((part s).exec r op) := by
  cases op with
  | step t =>
    left
    simp only [FreeOp.call, exec, step, rounds_free r h, bind_ok]
    rw [if_neg fun hc => h.sound hc.2]
    refine ⟨_, _, rfl, ?_, ⟨h.live, h.count, h.locks, h.ends⟩⟩
    have : ∀ more, ¬ (¬ more ∧ s.active) := fun more hc => h.idle hc.2
    simp only [if_neg (this _)]
    rfl
  | moveBy d =>
    left
    refine ⟨_, _, rfl, rfl, ⟨?_, h.count, h.locks, h.ends⟩⟩
    simp [moveBy, h.live]
  | moveTo p =>
    simp only [FreeOp.call, exec, moveTo, Free.exec, Free.moveTo, target_free r h]
    unfold targetPosition targetByFullIntegration
    rw [if_neg h.idle]
    rcases rest_outcome r (restEnv r s) ⟨s.pos, s.vel⟩ with ⟨q, e⟩ | e
    · left
      rw [e]
      refine ⟨_, _, rfl, rfl, ⟨?_, h.count, h.locks, h.ends⟩⟩
      simp [moveBy, State.spend, h.live]
    · right; left
      rw [e]
      exact ⟨rfl, rfl⟩
  | resize w hh =>
    simp only [FreeOp.call, exec, resize, Free.exec, Free.resize, target_free r h]
    by_cases h1 : ¬ (w > 0 ∧ hh > 0)
    · rw [if_pos h1, if_pos h1]
      right; right; left
      exact ⟨rfl, rfl⟩
    rw [if_neg h1, if_neg h1]
    by_cases h2 : s.width = 0 ∨ s.height = 0
    · have h2' : (part s).width = 0 ∨ (part s).height = 0 := h2
      rw [if_pos h2, if_pos h2']
      right; right; right
      exact ⟨rfl, rfl⟩
    have h2' : ¬ ((part s).width = 0 ∨ (part s).height = 0) := h2
    rw [if_neg h2, if_neg h2']
    by_cases h3 : Pt.equals ⟨r (w / s.width), r (hh / s.height)⟩ ⟨1, 1⟩
    · have h3' : Pt.equals ⟨r (w / (part s).width), r (hh / (part s).height)⟩ ⟨1, 1⟩ := h3
      rw [if_pos h3, if_pos h3']
      left
      exact ⟨s, .none, rfl, rfl, h⟩
    have h3' : ¬ Pt.equals ⟨r (w / (part s).width), r (hh / (part s).height)⟩ ⟨1, 1⟩ := h3
    rw [if_neg h3, if_neg h3']
    unfold targetPosition targetByFullIntegration
    rw [if_neg h.idle]
    rcases rest_outcome r (restEnv r s) ⟨s.pos, s.vel⟩ with ⟨q, e⟩ | e
    · left
      rw [e]
      refine ⟨_, _, rfl, rfl, ⟨?_, h.count, h.locks, ?_⟩⟩
      · simp [State.spend, h.live]
      · intro y hy
        simp only [State.spend, List.mem_map] at hy
        obtain ⟨z, hz, rfl⟩ := hy
        exact h.ends z hz
    · right; left
      rw [e]
      exact ⟨rfl, rfl⟩

theorem run_free {s : State} (h : NoAnchor s) (ops : List FreeOp) :
    Same (run r s (ops.map FreeOp.call)) ((part s).run r ops) := by
  induction ops generalizing s with
  | nil => exact Or.inl ⟨s, [], rfl, rfl, h⟩
  | cons op ops ih =>
    simp only [List.map_cons, run, Free.run]
    rcases exec_free r h op with ⟨s1, a, e1, e2, h1⟩ | ⟨e1, e2⟩ | ⟨e1, e2⟩ | ⟨e1, e2⟩
    · rw [e1, e2]
      simp only [bind_ok]
      rcases ih h1 with ⟨s2, l, e3, e4, h2⟩ | ⟨e3, e4⟩ | ⟨e3, e4⟩ | ⟨e3, e4⟩
      · rw [e3, e4]
        exact Or.inl ⟨s2, a :: l, rfl, rfl, h2⟩
      all_goals
        rw [e3, e4]
        simp [Same, Outcome.bind]
    all_goals
      rw [e1, e2]
      simp [Same, Outcome.bind]

theorem new_part (p : Pt) (w h : ℝ) (x : Settings) (b : ℕ) : part (new r p w h x b) = Free.new r p w h x b := by
  unfold part new Free.new
  norm_num

theorem new_free (p : Pt) (w h : ℝ) (x : Settings) (b : ℕ) : NoAnchor (new r p w h x b) := by
  refine ⟨rfl, rfl, fun _ => rfl, fun y hy => ?_⟩
  simp only [new, baseSprings, List.mem_map] at hy
  obtain ⟨e, -, rfl⟩ := hy
  exact ⟨⟨_, rfl⟩, _, rfl⟩

/-- Without anchors the two models with rounding are the same model. -/
theorem model_free (p : Pt) (w h : ℝ) (x : Settings) (b : ℕ) (ops : List FreeOp) :
    Same (run r (new r p w h x b) (ops.map FreeOp.call)) ((Free.new r p w h x b).run r ops) := by
  rw [← new_part]
  exact run_free r (new_free r p w h x b) ops

end

end Verif.Wobbly.Rounded
