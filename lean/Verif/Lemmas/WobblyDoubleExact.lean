import Verif.Lemmas.WobblyDouble
import Verif.Lemmas.WobblySettle

/-! # Without rounding, `Model/WobblyDouble.lean` is `Model/Wobbly.lean` -/

namespace Verif.Wobbly.Rounded

noncomputable section

open Classical Outcome

theorem add_id (p q : Pt) : add id p q = p + q := rfl

theorem sub_id (p q : Pt) : sub id p q = p - q := rfl

theorem applyForces_id (s : Spring) (k : ℝ) (at_ f : Node → Pt) : applyForces id s k at_ f = s.applyForces k at_ f := rfl

theorem calculateForces_id (k : ℝ) (at_ : Node → Pt) (l : List Spring) :
    calculateForces id k at_ l = Wobbly.calculateForces k at_ l := rfl

theorem eulerIntegrate_id (time friction m : ℝ) (pos vel force : Pt) :
    eulerIntegrate id time friction m pos vel force = Wobbly.eulerIntegrate time friction m pos vel force := by
  unfold eulerIntegrate Wobbly.eulerIntegrate eulerVelocity Wobbly.eulerVelocity
  simp only [id, zero_add]
  rfl

theorem springStep_id {e : Env} (hl : ∀ i, e.locks i = 0) (ha : ∀ h, e.apos h = 0) (q : Phys) :
    springStep id e.k e.friction e.springs q = Wobbly.springStep e q := by
  have h1 : e.at_ q.pos = fun n => match n with | .mesh i => q.pos i | .anchor _ => 0 := by
    funext n
    cases n with
    | mesh i => rfl
    | anchor h => exact ha h
  unfold springStep Wobbly.springStep anchoredIntegration
  simp only [h1, calculateForces_id, eulerIntegrate_id, hl, lt_irrefl, if_false, not_false_eq_true, true_and]
  rfl

theorem settle_id {e : Env} (hl : ∀ i, e.locks i = 0) (ha : ∀ h, e.apos h = 0) (q : Phys) :
    settle id e.k e.friction e.springs q = Wobbly.settle e q := by
  unfold settle Wobbly.settle settleMore settleIter
  simp only [springStep_id hl ha]

/-- No anchor exists. -/
structure NoAnchor (s : State) : Prop where
  live : s.live = []
  count : s.count = 0
  locks : ∀ i, s.locks i = 0
  ends : ∀ y ∈ s.springs, (∃ i, y.a = .mesh i) ∧ ∃ j, y.b = .mesh j

/-- The part of the state that is used without anchors. -/
def part (s : State) : Free := ⟨s.width, s.height, s.settings, s.pos, s.vel, s.springs, s.lastId, s.unequal⟩

/-- The same outcome. -/
def Same {α : Type} (x : Outcome (State × α)) (y : Outcome (Free × α)) : Prop :=
  (∃ s a, x = .ok (s, a) ∧ y = .ok (part s, a) ∧ NoAnchor s) ∨ (x = .diverges ∧ y = .diverges) ∨ (x = .ub ∧ y = .ub) ∨
    (x = .nonfinite ∧ y = .nonfinite)

theorem NoAnchor.idle {s : State} (h : NoAnchor s) : ¬ s.active := by
  unfold State.active
  rw [h.count]
  norm_num

theorem NoAnchor.sound {s : State} (h : NoAnchor s) : ¬ dangling s.springs s.live := by
  rintro ⟨y, hy, hn⟩
  obtain ⟨⟨i, hi⟩, j, hj⟩ := h.ends y hy
  rw [hi, hj] at hn
  exact hn ⟨trivial, trivial⟩

theorem NoAnchor.apos {s : State} (h : NoAnchor s) (n : ℕ) : Wobbly.apos s.live n = 0 := by
  rw [h.live]
  rfl

theorem integrate_id {s : State} (h : NoAnchor s) (n : ℕ) (q : Phys) :
    s.integrate n q = .ok ((part s).integrate id n q) := by
  induction n generalizing q with
  | zero => rfl
  | succ n ih =>
    have := springStep_id (e := s.env) h.locks h.apos q
    simp only [State.integrate, State.round, if_neg h.idle, bind_ok, ih, Free.integrate]
    rw [← this]
    rfl

theorem target_id {s : State} (h : NoAnchor s) :
    (part s).targetPosition id = s.targetPosition.bind fun a => .ok (part a.1, a.2) := by
  have := settle_id (e := s.settleEnv) h.locks (fun _ => rfl) ⟨s.pos, s.vel⟩
  unfold State.targetPosition Free.targetPosition State.targetByFullIntegration
  rw [if_neg h.idle, ← this]
  have e : (baseSprings ((part s).tile id) (part s).lastId) = s.settleEnv.springs := by
    unfold State.settleEnv State.tile Free.tile part
    norm_num
  rw [e]
  show (settle id s.settings.springConstant s.settings.friction s.settleEnv.springs ⟨s.pos, s.vel⟩).bind _ =
    ((settle id s.settings.springConstant s.settings.friction s.settleEnv.springs ⟨s.pos, s.vel⟩).bind _).bind _
  cases settle id s.settings.springConstant s.settings.friction s.settleEnv.springs ⟨s.pos, s.vel⟩ <;> rfl

theorem settle_outcome (e : Env) (q : Phys) : (∃ p, Wobbly.settle e q = .ok p) ∨ Wobbly.settle e q = .diverges := by
  unfold Wobbly.settle
  split_ifs
  · exact Or.inl ⟨_, rfl⟩
  · exact Or.inr rfl

theorem exec_id {s : State} (h : NoAnchor s) (op : FreeOp) : Same (s.exec op.call) ((part s).exec id op) := by
  cases op with
  | step t =>
    left
    simp only [FreeOp.call, State.exec, State.step, integrate_id h, bind_ok]
    rw [if_neg fun hc => h.sound hc.2]
    refine ⟨_, _, rfl, ?_, ⟨h.live, h.count, h.locks, h.ends⟩⟩
    have : ∀ more, ¬ (¬ more ∧ s.active) := fun more hc => h.idle hc.2
    simp only [if_neg (this _)]
    rfl
  | moveBy d =>
    left
    refine ⟨_, _, rfl, rfl, ⟨?_, h.count, h.locks, h.ends⟩⟩
    simp [State.moveBy, h.live]
  | moveTo p =>
    simp only [FreeOp.call, State.exec, State.moveTo, Free.exec, Free.moveTo, target_id h]
    unfold State.targetPosition State.targetByFullIntegration
    rw [if_neg h.idle]
    rcases settle_outcome s.settleEnv ⟨s.pos, s.vel⟩ with ⟨q, e⟩ | e
    · left
      rw [e]
      refine ⟨_, _, rfl, rfl, ⟨?_, h.count, h.locks, h.ends⟩⟩
      simp [State.moveBy, State.spend, h.live]
    · right; left
      rw [e]
      exact ⟨rfl, rfl⟩
  | resize w hh =>
    simp only [FreeOp.call, State.exec, State.resize, Free.exec, Free.resize, target_id h]
    by_cases h1 : ¬ (w > 0 ∧ hh > 0)
    · rw [if_pos h1, if_pos h1]
      right; right; left
      exact ⟨rfl, rfl⟩
    rw [if_neg h1, if_neg h1]
    by_cases h2 : s.width = 0 ∨ s.height = 0
    · have h2' : (part s).width = 0 ∨ (part s).height = 0 := h2
      rw [if_pos h2, if_pos h2']
      right; right; right
      exact ⟨rfl, rfl⟩
    have h2' : ¬ ((part s).width = 0 ∨ (part s).height = 0) := h2
    rw [if_neg h2, if_neg h2']
    by_cases h3 : Pt.equals ⟨w / s.width, hh / s.height⟩ ⟨1, 1⟩
    · have h3' : Pt.equals ⟨id (w / (part s).width), id (hh / (part s).height)⟩ ⟨1, 1⟩ := h3
      rw [if_pos h3, if_pos h3']
      left
      exact ⟨s, .none, rfl, rfl, h⟩
    have h3' : ¬ Pt.equals ⟨id (w / (part s).width), id (hh / (part s).height)⟩ ⟨1, 1⟩ := h3
    rw [if_neg h3, if_neg h3']
    unfold State.targetPosition State.targetByFullIntegration
    rw [if_neg h.idle]
    rcases settle_outcome s.settleEnv ⟨s.pos, s.vel⟩ with ⟨q, e⟩ | e
    · left
      rw [e]
      refine ⟨_, _, rfl, rfl, ⟨?_, h.count, h.locks, ?_⟩⟩
      · simp [State.spend, h.live]
      · intro y hy
        simp only [State.spend, List.mem_map] at hy
        obtain ⟨z, hz, rfl⟩ := hy
        exact h.ends z hz
    · right; left
      rw [e]
      exact ⟨rfl, rfl⟩

theorem run_id {s : State} (h : NoAnchor s) (ops : List FreeOp) : Same (s.run (ops.map FreeOp.call)) ((part s).run id ops) := by
  induction ops generalizing s with
  | nil => exact Or.inl ⟨s, [], rfl, rfl, h⟩
  | cons op ops ih =>
    simp only [List.map_cons, State.run, Free.run]
    rcases exec_id h op with ⟨s1, a, e1, e2, h1⟩ | ⟨e1, e2⟩ | ⟨e1, e2⟩ | ⟨e1, e2⟩
    · rw [e1, e2]
      simp only [bind_ok]
      rcases ih h1 with ⟨s2, l, e3, e4, h2⟩ | ⟨e3, e4⟩ | ⟨e3, e4⟩ | ⟨e3, e4⟩
      · rw [e3, e4]
        exact Or.inl ⟨s2, a :: l, rfl, rfl, h2⟩
      all_goals
        rw [e3, e4]
        simp [Same, Outcome.bind]
    all_goals
      rw [e1, e2]
      simp [Same, Outcome.bind]

/-- Without rounding the two models are the same model. -/
theorem model_id (p : Pt) (w h : ℝ) (x : Settings) (b : ℕ) (ops : List FreeOp) :
    Same ((State.new p w h x b).run (ops.map FreeOp.call)) ((Free.new id p w h x b).run id ops) := by
  have hn : NoAnchor (State.new p w h x b) := by
    refine ⟨rfl, rfl, fun _ => rfl, fun y hy => ?_⟩
    simp only [State.new, baseSprings, List.mem_map] at hy
    obtain ⟨e, -, rfl⟩ := hy
    exact ⟨⟨_, rfl⟩, _, rfl⟩
  have e : part (State.new p w h x b) = Free.new id p w h x b := by
    unfold part State.new Free.new
    norm_num
    rfl
  rw [← e]
  exact run_id hn ops

end

end Verif.Wobbly.Rounded
