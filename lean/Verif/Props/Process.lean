import Verif.Lemmas.ProcessAlike
import Verif.Lemmas.WobblyBase
import Verif.Lemmas.WobblyDemo

/-! # Several models, their anchors and settings in one program (C83-C86)

`P.run sts = .ok (P', rs)` says: from `P` the statements `sts` of the program are executed one after the other,
all of them return, giving `rs`, and `P'` is reached. `P.model m` is model number `m` if it is there. -/

namespace Verif.Props

open Wobbly Spec Outcome Process

/-! ## A program for the examples: grab model 0 with variable 7, then make and move model 1 -/

def exampleProgram : List Stmt :=
  [.grab 7 0 ⟨90, 10⟩, .make ⟨5, 5⟩ 60 60 3, .moveBy 1 ⟨1, 2⟩]

/-- Model 0 is made first. -/
noncomputable def exampleStart (y : ℕ → Settings) : Proc := made (Proc.start y) ⟨0, 0⟩ 300 300 0

theorem example_make (y : ℕ → Settings) :
    (Proc.start y).exec (.make ⟨0, 0⟩ 300 300 0) = .ok (exampleStart y, .none) := rfl

theorem example_model (y : ℕ → Settings) : (exampleStart y).model 0 = some demo := by
  rfl

theorem example_run (y : ℕ → Settings) : ∃ P s s1 i, (exampleStart y).run exampleProgram = .ok (P, [.none, .none, .none]) ∧
    (∀ v, P.vars v = if v = 7 then some (0, 0) else none) ∧ P.models.length = 2 ∧
    P.model 0 = some s ∧ s.live = [⟨0, .grab i⟩] ∧ P.model 1 = some s1 ∧ s1.live = [] := by
  obtain ⟨i, t, n, -, -, h⟩ := demo_grab ⟨90, 10⟩ (rep_small (by norm_num [abs_of_pos]) (by norm_num [abs_of_pos]))
  have hc : (exampleStart y).call 0 (.grab ⟨90, 10⟩) = .ok
      ({ exampleStart y with models := [some (0, grabbed demo i t n)], counter := n }, .handle 0) := by
    unfold Proc.call
    have : (exampleStart y).models[0]? = some (some (0, demo)) := rfl
    simp only [this]
    have hd : ({ demo with settings := (exampleStart y).settings 0, lastId := (exampleStart y).counter } : State) = demo := rfl
    rw [hd, h]
    rfl
  have hv : (exampleStart y).vars 7 = none := rfl
  have hg : (exampleStart y).exec (.grab 7 0 ⟨90, 10⟩) = .ok
      ({ exampleStart y with models := [some (0, grabbed demo i t n)], counter := n, vars := Function.update (exampleStart y).vars 7 (some (0, 0)) }, .none) := by
    simp only [Proc.exec, hc, bind_ok, Proc.store, Proc.put, hv]
  have hr : ∃ P, (exampleStart y).run exampleProgram = .ok (P, [.none, .none, .none]) ∧
      P.vars = Function.update (exampleStart y).vars 7 (some (0, 0)) ∧
      P.models = [some (0, grabbed demo i t n), some (3, (State.new ⟨5, 5⟩ 60 60 ((exampleStart y).settings 3) n).moveBy ⟨1, 2⟩)] := by
    refine ⟨⟨(exampleStart y).settings, n + springCount, _, _⟩, ?_, rfl, rfl⟩
    simp only [exampleProgram, Proc.run, hg, bind_ok]
    rfl
  obtain ⟨P, hP, h1, h2⟩ := hr
  refine ⟨P, _, _, i, hP, ?_, by rw [h2]; rfl, model_of (r := 0) (s0 := grabbed demo i t n) (by rw [h2]; rfl), rfl,
    model_of (r := 3) (s0 := (State.new ⟨5, 5⟩ 60 60 ((exampleStart y).settings 3) n).moveBy ⟨1, 2⟩) (by rw [h2]; rfl), rfl⟩
  intro v
  rw [h1]
  by_cases h7 : v = 7
  · subst h7
    simp
  · simp only [h7, if_false, ne_eq, not_false_eq_true, Function.update_of_ne]
    rfl

theorem example_start_run (y : ℕ → Settings) : ∃ P s s1 i,
    (Proc.start y).run (.make ⟨0, 0⟩ 300 300 0 :: exampleProgram) = .ok (P, [.none, .none, .none, .none]) ∧
    (∀ v, P.vars v = if v = 7 then some (0, 0) else none) ∧ P.models.length = 2 ∧
    P.model 0 = some s ∧ s.live = [⟨0, .grab i⟩] ∧ P.model 1 = some s1 ∧ s1.live = [] := by
  obtain ⟨P, s, s1, i, h, r⟩ := example_run y
  refine ⟨P, s, s1, i, ?_, r⟩
  unfold Proc.run
  rw [example_make, bind_ok, h]
  rfl

/-! ## Independence -/

/-- **C83.** Whatever else the program does with other models, a model goes through exactly what it would go
through alone: the calls made on it and its anchors, and the changes of the settings it refers to, made on a
model that is alone in its process give the same state and the same answers of `Step`. -/
theorem C83_isolation {P P1 P2 : Proc} {p : Pt} {w h : ℝ} {r : ℕ} {x : Res} {sts : List Stmt} {rs : List Res} {s : State}
    (e1 : P.exec (.make p w h r) = .ok (P1, x)) (e2 : P1.run sts = .ok (P2, rs))
    (hs : P2.model P.models.length = some s) :
    ∃ s0 rs0, (State.new p w h (P.settings r) 0).run (heardAll P1 P.models.length sts) = .ok (s0, rs0) ∧
      SameModel s0 s ∧ answersIn rs0 = answersGivenBy P.models.length sts rs := by
  have hm : P1.model P.models.length = some (State.new p w h (P.settings r) P.counter) := by
    simp only [Proc.exec, Outcome.ok.injEq, Prod.mk.injEq] at e1
    rw [← e1.1]
    rw [model_of (r := r) (s0 := State.new p w h (P.settings r) P.counter) (by simp)]
    rfl
  obtain ⟨l, ys, o, a, e⟩ := goes_run e2 hm hs
  have := run_alone p w h (P.settings r) P.counter l
  rw [e, o] at this
  cases h0 : (State.new p w h (P.settings r) 0).run (heardAll P1 P.models.length sts) <;> rw [h0] at this
  case ok z => exact ⟨z.1, z.2, rfl, this.1, by rw [← a, this.2]⟩
  all_goals exact this.elim

example (y : ℕ → Settings) : ∃ P rs s, (Proc.start y).exec (.make ⟨0, 0⟩ 300 300 0) = .ok (exampleStart y, .none) ∧
    (exampleStart y).run exampleProgram = .ok (P, rs) ∧ P.model (Proc.start y).models.length = some s := by
  obtain ⟨P, s, s1, i, h, -, -, hs, -⟩ := example_run y
  exact ⟨P, _, s, rfl, h, hs⟩

/-- **C83.** A statement that makes no call on a model or its anchors, does not write to its settings and does
not destroy it, changes nothing about it. -/
theorem C83_others_untouched {P P' : Proc} {st : Stmt} {x : Res} {m : ℕ} {s s' : State}
    (e : P.exec st = .ok (P', x)) (hh : heard P m st = []) (hs : P.model m = some s) (hs' : P'.model m = some s') :
    SameModel s s' := by
  obtain ⟨rs, hg, -⟩ := goes_exec e hs'
  rw [hh] at hg
  obtain ⟨s1, h1, l, xs, ho, -, hr⟩ := hg s hs
  rw [hs'] at h1
  simp only [Option.some.injEq] at h1
  subst h1
  have key : ∀ (l : List Op) (s s' : State) (xs : List Res), own l = [] → s.run l = .ok (s', xs) →
      ∃ n, s' = { s with lastId := n } := by
    intro l
    induction l with
    | nil =>
      intro s s' xs _ h
      simp only [State.run, Outcome.ok.injEq, Prod.mk.injEq] at h
      exact ⟨s.lastId, h.1.symm⟩
    | cons op l ih =>
      intro s s' xs ho h
      cases op with
      | elsewhere n =>
        have ho' : own l = [] := ho
        unfold State.run at h
        rw [bind_eq_ok] at h
        obtain ⟨⟨s1, r1⟩, h1, h⟩ := h
        rw [bind_eq_ok] at h
        obtain ⟨⟨s2, r2⟩, h2, h⟩ := h
        simp only [Outcome.ok.injEq, Prod.mk.injEq] at h
        simp only [State.exec, Outcome.ok.injEq, Prod.mk.injEq] at h1
        obtain ⟨k, hk⟩ := ih s1 s2 r2 ho' h2
        refine ⟨k, ?_⟩
        rw [← h.1, hk, ← h1.1]
      | _ => simp [own] at ho
  obtain ⟨n, rfl⟩ := key l s s' xs ho hr
  exact ⟨rfl, rfl, rfl, rfl, ⟨rfl, rfl⟩, rfl, rfl, fun _ => rfl, fun _ => rfl,
    List.forall₂_same.2 fun _ _ => ⟨rfl, rfl, rfl⟩, Iff.rfl⟩

example (y : ℕ → Settings) : ∃ P P' x s s', P.exec (.write 3 (y 5)) = .ok (P', x) ∧ heard P 0 (.write 3 (y 5)) = [] ∧
    P.model 0 = some s ∧ P'.model 0 = some s' :=
  ⟨exampleStart y, _, _, demo, demo, rfl, rfl, rfl, rfl⟩

/-! ## Anchors belong to variables -/

variable {y : ℕ → Settings} {P : Proc} {sts : List Stmt} {rs : List Res} {m : ℕ} {s : State}

/-- **C84.** At any time the anchors in effect on a model are exactly those held by some variable of the
program, and no anchor is held by two variables. -/
theorem C84_held (e : (Proc.start y).run sts = .ok (P, rs)) :
    (∀ m s, P.model m = some s → ∀ h, (∃ a ∈ s.live, a.hid = h) ↔ ∃ v, P.vars v = some (m, h)) ∧
    ∀ v v' a, P.vars v = some a → P.vars v' = some a → v = v' := by
  have ho := owns_run (owns_start y) e
  refine ⟨fun m s hs h => ⟨?_, ?_⟩, ho.uniq⟩
  · rintro ⟨a, ha, rfl⟩
    rcases ho.back m s hs a.hid (List.mem_map.2 ⟨a, ha, rfl⟩) with h | h
    · exact h
    · simp at h
  · rintro ⟨v, hv⟩
    obtain ⟨a, ha, h⟩ := List.mem_map.1 ((ho.held v m h hv).2 s hs)
    exact ⟨a, ha, h⟩

example : ∃ P rs s, (Proc.start y).run (.make ⟨0, 0⟩ 300 300 0 :: exampleProgram) = .ok (P, rs) ∧
    P.vars 7 = some (0, 0) ∧ P.model 0 = some s ∧ ∃ a ∈ s.live, a.hid = 0 := by
  obtain ⟨P, s, s1, i, h, hv, -, hs, hl, -⟩ := example_start_run y
  exact ⟨P, _, s, h, by rw [hv]; rfl, hs, by simp [hl]⟩

/-- **C84.** Once no variable holds an anchor of a model, no point of it is pinned, its range constraint is off,
and its springs join the same points as those of a newly made model. -/
theorem C84_none_left (e : (Proc.start y).run sts = .ok (P, rs)) (hs : P.model m = some s)
    (hv : ∀ v h, P.vars v ≠ some (m, h)) :
    (∀ i, s.locks i = 0) ∧ ¬ s.active ∧
    ∀ p w h x n, (s.springs.map fun z => (z.a, z.b)).Perm ((State.new p w h x n).springs.map fun z => (z.a, z.b)) := by
  have ho := owns_run (owns_start y) e
  have hl : s.live = [] := by
    cases hc : s.live with
    | nil => rfl
    | cons a l =>
      obtain ⟨v, h⟩ := ((C84_held e).1 m s hs a.hid).1 ⟨a, by simp [hc], rfl⟩
      exact absurd h (hv v a.hid)
  obtain ⟨b, hb⟩ := ho.inv m s hs
  have hn : NoneInserted s := by
    intro a ha
    rw [hl] at ha
    simp at ha
  refine ⟨fun i => ?_, ?_, ?_⟩
  · rw [hb.locks, hl]
    rfl
  · unfold State.active
    rw [hb.count, hl]
    simp
  · intro p w h x n
    have hp := (ends_perm hb hn).map fun z : ℕ × Node × Node => z.2
    simp only [List.map_map] at hp
    refine hp.trans (List.Perm.of_eq ?_)
    simp [baseEnds, baseSprings, State.new, Function.comp_def]

example : ∃ P rs s, (Proc.start y).run (.make ⟨0, 0⟩ 300 300 0 :: exampleProgram) = .ok (P, rs) ∧
    P.model 1 = some s ∧ ∀ v h, P.vars v ≠ some (1, h) := by
  obtain ⟨P, s, s1, i, h, hv, -, -, -, hs, -⟩ := example_start_run y
  refine ⟨P, _, s1, h, hs, fun v k => ?_⟩
  rw [hv]
  split_ifs <;> simp

/-- **C84.** The range constraint of a model is on exactly while exactly one variable holds an anchor of it. -/
theorem C84_constraint_iff (e : (Proc.start y).run sts = .ok (P, rs)) (hs : P.model m = some s) :
    s.active ↔ ∃! v, ∃ h, P.vars v = some (m, h) := by
  have ho := owns_run (owns_start y) e
  obtain ⟨b, hb⟩ := ho.inv m s hs
  obtain ⟨hheld, huniq⟩ := C84_held e
  have hheld := hheld m s hs
  unfold State.active
  rw [hb.count]
  constructor
  · intro h1
    obtain ⟨a, ha⟩ := List.length_eq_one_iff.1 h1
    obtain ⟨v, hv⟩ := (hheld a.hid).1 ⟨a, by simp [ha], rfl⟩
    refine ⟨v, ⟨_, hv⟩, ?_⟩
    rintro v' ⟨h', hv'⟩
    obtain ⟨a', ha', rfl⟩ := (hheld h').2 ⟨v', hv'⟩
    rw [ha, List.mem_singleton] at ha'
    subst ha'
    exact huniq _ _ _ hv' hv
  · rintro ⟨v, ⟨h, hv⟩, hu⟩
    have hall : ∀ a ∈ s.live, a.hid = h := by
      intro a ha
      obtain ⟨v', hv'⟩ := (hheld a.hid).1 ⟨a, ha, rfl⟩
      have := hu v' ⟨_, hv'⟩
      subst this
      rw [hv] at hv'
      simpa using hv'.symm
    obtain ⟨a, ha, hah⟩ := (hheld h).2 ⟨v, hv⟩
    cases hc : s.live with
    | nil => simp [hc] at ha
    | cons c l =>
      cases l with
      | nil => rfl
      | cons d l =>
        have h1 := hall c (by simp [hc])
        have h2 := hall d (by simp [hc])
        have := hb.hids
        rw [hc] at this
        simp only [List.map_cons, List.nodup_cons, List.mem_cons, not_or] at this
        exact absurd (h1.trans h2.symm) this.1.1

example : ∃ P rs s, (Proc.start y).run (.make ⟨0, 0⟩ 300 300 0 :: exampleProgram) = .ok (P, rs) ∧
    P.model 0 = some s ∧ s.active := by
  obtain ⟨P, s, s1, i, h, hv, -, hs, -⟩ := example_start_run y
  refine ⟨P, _, s, h, hs, (C84_constraint_iff h hs).2 ⟨7, ⟨0, by rw [hv]; rfl⟩, ?_⟩⟩
  rintro v ⟨k, hk⟩
  rw [hv] at hk
  by_contra hne
  rw [if_neg hne] at hk
  simp at hk

/-! ## When using an anchor is defined -/

theorem call_gone {n : ℕ} {op : Op} (h : P.model n = none) : P.call n op = .ub := by
  unfold Proc.model at h
  unfold Proc.call
  split at h
  · simp at h
  · rfl

theorem call_there {n : ℕ} {op : Op} (h : P.model n = some s) :
    P.call n op = .ub ↔ s.exec op = .ub := by
  obtain ⟨r, s0, e, rfl⟩ := model_eq h
  unfold Proc.call
  simp only [e]
  rw [bind_eq_ub]
  simp

theorem release_defined {b : ℕ} {k : ℕ} (hI : Inv b s) : s.exec (.release k) ≠ .ub := by
  simp only [State.exec, State.release]
  cases hf : s.live.find? (fun a => decide (a.hid = k)) with
  | none => simp
  | some a =>
    simp only
    have hm := List.mem_of_find?_eq_some hf
    have hc : s.count ≠ 0 := by
      rw [hI.count]
      intro h
      rw [List.length_eq_zero_iff] at h
      rw [h] at hm
      simp at hm
    have hrk : ∃ s1, State.releaseKind { s with live := s.live.filter fun b => decide (b.hid ≠ k) } a.kind = .ok s1 ∧
        s1.count = s.count := by
      cases hk : a.kind with
      | grab i =>
        simp only [State.releaseKind, State.unlock]
        have : s.locks i ≠ 0 := by
          rw [hI.locks i]
          exact (List.countP_pos_iff.2 ⟨a, hm, by simp [hk, Kind.isGrab]⟩).ne'
        rw [if_neg this]
        exact ⟨_, rfl, rfl⟩
      | ins q st f g =>
        refine ⟨_, rfl, ?_⟩
        rw [removeTracked_eq, removeTracked_eq, replace_eq]
    obtain ⟨s1, h1, h2⟩ := hrk
    rw [h1, bind_ok]
    unfold State.deactivate
    rw [if_neg (by omega)]
    simp only
    split_ifs
    · unfold State.recalc State.targetByFullIntegration
      rcases settle_cases (State.settleEnv { s1 with count := s1.count - 1 }) ⟨s1.pos, s1.vel⟩ with ⟨q, hq⟩ | hq
      · rw [hq]
        simp
      · rw [hq]
        simp
    · simp

/-- **C85.** `MoveBy` on an anchor variable is undefined behaviour exactly when the variable holds nothing
(default-constructed or moved from) or the model of its anchor has been destroyed. -/
theorem C85_move_defined_iff (v : ℕ) (d : Pt) :
    P.exec (.drag v d) = .ub ↔ P.vars v = none ∨ ∃ n h, P.vars v = some (n, h) ∧ P.model n = none := by
  simp only [Proc.exec]
  cases hv : P.vars v with
  | none => simp
  | some nk =>
    obtain ⟨n, k⟩ := nk
    simp only [reduceCtorEq, Option.some.injEq, Prod.mk.injEq, false_or]
    cases hn : P.model n with
    | none =>
      rw [call_gone hn]
      simp only [true_iff]
      exact ⟨n, k, ⟨rfl, rfl⟩, hn⟩
    | some z =>
      rw [call_there hn]
      constructor
      · intro hc
        exfalso
        simp only [State.exec, State.moveAnchor] at hc
        split at hc
        · simp at hc
        · split at hc <;> simp at hc
      · rintro ⟨n', h', ⟨rfl, rfl⟩, hc⟩
        rw [hn] at hc
        simp at hc

/-- **C85.** Destroying an anchor, or assigning to its variable, is undefined behaviour exactly when the
variable holds an anchor whose model has been destroyed. -/
theorem C85_release_defined_iff (e : (Proc.start y).run sts = .ok (P, rs)) (v : ℕ) :
    (P.exec (.clear v) = .ub ↔ ∃ n h, P.vars v = some (n, h) ∧ P.model n = none) ∧
    ∀ u, u ≠ v → (P.exec (.assign v u) = .ub ↔ ∃ n h, P.vars v = some (n, h) ∧ P.model n = none) := by
  have ho := owns_run (owns_start y) e
  have key : ∀ (Q : Proc) (a : Option (ℕ × ℕ)), Q.models = P.models → Q.settings = P.settings → Q.counter = P.counter →
      Q.vars v = P.vars v → (Q.put v a = .ub ↔ ∃ n h, P.vars v = some (n, h) ∧ P.model n = none) := by
    intro Q a h1 h2 h3 h4
    unfold Proc.put
    rw [h4]
    cases hv : P.vars v with
    | none => simp
    | some nk =>
      obtain ⟨n, k⟩ := nk
      simp only [Option.some.injEq, Prod.mk.injEq]
      have hm : ∀ j, ({ Q with vars := Function.update Q.vars v a } : Proc).model j = P.model j := by
        intro j
        unfold Proc.model
        simp only [h1, h2, h3]
      rw [bind_eq_ub]
      simp only [reduceCtorEq, and_false, exists_false, or_false]
      cases hn : P.model n with
      | none =>
        rw [call_gone ((hm n).trans hn)]
        simp only [true_iff]
        exact ⟨n, k, ⟨rfl, rfl⟩, hn⟩
      | some z =>
        rw [call_there ((hm n).trans hn)]
        obtain ⟨b, hb⟩ := ho.inv n z hn
        constructor
        · intro hc
          exact absurd hc (release_defined hb)
        · rintro ⟨n', h', ⟨rfl, rfl⟩, hc⟩
          rw [hn] at hc
          simp at hc
  refine ⟨key P none rfl rfl rfl rfl, fun u hu => ?_⟩
  simp only [Proc.exec, if_neg (Ne.symm hu)]
  exact key _ _ rfl rfl rfl (by simp only [Function.update_of_ne (Ne.symm hu)])

/-- **C85.** A variable that was moved from must not be used: after `u = std::move (v)` the call `v.MoveBy (d)`
is undefined behaviour, whatever `v` held. -/
theorem C85_moved_from {Q : Proc} {x : Res} {u v : ℕ} (huv : u ≠ v) (e : P.exec (.assign u v) = .ok (Q, x)) (d : Pt) :
    Q.exec (.drag v d) = .ub := by
  rw [C85_move_defined_iff]
  left
  simp only [Proc.exec, if_neg huv, Proc.put] at e
  split at e
  · simp only [Outcome.ok.injEq, Prod.mk.injEq] at e
    rw [← e.1]
    simp [Function.update_of_ne huv.symm]
  · rw [bind_eq_ok] at e
    obtain ⟨⟨R, y⟩, hR, e⟩ := e
    simp only [Outcome.ok.injEq, Prod.mk.injEq] at e
    rw [← e.1]
    unfold Proc.call at hR
    split at hR
    · rw [bind_eq_ok] at hR
      obtain ⟨z, -, hR⟩ := hR
      simp only [Outcome.ok.injEq, Prod.mk.injEq] at hR
      rw [← hR.1]
      simp [Function.update_of_ne huv.symm]
    · simp at hR

/-- **C85.** An anchor must not outlive its model: once the model is destroyed, even destroying the anchor is
undefined behaviour. -/
theorem C85_outliving {Q : Proc} {x : Res} {v n h : ℕ} (hv : P.vars v = some (n, h))
    (e : P.exec (.destroy n) = .ok (Q, x)) : Q.exec (.clear v) = .ub := by
  simp only [Proc.exec] at e
  split at e
  · simp only [Outcome.ok.injEq, Prod.mk.injEq] at e
    rw [← e.1]
    simp only [Proc.exec, Proc.put, hv]
    have : ∀ R : Proc, R.models = P.models.set n none → R.call n (.release h) = .ub := by
      intro R hR
      refine call_gone ?_
      unfold Proc.model
      rw [hR]
      by_cases hn : n < P.models.length
      · rw [List.getElem?_set_self hn]
      · rw [List.getElem?_eq_none (by simpa using hn)]
    rw [this _ rfl]
    rfl
  · simp at e

/-- Both can happen: move the anchor of model 0 away, or destroy model 0 first. -/
example : ∃ P rs Q R x x', (Proc.start y).run (.make ⟨0, 0⟩ 300 300 0 :: exampleProgram) = .ok (P, rs) ∧
    P.vars 7 = some (0, 0) ∧ P.exec (.assign 8 7) = .ok (Q, x) ∧ P.exec (.destroy 0) = .ok (R, x') := by
  obtain ⟨P, s, s1, i, h, hv, -, hs, -⟩ := example_start_run y
  obtain ⟨r, s0, hm, -⟩ := model_eq hs
  have h1 : ∃ Q x, P.exec (.assign 8 7) = .ok (Q, x) := by
    have h8 : P.vars 8 = none := by rw [hv]; rfl
    simp [Proc.exec, Proc.put, h8]
  have h2 : ∃ R x, P.exec (.destroy 0) = .ok (R, x) := by
    simp [Proc.exec, hm]
  obtain ⟨Q, x, h1⟩ := h1
  obtain ⟨R, x', h2⟩ := h2
  exact ⟨P, _, Q, R, x, x', h, by rw [hv]; rfl, h1, h2⟩

/-! ## Settings are shared -/

/-- **C86.** Writing to a settings structure changes the settings of exactly the models that were made with it,
including models made long before, and nothing else about any model. -/
theorem C86_write {Q : Proc} {x : Res} {r : ℕ} {z : Settings} (e : P.exec (.write r z) = .ok (Q, x)) {m n : ℕ} {s s0 : State}
    (hr : P.models[m]? = some (some (n, s0))) (hs : P.model m = some s) :
    Q.model m = some { s with settings := if n = r then z else s.settings } := by
  simp only [Proc.exec, Outcome.ok.injEq, Prod.mk.injEq] at e
  obtain ⟨n', s1, hm, rfl⟩ := model_eq hs
  rw [hr] at hm
  simp only [Option.some.injEq, Prod.mk.injEq] at hm
  obtain ⟨rfl, rfl⟩ := hm
  rw [← e.1]
  unfold Proc.model
  simp only [hr]
  by_cases h : n = r
  · subst h
    simp
  · simp [h]

example : ∃ Q x, (exampleStart y).exec (.write 0 (y 5)) = .ok (Q, x) ∧ (exampleStart y).models[0]? = some (some (0, demo)) ∧
    (exampleStart y).model 0 = some demo := ⟨_, _, rfl, rfl, rfl⟩

/-- **C86.** A model uses its settings structure as it is at the time of each call: writing to the structure
after the model was made is the same as writing to it before. -/
theorem C86_by_reference {P1 P2 P3 P4 : Proc} {p : Pt} {w h : ℝ} {r r' : ℕ} {z : Settings} {a b c d : Res}
    (e1 : P.exec (.make p w h r) = .ok (P1, a)) (e2 : P1.exec (.write r' z) = .ok (P2, b))
    (e3 : P.exec (.write r' z) = .ok (P3, c)) (e4 : P3.exec (.make p w h r) = .ok (P4, d)) (m : ℕ) :
    P2.model m = P4.model m := by
  simp only [Proc.exec, Outcome.ok.injEq, Prod.mk.injEq] at e1 e2 e3 e4
  rw [← e2.1, ← e1.1, ← e4.1, ← e3.1]
  unfold Proc.model
  simp only
  by_cases hm : m < P.models.length
  · rw [List.getElem?_append_left hm, List.getElem?_append_left hm]
  · rw [List.getElem?_append_right (by omega), List.getElem?_append_right (by omega)]
    cases hk : m - P.models.length with
    | zero => simp [State.new]
    | succ k => simp

example : ∃ P1 P2 P3 P4 a b c d, (exampleStart y).exec (.make ⟨5, 5⟩ 60 60 0) = .ok (P1, a) ∧ P1.exec (.write 0 (y 5)) = .ok (P2, b) ∧
    (exampleStart y).exec (.write 0 (y 5)) = .ok (P3, c) ∧ P3.exec (.make ⟨5, 5⟩ 60 60 0) = .ok (P4, d) :=
  ⟨_, _, _, _, _, _, _, _, rfl, rfl, rfl, rfl⟩

/-- **C86.** At the start of a program the default settings are spring constant 8, friction 3 and maximum range 500, and a
model made with them uses these until they are written to. -/
theorem C86_defaults {Q : Proc} {x : Res} {p : Pt} {w h : ℝ} (e : (Proc.start y).exec (.make p w h 0) = .ok (Q, x)) :
    ∃ s, Q.model 0 = some s ∧ s.settings = ⟨8, 3, 500⟩ := by
  simp only [Proc.exec, Outcome.ok.injEq, Prod.mk.injEq] at e
  rw [← e.1]
  exact ⟨_, rfl, rfl⟩

example : ∃ Q x, (Proc.start y).exec (.make ⟨0, 0⟩ 300 300 0) = .ok (Q, x) := ⟨_, _, rfl⟩

/-- **C86.** What Step does after a write: it answers and leaves the mesh as a model with the new settings would, if the
model was made with the structure written to, and as before the write otherwise. -/
theorem C86_next_step {Q : Proc} {x : Res} {r : ℕ} {z : Settings} (e : P.exec (.write r z) = .ok (Q, x)) {m n : ℕ} {s s0 : State}
    (hr : P.models[m]? = some (some (n, s0))) (hs : P.model m = some s) {t : ℕ} {Q' : Proc} {b : Res}
    (e' : Q.exec (.step m t) = .ok (Q', b)) :
    ∃ s', ({ s with settings := if n = r then z else s.settings } : State).exec (.step t) = .ok (s', b) ∧ Q'.model m = some s' := by
  have hq := C86_write e hr hs
  generalize ({ s with settings := if n = r then z else s.settings } : State) = s1 at *
  obtain ⟨n1, s2, hm, rfl⟩ := model_eq hq
  simp only [Proc.exec, Proc.call, hm] at e'
  cases hx : ({ s2 with settings := Q.settings n1, lastId := Q.counter } : State).exec (.step t) with
  | ok y =>
    rw [hx] at e'
    simp only [Outcome.bind, Outcome.ok.injEq, Prod.mk.injEq] at e'
    refine ⟨y.1, by rw [← e'.2], ?_⟩
    have hset := (exec_shared hx).2 (by intro _ h; cases h)
    have hlt : m < Q.models.length := (List.getElem?_eq_some_iff.1 hm).1
    rw [← e'.1]
    unfold Proc.model
    simp only [List.getElem?_set_self hlt]
    refine congrArg some ?_
    have : Q.settings n1 = y.1.settings := hset.symm
    rw [this]
  | _ => rw [hx] at e'; exact absurd e' (by nofun)

/-- **C86.** Making a model and then writing to a settings structure is the same as writing first: whatever the program does
afterwards, it fails in the same way or returns the same results, and every model ends in the same state. -/
theorem C86_order (p : Pt) (w h : ℝ) (r r' : ℕ) (z : Settings) (sts : List Stmt) :
    ((P.run (.make p w h r :: .write r' z :: sts)).bind fun x => .ok x.2) =
      ((P.run (.write r' z :: .make p w h r :: sts)).bind fun x => .ok x.2) ∧
    ∀ Q Q' rs rs', P.run (.make p w h r :: .write r' z :: sts) = .ok (Q, rs) →
      P.run (.write r' z :: .make p w h r :: sts) = .ok (Q', rs') → ∀ m, Q.model m = Q'.model m := by
  have key : Agree (P.run (.make p w h r :: .write r' z :: sts)) (P.run (.write r' z :: .make p w h r :: sts)) := by
    have hA : Alike ⟨Function.update P.settings r' z, P.counter + springCount,
          P.models ++ [some (r, State.new p w h (P.settings r) P.counter)], P.vars⟩
        ⟨Function.update P.settings r' z, P.counter + springCount,
          P.models ++ [some (r, State.new p w h (Function.update P.settings r' z r) P.counter)], P.vars⟩ :=
      ⟨rfl, rfl, rfl, by simp [blank, State.new]⟩
    have h1 := (alike_run sts hA).bind (f := fun y => .ok (y.1, Res.none :: y.2)) (g := fun y => .ok (y.1, Res.none :: y.2))
      fun _ _ _ h => .ok h
    exact h1.bind (f := fun y => .ok (y.1, Res.none :: y.2)) (g := fun y => .ok (y.1, Res.none :: y.2)) fun _ _ _ h => .ok h
  generalize P.run (.make p w h r :: .write r' z :: sts) = A at *
  generalize P.run (.write r' z :: .make p w h r :: sts) = B at *
  cases key with
  | ok h =>
    refine ⟨rfl, fun Q Q' rs rs' e e' m => ?_⟩
    cases e
    cases e'
    exact h.model m
  | diverges => exact ⟨rfl, by nofun⟩
  | throws => exact ⟨rfl, by nofun⟩
  | ub => exact ⟨rfl, by nofun⟩
  | nonfinite => exact ⟨rfl, by nofun⟩

end Verif.Props
