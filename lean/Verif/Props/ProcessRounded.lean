import Verif.Lemmas.ProcessAlikeRounded
import Verif.Props.WobblyBook

/-! # Several models, their anchors and settings in one program, whatever the rounding (C128)

`Process.Rounded.run rd P sts = .ok (P', rs)` says: every result of an arithmetic operation is replaced by its image under
`rd`, from `P` the statements `sts` of the program are executed one after the other, all of them return, giving `rs`, and
`P'` is reached. `P.model m` is model number `m` if it is there. `rd` may be any function. -/

namespace Verif.Props

open Wobbly Spec Outcome Process

variable {rd : ℝ → ℝ}

/-! ## A program in `double` arithmetic for the examples: grab model 0 with variable 7, then make and move model 1 -/

noncomputable def doubleProgram : List Stmt :=
  [.grab 7 0 (wholeMesh 3), .make ⟨5, 5⟩ 60 60 3, .moveBy 1 ⟨1, 2⟩]

/-- Model 0 is made first. -/
noncomputable def doubleStart (R : Rounding64) (y : ℕ → Settings) : Proc :=
  Process.Rounded.made R.rnd (Proc.start y) ⟨0, 0⟩ 300 300 0

theorem double_make (R : Rounding64) (y : ℕ → Settings) :
    Process.Rounded.exec R.rnd (Proc.start y) (.make ⟨0, 0⟩ 300 300 0) = .ok (doubleStart R y, .none) := rfl

theorem double_run (R : Rounding64) (y : ℕ → Settings) : ∃ P s s1,
    Process.Rounded.run R.rnd (doubleStart R y) doubleProgram = .ok (P, [.none, .none, .none]) ∧
    (∀ v, P.vars v = if v = 7 then some (0, 0) else none) ∧
    P.model 0 = some s ∧ s.live = [⟨0, .grab 3⟩] ∧ P.model 1 = some s1 ∧ s1.live = [] := by
  obtain ⟨s, h, -, -, -, -, -, -, -, hl, -⟩ := whole_grab R (b := 0) (x := ⟨8, 3, 500⟩) (by norm_num) (by norm_num) 3
  have hc : Process.Rounded.call R.rnd (doubleStart R y) 0 (.grab (wholeMesh 3)) = .ok
      ({ doubleStart R y with models := [some (0, s)], counter := s.lastId }, .handle 0) := by
    unfold Process.Rounded.call
    have : (doubleStart R y).models[0]? = some (some (0, Wobbly.Rounded.new R.rnd ⟨0, 0⟩ 300 300 ⟨8, 3, 500⟩ 0)) := rfl
    simp only [this]
    have hd : ({ Wobbly.Rounded.new R.rnd ⟨0, 0⟩ 300 300 ⟨8, 3, 500⟩ 0 with
        settings := (doubleStart R y).settings 0, lastId := (doubleStart R y).counter } : State) =
        Wobbly.Rounded.new R.rnd ⟨0, 0⟩ 300 300 ⟨8, 3, 500⟩ 0 := rfl
    rw [hd, h]
    rfl
  have hv : (doubleStart R y).vars 7 = none := rfl
  have hg : Process.Rounded.exec R.rnd (doubleStart R y) (.grab 7 0 (wholeMesh 3)) = .ok
      ({ doubleStart R y with
          models := [some (0, s)], counter := s.lastId, vars := Function.update (doubleStart R y).vars 7 (some (0, 0)) },
        .none) := by
    simp only [Process.Rounded.exec, hc, bind_ok, Process.Rounded.store, Process.Rounded.put, hv]
  have hr : ∃ P, Process.Rounded.run R.rnd (doubleStart R y) doubleProgram = .ok (P, [.none, .none, .none]) ∧
      P.vars = Function.update (doubleStart R y).vars 7 (some (0, 0)) ∧
      P.models = [some (0, s), some (3, Wobbly.Rounded.moveBy R.rnd
        (Wobbly.Rounded.new R.rnd ⟨5, 5⟩ 60 60 ((doubleStart R y).settings 3) s.lastId) ⟨1, 2⟩)] := by
    refine ⟨⟨(doubleStart R y).settings, s.lastId + springCount, _, _⟩, ?_, rfl, rfl⟩
    simp only [doubleProgram, Process.Rounded.run, hg, bind_ok]
    rfl
  obtain ⟨P, hP, h1, h2⟩ := hr
  refine ⟨P, _, _, hP, ?_, model_of (r := 0) (s0 := s) (by rw [h2]; rfl), hl,
    model_of (r := 3) (by rw [h2]; rfl), rfl⟩
  intro v
  rw [h1]
  by_cases h7 : v = 7
  · subst h7
    simp
  · simp only [h7, if_false, ne_eq, not_false_eq_true, Function.update_of_ne]
    rfl

theorem double_start_run (R : Rounding64) (y : ℕ → Settings) : ∃ P s s1,
    Process.Rounded.run R.rnd (Proc.start y) (.make ⟨0, 0⟩ 300 300 0 :: doubleProgram) =
      .ok (P, [.none, .none, .none, .none]) ∧
    (∀ v, P.vars v = if v = 7 then some (0, 0) else none) ∧
    P.model 0 = some s ∧ s.live = [⟨0, .grab 3⟩] ∧ P.model 1 = some s1 ∧ s1.live = [] := by
  obtain ⟨P, s, s1, h, r⟩ := double_run R y
  refine ⟨P, s, s1, ?_, r⟩
  unfold Process.Rounded.run
  rw [double_make, bind_ok, h]
  rfl

/-! ## Independence -/

/-- **C128.** Whatever else the program does with other models, a model goes through exactly what it would go
through alone: the calls made on it and its anchors, and the changes of the settings it refers to, made on a
model that is alone in its process give the same state and the same answers of `Step`. -/
theorem C128_isolation {P P1 P2 : Proc} {p : Pt} {w h : ℝ} {r : ℕ} {x : Res} {sts : List Stmt} {rs : List Res} {s : State}
    (e1 : Process.Rounded.exec rd P (.make p w h r) = .ok (P1, x)) (e2 : Process.Rounded.run rd P1 sts = .ok (P2, rs))
    (hs : P2.model P.models.length = some s) :
    ∃ s0 rs0, Wobbly.Rounded.run rd (Wobbly.Rounded.new rd p w h (P.settings r) 0) (heardAllRounded rd P1 P.models.length sts) = .ok (s0, rs0) ∧
      SameModel s0 s ∧ answersIn rs0 = answersGivenBy P.models.length sts rs := by
  have hm : P1.model P.models.length = some (Wobbly.Rounded.new rd p w h (P.settings r) P.counter) := by
    simp only [Process.Rounded.exec, Outcome.ok.injEq, Prod.mk.injEq] at e1
    rw [← e1.1]
    rw [model_of (r := r) (s0 := Wobbly.Rounded.new rd p w h (P.settings r) P.counter) (by simp)]
    rfl
  obtain ⟨l, ys, o, a, e⟩ := Process.Rounded.goes_run e2 hm hs
  have := Wobbly.Rounded.run_aloneR (r := rd) p w h (P.settings r) P.counter l
  rw [e, o] at this
  cases h0 : Wobbly.Rounded.run rd (Wobbly.Rounded.new rd p w h (P.settings r) 0) (heardAllRounded rd P1 P.models.length sts) <;> rw [h0] at this
  case ok z => exact ⟨z.1, z.2, rfl, this.1, by rw [← a, this.2]⟩
  all_goals exact this.elim

example (R : Rounding64) (y : ℕ → Settings) : ∃ P rs s,
    Process.Rounded.exec R.rnd (Proc.start y) (.make ⟨0, 0⟩ 300 300 0) = .ok (doubleStart R y, .none) ∧
    Process.Rounded.run R.rnd (doubleStart R y) doubleProgram = .ok (P, rs) ∧
    P.model (Proc.start y).models.length = some s := by
  obtain ⟨P, s, s1, h, -, hs, -⟩ := double_run R y
  exact ⟨P, _, s, rfl, h, hs⟩

/-- **C128.** A statement that makes no call on a model or its anchors, does not write to its settings and does
not destroy it, changes nothing about it. -/
theorem C128_others_untouched {P P' : Proc} {st : Stmt} {x : Res} {m : ℕ} {s s' : State}
    (e : Process.Rounded.exec rd P st = .ok (P', x)) (hh : heard P m st = []) (hs : P.model m = some s) (hs' : P'.model m = some s') :
    SameModel s s' := by
  obtain ⟨rs, hg, -⟩ := Process.Rounded.goes_exec e hs'
  rw [hh] at hg
  obtain ⟨s1, h1, l, xs, ho, -, hr⟩ := hg s hs
  rw [hs'] at h1
  simp only [Option.some.injEq] at h1
  subst h1
  have key : ∀ (l : List Op) (s s' : State) (xs : List Res), own l = [] → Wobbly.Rounded.run rd s l = .ok (s', xs) →
      ∃ n, s' = { s with lastId := n } := by
    intro l
    induction l with
    | nil =>
      intro s s' xs _ h
      simp only [Wobbly.Rounded.run, Outcome.ok.injEq, Prod.mk.injEq] at h
      exact ⟨s.lastId, h.1.symm⟩
    | cons op l ih =>
      intro s s' xs ho h
      cases op with
      | elsewhere n =>
        have ho' : own l = [] := ho
        unfold Wobbly.Rounded.run at h
        rw [bind_eq_ok] at h
        obtain ⟨⟨s1, r1⟩, h1, h⟩ := h
        rw [bind_eq_ok] at h
        obtain ⟨⟨s2, r2⟩, h2, h⟩ := h
        simp only [Outcome.ok.injEq, Prod.mk.injEq] at h
        simp only [Wobbly.Rounded.exec, Outcome.ok.injEq, Prod.mk.injEq] at h1
        obtain ⟨k, hk⟩ := ih s1 s2 r2 ho' h2
        refine ⟨k, ?_⟩
        rw [← h.1, hk, ← h1.1]
      | _ => simp [own] at ho
  obtain ⟨n, rfl⟩ := key l s s' xs ho hr
  exact ⟨rfl, rfl, rfl, rfl, ⟨rfl, rfl⟩, rfl, rfl, fun _ => rfl, fun _ => rfl,
    List.forall₂_same.2 fun _ _ => ⟨rfl, rfl, rfl⟩, Iff.rfl⟩

example (R : Rounding64) (y : ℕ → Settings) : ∃ P P' x s s',
    Process.Rounded.exec R.rnd P (.write 3 (y 5)) = .ok (P', x) ∧ heard P 0 (.write 3 (y 5)) = [] ∧
    P.model 0 = some s ∧ P'.model 0 = some s' :=
  ⟨doubleStart R y, _, _, _, _, rfl, rfl, rfl, rfl⟩

/-! ## Anchors belong to variables -/

variable {y : ℕ → Settings} {P : Proc} {sts : List Stmt} {rs : List Res} {m : ℕ} {s : State}

/-- **C128.** At any time the anchors in effect on a model are exactly those held by some variable of the
program, and no anchor is held by two variables. -/
theorem C128_held (e : Process.Rounded.run rd (Proc.start y) sts = .ok (P, rs)) :
    (∀ m s, P.model m = some s → ∀ h, (∃ a ∈ s.live, a.hid = h) ↔ ∃ v, P.vars v = some (m, h)) ∧
    ∀ v v' a, P.vars v = some a → P.vars v' = some a → v = v' := by
  have ho := Process.Rounded.owns_run (Process.Rounded.owns_start y) e
  refine ⟨fun m s hs h => ⟨?_, ?_⟩, ho.uniq⟩
  · rintro ⟨a, ha, rfl⟩
    rcases ho.back m s hs a.hid (List.mem_map.2 ⟨a, ha, rfl⟩) with h | h
    · exact h
    · simp at h
  · rintro ⟨v, hv⟩
    obtain ⟨a, ha, h⟩ := List.mem_map.1 ((ho.held v m h hv).2 s hs)
    exact ⟨a, ha, h⟩

/-- **C128.** Once no variable holds an anchor of a model, no point of it is pinned, its range constraint is off,
and its springs join the same points as those of a newly made model. -/
theorem C128_none_left (e : Process.Rounded.run rd (Proc.start y) sts = .ok (P, rs)) (hs : P.model m = some s)
    (hv : ∀ v h, P.vars v ≠ some (m, h)) :
    (∀ i, s.locks i = 0) ∧ ¬ s.active ∧
    ∀ p w h x n, (s.springs.map fun z => (z.a, z.b)).Perm ((Wobbly.Rounded.new rd p w h x n).springs.map fun z => (z.a, z.b)) := by
  have ho := Process.Rounded.owns_run (Process.Rounded.owns_start y) e
  have hl : s.live = [] := by
    cases hc : s.live with
    | nil => rfl
    | cons a l =>
      obtain ⟨v, h⟩ := ((C128_held e).1 m s hs a.hid).1 ⟨a, by simp [hc], rfl⟩
      exact absurd h (hv v a.hid)
  obtain ⟨b, hb⟩ := ho.inv m s hs
  have hn : NoneInserted s := by
    intro a ha
    rw [hl] at ha
    simp at ha
  refine ⟨fun i => ?_, ?_, ?_⟩
  · have : s.locks i = grabs s.live i := hb.inv.locks i
    rw [this, hl]
    rfl
  · have : s.count = s.live.length := hb.inv.count
    unfold State.active
    rw [this, hl]
    simp
  · intro p w h x n
    have hp := (ends_perm hb.inv hn).map fun z : ℕ × Node × Node => z.2
    simp only [List.map_map] at hp
    refine hp.trans (List.Perm.of_eq ?_)
    simp [baseEnds, baseSprings, Wobbly.Rounded.new, Function.comp_def]

/-- **C128.** The range constraint of a model is on exactly while exactly one variable holds an anchor of it. -/
theorem C128_constraint_iff (e : Process.Rounded.run rd (Proc.start y) sts = .ok (P, rs)) (hs : P.model m = some s) :
    s.active ↔ ∃! v, ∃ h, P.vars v = some (m, h) := by
  have ho := Process.Rounded.owns_run (Process.Rounded.owns_start y) e
  obtain ⟨b, hb⟩ := ho.inv m s hs
  obtain ⟨hheld, huniq⟩ := C128_held e
  have hheld := hheld m s hs
  have hcount : s.count = s.live.length := hb.inv.count
  unfold State.active
  rw [hcount]
  constructor
  · intro h1
    obtain ⟨a, ha⟩ := List.length_eq_one_iff.1 h1
    obtain ⟨v, hv⟩ := (hheld a.hid).1 ⟨a, by simp [ha], rfl⟩
    refine ⟨v, ⟨_, hv⟩, ?_⟩
    rintro v' ⟨h', hv'⟩
    obtain ⟨a', ha', rfl⟩ := (hheld h').2 ⟨v', hv'⟩
    rw [ha, List.mem_singleton] at ha'
    subst ha'
    exact huniq _ _ _ hv' hv
  · rintro ⟨v, ⟨h, hv⟩, hu⟩
    have hall : ∀ a ∈ s.live, a.hid = h := by
      intro a ha
      obtain ⟨v', hv'⟩ := (hheld a.hid).1 ⟨a, ha, rfl⟩
      have := hu v' ⟨_, hv'⟩
      subst this
      rw [hv] at hv'
      simpa using hv'.symm
    obtain ⟨a, ha, hah⟩ := (hheld h).2 ⟨v, hv⟩
    cases hc : s.live with
    | nil => simp [hc] at ha
    | cons c l =>
      cases l with
      | nil => rfl
      | cons d l =>
        have h1 := hall c (by simp [hc])
        have h2 := hall d (by simp [hc])
        have : (s.live.map Live.hid).Nodup := hb.inv.hids
        rw [hc] at this
        simp only [List.map_cons, List.nodup_cons, List.mem_cons, not_or] at this
        exact absurd (h1.trans h2.symm) this.1.1

example (R : Rounding64) : ∃ P rs s s1,
    Process.Rounded.run R.rnd (Proc.start y) (.make ⟨0, 0⟩ 300 300 0 :: doubleProgram) = .ok (P, rs) ∧
    (P.vars 7 = some (0, 0) ∧ P.model 0 = some s ∧ s.active) ∧ P.model 1 = some s1 ∧ ∀ v h, P.vars v ≠ some (1, h) := by
  obtain ⟨P, s, s1, h, hv, hs, -, hs1, -⟩ := double_start_run R y
  refine ⟨P, _, s, s1, h, ⟨by rw [hv]; rfl, hs, (C128_constraint_iff h hs).2 ⟨7, ⟨0, by rw [hv]; rfl⟩, ?_⟩⟩, hs1, fun v k => ?_⟩
  · rintro v ⟨k, hk⟩
    rw [hv] at hk
    by_contra hne
    rw [if_neg hne] at hk
    simp at hk
  · rw [hv]
    split_ifs <;> simp

/-! ## When using an anchor is defined -/

theorem call_goneR {n : ℕ} {op : Op} (h : P.model n = none) : Process.Rounded.call rd P n op = .ub := by
  unfold Process.Rounded.call
  split
  · rename_i r s0 e
    rw [model_of e] at h
    simp at h
  · rfl

theorem call_thereR {n : ℕ} {op : Op} (h : P.model n = some s) :
    Process.Rounded.call rd P n op = .ub ↔ Wobbly.Rounded.exec rd s op = .ub := by
  obtain ⟨r, s0, e, rfl⟩ := model_eq h
  unfold Process.Rounded.call
  simp only [e]
  rw [bind_eq_ub]
  simp

theorem release_definedR {b : ℕ} {k : ℕ} (hB : Wobbly.Rounded.Book b s) : Wobbly.Rounded.exec rd s (.release k) ≠ .ub := by
  rcases hB.release_cases (r := rd) k with ⟨y, h⟩ | h <;> rw [h] <;> simp

/-- **C128.** `MoveBy` on an anchor variable is undefined behaviour exactly when the variable holds nothing
(default-constructed or moved from) or the model of its anchor has been destroyed. -/
theorem C128_move_defined_iff (v : ℕ) (d : Pt) :
    Process.Rounded.exec rd P (.drag v d) = .ub ↔ P.vars v = none ∨ ∃ n h, P.vars v = some (n, h) ∧ P.model n = none := by
  simp only [Process.Rounded.exec]
  cases hv : P.vars v with
  | none => simp
  | some nk =>
    obtain ⟨n, k⟩ := nk
    simp only [reduceCtorEq, Option.some.injEq, Prod.mk.injEq, false_or]
    cases hn : P.model n with
    | none =>
      rw [call_goneR hn]
      simp only [true_iff]
      exact ⟨n, k, ⟨rfl, rfl⟩, hn⟩
    | some z =>
      rw [call_thereR hn]
      constructor
      · intro hc
        exfalso
        simp only [Wobbly.Rounded.exec, Wobbly.Rounded.moveAnchor] at hc
        split at hc
        · simp at hc
        · split at hc <;> simp at hc
      · rintro ⟨n', h', ⟨rfl, rfl⟩, hc⟩
        rw [hn] at hc
        simp at hc

/-- **C128.** Destroying an anchor, or assigning to its variable, is undefined behaviour exactly when the
variable holds an anchor whose model has been destroyed. -/
theorem C128_release_defined_iff (e : Process.Rounded.run rd (Proc.start y) sts = .ok (P, rs)) (v : ℕ) :
    (Process.Rounded.exec rd P (.clear v) = .ub ↔ ∃ n h, P.vars v = some (n, h) ∧ P.model n = none) ∧
    ∀ u, u ≠ v → (Process.Rounded.exec rd P (.assign v u) = .ub ↔ ∃ n h, P.vars v = some (n, h) ∧ P.model n = none) := by
  have ho := Process.Rounded.owns_run (Process.Rounded.owns_start y) e
  have key : ∀ (Q : Proc) (a : Option (ℕ × ℕ)), Q.models = P.models → Q.settings = P.settings → Q.counter = P.counter →
      Q.vars v = P.vars v → (Process.Rounded.put rd Q v a = .ub ↔ ∃ n h, P.vars v = some (n, h) ∧ P.model n = none) := by
    intro Q a h1 h2 h3 h4
    unfold Process.Rounded.put
    rw [h4]
    cases hv : P.vars v with
    | none => simp
    | some nk =>
      obtain ⟨n, k⟩ := nk
      simp only [Option.some.injEq, Prod.mk.injEq]
      have hm : ∀ j, ({ Q with vars := Function.update Q.vars v a } : Proc).model j = P.model j := by
        intro j
        unfold Proc.model
        simp only [h1, h2, h3]
      rw [bind_eq_ub]
      simp only [reduceCtorEq, and_false, exists_false, or_false]
      cases hn : P.model n with
      | none =>
        rw [call_goneR ((hm n).trans hn)]
        simp only [true_iff]
        exact ⟨n, k, ⟨rfl, rfl⟩, hn⟩
      | some z =>
        rw [call_thereR ((hm n).trans hn)]
        obtain ⟨b, hb⟩ := ho.inv n z hn
        constructor
        · intro hc
          exact absurd hc (release_definedR hb)
        · rintro ⟨n', h', ⟨rfl, rfl⟩, hc⟩
          rw [hn] at hc
          simp at hc
  refine ⟨key P none rfl rfl rfl rfl, fun u hu => ?_⟩
  simp only [Process.Rounded.exec, if_neg (Ne.symm hu)]
  exact key _ _ rfl rfl rfl (by simp only [Function.update_of_ne (Ne.symm hu)])

/-- **C128.** A variable that was moved from must not be used: after `u = std::move (v)` the call `v.MoveBy (d)`
is undefined behaviour, whatever `v` held. -/
theorem C128_moved_from {Q : Proc} {x : Res} {u v : ℕ} (huv : u ≠ v) (e : Process.Rounded.exec rd P (.assign u v) = .ok (Q, x)) (d : Pt) :
    Process.Rounded.exec rd Q (.drag v d) = .ub := by
  rw [C128_move_defined_iff]
  left
  simp only [Process.Rounded.exec, if_neg huv, Process.Rounded.put] at e
  split at e
  · simp only [Outcome.ok.injEq, Prod.mk.injEq] at e
    rw [← e.1]
    simp [Function.update_of_ne huv.symm]
  · rw [bind_eq_ok] at e
    obtain ⟨⟨R, y⟩, hR, e⟩ := e
    simp only [Outcome.ok.injEq, Prod.mk.injEq] at e
    rw [← e.1]
    unfold Process.Rounded.call at hR
    split at hR
    · rw [bind_eq_ok] at hR
      obtain ⟨z, -, hR⟩ := hR
      simp only [Outcome.ok.injEq, Prod.mk.injEq] at hR
      rw [← hR.1]
      simp [Function.update_of_ne huv.symm]
    · simp at hR

/-- **C128.** An anchor must not outlive its model: once the model is destroyed, even destroying the anchor is
undefined behaviour. -/
theorem C128_outliving {Q : Proc} {x : Res} {v n h : ℕ} (hv : P.vars v = some (n, h))
    (e : Process.Rounded.exec rd P (.destroy n) = .ok (Q, x)) : Process.Rounded.exec rd Q (.clear v) = .ub := by
  simp only [Process.Rounded.exec] at e
  split at e
  · simp only [Outcome.ok.injEq, Prod.mk.injEq] at e
    rw [← e.1]
    simp only [Process.Rounded.exec, Process.Rounded.put, hv]
    have : ∀ R : Proc, R.models = P.models.set n none → Process.Rounded.call rd R n (.release h) = .ub := by
      intro R hR
      refine call_goneR ?_
      unfold Proc.model
      rw [hR]
      by_cases hn : n < P.models.length
      · rw [List.getElem?_set_self hn]
      · rw [List.getElem?_eq_none (by simpa using hn)]
    rw [this _ rfl]
    rfl
  · simp at e

/-- Both can happen: move the anchor of model 0 away, or destroy model 0 first. -/
example (R : Rounding64) : ∃ P rs Q Q' x x',
    Process.Rounded.run R.rnd (Proc.start y) (.make ⟨0, 0⟩ 300 300 0 :: doubleProgram) = .ok (P, rs) ∧
    P.vars 7 = some (0, 0) ∧ Process.Rounded.exec R.rnd P (.assign 8 7) = .ok (Q, x) ∧
    Process.Rounded.exec R.rnd P (.destroy 0) = .ok (Q', x') := by
  obtain ⟨P, s, s1, h, hv, hs, -⟩ := double_start_run R y
  obtain ⟨r, s0, hm, -⟩ := model_eq hs
  have h1 : ∃ Q x, Process.Rounded.exec R.rnd P (.assign 8 7) = .ok (Q, x) := by
    have h8 : P.vars 8 = none := by rw [hv]; rfl
    simp [Process.Rounded.exec, Process.Rounded.put, h8]
  have h2 : ∃ Q x, Process.Rounded.exec R.rnd P (.destroy 0) = .ok (Q, x) := by
    simp [Process.Rounded.exec, hm]
  obtain ⟨Q, x, h1⟩ := h1
  obtain ⟨Q', x', h2⟩ := h2
  exact ⟨P, _, Q, Q', x, x', h, by rw [hv]; rfl, h1, h2⟩

/-! ## Settings are shared -/

/-- **C128.** Writing to a settings structure changes the settings of exactly the models that were made with it,
including models made long before, and nothing else about any model. -/
theorem C128_write {Q : Proc} {x : Res} {r : ℕ} {z : Settings} (e : Process.Rounded.exec rd P (.write r z) = .ok (Q, x)) {m n : ℕ} {s s0 : State}
    (hr : P.models[m]? = some (some (n, s0))) (hs : P.model m = some s) :
    Q.model m = some { s with settings := if n = r then z else s.settings } := by
  simp only [Process.Rounded.exec, Outcome.ok.injEq, Prod.mk.injEq] at e
  obtain ⟨n', s1, hm, rfl⟩ := model_eq hs
  rw [hr] at hm
  simp only [Option.some.injEq, Prod.mk.injEq] at hm
  obtain ⟨rfl, rfl⟩ := hm
  rw [← e.1]
  unfold Proc.model
  simp only [hr]
  by_cases h : n = r
  · subst h
    simp
  · simp [h]

example (R : Rounding64) : ∃ Q x s, Process.Rounded.exec R.rnd (doubleStart R y) (.write 0 (y 5)) = .ok (Q, x) ∧
    (doubleStart R y).models[0]? = some (some (0, s)) ∧ (doubleStart R y).model 0 = some s := ⟨_, _, _, rfl, rfl, rfl⟩

/-- **C128.** What Step does after a write: it answers and leaves the mesh as a model with the new settings would, if the
model was made with the structure written to, and as before the write otherwise. -/
theorem C128_next_step {Q : Proc} {x : Res} {r : ℕ} {z : Settings} (e : Process.Rounded.exec rd P (.write r z) = .ok (Q, x)) {m n : ℕ} {s s0 : State}
    (hr : P.models[m]? = some (some (n, s0))) (hs : P.model m = some s) {t : ℕ} {Q' : Proc} {b : Res}
    (e' : Process.Rounded.exec rd Q (.step m t) = .ok (Q', b)) :
    ∃ s', Wobbly.Rounded.exec rd { s with settings := if n = r then z else s.settings } (.step t) = .ok (s', b) ∧ Q'.model m = some s' := by
  have hq := C128_write e hr hs
  generalize ({ s with settings := if n = r then z else s.settings } : State) = s1 at *
  obtain ⟨n1, s2, hm, rfl⟩ := model_eq hq
  simp only [Process.Rounded.exec, Process.Rounded.call, hm] at e'
  cases hx : Wobbly.Rounded.exec rd { s2 with settings := Q.settings n1, lastId := Q.counter } (.step t) with
  | ok y =>
    rw [hx] at e'
    simp only [Outcome.bind, Outcome.ok.injEq, Prod.mk.injEq] at e'
    refine ⟨y.1, by rw [← e'.2], ?_⟩
    have hset := (Process.Rounded.exec_shared hx).2 (by intro _ h; cases h)
    have hlt : m < Q.models.length := (List.getElem?_eq_some_iff.1 hm).1
    rw [← e'.1]
    unfold Proc.model
    simp only [List.getElem?_set_self hlt]
    refine congrArg some ?_
    have : Q.settings n1 = y.1.settings := hset.symm
    rw [this]
  | _ => rw [hx] at e'; exact absurd e' (by nofun)

/-- **C128.** Making a model and then writing to a settings structure is the same as writing first: whatever the program does
afterwards, it fails in the same way or returns the same results, and every model ends in the same state. -/
theorem C128_order (p : Pt) (w h : ℝ) (r r' : ℕ) (z : Settings) (sts : List Stmt) :
    ((Process.Rounded.run rd P (.make p w h r :: .write r' z :: sts)).bind fun x => .ok x.2) =
      ((Process.Rounded.run rd P (.write r' z :: .make p w h r :: sts)).bind fun x => .ok x.2) ∧
    ∀ Q Q' rs rs', Process.Rounded.run rd P (.make p w h r :: .write r' z :: sts) = .ok (Q, rs) →
      Process.Rounded.run rd P (.write r' z :: .make p w h r :: sts) = .ok (Q', rs') → ∀ m, Q.model m = Q'.model m := by
  have key : Agree (Process.Rounded.run rd P (.make p w h r :: .write r' z :: sts)) (Process.Rounded.run rd P (.write r' z :: .make p w h r :: sts)) := by
    have hA : Alike ⟨Function.update P.settings r' z, P.counter + springCount,
          P.models ++ [some (r, Wobbly.Rounded.new rd p w h (P.settings r) P.counter)], P.vars⟩
        ⟨Function.update P.settings r' z, P.counter + springCount,
          P.models ++ [some (r, Wobbly.Rounded.new rd p w h (Function.update P.settings r' z r) P.counter)], P.vars⟩ :=
      ⟨rfl, rfl, rfl, by simp [blank, Wobbly.Rounded.new]⟩
    have h1 := (Process.Rounded.alike_run (rd := rd) sts hA).bind (f := fun y => .ok (y.1, Res.none :: y.2)) (g := fun y => .ok (y.1, Res.none :: y.2))
      fun _ _ _ h => .ok h
    exact h1.bind (f := fun y => .ok (y.1, Res.none :: y.2)) (g := fun y => .ok (y.1, Res.none :: y.2)) fun _ _ _ h => .ok h
  generalize Process.Rounded.run rd P (.make p w h r :: .write r' z :: sts) = A at *
  generalize Process.Rounded.run rd P (.write r' z :: .make p w h r :: sts) = B at *
  cases key with
  | ok h =>
    refine ⟨rfl, fun Q Q' rs rs' e e' m => ?_⟩
    cases e
    cases e'
    exact h.model m
  | diverges => exact ⟨rfl, by nofun⟩
  | throws => exact ⟨rfl, by nofun⟩
  | ub => exact ⟨rfl, by nofun⟩
  | nonfinite => exact ⟨rfl, by nofun⟩

end Verif.Props
