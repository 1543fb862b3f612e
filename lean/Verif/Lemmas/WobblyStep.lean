import Verif.Lemmas.WobblyResize

/-! Single steps: grabbed points, settle-snap, independence of the two coordinates. -/

namespace Verif.Wobbly

open Spec Outcome

/-! ## Grabbed points -/

theorem springStep_locked (e : Env) (q : Phys) {i : Idx} (h : e.locks i > 0) :
    (springStep e q).1.pos i = q.pos i ∧ (springStep e q).1.vel i = 0 := by
  unfold springStep anchoredIntegration
  simp only [h, if_true]
  exact ⟨trivial, by ext <;> simp [Pt.assignValue]⟩

theorem settleIter_locked (e : Env) (q : Phys) {i : Idx} (h : e.locks i > 0) (n : ℕ) :
    (settleIter e q n).pos i = q.pos i ∧ (n ≠ 0 → (settleIter e q n).vel i = 0) := by
  induction n with
  | zero => exact ⟨rfl, fun h => absurd rfl h⟩
  | succ n ih =>
    rw [settleIter_succ]
    have := springStep_locked e (settleIter e q n) h
    exact ⟨this.1.trans ih.1, fun _ => this.2⟩

/-- One tick, tracking or not. -/
theorem round_locked {s : State} {q q' : Phys} {m : Prop} (e : s.round q = .ok (q', m)) {i : Idx} (h : s.locks i > 0) :
    q'.vel i = 0 ∧ ((s.active → Pt.distance (s.targets i) (q.pos i) < s.settings.maximumRange) → q'.pos i = q.pos i) := by
  unfold State.round at e
  split_ifs at e with ha
  · rw [bind_eq_ok] at e
    obtain ⟨⟨c, mv⟩, hc, e⟩ := e
    simp only [Outcome.ok.injEq, Prod.mk.injEq] at e
    obtain ⟨rfl, -⟩ := e
    have := springStep_locked s.env ⟨c, q.vel⟩ h
    refine ⟨this.2, fun hr => ?_⟩
    rw [this.1]
    unfold constrain at hc
    split_ifs at hc
    simp only [Outcome.ok.injEq, Prod.mk.injEq] at hc
    rw [← hc.1]
    simp only
    rw [if_pos (hr ha)]
  · simp only [Outcome.ok.injEq, Prod.mk.injEq] at e
    obtain ⟨rfl, -⟩ := e
    have := springStep_locked s.env q h
    exact ⟨this.2, fun _ => this.1⟩

theorem integrate_locked {s : State} {n : ℕ} {q q' : Phys} {m : Prop} (e : s.integrate n q = .ok (q', m)) {i : Idx}
    (h : s.locks i > 0) :
    (n ≠ 0 → q'.vel i = 0) ∧
    ((s.active → Pt.distance (s.targets i) (q.pos i) < s.settings.maximumRange) → q'.pos i = q.pos i) := by
  induction n generalizing q m with
  | zero =>
    simp only [State.integrate, Outcome.ok.injEq, Prod.mk.injEq] at e
    rw [← e.1]
    exact ⟨fun h => absurd rfl h, fun _ => rfl⟩
  | succ n ih =>
    simp only [State.integrate] at e
    rw [bind_eq_ok] at e
    obtain ⟨⟨q1, m1⟩, h1, e⟩ := e
    rw [bind_eq_ok] at e
    obtain ⟨⟨q2, m2⟩, h2, e⟩ := e
    simp only [Outcome.ok.injEq, Prod.mk.injEq] at e
    obtain ⟨rfl, -⟩ := e
    have r1 := round_locked h1 h
    have r2 := ih h2
    constructor
    · intro _
      cases n with
      | zero =>
        simp only [State.integrate, Outcome.ok.injEq, Prod.mk.injEq] at h2
        rw [← h2.1]
        exact r1.1
      | succ n => exact r2.1 (by omega)
    · intro hr
      have e1 := r1.2 hr
      have e2 := r2.2 (by simp only; rw [e1]; exact hr)
      exact e2.trans e1

/-! ## The settle-snap -/

/-- A tick of a tracking model at rest within range. -/
theorem step_snap {s : State} (ha : s.active) (hd : ¬ dangling s.springs s.live)
    (hs : ∀ y ∈ s.springs, InDeadZone (s.env.at_ s.pos) y) (hv : ∀ i, s.vel i = 0)
    (hr : ∀ i, Pt.distance (s.targets i) (s.pos i) < s.settings.maximumRange) {t : ℕ} (ht : t ≠ 0) :
    s.step t = .ok ({ s with pos := s.targets, unequal := False }, .more False) := by
  have hround : s.round ⟨s.pos, s.vel⟩ = .ok (⟨s.pos, s.vel⟩, False) := by
    have h1 := springStep_rest (e := s.env) (q := ⟨s.pos, s.vel⟩) hs hv
    unfold State.round
    rw [if_pos ha]
    have hc : constrain s.settings.maximumRange s.targets s.pos = .ok (s.pos, False) := by
      unfold constrain
      simp only [hr, not_true_eq_false, false_and, exists_false, if_false, if_true]
    simp only [hc, bind_ok, h1, or_self]
  have hint : ∀ n, s.integrate n ⟨s.pos, s.vel⟩ = .ok (⟨s.pos, s.vel⟩, False) := by
    intro n
    induction n with
    | zero => rfl
    | succ n ih => simp only [State.integrate, hround, bind_ok, ih, or_self]
  unfold State.step
  rw [if_neg (fun h => hd h.2), hint, bind_ok]
  simp [ht, ha]

/-- A tick of a tracking model on its targets, with some spring out of its dead zone. -/
theorem step_unsettled {s : State} (ha : s.active) (hd : ¬ dangling s.springs s.live) (hp : s.pos = s.targets)
    (hr : 0 < s.settings.maximumRange) {y : Spring} (hy : y ∈ s.springs) (hn : ¬ InDeadZone (s.env.at_ s.pos) y) :
    ∃ s', s.step 16 = .ok (s', .more True) := by
  have hmore : (springStep s.env ⟨s.pos, s.vel⟩).2 := by
    by_contra hc
    exact hn ((springStep_still hc).2 y hy)
  have hround : s.round ⟨s.pos, s.vel⟩ = .ok ((springStep s.env ⟨s.pos, s.vel⟩).1, True) := by
    unfold State.round
    rw [if_pos ha]
    have hc : constrain s.settings.maximumRange s.targets s.pos = .ok (s.pos, False) := by
      unfold constrain
      rw [hp]
      simp only [Pt.distance_self, hr, not_true_eq_false, false_and, exists_false, if_false, if_true]
    simp only [hc, bind_ok, hmore, or_true]
  have h16 : stepCount 16 = 1 := by rw [stepCount_eq]
  unfold State.step
  rw [if_neg (fun h => hd h.2), h16]
  simp only [State.integrate, hround, bind_ok, true_or, or_true]
  exact ⟨_, rfl⟩

/-! ## Zero time -/

theorem step_zero (s : State) :
    s.step 0 = .ok ({ s with pos := (open Classical in if ¬ s.unequal ∧ s.active then s.targets else s.pos) },
      .more s.unequal) := by
  unfold State.step
  rw [stepCount_zero, if_neg (by simp)]
  simp only [State.integrate, bind_ok]
  by_cases hu : s.unequal <;> by_cases ha : s.active <;> simp [hu, ha]

/-! ## Undefined behaviour of steps -/

theorem steps_dangling {s : State} (hd : dangling s.springs s.live) {ts : List ℕ} (ht : ticks ts ≠ 0) :
    s.run (ts.map .step) = .ub := by
  induction ts generalizing s with
  | nil => simp [ticks] at ht
  | cons t ts ih =>
    have hs : ticks (t :: ts) = stepCount t + ticks ts := by simp [ticks]
    simp only [List.map_cons, State.run, State.exec]
    by_cases h0 : t = 0
    · subst h0
      rw [step_zero, bind_ok]
      simp only
      rw [ih (by exact hd) (by rw [stepCount_zero] at hs; omega)]
      rfl
    · unfold State.step
      rw [if_pos ⟨stepCount_pos h0, hd⟩]
      rfl

/-! ## Independence of the coordinates -/

/-- What is needed of a coordinate. -/
structure IsCoord (c : Pt → ℝ) : Prop where
  add : ∀ p q, c (p + q) = c p + c q
  sub : ∀ p q, c (p - q) = c p - c q
  zero : c 0 = 0
  pull : ∀ k at_ y, c (pullPt k at_ y) = Spec.pull k (c (at_ y.b) - c (at_ y.a) - c y.desired)
  euler : ∀ f p v F, c (eulerIntegrate 1 f mass p v F).1 = c p + eulerVelocity 1 f mass (c v) (c F) * (1 / 2) ∧
    c (eulerIntegrate 1 f mass p v F).2.1 = eulerVelocity 1 f mass (c v) (c F)

theorem isCoord_x : IsCoord Pt.x where
  add _ _ := rfl
  sub _ _ := by simp
  zero := rfl
  pull _ _ _ := rfl
  euler f p v F := by
    constructor
    · simp [eulerIntegrate, Pt.scale]
    · rfl

theorem isCoord_y : IsCoord Pt.y where
  add _ _ := rfl
  sub _ _ := by simp
  zero := rfl
  pull _ _ _ := rfl
  euler f p v F := by
    constructor
    · simp [eulerIntegrate, Pt.scale]
    · rfl

/-- Environments that agree in a coordinate. -/
structure EnvAgree (c : Pt → ℝ) (e1 e2 : Env) : Prop where
  k : e2.k = e1.k
  friction : e2.friction = e1.friction
  locks : e2.locks = e1.locks
  springs : List.Forall₂ (fun y y' : Spring => y'.a = y.a ∧ y'.b = y.b ∧ c y'.desired = c y.desired) e1.springs e2.springs
  apos : ∀ h, c (e2.apos h) = c (e1.apos h)

theorem forces_agree {c : Pt → ℝ} (hc : IsCoord c) {e1 e2 : Env} (h : EnvAgree c e1 e2) {p1 p2 : Mesh}
    (hp : ∀ i, c (p2 i) = c (p1 i)) (n : Node) :
    c ((calculateForces e2.k (e2.at_ p2) e2.springs).1 n) = c ((calculateForces e1.k (e1.at_ p1) e1.springs).1 n) := by
  have hat : ∀ m, c (e2.at_ p2 m) = c (e1.at_ p1 m) := by
    intro m
    cases m with
    | mesh i => exact hp i
    | anchor j => exact h.apos j
  rw [calculateForces_force, calculateForces_force, h.k]
  have hs := h.springs
  generalize e1.springs = l1 at hs ⊢
  generalize e2.springs = l2 at hs ⊢
  induction hs with
  | nil => rfl
  | @cons y y' l l' hy _ ih =>
    simp only [List.map_cons, List.sum_cons, hc.add, ih]
    congr 1
    unfold contribution
    rw [hy.1, hy.2.1, hc.sub, hc.sub]
    have : c (pullPt e1.k (e2.at_ p2) y') = c (pullPt e1.k (e1.at_ p1) y) := by
      rw [hc.pull, hc.pull, hy.1, hy.2.1, hat, hat, hy.2.2]
    split_ifs <;> simp [this]

theorem springStep_agree {c : Pt → ℝ} (hc : IsCoord c) {e1 e2 : Env} (h : EnvAgree c e1 e2) {q1 q2 : Phys}
    (hp : ∀ i, c (q2.pos i) = c (q1.pos i)) (hv : ∀ i, c (q2.vel i) = c (q1.vel i)) (i : Idx) :
    c ((springStep e2 q2).1.pos i) = c ((springStep e1 q1).1.pos i) ∧
    c ((springStep e2 q2).1.vel i) = c ((springStep e1 q1).1.vel i) := by
  by_cases hl : e1.locks i > 0
  · have hl2 : e2.locks i > 0 := by rw [h.locks]; exact hl
    have a := springStep_locked e1 q1 hl
    have b := springStep_locked e2 q2 hl2
    rw [a.1, a.2, b.1, b.2]
    exact ⟨hp i, rfl⟩
  · have hl2 : ¬ e2.locks i > 0 := by rw [h.locks]; exact hl
    unfold springStep anchoredIntegration
    simp only [hl, hl2, if_false]
    rw [(hc.euler _ _ _ _).1, (hc.euler _ _ _ _).1, (hc.euler _ _ _ _).2, (hc.euler _ _ _ _).2,
      forces_agree hc h hp, hp, hv, h.friction]
    exact ⟨rfl, rfl⟩

theorem settleIter_agree {c : Pt → ℝ} (hc : IsCoord c) {e1 e2 : Env} (h : EnvAgree c e1 e2) {q1 q2 : Phys}
    (hp : ∀ i, c (q2.pos i) = c (q1.pos i)) (hv : ∀ i, c (q2.vel i) = c (q1.vel i)) (n : ℕ) :
    ∀ i, c ((settleIter e2 q2 n).pos i) = c ((settleIter e1 q1 n).pos i) ∧
    c ((settleIter e2 q2 n).vel i) = c ((settleIter e1 q1 n).vel i) := by
  induction n with
  | zero => exact fun i => ⟨hp i, hv i⟩
  | succ n ih =>
    intro i
    rw [settleIter_succ, settleIter_succ]
    exact springStep_agree hc h (fun i => (ih i).1) (fun i => (ih i).2) i

theorem envAgree_of {c : Pt → ℝ} {s s' : State} (h : AgreeIn c s s') : EnvAgree c s.env s'.env where
  k := h.springConstant
  friction := h.friction
  locks := h.locks
  springs := h.springs
  apos := by
    intro j
    have := h.anchors j
    simp only [State.env, apos]
    cases h1 : anchorData s.live j with
    | none =>
      rw [h1] at this
      simp only [Option.map_none, Option.map_eq_none_iff] at this
      rw [this]
    | some a =>
      rw [h1] at this
      simp only [Option.map_some, Option.map_eq_some_iff] at this
      obtain ⟨a', h2, h3⟩ := this
      rw [h2]
      exact h3

/-- Dangling is about the springs' ends only. -/
theorem dangling_agree {c : Pt → ℝ} {s s' : State} (h : AgreeIn c s s') :
    dangling s'.springs s'.live ↔ dangling s.springs s.live := by
  have halive : ∀ n : Node, n.alive s'.live ↔ n.alive s.live := by
    intro n
    cases n with
    | mesh i => exact Iff.rfl
    | anchor j =>
      have := congrArg Option.isSome (h.anchors j)
      simp only [Option.isSome_map] at this
      simp only [Node.alive, this]
  unfold dangling
  have hs := h.springs
  simp only [halive]
  generalize s.springs = l1 at hs
  generalize s'.springs = l2 at hs
  induction hs with
  | nil => simp
  | cons hy _ ih => simp only [List.mem_cons, exists_eq_or_imp, hy.1, hy.2.1, ih]

/-! ## Springs at their desired length on the target mesh -/

/-- Every spring has its desired length when the mesh is on its targets. -/
def OnTargets (s : State) : Prop := ∀ y ∈ s.springs, deviation (s.env.at_ s.targets) y = 0

/-- After a step that reports no movement, tracking. -/
theorem quiet_of_still_active {s s' : State} {t : ℕ} {m : Prop} (hc : OnTargets s) (ha : s.active) (ht : t ≠ 0)
    (e : s.step t = .ok (s', .more m)) (hm : ¬ m) : Quiet s' ∧ ¬ s'.unequal := by
  obtain ⟨rfl, hd, hs, hr⟩ := still_active ha ht e hm
  refine ⟨⟨?_, fun _ => rfl, hd, fun _ => ⟨rfl, ?_⟩⟩, fun h => h⟩
  · intro y hy
    exact dead_of_zero (hc y hy)
  · have := hr 0
    have h0 : 0 ≤ Pt.distance (s.targets 0) (s.pos 0) := Pt.distance_nonneg _ _
    simp only
    linarith

/-- With only grabs live the springs fit the targets. -/
theorem onTargets_of_none {b : ℕ} {s : State} (hI : Inv b s) (hB : BaseLen b s) (hn : NoneInserted s) : OnTargets s := by
  intro y hy
  have hp := (springs_perm hI hB hn).mem_iff.1 hy
  rw [hI.targets]
  exact base_deviation hp

/-! ## A lone inserted anchor -/

/-- One anchor, an inserted one; every spring fits the targets. -/
structure Lone (s : State) : Prop where
  live : ∃ h p st f g, s.live = [⟨h, .ins p st f g⟩]
  count : s.count = 1
  fits : OnTargets s
  fine : ¬ dangling s.springs s.live

/-- Replacing all positions that springs see by a map that scales differences. -/
theorem onTargets_map {s s' : State} {g : Pt → Pt} {f : Pt} (h : OnTargets s) (hd : ¬ dangling s.springs s.live)
    (hs : s'.springs = s.springs.map fun y => y.scaleLength f)
    (ht : ∀ i, s'.targets i = g (s.targets i)) (ha : ∀ j, anchorData s'.live j = (anchorData s.live j).map g)
    (hg : ∀ p q : Pt, (g p).x - (g q).x = (p.x - q.x) * f.x ∧ (g p).y - (g q).y = (p.y - q.y) * f.y) :
    OnTargets s' ∧ ¬ dangling s'.springs s'.live := by
  have hat : ∀ n : Node, n.alive s.live → s'.env.at_ s'.targets n = g (s.env.at_ s.targets n) := by
    intro n hn
    cases n with
    | mesh i => exact ht i
    | anchor j =>
      simp only [Node.alive] at hn
      simp only [Env.at_, State.env, apos, ha]
      cases hx : anchorData s.live j with
      | none => rw [hx] at hn; simp at hn
      | some p => rfl
  have halive : ∀ n : Node, n.alive s.live → n.alive s'.live := by
    intro n hn
    cases n with
    | mesh i => trivial
    | anchor j =>
      simp only [Node.alive] at hn ⊢
      rw [ha, Option.isSome_map]
      exact hn
  have hal : ∀ y ∈ s.springs, y.a.alive s.live ∧ y.b.alive s.live := by
    intro y hy
    by_contra hc
    exact hd ⟨y, hy, hc⟩
  constructor
  · intro y hy
    rw [hs, List.mem_map] at hy
    obtain ⟨z, hz, rfl⟩ := hy
    have h0 := h z hz
    have := hat _ (hal z hz).1
    have := hat _ (hal z hz).2
    simp only [deviation, Pt.ext_iff, Pt.zero_x, Pt.zero_y] at h0
    simp only [deviation, Spring.scaleLength, hat _ (hal z hz).1, hat _ (hal z hz).2, Pt.ext_iff, Pt.zero_x, Pt.zero_y,
      Pt.pscale, (hg _ _).1, (hg _ _).2]
    constructor
    · rw [← sub_mul, h0.1, zero_mul]
    · rw [← sub_mul, h0.2, zero_mul]
  · rintro ⟨y, hy, hc⟩
    rw [hs, List.mem_map] at hy
    obtain ⟨z, hz, rfl⟩ := hy
    exact hc ⟨halive _ (hal z hz).1, halive _ (hal z hz).2⟩

theorem map_scale_one (l : List Spring) : l = l.map fun y => y.scaleLength ⟨1, 1⟩ := by
  simp only [scale_one, List.map_id']

theorem lone_exec {s s' : State} {op : Op} {r : Res} (h : Lone s) (hk : KeepsAnchors op) (e : s.exec op = .ok (s', r)) :
    Lone s' := by
  obtain ⟨⟨k0, p0, st0, f0, g0, hl⟩, hc, hf, hd⟩ := h
  cases op with
  | grab q => exact absurd hk (by simp [KeepsAnchors])
  | insert q => exact absurd hk (by simp [KeepsAnchors])
  | release q => exact absurd hk (by simp [KeepsAnchors])
  | step t =>
    obtain ⟨P, V, m, rfl, -⟩ := step_ok e
    exact ⟨⟨k0, p0, st0, f0, g0, hl⟩, hc, hf, hd⟩
  | setSettings y =>
    simp only [State.exec, Outcome.ok.injEq, Prod.mk.injEq] at e
    rw [← e.1]
    exact ⟨⟨k0, p0, st0, f0, g0, hl⟩, hc, hf, hd⟩
  | elsewhere y =>
    simp only [State.exec, Outcome.ok.injEq, Prod.mk.injEq] at e
    rw [← e.1]
    exact ⟨⟨k0, p0, st0, f0, g0, hl⟩, hc, hf, hd⟩
  | moveBy d =>
    simp only [State.exec, Outcome.ok.injEq, Prod.mk.injEq] at e
    rw [← e.1]
    have := onTargets_map (s' := s.moveBy d) (g := (· + d)) hf hd (map_scale_one _) (fun _ => rfl)
      (anchorData_shift s.live d) (fun p q => by simp)
    refine ⟨⟨k0, p0 + d, st0, f0, g0, ?_⟩, hc, this.1, this.2⟩
    simp [State.moveBy, hl, Kind.shift]
  | moveTo q =>
    obtain ⟨n, d, -, rfl, -⟩ := moveTo_ok e
    have := onTargets_map (s' := s.moveBy d) (g := (· + d)) hf hd (map_scale_one _) (fun _ => rfl)
      (anchorData_shift s.live d) (fun p q => by simp)
    refine ⟨⟨k0, p0 + d, st0, f0, g0, ?_⟩, hc, this.1, this.2⟩
    simp [State.moveBy, hl, Kind.shift]
  | moveAnchor k d =>
    obtain ⟨-, ⟨-, rfl⟩ | ⟨a, ha, ⟨j, hj, rfl⟩ | ⟨hins, rfl⟩⟩⟩ := moveAnchor_ok e
    · exact ⟨⟨k0, p0, st0, f0, g0, hl⟩, hc, hf, hd⟩
    · have hm := List.mem_of_find?_eq_some ha
      rw [hl, List.mem_singleton] at hm
      rw [hm] at hj
      simp at hj
    · have hm := List.mem_of_find?_eq_some ha
      have hk' := List.find?_some ha
      rw [hl, List.mem_singleton] at hm
      simp only [decide_eq_true_eq] at hk'
      rw [hm] at hk'
      simp only at hk'
      subst hk'
      have hact : s.active := hc
      have ht : movedTargets s d = fun i => s.targets i + d := by
        unfold movedTargets
        rw [if_pos hact]
      have hdata : ∀ j, anchorData (s.live.map fun b => if b.hid = k0 then ⟨b.hid, b.kind.shift d⟩ else b) j =
          (anchorData s.live j).map (· + d) := by
        intro j
        rw [anchorData_move]
        by_cases hjk : j = k0
        · rw [if_pos hjk]
        · rw [if_neg hjk]
          have : anchorData s.live j = none := by
            rw [hl, anchorData_cons]
            simp only
            rw [if_neg (fun h => hjk h.symm)]
            rfl
          rw [this]
          rfl
      generalize hz : State.mk _ _ _ _ _ _ _ _ _ _ _ _ _ _ _ = z
      have := onTargets_map (s' := z) (g := (· + d)) hf hd (by rw [← hz]; exact map_scale_one _)
        (fun i => by rw [← hz]; simp only [ht]) (by rw [← hz]; exact hdata) (fun p q => by simp)
      refine ⟨⟨k0, p0 + d, st0, f0, g0, ?_⟩, ?_, this.1, this.2⟩
      · rw [← hz]
        simp [hl, Kind.shift]
      · rw [← hz]
        exact hc
  | resize w h =>
    obtain ⟨h1, h2, hw, hh, -, ⟨-, -, rfl⟩ | ⟨n, q, -, -, htp, rfl⟩⟩ := resize_ok e
    · exact ⟨⟨k0, p0, st0, f0, g0, hl⟩, hc, hf, hd⟩
    · have hq : q = s.targets 0 := by
        unfold State.targetPosition at htp
        rw [if_pos (show s.active from hc)] at htp
        simp only [Outcome.ok.injEq, Prod.mk.injEq] at htp
        exact htp.2.symm
      subst hq
      have := onTargets_map (s' := resized ({ s with lastId := n } : State) w h (s.targets 0))
        (g := rescale ⟨w / s.width, h / s.height⟩ (s.targets 0)) (f := ⟨w / s.width, h / s.height⟩) hf hd rfl
        (fun _ => rfl)
        (anchorData_map_kind s.live (fun _ x => x.scale _ _) (fun _ p => rescale _ _ p)
          (fun _ x => by cases x <;> rfl))
        (fun p q => by simp [rescale, Pt.pscale]; constructor <;> ring)
      refine ⟨⟨k0, rescale ⟨w / s.width, h / s.height⟩ (s.targets 0) p0, st0, f0, g0, ?_⟩, hc, this.1, this.2⟩
      simp only [resized, hl, List.map_cons, List.map_nil, Kind.scale]

theorem lone_run {s s' : State} {ops : List Op} {rs : List Res} (h : Lone s) (hk : ∀ op ∈ ops, KeepsAnchors op)
    (e : s.run ops = .ok (s', rs)) : Lone s' := by
  induction ops generalizing s rs with
  | nil =>
    simp only [State.run, Outcome.ok.injEq, Prod.mk.injEq] at e
    rw [← e.1]
    exact h
  | cons op ops ih =>
    simp only [State.run] at e
    rw [bind_eq_ok] at e
    obtain ⟨⟨s1, r1⟩, h1, e⟩ := e
    rw [bind_eq_ok] at e
    obtain ⟨⟨s2, r2⟩, h2, e⟩ := e
    simp only [Outcome.ok.injEq, Prod.mk.injEq] at e
    rw [e.1] at h2
    exact ih (lone_exec h (hk op (by simp)) h1) (fun o ho => hk o (List.mem_cons_of_mem _ ho)) h2

/-- Inserting the first anchor while no two mesh points coincide. -/
theorem lone_insert {b : ℕ} {s s' : State} (hI : Inv b s) (hB : BaseLen b s) (hl : s.live = [])
    (hinj : Function.Injective s.pos) {q : Pt} {r : Res} (e : s.exec (.insert q) = .ok (s', r)) : Lone s' := by
  obtain ⟨t, n, found, d1, d2, hn, -, hd, hf, hp1, hp2, rfl, -⟩ := insert_ok e
  have hI' := inv_exec s _ _ _ hI e
  have hc : s.count = 0 := by rw [hI.count, hl]; rfl
  have hact : (preInsert s t n).active := by
    show s.count + 1 = 1
    omega
  have hfm : found ∈ s.springs := splitStep_mem _ _ _ _ hf
  have hperm := springs_perm hI hB (noneInserted_nil hl)
  have hfb := hperm.mem_iff.1 hfm
  obtain ⟨⟨i, hi⟩, j, hj⟩ := base_ends_mesh hfb
  have hlook : ∀ k, lookupTarget s.pos t (s.pos k) = .ok (t k) := by
    intro k
    obtain ⟨k', hk', h⟩ := lookup_mesh s.pos t k
    rw [h, hinj hk']
  have e1 : d1 = t i := by
    unfold State.preferred at hp1
    rw [if_pos hact, hi] at hp1
    have := hlook i
    have h3 : lookupTarget s.pos t (s.pos i) = .ok d1 := hp1
    rw [h3] at this
    simpa using this
  have e2 : d2 = t j := by
    unfold State.preferred at hp2
    rw [if_pos hact, hj] at hp2
    have := hlook j
    have h3 : lookupTarget s.pos t (s.pos j) = .ok d2 := hp2
    rw [h3] at this
    simpa using this
  have htl : t = positionArray (t 0) s.tile := hI'.targets
  have hlive : ((preInsert s t n).install q found d1 d2).live = [⟨s.nextHid, .ins q found (n + 1) (n + 2)⟩] := by
    simp only [State.install, preInsert, hl, List.nil_append]
  have hdata : anchorData ((preInsert s t n).install q found d1 d2).live s.nextHid = some q := by
    rw [hlive, anchorData_cons]
    simp
  refine ⟨⟨_, _, _, _, _, hlive⟩, ?_, ?_, ?_⟩
  · show s.count + 1 = 1
    omega
  · intro y hy
    simp only [State.install, List.mem_append, List.mem_cons, List.not_mem_nil, or_false] at hy
    rcases hy with hy | rfl | rfl
    · have : y ∈ s.springs := List.mem_of_mem_filter hy
      have ht : ((preInsert s t n).install q found d1 d2).targets = positionArray (t 0) s.tile := htl
      rw [ht]
      exact base_deviation (hperm.mem_iff.1 this)
    · simp only [deviation, Env.at_, hi, State.env, apos]
      have h1 : anchorData ((preInsert s t n).install q found d1 d2).live (preInsert s t n).nextHid = some q := hdata
      have h2 : ((preInsert s t n).install q found d1 d2).targets = t := rfl
      rw [h1, h2, e1]
      ext <;> simp
    · simp only [deviation, Env.at_, hj, State.env, apos]
      have h1 : anchorData ((preInsert s t n).install q found d1 d2).live (preInsert s t n).nextHid = some q := hdata
      have h2 : ((preInsert s t n).install q found d1 d2).targets = t := rfl
      rw [h1, h2, e2]
      ext <;> simp
  · rintro ⟨y, hy, hbad⟩
    simp only [State.install, List.mem_append, List.mem_cons, List.not_mem_nil, or_false] at hy
    have h1 : anchorData ((preInsert s t n).install q found d1 d2).live (preInsert s t n).nextHid = some q := hdata
    rcases hy with hy | rfl | rfl
    · have : y ∈ s.springs := List.mem_of_mem_filter hy
      obtain ⟨⟨i', hi'⟩, j', hj'⟩ := base_ends_mesh (hperm.mem_iff.1 this)
      rw [hi', hj'] at hbad
      exact hbad ⟨trivial, trivial⟩
    · rw [hi] at hbad
      refine hbad ⟨?_, trivial⟩
      show (anchorData _ _).isSome
      rw [h1]
      rfl
    · rw [hj] at hbad
      refine hbad ⟨?_, trivial⟩
      show (anchorData _ _).isSome
      rw [h1]
      rfl

/-! ## Small displacements -/

/-- A mesh displaced from the lattice by less than a pixel along every edge. -/
theorem dead_of_disp {e : Env} {p tile : Pt} {b : ℕ} {m : Mesh} (disp : Idx → Pt)
    (hm : ∀ i, m i = positionArray p tile i + disp i)
    (hd : ∀ y ∈ baseEdges, |(disp y.2.1).x - (disp y.1).x| < 1 ∧ |(disp y.2.1).y - (disp y.1).y| < 1) :
    ∀ y ∈ baseSprings tile b, InDeadZone (e.at_ m) y := by
  intro y hy
  have h0 := base_deviation (e := e) (p := p) hy
  simp only [baseSprings, List.mem_map] at hy
  obtain ⟨⟨z, k⟩, hz, rfl⟩ := hy
  have hz' : z ∈ baseEdges := by
    have := List.mem_zipIdx hz
    simp only [this.2.2]
    exact List.getElem_mem _
  have h1 := hd z hz'
  simp only [deviation, Env.at_, Pt.ext_iff, Pt.zero_x, Pt.zero_y] at h0
  simp only [InDeadZone, deviation, Env.at_, hm, Pt.add_x, Pt.add_y]
  constructor
  · convert h1.1 using 2
    linarith [h0.1]
  · convert h1.2 using 2
    linarith [h0.2]

/-- The nearest point to a mesh point that coincides with no other one is that point. -/
theorem closest_at {m : Mesh} (hinj : Function.Injective m) (hm : ∀ i, Representable (m i)) (i : Idx) :
    closestIndex m (m i) = some i := by
  obtain ⟨j, hj, h1, -⟩ := closest_of_representable hm (hm i)
  have := h1 i
  rw [← Pt.distance_eq, ← Pt.distance_eq, Pt.distance_self] at this
  have h0 := Pt.distance_eq_zero.1 (le_antisymm this (Pt.distance_nonneg _ _))
  rw [hj, hinj h0]

/-! ## Single calls on known states -/

theorem moveAnchor_grab_inactive {s : State} {k : ℕ} {i : Idx} {d : Pt} (ha : s.count ≠ 1)
    (hf : s.live.find? (fun a => decide (a.hid = k)) = some ⟨k, .grab i⟩) :
    s.exec (.moveAnchor k d) = .ok ({ s with pos := Function.update s.pos i (s.pos i + d) }, .none) := by
  simp only [State.exec, State.moveAnchor]
  rw [hf]
  simp only
  have ha' : ¬ s.active := ha
  rw [if_neg ha']

theorem insert_inactive {s : State} {p : Pt} {found : Spring} (ha : 0 < s.count) (hd : ¬ dangling s.springs s.live)
    (hf : findSpringToSplit (s.env.at_ s.pos) p s.springs = some found) :
    s.exec (.insert p) = .ok ((preInsert s s.targets s.lastId).install p found (s.env.at_ s.pos found.a)
      (s.env.at_ s.pos found.b), .handle s.nextHid) := by
  have hact : ({ s with unequal := True } : State).activate = .ok (preInsert s s.targets s.lastId) := by
    unfold State.activate
    simp only
    rw [if_neg (by omega)]
    rfl
  simp only [State.exec, State.insert]
  rw [hact, bind_ok]
  have hpref : ∀ q, (preInsert s s.targets s.lastId).preferred q = .ok q := by
    intro q
    unfold State.preferred
    have : ¬ (preInsert s s.targets s.lastId).active := by
      show s.count + 1 ≠ 1
      omega
    rw [if_neg this]
  unfold State.insertSprings
  rw [if_neg (by exact hd)]
  have hfind' : findSpringToSplit ((preInsert s s.targets s.lastId).env.at_ (preInsert s s.targets s.lastId).pos) p
      (preInsert s s.targets s.lastId).springs = some found := hf
  rw [hfind']
  simp only [hpref, bind_ok]
  rfl

theorem release_grab_many {s : State} {k : ℕ} {i : Idx}
    (hf : s.live.find? (fun a => decide (a.hid = k)) = some ⟨k, .grab i⟩) (hl : s.locks i ≠ 0) (hc : 3 ≤ s.count) :
    s.exec (.release k) = .ok ({ unlocked ({ s with live := s.live.filter fun a => a.hid ≠ k } : State) i with
      count := s.count - 1 }, .none) := by
  simp only [State.exec, State.release]
  rw [hf]
  simp only [State.releaseKind, State.unlock]
  rw [if_neg hl]
  simp only [bind_ok, State.deactivate]
  rw [if_neg (by omega), if_neg (by omega)]
  rfl

theorem release_grab_two {s : State} {k : ℕ} {i : Idx}
    (hf : s.live.find? (fun a => decide (a.hid = k)) = some ⟨k, .grab i⟩) (hl : s.locks i ≠ 0) (hc : s.count = 2)
    (hd : ∀ y ∈ baseSprings s.tile s.lastId, InDeadZone ((unlocked s i).settleEnv.at_ s.pos) y)
    (hv : ∀ i, s.vel i = 0) :
    s.exec (.release k) = .ok ({ unlocked ({ s with live := s.live.filter fun a => a.hid ≠ k } : State) i with
      count := 1
      targets := positionArray (s.pos 0) s.tile
      lastId := s.lastId + springCount }, .none) := by
  have hrel : ({ s with live := s.live.filter fun a => a.hid ≠ k } : State).releaseKind (.grab i) =
      .ok (unlocked ({ s with live := s.live.filter fun a => a.hid ≠ k } : State) i) := by
    simp only [State.releaseKind, State.unlock]
    rw [if_neg hl]
    rfl
  simp only [State.exec, State.release]
  rw [hf]
  simp only
  rw [hrel, bind_ok]
  set s1 := unlocked ({ s with live := s.live.filter fun a => a.hid ≠ k } : State) i with hs1
  have hset : State.targetByFullIntegration { s1 with count := s1.count - 1 } = .ok (s.pos 0) := by
    unfold State.targetByFullIntegration
    exact settle_rest (q := ⟨s.pos, s.vel⟩) hd hv
  have hc1 : s1.count = 2 := hc
  unfold State.deactivate
  rw [if_neg (by omega)]
  simp only
  rw [if_pos (by omega)]
  unfold State.recalc
  rw [hset, bind_ok, bind_ok, hc1]
  rfl

/-! ## Ticks and answers -/

/-- As `steps_inactive`, with what the steps answer. -/
theorem steps_answers {s : State} (ha : ¬ s.active) {ts : List ℕ} (hd : ticks ts ≠ 0 → ¬ dangling s.springs s.live)
    (h0 : ∀ t ∈ ts, t ≠ 0) :
    ∃ u rs, s.run (ts.map .step) = .ok (s.withPhys (settleIter s.env ⟨s.pos, s.vel⟩ (ticks ts)) u, rs) ∧
      ((∃ m, Res.more m ∈ rs ∧ m) ↔ ∃ k < ticks ts, settleMore s.env ⟨s.pos, s.vel⟩ k) := by
  induction ts generalizing s with
  | nil => exact ⟨s.unequal, [], rfl, by simp [ticks]⟩
  | cons t ts ih =>
    have ht : ticks (t :: ts) = stepCount t + ticks ts := by simp [ticks]
    have ht0 : t ≠ 0 := h0 t (by simp)
    rw [ht] at hd ⊢
    simp only [List.map_cons, State.run, State.exec]
    rw [step_inactive ha (fun h => hd (by omega)), bind_ok]
    obtain ⟨u, rs, h, hm⟩ := @ih (s.withPhys (settleIter s.env ⟨s.pos, s.vel⟩ (stepCount t))
      ((if t ≠ 0 then False else s.unequal) ∨ ∃ m < stepCount t, settleMore s.env ⟨s.pos, s.vel⟩ m)) ha
      (fun h => hd (by omega)) (fun t' ht' => h0 t' (List.mem_cons_of_mem _ ht'))
    simp only [h, bind_ok]
    rw [settleIter_add]
    refine ⟨u, _, rfl, ?_⟩
    have hm' : (∃ m, Res.more m ∈ rs ∧ m) ↔
        ∃ k < ticks ts, settleMore s.env (settleIter s.env ⟨s.pos, s.vel⟩ (stepCount t)) k := hm
    constructor
    · rintro ⟨m, hmem, hmt⟩
      rcases List.mem_cons.1 hmem with h1 | h1
      · simp only [Res.more.injEq] at h1
        rw [h1] at hmt
        simp only [ne_eq, ht0, not_false_eq_true, if_true, false_or] at hmt
        obtain ⟨k, hk, hkk⟩ := hmt
        exact ⟨k, by omega, hkk⟩
      · obtain ⟨k, hk, hkk⟩ := hm'.1 ⟨m, h1, hmt⟩
        exact ⟨stepCount t + k, by omega, (settleMore_add _ _ _ _).2 hkk⟩
    · rintro ⟨k, hk, hkk⟩
      by_cases hlt : k < stepCount t
      · exact ⟨_, List.mem_cons_self, Or.inr ⟨k, hlt, hkk⟩⟩
      · obtain ⟨j, rfl⟩ := Nat.exists_eq_add_of_le (not_lt.1 hlt)
        obtain ⟨m, h1, h2⟩ := hm'.2 ⟨j, by omega, (settleMore_add _ _ _ _).1 hkk⟩
        exact ⟨m, List.mem_cons_of_mem _ h1, h2⟩

end Verif.Wobbly
