import Verif.Lemmas.WobblyRoomyRest
import Verif.Spec.Visit

/-! # A held model that has come to rest -/

namespace Verif.Wobbly.Rounded

noncomputable section

open Classical Outcome Spec

variable {R : Rounding64} {x : Settings} {i : Idx} {h : ℕ} {o : Pt} {v : ℝ} {s : State}

/-- A model held at point `i` only, whose springs fit the lattice. -/
structure Kept (x : Settings) (i : Idx) (h : ℕ) (o : Pt) (v : ℝ) (s : State) : Prop where
  held : Held i h o v s
  fits : ∀ y ∈ s.springs, Fits s.width s.height v y
  targets : Doubles s.targets
  locks : s.locks = Function.update (fun _ => 0) i 1
  joined : Joined s.springs
  settings : s.settings = x

/-- It lies on its targets and does not move. -/
structure Parked (x : Settings) (i : Idx) (h : ℕ) (o : Pt) (v : ℝ) (s : State) : Prop where
  kept : Kept x i h o v s
  pos : s.pos = s.targets
  vel : ∀ j, s.vel j = 0
  unequal : ¬ s.unequal

/-! ## Rounds -/

theorem round_quiet {q q' : Phys} {b : Prop} (e : Rounded.round R.rnd s q = .ok (q', b)) (hb : ¬ b) : ∀ j, q'.vel j = 0 := by
  have key : ∀ (a : Phys), ¬ (springRound R.rnd s.env a).2 → ∀ j, (springRound R.rnd s.env a).1.vel j = 0 := by
    intro a ha j
    simp only [springRound, anchoredIntegration, not_or, not_exists] at ha ⊢
    split_ifs with hl
    · rfl
    · have := ha.2 j
      simp only [hl, not_false_eq_true, true_and, eulerIntegrate, gt_iff_lt, abs_pos, not_or, not_not] at this
      exact Pt.ext this.1 this.2
  unfold Rounded.round at e
  split_ifs at e
  · rw [bind_eq_ok] at e
    obtain ⟨c, -, e⟩ := e
    simp only [Outcome.ok.injEq, Prod.mk.injEq] at e
    obtain ⟨rfl, rfl⟩ := e
    rw [not_or] at hb
    exact key _ hb.2
  · simp only [Outcome.ok.injEq, Prod.mk.injEq] at e
    obtain ⟨rfl, rfl⟩ := e
    exact key _ hb

theorem rounds_quiet {n : ℕ} (hn : n ≠ 0) {q q' : Phys} {b : Prop} (e : Rounded.rounds R.rnd s n q = .ok (q', b)) (hb : ¬ b) :
    ∀ j, q'.vel j = 0 := by
  induction n generalizing q b with
  | zero => exact absurd rfl hn
  | succ n ih =>
    simp only [Rounded.rounds, bind_eq_ok, Outcome.ok.injEq, Prod.mk.injEq] at e
    obtain ⟨a, e1, c, e2, rfl, rfl⟩ := e
    rw [not_or] at hb
    rcases n with _ | n
    · simp only [Rounded.rounds, Outcome.ok.injEq] at e2
      rw [← e2]
      exact round_quiet e1 hb.1
    · exact ih (by omega) e2 hb.2

theorem Kept.step (K : Kept x i h o v s) (t : ℕ) :
    ∃ s' more, Rounded.step R.rnd s t = .ok (s', .more more) ∧ Kept x i h o v s' ∧ s'.width = s.width ∧ s'.height = s.height ∧
      s'.targets = s.targets ∧ (¬ more → t ≠ 0 → Parked x i h o v s') := by
  obtain ⟨s', more, e, H', ew, eh, et, hp⟩ := K.held.step (R := R) t
  have e' := e
  unfold Rounded.step at e'
  rw [if_neg fun hc => K.held.sound hc.2, bind_eq_ok] at e'
  obtain ⟨a, ea, e'⟩ := e'
  simp only [Outcome.ok.injEq, Prod.mk.injEq, Res.more.injEq] at e'
  obtain ⟨e1, e2⟩ := e'
  have es : s'.springs = s.springs := by rw [← e1]
  have el : s'.locks = s.locks := by rw [← e1]
  have K' : Kept x i h o v s' := ⟨H', by rw [es, ew, eh]; exact K.fits, by rw [et]; exact K.targets, by rw [el]; exact K.locks,
    by rw [es]; exact K.joined, by rw [← e1]; exact K.settings⟩
  refine ⟨s', more, e, K', ew, eh, et, fun hm ht => ⟨K', (hp hm).trans et.symm, ?_, ?_⟩⟩
  · rw [← e2, not_or] at hm
    rw [← e1]
    exact rounds_quiet (stepCount_pos ht) ea hm.2
  · rw [← e1]
    show ¬ ((if t ≠ 0 then False else s.unequal) ∨ a.2)
    rw [e2]
    exact hm

/-! ## At rest -/

theorem Parked.resting (P : Parked x i h o v s) : Resting o v (part s) :=
  have K := P.kept
  have H := K.held
  { ox := H.ox
    oy := H.oy
    sw := H.sw
    sh := H.sh
    dw := H.dw
    dh := H.dh
    cx := by
      show Coord s.width o.x v _ fun i => (s.pos i).x
      rw [P.pos]
      exact H.tx
    cy := by
      show Coord s.height o.y v _ fun i => (s.pos i).y
      rw [P.pos]
      exact H.ty
    vel := P.vel
    doubles := by
      show Doubles s.pos
      rw [P.pos]
      exact K.targets
    unequal := P.unequal
    springs := K.fits }

/-- Nothing moves as long as no point is far from its target and no spring pulls. -/
theorem quiet_round (ha : s.active) (hr : 1 ≤ s.settings.maximumRange) (hp : ∀ j, Near (3 / 16) (s.pos j) (s.targets j))
    (slack : ∀ y ∈ s.springs, Slack R y (s.env.at_ s.pos)) (hd : Doubles s.pos)
    (hv : ∀ j, s.vel j = 0) : ∃ b, Rounded.round R.rnd s ⟨s.pos, s.vel⟩ = .ok (⟨s.pos, s.vel⟩, b) ∧ ¬ b := by
  have near : ∀ j, distance R.rnd (s.targets j) (s.pos j) < s.settings.maximumRange := by
    intro j
    obtain ⟨p1, p2⟩ := hp j
    refine lt_of_lt_of_le (near_distance R ?_ ?_) hr
    · rw [abs_sub_comm]; linarith
    · rw [abs_sub_comm]; linarith
  have hc : constrain R.rnd s.settings.maximumRange s.targets s.pos = .ok (s.pos, False) := by
    unfold constrain
    rw [if_neg (by
      rintro ⟨j, hj, -⟩
      exact hj (near j))]
    have e1 : (fun j => if distance R.rnd (s.targets j) (s.pos j) < s.settings.maximumRange then s.pos j
        else constrainPoint R.rnd s.settings.maximumRange (s.targets j) (s.pos j)) = s.pos := by
      funext j
      exact if_pos (near j)
    have e2 : (∃ j, ¬ distance R.rnd (s.targets j) (s.pos j) < s.settings.maximumRange) = False := by
      refine propext ⟨?_, False.elim⟩
      rintro ⟨j, hj⟩
      exact hj (near j)
    rw [e1, e2]
  obtain ⟨hf, hm⟩ := forces_slack R (k := s.env.k) slack
  have e : ∀ j, eulerIntegrate R.rnd 1 s.env.friction mass (s.pos j) (s.vel j)
      ((calculateForces R.rnd s.env.k (s.env.at_ s.pos) s.env.springs).1 (.mesh j)) = (s.pos j, s.vel j, False) := by
    intro j
    have h0 : eulerVelocity R.rnd 1 s.env.friction mass 0 0 = 0 := by simp [eulerVelocity, rnd_zero, clip]
    have hf' : (calculateForces R.rnd s.env.k (s.env.at_ s.pos) s.env.springs).1 (.mesh j) = 0 := hf _
    rw [hf', hv]
    simp only [eulerIntegrate, Pt.zero_x, Pt.zero_y, h0, add, scale, zero_mul, rnd_zero, add_zero]
    rw [R.exact (hd j).1, R.exact (hd j).2]
    simp [Pt.ext_iff]
  have er : springRound R.rnd s.env ⟨s.pos, s.vel⟩ =
      (⟨s.pos, s.vel⟩, (calculateForces R.rnd s.env.k (s.env.at_ s.pos) s.env.springs).2 ∨ ∃ j, ¬ s.env.locks j > 0 ∧ False) := by
    unfold springRound anchoredIntegration
    simp only [e, ite_self]
    have : (fun j => if s.env.locks j > 0 then (s.vel j).assignValue 0 else s.vel j) = s.vel := by
      funext j
      rw [hv j]
      split_ifs <;> rfl
    rw [this]
  unfold Rounded.round
  rw [if_pos ha, hc]
  simp only [bind_ok, er]
  refine ⟨_, rfl, ?_⟩
  rintro (hb | hb | ⟨j, -, hb⟩)
  · exact hb
  · exact hm hb
  · exact hb

theorem quiet_rounds (ha : s.active) (hr : 1 ≤ s.settings.maximumRange) (hp : ∀ j, Near (3 / 16) (s.pos j) (s.targets j))
    (slack : ∀ y ∈ s.springs, Slack R y (s.env.at_ s.pos)) (hd : Doubles s.pos) (hv : ∀ j, s.vel j = 0) (n : ℕ) :
    ∃ b, Rounded.rounds R.rnd s n ⟨s.pos, s.vel⟩ = .ok (⟨s.pos, s.vel⟩, b) ∧ ¬ b := by
  induction n with
  | zero => exact ⟨_, rfl, fun h => h⟩
  | succ n ih =>
    obtain ⟨b, e, hb⟩ := quiet_round (R := R) ha hr hp slack hd hv
    obtain ⟨c, e2, hc⟩ := ih
    simp only [Rounded.rounds, e, e2, bind_ok]
    exact ⟨_, rfl, fun hx => hx.elim hb hc⟩

theorem Kept.slack (K : Kept x i h o v s) (hp : ∀ j, Near (3 / 16) (s.pos j) (s.targets j)) :
    ∀ y ∈ s.springs, Slack R y (s.env.at_ s.pos) := by
  have H := K.held
  have zero : ∀ {c : ℝ}, |c| ≤ 3 / 16 + 1 / 4 → clip (1 / 2) c = 0 := fun hc => if_pos (by linarith)
  intro y hy
  obtain ⟨a, c, ha, hc, lx, ly⟩ := K.fits y hy
  have X := pull_coord R H.tx col_grid H.sw (i := a) (j := c) rfl lx (ρ := 3 / 16) (by norm_num)
    (u := fun j => (s.pos j).x) fun j => (hp j).1
  have Y := pull_coord R H.ty row_grid H.sh (i := a) (j := c) rfl ly (ρ := 3 / 16) (by norm_num)
    (u := fun j => (s.pos j).y) fun j => (hp j).2
  unfold Slack deltaA deltaB
  rw [ha, hc]
  simp only [scale, deltaFromDesired, resetIfCloseToZero, Env.at_]
  exact ⟨Pt.ext (zero X.1) (zero Y.1), Pt.ext (zero X.2) (zero Y.2)⟩

theorem Kept.rounds (K : Kept x i h o v s) (hp : ∀ j, Near (3 / 16) (s.pos j) (s.targets j)) (hd : Doubles s.pos)
    (hv : ∀ j, s.vel j = 0) (n : ℕ) :
    ∃ b, Rounded.rounds R.rnd s n ⟨s.pos, s.vel⟩ = .ok (⟨s.pos, s.vel⟩, b) ∧ ¬ b :=
  quiet_rounds K.held.count K.held.range hp (K.slack hp) hd hv n

theorem Kept.calm (K : Kept x i h o v s) (hp : ∀ j, Near (3 / 16) (s.pos j) (s.targets j)) (hd : Doubles s.pos)
    (hv : ∀ j, s.vel j = 0) {t : ℕ} (ht : t ≠ 0) : ∃ s', Rounded.step R.rnd s t = .ok (s', .more False) ∧ Parked x i h o v s' ∧
      s'.width = s.width ∧ s'.height = s.height := by
  obtain ⟨s', more, e, -, ew, eh, -, hm⟩ := K.step (R := R) t
  obtain ⟨b, er, hb⟩ := K.rounds (R := R) hp hd hv (stepCount t)
  have hf : more = False := by
    have e' := e
    unfold Rounded.step at e'
    rw [if_neg fun hc => K.held.sound hc.2, er] at e'
    simp only [bind_ok, Outcome.ok.injEq, Prod.mk.injEq, Res.more.injEq] at e'
    rw [← e'.2, if_pos ht]
    exact propext ⟨fun h => h.elim id hb, False.elim⟩
  subst hf
  exact ⟨s', e, hm not_false ht, ew, eh⟩

/-- A model on its targets that does not move and where no spring pulls. -/
theorem parked_step (hn : ¬ dangling s.springs s.live) (ha : s.active) (hr : 1 ≤ s.settings.maximumRange)
    (hp : s.pos = s.targets) (slack : ∀ y ∈ s.springs, Slack R y (s.env.at_ s.pos)) (hd : Doubles s.pos)
    (hv : ∀ j, s.vel j = 0) (hu : ¬ s.unequal) (t : ℕ) : Rounded.step R.rnd s t = .ok (s, .more False) := by
  obtain ⟨b, e, hb⟩ := quiet_rounds (R := R) ha hr (fun j => by rw [hp]; norm_num [Near]) slack hd hv (stepCount t)
  have hf : ((if t ≠ 0 then False else s.unequal) ∨ b) = False := by
    refine propext ⟨fun h => ?_, False.elim⟩
    rcases h with h | h
    · split_ifs at h
      exact hu h
    · exact hb h
  have hu' : s.unequal = False := propext ⟨hu, False.elim⟩
  unfold Rounded.step
  rw [if_neg fun hc => hn hc.2, e]
  simp only [bind_ok, hf]
  rw [if_pos ⟨not_false, ha⟩]
  have e1 : ∀ (m : Mesh) (u : Prop), m = s.pos → u = s.unequal → ({ s with pos := m, unequal := u } : State) = s := by
    rintro m u rfl rfl
    rfl
  rw [← e1 s.targets False hp.symm hu'.symm]

theorem Parked.step (P : Parked x i h o v s) (t : ℕ) : Rounded.step R.rnd s t = .ok (s, .more False) :=
  parked_step P.kept.held.sound P.kept.held.count P.kept.held.range P.pos
    (P.kept.slack fun j => by rw [P.pos]; norm_num [Near]) P.resting.doubles P.vel P.unequal t

/-- The release of a model at rest. -/
theorem Parked.release (r : ℝ → ℝ) (P : Parked x i h o v s) :
    ∃ s', Rounded.release r s h = .ok (s', .none) ∧ NoAnchor s' ∧ part s' = part s ∧ s'.pos = s.pos := by
  have H := P.kept.held
  unfold Rounded.release
  rw [H.live]
  simp only [List.find?_cons_of_pos, decide_true, State.releaseKind]
  unfold State.unlock
  have hl : s.locks i = 1 := by rw [P.kept.locks]; simp
  have hc := H.count
  rw [if_neg (by show ¬ s.locks i = 0; rw [hl]; norm_num)]
  simp only [bind_ok]
  unfold Rounded.deactivate
  rw [if_neg (by show ¬ s.count = 0; rw [hc]; norm_num)]
  dsimp only
  rw [if_neg (by show ¬ s.count - 1 = 1; rw [hc]; norm_num)]
  refine ⟨_, rfl, ⟨?_, ?_, ?_, H.ends⟩, rfl, rfl⟩
  · simp
  · show s.count - 1 = 0
    rw [hc]
  · intro j
    show Function.update s.locks i (s.locks i - 1) j = 0
    rw [P.kept.locks]
    by_cases hj : j = i
    · subst hj; simp
    · simp [hj]

/-! ## The other calls -/

theorem Kept.later (K : Kept x i h o v s) {s' : State} {o' : Pt} (H : Held i h o' (v + 1) s') (et : Doubles s'.targets)
    (ep : s'.springs = s.springs) (el : s'.locks = s.locks) (es : s'.settings = s.settings) (ew : s'.width = s.width) (eh : s'.height = s.height) :
    Kept x i h o' (v + 1) s' := by
  refine ⟨H, ?_, et, by rw [el]; exact K.locks, by rw [ep]; exact K.joined, by rw [es]; exact K.settings⟩
  rw [ep, ew, eh]
  exact fun y hy => fits_next K.held.sw.one K.held.sh.one (K.fits y hy)

variable (R)

theorem Kept.drag (K : Kept x i h o v s) (d : Pt) (hv : v + 1 ≤ 65536) (hx : |o.x + d.x| ≤ 32768) (hy : |o.y + d.y| ≤ 32768) :
    ∃ s', moveAnchor R.rnd s h d = .ok (s', .none) ∧ Kept x i h ⟨o.x + d.x, o.y + d.y⟩ (v + 1) s' ∧
      s'.width = s.width ∧ s'.height = s.height ∧ s'.pos = Function.update s.pos i (add R.rnd (s.pos i) d) ∧
      s'.vel = s.vel := by
  obtain ⟨s', e, H, ew, eh⟩ := K.held.drag R d hv hx hy
  have e' := e
  unfold moveAnchor at e'
  rw [K.held.live] at e'
  simp only [List.find?_cons_of_pos, decide_true, Outcome.ok.injEq, Prod.mk.injEq] at e'
  obtain ⟨e1, -⟩ := e'
  refine ⟨s', e, K.later H ?_ ?_ ?_ ?_ ew eh, ew, eh, by rw [← e1], by rw [← e1]⟩
  · rw [← e1]
    show Doubles (if s.active then fun i => add R.rnd (s.targets i) d else s.targets)
    rw [if_pos (show s.active from K.held.count)]
    exact fun _ => ⟨R.double _, R.double _⟩
  · rw [← e1]
  · rw [← e1]
  · rw [← e1]

theorem Kept.moveBy (K : Kept x i h o v s) (d : Pt) (hv : v + 1 ≤ 65536) (hx : |o.x + d.x| ≤ 32768) (hy : |o.y + d.y| ≤ 32768) :
    Kept x i h ⟨o.x + d.x, o.y + d.y⟩ (v + 1) (moveBy R.rnd s d) :=
  K.later (K.held.moveBy R d hv hx hy) (fun _ => ⟨R.double _, R.double _⟩) rfl rfl rfl rfl rfl

theorem Kept.moveTo (K : Kept x i h o v s) (p : Pt) (hv : v + 1 ≤ 65536) (hx : |p.x| ≤ 32768) (hy : |p.y| ≤ 32768) :
    ∃ s', moveTo R.rnd s p = .ok (s', .none) ∧ Kept x i h p (v + 1) s' ∧ s'.width = s.width ∧ s'.height = s.height := by
  obtain ⟨s', e, H, ew, eh⟩ := K.held.moveTo R p hv hx hy
  have e' := e
  unfold Rounded.moveTo at e'
  rw [K.held.target] at e'
  simp only [bind_ok, Outcome.ok.injEq, Prod.mk.injEq] at e'
  obtain ⟨e1, -⟩ := e'
  refine ⟨s', e, K.later H ?_ ?_ ?_ ?_ ew eh, ew, eh⟩
  · rw [← e1]
    exact fun _ => ⟨R.double _, R.double _⟩
  · rw [← e1]; rfl
  · rw [← e1]; rfl
  · rw [← e1]; rfl

theorem Kept.resize (K : Kept x i h o v s) {w hh : ℝ} (hv : v + 1 ≤ 65536)
    (w1 : 1 ≤ w) (w2 : w ≤ 32768) (dw : Double w) (h1 : 1 ≤ hh) (h2 : hh ≤ 32768) (dh : Double hh) :
    ∃ s', resize R.rnd s w hh = .ok (s', .none) ∧ Kept x i h o (v + 1) s' ∧ s'.width = w ∧ s'.height = hh := by
  obtain ⟨s', e, H, ew, eh⟩ := K.held.resize R (w := w) (hh := hh) hv w1 w2 dw h1 h2 dh
  have e' := e
  have W0 : 0 < s.width := by linarith [K.held.sw.one]
  have H0 : 0 < s.height := by linarith [K.held.sh.one]
  have sw' : Sane w v := ⟨w1, w2, K.held.sw.first, K.held.sw.calls⟩
  have sh' : Sane hh v := ⟨h1, h2, K.held.sw.first, K.held.sw.calls⟩
  unfold Rounded.resize at e'
  rw [if_neg (by push Not; constructor <;> linarith), if_neg (by push Not; constructor <;> linarith)] at e'
  by_cases he : Pt.equals ⟨R.rnd (w / s.width), R.rnd (hh / s.height)⟩ ⟨1, 1⟩
  · simp only [if_pos he, Outcome.ok.injEq, Prod.mk.injEq] at e'
    obtain ⟨e1, -⟩ := e'
    rw [← e1] at ew eh H
    refine ⟨s', e, ?_, by rw [← e1]; exact ew, by rw [← e1]; exact eh⟩
    rw [← e1]
    exact K.later H K.targets rfl rfl rfl rfl rfl
  · simp only [if_neg he, K.held.target, bind_ok, Outcome.ok.injEq, Prod.mk.injEq] at e'
    obtain ⟨e1, -⟩ := e'
    rw [← e1] at ew eh H
    refine ⟨s', e, ?_, by rw [← e1], by rw [← e1]⟩
    rw [← e1]
    refine ⟨H, ?_, fun _ => ⟨R.double _, R.double _⟩, K.locks, K.joined.map fun y => ⟨rfl, rfl⟩, K.settings⟩
    intro y hy
    obtain ⟨z, hz, rfl⟩ := List.mem_map.1 hy
    exact fits_resize R K.held.sw K.held.sh sw' sh' (K.fits z hz)

/-- Whatever is done while the model is held. -/
theorem kept_run {i : Idx} {a : ℕ} {o : Spot} {s : State} {v : ℝ} {held : List HeldOp} (K : Kept x i a o.place v s)
    (ew : s.width = o.width) (eh : s.height = o.height) (hr : o.StaysHeld held) (hn : v + heldEdits held ≤ 65536) :
    ∃ s' rs, run R.rnd s (held.map (HeldOp.call a)) = .ok (s', rs) ∧
      Kept x i a (o.heldAll held).place (v + heldEdits held) s' ∧
      s'.width = (o.heldAll held).width ∧ s'.height = (o.heldAll held).height := by
  induction held generalizing o s v with
  | nil => exact ⟨s, [], rfl, by simpa [heldEdits, Spot.heldAll] using K, ew, eh⟩
  | cons op ops ih =>
    have hr' : (o.held op).StaysHeld ops := fun n => hr (n + 1)
    have hon : (o.held op).OnScreen := by simpa [Spot.heldAll] using hr' 0
    have key : ∀ (s1 : State) (y : Res) (v1 : ℝ), exec R.rnd s (op.call a) = .ok (s1, y) → Kept x i a (o.held op).place v1 s1 →
        s1.width = (o.held op).width → s1.height = (o.held op).height → v1 + heldEdits ops = v + heldEdits (op :: ops) →
        ∃ s' rs, run R.rnd s ((op :: ops).map (HeldOp.call a)) = .ok (s', rs) ∧
          Kept x i a (o.heldAll (op :: ops)).place (v + heldEdits (op :: ops)) s' ∧
          s'.width = (o.heldAll (op :: ops)).width ∧ s'.height = (o.heldAll (op :: ops)).height := by
      intro s1 y v1 e1 r1 w1 h1 ev
      obtain ⟨s', rs, e, r2, w2, h2⟩ := ih r1 w1 h1 hr' (by rw [ev]; exact hn)
      refine ⟨s', y :: rs, ?_, ?_, w2, h2⟩
      · simp only [List.map_cons, run, e1, bind_ok, e]
      · rw [← ev]
        exact r2
    have one : heldEdits (op :: ops) = heldEdits ops + 1 → v + 1 ≤ 65536 := by
      intro e
      rw [e] at hn
      push_cast at hn
      have : (0 : ℝ) ≤ heldEdits ops := by positivity
      linarith
    have more : heldEdits (op :: ops) = heldEdits ops + 1 → v + 1 + heldEdits ops = v + heldEdits (op :: ops) := by
      intro e
      rw [e]
      push_cast
      ring
    cases op with
    | drag d =>
      have e1 : heldEdits (.drag d :: ops) = heldEdits ops + 1 := by simp [heldEdits]
      obtain ⟨s1, e, r1, a1, a2, -⟩ := K.drag R d (one e1) hon.placeX hon.placeY
      exact key s1 _ (v + 1) e r1 (a1.trans ew) (a2.trans eh) (more e1)
    | model op =>
      cases op with
      | step t =>
        obtain ⟨s1, m, e, r1, a1, a2, -⟩ := K.step (R := R) t
        exact key s1 _ v e r1 (a1.trans ew) (a2.trans eh) (by simp [heldEdits])
      | moveBy d =>
        have e1 : heldEdits (.model (.moveBy d) :: ops) = heldEdits ops + 1 := by simp [heldEdits]
        exact key _ _ (v + 1) rfl (K.moveBy R d (one e1) hon.placeX hon.placeY) ew eh (more e1)
      | moveTo q =>
        have e1 : heldEdits (.model (.moveTo q) :: ops) = heldEdits ops + 1 := by simp [heldEdits]
        obtain ⟨s1, e, r1, a1, a2⟩ := K.moveTo R q (one e1) hon.placeX hon.placeY
        exact key s1 _ (v + 1) e r1 (a1.trans ew) (a2.trans eh) (more e1)
      | resize w' h' =>
        have e1 : heldEdits (.model (.resize w' h') :: ops) = heldEdits ops + 1 := by simp [heldEdits]
        obtain ⟨s1, e, r1, a1, a2⟩ := K.resize R (w := w') (hh := h') (one e1) hon.widthMin hon.widthMax
          hon.widthDouble hon.heightMin hon.heightMax hon.heightDouble
        exact key s1 _ (v + 1) e r1 a1 a2 (more e1)

/-- Taking hold of a model at rest. -/
theorem grab_kept {y : Spot} {p : Pt} (hn : NoAnchor s) (H : Resting y.place v (part s)) (ew : s.width = y.width)
    (eh : s.height = y.height) (hy : y.OnScreen) (px : |p.x| ≤ 32768) (py : |p.y| ≤ 32768)
    (hr : 1 ≤ s.settings.maximumRange) (hj : Joined s.springs) :
    ∃ i s', grab R.rnd s p = .ok (s', .handle s.nextHid) ∧ Kept s.settings i s.nextHid y.place v s' ∧ s'.width = s.width ∧
      s'.height = s.height ∧ s'.pos = s.pos ∧ ∀ j, euclid p (y.point i) ≤ euclid p (y.point j) + 1 := by
  obtain ⟨i, s', e, K, sw, sh, ep, hc⟩ := grab_resting R hn H ew eh hy px py hr
  refine ⟨i, s', e, ⟨K, ?_, ?_, ?_, by rw [(grab_same R.rnd e).1]; exact hj, (grab_same R.rnd e).2.2⟩, sw, sh, ep, hc⟩
  · rw [(grab_same R.rnd e).1, sw, sh]
    exact H.springs
  all_goals
    unfold grab at e
    split at e
    · cases e
    rename_i c ec
    rw [bind_eq_ok] at e
    obtain ⟨s1, e1, e2⟩ := e
    simp only [Outcome.ok.injEq, Prod.mk.injEq] at e2
    obtain ⟨e3, -⟩ := e2
    unfold activate recalc at e1
    dsimp only at e1
    rw [if_pos (by rw [hn.count]), bind_eq_ok] at e1
    obtain ⟨q, -, e1⟩ := e1
    simp only [Outcome.ok.injEq] at e1
  · rw [← e3, ← e1]
    exact fun _ => ⟨R.double _, R.double _⟩
  · have hl := K.live
    rw [← e3, ← e1] at hl
    simp only [State.lock, State.spend, hn.live, List.nil_append, List.cons.injEq, and_true, Live.mk.injEq, Kind.grab.injEq] at hl
    rw [← e3, ← e1]
    funext j
    show Function.update s.locks c (s.locks c + 1) j = _
    rw [hl.2, show s.locks = fun _ => 0 from funext hn.locks]

end

end Verif.Wobbly.Rounded
