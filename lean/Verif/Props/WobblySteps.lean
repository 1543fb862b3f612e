import Verif.Lemmas.WobblyStep
import Verif.Props.WobblyMotion

/-! # Wobbly: stepping (C29-C33, C52, C58) -/

namespace Verif.Props

open Wobbly Spec Outcome

variable {p : Pt} {w h : ℝ} {x : Settings} {b : ℕ} {ops : List Op} {rs : List Res} {s : State}

theorem not_active_iff (e : (State.new p w h x b).run ops = .ok (s, rs)) : s.live.length ≠ 1 ↔ ¬ s.active := by
  unfold State.active
  rw [(inv_run e).count]

/-! ## Grabbed points -/

/-- **C29 (partial).** A grabbed point has no velocity after a `Step` of non-zero time. If other anchors are live
too, it stays exactly where it is. If its anchor is the only one, it stays where it is provided it is within the
movement range of its target and `Step` answers that something moves. Missing: the range constraint and the
settle-snap, which move it (`C29_snap_moves_grabbed`). -/
theorem C29_grabbed_point_partial (e : (State.new p w h x b).run ops = .ok (s, rs)) {k : ℕ} {i : Idx}
    (ha : (⟨k, .grab i⟩ : Live) ∈ s.live) {t : ℕ} {s' : State} {m : Prop}
    (es : s.exec (.step t) = .ok (s', .more m)) :
    (t ≠ 0 → s'.vel i = 0) ∧ (2 ≤ s.live.length → s'.pos i = s.pos i) ∧
    (euclid (s.targets i) (s.pos i) < s.settings.maximumRange → m → s'.pos i = s.pos i) := by
  have hI := inv_run e
  have hlock : s.locks i > 0 := (C46_locks_count e i).2.2 ⟨_, ha, rfl⟩
  simp only [State.exec] at es
  unfold State.step at es
  by_cases hd : stepCount t ≠ 0 ∧ dangling s.springs s.live
  · rw [if_pos hd] at es
    simp at es
  · rw [if_neg hd, bind_eq_ok] at es
    obtain ⟨⟨q, mi⟩, hi, es⟩ := es
    simp only [Outcome.ok.injEq, Prod.mk.injEq, Res.more.injEq] at es
    obtain ⟨rfl, rfl⟩ := es
    have hq := integrate_locked hi hlock
    refine ⟨fun ht => hq.1 (stepCount_pos ht), fun h2 => ?_, fun hr hm => ?_⟩
    · have hna : ¬ s.active := by
        unfold State.active
        rw [hI.count]
        omega
      simp only
      rw [if_neg (fun h => hna h.2)]
      exact hq.2 (fun h => absurd h hna)
    · simp only
      rw [if_neg (fun h => h.1 hm)]
      refine hq.2 (fun _ => ?_)
      rw [Pt.distance_eq]
      exact hr

example : ∃ s rs i, demo.run [.grab ⟨90, 10⟩] = .ok (s, rs) ∧ (⟨0, .grab i⟩ : Live) ∈ s.live ∧
    ∃ s', s.exec (.step 16) = .ok (s', .more False) := by
  obtain ⟨i, t, n, -, ht, h⟩ := demo_grab ⟨90, 10⟩ (rep_small (by norm_num [abs_of_pos]) (by norm_num [abs_of_pos]))
  refine ⟨_, [.handle 0], i, run_one h, by simp [grabbed, demo, State.new], ?_⟩
  have hQ : Quiet (grabbed demo i t n) := by
    refine quiet_of_rest (b := 0) (List.Perm.refl _) ⟨(new_atRest ⟨0, 0⟩ 300 300 defaultSettings 0).pos,
      fun _ => rfl⟩ (fun _ => ⟨ht, ?_⟩)
    norm_num [grabbed, State.lock, demo, State.new, defaultSettings]
  have := hQ.step 16
  simp only [ne_eq, OfNat.ofNat_ne_zero, not_false_eq_true, if_true] at this
  exact ⟨_, this⟩

theorem new_injective {p : Pt} {w h : ℝ} {x : Settings} {b : ℕ} (hw : w ≠ 0) (hh : h ≠ 0) :
    Function.Injective (State.new p w h x b).pos := by
  intro i j hij
  simp only [State.new, positionArray, Pt.ext_iff, add_right_inj] at hij
  have h1 := mul_right_cancel₀ (div_ne_zero hw (by norm_num : (4 : ℝ) - 1 ≠ 0)) hij.1
  have h2 := mul_right_cancel₀ (div_ne_zero hh (by norm_num : (4 : ℝ) - 1 ≠ 0)) hij.2
  have h1' : col i = col j := by exact_mod_cast h1
  have h2' : row i = row j := by exact_mod_cast h2
  unfold col at h1'
  unfold row at h2'
  ext
  omega

set_option maxRecDepth 10000 in
theorem edges_distinct : ∀ y ∈ baseEdges, y.1 ≠ y.2.1 := by decide

set_option maxRecDepth 10000 in
theorem edges_apart : ∀ y ∈ baseEdges, ¬ (y.1 = 0 ∧ y.2.1 = 5) ∧ ¬ (y.1 = 5 ∧ y.2.1 = 0) := by decide

/-- A mesh point but the first one, grabbed twice, moved by 0.9 pixels and let go once. -/
theorem nudge_history (p : Pt) (w h : ℝ) (x : Settings) (b : ℕ) (i : Idx) (hi : i ≠ 0) (hw : w ≠ 0)
    (hh : h ≠ 0) (hz : ∀ i, Representable ((State.new p w h x b).pos i)) :
    ∃ s rs, (State.new p w h x b).run [.grab ((State.new p w h x b).pos i), .grab ((State.new p w h x b).pos i),
        .moveAnchor 0 ⟨9 / 10, 0⟩, .release 1] = .ok (s, rs) ∧ s.live = [⟨0, .grab i⟩] ∧
      s.pos = Function.update (State.new p w h x b).pos i ((State.new p w h x b).pos i + ⟨9 / 10, 0⟩) ∧
      s.targets = (State.new p w h x b).pos ∧ s.settings = x ∧
      (x.maximumRange ≥ 1 → ∃ s' r, s.exec (.step 16) = .ok (s', r) ∧ s'.pos = s.targets) := by
  set m := State.new p w h x b with hm
  have hR : AtRest m := new_atRest p w h x b
  have hI : Inv b m := inv_new p w h x b
  have hc := closest_at (m := m.pos) (new_injective hw hh) hz i
  obtain ⟨j, t, n, hj, e1, ht, -⟩ := grab_atRest hR hz (hz i)
  rw [hc] at hj
  simp only [Option.some.injEq] at hj
  subst hj
  set s1 := grabbed m i t n with hs1
  have hR1 : AtRest s1 := ⟨hR.pos, hR.vel⟩
  obtain ⟨j, t2, n2, hj, e2, -, ht2⟩ := grab_atRest (s := s1) hR1 hz (hz i)
  have hj' : closestIndex m.pos (m.pos i) = some j := hj
  rw [hc] at hj'
  simp only [Option.some.injEq] at hj'
  subst hj'
  set s2 := grabbed s1 i t2 n2 with hs2
  have hlive2 : s2.live = [⟨0, .grab i⟩, ⟨1, .grab i⟩] := rfl
  have hcount2 : s2.count = 2 := rfl
  have hlocks2 : s2.locks i = 2 := by
    simp [hs2, hs1, grabbed, State.lock, hm, State.new]
  set disp : Idx → Pt := fun k => if k = i then ⟨9 / 10, 0⟩ else 0 with hdisp
  set M : Mesh := Function.update m.pos i (m.pos i + ⟨9 / 10, 0⟩) with hM
  have hMd : ∀ k, M k = positionArray p m.tile k + disp k := by
    intro k
    by_cases hk : k = i
    · subst hk
      simp only [hM, Function.update_self, hdisp, if_true]
      rfl
    · simp only [hM, Function.update_of_ne hk, hdisp, if_neg hk]
      have : m.pos k = positionArray p m.tile k := rfl
      rw [this]
      ext <;> simp
  have hedge : ∀ y ∈ baseEdges, |(disp y.2.1).x - (disp y.1).x| < 1 ∧ |(disp y.2.1).y - (disp y.1).y| < 1 := by
    intro y hy
    have := edges_distinct y hy
    simp only [hdisp]
    by_cases h1 : y.2.1 = i
    · rw [if_pos h1, if_neg (fun h => this (h.trans h1.symm))]
      norm_num [abs_of_pos]
    · rw [if_neg h1]
      split_ifs <;> norm_num [abs_of_pos]
  have e3 : s2.exec (.moveAnchor 0 ⟨9 / 10, 0⟩) = .ok ({ s2 with pos := M }, .none) := by
    simp only [State.exec, State.moveAnchor]
    have hf : s2.live.find? (fun a => decide (a.hid = 0)) = some ⟨0, .grab i⟩ := rfl
    rw [hf]
    simp only
    have hna : ¬ s2.active := by
      unfold State.active
      rw [hcount2]
      norm_num
    rw [if_neg hna]
    rfl
  set s3 : State := { s2 with pos := M } with hs3
  -- after the release of the second anchor
  have hfind : s3.live.find? (fun a => decide (a.hid = 1)) = some ⟨1, .grab i⟩ := rfl
  have hfilt : s3.live.filter (fun a => decide (a.hid ≠ 1)) = [⟨0, .grab i⟩] := rfl
  set s4 : State := unlocked ({ s3 with live := [⟨0, .grab i⟩] } : State) i with hs4
  have hset : State.targetByFullIntegration { s4 with count := s4.count - 1 } = .ok (M 0) := by
    unfold State.targetByFullIntegration
    refine settle_rest (q := ⟨M, s4.vel⟩) ?_ (fun _ => rfl)
    exact dead_of_disp (p := p) (tile := m.tile) disp hMd hedge
  set s5 : State := { s4 with
    count := 1
    targets := positionArray (M 0) m.tile
    lastId := s4.lastId + springCount } with hs5
  have e4 : s3.exec (.release 1) = .ok (s5, .none) := by
    simp only [State.exec, State.release]
    rw [hfind]
    simp only
    rw [hfilt]
    have hu : State.releaseKind ({ s3 with live := [⟨0, .grab i⟩] } : State) (.grab i) = .ok s4 := by
      simp only [State.releaseKind, State.unlock]
      have hl : s3.locks i ≠ 0 := by
        have : s3.locks i = 2 := hlocks2
        rw [this]
        norm_num
      rw [if_neg hl]
      rfl
    rw [hu, bind_ok]
    unfold State.deactivate
    have hc4 : s4.count = 2 := rfl
    rw [if_neg (by rw [hc4]; norm_num)]
    simp only
    rw [if_pos (by rw [hc4])]
    unfold State.recalc
    rw [hset, bind_ok, bind_ok]
    rfl
  have hM0 : M 0 = p := by
    have : (0 : Idx) ≠ i := fun h => hi h.symm
    simp only [hM, Function.update_of_ne this]
    exact positionArray_zero _ _
  have hpos5 : s5.pos = M := rfl
  have htar5 : s5.targets = m.pos := by
    show positionArray (M 0) m.tile = m.pos
    rw [hM0]
    rfl
  refine ⟨s5, [.handle 0, .handle 1, .none, .none], ?_, rfl, rfl, htar5, rfl, fun hx => ?_⟩
  · have e1' : m.exec (.grab (m.pos i)) = .ok (s1, .handle 0) := e1
    have e2' : s1.exec (.grab (m.pos i)) = .ok (s2, .handle 1) := e2
    simp only [State.run, e1', e2', e3, e4, bind_ok]
  · have hstep := step_snap (s := s5) rfl
      (fine_of_perm (b := b) (List.Perm.refl _)) (dead_of_disp (p := p) (tile := m.tile) (b := b) disp hMd hedge)
      (fun _ => rfl) (by
        intro k
        rw [htar5, hpos5]
        have hx' : s5.settings.maximumRange = x.maximumRange := rfl
        rw [hx']
        refine lt_of_lt_of_le ?_ hx
        by_cases hk : k = i
        · subst hk
          refine lt_of_le_of_lt (Pt.distance_le _ _) ?_
          simp only [hM, Function.update_self, Pt.add_x, Pt.add_y]
          norm_num [abs_of_pos]
        · simp only [hM, Function.update_of_ne hk, Pt.distance_self]
          norm_num) (t := 16) (by norm_num)
    exact ⟨_, _, hstep, rfl⟩

/-- **C29 (negation).** Grab any mesh point but the first one twice, move it by 0.9 pixels through one anchor and
release the other anchor. The next `Step` moves the point although it is still grabbed and nothing told it to
move. -/
theorem C29_snap_moves_grabbed (p : Pt) (w h : ℝ) (x : Settings) (b : ℕ) (i : Idx) (hi : i ≠ 0) (hw : w ≠ 0)
    (hh : h ≠ 0) (hx : 1 ≤ x.maximumRange) (hz : ∀ i, Representable ((State.new p w h x b).pos i)) :
    ∃ s rs s' r, (State.new p w h x b).run [.grab ((State.new p w h x b).pos i), .grab ((State.new p w h x b).pos i),
        .moveAnchor 0 ⟨9 / 10, 0⟩, .release 1] = .ok (s, rs) ∧ (⟨0, .grab i⟩ : Live) ∈ s.live ∧
      s.exec (.step 16) = .ok (s', r) ∧ s'.pos i ≠ s.pos i := by
  obtain ⟨s, rs, e, hl, hp, ht, -, k⟩ := nudge_history p w h x b i hi hw hh hz
  obtain ⟨s', r, es, hs⟩ := k hx
  refine ⟨s, rs, s', r, e, by rw [hl]; simp, es, ?_⟩
  rw [hs, ht, hp]
  simp only [Function.update_self, ne_eq, Pt.ext_iff, Pt.add_x, Pt.add_y, not_and]
  intro h
  linarith

example : (5 : Idx) ≠ 0 ∧ (300 : ℝ) ≠ 0 ∧ 1 ≤ defaultSettings.maximumRange ∧
    ∀ i, Representable ((State.new ⟨0, 0⟩ 300 300 defaultSettings 0).pos i) :=
  ⟨by decide, by norm_num, by norm_num [defaultSettings], demo_rep⟩

/-! ## Rest -/

/-- **C30 (partial).** A model without live anchors that is at rest (regular lattice, no velocity) never moves,
and every `Step` of non-zero time answers that nothing moves. (`Step (0)` answers what is pending, C32.) Missing:
histories with a resize while an inserted anchor was live, where the claim is false (`C30_stale_spring`). -/
theorem C30_rest_stays_partial (e : (State.new p w h x b).run ops = .ok (s, rs))
    (hr : AllAlong ResizeAllowed (State.new p w h x b) ops) (hl : s.live = []) {q : Pt} (hq : RestsAt q s)
    (ts : List ℕ) :
    ∃ s' rs', s.run (ts.map .step) = .ok (s', rs') ∧ s'.pos = s.pos ∧ s'.vel = s.vel ∧
      ∀ n t : ℕ, ts[n]? = some t → t ≠ 0 → rs'[n]? = some (.more False) := by
  have hI := inv_run e
  have hna : ¬ s.active := (not_active_iff e).1 (by rw [hl]; simp)
  have hQ : Quiet s := quiet_of_rest (springs_perm hI (baseLen_run hr e) (noneInserted_nil hl)) (atRest_of hq).1
    (fun h => absurd h hna)
  obtain ⟨s1, r1, e1⟩ := hQ.steps_ok ts
  obtain ⟨h1, h2, -, h4⟩ := hQ.steps e1
  exact ⟨s1, r1, e1, h1, h2, h4⟩

example : demo.run [] = .ok (demo, []) ∧ AllAlong ResizeAllowed demo [] ∧ demo.live = [] ∧ RestsAt ⟨0, 0⟩ demo := by
  refine ⟨rfl, trivial, rfl, ?_⟩
  have := (new_atRest ⟨0, 0⟩ 300 300 defaultSettings 0).restsAt
  have h0 : (State.new ⟨0, 0⟩ 300 300 defaultSettings 0).pos 0 = ⟨0, 0⟩ := positionArray_zero _ _
  rwa [h0] at this

/-- **C30 (negation).** After the history of `C44_stale_length` the model has no anchors and is at rest, yet
`Step` answers that it moves. -/
theorem C30_stale_spring (p : Pt) (w h : ℝ) (x : Settings) (b : ℕ) (q : Pt) (hw : 3 ≤ w) (hh : 3 ≤ h)
    (hz : ∀ i, Representable ((State.new p w h x b).pos i)) (hq : Representable q) :
    ∃ ops s rs, (State.new p w h x b).run ops = .ok (s, rs) ∧ s.live = [] ∧ RestsAt p s ∧
      ∃ s', s.exec (.step 16) = .ok (s', .more True) := by
  obtain ⟨s, rs, e, h1, h2, -, h3⟩ := C44_stale_length p w h x b q hw hh hz hq
  exact ⟨_, s, rs, e, h1, h2, h3⟩

/-- On a resting lattice the deviation of each spring is the growth it missed. -/
theorem rest_deviation (hw : w ≠ 0) (hh : h ≠ 0) {q : Pt} (hq : RestsAt q s) {y : Spring}
    (hy : y ∈ (State.new p w h x b).springs) (g : Pt) :
    deviation (s.env.at_ s.pos) (y.scaleLength g) =
      ⟨-(y.desired.x * (g.x - s.width / w)), -(y.desired.y * (g.y - s.height / h))⟩ := by
  have hy' : y.scaleLength ⟨s.width / w, s.height / h⟩ ∈ baseSprings s.tile b := by
    have e0 : baseSprings s.tile b =
        (State.new p w h x b).springs.map fun y => y.scaleLength ⟨s.width / w, s.height / h⟩ := by
      have : s.tile = (State.new p w h x b).tile.pscale ⟨s.width / w, s.height / h⟩ := by
        ext
        · simp only [State.tile, State.new, Pt.pscale_x]
          field_simp
        · simp only [State.tile, State.new, Pt.pscale_y]
          field_simp
      rw [this]
      change _ = (baseSprings (State.new p w h x b).tile b).map _
      simp only [baseSprings, List.map_map]
      refine List.map_congr_left fun y _ => ?_
      simp only [Function.comp, Spring.scaleLength, Spring.mk.injEq, true_and]
      split_ifs <;> ext <;> simp
    rw [e0]
    exact List.mem_map_of_mem hy
  have hd : deviation (s.env.at_ s.pos) (y.scaleLength ⟨s.width / w, s.height / h⟩) = 0 := by
    rw [(atRest_of hq).1.pos]
    exact base_deviation hy'
  have h1 := congrArg Pt.x hd
  have h2 := congrArg Pt.y hd
  simp only [deviation, Spring.scaleLength, Pt.pscale_x, Pt.pscale_y, Pt.zero_x, Pt.zero_y] at h1 h2
  ext <;> simp only [deviation, Spring.scaleLength, Pt.pscale_x, Pt.pscale_y] <;> linarith

/-- **C30.** Whatever the history, exactly when a resting model without anchors stays at rest: if for no spring
the resizes that missed it (`grown` counts the others) come to a pixel. Otherwise every `Step` of non-zero time answers
that something moves. -/
theorem C30_rest_iff (e : (State.new p w h x b).run ops = .ok (s, rs)) (hw : w ≠ 0) (hh : h ≠ 0) (hl : s.live = [])
    {q : Pt} (hq : RestsAt q s) :
    ((∀ ts : List ℕ, ∃ s' rs', s.run (ts.map .step) = .ok (s', rs') ∧ s'.pos = s.pos ∧ s'.vel = s.vel ∧
        ∀ n t : ℕ, ts[n]? = some t → t ≠ 0 → rs'[n]? = some (.more False)) ↔
      ∀ y ∈ (State.new p w h x b).springs,
        |y.desired.x * ((grown y.id (State.new p w h x b) ops).x - s.width / w)| < 1 ∧
        |y.desired.y * ((grown y.id (State.new p w h x b) ops).y - s.height / h)| < 1) ∧
    ((∃ y ∈ (State.new p w h x b).springs,
        1 ≤ |y.desired.x * ((grown y.id (State.new p w h x b) ops).x - s.width / w)| ∨
        1 ≤ |y.desired.y * ((grown y.id (State.new p w h x b) ops).y - s.height / h)|) →
      ∀ t : ℕ, t ≠ 0 → ∃ s', s.exec (.step t) = .ok (s', .more True)) := by
  have hg := springs_grown e (noneInserted_nil hl)
  have hna : ¬ s.active := (not_active_iff e).1 (by rw [hl]; simp)
  have hdev : ∀ y ∈ (State.new p w h x b).springs,
      (InDeadZone (s.env.at_ s.pos) (y.scaleLength (grown y.id (State.new p w h x b) ops)) ↔
        |y.desired.x * ((grown y.id (State.new p w h x b) ops).x - s.width / w)| < 1 ∧
        |y.desired.y * ((grown y.id (State.new p w h x b) ops).y - s.height / h)| < 1) := by
    intro y hy
    unfold InDeadZone
    rw [rest_deviation hw hh hq hy]
    simp only [abs_neg]
  have hfine : ¬ dangling s.springs s.live := by
    rintro ⟨z, hz, hn⟩
    obtain ⟨y, hy, rfl⟩ := List.mem_map.1 (hg.mem_iff.1 hz)
    obtain ⟨⟨i, hi⟩, j, hj⟩ := base_ends_mesh (t := (State.new p w h x b).tile) (b := b) hy
    simp only [Spring.scaleLength, hi, hj] at hn
    exact hn ⟨trivial, trivial⟩
  have hmoves : (∃ y ∈ (State.new p w h x b).springs,
        1 ≤ |y.desired.x * ((grown y.id (State.new p w h x b) ops).x - s.width / w)| ∨
        1 ≤ |y.desired.y * ((grown y.id (State.new p w h x b) ops).y - s.height / h)|) →
      ∀ t : ℕ, t ≠ 0 → ∃ s', s.exec (.step t) = .ok (s', .more True) := by
    rintro ⟨y, hy, hb⟩ t ht
    have hm : settleMore s.env ⟨s.pos, s.vel⟩ 0 := by
      refine Or.inl ((calculateForces_more _ _ _).2 ⟨_, hg.mem_iff.2 (List.mem_map_of_mem hy), fun hin => ?_⟩)
      obtain ⟨h1, h2⟩ := (hdev y hy).1 hin
      rcases hb with hb | hb <;> linarith
    have hT : ((if t ≠ 0 then False else s.unequal) ∨ ∃ m < stepCount t, settleMore s.env ⟨s.pos, s.vel⟩ m) = True :=
      eq_true (Or.inr ⟨0, Nat.pos_of_ne_zero (stepCount_pos ht), hm⟩)
    have := step_inactive hna (t := t) (fun _ => hfine)
    rw [hT] at this
    exact ⟨_, this⟩
  refine ⟨⟨fun hs => ?_, fun hs ts => ?_⟩, hmoves⟩
  · by_contra hc
    push Not at hc
    obtain ⟨y, hy, hc⟩ := hc
    have hb : 1 ≤ |y.desired.x * ((grown y.id (State.new p w h x b) ops).x - s.width / w)| ∨
        1 ≤ |y.desired.y * ((grown y.id (State.new p w h x b) ops).y - s.height / h)| := by
      by_cases h1 : |y.desired.x * ((grown y.id (State.new p w h x b) ops).x - s.width / w)| < 1
      · exact Or.inr (hc h1)
      · exact Or.inl (not_lt.1 h1)
    obtain ⟨s1, e1⟩ := hmoves ⟨y, hy, hb⟩ 16 (by norm_num)
    obtain ⟨s2, rs2, e2, -, -, h4⟩ := hs [16]
    simp only [List.map_cons, List.map_nil, State.run, e1, bind_ok, Outcome.ok.injEq, Prod.mk.injEq] at e2
    have := h4 0 16 rfl (by norm_num)
    rw [← e2.2] at this
    simp at this
  · have hQ : Quiet s := by
      refine ⟨fun z hz => ?_, (atRest_of hq).1.vel, hfine, fun h => absurd h hna⟩
      obtain ⟨y, hy, rfl⟩ := List.mem_map.1 (hg.mem_iff.1 hz)
      exact (hdev y hy).2 (hs y hy)
    obtain ⟨s1, r1, e1⟩ := hQ.steps_ok ts
    obtain ⟨h1, h2, -, h4⟩ := hQ.steps e1
    exact ⟨s1, r1, e1, h1, h2, h4⟩

/-- A model that has been doubled while an anchor was inserted meets the hypotheses. -/
example : ∃ ops s rs, (State.new ⟨0, 0⟩ 300 300 defaultSettings 0).run ops = .ok (s, rs) ∧ s.live = [] ∧
    RestsAt ⟨0, 0⟩ s := by
  obtain ⟨ops, s, rs, e, h1, h2, -⟩ := C30_stale_spring ⟨0, 0⟩ 300 300 defaultSettings 0 ⟨0, 0⟩ (by norm_num) (by norm_num)
    demo_rep (rep_small (by norm_num) (by norm_num))
  exact ⟨ops, s, rs, e, h1, h2⟩

/-! ## Settling -/

/-- **C31 (partial).** Once a `Step` of non-zero time answers that nothing moves, all later ones do, and nothing
changes any more. Proved when there is no anchor or are several, and when there is only a grab (without a resize
while an anchor was inserted). For a lone inserted anchor see `C31_lone_insert_partial`; in general the claim is
false (`C31_snap_unsettles`). -/
theorem C31_stays_settled_partial (e : (State.new p w h x b).run ops = .ok (s, rs))
    (hl : s.live.length ≠ 1 ∨ NoneInserted s ∧ AllAlong ResizeAllowed (State.new p w h x b) ops) {t : ℕ} (ht : t ≠ 0)
    {s' : State} {m : Prop} (es : s.exec (.step t) = .ok (s', .more m)) (hm : ¬ m) (ts : List ℕ) :
    s'.run (ts.map .step) = .ok (s', ts.map fun _ => .more False) := by
  by_cases ha : s.active
  · rcases hl with hl | ⟨hn, hr⟩
    · exact absurd ha ((not_active_iff e).1 hl)
    · have hI := inv_run e
      have hB := baseLen_run hr e
      have := quiet_of_still_active (onTargets_of_none hI hB hn) ha ht es hm
      exact this.1.run this.2 ts
  · have := quiet_of_still_inactive ha ht es hm
    exact this.1.run this.2.1 ts

example : ∃ s', demo.exec (.step 16) = .ok (s', .more False) ∧ demo.live.length ≠ 1 := by
  have hQ : Quiet demo := quiet_of_rest (b := 0) (List.Perm.refl _) (new_atRest _ _ _ _ _)
    (fun h => by simp [demo, State.new, State.active] at h)
  have := hQ.step 16
  simp only [ne_eq, OfNat.ofNat_ne_zero, not_false_eq_true, if_true] at this
  exact ⟨_, this, by simp [demo, State.new]⟩

/-- **C31 (partial).** The same for an anchor inserted into a model without anchors, as long as no other anchor is
made, provided no two mesh points coincided at the insertion. -/
theorem C31_lone_insert_partial {s0 s1 : State} (e : (State.new p w h x b).run ops = .ok (s0, rs))
    (hr : AllAlong ResizeAllowed (State.new p w h x b) ops) (hl : s0.live = []) (hinj : Function.Injective s0.pos)
    {q : Pt} {r : Res} (ei : s0.exec (.insert q) = .ok (s1, r)) {ops' : List Op} (hk : ∀ op ∈ ops', KeepsAnchors op)
    {rs' : List Res} (e' : s1.run ops' = .ok (s, rs')) {t : ℕ} (ht : t ≠ 0)
    {s' : State} {m : Prop} (es : s.exec (.step t) = .ok (s', .more m)) (hm : ¬ m) (ts : List ℕ) :
    s'.run (ts.map .step) = .ok (s', ts.map fun _ => .more False) := by
  have hL := lone_run (lone_insert (inv_run e) (baseLen_run hr e) hl hinj ei) hk e'
  have := quiet_of_still_active hL.fits hL.count ht es hm
  exact this.1.run this.2 ts

example : Function.Injective demo.pos ∧ (∃ r, demo.exec (.insert ⟨50, 50⟩) = .ok r) ∧ KeepsAnchors (.moveAnchor 0 ⟨5, 5⟩) := by
  refine ⟨new_injective (by norm_num) (by norm_num), ?_, trivial⟩
  obtain ⟨t, n, found, -, -, -, h⟩ := demo_insert ⟨50, 50⟩ (rep_small (by norm_num [abs_of_pos]) (by norm_num [abs_of_pos]))
  exact ⟨_, h⟩

/-- **C31.** Two such answers in a row are final, in every state: nothing changes any more and all later `Step`s
answer that nothing moves. -/
theorem C31_twice {t t' : ℕ} (ht : t ≠ 0) (ht' : t' ≠ 0) {s1 s2 : State} {m m' : Prop}
    (e1 : s.exec (.step t) = .ok (s1, .more m)) (hm : ¬ m) (e2 : s1.exec (.step t') = .ok (s2, .more m')) (hm' : ¬ m') :
    s2 = s1 ∧ ∀ ts : List ℕ, s1.run (ts.map .step) = .ok (s1, ts.map fun _ => .more False) := by
  by_cases ha : s.active
  · obtain ⟨h1, hd, -, hr⟩ := still_active ha ht e1 hm
    have ha1 : s1.active := by rw [h1]; exact ha
    obtain ⟨h2, hd1, hz, hr1⟩ := still_active ha1 ht' e2 hm'
    have ht1 : s1.targets = s1.pos := by rw [h1]
    have hv1 : s1.vel = fun _ => 0 := by rw [h1]
    have hu1 : s1.unequal = False := by rw [h1]
    have hQ : Quiet s1 := by
      refine ⟨hz, fun i => by rw [hv1], hd1, fun _ => ⟨ht1, ?_⟩⟩
      have := hr1 0
      have h0 := Pt.distance_nonneg (s1.targets 0) (s1.pos 0)
      linarith
    refine ⟨?_, hQ.run (by rw [hu1]; exact not_false)⟩
    rw [h2, h1]
  · have h1 := quiet_of_still_inactive ha ht e1 hm
    have hrun := h1.1.run h1.2.1
    refine ⟨?_, hrun⟩
    have := hrun [t']
    simp only [List.map_cons, List.map_nil, State.run, e2, bind_ok, Outcome.ok.injEq, Prod.mk.injEq] at this
    exact this.1

/-- **C31.** So in every state one further `Step` decides: after an answer that nothing moves, all later ones are the
same exactly when the next one is. -/
theorem C31_next_decides {t t' : ℕ} (ht : t ≠ 0) (ht' : t' ≠ 0) {s1 : State} {m : Prop}
    (e1 : s.exec (.step t) = .ok (s1, .more m)) (hm : ¬ m) :
    (∀ ts : List ℕ, s1.run (ts.map .step) = .ok (s1, ts.map fun _ => .more False)) ↔
      ∃ s2, s1.exec (.step t') = .ok (s2, .more False) := by
  refine ⟨fun h => ⟨s1, ?_⟩, fun ⟨s2, e2⟩ => (C31_twice ht ht' e1 hm e2 not_false).2⟩
  have := h [t']
  simp only [List.map_cons, List.map_nil, State.run] at this
  rw [bind_eq_ok] at this
  obtain ⟨⟨s2, r⟩, h1, h2⟩ := this
  simp only [bind_ok, Outcome.ok.injEq, Prod.mk.injEq, List.cons.injEq, and_true] at h2
  rw [h1, h2.1, h2.2]

example : ∃ s1 s2, demo.exec (.step 16) = .ok (s1, .more False) ∧ s1.exec (.step 7) = .ok (s2, .more False) := by
  have hQ : Quiet demo := quiet_of_rest (b := 0) (List.Perm.refl _) (new_atRest _ _ _ _ _)
    (fun h => by simp [demo, State.new, State.active] at h)
  have h1 := hQ.step 16
  have h2 := (hQ.unequal False).step 7
  simp only [ne_eq, OfNat.ofNat_ne_zero, not_false_eq_true, if_true] at h1 h2
  exact ⟨_, _, h1, h2⟩

/-- Where the points are in the history of `C31_snap_unsettles`. -/
noncomputable def nudged : Mesh :=
  Function.update (Function.update demo.pos 0 (demo.pos 0 + ⟨9 / 10, 0⟩)) 5 (demo.pos 5 + ⟨-(9 / 10), 0⟩)

noncomputable def nudge (i : Idx) : Pt := if i = 5 then ⟨-(9 / 10), 0⟩ else if i = 0 then ⟨9 / 10, 0⟩ else 0

theorem nudged_eq (i : Idx) : nudged i = demo.pos i + nudge i := by
  unfold nudged nudge
  by_cases h5 : i = 5
  · subst h5
    simp
  · rw [Function.update_of_ne h5, if_neg h5]
    by_cases h0 : i = 0
    · subst h0
      simp
    · rw [Function.update_of_ne h0, if_neg h0]
      ext <;> simp

theorem nudged_lattice (i : Idx) : nudged i = positionArray ⟨0, 0⟩ demo.tile i + nudge i := nudged_eq i

theorem nudge_small (i : Idx) : |(nudge i).x| ≤ 9 / 10 ∧ (nudge i).y = 0 := by
  unfold nudge
  split_ifs <;> norm_num [abs_of_pos]

theorem nudge_edges (y : Idx × Idx × Bool) (hy : y ∈ baseEdges) :
    |(nudge y.2.1).x - (nudge y.1).x| < 1 ∧ |(nudge y.2.1).y - (nudge y.1).y| < 1 := by
  have h1 := edges_apart y hy
  have h2 := edges_distinct y hy
  refine ⟨?_, by rw [(nudge_small _).2, (nudge_small _).2]; norm_num⟩
  unfold nudge
  by_cases ha5 : y.1 = 5
  · have hb5 : y.2.1 ≠ 5 := fun h => h2 (ha5.trans h.symm)
    have hb0 : y.2.1 ≠ 0 := fun h => h1.2 ⟨ha5, h⟩
    rw [if_pos ha5, if_neg hb5, if_neg hb0]
    norm_num [abs_of_pos]
  · rw [if_neg ha5]
    by_cases ha0 : y.1 = 0
    · have hb0 : y.2.1 ≠ 0 := fun h => h2 (ha0.trans h.symm)
      have hb5 : y.2.1 ≠ 5 := fun h => h1.1 ⟨ha0, h⟩
      rw [if_pos ha0, if_neg hb5, if_neg hb0]
      norm_num [abs_of_pos]
    · rw [if_neg ha0]
      split_ifs <;> norm_num [abs_of_pos]

theorem nudged_rep (i : Idx) : Representable (nudged i) := by
  rw [nudged_eq, demo_pos]
  obtain ⟨h1, h2⟩ := lattice_bounds i
  obtain ⟨h3, h4⟩ := nudge_small i
  rw [abs_le] at h3
  have h5 : (0 : ℝ) ≤ col i := by positivity
  have h6 : (0 : ℝ) ≤ row i := by positivity
  apply rep_small <;> rw [abs_le] <;> constructor <;> simp only [Pt.add_x, Pt.add_y, h4] <;> linarith [h3.1, h3.2]

theorem nudged_five {i : Idx} (h : nudged i = nudged 5) : i = 5 := by
  by_contra h5
  rw [nudged_eq, nudged_eq, demo_pos, demo_pos, Pt.ext_iff] at h
  have hc5 : col (5 : Idx) = 1 := rfl
  have hx := h.1
  simp only [Pt.add_x, hc5] at hx
  have h0 : (nudge i).x = 9 / 10 ∨ (nudge i).x = 0 := by
    unfold nudge
    rw [if_neg h5]
    split_ifs
    · exact Or.inl rfl
    · exact Or.inr rfl
  have h55 : (nudge 5).x = -(9 / 10) := by simp [nudge]
  rw [h55] at hx
  have hci : (col i : ℝ) = 0 ∨ (1 : ℝ) ≤ col i := by
    rcases Nat.eq_zero_or_pos (col i) with h | h
    · left
      rw [h]
      simp
    · right
      exact_mod_cast h
  push_cast at hx
  rcases hci with hc | hc <;> rcases h0 with h0 | h0 <;> rw [h0] at hx <;> linarith

set_option maxRecDepth 10000 in
theorem five_edge : ∃ y ∈ demo.springs, y.a = .mesh 5 := by
  have : ∃ z ∈ baseEdges.zipIdx, z.1.1 = (5 : Idx) := by decide
  obtain ⟨z, hz, h5⟩ := this
  exact ⟨_, List.mem_map.2 ⟨z, hz, rfl⟩, by rw [h5]⟩

theorem demo_grab_at (s : State) (hs : AtRest s) (hp : s.pos = demo.pos) (i : Idx) :
    ∃ t n, s.exec (.grab (demo.pos i)) = .ok (grabbed s i t n, .handle s.nextHid) := by
  obtain ⟨j, t, n, hj, e, -⟩ := grab_atRest hs (fun i => by rw [hp]; exact demo_rep i) (demo_rep i)
  have hc : closestIndex demo.pos (demo.pos i) = some i :=
    closest_at (new_injective (by norm_num) (by norm_num)) demo_rep i
  rw [hp, hc] at hj
  simp only [Option.some.injEq] at hj
  subst hj
  exact ⟨t, n, e⟩

theorem snap_history :
    ∃ s rs s' s'', demo.run [.grab ⟨0, 0⟩, .grab ⟨100, 100⟩, .moveAnchor 0 ⟨9 / 10, 0⟩, .moveAnchor 1 ⟨-(9 / 10), 0⟩,
        .insert ⟨991 / 10, 100⟩, .release 0, .release 1] = .ok (s, rs) ∧
      (∀ t ≠ 0, s.exec (.step t) = .ok (s', .more False)) ∧ s'.exec (.step 16) = .ok (s'', .more True) := by
  have hp0 : demo.pos 0 = ⟨0, 0⟩ := by rw [demo_pos]; norm_num [col, row]
  have hp5 : demo.pos 5 = ⟨100, 100⟩ := by
    rw [demo_pos]
    have h1 : col (5 : Idx) = 1 := rfl
    have h2 : row (5 : Idx) = 1 := rfl
    rw [h1, h2]
    norm_num
  have hq : nudged 5 = ⟨991 / 10, 100⟩ := by
    rw [nudged_eq, hp5]
    ext <;> simp [nudge] <;> norm_num
  have hR : AtRest demo := new_atRest _ _ _ _ _
  obtain ⟨t1, n1, e1⟩ := demo_grab_at demo hR rfl 0
  rw [hp0] at e1
  set s1 := grabbed demo 0 t1 n1 with hs1
  obtain ⟨t2, n2, e2⟩ := demo_grab_at s1 ⟨hR.pos, hR.vel⟩ rfl 5
  rw [hp5] at e2
  set s2 := grabbed s1 5 t2 n2 with hs2
  have e3 : s2.exec (.moveAnchor 0 ⟨9 / 10, 0⟩) =
      .ok ({ s2 with pos := Function.update demo.pos 0 (demo.pos 0 + ⟨9 / 10, 0⟩) }, .none) :=
    moveAnchor_grab_inactive (by show (2 : ℕ) ≠ 1; norm_num) rfl
  set s3 : State := { s2 with pos := Function.update demo.pos 0 (demo.pos 0 + ⟨9 / 10, 0⟩) } with hs3
  have e4 : s3.exec (.moveAnchor 1 ⟨-(9 / 10), 0⟩) = .ok ({ s3 with pos := nudged }, .none) := by
    have := moveAnchor_grab_inactive (s := s3) (k := 1) (i := 5) (d := ⟨-(9 / 10), 0⟩)
      (by show (2 : ℕ) ≠ 1; norm_num) rfl
    rw [this]
    have h5 : s3.pos 5 = demo.pos 5 := rfl
    rw [h5]
    rfl
  set s4 : State := { s3 with pos := nudged } with hs4
  -- insertion
  have hsp4 : s4.springs = baseSprings s4.tile 0 := rfl
  have hdead : ∀ (e : Env) (b : ℕ), ∀ y ∈ baseSprings demo.tile b, InDeadZone (e.at_ nudged) y := fun e b =>
    dead_of_disp (p := ⟨0, 0⟩) (tile := demo.tile) nudge nudged_lattice nudge_edges
  have hrep : ∀ y ∈ s4.springs, Representable (s4.env.at_ s4.pos y.a) ∧ Representable (s4.env.at_ s4.pos y.b) := by
    intro y hy
    obtain ⟨⟨i, hi⟩, j, hj⟩ := base_ends_mesh (t := demo.tile) (b := 0) hy
    rw [hi, hj]
    exact ⟨nudged_rep i, nudged_rep j⟩
  have hne : s4.springs ≠ [] := by
    obtain ⟨y, hy, -⟩ := five_edge
    exact List.ne_nil_of_mem hy
  obtain ⟨found, hf, hfind, hmin, -⟩ := find_spring (s := s4) (p := nudged 5) hne hrep (nudged_rep 5)
  obtain ⟨⟨i, hi⟩, j, hj⟩ := base_ends_mesh (t := demo.tile) (b := 0) hf
  have hi5 : i = 5 := by
    obtain ⟨y, hy, hy5⟩ := five_edge
    have := hmin y hy
    rw [hi, hy5, ← Pt.distance_eq, ← Pt.distance_eq] at this
    have h5 : s4.env.at_ s4.pos (.mesh 5) = nudged 5 := rfl
    rw [h5, Pt.distance_self] at this
    exact nudged_five (Pt.distance_eq_zero.1 (le_antisymm this (Pt.distance_nonneg _ _)))
  subst hi5
  have hat : ∀ k, s4.env.at_ s4.pos (.mesh k) = nudged k := fun _ => rfl
  rw [hq] at hfind
  have e5 : s4.exec (.insert ⟨991 / 10, 100⟩) = .ok ((preInsert s4 s4.targets s4.lastId).install ⟨991 / 10, 100⟩ found
      (nudged 5) (nudged j), .handle 2) := by
    have := insert_inactive (s := s4) (p := ⟨991 / 10, 100⟩) (found := found) (by show (0 : ℕ) < 2; norm_num)
      (fine_of_perm (b := 0) (by rw [hsp4])) hfind
    rw [hi, hj, hat, hat] at this
    exact this
  set s5 := (preInsert s4 s4.targets s4.lastId).install ⟨991 / 10, 100⟩ found (nudged 5) (nudged j) with hs5
  have hl5 : s5.live = [⟨0, .grab 0⟩, ⟨1, .grab 5⟩, ⟨2, .ins ⟨991 / 10, 100⟩ found (s4.lastId + 1) (s4.lastId + 2)⟩] := rfl
  have hlock : s5.locks 0 = 1 ∧ s5.locks 5 = 1 := by
    have : s5.locks = Function.update (Function.update (fun _ => 0) 0 1) 5 1 := by
      funext k
      simp [hs5, State.install, preInsert, hs4, hs3, hs2, hs1, grabbed, State.lock, demo, State.new]
    rw [this]
    exact ⟨rfl, rfl⟩
  have e6 := release_grab_many (s := s5) (k := 0) (i := 0) rfl (by rw [hlock.1]; norm_num)
    (by show (3 : ℕ) ≤ 3; norm_num)
  set s6 : State := { unlocked ({ s5 with live := s5.live.filter fun a => a.hid ≠ 0 } : State) 0 with
    count := s5.count - 1 } with hs6
  have hl6 : s6.live = [⟨1, .grab 5⟩, ⟨2, .ins ⟨991 / 10, 100⟩ found (s4.lastId + 1) (s4.lastId + 2)⟩] := rfl
  have e7 := release_grab_two (s := s6) (k := 1) (i := 5) rfl
    (by
      have : s6.locks 5 = s5.locks 5 := rfl
      rw [this, hlock.2]
      norm_num) rfl (fun y hy => hdead _ _ y hy) (fun _ => rfl)
  set s7 : State := { unlocked ({ s6 with live := s6.live.filter fun a => a.hid ≠ 1 } : State) 5 with
    count := 1
    targets := positionArray (s6.pos 0) s6.tile
    lastId := s6.lastId + springCount } with hs7
  have hl7 : s7.live = [⟨2, .ins ⟨991 / 10, 100⟩ found (s4.lastId + 1) (s4.lastId + 2)⟩] := rfl
  have hp7 : s7.pos = nudged := rfl
  have hsp7 : s7.springs = removeId s4.springs found.id ++
      [⟨s4.lastId + 1, .anchor 2, .mesh 5, nudged 5 - ⟨991 / 10, 100⟩⟩,
       ⟨s4.lastId + 2, .anchor 2, .mesh j, nudged j - ⟨991 / 10, 100⟩⟩] := by
    rw [← hi, ← hj]
    rfl
  have hdata : anchorData s7.live 2 = some ⟨991 / 10, 100⟩ := by
    rw [hl7, anchorData_cons]
    simp
  have hsub : ∀ y ∈ s7.springs, y ∈ baseSprings demo.tile 0 ∨
      y = ⟨s4.lastId + 1, .anchor 2, .mesh 5, nudged 5 - ⟨991 / 10, 100⟩⟩ ∨
      y = ⟨s4.lastId + 2, .anchor 2, .mesh j, nudged j - ⟨991 / 10, 100⟩⟩ := by
    intro y hy
    rw [hsp7] at hy
    simp only [List.mem_append, List.mem_cons, List.not_mem_nil, or_false] at hy
    rcases hy with hy | hy
    · exact Or.inl (List.mem_of_mem_filter hy)
    · exact Or.inr hy
  have hnd : ¬ dangling s7.springs s7.live := by
    rintro ⟨y, hy, hbad⟩
    rcases hsub y hy with hy | rfl | rfl
    · obtain ⟨⟨i', hi'⟩, j', hj'⟩ := base_ends_mesh hy
      rw [hi', hj'] at hbad
      exact hbad ⟨trivial, trivial⟩
    · refine hbad ⟨?_, trivial⟩
      show (anchorData s7.live 2).isSome
      rw [hdata]
      rfl
    · refine hbad ⟨?_, trivial⟩
      show (anchorData s7.live 2).isSome
      rw [hdata]
      rfl
  have htar : ∀ k, s7.targets k = demo.pos k + ⟨9 / 10, 0⟩ := by
    intro k
    have h0 : s6.pos 0 = ⟨9 / 10, 0⟩ := by
      show nudged 0 = _
      rw [nudged_eq, hp0]
      ext <;> simp [nudge]
    show positionArray (s6.pos 0) demo.tile k = _
    rw [h0]
    have : demo.pos k = positionArray ⟨0, 0⟩ demo.tile k := rfl
    rw [this]
    ext <;> simp [positionArray] <;> ring
  have hstep := fun (t : ℕ) (ht : t ≠ 0) => step_snap (s := s7) rfl hnd
    (by
      intro y hy
      rw [hp7]
      rcases hsub y hy with hy | rfl | rfl
      · exact hdead _ _ y hy
      · refine dead_of_zero ?_
        simp only [deviation, Env.at_, State.env, apos, hdata]
        ext <;> simp
      · refine dead_of_zero ?_
        simp only [deviation, Env.at_, State.env, apos, hdata]
        ext <;> simp)
    (fun _ => rfl)
    (by
      intro k
      rw [htar, hp7, nudged_eq]
      have hx : s7.settings.maximumRange = 500 := rfl
      rw [hx]
      refine lt_of_le_of_lt (Pt.distance_le _ _) ?_
      obtain ⟨h3, h4⟩ := nudge_small k
      rw [abs_le] at h3
      have e1 : (demo.pos k + ⟨9 / 10, 0⟩ : Pt).x - (demo.pos k + nudge k).x = 9 / 10 - (nudge k).x := by
        simp only [Pt.add_x]
        ring
      have e2 : (demo.pos k + ⟨9 / 10, 0⟩ : Pt).y - (demo.pos k + nudge k).y = 0 := by
        simp only [Pt.add_y, h4]
        ring
      rw [e1, e2]
      have : |9 / 10 - (nudge k).x| ≤ 2 := by
        rw [abs_le]
        constructor <;> linarith [h3.1, h3.2]
      simp only [abs_zero]
      linarith) ht
  set s8 : State := { s7 with pos := s7.targets, unequal := False } with hs8
  obtain ⟨s9, e9⟩ := step_unsettled (s := s8) rfl hnd rfl (by
      show (0 : ℝ) < 500
      norm_num)
    (y := ⟨s4.lastId + 1, .anchor 2, .mesh 5, nudged 5 - ⟨991 / 10, 100⟩⟩)
    (by
      have : s8.springs = s7.springs := rfl
      rw [this, hsp7]
      simp)
    (by
      intro hdz
      have hd8 : anchorData s8.live 2 = some ⟨991 / 10, 100⟩ := hdata
      have := hdz.1
      simp only [deviation, Env.at_, State.env, apos, hd8] at this
      have h8 : s8.pos 5 = demo.pos 5 + ⟨9 / 10, 0⟩ := htar 5
      rw [h8, hp5, hq] at this
      simp only [Pt.add_x, Pt.sub_x, Option.getD_some] at this
      norm_num [abs_of_pos] at this)
  refine ⟨s7, [.handle 0, .handle 1, .none, .none, .handle 2, .none, .none], s8, s9, ?_, hstep, e9⟩
  have e1' : demo.exec (.grab ⟨0, 0⟩) = .ok (s1, .handle 0) := e1
  have e2' : s1.exec (.grab ⟨100, 100⟩) = .ok (s2, .handle 1) := e2
  simp only [State.run, e1', e2', e3, e4, e5, e6, e7, bind_ok]

/-- **C31 (negation).** On a 300 by 300 model: grab the points 0 and 5, move them by 0.9 and -0.9 pixels, insert an
anchor where point 5 is now, and release the grabs. The next `Step (16)` answers that nothing moves, and the one
after that answers that something does. -/
theorem C31_snap_unsettles :
    ∃ s rs s' s'', demo.run [.grab ⟨0, 0⟩, .grab ⟨100, 100⟩, .moveAnchor 0 ⟨9 / 10, 0⟩, .moveAnchor 1 ⟨-(9 / 10), 0⟩,
        .insert ⟨991 / 10, 100⟩, .release 0, .release 1] = .ok (s, rs) ∧
      s.exec (.step 16) = .ok (s', .more False) ∧ s'.exec (.step 16) = .ok (s'', .more True) := by
  obtain ⟨s, rs, s', s'', h1, h2, h3⟩ := snap_history
  exact ⟨s, rs, s', s'', h1, h2 16 (by norm_num), h3⟩

/-! ## Time -/

theorem unequal_run (e : s.run ops = .ok (s', rs)) : s'.unequal = pendingFlag s.unequal ops rs := by
  induction ops generalizing s rs with
  | nil =>
    simp only [State.run, Outcome.ok.injEq, Prod.mk.injEq] at e
    rw [← e.1]
    rfl
  | cons op ops ih =>
    simp only [State.run] at e
    rw [bind_eq_ok] at e
    obtain ⟨⟨s1, r1⟩, h1, e⟩ := e
    rw [bind_eq_ok] at e
    obtain ⟨⟨s2, r2⟩, h2, e⟩ := e
    simp only [Outcome.ok.injEq, Prod.mk.injEq] at e
    obtain ⟨rfl, rfl⟩ := e
    have hih := ih h2
    simp only at hih
    rw [hih]
    cases op with
    | grab q =>
      obtain ⟨j, t, n, -, hn, ht, rfl, rfl⟩ := grab_ok h1
      rfl
    | insert q =>
      obtain ⟨t, n, found, d1, d2, hn, ht, -, -, -, -, rfl, rfl⟩ := insert_ok h1
      rfl
    | step t =>
      obtain ⟨P, V, m, rfl, rfl⟩ := step_ok h1
      rfl
    | moveAnchor k d =>
      obtain ⟨rfl, ⟨-, rfl⟩ | ⟨a, -, ⟨j, -, rfl⟩ | ⟨-, rfl⟩⟩⟩ := moveAnchor_ok h1 <;> rfl
    | release k =>
      rcases release_ok h1 with ⟨-, rfl, rfl⟩ | ⟨a, s3, t, n, ha, h3, h0, hn, ht, rfl, rfl⟩
      · rfl
      · cases hk : a.kind with
        | grab j =>
          rw [hk] at h3
          obtain ⟨-, rfl⟩ := unlock_ok h3
          rfl
        | ins q st f g =>
          rw [hk] at h3
          simp only [State.releaseKind, Outcome.ok.injEq] at h3
          rw [removeTracked_eq, removeTracked_eq, replace_eq] at h3
          rw [← h3]
          rfl
    | moveBy d =>
      simp only [State.exec, Outcome.ok.injEq, Prod.mk.injEq] at h1
      rw [← h1.1, ← h1.2]
      rfl
    | moveTo q =>
      obtain ⟨n, d, -, rfl, rfl⟩ := moveTo_ok h1
      rfl
    | resize w h =>
      obtain ⟨-, -, -, -, rfl, ⟨-, -, rfl⟩ | ⟨n, q, -, -, -, rfl⟩⟩ := resize_ok h1 <;> rfl
    | setSettings y =>
      simp only [State.exec, Outcome.ok.injEq, Prod.mk.injEq] at h1
      rw [← h1.1, ← h1.2]
      rfl
    | elsewhere y =>
      simp only [State.exec, Outcome.ok.injEq, Prod.mk.injEq] at h1
      rw [← h1.1, ← h1.2]
      rfl

/-- **C32.** `Step (0)` always returns what is pending: the answer of the last `Step`, or yes if an anchor was made
since, or no if there was neither. No velocity changes. No point moves, except that with one live anchor and
nothing pending the mesh is put on its targets. -/
theorem C32_zero_time (e : (State.new p w h x b).run ops = .ok (s, rs)) :
    ∃ s', s.exec (.step 0) = .ok (s', .more (pendingFlag False ops rs)) ∧ s'.vel = s.vel ∧
      ((s.live.length = 1 ∧ ¬ pendingFlag False ops rs → s'.pos = s.targets) ∧
       (¬ (s.live.length = 1 ∧ ¬ pendingFlag False ops rs) → s'.pos = s.pos)) := by
  have hu : s.unequal = pendingFlag False ops rs := unequal_run e
  have ha : s.active ↔ s.live.length = 1 := by
    unfold State.active
    rw [(inv_run e).count]
  simp only [State.exec]
  rw [step_zero]
  rw [← hu]
  refine ⟨_, rfl, rfl, ?_, ?_⟩
  · rintro ⟨h1, h2⟩
    exact if_pos ⟨h2, ha.2 h1⟩
  · intro h
    exact if_neg (fun hh => h ⟨ha.1 hh.2, hh.1⟩)

example : ∃ s, demo.run [.grab ⟨90, 10⟩, .release 0] = .ok (s, [.handle 0, .none]) ∧
    pendingFlag False [.grab ⟨90, 10⟩, .release 0] [.handle 0, .none] := by
  obtain ⟨s, h⟩ := demo_grab_release ⟨90, 10⟩ (rep_small (by norm_num [abs_of_pos]) (by norm_num [abs_of_pos]))
  exact ⟨s, h, trivial⟩

/-- **C33.** The effect and the answer of `Step (t)` depend on `t` only through the number of started 16 ms
ticks. -/
theorem C33_whole_ticks (s : State) {t t' : ℕ} (h : (t + 15) / 16 = (t' + 15) / 16) :
    s.exec (.step t) = s.exec (.step t') := by
  have hs : stepCount t = stepCount t' := by rw [stepCount_eq, stepCount_eq, h]
  by_cases h0 : t = 0
  · have : t' = 0 := by omega
    rw [h0, this]
  · have h0' : t' ≠ 0 := by omega
    simp only [State.exec, State.step]
    rw [hs]
    by_cases hd : stepCount t' ≠ 0 ∧ dangling s.springs s.live
    · rw [if_pos hd, if_pos hd]
    · rw [if_neg hd, if_neg hd]
      congr 1
      funext r
      simp only [Outcome.ok.injEq, Prod.mk.injEq, State.mk.injEq, true_and, and_true, ne_eq, h0, h0',
        not_false_eq_true, if_true]
      by_cases hc : ¬ ((if ¬ t = 0 then False else s.unequal) ∨ r.2) ∧ s.active
      · have hc' : ¬ ((if ¬ t' = 0 then False else s.unequal) ∨ r.2) ∧ s.active := by
          rw [if_pos h0']
          rwa [if_pos h0] at hc
        rw [if_pos hc, if_pos hc']
      · have hc' : ¬ (¬ ((if ¬ t' = 0 then False else s.unequal) ∨ r.2) ∧ s.active) := by
          rw [if_pos h0']
          rwa [if_pos h0] at hc
        rw [if_neg hc, if_neg hc']

example : (1 + 15) / 16 = (16 + 15) / 16 ∧ (17 + 15) / 16 = (32 + 15) / 16 := by decide

/-- **C33.** Without the range constraint (no anchor, or several) only the total number of started ticks counts:
two sequences of `Step`s with the same total lead to the same mesh and the same velocities. -/
theorem C33_total_ticks (e : (State.new p w h x b).run ops = .ok (s, rs)) (hl : s.live.length ≠ 1) {ts ts' : List ℕ}
    (ht : (ts.map fun t => (t + 15) / 16).sum = (ts'.map fun t => (t + 15) / 16).sum) :
    Matches (fun r r' => r'.1.pos = r.1.pos ∧ r'.1.vel = r.1.vel) (s.run (ts.map .step)) (s.run (ts'.map .step)) := by
  have hna := (not_active_iff e).1 hl
  have ht' : ticks ts = ticks ts' := by
    unfold ticks
    simp only [funext stepCount_eq]
    exact ht
  by_cases hd : ticks ts ≠ 0 ∧ dangling s.springs s.live
  · rw [steps_dangling hd.2 hd.1, steps_dangling hd.2 (by rw [← ht']; exact hd.1)]
    trivial
  · obtain ⟨u, r1, h1⟩ := steps_inactive hna (ts := ts) (fun h hh => hd ⟨h, hh⟩)
    obtain ⟨u', r2, h2⟩ := steps_inactive hna (ts := ts') (fun h hh => hd ⟨by rw [ht']; exact h, hh⟩)
    rw [h1, h2, ht']
    exact ⟨rfl, rfl⟩

/-- **C33.** If moreover no time is zero, one of the first `Step`s answers that something moves if and only if one
of the second ones does. -/
theorem C33_total_answers (e : (State.new p w h x b).run ops = .ok (s, rs)) (hl : s.live.length ≠ 1)
    {ts ts' : List ℕ} (ht : (ts.map fun t => (t + 15) / 16).sum = (ts'.map fun t => (t + 15) / 16).sum)
    (h0 : ∀ t ∈ ts, t ≠ 0) (h0' : ∀ t ∈ ts', t ≠ 0) :
    Matches (fun r r' => (∃ m, Res.more m ∈ r'.2 ∧ m) ↔ ∃ m, Res.more m ∈ r.2 ∧ m) (s.run (ts.map .step))
      (s.run (ts'.map .step)) := by
  have hna := (not_active_iff e).1 hl
  have ht' : ticks ts = ticks ts' := by
    unfold ticks
    simp only [funext stepCount_eq]
    exact ht
  by_cases hd : ticks ts ≠ 0 ∧ dangling s.springs s.live
  · rw [steps_dangling hd.2 hd.1, steps_dangling hd.2 (by rw [← ht']; exact hd.1)]
    trivial
  · obtain ⟨u, r1, h1, m1⟩ := steps_answers hna (ts := ts) (fun h hh => hd ⟨h, hh⟩) h0
    obtain ⟨u', r2, h2, m2⟩ := steps_answers hna (ts := ts') (fun h hh => hd ⟨by rw [ht']; exact h, hh⟩) h0'
    rw [h1, h2]
    show (∃ m, Res.more m ∈ r2 ∧ m) ↔ ∃ m, Res.more m ∈ r1 ∧ m
    rw [m1, m2, ht']

example : ((List.replicate 16 1).map fun t => (t + 15) / 16).sum = ([256].map fun t => (t + 15) / 16).sum ∧
    demo.live.length ≠ 1 := ⟨by decide, by simp [demo, State.new]⟩

/-- **C33 (limit).** With one live anchor the total does not decide: there is a history after which `Step (32)`
answers that nothing moves, while of two `Step (16)` the second one answers that something does. -/
theorem C33_frame_rate :
    ∃ ops s rs, demo.run ops = .ok (s, rs) ∧ s.live.length = 1 ∧ (∃ s1, s.run [.step 32] = .ok (s1, [.more False])) ∧
      ∃ s2, s.run [.step 16, .step 16] = .ok (s2, [.more False, .more True]) := by
  obtain ⟨s, rs, s', s'', h1, h2, h3⟩ := snap_history
  refine ⟨_, s, rs, h1, ?_, ⟨s', ?_⟩, s'', ?_⟩
  · by_contra hl
    have h := C31_stays_settled_partial h1 (Or.inl hl) (by norm_num : (16 : ℕ) ≠ 0) (h2 16 (by norm_num)) not_false [16]
    simp only [List.map_cons, List.map_nil, State.run, h3, bind_ok, Outcome.ok.injEq, Prod.mk.injEq, List.cons.injEq,
      Res.more.injEq] at h
    simp at h
  · simp only [State.run, h2 32 (by norm_num), bind_ok]
  · simp only [State.run, h2 16 (by norm_num), h3, bind_ok]

/-! ## Insertion at rest -/

/-- **C52.** Inserting an anchor anywhere in a resting model without anchors returns, moves nothing, and no later
`Step` moves anything; those of non-zero time answer that nothing moves. Coordinates are of representable size
and the movement range is positive. -/
theorem C52_undisturbed (e : (State.new p w h x b).run ops = .ok (s, rs))
    (hr : AllAlong ResizeAllowed (State.new p w h x b) ops) (hl : s.live = []) {q0 : Pt} (hq0 : RestsAt q0 s)
    (hx : 0 < s.settings.maximumRange) (hz : ∀ i, Representable (s.pos i)) {q : Pt} (hq : Representable q) :
    ∃ s' k, s.exec (.insert q) = .ok (s', .handle k) ∧ s'.pos = s.pos ∧
      ∀ ts : List ℕ, ∃ s'' rs'', s'.run (ts.map .step) = .ok (s'', rs'') ∧ s''.pos = s.pos ∧ (∀ i, s''.vel i = 0) ∧
        ∀ n t : ℕ, ts[n]? = some t → t ≠ 0 → rs''[n]? = some (.more False) := by
  have hI := inv_run e
  have hB := baseLen_run hr e
  have hR := (atRest_of hq0).1
  have hperm := springs_perm hI hB (noneInserted_nil hl)
  have hc : s.count = 0 := by rw [hI.count, hl]; rfl
  obtain ⟨t, n, found, hf, -, -, ht, -, ei⟩ := insert_atRest hI hR (fine_of_perm hperm) (p := q)
    (fun y hy => by
      obtain ⟨⟨i, hi⟩, j, hj⟩ := base_ends_mesh (hperm.mem_iff.1 hy)
      rw [hi, hj]
      exact ⟨hz i, hz j⟩) hq
  have ht := ht hc
  obtain ⟨⟨i, hi⟩, j, hj⟩ := base_ends_mesh (hperm.mem_iff.1 hf)
  set s1 := (preInsert s t n).install q found (s.env.at_ s.pos found.a) (s.env.at_ s.pos found.b) with hs1
  have hlive : s1.live = [⟨s.nextHid, .ins q found (n + 1) (n + 2)⟩] := by
    simp only [hs1, State.install, preInsert, hl, List.nil_append]
  have hdata : anchorData s1.live s.nextHid = some q := by
    rw [hlive, anchorData_cons]
    simp
  have hsp : ∀ y ∈ s1.springs, y ∈ s.springs ∨ y = ⟨n + 1, .anchor s.nextHid, .mesh i, s.pos i - q⟩ ∨
      y = ⟨n + 2, .anchor s.nextHid, .mesh j, s.pos j - q⟩ := by
    intro y hy
    simp only [hs1, State.install, List.mem_append, List.mem_cons, List.not_mem_nil, or_false] at hy
    rcases hy with hy | rfl | rfl
    · exact Or.inl (List.mem_of_mem_filter hy)
    · rw [hi]
      exact Or.inr (Or.inl rfl)
    · rw [hj]
      exact Or.inr (Or.inr rfl)
  have hQ : Quiet s1 := by
    refine ⟨?_, hR.vel, ?_, fun _ => ⟨ht, hx⟩⟩
    · intro y hy
      rcases hsp y hy with hy | rfl | rfl
      · refine dead_of_zero ?_
        have : s1.pos = positionArray (s.pos 0) s.tile := hR.pos
        rw [this]
        exact base_deviation (hperm.mem_iff.1 hy)
      · refine dead_of_zero ?_
        simp only [deviation, Env.at_, State.env, apos, hdata]
        ext <;> simp [hs1, State.install, preInsert]
      · refine dead_of_zero ?_
        simp only [deviation, Env.at_, State.env, apos, hdata]
        ext <;> simp [hs1, State.install, preInsert]
    · rintro ⟨y, hy, hbad⟩
      rcases hsp y hy with hy | rfl | rfl
      · obtain ⟨⟨i', hi'⟩, j', hj'⟩ := base_ends_mesh (hperm.mem_iff.1 hy)
        rw [hi', hj'] at hbad
        exact hbad ⟨trivial, trivial⟩
      · refine hbad ⟨?_, trivial⟩
        show (anchorData s1.live s.nextHid).isSome
        rw [hdata]
        rfl
      · refine hbad ⟨?_, trivial⟩
        show (anchorData s1.live s.nextHid).isSome
        rw [hdata]
        rfl
  refine ⟨s1, s.nextHid, ei, rfl, fun ts => ?_⟩
  obtain ⟨s2, r2, e2⟩ := hQ.steps_ok ts
  obtain ⟨h1, h2, -, h4⟩ := hQ.steps e2
  exact ⟨s2, r2, e2, h1, fun i => by rw [h2]; exact hQ.vel i, h4⟩

example : 0 < demo.settings.maximumRange ∧ (∀ i, Representable (demo.pos i)) ∧ Representable ⟨123, 45⟩ :=
  ⟨by norm_num [demo, State.new, defaultSettings], demo_rep,
   rep_small (by norm_num [abs_of_pos]) (by norm_num [abs_of_pos])⟩

/-! ## Independence of the coordinates -/

theorem agree_steps {c : Pt → ℝ} (hc : IsCoord c) {s s' : State} (h : AgreeIn c s s') (ha : s.count ≠ 1)
    (ha' : s'.count ≠ 1) (ts : List ℕ) :
    Matches (fun r r' => AgreeIn c r.1 r'.1) (s.run (ts.map .step)) (s'.run (ts.map .step)) := by
  by_cases hd : ticks ts ≠ 0 ∧ dangling s.springs s.live
  · rw [steps_dangling hd.2 hd.1, steps_dangling ((dangling_agree h).2 hd.2) hd.1]
    trivial
  · obtain ⟨u, r1, h1⟩ := steps_inactive (s := s) ha (ts := ts) (fun h hh => hd ⟨h, hh⟩)
    obtain ⟨u', r2, h2⟩ := steps_inactive (s := s') ha' (ts := ts)
      (fun hh hh' => hd ⟨hh, (dangling_agree h).1 hh'⟩)
    rw [h1, h2]
    have := settleIter_agree hc (envAgree_of h) (q1 := ⟨s.pos, s.vel⟩) (q2 := ⟨s'.pos, s'.vel⟩) h.pos h.vel (ticks ts)
    exact ⟨fun i => (this i).1, fun i => (this i).2, h.anchors, h.springs, h.locks, h.springConstant, h.friction⟩

/-- **C58.** Without the range constraint (activation count not one, C45), horizontal motion does not depend on
anything vertical: two models that agree in their x coordinates still do after any `Step`s. -/
theorem C58_horizontal {s s' : State} (h : AgreeIn Pt.x s s') (ha : s.count ≠ 1) (ha' : s'.count ≠ 1) (ts : List ℕ) :
    Matches (fun r r' => AgreeIn Pt.x r.1 r'.1) (s.run (ts.map .step)) (s'.run (ts.map .step)) :=
  agree_steps isCoord_x h ha ha' ts

/-- **C58.** Nor does vertical motion depend on anything horizontal. -/
theorem C58_vertical {s s' : State} (h : AgreeIn Pt.y s s') (ha : s.count ≠ 1) (ha' : s'.count ≠ 1) (ts : List ℕ) :
    Matches (fun r r' => AgreeIn Pt.y r.1 r'.1) (s.run (ts.map .step)) (s'.run (ts.map .step)) :=
  agree_steps isCoord_y h ha ha' ts

/-- Two models of equal width and different heights. -/
example : AgreeIn Pt.x demo (State.new ⟨0, 50⟩ 300 600 defaultSettings 0) ∧ demo.count ≠ 1 := by
  refine ⟨⟨?_, fun _ => rfl, fun _ => rfl, ?_, rfl, rfl, rfl⟩, by simp [demo, State.new]⟩
  · intro i
    simp [demo, State.new, positionArray]
  · show List.Forall₂ _ (baseSprings _ _) (baseSprings _ _)
    unfold baseSprings
    rw [List.forall₂_map_left_iff, List.forall₂_map_right_iff, List.forall₂_same]
    intro y _
    refine ⟨rfl, rfl, ?_⟩
    by_cases hy : y.1.2.2 <;> simp [hy]

end Verif.Props
