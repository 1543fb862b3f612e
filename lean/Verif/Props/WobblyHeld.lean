import Verif.Props.WobblyLaw
import Verif.Props.WobblySteps

/-! # Wobbly: exactly where a lone grabbed point is after a step (C29) -/

namespace Verif.Props

open Wobbly Spec Outcome

variable {p : Pt} {w h : ℝ} {x : Settings} {b : ℕ} {ops : List Op} {rs : List Res} {s : State}

theorem euclid_segment {a c q : Pt} {t : ℝ} (ht : 0 ≤ t) (hx : q.x = a.x + t * (c.x - a.x))
    (hy : q.y = a.y + t * (c.y - a.y)) : euclid a q = t * euclid a c := by
  unfold euclid
  rw [hx, hy, show (a.x - (a.x + t * (c.x - a.x))) ^ 2 + (a.y - (a.y + t * (c.y - a.y))) ^ 2 =
    t ^ 2 * ((a.x - c.x) ^ 2 + (a.y - c.y) ^ 2) by ring, Real.sqrt_mul (sq_nonneg t), Real.sqrt_sq ht]

/-- The point of a segment at the distance of its far end is its far end. -/
theorem segment_end {a c q : Pt} (h : OnSegment a c q) (h0 : 0 < euclid a c) (hd : euclid a q = euclid a c) : q = c := by
  obtain ⟨t, h1, -, hx, hy⟩ := h
  rw [euclid_segment h1 hx hy] at hd
  have : t = 1 := by
    have : (t - 1) * euclid a c = 0 := by linarith
    rcases mul_eq_zero.1 this with h | h
    · linarith
    · exact absurd h h0.ne'
  rw [this] at hx hy
  ext
  · rw [hx]; ring
  · rw [hy]; ring

theorem segment_trans {a c q q' : Pt} (h : OnSegment a c q) (h' : OnSegment a q q') : OnSegment a c q' := by
  obtain ⟨t, h0, h1, hx, hy⟩ := h
  obtain ⟨t', h0', h1', hx', hy'⟩ := h'
  refine ⟨t * t', mul_nonneg h0 h0', mul_le_one₀ h1 h0' h1', ?_, ?_⟩
  · rw [hx', hx]; ring
  · rw [hy', hy]; ring

/-- One round of a held point that is out of range. -/
theorem round_far (ha : s.active) (hR : 0 < s.settings.maximumRange) {i : Idx} (hl : s.locks i > 0) {q q' : Phys} {m : Prop}
    (hf : s.settings.maximumRange ≤ euclid (s.targets i) (q.pos i)) (e : s.round q = .ok (q', m)) :
    OnSegment (s.targets i) (q.pos i) (q'.pos i) ∧ euclid (s.targets i) (q'.pos i) = s.settings.maximumRange ∧ m := by
  unfold State.round at e
  rw [if_pos ha] at e
  obtain ⟨pos', more, hc, -, -, k, km⟩ := C37_range_respected _ hR s.targets q.pos
  rw [hc, bind_ok] at e
  simp only [Outcome.ok.injEq, Prod.mk.injEq] at e
  obtain ⟨rfl, rfl⟩ := e
  have h1 := (springStep_locked s.env ⟨pos', q.vel⟩ (i := i) hl).1
  rw [h1]
  exact ⟨(k i hf).1, (k i hf).2, Or.inl (km.2 ⟨i, hf⟩)⟩

theorem integrate_far (ha : s.active) (hR : 0 < s.settings.maximumRange) {i : Idx} (hl : s.locks i > 0) {n : ℕ}
    {q q' : Phys} {m : Prop} (hf : s.settings.maximumRange ≤ euclid (s.targets i) (q.pos i))
    (e : s.integrate (n + 1) q = .ok (q', m)) :
    OnSegment (s.targets i) (q.pos i) (q'.pos i) ∧ euclid (s.targets i) (q'.pos i) = s.settings.maximumRange ∧ m := by
  induction n generalizing q m with
  | zero =>
    simp only [State.integrate] at e
    rw [bind_eq_ok] at e
    obtain ⟨⟨q1, m1⟩, h1, e⟩ := e
    simp only [bind_ok, Outcome.ok.injEq, Prod.mk.injEq] at e
    obtain ⟨rfl, rfl⟩ := e
    obtain ⟨k1, k2, k3⟩ := round_far ha hR hl hf h1
    exact ⟨k1, k2, Or.inl k3⟩
  | succ n ih =>
    rw [State.integrate, bind_eq_ok] at e
    obtain ⟨⟨q1, m1⟩, h1, e⟩ := e
    rw [bind_eq_ok] at e
    obtain ⟨⟨q2, m2⟩, h2, e⟩ := e
    simp only [Outcome.ok.injEq, Prod.mk.injEq] at e
    obtain ⟨rfl, rfl⟩ := e
    obtain ⟨k1, k2, k3⟩ := round_far ha hR hl hf h1
    obtain ⟨j1, j2, -⟩ := ih (q := q1) k2.ge h2
    exact ⟨segment_trans k1 j1, j2, Or.inl k3⟩

/-- The `Step` of a state in which the range constraint is at work, out of range. -/
theorem step_far (ha : s.active) (hR : 0 < s.settings.maximumRange) {i : Idx} (hl : s.locks i > 0) {t : ℕ} (ht : t ≠ 0)
    (hf : s.settings.maximumRange ≤ euclid (s.targets i) (s.pos i)) {s' : State} {r : Res}
    (es : s.exec (.step t) = .ok (s', r)) :
    (∃ m, r = .more m ∧ m) ∧ OnSegment (s.targets i) (s.pos i) (s'.pos i) ∧
      euclid (s.targets i) (s'.pos i) = s.settings.maximumRange ∧ s'.targets = s.targets ∧ s'.settings = s.settings ∧
      s'.locks = s.locks ∧ s'.count = s.count := by
  simp only [State.exec] at es
  unfold State.step at es
  by_cases hd : stepCount t ≠ 0 ∧ dangling s.springs s.live
  · rw [if_pos hd] at es
    simp at es
  · rw [if_neg hd, bind_eq_ok] at es
    obtain ⟨⟨q, mi⟩, hi, es⟩ := es
    simp only [Outcome.ok.injEq, Prod.mk.injEq] at es
    obtain ⟨rfl, rfl⟩ := es
    obtain ⟨n, hn⟩ := Nat.exists_eq_succ_of_ne_zero (stepCount_pos ht)
    rw [hn] at hi
    obtain ⟨k1, k2, k3⟩ := integrate_far ha hR hl hf hi
    refine ⟨⟨_, rfl, Or.inr k3⟩, ?_⟩
    simp only
    rw [if_neg (fun h => h.1 (Or.inr k3))]
    exact ⟨k1, k2, trivial, trivial, trivial, trivial⟩

/-- **C29.** Exactly where a `Step` puts a grabbed point whose anchor is the only one: on its target if `Step` answers
that nothing moves; where it was if something moves and it was within range of its target; and if it was out of range,
on the way to its target at the very end of the range, and then `Step` answers that something moves. So it stays where it
is exactly if it was on its target, or something moves and it was not beyond the range. -/
theorem C29_lone_grab (e : (State.new p w h x b).run ops = .ok (s, rs)) {k : ℕ} {i : Idx}
    (hl : s.live = [⟨k, .grab i⟩]) (hR : 0 < s.settings.maximumRange) {t : ℕ} (ht : t ≠ 0) {s' : State} {m : Prop}
    (es : s.exec (.step t) = .ok (s', .more m)) :
    (¬ m → s'.pos i = s.targets i) ∧
    (m → euclid (s.targets i) (s.pos i) < s.settings.maximumRange → s'.pos i = s.pos i) ∧
    (s.settings.maximumRange ≤ euclid (s.targets i) (s.pos i) → m ∧
      OnSegment (s.targets i) (s.pos i) (s'.pos i) ∧ euclid (s.targets i) (s'.pos i) = s.settings.maximumRange) ∧
    (s'.pos i = s.pos i ↔
      s.pos i = s.targets i ∨ m ∧ euclid (s.targets i) (s.pos i) ≤ s.settings.maximumRange) := by
  have hmem : (⟨k, .grab i⟩ : Live) ∈ s.live := by rw [hl]; simp
  have hlock : s.locks i > 0 := (C46_locks_count e i).2.2 ⟨_, hmem, rfl⟩
  have ha : s.active := by
    by_contra hc
    exact (not_active_iff e).2 hc (by rw [hl]; rfl)
  have k1 : ¬ m → s'.pos i = s.targets i := by
    intro hm
    simp only [State.exec] at es
    unfold State.step at es
    by_cases hd : stepCount t ≠ 0 ∧ dangling s.springs s.live
    · rw [if_pos hd] at es
      simp at es
    · rw [if_neg hd, bind_eq_ok] at es
      obtain ⟨⟨q, mi⟩, hi, es⟩ := es
      simp only [Outcome.ok.injEq, Prod.mk.injEq, Res.more.injEq] at es
      obtain ⟨rfl, rfl⟩ := es
      simp only
      rw [if_pos ⟨hm, ha⟩]
  have k2 : m → euclid (s.targets i) (s.pos i) < s.settings.maximumRange → s'.pos i = s.pos i := fun hm hd =>
    (C29_grabbed_point_partial e hmem es).2.2 hd hm
  have k3 : s.settings.maximumRange ≤ euclid (s.targets i) (s.pos i) → m ∧
      OnSegment (s.targets i) (s.pos i) (s'.pos i) ∧ euclid (s.targets i) (s'.pos i) = s.settings.maximumRange := by
    intro hf
    obtain ⟨⟨m', e', hm'⟩, j1, j2, -⟩ := step_far ha hR hlock ht hf es
    simp only [Res.more.injEq] at e'
    exact ⟨by rw [e']; exact hm', j1, j2⟩
  refine ⟨k1, k2, k3, ?_⟩
  have self : ∀ q : Pt, euclid q q = 0 := fun q => by simp [euclid]
  constructor
  · intro h
    by_cases hm : m
    · right
      refine ⟨hm, ?_⟩
      by_contra hc
      obtain ⟨-, -, j⟩ := k3 (not_le.1 hc).le
      rw [h] at j
      linarith
    · left
      rw [← h, k1 hm]
  · rintro (h | ⟨hm, h⟩)
    · by_cases hm : m
      · exact k2 hm (by rw [h, self]; exact hR)
      · rw [k1 hm, h]
    · rcases h.lt_or_eq with h | h
      · exact k2 hm h
      · obtain ⟨-, j1, j2⟩ := k3 h.ge
        exact segment_end j1 (by rw [h]; exact hR) (j2.trans h.symm)

/-- **C29 (negation), C31.** A lone grabbed point that is at the end of its range or beyond never lets the model settle:
every `Step` from then on answers that something moves, and after the first one the point stays at the end of its range. -/
theorem C29_out_of_range_never_settles (e : (State.new p w h x b).run ops = .ok (s, rs)) {k : ℕ} {i : Idx}
    (hl : s.live = [⟨k, .grab i⟩]) (hR : 0 < s.settings.maximumRange)
    (hf : s.settings.maximumRange ≤ euclid (s.targets i) (s.pos i)) (ts : List ℕ) (ht : ∀ t ∈ ts, t ≠ 0)
    {s' : State} {rs' : List Res} (e' : s.run (ts.map .step) = .ok (s', rs')) :
    (∀ r ∈ rs', ∃ m, r = .more m ∧ m) ∧
    (ts ≠ [] → OnSegment (s.targets i) (s.pos i) (s'.pos i) ∧
      euclid (s.targets i) (s'.pos i) = s.settings.maximumRange) := by
  have hlock : s.locks i > 0 := (C46_locks_count e i).2.2 ⟨⟨k, .grab i⟩, by rw [hl]; simp, rfl⟩
  have ha : s.active := by
    by_contra hc
    exact (not_active_iff e).2 hc (by rw [hl]; rfl)
  clear e hl
  induction ts generalizing s rs' with
  | nil =>
    simp only [List.map_nil, State.run, Outcome.ok.injEq, Prod.mk.injEq] at e'
    obtain ⟨-, rfl⟩ := e'
    exact ⟨by simp, by simp⟩
  | cons t ts ih =>
    simp only [List.map_cons, State.run] at e'
    rw [bind_eq_ok] at e'
    obtain ⟨⟨s1, r1⟩, h1, e'⟩ := e'
    rw [bind_eq_ok] at e'
    obtain ⟨⟨s2, r2⟩, h2, e'⟩ := e'
    simp only [Outcome.ok.injEq, Prod.mk.injEq] at e'
    obtain ⟨rfl, rfl⟩ := e'
    obtain ⟨a1, a2, a3, a4, a5, a6, a7⟩ := step_far ha hR hlock (ht t (by simp)) hf h1
    obtain ⟨b1, b2⟩ := ih (s := s1) (by rw [a5]; exact hR) (by rw [a4, a5, a3]) (fun t h => ht t (by simp [h])) h2
      (by rw [a6]; exact hlock) (by unfold State.active at ha ⊢; rw [a7]; exact ha)
    refine ⟨fun r hr => ?_, fun _ => ?_⟩
    · rcases List.mem_cons.1 hr with rfl | hr
      · exact a1
      · exact b1 r hr
    · cases ts with
      | nil =>
        simp only [List.map_nil, State.run, Outcome.ok.injEq, Prod.mk.injEq] at h2
        obtain ⟨rfl, -⟩ := h2
        exact ⟨a2, a3⟩
      | cons t' ts =>
        obtain ⟨c1, c2⟩ := b2 (by simp)
        rw [a4] at c1 c2
        rw [a5] at c2
        exact ⟨segment_trans a2 c1, c2⟩

/-- Nudging one of two anchors that grab the same point and releasing the other leaves the point out of range. -/
theorem nudge_far (p : Pt) (w h : ℝ) (x : Settings) (b : ℕ) (i : Idx) (hi : i ≠ 0) (hw : w ≠ 0) (hh : h ≠ 0)
    (hx : x.maximumRange < 9 / 10) (hz : ∀ i, Representable ((State.new p w h x b).pos i)) :
    ∃ s rs, (State.new p w h x b).run [.grab ((State.new p w h x b).pos i), .grab ((State.new p w h x b).pos i),
        .moveAnchor 0 ⟨9 / 10, 0⟩, .release 1] = .ok (s, rs) ∧ s.live = [⟨0, .grab i⟩] ∧ s.settings = x ∧
      s.settings.maximumRange < euclid (s.targets i) (s.pos i) := by
  obtain ⟨s, rs, e, hl, hp, ht, hs, -⟩ := nudge_history p w h x b i hi hw hh hz
  refine ⟨s, rs, e, hl, hs, ?_⟩
  rw [ht, hp, hs, Function.update_self]
  unfold euclid
  rw [show ((State.new p w h x b).pos i).x - ((State.new p w h x b).pos i + ⟨9 / 10, 0⟩ : Pt).x = -(9 / 10) by simp,
    show ((State.new p w h x b).pos i).y - ((State.new p w h x b).pos i + ⟨9 / 10, 0⟩ : Pt).y = 0 by simp,
    show ((-(9 / 10)) ^ 2 + 0 ^ 2 : ℝ) = (9 / 10) ^ 2 by norm_num, Real.sqrt_sq (by norm_num)]
  exact hx

/-- **C29 (negation).** The range constraint, too, moves grabbed points: in the history of `C29_snap_moves_grabbed` with a
movement range below 0.9 pixels, the next `Step` pulls the point back to the end of its range. -/
theorem C29_range_moves_grabbed (p : Pt) (w h : ℝ) (x : Settings) (b : ℕ) (i : Idx) (hi : i ≠ 0) (hw : w ≠ 0)
    (hh : h ≠ 0) (hx0 : 0 < x.maximumRange) (hx : x.maximumRange < 9 / 10)
    (hz : ∀ i, Representable ((State.new p w h x b).pos i)) :
    ∃ s rs, (State.new p w h x b).run [.grab ((State.new p w h x b).pos i), .grab ((State.new p w h x b).pos i),
        .moveAnchor 0 ⟨9 / 10, 0⟩, .release 1] = .ok (s, rs) ∧ s.live = [⟨0, .grab i⟩] ∧
      ∃ s' m, s.exec (.step 16) = .ok (s', .more m) ∧ m ∧ s'.pos i ≠ s.pos i := by
  obtain ⟨s, rs, e, hl, hs, hf⟩ := nudge_far p w h x b i hi hw hh hx hz
  have hR : 0 < s.settings.maximumRange := by rw [hs]; exact hx0
  have h1 : (owned [] [.grab ((State.new p w h x b).pos i), .grab ((State.new p w h x b).pos i),
      .moveAnchor 0 ⟨9 / 10, 0⟩, .release 1] rs).length = 1 := by
    have : s.live.map Live.hid = owned [] _ rs := live_owned e
    rw [← this, hl]
    rfl
  have hd : EndsOwned s := by
    by_contra hc
    obtain ⟨a, ha, y, hy, -⟩ := (C49_undefined_iff e (t := 16) (by norm_num)).1 ((C49_step_iff s (by norm_num)).2 hc)
    rw [hl, List.mem_singleton] at ha
    subst ha
    simp [TakenOutBy] at hy
  obtain ⟨-, s', m, -, es, -⟩ := C95_held_tick e h1 hd hR
  obtain ⟨-, -, k3, k4⟩ := C29_lone_grab e hl hR (by norm_num) es
  refine ⟨s, rs, e, hl, s', m, es, (k3 hf.le).1, fun hc => ?_⟩
  rcases k4.1 hc with h1 | ⟨-, h1⟩
  · rw [h1] at hf
    simp [euclid] at hf
    linarith
  · linarith

example : (5 : Idx) ≠ 0 ∧ (300 : ℝ) ≠ 0 ∧ (0 : ℝ) < 1 / 2 ∧ (1 / 2 : ℝ) < 9 / 10 ∧
    ∀ i, Representable ((State.new ⟨0, 0⟩ 300 300 ⟨8, 3, 1 / 2⟩ 0).pos i) :=
  ⟨by decide, by norm_num, by norm_num, by norm_num, demo_rep⟩

/-- The history meets the hypotheses of `C29_lone_grab` and of `C29_out_of_range_never_settles`. -/
example : ∃ s rs, (State.new ⟨0, 0⟩ 300 300 ⟨8, 3, 1 / 2⟩ 0).run [.grab (demo.pos 5), .grab (demo.pos 5),
      .moveAnchor 0 ⟨9 / 10, 0⟩, .release 1] = .ok (s, rs) ∧ s.live = [⟨0, .grab 5⟩] ∧ 0 < s.settings.maximumRange ∧
    s.settings.maximumRange ≤ euclid (s.targets 5) (s.pos 5) := by
  obtain ⟨s, rs, e, hl, hs, hf⟩ := nudge_far ⟨0, 0⟩ 300 300 ⟨8, 3, 1 / 2⟩ 0 5 (by decide) (by norm_num) (by norm_num)
    (by norm_num) demo_rep
  exact ⟨s, rs, e, hl, by rw [hs]; norm_num, hf.le⟩

end Verif.Props
