import Verif.Lemmas.WobblyBits
import Verif.Props.WobblyBook

/-! # Wobbly: held points, ticks and the two directions, whatever the rounding (C127)

As in C126 the rounding function `r` is any function. What is claimed is equality, not closeness. -/

namespace Verif.Props

open Wobbly Wobbly.Rounded Spec Outcome Classical

noncomputable section

variable {r : ℝ → ℝ} {p : Pt} {w h : ℝ} {x : Settings} {b : ℕ} {ops : List Op} {rs : List Res} {s : State}

/-- **C127.** A grabbed point has no velocity after a `Step` over a time that is not zero. If the program owns another anchor
too, the point is where it was, to the last bit. If not, it is where it was provided its distance from its target, as
computed, is below the range and `Step` answers that something moves. -/
theorem C127_held (e : run r (Rounded.new r p w h x b) ops = .ok (s, rs)) {k : ℕ} {i : Idx}
    (ha : (⟨k, .grab i⟩ : Live) ∈ s.live) {t : ℕ} {s' : State} {m : Prop} (es : exec r s (.step t) = .ok (s', .more m)) :
    (t ≠ 0 → s'.vel i = 0) ∧ (2 ≤ (owned [] ops rs).length → s'.pos i = s.pos i) ∧
    (Rounded.distance r (s.targets i) (s.pos i) < s.settings.maximumRange → m → s'.pos i = s.pos i) := by
  have hlock : s.locks i > 0 := (C126_locks e i).2.2 ⟨_, ha, rfl⟩
  obtain ⟨q, u, hq, hv, -, hp⟩ := step_did es
  obtain ⟨-, h2⟩ := rounds_held hq
  obtain ⟨h3, h4⟩ := h2 i hlock
  refine ⟨fun ht => by rw [hv]; exact h3 (stepCount_pos ht), fun h2 => ?_, fun hr hm => ?_⟩
  · have hna : ¬ s.active := by
      rw [(C126_tracking e).2]
      omega
    rw [hp, if_neg fun h => hna h.2]
    exact h4 fun h => absurd h hna
  · rw [hp, if_neg fun h => h.1 hm]
    exact h4 fun _ => hr

/-- **C127.** After a `Step` over a time that is not zero every velocity coordinate is zero or at least the computed 0.1 in
magnitude. If `Step` answers that nothing moves, all are zero. -/
theorem C127_velocities {t : ℕ} (ht : t ≠ 0) {s' : State} {m : Prop} (es : exec r s (.step t) = .ok (s', .more m)) (i : Idx) :
    (((s'.vel i).x = 0 ∨ r (1 / 10) ≤ |(s'.vel i).x|) ∧ ((s'.vel i).y = 0 ∨ r (1 / 10) ≤ |(s'.vel i).y|)) ∧
    (¬ m → s'.vel i = 0) := by
  obtain ⟨q, u, hq, hv, hm, -⟩ := step_did es
  rw [hv]
  exact ⟨(rounds_held hq).1 (stepCount_pos ht) i, fun h => rounds_rest hq (fun hu => h (hm.2 (.inr hu))) (stepCount_pos ht) i⟩

/-- **C127.** `Step (0)` always returns what is pending: the answer of the last `Step`, or yes if an anchor was made since, or
no if there was neither. No velocity changes. No point moves, except that with one anchor and nothing pending the mesh is
put on its targets. -/
theorem C127_zero_time (e : run r (Rounded.new r p w h x b) ops = .ok (s, rs)) :
    ∃ s', exec r s (.step 0) = .ok (s', .more (pendingFlag False ops rs)) ∧ s'.vel = s.vel ∧
      (((owned [] ops rs).length = 1 ∧ ¬ pendingFlag False ops rs → s'.pos = s.targets) ∧
       (¬ ((owned [] ops rs).length = 1 ∧ ¬ pendingFlag False ops rs) → s'.pos = s.pos)) := by
  have hu : s.unequal = pendingFlag False ops rs := unequal_runR e
  have ha := (C126_tracking e).2
  rw [Rounded.step_zero, ← hu]
  refine ⟨_, rfl, rfl, ?_, ?_⟩
  · rintro ⟨h1, h2⟩
    exact if_pos ⟨h2, ha.2 h1⟩
  · intro h
    exact if_neg fun hh => h ⟨ha.1 hh.2, hh.1⟩

/-- **C127.** The effect and the answer of `Step (t)` depend on `t` only through the number of started 16 ms ticks. -/
theorem C127_whole_ticks (s : State) {t t' : ℕ} (h : (t + 15) / 16 = (t' + 15) / 16) :
    exec r s (.step t) = exec r s (.step t') :=
  step_ticks s (by rw [stepCount_eq, stepCount_eq, h]) (by omega)

/-- **C127.** Unless exactly one anchor is owned, only the total number of started ticks counts: two sequences of `Step`s with
the same total lead to the same mesh and the same velocities, to the last bit, or both read freed memory. If no time is
zero, then one of the first answers that something moves exactly if one of the second does. -/
theorem C127_total_ticks (e : run r (Rounded.new r p w h x b) ops = .ok (s, rs)) (hl : (owned [] ops rs).length ≠ 1)
    {ts ts' : List ℕ} (ht : (ts.map fun t => (t + 15) / 16).sum = (ts'.map fun t => (t + 15) / 16).sum) :
    Matches (fun a a' => a'.1.pos = a.1.pos ∧ a'.1.vel = a.1.vel ∧ ((∀ t ∈ ts, t ≠ 0) → (∀ t ∈ ts', t ≠ 0) →
        ((∃ m, Res.more m ∈ a'.2 ∧ m) ↔ ∃ m, Res.more m ∈ a.2 ∧ m)))
      (run r s (ts.map .step)) (run r s (ts'.map .step)) := by
  have hna : ¬ s.active := fun h => hl ((C126_tracking e).2.1 h)
  have ht' : ticks ts = ticks ts' := by
    unfold ticks
    simp only [funext stepCount_eq]
    exact ht
  by_cases hd : ticks ts ≠ 0 ∧ dangling s.springs s.live
  · rw [steps_danglingR hd.2 hd.1, steps_danglingR hd.2 (by rw [← ht']; exact hd.1)]
    trivial
  · obtain ⟨u, r1, h1, m1⟩ := steps_answersR (r := r) hna (ts := ts) (fun h hh => hd ⟨h, hh⟩)
    obtain ⟨u', r2, h2, m2⟩ := steps_answersR (r := r) hna (ts := ts') (fun h hh => hd ⟨by rw [ht']; exact h, hh⟩)
    rw [h1, h2, ht']
    refine ⟨rfl, rfl, fun z z' => ?_⟩
    show (∃ m, Res.more m ∈ r2 ∧ m) ↔ ∃ m, Res.more m ∈ r1 ∧ m
    rw [m1 z, m2 z', ht']

/-- **C127.** Unless tracking is on (C126: exactly one anchor), horizontal motion does not depend on anything vertical, nor
vertical motion on anything horizontal: two models that agree in one coordinate still do after any `Step`s, to the last
bit. -/
theorem C127_directions {s s' : State} (ha : s.count ≠ 1) (ha' : s'.count ≠ 1) (ts : List ℕ) :
    (AgreeIn Pt.x s s' →
      Matches (fun a a' => AgreeIn Pt.x a.1 a'.1) (run r s (ts.map .step)) (run r s' (ts.map .step))) ∧
    (AgreeIn Pt.y s s' →
      Matches (fun a a' => AgreeIn Pt.y a.1 a'.1) (run r s (ts.map .step)) (run r s' (ts.map .step))) :=
  ⟨fun h => agree_stepsR (isCoordR_x r) h ha ha' ts, fun h => agree_stepsR (isCoordR_y r) h ha ha' ts⟩

/-- **C127.** `Anchor::MoveBy (d)` on a grab replaces the grabbed point by its computed sum with `d` and moves nothing else in
the mesh; on an inserted anchor it does so with the anchor's own point and moves no mesh point. The targets are moved exactly
when no other anchor is owned. Velocities, springs and pins stay. -/
theorem C127_move_anchor (e : run r (Rounded.new r p w h x b) ops = .ok (s, rs)) {a : Live} (ha : a ∈ s.live) {d : Pt}
    {s' : State} {y : Res} (em : exec r s (.moveAnchor a.hid d) = .ok (s', y)) :
    (∀ i, a.kind = .grab i → s'.pos i = ⟨r ((s.pos i).x + d.x), r ((s.pos i).y + d.y)⟩ ∧
      (∀ j, j ≠ i → s'.pos j = s.pos j) ∧ s'.live = s.live) ∧
    (IsInserted a → s'.pos = s.pos ∧
      ∃ q, anchorData s.live a.hid = some q ∧ anchorData s'.live a.hid = some ⟨r (q.x + d.x), r (q.y + d.y)⟩ ∧
        ∀ k, k ≠ a.hid → anchorData s'.live k = anchorData s.live k) ∧
    ((owned [] ops rs).length = 1 → ∀ i, s'.targets i = ⟨r ((s.targets i).x + d.x), r ((s.targets i).y + d.y)⟩) ∧
    ((owned [] ops rs).length ≠ 1 → s'.targets = s.targets) ∧
    s'.vel = s.vel ∧ s'.springs = s.springs ∧ s'.locks = s.locks := by
  have B := run_book e
  have hact := (C126_tracking e).2
  obtain ⟨a', hf⟩ : ∃ a', s.live.find? (fun c => decide (c.hid = a.hid)) = some a' := by
    cases hf : s.live.find? (fun c => decide (c.hid = a.hid)) with
    | none =>
      rw [List.find?_eq_none] at hf
      exact absurd (hf _ ha) (by simp)
    | some a' => exact ⟨a', rfl⟩
  obtain rfl : a' = a := hid_inj B.inv.hids (find_live hf).1 ha (find_live hf).2
  simp only [exec, Rounded.moveAnchor, hf] at em
  have tar : ((owned [] ops rs).length = 1 → ∀ i, (if s.active then fun i => Rounded.add r (s.targets i) d else s.targets) i =
      ⟨r ((s.targets i).x + d.x), r ((s.targets i).y + d.y)⟩) ∧
      ((owned [] ops rs).length ≠ 1 → (if s.active then fun i => Rounded.add r (s.targets i) d else s.targets) = s.targets) := by
    refine ⟨fun h i => ?_, fun h => ?_⟩
    · rw [if_pos (hact.2 h)]
      rfl
    · rw [if_neg fun ha => h (hact.1 ha)]
  cases hk : a'.kind with
  | grab i =>
    rw [hk] at em
    simp only [Outcome.ok.injEq, Prod.mk.injEq] at em
    obtain ⟨rfl, -⟩ := em
    refine ⟨fun j hj => ?_, ?_, tar.1, tar.2, rfl, rfl, rfl⟩
    · obtain rfl : i = j := by simpa using hj
      refine ⟨?_, fun l hl => ?_, rfl⟩
      · simp only [Function.update_self]
        rfl
      · simp only [Function.update_of_ne hl]
    · rintro ⟨q, st, f, g, hk'⟩
      rw [hk] at hk'
      cases hk'
  | ins q st f g =>
    rw [hk] at em
    simp only [Outcome.ok.injEq, Prod.mk.injEq] at em
    obtain ⟨rfl, -⟩ := em
    refine ⟨fun j hj => (by cases hj), fun _ => ⟨rfl, q, ?_, ?_, fun k hne => ?_⟩, tar.1, tar.2, rfl, rfl, rfl⟩
    · exact anchorData_of_mem B.inv.hids ha hk
    · rw [anchorData_moveR, if_pos rfl, show anchorData s.live a'.hid = some q from anchorData_of_mem B.inv.hids ha hk]
      rfl
    · rw [anchorData_moveR, if_neg hne]

/-- **C127.** Making or releasing an anchor, changing settings and calls on other models move no point and change no
velocity. `MoveModelBy (d)` replaces each mesh point by its computed sum with `d` and changes no velocity. -/
theorem C127_mesh_stays {op : Op} {s' : State} {y : Res} (e : exec r s op = .ok (s', y)) :
    ((∃ q, op = .grab q) ∨ (∃ q, op = .insert q) ∨ (∃ k, op = .release k) ∨ (∃ z, op = .setSettings z) ∨ (∃ n, op = .elsewhere n) →
      s'.pos = s.pos ∧ s'.vel = s.vel) ∧
    ∀ d, op = .moveBy d → (∀ i, s'.pos i = ⟨r ((s.pos i).x + d.x), r ((s.pos i).y + d.y)⟩) ∧ s'.vel = s.vel := by
  refine ⟨?_, ?_⟩
  · rintro (⟨q, rfl⟩ | ⟨q, rfl⟩ | ⟨k, rfl⟩ | ⟨z, rfl⟩ | ⟨n, rfl⟩)
    · obtain ⟨i, t, n, -, -, rfl, -⟩ := grab_fields e
      exact ⟨rfl, rfl⟩
    · obtain ⟨t, n, f, d1, d2, -, -, rfl, -⟩ := insert_fields e
      exact ⟨rfl, rfl⟩
    · obtain ⟨-, rfl, -⟩ | ⟨a, s1, t, n, -, h1, -, -, rfl, -⟩ := release_fields e
      · exact ⟨rfl, rfl⟩
      · have := releaseKind_keeps h1
        exact ⟨this.1, this.2.1⟩
    · simp only [exec, Outcome.ok.injEq, Prod.mk.injEq] at e
      rw [← e.1]
      exact ⟨rfl, rfl⟩
    · simp only [exec, Outcome.ok.injEq, Prod.mk.injEq] at e
      rw [← e.1]
      exact ⟨rfl, rfl⟩
  · rintro d rfl
    simp only [exec, Outcome.ok.injEq, Prod.mk.injEq] at e
    rw [← e.1]
    exact ⟨fun _ => rfl, rfl⟩

/-- A point stretched about `o`, as computed. -/
def stretchedR (r : ℝ → ℝ) (f o q : Pt) : Pt := ⟨r (r (r (q.x - o.x) * f.x) + o.x), r (r (r (q.y - o.y) * f.y) + o.y)⟩

/-- **C127.** `MoveModelBy`, `MoveModelTo` and `ResizeModel` treat mesh points and inserted anchors alike: the first two
replace every one by its computed sum with one and the same vector, the last stretches every one about one and the same point
by the computed ratios of the sizes, or does nothing if these are one. The vector of `MoveModelTo` and the centre of
`ResizeModel` come from the same place, the first target if exactly one anchor is owned. No velocity and no pin changes. -/
theorem C127_model_moves (e : run r (Rounded.new r p w h x b) ops = .ok (s, rs)) {s' : State} {y : Res} :
    (∀ d, exec r s (.moveBy d) = .ok (s', y) → (∀ i, s'.pos i = ⟨r ((s.pos i).x + d.x), r ((s.pos i).y + d.y)⟩) ∧
      (∀ k, anchorData s'.live k = (anchorData s.live k).map fun q => ⟨r (q.x + d.x), r (q.y + d.y)⟩) ∧
      s'.vel = s.vel ∧ s'.locks = s.locks ∧ s'.springs = s.springs) ∧
    ∃ o : Pt, ((owned [] ops rs).length = 1 → o = s.targets 0) ∧
      (∀ q, exec r s (.moveTo q) = .ok (s', y) → ∃ d : Pt, d = ⟨r (q.x - o.x), r (q.y - o.y)⟩ ∧
        (∀ i, s'.pos i = ⟨r ((s.pos i).x + d.x), r ((s.pos i).y + d.y)⟩) ∧
        (∀ k, anchorData s'.live k = (anchorData s.live k).map fun q => ⟨r (q.x + d.x), r (q.y + d.y)⟩) ∧
        s'.vel = s.vel ∧ s'.locks = s.locks ∧ s'.springs = s.springs) ∧
      (∀ w' h', exec r s (.resize w' h') = .ok (s', y) → ∃ f : Pt, f = ⟨r (w' / s.width), r (h' / s.height)⟩ ∧
        ((f.x = 1 ∧ f.y = 1) → s' = s) ∧
        (¬ (f.x = 1 ∧ f.y = 1) → (∀ i, s'.pos i = stretchedR r f o (s.pos i)) ∧
          (∀ k, anchorData s'.live k = (anchorData s.live k).map (stretchedR r f o)) ∧
          (∀ i, s'.targets i = stretchedR r f (s.targets 0) (s.targets i)) ∧
          s'.vel = s.vel ∧ s'.locks = s.locks ∧ s'.width = w' ∧ s'.height = h' ∧
          s'.springs = s.springs.map fun z => ⟨z.id, z.a, z.b, ⟨r (z.desired.x * f.x), r (z.desired.y * f.y)⟩⟩)) := by
  have hact := (C126_tracking e).2
  have mv : ∀ (s1 : State) d, (∀ i, (moveBy r s1 d).pos i = ⟨r ((s1.pos i).x + d.x), r ((s1.pos i).y + d.y)⟩) ∧
      (∀ k, anchorData (moveBy r s1 d).live k = (anchorData s1.live k).map fun q => ⟨r (q.x + d.x), r (q.y + d.y)⟩) ∧
      (moveBy r s1 d).vel = s1.vel ∧ (moveBy r s1 d).locks = s1.locks ∧ (moveBy r s1 d).springs = s1.springs :=
    fun s1 d => ⟨fun _ => rfl, fun k => anchorData_shiftR _ _ _, rfl, rfl, rfl⟩
  refine ⟨fun d h => ?_, ?_⟩
  · simp only [exec, Outcome.ok.injEq, Prod.mk.injEq] at h
    rw [← h.1]
    exact mv s d
  · by_cases ht : ∃ n o, Rounded.targetPosition r s = .ok (({ s with lastId := n } : State), o)
    · obtain ⟨n, o, ht⟩ := ht
      refine ⟨o, fun h1 => ?_, fun q h => ?_, fun w' h' h => ?_⟩
      · have ha := hact.2 h1
        unfold Rounded.targetPosition at ht
        rw [if_pos ha] at ht
        simp only [Outcome.ok.injEq, Prod.mk.injEq] at ht
        exact ht.2.symm
      · simp only [exec, Rounded.moveTo, ht, bind_ok, Outcome.ok.injEq, Prod.mk.injEq] at h
        rw [← h.1]
        exact ⟨_, rfl, mv _ _⟩
      · simp only [exec, Rounded.resize, ht, bind_ok] at h
        refine ⟨_, rfl, fun h1 => ?_, fun h1 => ?_⟩
        · rw [if_pos (show Pt.equals (⟨r (w' / s.width), r (h' / s.height)⟩ : Pt) ⟨1, 1⟩ from ⟨h1.2, h1.1⟩)] at h
          split_ifs at h
          simp only [Outcome.ok.injEq, Prod.mk.injEq] at h
          exact h.1.symm
        · rw [if_neg (show ¬ Pt.equals (⟨r (w' / s.width), r (h' / s.height)⟩ : Pt) ⟨1, 1⟩ from fun hh => h1 ⟨hh.2, hh.1⟩)] at h
          split_ifs at h
          simp only [Outcome.ok.injEq, Prod.mk.injEq] at h
          rw [← h.1]
          exact ⟨fun _ => rfl, fun k => anchorData_scaleR _ _ _ _, fun _ => rfl, rfl, rfl, rfl, rfl, rfl⟩
    · have hno : ∀ z, Rounded.targetPosition r s ≠ .ok z := by
        rintro ⟨s1, o⟩ h1
        obtain ⟨n, -, rfl⟩ := targetPosition_fields h1
        exact ht ⟨n, o, h1⟩
      refine ⟨s.targets 0, fun _ => rfl, fun q h => ?_, fun w' h' h => ?_⟩
      · simp only [exec, Rounded.moveTo, bind_eq_ok] at h
        obtain ⟨z, hz, -⟩ := h
        exact absurd hz (hno z)
      · refine ⟨_, rfl, fun h1 => ?_, fun h1 => ?_⟩
        · simp only [exec, Rounded.resize] at h
          rw [if_pos (show Pt.equals (⟨r (w' / s.width), r (h' / s.height)⟩ : Pt) ⟨1, 1⟩ from ⟨h1.2, h1.1⟩)] at h
          split_ifs at h
          simp only [Outcome.ok.injEq, Prod.mk.injEq] at h
          exact h.1.symm
        · simp only [exec, Rounded.resize] at h
          rw [if_neg (show ¬ Pt.equals (⟨r (w' / s.width), r (h' / s.height)⟩ : Pt) ⟨1, 1⟩ from fun hh => h1 ⟨hh.2, hh.1⟩)] at h
          split_ifs at h
          rw [bind_eq_ok] at h
          obtain ⟨z, hz, -⟩ := h
          exact absurd hz (hno z)

/-! The hypotheses can be met. -/

variable (R : Rounding64)

/-- Those of `C127_held`, `C127_velocities` and `C127_total_ticks`, while points move: two points are held, others have
velocity, and `Step (16)` returns. -/
example (b : ℕ) : ∃ ops s rs s' m, run R.rnd (Rounded.new R.rnd ⟨0, 0⟩ 300 300 ⟨8, 10, 500⟩ b) ops = .ok (s, rs) ∧
    (⟨0, .grab 0⟩ : Live) ∈ s.live ∧ 1 / 4 < (s.vel 1).x ∧ 2 ≤ (owned [] ops rs).length ∧
    exec R.rnd s (.step 16) = .ok (s', .more m) ∧
    (([5, 20] : List ℕ).map fun t => (t + 15) / 16).sum = (([48] : List ℕ).map fun t => (t + 15) / 16).sum := by
  obtain ⟨s, rs, e, hl, hsp, -, hv⟩ := moving_history R b
  have hlen : 2 ≤ (owned [] [.grab ⟨0, 0⟩, .grab ⟨300, 300⟩, .moveAnchor 0 ⟨1, 0⟩, .step 16] rs).length := by
    rw [← (C126_tracking e).1, show s.count = s.live.length from (run_book e).inv.count, hl]
    simp
  have hna : ¬ s.active := by
    rw [(C126_tracking e).2]
    omega
  have hd : ¬ dangling s.springs s.live := mesh_ends_sound fun y hy => by
    rw [hsp] at hy
    exact base_ends_mesh hy
  obtain ⟨u, ys, h1, -⟩ := steps_answersR (r := R.rnd) hna (ts := [16]) fun _ => hd
  simp only [List.map_cons, List.map_nil, run, bind_eq_ok] at h1
  obtain ⟨⟨s', y⟩, h1, -⟩ := h1
  obtain ⟨-, -, m, -, rfl⟩ := Rounded.step_fields h1
  exact ⟨_, s, rs, s', m, e, by rw [hl]; simp, hv, hlen, h1, by decide⟩

/-- Those of `C127_move_anchor`. -/
example (b : ℕ) : ∃ ops s rs s' y, run R.rnd (Rounded.new R.rnd ⟨0, 0⟩ 300 300 ⟨8, 10, 500⟩ b) ops = .ok (s, rs) ∧
    (⟨0, .grab 0⟩ : Live) ∈ s.live ∧ exec R.rnd s (.moveAnchor 0 ⟨5, 7⟩) = .ok (s', y) := by
  obtain ⟨s, rs, e, hl, hsp, -, hv⟩ := moving_history R b
  have h : ∃ z : State × Res, exec R.rnd s (.moveAnchor 0 ⟨5, 7⟩) = .ok z := by
    simp only [exec, Rounded.moveAnchor, hl, List.find?_cons_of_pos, decide_true]
    exact ⟨_, rfl⟩
  obtain ⟨⟨s', y⟩, h⟩ := h
  exact ⟨_, s, rs, s', y, e, by rw [hl]; simp, h⟩

/-- Those of `C127_model_moves`: with one anchor, moving and stretching return. -/
example (b : ℕ) : ∃ ops s rs s' s'' y z, run R.rnd (Rounded.new R.rnd ⟨0, 0⟩ 300 300 ⟨8, 5, 500⟩ b) ops = .ok (s, rs) ∧
    (owned [] ops rs).length = 1 ∧ exec R.rnd s (.moveTo ⟨70, 80⟩) = .ok (s', y) ∧ exec R.rnd s (.resize 600 450) = .ok (s'', z) := by
  obtain ⟨s, e, -, -, -, hw, hh, -, -, hl, hc, -, -⟩ := whole_grab R (b := b) (x := ⟨8, 5, 500⟩) (by norm_num) (by norm_num) 0
  have er : run R.rnd (Rounded.new R.rnd ⟨0, 0⟩ 300 300 ⟨8, 5, 500⟩ b) [.grab (wholeMesh 0)] = .ok (s, [.handle 0]) := by
    simp only [run, e, bind_ok]
  have ht : Rounded.targetPosition R.rnd s = .ok (s, s.targets 0) := if_pos hc
  have h1 : ∃ z : State × Res, exec R.rnd s (.resize 600 450) = .ok z := by
    simp only [exec, Rounded.resize, ht, bind_ok, hw, hh]
    norm_num
    split_ifs
    · exact ⟨_, _, rfl⟩
    · exact ⟨_, _, rfl⟩
  obtain ⟨⟨s'', z⟩, h1⟩ := h1
  have h2 : exec R.rnd s (.moveTo ⟨70, 80⟩) = .ok (moveBy R.rnd s (Rounded.sub R.rnd ⟨70, 80⟩ (s.targets 0)), .none) := by
    simp only [exec, Rounded.moveTo, ht, bind_ok]
  exact ⟨_, s, _, _, s'', .none, z, er, by simp [owned], h2, h1⟩

/-- Those of `C127_directions`: a model moved downwards agrees with the one that stayed in the horizontal coordinate and
differs in the other. -/
example (b : ℕ) : ∃ s, exec R.rnd (Rounded.new R.rnd ⟨0, 0⟩ 300 300 ⟨8, 5, 500⟩ b) (.moveBy ⟨0, 64⟩) = .ok (s, .none) ∧
    s.count ≠ 1 ∧ AgreeIn Pt.x (Rounded.new R.rnd ⟨0, 0⟩ 300 300 ⟨8, 5, 500⟩ b) s ∧
    s.pos 0 ≠ (Rounded.new R.rnd ⟨0, 0⟩ 300 300 ⟨8, 5, 500⟩ b).pos 0 := by
  obtain ⟨hp, -, -⟩ := whole_new R ⟨8, 5, 500⟩ b
  have hw : ∀ i, R.rnd (wholeMesh i).x = (wholeMesh i).x := by
    intro i
    have h3 := (wholeMesh_small i).1
    have h0 : (0 : ℝ) ≤ col i := Nat.cast_nonneg _
    have e : (wholeMesh i).x = ((100 * col i : ℤ) : ℝ) := by simp [wholeMesh]
    rw [e]
    refine (whole_int (n := 2 ^ 52) ?_).exact R
    rw [← e]
    simp only [wholeMesh]
    rw [abs_of_nonneg (by positivity)]
    norm_num
    linarith
  refine ⟨_, rfl, by simp [Rounded.moveBy, Rounded.new], ⟨fun i => ?_, fun i => rfl, fun _ => rfl, ?_, rfl, rfl, rfl⟩, ?_⟩
  · show R.rnd (((Rounded.new R.rnd ⟨0, 0⟩ 300 300 ⟨8, 5, 500⟩ b).pos i).x + 0) = _
    rw [add_zero, hp]
    exact hw i
  · exact List.forall₂_same.2 fun y _ => ⟨rfl, rfl, rfl⟩
  · show Rounded.add R.rnd ((Rounded.new R.rnd ⟨0, 0⟩ 300 300 ⟨8, 5, 500⟩ b).pos 0) ⟨0, 64⟩ ≠ _
    rw [hp]
    intro h
    have h1 := congrArg Pt.y h
    simp only [Rounded.add, wholeMesh, row] at h1
    have h64 : R.rnd 64 = 64 := by
      rw [show (64 : ℝ) = ((64 : ℤ) : ℝ) by norm_num]
      exact (whole_int (n := 2 ^ 52) (by norm_num)).exact R
    norm_num [h64] at h1

end

end Verif.Props
