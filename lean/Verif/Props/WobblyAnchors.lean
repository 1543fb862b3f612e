import Verif.Lemmas.WobblyDemo
import Verif.Lemmas.WobblyRests
import Verif.Spec.Motion

/-! # Wobbly: anchors over whole histories (C28, C45-C51, C53, C54)

`(State.new p w h x b).run ops = .ok (s, rs)` says: a model is made at `p` with size `w` by `h` and settings
`x` when `b` spring identifiers had been used in the process; the calls `ops` are made one after the other,
all of them return, giving `rs`, and `s` is the state reached. -/

namespace Verif.Props

open Wobbly Spec Outcome

variable {p : Pt} {w h : ℝ} {x : Settings} {b : ℕ} {ops : List Op} {rs : List Res} {s : State}

theorem run_one {op : Op} {s' : State} {r : Res} (h : s.exec op = .ok (s', r)) : s.run [op] = .ok (s', [r]) := by
  simp only [State.run, h, bind_ok]

/-! ## Grabbing -/

/-- **C28.** `GrabAnchor (q)` pins (adds one lock to) the mesh point nearest to `q`, the first in row-major
order on ties; no point moves and no other point is pinned. The new anchor holds that point. -/
theorem C28_grab_nearest {s' : State} {q : Pt} {r : Res} (e : s.exec (.grab q) = .ok (s', r)) :
    ∃ i, IsFirstNearest s.pos q i ∧ s'.locks i = s.locks i + 1 ∧ (∀ j, j ≠ i → s'.locks j = s.locks j) ∧
      s'.pos = s.pos ∧ s'.vel = s.vel ∧ r = .handle s.nextHid ∧ s'.live = s.live ++ [⟨s.nextHid, .grab i⟩] := by
  obtain ⟨i, t, n, hi, hn, ht, rfl, rfl⟩ := grab_ok e
  refine ⟨i, ?_, ?_, ?_, rfl, rfl, rfl, rfl⟩
  · rcases closestIndex_spec s.pos q with ⟨h, -⟩ | ⟨j, hj, hn⟩
    · rw [hi] at h
      simp at h
    · rw [hi] at hj
      simp only [Option.some.injEq] at hj
      rw [hj]
      exact hn
  · simp [grabbed, State.lock]
  · intro j hj
    simp [grabbed, State.lock, hj]

/-- **C28.** With coordinates of representable size a grab never fails: it returns, or (C41) the settling
loop it starts runs forever. -/
theorem C28_grab_defined {q : Pt} (hm : ∀ i, Representable (s.pos i)) (hq : Representable q) :
    (∃ r, s.exec (.grab q) = .ok r) ∨ s.exec (.grab q) = .diverges := by
  obtain ⟨i, hi, -⟩ := closest_of_representable hm hq
  simp only [State.exec, State.grab, hi]
  rcases activate_cases { s with unequal := True } with ⟨z, h⟩ | h
  · rw [h]
    exact Or.inl ⟨_, rfl⟩
  · rw [h]
    exact Or.inr rfl

example : (∀ i, Representable (demo.pos i)) ∧ Representable ⟨90, 10⟩ :=
  ⟨demo_rep, rep_small (by norm_num [abs_of_pos]) (by norm_num [abs_of_pos])⟩

/-! ## Counting -/

/-- **C45.** After every history the activation count is the number of anchors the program owns. -/
theorem C45_activation_count (e : (State.new p w h x b).run ops = .ok (s, rs)) :
    s.count = (owned [] ops rs).length := by
  rw [(inv_run e).count, ← List.length_map Live.hid, live_owned e]
  rfl

/-- **C45.** Target tracking is on exactly while one anchor is owned. -/
theorem C45_tracking_iff (e : (State.new p w h x b).run ops = .ok (s, rs)) :
    s.active ↔ (owned [] ops rs).length = 1 := by
  unfold State.active
  rw [C45_activation_count e]

/-- **C45.** While not exactly one anchor is owned, `Step` neither reads the targets nor the maximum range:
with any others it has the same effect and gives the same answer. -/
theorem C45_inactive_step (e : (State.new p w h x b).run ops = .ok (s, rs))
    (hn : (owned [] ops rs).length ≠ 1) {t : ℕ} {s' : State} {r : Res} (hstep : s.exec (.step t) = .ok (s', r))
    (targets : Mesh) (range : ℝ) :
    ({ s with targets := targets, settings := { s.settings with maximumRange := range } } : State).exec (.step t)
      = .ok ({ s' with targets := targets, settings := { s.settings with maximumRange := range } }, r) := by
  have ha : ¬ s.active := fun ha => hn ((C45_tracking_iff e).1 ha)
  set z : State := { s with targets := targets, settings := { s.settings with maximumRange := range } } with hz
  have haz : ¬ z.active := ha
  have hround : ∀ q, z.round q = s.round q := by
    intro q
    unfold State.round
    rw [if_neg ha, if_neg haz]
    rfl
  have hint : ∀ n q, z.integrate n q = s.integrate n q := by
    intro n
    induction n with
    | zero => intro q; rfl
    | succ n ih =>
      intro q
      simp only [State.integrate, hround, ih]
  simp only [State.exec, State.step] at hstep ⊢
  have hd : dangling z.springs z.live ↔ dangling s.springs s.live := Iff.rfl
  have hi : z.integrate (stepCount t) ⟨z.pos, z.vel⟩ = s.integrate (stepCount t) ⟨s.pos, s.vel⟩ := hint _ _
  by_cases h1 : stepCount t ≠ 0 ∧ dangling s.springs s.live
  · rw [if_pos h1] at hstep
    simp at hstep
  rw [if_neg h1] at hstep
  rw [if_neg (by rw [hd]; exact h1), hi]
  rw [bind_eq_ok] at hstep ⊢
  obtain ⟨q, hq, hstep⟩ := hstep
  refine ⟨q, hq, ?_⟩
  simp only [Outcome.ok.injEq, Prod.mk.injEq] at hstep ⊢
  obtain ⟨rfl, rfl⟩ := hstep
  refine ⟨?_, rfl⟩
  simp only [ha, haz, and_false, if_false]
  rfl

/-- **C45.** While exactly one anchor is owned, `Step` snaps the mesh to the targets as soon as it reports
that nothing moves. -/
theorem C45_active_snap (e : (State.new p w h x b).run ops = .ok (s, rs))
    (h1 : (owned [] ops rs).length = 1) {t : ℕ} {s' : State} {more : Prop}
    (hstep : s.exec (.step t) = .ok (s', .more more)) (hmore : ¬ more) : s'.pos = s.targets := by
  have ha := (C45_tracking_iff e).2 h1
  simp only [State.exec, State.step] at hstep
  by_cases hd : stepCount t ≠ 0 ∧ dangling s.springs s.live
  · rw [if_pos hd] at hstep
    simp at hstep
  rw [if_neg hd, bind_eq_ok] at hstep
  obtain ⟨q, hq, hstep⟩ := hstep
  simp only [Outcome.ok.injEq, Prod.mk.injEq, Res.more.injEq] at hstep
  obtain ⟨rfl, rfl⟩ := hstep
  exact if_pos ⟨hmore, ha⟩

example : ∃ s rs, demo.run [.grab ⟨90, 10⟩] = .ok (s, rs) ∧ (owned [] [.grab ⟨90, 10⟩] rs).length = 1 := by
  obtain ⟨i, t, n, -, -, h⟩ := demo_grab ⟨90, 10⟩ (rep_small (by norm_num [abs_of_pos]) (by norm_num [abs_of_pos]))
  exact ⟨_, [.handle 0], run_one h, rfl⟩

theorem heldBy_eq (s : State) (i : Idx) : heldBy s i = grabs s.live i := rfl

/-- **C46.** After every history the lock count of every mesh point is the number of live grabs of it, so a
point is pinned exactly when some live grab holds it. -/
theorem C46_locks_count (e : (State.new p w h x b).run ops = .ok (s, rs)) (i : Idx) :
    s.locks i = heldBy s i ∧ (s.locks i > 0 ↔ ∃ a ∈ s.live, a.kind = .grab i) := by
  rw [heldBy_eq, ← (inv_run e).locks]
  refine ⟨rfl, ?_⟩
  rw [(inv_run e).locks, grabs, gt_iff_lt, List.countP_pos_iff]
  apply exists_congr
  intro a
  apply and_congr Iff.rfl
  cases a.kind <;> simp [Kind.isGrab]

/-- **C46.** Releasing a grab takes away exactly one lock, from the point it held, and leaves the other
anchors as they were. -/
theorem C46_release_undoes_one (e : (State.new p w h x b).run ops = .ok (s, rs)) {k : ℕ} {i : Idx}
    (ha : ⟨k, .grab i⟩ ∈ s.live) {s' : State} {r : Res} (hr : s.exec (.release k) = .ok (s', r)) :
    s'.locks i + 1 = s.locks i ∧ (∀ j, j ≠ i → s'.locks j = s.locks j) ∧
      (∀ c, c ∈ s'.live ↔ c ∈ s.live ∧ c.hid ≠ k) ∧ s'.springs = s.springs := by
  have hs := inv_run e
  rcases release_ok hr with ⟨hf, -⟩ | ⟨a, s1, t, n, hfa, h1, h0, hn, ht, rfl, -⟩
  · rw [List.find?_eq_none] at hf
    have := hf _ ha
    simp at this
  have hm := List.mem_of_find?_eq_some hfa
  have hak : a.hid = k := by
    have := List.find?_some hfa
    simpa using this
  have : a = ⟨k, .grab i⟩ := hid_inj hs.hids hm ha hak
  subst this
  obtain ⟨hpos, rfl⟩ := unlock_ok h1
  simp only [unlocked] at hpos ⊢
  refine ⟨?_, ?_, ?_, trivial⟩
  · simp only [Function.update_self]
    omega
  · intro j hj
    simp only [Function.update_of_ne hj]
  · intro c
    simp

/-- **C46.** No count ever goes below zero and nothing else goes wrong in a release: it returns, or (C41) the
settling loop it may start runs forever. -/
theorem C46_no_underflow (e : (State.new p w h x b).run ops = .ok (s, rs)) (k : ℕ) :
    (∃ r, s.exec (.release k) = .ok r) ∨ s.exec (.release k) = .diverges := by
  have hs := inv_run e
  simp only [State.exec, State.release]
  cases hf : s.live.find? (fun a => decide (a.hid = k)) with
  | none => exact Or.inl ⟨_, rfl⟩
  | some a =>
    simp only
    have hm := List.mem_of_find?_eq_some hf
    have hc : s.count ≠ 0 := by
      rw [hs.count]
      intro h
      rw [List.length_eq_zero_iff] at h
      rw [h] at hm
      simp at hm
    have hrk : ∃ s1, State.releaseKind { s with live := s.live.filter fun b => decide (b.hid ≠ k) } a.kind = .ok s1 ∧
        s1.count = s.count := by
      cases hk : a.kind with
      | grab i =>
        simp only [State.releaseKind, State.unlock]
        have : s.locks i ≠ 0 := by
          have := (C46_locks_count e i).2.2 ⟨a, hm, hk⟩
          omega
        rw [if_neg this]
        exact ⟨_, rfl, rfl⟩
      | ins q st f g =>
        refine ⟨_, rfl, ?_⟩
        rw [removeTracked_eq, removeTracked_eq, replace_eq]
    obtain ⟨s1, h1, h2⟩ := hrk
    rw [h1, bind_ok]
    unfold State.deactivate
    rw [if_neg (by omega)]
    simp only
    split_ifs
    · unfold State.recalc State.targetByFullIntegration
      rcases settle_cases (State.settleEnv { s1 with count := s1.count - 1 }) ⟨s1.pos, s1.vel⟩ with ⟨q, hq⟩ | hq
      · left
        rw [hq]
        exact ⟨_, rfl⟩
      · right
        rw [hq]
        rfl
    · exact Or.inl ⟨_, rfl⟩

example : ∃ s rs i, demo.run [.grab ⟨90, 10⟩] = .ok (s, rs) ∧ (⟨0, .grab i⟩ : Live) ∈ s.live ∧
    ∃ s' r, s.exec (.release 0) = .ok (s', r) := by
  obtain ⟨i, t, n, -, -, h⟩ := demo_grab ⟨90, 10⟩ (rep_small (by norm_num [abs_of_pos]) (by norm_num [abs_of_pos]))
  obtain ⟨s2, h2⟩ := demo_grab_release ⟨90, 10⟩ (rep_small (by norm_num [abs_of_pos]) (by norm_num [abs_of_pos]))
  simp only [State.run, h, bind_ok] at h2
  rw [bind_eq_ok] at h2
  obtain ⟨⟨q, rr⟩, h2, -⟩ := h2
  rw [bind_eq_ok] at h2
  obtain ⟨⟨q', rr'⟩, h2, -⟩ := h2
  refine ⟨_, [.handle 0], i, run_one h, ?_, q', rr', h2⟩
  simp [grabbed, demo, State.new]

/-- **C47.** After every history: if any mesh point is pinned, the remembered first anchor is a pinned point;
if none is, there is no remembered anchor. -/
theorem C47_first_anchor_pinned (e : (State.new p w h x b).run ops = .ok (s, rs)) :
    ((∃ i, s.locks i > 0) → ∃ i, s.firstAnchor = some i ∧ s.locks i > 0) ∧
    ((∀ i, s.locks i = 0) → s.firstAnchor = none) := by
  have hs := inv_run e
  refine ⟨?_, ?_⟩
  · rintro ⟨i, hi⟩
    cases hf : s.firstAnchor with
    | none =>
      have := hs.firstNone hf i
      omega
    | some j => exact ⟨j, rfl, hs.firstSome j hf⟩
  · intro h0
    cases hf : s.firstAnchor with
    | none => rfl
    | some j =>
      have := hs.firstSome j hf
      have := h0 j
      omega

/-- **C47.** The remembered first anchor does not change while it stays pinned. -/
theorem C47_first_anchor_stable (e : (State.new p w h x b).run ops = .ok (s, rs)) {i : Idx}
    (hf : s.firstAnchor = some i) {op : Op} {s' : State} {r : Res} (hx : s.exec op = .ok (s', r))
    (hp : s'.locks i > 0) : s'.firstAnchor = some i := by
  cases op with
  | grab q =>
    obtain ⟨j, t, n, -, hn, ht, rfl, -⟩ := grab_ok hx
    simp [grabbed, State.lock, hf]
  | insert q =>
    obtain ⟨t, n, found, d1, d2, hn, ht, -, -, -, -, rfl, -⟩ := insert_ok hx
    exact hf
  | moveAnchor k d =>
    obtain ⟨-, ⟨-, rfl⟩ | ⟨a, -, ⟨j, -, rfl⟩ | ⟨-, rfl⟩⟩⟩ := moveAnchor_ok hx
    · exact hf
    · exact hf
    · exact hf
  | release k =>
    rcases release_ok hx with ⟨-, rfl, -⟩ | ⟨a, s1, t, n, ha, h1, h0, hn, ht, rfl, -⟩
    · exact hf
    · cases hk : a.kind with
      | grab j =>
        rw [hk] at h1
        obtain ⟨-, rfl⟩ := unlock_ok h1
        simp only [unlocked] at hp ⊢
        rw [if_neg, hf]
        rintro ⟨h2, h3⟩
        rw [hf] at h3
        simp only [Option.some.injEq] at h3
        subst h3
        omega
      | ins q st f g =>
        rw [hk] at h1
        simp only [State.releaseKind, Outcome.ok.injEq] at h1
        rw [removeTracked_eq, removeTracked_eq, replace_eq] at h1
        subst h1
        exact hf
  | step t =>
    obtain ⟨pos, vel, more, rfl, -⟩ := step_ok hx
    exact hf
  | moveBy d =>
    simp only [State.exec, Outcome.ok.injEq, Prod.mk.injEq] at hx
    rw [← hx.1]
    exact hf
  | moveTo q =>
    obtain ⟨n, d, hn, rfl, -⟩ := moveTo_ok hx
    exact hf
  | resize w' h' =>
    obtain ⟨-, -, hw, hh, -, ⟨-, -, rfl⟩ | ⟨n, q, hn, -, -, rfl⟩⟩ := resize_ok hx
    · exact hf
    · exact hf
  | setSettings y =>
    simp only [State.exec, Outcome.ok.injEq, Prod.mk.injEq] at hx
    rw [← hx.1]
    exact hf
  | elsewhere n =>
    simp only [State.exec, Outcome.ok.injEq, Prod.mk.injEq] at hx
    rw [← hx.1]
    exact hf

example : ∃ s rs i, demo.run [.grab ⟨90, 10⟩] = .ok (s, rs) ∧ s.firstAnchor = some i ∧ s.locks i > 0 := by
  obtain ⟨i, t, n, -, -, h⟩ := demo_grab ⟨90, 10⟩ (rep_small (by norm_num [abs_of_pos]) (by norm_num [abs_of_pos]))
  refine ⟨_, [.handle 0], i, run_one h, ?_, ?_⟩
  · simp [grabbed, State.lock, demo, State.new]
  · simp [grabbed, State.lock]

/-! ## Springs -/

/-- **C48.** Whatever the history and the order of releases: once no inserted anchor is live, the springs are
the springs the model was made with (same identities, same ends), and nothing is left pending. -/
theorem C48_springs_restored (e : (State.new p w h x b).run ops = .ok (s, rs)) (hn : NoneInserted s) :
    (s.springs.map fun y => (y.id, y.a, y.b)).Perm
      ((State.new p w h x b).springs.map fun y => (y.id, y.a, y.b)) ∧
    s.springs.length = 24 ∧ s.pending = [] := by
  have hs := inv_run e
  refine ⟨?_, ?_, (ids_perm hs hn).1⟩
  · have : (State.new p w h x b).springs.map (fun y => (y.id, y.a, y.b)) = baseEnds b := baseSprings_ends _ _
    rw [this]
    exact ends_perm hs hn
  · have := (ids_perm hs hn).2.length_eq
    rwa [List.length_map, baseIds_eq, List.length_range'] at this

/-- **C48.** If moreover the model was never resized while an inserted anchor was live, the springs have their
lengths too: they are exactly the springs of a model freshly made with the current size. -/
theorem C48_lengths_restored (e : (State.new p w h x b).run ops = .ok (s, rs)) (hn : NoneInserted s)
    (hr : AllAlong ResizeAllowed (State.new p w h x b) ops) :
    s.springs.Perm (State.new p s.width s.height x b).springs :=
  springs_perm (inv_run e) (baseLen_run hr e) hn

example : ∃ s rs, demo.run [.insert ⟨50, 50⟩, .release 0] = .ok (s, rs) ∧ NoneInserted s := by
  obtain ⟨t, n, found, -, -, -, h⟩ := demo_insert ⟨50, 50⟩ (rep_small (by norm_num [abs_of_pos]) (by norm_num [abs_of_pos]))
  have h2 : ∃ s, State.exec ((preInsert demo t n).install ⟨50, 50⟩ found (demo.env.at_ demo.pos found.a)
      (demo.env.at_ demo.pos found.b)) (.release 0) = .ok (s, .none) ∧ s.live = [] := by
    have hf : List.find? (fun a => decide (a.hid = 0)) ((preInsert demo t n).install ⟨50, 50⟩ found
      (demo.env.at_ demo.pos found.a) (demo.env.at_ demo.pos found.b)).live =
        some ⟨0, .ins ⟨50, 50⟩ found (n + 1) (n + 2)⟩ := rfl
    simp only [State.exec, State.release, hf, State.releaseKind, bind_ok]
    rw [removeTracked_eq, removeTracked_eq, replace_eq]
    exact ⟨_, rfl, rfl⟩
  obtain ⟨s, h2, hl⟩ := h2
  refine ⟨s, _, by simp only [State.run, h, h2, bind_ok]; rfl, fun a ha => ?_⟩
  rw [hl] at ha
  simp at ha

theorem allSprings_eq (s : State) : allSprings s = s.springs ++ stolens s.live := by
  unfold allSprings takenOut stolens
  congr 1

/-- **C50.** After every history no two springs, whether in the mesh or held by an anchor, have the same
identity, and every identity was issued before. -/
theorem C50_identities_unique (e : (State.new p w h x b).run ops = .ok (s, rs)) :
    ((allSprings s).map Spring.id).Nodup ∧ ∀ y ∈ allSprings s, y.id ≤ s.lastId := by
  rw [allSprings_eq]
  have hs := inv_run e
  refine ⟨?_, ?_⟩
  · rw [List.nodup_iff_count_le_one]
    intro z
    rw [List.map_append, List.count_append]
    exact hs.uniq z
  · intro y hy
    refine (hs.idsLe y.id ?_).2
    rw [← List.count_append, ← List.map_append]
    exact List.count_pos_iff.2 (List.mem_map_of_mem hy)

/-- **C50.** Releasing an inserted anchor affects its own springs only: any spring it did not put in stays,
and any spring that is there afterwards was there before or is the one the anchor had taken out. -/
theorem C50_release_own_springs (e : (State.new p w h x b).run ops = .ok (s, rs)) {k : ℕ} {a : Live}
    (ha : a ∈ s.live) (hk : a.hid = k) {s' : State} {r : Res} (hx : s.exec (.release k) = .ok (s', r)) :
    (∀ y ∈ s.springs, ¬ PutInBy a y → y ∈ s'.springs) ∧
    (∀ y ∈ s'.springs, (y ∈ s.springs ∧ ¬ PutInBy a y) ∨ TakenOutBy a y) := by
  have hs := inv_run e
  rcases release_ok hx with ⟨hf, -⟩ | ⟨a', s1, t, n, hfa, h1, h0, hn, ht, rfl, -⟩
  · rw [List.find?_eq_none] at hf
    have := hf _ ha
    simp [hk] at this
  have hm := List.mem_of_find?_eq_some hfa
  have hak : a'.hid = k := by
    have := List.find?_some hfa
    simpa using this
  obtain rfl : a' = a := hid_inj hs.hids hm ha (hak.trans hk.symm)
  simp only [putInBy_iff, takenOutBy_iff]
  cases hkind : a'.kind with
  | grab i =>
    rw [hkind] at h1
    obtain ⟨-, rfl⟩ := unlock_ok h1
    simp only [Kind.trackedOf, List.not_mem_nil, not_false_eq_true, and_true]
    exact ⟨fun y hy _ => hy, fun y hy => Or.inl hy⟩
  | ins q st f g =>
    rw [hkind] at h1
    simp only [State.releaseKind, Outcome.ok.injEq] at h1
    rw [removeTracked_eq, removeTracked_eq, replace_eq] at h1
    subst h1
    simp only [Kind.trackedOf, Kind.stolenOf, List.mem_cons, List.not_mem_nil, or_false, not_or]
    have hrem : ∀ y, y ∈ removeId (removeId s.springs g) f ↔ y ∈ s.springs ∧ y.id ≠ f ∧ y.id ≠ g := by
      intro y
      simp only [removeId, List.mem_filter, decide_eq_true_eq]
      tauto
    refine ⟨?_, ?_⟩
    · intro y hy hne
      have : y ∈ removeId (removeId s.springs g) f := (hrem y).2 ⟨hy, hne⟩
      unfold springsAfter
      split_ifs
      · exact this
      · exact List.mem_append_left _ this
    · intro y hy
      unfold springsAfter at hy
      split_ifs at hy
      · exact Or.inl ((hrem y).1 hy)
      · rcases List.mem_append.1 hy with hy | hy
        · exact Or.inl ((hrem y).1 hy)
        · exact Or.inr (by simpa using hy)

example : ∃ s rs a, demo.run [.insert ⟨50, 50⟩] = .ok (s, rs) ∧ a ∈ s.live ∧ IsInserted a := by
  obtain ⟨t, n, found, -, -, -, h⟩ := demo_insert ⟨50, 50⟩ (rep_small (by norm_num [abs_of_pos]) (by norm_num [abs_of_pos]))
  refine ⟨_, [.handle 0], ⟨0, .ins ⟨50, 50⟩ found (n + 1) (n + 2)⟩, run_one h, ?_, ?_⟩
  · simp [State.install, preInsert, demo, State.new]
  · exact ⟨_, _, _, _, rfl⟩

theorem endsOwned_iff : EndsOwned s ↔ ¬ dangling s.springs s.live := by
  constructor
  · rintro h ⟨y, hy, hn⟩
    refine hn ⟨?_, ?_⟩
    · cases ha : y.a with
      | mesh i => trivial
      | anchor n =>
        obtain ⟨q, hq⟩ := h y hy n (Or.inl ha)
        simp [Node.alive, hq]
    · cases hb : y.b with
      | mesh i => trivial
      | anchor n =>
        obtain ⟨q, hq⟩ := h y hy n (Or.inr hb)
        simp [Node.alive, hq]
  · intro hd y hy n hn
    by_contra hne
    refine hd ⟨y, hy, fun hc => hne ?_⟩
    rcases hn with ha | hb
    · have := hc.1
      rw [ha] at this
      exact Option.isSome_iff_exists.1 this
    · have := hc.2
      rw [hb] at this
      exact Option.isSome_iff_exists.1 this

theorem step_not_ub (hd : ¬ dangling s.springs s.live) (t : ℕ) : s.exec (.step t) ≠ .ub := by
  simp only [State.exec, State.step]
  rw [if_neg (fun h => hd h.2)]
  have hc : ∀ R T P, constrain R T P ≠ .ub := by
    intro R T P
    unfold constrain
    split_ifs <;> simp
  have hround : ∀ q, s.round q ≠ .ub := by
    intro q
    unfold State.round
    split_ifs
    · rw [ne_eq, bind_eq_ub]
      rintro (h | ⟨c, -, h⟩)
      · exact hc _ _ _ h
      · simp at h
    · simp
  have hint : ∀ n q, s.integrate n q ≠ .ub := by
    intro n
    induction n with
    | zero => intro q; simp [State.integrate]
    | succ n ih =>
      intro q
      simp only [State.integrate, ne_eq, bind_eq_ub, not_or, not_exists, not_and]
      refine ⟨hround q, fun a _ => ⟨ih _, fun c _ => by simp⟩⟩
  rw [ne_eq, bind_eq_ub]
  rintro (h | ⟨c, -, h⟩)
  · exact hint _ _ h
  · simp at h

theorem no_dangling (e : (State.new p w h x b).run ops = .ok (s, rs))
    (hr : AllAlong ReleaseNotUnder (State.new p w h x b) ops) : ¬ dangling s.springs s.live :=
  ((run_induction_along (P := fun s => Inv b s ∧ Anchored s) anchored_exec
    ⟨inv_new p w h x b, anchored_new p w h x b⟩ hr e).2 : Anchored s).not_dangling

/-- **C49.** In whatever state, a `Step` over a time that is not zero reads freed memory exactly if some spring ends at an
anchor that has been released. -/
theorem C49_step_iff (s : State) {t : ℕ} (ht : t ≠ 0) : s.exec (.step t) = .ub ↔ ¬ EndsOwned s := by
  rw [endsOwned_iff, not_not]
  refine ⟨fun h => by_contra fun hd => step_not_ub hd t h, fun hd => ?_⟩
  have hc : stepCount t ≠ 0 := by
    have : 0 < stepCount t := by
      unfold stepCount
      rw [Nat.ceil_pos]
      positivity
    omega
  simp only [State.exec, State.step]
  rw [if_pos ⟨hc, hd⟩]

/-- **C49.** After every history, a `Step` over a time that is not zero reads freed memory exactly if the program still owns
an inserted anchor that was put on a spring of an anchor released since. Releasing that one too makes `Step` defined again. -/
theorem C49_undefined_iff (e : (State.new p w h x b).run ops = .ok (s, rs)) {t : ℕ} (ht : t ≠ 0) :
    s.exec (.step t) = .ub ↔ ∃ a ∈ s.live, ∃ y, TakenOutBy a y ∧
      ∃ k, (y.a = .anchor k ∨ y.b = .anchor k) ∧ k ∉ owned [] ops rs := by
  obtain ⟨hs, he⟩ := ends_run e
  rw [C49_step_iff s ht, endsOwned_iff, not_not, dangling_iff_stolen hs he]
  have hl : s.live.map Live.hid = owned [] ops rs := live_owned e
  rw [← hl]
  simp only [takenOutBy_iff, List.mem_map, not_exists, not_and]
  rfl

/-- **C53.** After every history, the two springs an inserted anchor put in still run from that anchor to the two ends
of the spring it took out, wherever they are now: in the mesh or held by a further anchor. -/
theorem C53_springs_stay (e : (State.new p w h x b).run ops = .ok (s, rs)) {a : Live} (ha : a ∈ s.live) {y : Spring}
    (hy : TakenOutBy a y) :
    (∃ u ∈ allSprings s, PutInBy a u ∧ u.a = .anchor a.hid ∧ u.b = y.a) ∧
    (∃ u ∈ allSprings s, PutInBy a u ∧ u.a = .anchor a.hid ∧ u.b = y.b) ∧
    ∀ u ∈ allSprings s, PutInBy a u → u.a = .anchor a.hid ∧ (u.b = y.a ∨ u.b = y.b) := by
  rw [allSprings_eq]
  obtain ⟨hs, he⟩ := ends_run e
  obtain ⟨q, f, g, hk⟩ := hy
  have how := he.own a ha q y f g hk
  refine ⟨?_, ?_, ?_⟩
  · obtain ⟨u, hu, eu⟩ := put_in_exists hs ha (f := f) (by simp [hk, Kind.trackedOf])
    exact ⟨u, hu, ⟨q, y, f, g, hk, .inl eu⟩, (how u hu).1 eu⟩
  · obtain ⟨u, hu, eu⟩ := put_in_exists hs ha (f := g) (by simp [hk, Kind.trackedOf])
    exact ⟨u, hu, ⟨q, y, f, g, hk, .inr eu⟩, (how u hu).2 eu⟩
  · rintro u hu ⟨q', y', f', g', hk', eu⟩
    rw [hk] at hk'
    simp only [Kind.ins.injEq] at hk'
    obtain ⟨-, -, rfl, rfl⟩ := hk'
    rcases eu with eu | eu
    · exact ⟨((how u hu).1 eu).1, .inl ((how u hu).1 eu).2⟩
    · exact ⟨((how u hu).2 eu).1, .inr ((how u hu).2 eu).2⟩

example : ∃ s rs a y, demo.run [.insert ⟨50, 50⟩] = .ok (s, rs) ∧ a ∈ s.live ∧ TakenOutBy a y := by
  obtain ⟨t, n, found, -, -, -, h⟩ := demo_insert ⟨50, 50⟩ (rep_small (by norm_num [abs_of_pos]) (by norm_num [abs_of_pos]))
  refine ⟨_, [.handle 0], ⟨0, .ins ⟨50, 50⟩ found (n + 1) (n + 2)⟩, found, run_one h, ?_, ?_⟩
  · simp [State.install, preInsert, demo, State.new]
  · exact ⟨_, _, _, rfl⟩

/-- **C49 (partial).** As long as no anchor is released while another one sits on one of its springs, no spring
ever refers to a released anchor, so `Step` never touches freed memory. Missing: histories that do release such
an anchor, where the claim is false (`C49_use_after_free`). -/
theorem C49_no_dangling_partial (e : (State.new p w h x b).run ops = .ok (s, rs))
    (hr : AllAlong ReleaseNotUnder (State.new p w h x b) ops) :
    EndsOwned s ∧ ∀ t, s.exec (.step t) ≠ .ub :=
  ⟨endsOwned_iff.2 (no_dangling e hr), step_not_ub (no_dangling e hr)⟩

/-- **C49 (partial).** In particular when inserted anchors are released in the reverse of the order in which
they were made. -/
theorem C49_reverse_order_partial (e : (State.new p w h x b).run ops = .ok (s, rs))
    (hr : AllAlong ReleaseLatestFirst (State.new p w h x b) ops) :
    EndsOwned s ∧ ∀ t, s.exec (.step t) ≠ .ub := by
  refine C49_no_dangling_partial e ?_
  have key : ∀ (ops : List Op) (s : State), Inv b s ∧ Ordered s → AllAlong ReleaseLatestFirst s ops →
      AllAlong ReleaseNotUnder s ops := by
    intro ops
    induction ops with
    | nil => intro s _ _; trivial
    | cons op ops ih =>
      intro s hs h
      exact ⟨notUnder_of_latest hs.2 h.1, fun s' r hx => ih s' (ordered_exec s op s' r hs hx) (h.2 s' r hx)⟩
  exact key ops _ ⟨inv_new p w h x b, ordered_new p w h x b⟩ hr

example : AllAlong ReleaseLatestFirst demo [.insert ⟨50, 50⟩, .release 0] := by
  refine ⟨trivial, fun s' r hx => ⟨?_, fun _ _ _ => trivial⟩⟩
  obtain ⟨t, n, found, d1, d2, -, -, -, -, -, -, rfl, -⟩ := insert_ok hx
  intro a _ _ _ c hc _
  simp only [State.install, preInsert, demo, State.new, List.nil_append, List.mem_singleton] at hc
  rw [hc]

/-- **C49 (negation).** Two insertions at one place that is not a mesh point put the second anchor on a spring
of the first. If the first is then released, the next `Step` reads freed memory. Any resting model will do. -/
theorem C49_use_after_free (p : Pt) (w h : ℝ) (x : Settings) (b : ℕ) (q : Pt)
    (hz : ∀ i, Representable ((State.new p w h x b).pos i)) (hq : Representable q)
    (hne : ∀ i, (State.new p w h x b).pos i ≠ q) :
    ∃ s rs, (State.new p w h x b).run [.insert q, .insert q, .release 0] = .ok (s, rs) ∧
      s.exec (.step 16) = .ub := by
  set m := State.new p w h x b with hm
  have hI : Inv b m := inv_new p w h x b
  have hA : Anchored m := anchored_new p w h x b
  have hR : AtRest m := new_atRest p w h x b
  have hrep : ∀ y ∈ m.springs, Representable (m.env.at_ m.pos y.a) ∧ Representable (m.env.at_ m.pos y.b) := by
    intro y hy
    obtain ⟨⟨i, hi⟩, j, hj⟩ := base_ends_mesh (t := ⟨w / (4 - 1), h / (4 - 1)⟩) (b := b) hy
    rw [hi, hj]
    exact ⟨hz i, hz j⟩
  obtain ⟨t, n, found, hf, hn, -, -, -, e1⟩ := insert_atRest hI hR hA.not_dangling hrep hq
  set s1 := (preInsert m t n).install q found (m.env.at_ m.pos found.a) (m.env.at_ m.pos found.b) with hs1
  have e1' : m.exec (.insert q) = .ok (s1, .handle 0) := e1
  have hI1 : Inv b s1 := inv_exec _ _ _ _ hI e1'
  have hA1 : Anchored s1 := (anchored_exec _ _ _ _ ⟨hI, hA⟩ (show ReleaseNotUnder m (.insert q) from trivial) e1').2
  have hR1 : AtRest s1 := ⟨hR.pos, hR.vel⟩
  have hat0 : s1.env.at_ s1.pos (.anchor 0) = q := by
    simp only [Env.at_, State.env, apos, anchorData, hs1, State.install, preInsert, hm, State.new]
    simp
  have hatm : ∀ i, s1.env.at_ s1.pos (.mesh i) = m.pos i := fun i => rfl
  have hsp1 : ∀ y ∈ s1.springs, (∃ i j, y.a = .mesh i ∧ y.b = .mesh j) ∨
      (y.a = .anchor 0 ∧ ∃ i, y.b = .mesh i) := by
    intro y hy
    simp only [hs1, State.install, preInsert, List.mem_append, List.mem_cons, List.not_mem_nil, or_false] at hy
    obtain ⟨⟨i, hi⟩, j, hj⟩ := base_ends_mesh (t := ⟨w / (4 - 1), h / (4 - 1)⟩) (b := b) hf
    rcases hy with hy | rfl | rfl
    · obtain ⟨⟨i, hi⟩, j, hj⟩ := base_ends_mesh (t := ⟨w / (4 - 1), h / (4 - 1)⟩) (b := b)
        (List.mem_of_mem_filter hy)
      exact Or.inl ⟨i, j, hi, hj⟩
    · exact Or.inr ⟨rfl, i, hi⟩
    · exact Or.inr ⟨rfl, j, hj⟩
  have hrep1 : ∀ y ∈ s1.springs, Representable (s1.env.at_ s1.pos y.a) ∧ Representable (s1.env.at_ s1.pos y.b) := by
    intro y hy
    rcases hsp1 y hy with ⟨i, j, hi, hj⟩ | ⟨ha, j, hj⟩
    · rw [hi, hj, hatm, hatm]
      exact ⟨hz i, hz j⟩
    · rw [ha, hj, hat0, hatm]
      exact ⟨hq, hz j⟩
  obtain ⟨t2, n2, found2, hf2, hn2, hmin, -, -, e2⟩ := insert_atRest hI1 hR1 hA1.not_dangling hrep1 hq
  have hx1 : (⟨n + 1, .anchor 0, found.a, m.env.at_ m.pos found.a - q⟩ : Spring) ∈ s1.springs := by
    simp [hs1, State.install, preInsert, hm, State.new]
  have hfa : found2.a = .anchor 0 := by
    rcases hsp1 found2 hf2 with ⟨i, j, hi, -⟩ | ⟨ha, -⟩
    · exfalso
      have := hmin _ hx1
      simp only [← Pt.distance_eq] at this
      rw [hat0, Pt.distance_self, hi, hatm] at this
      have h0 := le_antisymm this (Pt.distance_nonneg _ _)
      exact hne i (Pt.distance_eq_zero.1 h0)
    · exact ha
  set s2 := (preInsert s1 t2 n2).install q found2 (s1.env.at_ s1.pos found2.a) (s1.env.at_ s1.pos found2.b) with hs2
  have e2' : s1.exec (.insert q) = .ok (s2, .handle 1) := e2
  have hI2 : Inv b s2 := inv_exec _ _ _ _ hI1 e2'
  have hR2 : AtRest s2 := ⟨hR1.pos, hR1.vel⟩
  have hlive : s2.live = [⟨0, .ins q found (n + 1) (n + 2)⟩, ⟨1, .ins q found2 (n2 + 1) (n2 + 2)⟩] := rfl
  have hn12 : n + 2 ≤ n2 := hn2
  have h24 : found.id < n + 1 := by
    have := hI2.order ⟨0, .ins q found (n + 1) (n + 2)⟩ (by rw [hlive]; simp) found (by simp [Kind.stolenOf])
      (n + 1) (by simp [Kind.trackedOf])
    exact this
  have hfind : s2.live.find? (fun a => decide (a.hid = 0)) = some ⟨0, .ins q found (n + 1) (n + 2)⟩ := by
    rw [hlive]
    simp
  obtain ⟨s3, e3, hsp3, hl3⟩ : ∃ s3, s2.exec (.release 0) = .ok (s3, .none) ∧
      (∀ y ∈ s2.springs, y.id ≠ n + 1 → y.id ≠ n + 2 → y ∈ s3.springs) ∧
      s3.live = [⟨1, .ins q found2 (n2 + 1) (n2 + 2)⟩] := by
    simp only [State.exec, State.release, hfind, State.releaseKind, bind_ok]
    rw [removeTracked_eq, removeTracked_eq, replace_eq]
    generalize hs25 : State.mk _ _ _ _ _ _ _ _ _ _ _ _ _ _ _ = s25
    have hR25 : AtRest s25 := by
      rw [← hs25]
      exact ⟨hR2.pos, hR2.vel⟩
    obtain ⟨t3, n3, hd, -⟩ := hR25.deactivate (by
      have : s25.count = 2 := by rw [← hs25]; rfl
      omega)
    rw [hd]
    refine ⟨_, rfl, ?_, ?_⟩
    · intro y hy h1 h2
      rw [← hs25]
      simp only
      have hmem : y ∈ removeId (removeId s2.springs (n + 2)) (n + 1) := by
        simp only [removeId, List.mem_filter, decide_eq_true_eq]
        exact ⟨⟨hy, h2⟩, h1⟩
      unfold springsAfter
      split_ifs
      · exact hmem
      · exact List.mem_append_left _ hmem
    · rw [← hs25]
      simp only [hlive]
      simp
  refine ⟨s3, [.handle 0, .handle 1, .none], ?_, ?_⟩
  · simp only [State.run, e1', e2', e3, bind_ok]
  · have hd : dangling s3.springs s3.live := by
      rw [dangling_iff]
      refine ⟨⟨n2 + 1, .anchor 1, found2.a, s1.env.at_ s1.pos found2.a - q⟩, hsp3 _ ?_ ?_ ?_, 0, ?_, ?_⟩
      · simp [hs2, State.install, preInsert, hs1, hm, State.new]
      · simp only
        omega
      · simp only
        omega
      · right
        exact hfa
      · rw [hl3]
        simp
    have hcount : stepCount 16 ≠ 0 := by
      unfold stepCount
      norm_num
    simp only [State.exec, State.step]
    rw [if_pos ⟨hcount, hd⟩]

example : (∀ i, Representable ((State.new ⟨0, 0⟩ 300 300 defaultSettings 0).pos i)) ∧
    ∀ i, (State.new ⟨0, 0⟩ 300 300 defaultSettings 0).pos i ≠ ⟨50, 50⟩ := by
  refine ⟨demo_rep, fun i h => ?_⟩
  have := demo_pos i
  unfold demo at this
  rw [this] at h
  have hx := congrArg Pt.x h
  simp only at hx
  have h1 : (col i : ℝ) * 2 = 1 := by linarith
  have h2 : col i * 2 = 1 := by exact_mod_cast h1
  omega

/-- **C51.** In every reachable state `InsertAnchor` finds the spring ends it looks up and does not throw. -/
theorem C51_insert_never_throws (e : (State.new p w h x b).run ops = .ok (s, rs)) (q : Pt) :
    s.exec (.insert q) ≠ .throws := by
  have hs := inv_run e
  simp only [State.exec, State.insert, ne_eq, bind_eq_throws, not_or, not_exists, not_and]
  refine ⟨?_, fun s1 h1 => ⟨?_, fun s2 _ => by simp⟩⟩
  · unfold State.activate State.recalc State.targetByFullIntegration
    simp only
    split_ifs
    · rw [bind_eq_throws]
      rintro (h | ⟨c, -, h⟩)
      · rcases settle_cases (State.settleEnv { s with unequal := True, count := s.count + 1 }) ⟨s.pos, s.vel⟩
          with ⟨q, hq⟩ | hq
        · rw [hq] at h
          simp at h
        · rw [hq] at h
          simp at h
      · simp at h
    · simp
  · obtain ⟨t, n, hn, ht, rfl⟩ := activate_ok h1
    unfold State.insertSprings
    split_ifs
    · simp
    · cases hf : findSpringToSplit _ q _ with
      | none => simp
      | some found =>
        simp only
        have hfm := splitStep_mem _ _ _ _ hf
        have key : ∀ e : Node, (e = found.a ∨ e = found.b) →
            (preInsert s t n).preferred (s.env.at_ s.pos e) ≠ .throws := by
          intro e he
          unfold State.preferred
          split_ifs with hact
          · have hc : s.count = 0 := by
              have : s.count + 1 = 1 := hact
              omega
            have hlive : s.live = [] := by
              have := hs.count
              rw [hc] at this
              exact List.eq_nil_of_length_eq_zero this.symm
            have hmem := ends_mem hs (fun a ha => by rw [hlive] at ha; simp at ha) hfm
            obtain ⟨-, ⟨i, hi⟩, ⟨j, hj⟩⟩ := baseEnds_mesh hmem
            have : ∃ i, e = .mesh i := by
              rcases he with rfl | rfl
              · exact ⟨i, hi⟩
              · exact ⟨j, hj⟩
            obtain ⟨i, rfl⟩ := this
            obtain ⟨j, -, hl⟩ := lookup_mesh (preInsert s t n).pos (preInsert s t n).targets i
            have e3 : s.env.at_ s.pos (.mesh i) = (preInsert s t n).pos i := rfl
            rw [e3, hl]
            simp
          · simp
        rw [bind_eq_throws]
        rintro (h | ⟨d1, -, h⟩)
        · exact key _ (Or.inl rfl) h
        · rw [bind_eq_throws] at h
          rcases h with h | ⟨d2, -, h⟩
          · exact key _ (Or.inr rfl) h
          · simp at h

theorem not_dangling_of_step {s : State} {t : ℕ} (ht : t ≠ 0) (hu : s.exec (.step t) ≠ .ub) : ¬ dangling s.springs s.live :=
  fun hd => hu ((C49_step_iff s ht).2 fun h => endsOwned_iff.1 h hd)

/-- **C51.** With coordinates of representable size, and if a `Step` would not read freed memory (C49), an insertion returns
or (C41) the settling loop it starts runs forever. -/
theorem C51_insert_defined (e : (State.new p w h x b).run ops = .ok (s, rs)) {q : Pt} (hu : s.exec (.step 16) ≠ .ub)
    (hz : ∀ y ∈ s.springs, Representable (s.env.at_ s.pos y.a) ∧ Representable (s.env.at_ s.pos y.b))
    (hq : Representable q) :
    (∃ r, s.exec (.insert q) = .ok r) ∨ s.exec (.insert q) = .diverges := by
  have hs := inv_run e
  have hnt := C51_insert_never_throws e q
  have hd := not_dangling_of_step (by norm_num) hu
  obtain ⟨found, hm, hf, -⟩ := find_spring (inv_springs_ne hs) hz hq
  simp only [State.exec, State.insert] at hnt ⊢
  cases ha : ({ s with unequal := True } : State).activate with
  | ok s1 =>
    obtain ⟨t, n, hn, ht, rfl⟩ := activate_ok ha
    rw [ha] at hnt
    simp only [bind_ok, State.insertSprings] at hnt ⊢
    rw [if_neg hd] at hnt ⊢
    have hf' : findSpringToSplit (State.env { s with unequal := True, count := s.count + 1, targets := t, lastId := n } |>.at_ s.pos) q
      s.springs = some found := hf
    simp only [hf'] at hnt ⊢
    have hp : ∀ z : State, ∀ y, (∃ d, z.preferred y = .ok d) ∨ z.preferred y = .throws := by
      intro z y
      unfold State.preferred
      split_ifs
      · unfold lookupTarget
        split
        · exact Or.inl ⟨_, rfl⟩
        · exact Or.inr rfl
      · exact Or.inl ⟨_, rfl⟩
    left
    rcases hp _ (State.env { s with unequal := True, count := s.count + 1, targets := t, lastId := n } |>.at_ s.pos found.a) with
      ⟨d1, h1⟩ | h1
    · rw [h1] at hnt ⊢
      simp only [bind_ok] at hnt ⊢
      rcases hp _ (State.env { s with unequal := True, count := s.count + 1, targets := t, lastId := n } |>.at_ s.pos found.b) with
        ⟨d2, h2⟩ | h2
      · rw [h2]
        exact ⟨_, rfl⟩
      · rw [h2] at hnt
        exact absurd rfl hnt
    · rw [h1] at hnt
      exact absurd rfl hnt
  | diverges => exact Or.inr rfl
  | throws =>
    rw [ha] at hnt
    exact absurd rfl hnt
  | ub => rcases activate_cases { s with unequal := True } with ⟨z, h⟩ | h <;> simp [ha] at h
  | nonfinite => rcases activate_cases { s with unequal := True } with ⟨z, h⟩ | h <;> simp [ha] at h

/-- **C51.** Where a `Step` would read freed memory an insertion does so too, wherever it is, unless the settling loop it
starts runs forever. -/
theorem C51_insert_undefined (s : State) (q : Pt) (hu : s.exec (.step 16) = .ub) :
    s.exec (.insert q) = .ub ∨ s.exec (.insert q) = .diverges := by
  have hd : dangling s.springs s.live := by
    by_contra h
    exact (C49_step_iff s (by norm_num)).1 hu (endsOwned_iff.2 h)
  simp only [State.exec, State.insert]
  rcases activate_cases { s with unequal := True } with ⟨z, h⟩ | h
  · left
    obtain ⟨t, n, hn, ht, rfl⟩ := activate_ok h
    rw [h]
    simp only [bind_ok, State.insertSprings]
    rw [if_pos hd]
    rfl
  · right
    rw [h]
    rfl

/-- **C53.** `InsertAnchor (q)` takes out the spring whose first end is nearest to `q`, among those the one
whose second end is nearest, and puts two springs in its place, from the new anchor, which is at `q`, to the
ends of the old one. No mesh point moves. If other anchors are live, the new springs have the lengths at which
they pull nothing. -/
theorem C53_splits_nearest (hrun : (State.new p w h x b).run ops = .ok (s, rs)) {s' : State} {q : Pt} {r : Res}
    (hz : ∀ y ∈ s.springs, Representable (s.env.at_ s.pos y.a) ∧ Representable (s.env.at_ s.pos y.b))
    (hq : Representable q) (e : s.exec (.insert q) = .ok (s', r)) :
    ∃ found ∈ s.springs, ∃ k,
      (∀ y ∈ s.springs, euclid (s.env.at_ s.pos found.a) q ≤ euclid (s.env.at_ s.pos y.a) q) ∧
      (∀ y ∈ s.springs, euclid (s.env.at_ s.pos y.a) q = euclid (s.env.at_ s.pos found.a) q →
        euclid (s.env.at_ s.pos found.b) q ≤ euclid (s.env.at_ s.pos y.b) q) ∧
      r = .handle k ∧ anchorData s'.live k = some q ∧ s'.pos = s.pos ∧
      ∃ x1 x2 : Spring, s'.springs = s.springs.filter (fun y => y.id ≠ found.id) ++ [x1, x2] ∧
        x1.a = .anchor k ∧ x1.b = found.a ∧ x2.a = .anchor k ∧ x2.b = found.b ∧
        (s.live ≠ [] → x1.desired = s.env.at_ s.pos found.a - q ∧ x2.desired = s.env.at_ s.pos found.b - q) := by
  have hs := inv_run hrun
  obtain ⟨t, n, found, d1, d2, hn, ht, hd, hf, h1, h2, rfl, rfl⟩ := insert_ok e
  obtain ⟨found', hm, hf', hmin1, hmin2⟩ := find_spring (inv_springs_ne hs) hz hq
  rw [hf] at hf'
  simp only [Option.some.injEq] at hf'
  subst hf'
  refine ⟨found, hm, s.nextHid, hmin1, hmin2, rfl, ?_, rfl, _, _, rfl, rfl, rfl, rfl, rfl, ?_⟩
  · unfold anchorData
    simp only [State.install, preInsert, List.findSome?_append]
    rw [List.findSome?_eq_none_iff.2]
    · simp
    · intro a ha
      have := hs.hidsLt a ha
      cases a.kind with
      | grab i => rfl
      | ins _ _ _ _ => exact if_neg (by omega)
  · intro hl
    have hact : ¬ (preInsert s t n).active := by
      intro h
      have h : s.count + 1 = 1 := h
      have hc := hs.count
      have := List.length_pos_iff.2 hl
      omega
    unfold State.preferred at h1 h2
    rw [if_neg hact] at h1 h2
    simp only [Outcome.ok.injEq] at h1 h2
    rw [← h1, ← h2]
    exact ⟨rfl, rfl⟩

example : ∃ s rs s' r, demo.run [.grab ⟨50, 50⟩] = .ok (s, rs) ∧
    (∀ y ∈ s.springs, Representable (s.env.at_ s.pos y.a) ∧ Representable (s.env.at_ s.pos y.b)) ∧
    s.exec (.insert ⟨150, 50⟩) = .ok (s', r) ∧ s.live ≠ [] := by
  have hI : Inv 0 demo := inv_new _ _ _ _ _
  have hA : Anchored demo := anchored_new _ _ _ _ _
  obtain ⟨i, t, n, -, -, h⟩ := demo_grab ⟨50, 50⟩ (rep_small (by norm_num [abs_of_pos]) (by norm_num [abs_of_pos]))
  have hA1 := (anchored_exec _ _ _ _ ⟨hI, hA⟩ (show ReleaseNotUnder demo (.grab _) from trivial) h).2
  have hI1 := inv_exec _ _ _ _ hI h
  have hz : ∀ y ∈ (grabbed demo i t n).springs,
      Representable ((grabbed demo i t n).env.at_ (grabbed demo i t n).pos y.a) ∧
      Representable ((grabbed demo i t n).env.at_ (grabbed demo i t n).pos y.b) := by
    intro y hy
    obtain ⟨⟨i, hi⟩, j, hj⟩ := base_ends_mesh (t := ⟨300 / (4 - 1), 300 / (4 - 1)⟩) (b := 0) hy
    rw [hi, hj]
    exact ⟨demo_rep i, demo_rep j⟩
  obtain ⟨t2, n2, f2, -, -, -, -, -, h2⟩ := insert_atRest hI1 (p := ⟨150, 50⟩)
    ⟨(new_atRest ⟨0, 0⟩ 300 300 defaultSettings 0).pos, fun _ => rfl⟩ hA1.not_dangling hz
    (rep_small (by norm_num [abs_of_pos]) (by norm_num [abs_of_pos]))
  exact ⟨_, _, _, _, run_one h, hz, h2, by simp [grabbed]⟩

/-- **C54.** `MoveBy (d)` on a grab moves the grabbed mesh point by `d` and nothing else in the mesh; on an
inserted anchor it moves the anchor's own point by `d` and no mesh point. The targets move by `d` exactly when
no other anchor is live. Velocities, springs and pins stay. -/
theorem C54_moves_only_its_point (hrun : (State.new p w h x b).run ops = .ok (s, rs)) {a : Live} (ha : a ∈ s.live)
    {d : Pt} {s' : State} {r : Res} (e : s.exec (.moveAnchor a.hid d) = .ok (s', r)) :
    (∀ i, a.kind = .grab i → s'.pos i = s.pos i + d ∧ (∀ j, j ≠ i → s'.pos j = s.pos j) ∧ s'.live = s.live) ∧
    (IsInserted a → s'.pos = s.pos ∧
      ∃ q, anchorData s.live a.hid = some q ∧ anchorData s'.live a.hid = some (q + d) ∧
        ∀ k, k ≠ a.hid → anchorData s'.live k = anchorData s.live k) ∧
    (s.live.length = 1 → ∀ i, s'.targets i = s.targets i + d) ∧
    (s.live.length ≠ 1 → s'.targets = s.targets) ∧
    s'.vel = s.vel ∧ s'.springs = s.springs ∧ s'.locks = s.locks := by
  have hs := inv_run hrun
  have hlen : s.live.length = 1 ↔ s.active := by
    unfold State.active
    rw [hs.count]
  have hT1 : s.live.length = 1 → ∀ i, movedTargets s d i = s.targets i + d := by
    intro h i
    unfold movedTargets
    rw [if_pos (hlen.1 h)]
  have hT2 : s.live.length ≠ 1 → movedTargets s d = s.targets := by
    intro h
    unfold movedTargets
    rw [if_neg (fun h' => h (hlen.2 h'))]
  obtain ⟨-, ⟨hf, -⟩ | ⟨a', hf, h⟩⟩ := moveAnchor_ok e
  · rw [List.find?_eq_none] at hf
    have := hf _ ha
    simp at this
  have hm := List.mem_of_find?_eq_some hf
  have hak : a'.hid = a.hid := by
    have := List.find?_some hf
    simpa using this
  obtain rfl : a' = a := hid_inj hs.hids hm ha hak
  rcases h with ⟨i, hi, rfl⟩ | ⟨hi, rfl⟩
  · refine ⟨?_, ?_, hT1, hT2, rfl, rfl, rfl⟩
    · intro j hj
      rw [hi] at hj
      simp only [Kind.grab.injEq] at hj
      subst hj
      refine ⟨by simp, fun j hj => by simp [hj], rfl⟩
    · rintro ⟨q, st, f, g, hk⟩
      rw [hi] at hk
      simp at hk
  · refine ⟨?_, ?_, hT1, hT2, rfl, rfl, rfl⟩
    · intro j hj
      rw [hj] at hi
      simp at hi
    · rintro ⟨q, st, f, g, hk⟩
      refine ⟨rfl, q, ?_, ?_, ?_⟩
      · exact anchorData_of_mem hs.hids ha hk
      · rw [anchorData_move, if_pos rfl, anchorData_of_mem hs.hids ha hk]
        rfl
      · intro k hne
        rw [anchorData_move, if_neg hne]

example : ∃ s rs s' r, demo.run [.grab ⟨90, 10⟩] = .ok (s, rs) ∧ (∃ a ∈ s.live, a.hid = 0) ∧
    s.exec (.moveAnchor 0 ⟨5, 7⟩) = .ok (s', r) := by
  obtain ⟨i, t, n, -, -, h⟩ := demo_grab ⟨90, 10⟩ (rep_small (by norm_num [abs_of_pos]) (by norm_num [abs_of_pos]))
  exact ⟨_, _, _, _, run_one h, ⟨⟨0, .grab i⟩, by simp [grabbed, demo, State.new], rfl⟩, rfl⟩

end Verif.Props
