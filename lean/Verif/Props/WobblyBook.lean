import Verif.Props.WobblyAnchors
import Verif.Props.WobblySlowDouble

/-! # Wobbly: the books about anchors and springs are kept whatever the rounding (C126)

`run r (Rounded.new r p w h x b) ops = .ok (s, rs)` says: every result of an arithmetic operation is replaced by its
image under `r`, a model is made at `p` with size `w` by `h` and settings `x`, the calls `ops` all return, giving `rs`, and
`s` is the state reached. Except in the last theorem `r` may be any function. -/

namespace Verif.Props

open Wobbly Wobbly.Rounded Spec Outcome Classical

noncomputable section

variable {r : ℝ → ℝ} {p : Pt} {w h : ℝ} {x : Settings} {b : ℕ} {ops : List Op} {rs : List Res} {s : State}

/-- **C126.** The activation count is the number of anchors the program owns, and the targets are in force exactly while
that is one. -/
theorem C126_tracking (e : run r (Rounded.new r p w h x b) ops = .ok (s, rs)) :
    s.count = (owned [] ops rs).length ∧ (s.active ↔ (owned [] ops rs).length = 1) := by
  have h1 : s.count = (owned [] ops rs).length := by
    have : s.count = s.live.length := (run_book e).inv.count
    rw [this, ← List.length_map Live.hid, run_owned e]
    rfl
  exact ⟨h1, by unfold State.active; rw [h1]⟩

/-- **C126.** The lock count of every mesh point is the number of live grabs of it. -/
theorem C126_locks (e : run r (Rounded.new r p w h x b) ops = .ok (s, rs)) (i : Idx) :
    s.locks i = heldBy s i ∧ (s.locks i > 0 ↔ ∃ a ∈ s.live, a.kind = .grab i) := by
  have h1 : s.locks i = grabs s.live i := (run_book e).inv.locks i
  refine ⟨h1, ?_⟩
  rw [h1, grabs, gt_iff_lt, List.countP_pos_iff]
  apply exists_congr
  intro a
  apply and_congr Iff.rfl
  cases a.kind <;> simp [Kind.isGrab]

/-- **C126.** Nothing goes wrong in a release: it returns, or the settling loop it may start runs forever. If it returns, the
anchor is gone and the others are as they were; a grab gives back exactly one lock, of the point it held, and no spring; an
inserted anchor gives back no lock, its own springs go, the one it had taken out may come back, and no other spring comes
or goes. -/
theorem C126_release (e : run r (Rounded.new r p w h x b) ops = .ok (s, rs)) (k : ℕ) :
    ((∃ y, exec r s (.release k) = .ok y) ∨ exec r s (.release k) = .diverges) ∧
    ∀ s' y, exec r s (.release k) = .ok (s', y) → ∀ a ∈ s.live, a.hid = k →
      (∀ c, c ∈ s'.live ↔ c ∈ s.live ∧ c.hid ≠ k) ∧
      (∀ i, a.kind = .grab i →
        s'.locks i + 1 = s.locks i ∧ (∀ j, j ≠ i → s'.locks j = s.locks j) ∧ s'.springs = s.springs) ∧
      (IsInserted a → s'.locks = s.locks) ∧
      (∀ z ∈ s.springs, ¬ PutInBy a z → z ∈ s'.springs) ∧
      (∀ z ∈ s'.springs, (z ∈ s.springs ∧ ¬ PutInBy a z) ∨ TakenOutBy a z) := by
  have B := run_book e
  refine ⟨B.release_cases k, fun s' y hr a ha hk => ?_⟩
  rcases release_fields hr with ⟨hf, -⟩ | ⟨a', s1, t, n, hfa, h1, h0, hn, rfl, -⟩
  · rw [List.find?_eq_none] at hf
    have := hf _ ha
    simp [hk] at this
  obtain ⟨hm, hak⟩ := find_live hfa
  obtain rfl : a' = a := hid_inj B.inv.hids hm ha (hak.trans hk.symm)
  have hlive : ∀ c, c ∈ s1.live ↔ c ∈ s.live ∧ c.hid ≠ k := by
    intro c
    rw [releaseKind_live h1]
    simp
  refine ⟨hlive, ?_⟩
  simp only [putInBy_iff, takenOutBy_iff]
  cases hkind : a'.kind with
  | grab i =>
    rw [hkind] at h1
    obtain ⟨hpos, rfl⟩ := unlock_ok h1
    simp only [unlocked] at hpos ⊢
    refine ⟨fun j hj => ?_, ?_, fun z hz _ => hz, fun z hz => Or.inl ⟨hz, by simp [Kind.trackedOf]⟩⟩
    · obtain rfl : i = j := by simpa using hj
      refine ⟨?_, ?_, trivial⟩
      · simp only [Function.update_self]
        omega
      · intro j hj
        simp only [Function.update_of_ne hj]
    · rintro ⟨q, st, f, g, hk'⟩
      rw [hkind] at hk'
      cases hk'
  | ins q st f g =>
    rw [hkind] at h1
    simp only [State.releaseKind, Outcome.ok.injEq] at h1
    rw [removeTracked_eq, removeTracked_eq, replace_eq] at h1
    subst h1
    simp only [Kind.trackedOf, Kind.stolenOf, List.mem_cons, List.not_mem_nil, or_false, not_or]
    have hrem : ∀ y, y ∈ removeId (removeId s.springs g) f ↔ y ∈ s.springs ∧ y.id ≠ f ∧ y.id ≠ g := by
      intro y
      simp only [removeId, List.mem_filter, decide_eq_true_eq]
      tauto
    refine ⟨fun i hi => (by cases hi), fun _ => trivial, ?_, ?_⟩
    · intro y hy hne
      have : y ∈ removeId (removeId s.springs g) f := (hrem y).2 ⟨hy, hne⟩
      simp only [springsAfter]
      split_ifs
      · exact this
      · exact List.mem_append_left _ this
    · intro y hy
      simp only [springsAfter] at hy
      split_ifs at hy
      · exact Or.inl ((hrem y).1 hy)
      · rcases List.mem_append.1 hy with hy | hy
        · exact Or.inl ((hrem y).1 hy)
        · exact Or.inr (by simpa using hy)

/-- **C126.** The remembered first anchor is a pinned point if any is pinned and none otherwise, and no call changes it while
it stays pinned. -/
theorem C126_first_anchor (e : run r (Rounded.new r p w h x b) ops = .ok (s, rs)) :
    ((∃ i, s.locks i > 0) → ∃ i, s.firstAnchor = some i ∧ s.locks i > 0) ∧
    ((∀ i, s.locks i = 0) → s.firstAnchor = none) ∧
    ∀ i, s.firstAnchor = some i → ∀ op s' y, exec r s op = .ok (s', y) → s'.locks i > 0 → s'.firstAnchor = some i := by
  have B := run_book e
  have hsome : ∀ i, s.firstAnchor = some i → 0 < s.locks i := B.inv.firstSome
  have hnone : s.firstAnchor = none → ∀ i, s.locks i = 0 := B.inv.firstNone
  refine ⟨?_, ?_, fun i hf op s' y hx hp => ?_⟩
  · rintro ⟨i, hi⟩
    cases hf : s.firstAnchor with
    | none =>
      have := hnone hf i
      omega
    | some j => exact ⟨j, rfl, hsome j hf⟩
  · intro h0
    cases hf : s.firstAnchor with
    | none => rfl
    | some j =>
      have := hsome j hf
      have := h0 j
      omega
  · cases op with
    | grab q =>
      obtain ⟨j, t, n, -, hn, rfl, -⟩ := grab_fields hx
      simp [grabbed, State.lock, hf]
    | insert q =>
      obtain ⟨t, n, found, d1, d2, hn, hf', rfl, -⟩ := insert_fields hx
      exact hf
    | moveAnchor k d =>
      obtain ⟨-, ⟨t, m, rfl⟩ | ⟨t, rfl⟩⟩ := moveAnchor_fields hx
      · exact hf
      · exact hf
    | release k =>
      rcases release_fields hx with ⟨-, rfl, -⟩ | ⟨a, s1, t, n, ha, h1, h0, hn, rfl, -⟩
      · exact hf
      · cases hk : a.kind with
        | grab j =>
          rw [hk] at h1
          obtain ⟨-, rfl⟩ := unlock_ok h1
          simp only [unlocked] at hp ⊢
          rw [if_neg, hf]
          rintro ⟨h2, h3⟩
          rw [hf] at h3
          simp only [Option.some.injEq] at h3
          subst h3
          omega
        | ins q st f g =>
          rw [hk] at h1
          simp only [State.releaseKind, Outcome.ok.injEq] at h1
          rw [removeTracked_eq, removeTracked_eq, replace_eq] at h1
          subst h1
          exact hf
    | step t =>
      obtain ⟨pos, vel, more, rfl, -⟩ := step_fields hx
      exact hf
    | moveBy d =>
      simp only [exec, Outcome.ok.injEq, Prod.mk.injEq] at hx
      rw [← hx.1]
      exact hf
    | moveTo q =>
      obtain ⟨n, d, hn, rfl, -⟩ := moveTo_fields hx
      exact hf
    | resize w' h' =>
      obtain ⟨-, rfl | ⟨n, pos, t, f, q, hn, rfl⟩⟩ := resize_fields hx
      · exact hf
      · exact hf
    | setSettings y =>
      simp only [exec, Outcome.ok.injEq, Prod.mk.injEq] at hx
      rw [← hx.1]
      exact hf
    | elsewhere n =>
      simp only [exec, Outcome.ok.injEq, Prod.mk.injEq] at hx
      rw [← hx.1]
      exact hf

/-- **C126.** Once no inserted anchor is live, the springs are the 24 the model was made with (same identities, same ends),
and nothing is left pending. -/
theorem C126_springs_restored (e : run r (Rounded.new r p w h x b) ops = .ok (s, rs)) (hn : NoneInserted s) :
    (s.springs.map fun y => (y.id, y.a, y.b)).Perm
      ((Rounded.new r p w h x b).springs.map fun y => (y.id, y.a, y.b)) ∧
    s.springs.length = 24 ∧ s.pending = [] := by
  have hs := (run_book e).inv
  refine ⟨?_, ?_, (ids_perm hs hn).1⟩
  · have h1 : (Rounded.new r p w h x b).springs.map (fun y => (y.id, y.a, y.b)) = baseEnds b := baseSprings_ends _ _
    have h2 := ends_perm hs hn
    rw [h1]
    exact h2
  · have := (ids_perm hs hn).2.length_eq
    rwa [List.length_map, baseIds_eq, List.length_range'] at this

/-- **C126.** No two springs, whether in the mesh or held by an anchor, have the same identity, and every identity was issued
before. -/
theorem C126_identities (e : run r (Rounded.new r p w h x b) ops = .ok (s, rs)) :
    ((allSprings s).map Spring.id).Nodup ∧ ∀ y ∈ allSprings s, y.id ≤ s.lastId := by
  have hs := (run_book e).inv
  rw [allSprings_eq]
  refine ⟨?_, ?_⟩
  · rw [List.nodup_iff_count_le_one]
    intro z
    rw [List.map_append, List.count_append]
    exact hs.uniq z
  · intro y hy
    exact id_le hs hy

/-- **C126.** The two springs an inserted anchor put in run from that anchor to the two ends of the spring it took out,
wherever they are now: in the mesh or held by a further anchor. -/
theorem C126_springs_stay (e : run r (Rounded.new r p w h x b) ops = .ok (s, rs)) {a : Live} (ha : a ∈ s.live) {y : Spring}
    (hy : TakenOutBy a y) :
    (∃ u ∈ allSprings s, PutInBy a u ∧ u.a = .anchor a.hid ∧ u.b = y.a) ∧
    (∃ u ∈ allSprings s, PutInBy a u ∧ u.a = .anchor a.hid ∧ u.b = y.b) ∧
    ∀ u ∈ allSprings s, PutInBy a u → u.a = .anchor a.hid ∧ (u.b = y.a ∨ u.b = y.b) := by
  rw [allSprings_eq]
  obtain ⟨hs, he⟩ := run_book e
  obtain ⟨q, f, g, hk⟩ := hy
  have how := he.own a ha q y f g hk
  refine ⟨?_, ?_, ?_⟩
  · obtain ⟨u, hu, eu⟩ := put_in_exists hs ha (f := f) (by simp [hk, Kind.trackedOf])
    exact ⟨u, hu, ⟨q, y, f, g, hk, .inl eu⟩, (how u hu).1 eu⟩
  · obtain ⟨u, hu, eu⟩ := put_in_exists hs ha (f := g) (by simp [hk, Kind.trackedOf])
    exact ⟨u, hu, ⟨q, y, f, g, hk, .inr eu⟩, (how u hu).2 eu⟩
  · rintro u hu ⟨q', y', f', g', hk', eu⟩
    rw [hk] at hk'
    simp only [Kind.ins.injEq] at hk'
    obtain ⟨-, -, rfl, rfl⟩ := hk'
    rcases eu with eu | eu
    · exact ⟨((how u hu).1 eu).1, .inl ((how u hu).1 eu).2⟩
    · exact ⟨((how u hu).2 eu).1, .inr ((how u hu).2 eu).2⟩

/-- **C126.** A `Step` over a time that is not zero reads freed memory exactly if the program still owns an inserted anchor
that was put on a spring of an anchor released since. -/
theorem C126_undefined_iff (e : run r (Rounded.new r p w h x b) ops = .ok (s, rs)) {t : ℕ} (ht : t ≠ 0) :
    exec r s (.step t) = .ub ↔ ∃ a ∈ s.live, ∃ y, TakenOutBy a y ∧
      ∃ k, (y.a = .anchor k ∨ y.b = .anchor k) ∧ k ∉ owned [] ops rs := by
  have B := run_book e
  rw [step_undefined_iff s ht]
  have he : Ends (flat s) := B.ends.frame keeps_id (by simp [flat]) rfl rfl
  have hd := dangling_iff_stolen B.inv he
  have hl : s.live.map Live.hid = owned [] ops rs := run_owned e
  rw [← hl]
  simp only [takenOutBy_iff, List.mem_map, not_exists, not_and]
  exact hd

/-! ## A history in double precision -/

variable (R : Rounding64)

/-- At the centre of the first tile of a model of 300 by 300 pixels two anchors are inserted: the second sits on a spring of
the first. -/
theorem stacked_history {x : Settings} (hx : 1 / 1000 ≤ x.friction) (hx' : x.friction ≤ 15) (b : ℕ) :
    ∃ s y0 y1 f0 g0 f1 g1, run R.rnd (Rounded.new R.rnd ⟨0, 0⟩ 300 300 x b) [.insert ⟨50, 50⟩, .insert ⟨50, 50⟩] =
        .ok (s, [.handle 0, .handle 1]) ∧ WellSlow s ∧
      s.live = [⟨0, .ins ⟨50, 50⟩ y0 f0 g0⟩, ⟨1, .ins ⟨50, 50⟩ y1 f1 g1⟩] ∧ y1.a = .anchor 0 := by
  obtain ⟨h1, h2, -⟩ := whole_new R x b
  have hd0 := (new_double R ⟨0, 0⟩ 300 300 x b).pos
  have B0 : Book b (Rounded.new R.rnd ⟨0, 0⟩ 300 300 x b) := run_book (r := R.rnd) (ops := []) (rs := []) rfl
  have hl0 : (Rounded.new R.rnd ⟨0, 0⟩ 300 300 x b).live = [] := rfl
  have hk0 : (Rounded.new R.rnd ⟨0, 0⟩ 300 300 x b).nextHid = 0 := rfl
  have hc0 : (Rounded.new R.rnd ⟨0, 0⟩ 300 300 x b).count = 0 := rfl
  have hslow : WellSlow (Rounded.new R.rnd ⟨0, 0⟩ 300 300 x b) := by
    refine slow_near (d := fun _ => 0) (fun i => ?_) rfl rfl hx hx' (fun i => by simp) fun i j hij => ?_
    · rw [h1]
      ext <;> simp
    · show KeepsWellWithinOne _ _ 0 0 0 ∧ KeepsWellWithinOne _ _ 0 0 0
      simp only [KeepsWellWithinOne, farthest_zero]
      norm_num
  have hn0 : NoneInserted (Rounded.new R.rnd ⟨0, 0⟩ 300 300 x b) := by
    intro a ha
    rw [hl0] at ha
    cases ha
  obtain ⟨m1, m2, m3⟩ := B0.mesh hn0
  have q5 : |(50 : ℝ)| ≤ 32768 := by rw [abs_of_pos] <;> norm_num
  obtain ⟨t, n, f, d1, d2, hf, e1⟩ := slow_insert (R := R) (q := ⟨50, 50⟩) hslow hd0 m1 m2 (.inr m3) q5 q5
  have hfm := found_mem _ _ _ _ hf
  set D := Rounded.new R.rnd ⟨0, 0⟩ 300 300 x b with hD
  set s1 := (preInsert D t n).install ⟨50, 50⟩ f d1 d2 with hs1
  have r1 : run R.rnd (Rounded.new R.rnd ⟨0, 0⟩ 300 300 x b) [.insert ⟨50, 50⟩] = .ok (s1, [.handle 0]) := by
    rw [← hD]
    simp only [run, e1, bind_ok, hk0]
  have B1 := run_book r1
  have sp1 : s1.springs = removeId D.springs f.id ++ [⟨n + 1, .anchor 0, f.a, d1 - ⟨50, 50⟩⟩, ⟨n + 2, .anchor 0, f.b, d2 - ⟨50, 50⟩⟩] := rfl
  have l1 : s1.live = [⟨0, .ins ⟨50, 50⟩ f (n + 1) (n + 2)⟩] := rfl
  have slow1 : WellSlow s1 := slow_transfer hslow rfl rfl rfl rfl rfl
  have nd1 : ¬ dangling s1.springs s1.live := by
    rintro ⟨y, hy, hna⟩
    apply hna
    rw [sp1, List.mem_append] at hy
    have mesh : ∀ z ∈ D.springs, z.a.alive s1.live ∧ z.b.alive s1.live := by
      intro z hz
      obtain ⟨⟨i, hi⟩, j, hj⟩ := m3 z hz
      rw [hi, hj]
      exact ⟨trivial, trivial⟩
    have own : (Node.anchor 0).alive s1.live := by
      rw [l1]
      simp [Node.alive, anchorData]
    rcases hy with hy | hy
    · exact mesh y (List.mem_of_mem_filter hy)
    · simp only [List.mem_cons, List.not_mem_nil, or_false] at hy
      rcases hy with rfl | rfl
      · exact ⟨own, (mesh f hfm).1⟩
      · exact ⟨own, (mesh f hfm).2⟩
  have am1 : ∃ y ∈ s1.springs, ∃ i, y.a = .mesh i := by
    have hid : ∀ k ∈ List.range' (b + 1) 24, ∃ y ∈ D.springs, y.id = k := by
      intro k hk
      rw [← baseIds_eq, ← baseSprings_ids ⟨100, 100⟩, ← h2] at hk
      exact List.mem_map.1 hk
    obtain ⟨y, hy, hyk⟩ : ∃ y ∈ D.springs, y.id ≠ f.id := by
      obtain ⟨y, hy, e⟩ := hid (b + 1) (by simp)
      obtain ⟨z, hz, e'⟩ := hid (b + 2) (by simp)
      by_cases h : y.id = f.id
      · exact ⟨z, hz, by omega⟩
      · exact ⟨y, hy, h⟩
    refine ⟨y, ?_, (m3 y hy).1⟩
    rw [sp1]
    refine List.mem_append_left _ ?_
    simp [removeId, hy, hyk]
  have at0 : s1.env.at_ s1.pos (.anchor 0) = ⟨50, 50⟩ := by
    show apos s1.live 0 = _
    rw [l1]
    simp [apos, anchorData]
  obtain ⟨t', n', f', d1', d2', hf', e2⟩ :=
    slow_insert (R := R) (q := ⟨50, 50⟩) slow1 hd0 nd1 am1 (.inl (by show D.count + 1 ≠ 0; omega)) q5 q5
  have hfm' := found_mem _ _ _ _ hf'
  have zero : distance R.rnd ⟨50, 50⟩ ⟨50, 50⟩ = 0 :=
    (distance_whole R (p := ⟨50, 50⟩) (q := ⟨50, 50⟩) ⟨⟨0, by simp⟩, by simp⟩ ⟨⟨0, by simp⟩, by simp⟩).1 rfl
  have far : ∀ i, 1 ≤ distance R.rnd (s1.pos i) ⟨50, 50⟩ := by
    intro i
    have hp : s1.pos i = wholeMesh i := by
      show D.pos i = _
      rw [h1]
    obtain ⟨c, c'⟩ := wholeMesh_small i
    have c0 : (0 : ℝ) ≤ col i := Nat.cast_nonneg _
    have r0 : (0 : ℝ) ≤ row i := Nat.cast_nonneg _
    rw [hp]
    refine (distance_whole R ⟨⟨100 * col i - 50, by simp [wholeMesh]⟩, ?_⟩ ⟨⟨100 * row i - 50, by simp [wholeMesh]⟩, ?_⟩).2 ?_
    · simp only [wholeMesh]
      rw [abs_le]
      constructor <;> norm_num <;> linarith
    · simp only [wholeMesh]
      rw [abs_le]
      constructor <;> norm_num <;> linarith
    · intro h
      have := congrArg Pt.x h
      simp only [wholeMesh] at this
      have h' : ((2 * col i : ℕ) : ℝ) = (1 : ℕ) := by push_cast; linarith
      have : 2 * col i = 1 := by exact_mod_cast h'
      omega
  have near : f'.a = .anchor 0 := by
    have lt : distance R.rnd (s1.env.at_ s1.pos (.anchor 0)) ⟨50, 50⟩ < dblMax := by
      rw [at0, zero]
      exact dblMax_pos
    have mem : (⟨n + 1, .anchor 0, f.a, d1 - ⟨50, 50⟩⟩ : Spring) ∈ s1.springs := by
      rw [sp1]
      simp
    obtain ⟨f'', hf'', hle⟩ := found_nearest (r := R.rnd) (at_ := s1.env.at_ s1.pos) (p := ⟨50, 50⟩) (l := s1.springs) ⟨_, mem, lt⟩
    rw [hf'] at hf''
    cases hf''
    have := hle _ mem
    rw [at0, zero] at this
    rw [sp1, List.mem_append] at hfm'
    rcases hfm' with hy | hy
    · obtain ⟨i, hi⟩ := (m3 f' (List.mem_of_mem_filter hy)).1
      rw [hi] at this
      have h' : distance R.rnd (s1.pos i) ⟨50, 50⟩ ≤ 0 := this
      linarith [far i]
    · simp only [List.mem_cons, List.not_mem_nil, or_false] at hy
      rcases hy with rfl | rfl <;> rfl
  refine ⟨(preInsert s1 t' n').install ⟨50, 50⟩ f' d1' d2', f, f', n + 1, n + 2, n' + 1, n' + 2, ?_,
    slow_transfer slow1 rfl rfl rfl rfl rfl, rfl, near⟩
  simp only [run, e1, bind_ok, hk0]
  have : exec R.rnd s1 (.insert ⟨50, 50⟩) = .ok ((preInsert s1 t' n').install ⟨50, 50⟩ f' d1' d2', .handle 1) := e2
  rw [this]
  rfl

/-- **C126.** In double precision too a program can read freed memory without keeping anything it released: in a model of 300
by 300 pixels at the origin, whatever the stiffness of its springs, insert an anchor at (50, 50), insert another one there
and release the first; all three calls return, and the next `Step` over a time that is not zero reads the released anchor. -/
theorem C126_use_after_free {x : Settings} (hx : 1 / 1000 ≤ x.friction) (hx' : x.friction ≤ 15) (b : ℕ) :
    ∃ s rs, run R.rnd (Rounded.new R.rnd ⟨0, 0⟩ 300 300 x b) [.insert ⟨50, 50⟩, .insert ⟨50, 50⟩, .release 0] = .ok (s, rs) ∧
      owned [] [.insert ⟨50, 50⟩, .insert ⟨50, 50⟩, .release 0] rs = [1] ∧
      ∀ t, t ≠ 0 → exec R.rnd s (.step t) = .ub := by
  obtain ⟨s, y0, y1, f0, g0, f1, g1, e, hs, hl, hy⟩ := stacked_history R hx hx' b
  have B := run_book e
  have hd := (run_double (new_double R ⟨0, 0⟩ 300 300 x b) e).pos
  rcases B.release_cases (r := R.rnd) 0 with ⟨⟨s', y⟩, h⟩ | h
  · have e' : run R.rnd (Rounded.new R.rnd ⟨0, 0⟩ 300 300 x b) [.insert ⟨50, 50⟩, .insert ⟨50, 50⟩, .release 0] =
        .ok (s', [.handle 0, .handle 1, y]) := by
      have := Rounded.run_append R.rnd (Rounded.new R.rnd ⟨0, 0⟩ 300 300 x b) [.insert ⟨50, 50⟩, .insert ⟨50, 50⟩] [.release 0]
      rw [List.cons_append, List.cons_append, List.nil_append, e] at this
      rw [this]
      simp [run, h]
    have ho : owned [] [.insert ⟨50, 50⟩, .insert ⟨50, 50⟩, .release 0] [.handle 0, .handle 1, y] = [1] := by
      simp [owned]
    refine ⟨s', _, e', ho, fun t ht => (C126_undefined_iff e' ht).2 ?_⟩
    have hm := ((C126_release e 0).2 s' y h ⟨0, .ins ⟨50, 50⟩ y0 f0 g0⟩ (by rw [hl]; simp) rfl).1
    refine ⟨⟨1, .ins ⟨50, 50⟩ y1 f1 g1⟩, (hm _).2 ⟨by rw [hl]; simp, by simp⟩, y1, ⟨_, _, _, rfl⟩, 0, .inl hy, ?_⟩
    rw [ho]
    simp
  · exact absurd h (slow_returns hs hd _)

/-- The hypotheses of the theorems above: two inserted anchors are live, the second on a spring of the first. -/
example (b : ℕ) : ∃ s rs a y, run R.rnd (Rounded.new R.rnd ⟨0, 0⟩ 300 300 ⟨8, 5, 500⟩ b) [.insert ⟨50, 50⟩, .insert ⟨50, 50⟩] =
    .ok (s, rs) ∧ a ∈ s.live ∧ TakenOutBy a y ∧ y.a = .anchor 0 := by
  obtain ⟨s, y0, y1, f0, g0, f1, g1, e, -, hl, hy⟩ := stacked_history R (x := ⟨8, 5, 500⟩) (by norm_num) (by norm_num) b
  exact ⟨s, _, ⟨1, .ins ⟨50, 50⟩ y1 f1 g1⟩, y1, e, by rw [hl]; simp, ⟨_, _, _, rfl⟩, hy⟩

/-- Those of `C126_locks` and `C126_first_anchor`: a mesh point is pinned. -/
example (b : ℕ) (i : Idx) : ∃ s rs, run R.rnd (Rounded.new R.rnd ⟨0, 0⟩ 300 300 ⟨8, 5, 500⟩ b) [.grab (wholeMesh i)] = .ok (s, rs) ∧
    s.live = [⟨0, .grab i⟩] ∧ s.locks i > 0 := by
  obtain ⟨s, e, -, -, -, -, -, -, -, hl, -, -, hk⟩ := whole_grab R (b := b) (x := ⟨8, 5, 500⟩) (by norm_num) (by norm_num) i
  refine ⟨s, [.handle 0], ?_, hl, by rw [hk]; simp⟩
  simp only [run, e, bind_ok]

end

end Verif.Props
