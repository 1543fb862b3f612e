import Verif.Lemmas.WobblyBookSlow
import Verif.Lemmas.WobblyWhole
import Verif.Props.WobblySlow

/-! # Wobbly: slow models come to rest, in double precision (C124) -/

namespace Verif.Props

open Wobbly Wobbly.Rounded Spec Outcome Classical

noncomputable section

variable (R : Rounding64) {p : Pt} {w h : ℝ} {x : Settings} {b : ℕ} {ops : List Op} {rs : List Res} {s : State}

/-- **C124.** No call on a slow model hangs in double precision, whatever was called before. -/
theorem C124_no_hang (e : run R.rnd (Rounded.new R.rnd p w h x b) ops = .ok (s, rs)) (hs : WellSlow s) (op : Op) :
    exec R.rnd s op ≠ .diverges :=
  slow_returns hs (run_double (new_double R p w h x b) e).pos op

/-- **C124.** `MoveModelTo`, `ResizeModel` (from and to positive sizes), `GrabAnchor` (on the screen), the release of an
anchor, and `InsertAnchor` (on the screen, if no inserted anchor is live) return. -/
theorem C124_calls_return (e : run R.rnd (Rounded.new R.rnd p w h x b) ops = .ok (s, rs)) (hs : WellSlow s) :
    (∀ q, ∃ r, exec R.rnd s (.moveTo q) = .ok r) ∧
    (0 < s.width → 0 < s.height → ∀ w' h', 0 < w' → 0 < h' → ∃ r, exec R.rnd s (.resize w' h') = .ok r) ∧
    (∀ q : Pt, |q.x| ≤ 32768 → |q.y| ≤ 32768 → ∃ r, exec R.rnd s (.grab q) = .ok r) ∧
    (∀ k, ∃ r, exec R.rnd s (.release k) = .ok r) ∧
    (NoneInserted s → ∀ q : Pt, |q.x| ≤ 32768 → |q.y| ≤ 32768 → ∃ r, exec R.rnd s (.insert q) = .ok r) := by
  have hd := (run_double (new_double R p w h x b) e).pos
  obtain ⟨a, ha⟩ := target_returns (R := R) hs hd
  have B := run_book e
  refine ⟨fun q => ?_, fun w0 h0 w' h' hw' hh' => ?_, fun q hx hy => ?_, fun k => ?_, fun hn q hx hy => ?_⟩
  · simp only [exec, moveTo, ha, bind_ok]
    exact ⟨_, rfl⟩
  · simp only [exec, resize, ha, bind_ok]
    rw [if_neg (by simp [hw', hh']), if_neg (by simp [w0.ne', h0.ne'])]
    split_ifs
    · exact ⟨_, rfl⟩
    · exact ⟨_, rfl⟩
  · have hx' := abs_le.1 hx
    have hy' := abs_le.1 hy
    have px := abs_le.1 (hs.x 0)
    have py := abs_le.1 (hs.y 0)
    obtain ⟨i, hi, -⟩ := closest_some R (m := s.pos) (p := q) (screen_distance R
      (abs_le.2 ⟨by linarith, by linarith⟩) (abs_le.2 ⟨by linarith, by linarith⟩))
    obtain ⟨z, hz⟩ := slow_activate (R := R) (s := { s with unequal := True }) (slow_transfer hs rfl rfl rfl rfl rfl) hd
    simp only [exec, grab, hi, hz, bind_ok]
    exact ⟨_, rfl⟩
  · rcases B.release_cases (r := R.rnd) k with h | h
    · exact h
    · exact absurd h (slow_returns hs hd _)
  · obtain ⟨h1, h2, h3⟩ := B.mesh hn
    obtain ⟨t, n, f, d1, d2, -, h4⟩ := slow_insert (R := R) hs hd h1 h2 (.inr h3) hx hy
    exact ⟨_, h4⟩

/-- **C124.** `MoveModelTo (q)` on a slow model that does not follow targets moves it by the difference, as a `double`, of
`q` and a place where the top left corner comes to rest, which is no further from where that corner is than it may go. -/
theorem C124_moves_by (e : run R.rnd (Rounded.new R.rnd p w h x b) ops = .ok (s, rs)) (h1 : s.live.length ≠ 1)
    (hs : WellSlow s) :
    ∃ z : Pt, |z.x - (s.pos 0).x| ≤ farthest s.settings.friction (s.vel 0).x ∧
      |z.y - (s.pos 0).y| ≤ farthest s.settings.friction (s.vel 0).y ∧
      ∀ q : Pt, ∃ s' r, exec R.rnd s (.moveTo q) = .ok (s', r) ∧ ∀ i,
        (s'.pos i).x = R.rnd ((s.pos i).x + R.rnd (q.x - z.x)) ∧ (s'.pos i).y = R.rnd ((s.pos i).y + R.rnd (q.y - z.y)) := by
  have hd := (run_double (new_double R p w h x b) e).pos
  have ha : ¬ s.active := by
    unfold State.active
    rw [(run_counted (new_counted R.rnd p w h x b) e).count]
    exact h1
  obtain ⟨z, hz, hx, hy⟩ := slow_target (R := R) hs hd
  refine ⟨z, hx, hy, fun q => ?_⟩
  simp only [exec, moveTo]
  unfold targetPosition
  rw [if_neg ha, hz]
  exact ⟨_, _, rfl, fun i => ⟨rfl, rfl⟩⟩

/-- **C124.** A slow model of a program that inserts no anchors, with no anchor or with several, comes to rest within eight
ticks: there is a mesh within reach which every sequence of steps of eight ticks or more attains, and from then on `Step`
answers that nothing moves and leaves the mesh as it is. -/
theorem C124_comes_to_rest (hw : 1 ≤ w ∧ w ≤ 32768) (hh : 1 ≤ h ∧ h ≤ 32768) (ho : ∀ op ∈ ops, Ordinary op)
    (hn : resizes ops < 65536) (e : run R.rnd (Rounded.new R.rnd p w h x b) ops = .ok (s, rs)) (h1 : s.live.length ≠ 1)
    (hs : WellSlow s) :
    ∃ m, WithinFarthest s m ∧ ∀ ts : List ℕ, 8 ≤ (ts.map fun t => (t + 15) / 16).sum →
      ∃ s' rs', run R.rnd s (ts.map .step) = .ok (s', rs') ∧ s'.pos = m ∧ (∀ i, s'.vel i = 0) ∧
        ∀ t, t ≠ 0 → ∃ s'', exec R.rnd s' (.step t) = .ok (s'', .more False) ∧ s''.pos = m ∧ Still R.rnd s'' := by
  have A := run_double (new_double R p w h x b) e
  have K := run_counted (new_counted R.rnd p w h x b) e
  have ha : ¬ s.active := by
    unfold State.active
    rw [K.count]
    exact h1
  have S : Snug (1 + resizes ops) s := run_snug (R := R) (new_snug hw hh) ho (by
    have : (resizes ops : ℝ) ≤ 65535 := by exact_mod_cast (by omega : resizes ops ≤ 65535)
    linarith) e
  have C : Creeps s.env ⟨s.pos, s.vel⟩ := creeps_of_slow hs A.pos s.env rfl fun y hy => tiled_about S.sw S.sh (S.tiled y hy)
  have hdang : ¬ dangling s.springs s.live := mesh_ends_sound S.ends
  refine ⟨(restIter R.rnd s.env ⟨s.pos, s.vel⟩ 8).pos, fun i => ?_, fun ts hts => ?_⟩
  · have D := C.iter (R := R) 8
    have f := D.2.far i
    have l := D.1 i
    have hf : s.env.friction = s.settings.friction := rfl
    rw [hf] at f l
    simp only at l
    exact ⟨by linarith [f.1, l.1], by linarith [f.2, l.2]⟩
  · have hts' : 8 ≤ ticks ts := by
      unfold ticks
      simp only [funext stepCount_eq]
      exact hts
    obtain ⟨k, hk⟩ := Nat.exists_eq_add_of_le hts'
    obtain ⟨u, rs', hr⟩ := steps_inactive (r := R.rnd) ha hdang ts
    rw [hk, (C.after k).1] at hr
    have A' := run_double A hr
    refine ⟨_, rs', hr, rfl, C.stops, fun t ht => ?_⟩
    have D := (C.iter (R := R) 8).2
    have I : Idle R { s with pos := (restIter R.rnd s.env ⟨s.pos, s.vel⟩ 8).pos,
                             vel := (restIter R.rnd s.env ⟨s.pos, s.vel⟩ 8).vel, unequal := u }
        (restIter R.rnd s.env ⟨s.pos, s.vel⟩ 8).pos := ⟨fun hx => absurd hx ha, D.slack⟩
    obtain ⟨s3, e3⟩ := idle_answer A' I C.stops hdang ht
    obtain ⟨-, f3, -⟩ := step_idle A' ht e3
    have hp3 : s3.pos = (restIter R.rnd s.env ⟨s.pos, s.vel⟩ 8).pos := by
      rw [f3]
      exact if_neg ha
    refine ⟨s3, e3, hp3, ?_⟩
    have A3 : AllDouble s3 := exec_double (op := .step t) A' e3
    refine idle_step A3 ?_ ?_ ?_ ?_ ?_
    · rw [hp3, f3]
      exact ⟨fun hx => absurd hx ha, D.slack⟩
    · rw [f3]
      exact fun hx => absurd hx ha
    · rw [f3]
      exact fun _ => rfl
    · rw [f3]
      exact not_false
    · rw [f3]
      exact hdang

/-- **C124.** A slow model held by one anchor of a program that inserts none comes to rest on its targets, if these are a
lattice to within a pixel and no point may still get as far as the maximum range from its target: after steps of eight ticks
or more the next `Step` answers that nothing moves and leaves every point exactly on its target without velocity, where it
stays. -/
theorem C124_held (hw : 1 ≤ w ∧ w ≤ 32768) (hh : 1 ≤ h ∧ h ≤ 32768) (ho : ∀ op ∈ ops, Ordinary op)
    (hn : resizes ops < 65536) (e : run R.rnd (Rounded.new R.rnd p w h x b) ops = .ok (s, rs)) (h1 : s.live.length = 1)
    (hs : WellSlow s) (hT : WellSlow { s with pos := s.targets, vel := fun _ => 0 })
    (hR : ∀ i, euclid (s.targets i) (s.pos i) + farthest s.settings.friction (s.vel i).x +
      farthest s.settings.friction (s.vel i).y + 1 / 512 ≤ s.settings.maximumRange)
    {ts : List ℕ} (ht : ∀ t ∈ ts, t ≠ 0) (hts : 8 ≤ (ts.map fun t => (t + 15) / 16).sum) :
    ∃ s' rs', run R.rnd s (ts.map .step) = .ok (s', rs') ∧ ∀ t, t ≠ 0 →
      ∃ s'', exec R.rnd s' (.step t) = .ok (s'', .more False) ∧ s''.pos = s.targets ∧ (∀ i, s''.vel i = 0) ∧
        Still R.rnd s'' := by
  have A := run_double (new_double R p w h x b) e
  have K := run_counted (new_counted R.rnd p w h x b) e
  have ha : s.active := by
    unfold State.active
    rw [K.count]
    exact h1
  have S : Snug (1 + resizes ops) s := run_snug (R := R) (new_snug hw hh) ho (by
    have : (resizes ops : ℝ) ≤ 65535 := by exact_mod_cast (by omega : resizes ops ≤ 65535)
    linarith) e
  have about : ∀ y ∈ s.springs, AboutTile s.width s.height y := fun y hy => tiled_about S.sw S.sh (S.tiled y hy)
  have C : Creeps s.env ⟨s.pos, s.vel⟩ := creeps_of_slow hs A.pos s.env rfl about
  have CT : Creeps s.env ⟨s.targets, fun _ => 0⟩ :=
    creeps_of_slow (s := { s with pos := s.targets, vel := fun _ => 0 }) hT A.targets s.env rfl about
  have hdang : ¬ dangling s.springs s.live := mesh_ends_sound S.ends
  have hIn : StaysInRange s ⟨s.pos, s.vel⟩ := fun i => ⟨hT.x i, hT.y i, hR i⟩
  have hInT : StaysInRange s ⟨s.targets, fun _ => 0⟩ := by
    intro i
    refine ⟨hT.x i, hT.y i, ?_⟩
    have f := C.far i
    have hf : s.env.friction = s.settings.friction := rfl
    rw [hf] at f
    simp only at f
    have d0 : euclid (s.targets i) (s.targets i) = 0 := by simp [euclid]
    have d1 : 0 ≤ euclid (s.targets i) (s.pos i) := Real.sqrt_nonneg _
    have := hR i
    simp only [Pt.zero_x, Pt.zero_y, farthest_zero, d0]
    linarith [f.1, f.2]
  have still : ∀ u, u = False → Still R.rnd { s with pos := s.targets, vel := fun _ => 0, unequal := u } := by
    rintro _ rfl
    exact idle_step ⟨A.targets, A.targets⟩ ⟨fun _ => hInT.near CT, CT.slack⟩ (fun _ => rfl) (fun _ => rfl) not_false hdang
  have hts' : 8 ≤ ticks ts := by
    unfold ticks
    simp only [funext stepCount_eq]
    exact hts
  obtain ⟨k, hk⟩ := Nat.exists_eq_add_of_le hts'
  obtain ⟨u, rs', hr | hr⟩ := steps_tracked (R := R) A ha hdang C hIn (still False rfl) ht
  · rw [hk, (C.after k).1] at hr
    refine ⟨_, _, hr, fun t ht0 => ?_⟩
    have D := C.iter (R := R) 8
    have hh := D.2.halt (R := R) C.stops
    rcases step_tracked (R := R) (s := { s with
        pos := (restIter R.rnd s.env ⟨s.pos, s.vel⟩ 8).pos
        vel := (restIter R.rnd s.env ⟨s.pos, s.vel⟩ 8).vel
        unequal := u }) (run_double A hr) ha hdang D.2 (hIn.lessens D.1) ht0 with e3 | ⟨⟨m, -, hm⟩, -⟩
    · exact ⟨_, e3, rfl, fun _ => rfl, still False rfl⟩
    · exfalso
      have h8 := (C.after (R := R) m).2
      unfold restMore at hm h8
      rw [restIter_add] at h8
      exact h8 hm
  · exact ⟨_, _, hr, fun t _ => ⟨_, still False rfl t, rfl, fun _ => rfl, still False rfl⟩⟩

/-! ## Slow models in motion -/

/-- The mesh of 300 by 300 pixels at the origin. -/
def wholeMesh : Mesh := fun i => ⟨100 * col i, 100 * row i⟩

theorem wholeMesh_small : ∀ i : Idx, (col i : ℝ) ≤ 3 ∧ (row i : ℝ) ≤ 3 := by
  have : ∀ i : Idx, col i ≤ 3 ∧ row i ≤ 3 := by decide
  intro i
  exact_mod_cast this i

theorem whole_array : Rounded.positionArray R.rnd ⟨0, 0⟩ ⟨100, 100⟩ = wholeMesh := by
  funext i
  obtain ⟨h1, h2⟩ := wholeMesh_small i
  have c0 : (0 : ℝ) ≤ col i := Nat.cast_nonneg _
  have r0 : (0 : ℝ) ≤ row i := Nat.cast_nonneg _
  have e1 : Whole (2 ^ 52) ((col i : ℝ) * 100) :=
    ⟨⟨(col i : ℤ) * 100, by push_cast; ring⟩, by rw [abs_of_nonneg (by positivity)]; norm_num; linarith⟩
  have e2 : Whole (2 ^ 52) ((row i : ℝ) * 100) :=
    ⟨⟨(row i : ℤ) * 100, by push_cast; ring⟩, by rw [abs_of_nonneg (by positivity)]; norm_num; linarith⟩
  simp only [Rounded.positionArray, Rounded.add, zero_add, e1.exact R, e2.exact R]
  ext <;> simp only [wholeMesh] <;> ring

theorem whole_new (x : Settings) (b : ℕ) : (Rounded.new R.rnd ⟨0, 0⟩ 300 300 x b).pos = wholeMesh ∧
    (Rounded.new R.rnd ⟨0, 0⟩ 300 300 x b).springs = baseSprings ⟨100, 100⟩ b ∧ R.rnd (300 / (4 - 1)) = 100 := by
  have h : R.rnd (300 / (4 - 1)) = 100 := by
    rw [show (300 : ℝ) / (4 - 1) = ((100 : ℤ) : ℝ) by norm_num]
    exact (whole_int (n := 2 ^ 52) (by norm_num)).exact R
  refine ⟨?_, ?_, h⟩
  · show Rounded.positionArray R.rnd ⟨0, 0⟩ ⟨R.rnd (300 / (4 - 1)), R.rnd (300 / (4 - 1))⟩ = wholeMesh
    rw [h]
    exact whole_array R
  · show baseSprings ⟨R.rnd (300 / (4 - 1)), R.rnd (300 / (4 - 1))⟩ b = _
    rw [h]

/-- A mesh near the lattice of 300 by 300 pixels is slow if its displacements and velocities allow it. -/
theorem slow_near {d : Idx → Pt} (hp : ∀ i, s.pos i = wholeMesh i + d i) (hw : s.width = 300) (hh : s.height = 300)
    (hf : 1 / 1000 ≤ s.settings.friction) (hf' : s.settings.friction ≤ 15) (hd : ∀ i, |(d i).x| ≤ 1 ∧ |(d i).y| ≤ 1)
    (hn : ∀ i j, RightOf i j ∨ BelowOf i j →
      KeepsWellWithinOne s.settings.friction ((d j).x - (d i).x) 0 (s.vel i).x (s.vel j).x ∧
      KeepsWellWithinOne s.settings.friction ((d j).y - (d i).y) 0 (s.vel i).y (s.vel j).y) : WellSlow s := by
  refine ⟨⟨hf, hf', by rw [hw]; norm_num, by rw [hh]; norm_num, fun i => ?_, fun i => ?_⟩, fun i j hij => ?_, fun i j hij => ?_⟩
  · have c0 : (0 : ℝ) ≤ col i := Nat.cast_nonneg _
    have := (wholeMesh_small i).1
    have h2 := abs_le.1 (hd i).1
    rw [hp, Pt.add_x, abs_le]
    simp only [wholeMesh]
    constructor <;> linarith [h2.1, h2.2]
  · have c0 : (0 : ℝ) ≤ row i := Nat.cast_nonneg _
    have := (wholeMesh_small i).2
    have h2 := abs_le.1 (hd i).2
    rw [hp, Pt.add_y, abs_le]
    simp only [wholeMesh]
    constructor <;> linarith [h2.1, h2.2]
  · have k := hn i j (Or.inl hij)
    have hg := (slid_neighbours i j (Or.inl hij)).2.1 hij
    rw [hp, hp, hw]
    simp only [KeepsWellWithinOne, Pt.add_x, Pt.add_y, wholeMesh, hg.1, hg.2] at k ⊢
    push_cast
    refine ⟨le_of_eq_of_le ?_ k.1, le_of_eq_of_le ?_ k.2⟩
    · congr 3
      ring
    · congr 3
      ring
  · have k := hn i j (Or.inr hij)
    have hg := (slid_neighbours i j (Or.inr hij)).2.2 hij
    rw [hp, hp, hh]
    simp only [KeepsWellWithinOne, Pt.add_x, Pt.add_y, wholeMesh, hg.1, hg.2] at k ⊢
    push_cast
    refine ⟨le_of_eq_of_le ?_ k.1, le_of_eq_of_le ?_ k.2⟩
    · congr 3
      ring
    · congr 3
      ring

theorem wholeMesh_apart : ∀ i j : Idx, (col i, row i) = (col j, row j) → i = j := by decide

theorem whole_closest (i : Idx) : closestIndex R.rnd wholeMesh (wholeMesh i) = some i := by
  have hb : ∀ j, (0 : ℝ) ≤ col j ∧ (0 : ℝ) ≤ row j := fun j => ⟨Nat.cast_nonneg _, Nat.cast_nonneg _⟩
  refine closest_whole R (fun j => ⟨?_, ?_⟩) (fun j hj => ?_) ?_
  · refine ⟨⟨100 * col i - 100 * col j, by simp [wholeMesh]⟩, abs_le.2 ?_⟩
    simp only [wholeMesh]
    constructor <;> norm_num <;> linarith [(hb i).1, (hb j).1, (wholeMesh_small i).1, (wholeMesh_small j).1]
  · refine ⟨⟨100 * row i - 100 * row j, by simp [wholeMesh]⟩, abs_le.2 ?_⟩
    simp only [wholeMesh]
    constructor <;> norm_num <;> linarith [(hb i).2, (hb j).2, (wholeMesh_small i).2, (wholeMesh_small j).2]
  · apply wholeMesh_apart
    have h1 := congrArg Pt.x hj
    have h2 := congrArg Pt.y hj
    simp only [wholeMesh] at h1 h2
    have h1' : (col j : ℝ) = col i := by linarith
    have h2' : (row j : ℝ) = row i := by linarith
    rw [Prod.mk.injEq]
    exact ⟨by exact_mod_cast h1', by exact_mod_cast h2'⟩
  · refine screen_distance R (abs_le.2 ?_) (abs_le.2 ?_) <;> simp only [wholeMesh]
    · constructor <;> linarith [(hb i).1, (hb 0).1, (wholeMesh_small i).1, (wholeMesh_small 0).1]
    · constructor <;> linarith [(hb i).2, (hb 0).2, (wholeMesh_small i).2, (wholeMesh_small 0).2]

/-- After the first grab: held at `i`, with the targets on the mesh. -/
theorem whole_grab {x : Settings} (hx : 1 / 1000 ≤ x.friction) (hx' : x.friction ≤ 15) (i : Idx) :
    ∃ s, exec R.rnd (Rounded.new R.rnd ⟨0, 0⟩ 300 300 x b) (.grab (wholeMesh i)) = .ok (s, .handle 0) ∧
      s.pos = wholeMesh ∧ (∀ j, s.vel j = 0) ∧ s.targets = wholeMesh ∧ s.width = 300 ∧ s.height = 300 ∧ s.settings = x ∧
      s.springs = baseSprings ⟨100, 100⟩ b ∧ s.live = [⟨0, .grab i⟩] ∧ s.count = 1 ∧ s.nextHid = 1 ∧
      ∀ j, s.locks j = if j = i then 1 else 0 := by
  obtain ⟨h1, h2, h3⟩ := whole_new R x b
  set D := Rounded.new R.rnd ⟨0, 0⟩ 300 300 x b with hD
  have hslow : WellSlow ({ D with unequal := True, count := D.count + 1 } : State) := by
    refine slow_near (d := fun _ => 0) (fun i => ?_) rfl rfl hx hx' (fun i => by simp) fun i j hij => ?_
    · show D.pos i = _
      rw [h1]
      ext <;> simp
    · show KeepsWellWithinOne _ _ 0 0 0 ∧ KeepsWellWithinOne _ _ 0 0 0
      simp only [KeepsWellWithinOne, farthest_zero]
      norm_num
  obtain ⟨z, hz, zx, zy⟩ := slow_target (R := R) hslow (new_double R ⟨0, 0⟩ 300 300 x b).pos
  have hv : D.vel 0 = 0 := rfl
  have hp0 : D.pos 0 = ⟨0, 0⟩ := by
    rw [h1]
    simp [wholeMesh, col, row]
  have z0 : z = ⟨0, 0⟩ := by
    have zx' : |z.x - (D.pos 0).x| ≤ farthest D.settings.friction (D.vel 0).x := zx
    have zy' : |z.y - (D.pos 0).y| ≤ farthest D.settings.friction (D.vel 0).y := zy
    rw [hv, Pt.zero_x, farthest_zero, hp0, sub_zero] at zx'
    rw [hv, Pt.zero_y, farthest_zero, hp0, sub_zero] at zy'
    exact Pt.ext (abs_nonpos_iff.1 zx') (abs_nonpos_iff.1 zy')
  have ht : Rounded.tile R.rnd ({ D with unequal := True, count := D.count + 1 } : State) = ⟨100, 100⟩ := by
    show (⟨R.rnd (300 / (4 - 1)), R.rnd (300 / (4 - 1))⟩ : Pt) = _
    rw [h3]
  have hci : closestIndex R.rnd D.pos (wholeMesh i) = some i := by
    rw [h1]
    exact whole_closest R i
  simp only [exec, Rounded.grab, hci]
  unfold Rounded.activate
  dsimp only
  have hc : D.count + 1 = 1 := rfl
  rw [if_pos hc]
  unfold Rounded.recalc
  rw [hz]
  simp only [bind_ok]
  rw [z0, ht, whole_array R]
  refine ⟨_, rfl, h1, fun j => rfl, rfl, rfl, rfl, rfl, h2, rfl, rfl, rfl, fun j => ?_⟩
  show Function.update (fun _ => 0) i (0 + 1) j = _
  rw [Function.update_apply]

theorem whole_quarter (i : Idx) : Rounded.add R.rnd (wholeMesh i) ⟨1 / 4, 0⟩ = wholeMesh i + ⟨1 / 4, 0⟩ := by
  have c0 : (0 : ℝ) ≤ col i := Nat.cast_nonneg _
  have r0 : (0 : ℝ) ≤ row i := Nat.cast_nonneg _
  obtain ⟨h1, h2⟩ := wholeMesh_small i
  have e1 : Double (100 * (col i : ℝ) + 1 / 4) := by
    have hc : col i ≤ 3 := by exact_mod_cast h1
    have := double_mul (m := 400 * col i + 1) (e := -2) (by rw [abs_of_nonneg (by positivity)]; omega) (by norm_num)
    rw [show (100 : ℝ) * col i + 1 / 4 = ((400 * col i + 1 : ℤ) : ℝ) * 2 ^ (-2 : ℤ) by push_cast; norm_num; ring]
    exact this
  have e2 : Whole (2 ^ 52) (100 * (row i : ℝ) + 0) :=
    ⟨⟨100 * row i, by push_cast; ring⟩, by rw [abs_of_nonneg (by positivity)]; norm_num; linarith⟩
  simp only [Rounded.add, wholeMesh]
  rw [R.exact e1, e2.exact R]
  rfl

/-- The hypotheses of `C124_held`: the top left point is held and was moved by a quarter of a pixel. -/
theorem quarter_history (b : ℕ) : ∃ s rs, run R.rnd (Rounded.new R.rnd ⟨0, 0⟩ 300 300 ⟨8, 5, 500⟩ b)
      [.grab ⟨0, 0⟩, .moveAnchor 0 ⟨1 / 4, 0⟩] = .ok (s, rs) ∧ s.live.length = 1 ∧ WellSlow s ∧
    WellSlow { s with pos := s.targets, vel := fun _ => 0 } ∧ s.pos ≠ s.targets ∧
    ∀ i, euclid (s.targets i) (s.pos i) + farthest s.settings.friction (s.vel i).x +
      farthest s.settings.friction (s.vel i).y + 1 / 512 ≤ s.settings.maximumRange := by
  obtain ⟨s1, e1, hp, hv, ht, hw, hh, hs, -, hl, hc, -⟩ := whole_grab R (b := b) (x := ⟨8, 5, 500⟩) (by norm_num) (by norm_num) 0
  have w0 : wholeMesh 0 = ⟨0, 0⟩ := by simp [wholeMesh, col, row]
  rw [w0] at e1
  have ha : s1.active := hc
  let s2 : State := { s1 with targets := fun i => Rounded.add R.rnd (s1.targets i) ⟨1 / 4, 0⟩
                              pos := Function.update s1.pos 0 (Rounded.add R.rnd (s1.pos 0) ⟨1 / 4, 0⟩) }
  have e2 : exec R.rnd s1 (.moveAnchor 0 ⟨1 / 4, 0⟩) = .ok (s2, .none) := by
    simp only [exec, Rounded.moveAnchor, hl]
    simp [ha, s2, hl]
  have e : run R.rnd (Rounded.new R.rnd ⟨0, 0⟩ 300 300 ⟨8, 5, 500⟩ b) [.grab ⟨0, 0⟩, .moveAnchor 0 ⟨1 / 4, 0⟩] =
      .ok (s2, [.handle 0, .none]) := by
    simp only [run, e1, e2, bind_ok]
  have tar : ∀ i, s2.targets i = wholeMesh i + ⟨1 / 4, 0⟩ := by
    intro i
    show Rounded.add R.rnd (s1.targets i) ⟨1 / 4, 0⟩ = _
    rw [ht, whole_quarter]
  have pos : ∀ i, s2.pos i = wholeMesh i + (if i = 0 then ⟨1 / 4, 0⟩ else 0 : Pt) := by
    intro i
    show Function.update s1.pos 0 (Rounded.add R.rnd (s1.pos 0) ⟨1 / 4, 0⟩) i = _
    by_cases hi : i = 0
    · subst hi
      rw [Function.update_self, hp, whole_quarter, if_pos rfl]
    · rw [Function.update_of_ne hi, hp, if_neg hi]
      ext <;> simp
  have vel : ∀ i, s2.vel i = 0 := hv
  have hs2 : s2.settings = ⟨8, 5, 500⟩ := hs
  refine ⟨s2, _, e, by show s1.live.length = 1; rw [hl]; rfl, ?_, ?_, fun h => ?_, fun i => ?_⟩
  · refine slow_near pos hw hh (by rw [hs2]; norm_num) (by rw [hs2]; norm_num) (fun i => ?_) fun i j hij => ?_
    · split_ifs <;> norm_num [abs_of_pos]
    · rw [vel, vel]
      simp only [KeepsWellWithinOne, Pt.zero_x, Pt.zero_y, farthest_zero]
      by_cases h1 : i = 0 <;> by_cases h2 : j = 0 <;> simp only [h1, h2, if_true, if_false] <;> norm_num [abs_of_pos]
  · refine slow_near (d := fun _ => ⟨1 / 4, 0⟩) tar hw hh (by show _ ≤ s2.settings.friction; rw [hs2]; norm_num)
      (by show s2.settings.friction ≤ _; rw [hs2]; norm_num) (fun i => by norm_num [abs_of_pos]) fun i j hij => ?_
    simp only [KeepsWellWithinOne, Pt.zero_x, Pt.zero_y, farthest_zero]
    norm_num
  · have h1 := congrFun h 1
    rw [pos, tar, if_neg (by decide)] at h1
    have := congrArg Pt.x h1
    simp at this
  · rw [vel, pos, tar, hs2]
    simp only [Pt.zero_x, Pt.zero_y, farthest_zero, add_zero]
    have h2 : euclid (wholeMesh i + ⟨1 / 4, 0⟩) (wholeMesh i + (if i = 0 then ⟨1 / 4, 0⟩ else 0 : Pt)) ≤ 1 := by
      unfold euclid
      refine Real.sqrt_le_iff.2 ⟨zero_le_one, ?_⟩
      by_cases h0 : i = 0 <;> simp only [h0, if_true, if_false, Pt.add_x, Pt.add_y, Pt.zero_x, Pt.zero_y] <;> ring_nf <;> norm_num
    linarith

example (b : ℕ) : ∃ ops s rs, (∀ op ∈ ops, Ordinary op) ∧ resizes ops < 65536 ∧
    run R.rnd (Rounded.new R.rnd ⟨0, 0⟩ 300 300 ⟨8, 5, 500⟩ b) ops = .ok (s, rs) ∧ s.live.length = 1 ∧ WellSlow s ∧
    WellSlow { s with pos := s.targets, vel := fun _ => 0 } ∧ s.pos ≠ s.targets ∧
    ∀ i, euclid (s.targets i) (s.pos i) + farthest s.settings.friction (s.vel i).x +
      farthest s.settings.friction (s.vel i).y + 1 / 512 ≤ s.settings.maximumRange := by
  obtain ⟨s, rs, e, h⟩ := quarter_history R b
  refine ⟨_, s, rs, fun op hop => ?_, by simp [resizes], e, h⟩
  simp only [List.mem_cons, List.not_mem_nil, or_false] at hop
  rcases hop with rfl | rfl <;> trivial

/-- Friction 10: grab the first and the last mesh point, move the first one by a pixel, `Step (16)`. Then two points move
and the model is slow. -/
theorem moving_history (b : ℕ) : ∃ s rs, run R.rnd (Rounded.new R.rnd ⟨0, 0⟩ 300 300 ⟨8, 10, 500⟩ b)
      [.grab ⟨0, 0⟩, .grab ⟨300, 300⟩, .moveAnchor 0 ⟨1, 0⟩, .step 16] = .ok (s, rs) ∧
      s.live = [⟨0, .grab 0⟩, ⟨1, .grab 15⟩] ∧ s.springs = baseSprings ⟨100, 100⟩ b ∧ WellSlow s ∧ 1 / 4 < (s.vel 1).x := by
  obtain ⟨s1, e1, hp, hv, ht, hw, hh, hs, hsp, hl, hc, hn, hk⟩ :=
    whole_grab R (b := b) (x := ⟨8, 10, 500⟩) (by norm_num) (by norm_num) 0
  have w0 : wholeMesh 0 = ⟨0, 0⟩ := by simp [wholeMesh, col, row]
  have w15 : wholeMesh 15 = ⟨300, 300⟩ := by
    simp only [wholeMesh, show col 15 = 3 by decide, show row 15 = 3 by decide]
    norm_num
  rw [w0] at e1
  -- the second grab
  have hci : closestIndex R.rnd s1.pos ⟨300, 300⟩ = some 15 := by
    rw [hp, ← w15]
    exact whole_closest R 15
  let a2 : State := State.lock { s1 with unequal := True, count := s1.count + 1 } 15
  let s2 : State := { a2 with live := a2.live ++ [⟨a2.nextHid, .grab 15⟩], nextHid := a2.nextHid + 1 }
  have e2 : exec R.rnd s1 (.grab ⟨300, 300⟩) = .ok (s2, .handle 1) := by
    simp only [exec, Rounded.grab, hci]
    unfold Rounded.activate
    dsimp only
    rw [if_neg (by rw [hc]; norm_num)]
    show Outcome.ok (s2, Res.handle s1.nextHid) = _
    rw [hn]
  have hl2 : s2.live = [⟨0, .grab 0⟩, ⟨1, .grab 15⟩] := by
    show s1.live ++ [⟨s1.nextHid, .grab 15⟩] = _
    rw [hl, hn]
    rfl
  have hna : ¬ s2.active := by
    show s1.count + 1 ≠ 1
    omega
  let s3 : State := { s2 with pos := Function.update s1.pos 0 (Rounded.add R.rnd (s1.pos 0) ⟨1, 0⟩) }
  have e3 : exec R.rnd s2 (.moveAnchor 0 ⟨1, 0⟩) = .ok (s3, .none) := by
    simp only [exec, Rounded.moveAnchor, hl2]
    simp only [decide_true, List.find?_cons_of_pos, if_neg hna]
    rw [← hl2]
    rfl
  have p3 : ∀ i, s3.pos i = Wobbly.positionArray ⟨0, 0⟩ ⟨100, 100⟩ i + (if i = 0 then ⟨1, 0⟩ else 0 : Pt) := by
    intro i
    show Function.update s1.pos 0 (Rounded.add R.rnd (s1.pos 0) ⟨1, 0⟩) i = _
    by_cases hi : i = 0
    · subst hi
      rw [Function.update_self, hp, w0, if_pos rfl]
      unfold Rounded.add Wobbly.positionArray
      simp only [zero_add, rnd_zero, show R.rnd 1 = 1 from R.exact double_one]
      ext <;> simp [col, row]
    · rw [Function.update_of_ne hi, hp, if_neg hi]
      ext <;> simp [Wobbly.positionArray, wholeMesh] <;> ring
  have p3' : ∀ i, s3.pos i = wholeMesh i + (if i = 0 then ⟨1, 0⟩ else 0 : Pt) := by
    intro i
    rw [p3]
    congr 1
    ext <;> simp [Wobbly.positionArray, wholeMesh] <;> ring
  have v3 : ∀ i, s3.vel i = 0 := hv
  have spr3 : s3.springs = baseSprings ⟨100, 100⟩ b := hsp
  have set3 : s3.settings = ⟨8, 10, 500⟩ := hs
  have na3 : ¬ s3.active := hna
  have hdang : ¬ dangling s3.springs s3.live := mesh_ends_sound fun y hy => by
    rw [spr3] at hy
    exact base_ends_mesh hy
  have lk3 : ∀ i, s3.locks i = if i = 0 ∨ i = 15 then 1 else 0 := by
    intro i
    show Function.update s1.locks 15 (s1.locks 15 + 1) i = _
    by_cases h15 : i = 15
    · subst h15
      rw [Function.update_self, hk, if_neg (by decide), if_pos (Or.inr rfl)]
    · rw [Function.update_of_ne h15, hk]
      simp [h15]
  -- the forces
  have whole3 : ∀ i, WholePt (2 ^ 20) (s3.pos i) := by
    intro i
    have c0 : (0 : ℝ) ≤ col i := Nat.cast_nonneg _
    have r0 : (0 : ℝ) ≤ row i := Nat.cast_nonneg _
    obtain ⟨h1, h2⟩ := wholeMesh_small i
    rw [p3']
    by_cases hi : i = 0
    · subst hi
      rw [w0, if_pos rfl]
      exact ⟨⟨⟨1, by simp⟩, by norm_num⟩, ⟨⟨0, by simp⟩, by norm_num⟩⟩
    · rw [if_neg hi]
      refine ⟨⟨⟨100 * col i, by simp [wholeMesh]⟩, ?_⟩, ⟨⟨100 * row i, by simp [wholeMesh]⟩, ?_⟩⟩
      · simp only [wholeMesh, Pt.add_x, Pt.zero_x, add_zero]
        rw [abs_of_nonneg (by positivity)]
        norm_num
        linarith
      · simp only [wholeMesh, Pt.add_y, Pt.zero_y, add_zero]
        rw [abs_of_nonneg (by positivity)]
        norm_num
        linarith
  have force : ∀ i, i ≠ 0 → (Rounded.calculateForces R.rnd s3.env.k (s3.env.at_ s3.pos) s3.env.springs).1 (.mesh i) =
      if i = 1 ∨ i = 4 then ⟨4, 0⟩ else 0 := by
    intro i hi
    have hk : s3.env.k = 8 := by
      show s3.settings.springConstant = 8
      rw [set3]
    have hsp : s3.env.springs = baseSprings ⟨100, 100⟩ b := spr3
    rw [hk, hsp, forces_whole R (by unfold baseSprings; rw [List.length_map, List.length_zipIdx]; decide) (fun y hy => ?_),
      force_disp (e := s3.env) (p := ⟨0, 0⟩) (b := b) 8 p3 i, slid_force i hi]
    obtain ⟨⟨i, hi⟩, j, hj⟩ := base_ends_mesh hy
    rw [hi, hj]
    refine ⟨whole3 i, whole3 j, ?_⟩
    unfold baseSprings at hy
    rw [List.mem_map] at hy
    obtain ⟨z, -, rfl⟩ := hy
    dsimp only
    have k0 : Whole (2 ^ 20) 0 := ⟨⟨0, by simp⟩, by norm_num⟩
    have k1 : Whole (2 ^ 20) 100 := ⟨⟨100, by simp⟩, by norm_num⟩
    split_ifs
    · exact ⟨k0, k1⟩
    · exact ⟨k1, k0⟩
  -- the step
  set c := R.rnd (4 * R.rnd (1 / 15)) with hcdef
  have c1 : |c - 4 / 15| ≤ 1 / 1000000 := by
    have h1 := R.error (x := 1 / 15) (k := 0) (by norm_num) (by norm_num [abs_of_pos])
    have h1' : |R.rnd (1 / 15) - 1 / 15| ≤ 1 / 10000000 := h1.trans (by norm_num)
    rw [abs_le] at h1'
    have h2 := R.error (x := 4 * R.rnd (1 / 15)) (k := 0) (by norm_num)
      (by rw [zpow_zero]; exact abs_le.2 ⟨by linarith [h1'.1], by linarith [h1'.2]⟩)
    have h2' : |c - 4 * R.rnd (1 / 15)| ≤ 1 / 10000000 := h2.trans (by norm_num)
    rw [abs_le] at h2' ⊢
    constructor <;> linarith [h1'.1, h1'.2, h2'.1, h2'.2]
  have c2 := abs_le.1 c1
  have dc : R.rnd c = c := R.exact (R.double _)
  have tenth' : R.rnd (1 / 10) ≤ 1 / 8 :=
    rnd_le R (by norm_num) ⟨1, -3, by norm_num, by norm_num, by norm_num⟩
  have v4 : Rounded.eulerVelocity R.rnd 1 10 mass 0 4 = c := by
    have f4 : R.rnd 4 = 4 := R.exact ⟨1, 2, by norm_num, by norm_num, by norm_num⟩
    unfold Rounded.eulerVelocity mass
    simp only [add_zero, zero_add, rnd_zero, zero_mul, sub_zero, f4, mul_one, ← hcdef, dc]
    unfold clip
    rw [if_neg]
    rw [abs_of_pos (by linarith)]
    linarith
  have v0 : Rounded.eulerVelocity R.rnd 1 10 mass 0 0 = 0 := by
    unfold Rounded.eulerVelocity mass
    simp only [add_zero, zero_add, rnd_zero, zero_mul, sub_zero, mul_one]
    unfold clip
    split_ifs <;> rfl
  obtain ⟨u, rs4, e4⟩ := steps_inactive (r := R.rnd) na3 hdang [16]
  have ht1 : ticks [16] = 1 := by simp [ticks, stepCount_eq]
  rw [ht1] at e4
  set q := restIter R.rnd s3.env ⟨s3.pos, s3.vel⟩ 1 with hq
  have hq' : q = (springRound R.rnd s3.env ⟨s3.pos, s3.vel⟩).1 := rfl
  have fr : s3.env.friction = 10 := by
    show s3.settings.friction = 10
    rw [set3]
  have hm : R.rnd (1 / 2) = 1 / 2 := rnd_half R
  have qv : ∀ i, q.vel i = if i = 1 ∨ i = 4 then ⟨c, 0⟩ else 0 := by
    intro i
    rw [hq']
    unfold springRound Rounded.anchoredIntegration Rounded.eulerIntegrate
    simp only
    by_cases hi : s3.env.locks i > 0
    · rw [if_pos hi, if_neg ?_]
      · rfl
      · have h2 : s3.locks i > 0 := hi
        rw [lk3] at h2
        intro h14
        rw [if_neg] at h2
        · exact absurd h2 (by norm_num)
        · rcases h14 with rfl | rfl <;> decide
    · have hi0 : i ≠ 0 := by
        rintro rfl
        apply hi
        show s3.locks 0 > 0
        rw [lk3]
        decide
      rw [if_neg hi, force i hi0, v3, fr]
      by_cases h14 : i = 1 ∨ i = 4
      · rw [if_pos h14, if_pos h14]
        simp only [Pt.zero_x, Pt.zero_y, v4, v0]
      · rw [if_neg h14, if_neg h14]
        simp only [Pt.zero_x, Pt.zero_y, v0]
        rfl
  have qp : ∀ i, ∃ d : Pt, q.pos i = wholeMesh i + d ∧ (i = 0 → d = ⟨1, 0⟩) ∧
      (i = 1 ∨ i = 4 → |d.x - 2 / 15| ≤ 1 / 100000 ∧ d.y = 0) ∧ (i ≠ 0 → ¬ (i = 1 ∨ i = 4) → d = 0) := by
    intro i
    refine ⟨⟨(q.pos i).x - (wholeMesh i).x, (q.pos i).y - (wholeMesh i).y⟩, by ext <;> simp, ?_⟩
    have qvi := qv i
    by_cases hi : s3.env.locks i > 0
    · have h1 : q.pos i = s3.pos i := by
        rw [hq']
        unfold springRound Rounded.anchoredIntegration
        simp only
        rw [if_pos hi]
      have h2 : ¬ (i = 1 ∨ i = 4) := by
        intro h14
        have h2 : s3.locks i > 0 := hi
        rw [lk3, if_neg] at h2
        · exact absurd h2 (by norm_num)
        · rcases h14 with rfl | rfl <;> decide
      rw [h1, p3']
      refine ⟨?_, fun h => absurd h h2, ?_⟩
      · intro h0
        rw [if_pos h0]
        ext <;> simp
      · intro h0 _
        rw [if_neg h0]
        ext <;> simp
    · have hi0 : i ≠ 0 := by
        rintro rfl
        apply hi
        show s3.locks 0 > 0
        rw [lk3]
        decide
      have h1 : q.pos i = Rounded.add R.rnd (s3.pos i) (Rounded.scale R.rnd (q.vel i) (R.rnd (1 / 2))) := by
        rw [hq']
        unfold springRound Rounded.anchoredIntegration Rounded.eulerIntegrate
        simp only
        rw [if_neg hi, if_neg hi]
      have ep : s3.pos i = wholeMesh i := by
        rw [p3', if_neg hi0]
        ext <;> simp
      have dx : R.rnd (wholeMesh i).x = (wholeMesh i).x := by
        rw [← ep]
        exact ((whole3 i).1.mono (by norm_num)).exact R
      have dy : R.rnd (wholeMesh i).y = (wholeMesh i).y := by
        rw [← ep]
        exact ((whole3 i).2.mono (by norm_num)).exact R
      rw [h1, ep, qvi, hm]
      refine ⟨fun h => absurd h hi0, fun h14 => ?_, fun _ h14 => ?_⟩
      · rw [if_pos h14]
        simp only [Rounded.add, Rounded.scale, zero_mul, rnd_zero, add_zero, dy, sub_self, and_true]
        have h2 := R.error (x := c * (1 / 2)) (k := 0) (by norm_num)
          (by rw [zpow_zero]; exact abs_le.2 ⟨by linarith, by linarith⟩)
        have h2' := abs_le.1 (h2.trans (by norm_num : (2 : ℝ) ^ ((0 : ℤ) - 54) ≤ 1 / 10000000))
        have c0 : (0 : ℝ) ≤ col i := Nat.cast_nonneg _
        have hc3 := (wholeMesh_small i).1
        have h3 := R.error (x := (wholeMesh i).x + R.rnd (c * (1 / 2))) (k := 10) (by norm_num)
          (by simp only [wholeMesh]; exact abs_le.2 ⟨by norm_num; linarith [h2'.1], by norm_num; linarith [h2'.2]⟩)
        have h3' := abs_le.1 (h3.trans (by norm_num : (2 : ℝ) ^ ((10 : ℤ) - 54) ≤ 1 / 10000000))
        rw [abs_le]
        constructor <;> linarith [h2'.1, h2'.2, h3'.1, h3'.2]
      · rw [if_neg h14]
        simp only [Rounded.add, Rounded.scale, Pt.zero_x, Pt.zero_y, zero_mul, rnd_zero, add_zero, dx, dy, sub_self]
        rfl
  choose d qd d0 d1 d2 using qp
  have e4' : exec R.rnd s3 (.step 16) = .ok ({ s3 with pos := q.pos, vel := q.vel, unequal := u }, rs4.headD .none) := by
    simp only [List.map_cons, List.map_nil, run, bind_eq_ok, Outcome.ok.injEq, Prod.mk.injEq] at e4
    obtain ⟨a, ea, z, ez, h1, h2⟩ := e4
    rw [← ez] at h1 h2
    rw [ea, ← h1, ← h2]
    rfl
  refine ⟨{ s3 with pos := q.pos, vel := q.vel, unequal := u }, [.handle 0, .handle 1, .none, rs4.headD .none], ?_,
    hl2, spr3, ?_, ?_⟩
  · simp only [run, e1, e2, e3, e4', bind_ok]
  · refine slow_near (d := d) qd hw hh (by show _ ≤ s3.settings.friction; rw [set3]; norm_num)
      (by show s3.settings.friction ≤ _; rw [set3]; norm_num) (fun i => ?_) fun i j hij => ?_
    · by_cases h0 : i = 0
      · rw [d0 i h0]
        norm_num
      · by_cases h14 : i = 1 ∨ i = 4
        · obtain ⟨h1, h2⟩ := d1 i h14
          rw [h2]
          rw [abs_le] at h1
          refine ⟨abs_le.2 ⟨by linarith [h1.1], by linarith [h1.2]⟩, by norm_num⟩
        · rw [d2 i h0 h14]
          norm_num
    · show KeepsWellWithinOne s3.settings.friction ((d j).x - (d i).x) 0 (q.vel i).x (q.vel j).x ∧
        KeepsWellWithinOne s3.settings.friction ((d j).y - (d i).y) 0 (q.vel i).y (q.vel j).y
      obtain ⟨⟨g0, gj, -⟩, -, -⟩ := slid_neighbours i j hij
      have fc : farthest 10 c ≤ 7 / 100 := by
        unfold farthest
        rw [abs_of_pos (by linarith)]
        norm_num
        linarith
      have fz := farthest_zero 10
      rw [qv, qv, set3]
      simp only [KeepsWellWithinOne, sub_zero]
      have all : ∀ k, (k ≠ 0 → |(d k).x| ≤ 1 / 7 ∧ (0 ≤ (d k).x ∧ (k = 1 ∨ k = 4 → 1 / 8 ≤ (d k).x)) ∧ (d k).y = 0) := by
        intro k hk0
        by_cases h14 : k = 1 ∨ k = 4
        · obtain ⟨h1, h2⟩ := d1 k h14
          rw [abs_le] at h1
          exact ⟨abs_le.2 ⟨by linarith [h1.1], by linarith [h1.2]⟩, ⟨by linarith [h1.1], fun _ => by linarith [h1.1]⟩, h2⟩
        · rw [d2 k hk0 h14]
          exact ⟨by norm_num, ⟨by simp, fun h => absurd h h14⟩, rfl⟩
      have fv : ∀ k : Idx, farthest 10 (if k = 1 ∨ k = 4 then ⟨c, 0⟩ else 0 : Pt).x ≤ 7 / 100 ∧
          farthest 10 (if k = 1 ∨ k = 4 then ⟨c, 0⟩ else 0 : Pt).y = 0 := by
        intro k
        split_ifs
        · exact ⟨fc, fz⟩
        · exact ⟨by rw [Pt.zero_x, fz]; norm_num, fz⟩
      obtain ⟨j1, j2, j3⟩ := all j gj
      rw [(fv i).2, (fv j).2, j3]
      rw [abs_le] at j1
      by_cases h0 : i = 0
      · rw [d0 i h0]
        have f0 : farthest 10 (if i = 1 ∨ i = 4 then ⟨c, 0⟩ else 0 : Pt).x = 0 := by
          rw [if_neg (by rw [h0]; decide), Pt.zero_x, fz]
        have j4 := j2.2 (g0 h0)
        rw [f0]
        refine ⟨?_, by norm_num⟩
        rw [abs_of_nonpos (by linarith [j1.2])]
        linarith [(fv j).1]
      · obtain ⟨i1, i2, i3⟩ := all i h0
        rw [abs_le] at i1
        refine ⟨?_, by rw [i3]; norm_num⟩
        have : |(d j).x - (d i).x| ≤ 2 / 7 := abs_le.2 ⟨by linarith [i1.2, j1.1], by linarith [i1.1, j1.2]⟩
        linarith [(fv i).1, (fv j).1]
  · show 1 / 4 < (q.vel 1).x
    rw [qv, if_pos (Or.inl rfl)]
    show 1 / 4 < c
    linarith

/-- The hypotheses of `C124_no_hang`, `C124_calls_return`, `C124_moves_by` and `C124_comes_to_rest` in a history after which
points move. -/
example (b : ℕ) : ∃ ops s rs, (∀ op ∈ ops, Ordinary op) ∧ resizes ops < 65536 ∧
    run R.rnd (Rounded.new R.rnd ⟨0, 0⟩ 300 300 ⟨8, 10, 500⟩ b) ops = .ok (s, rs) ∧ s.live.length ≠ 1 ∧ WellSlow s ∧
    1 / 4 < (s.vel 1).x := by
  obtain ⟨s, rs, e, h, -, h'⟩ := moving_history R b
  refine ⟨_, s, rs, fun op hop => ?_, by simp [resizes], e, by rw [h]; simp, h'⟩
  simp only [List.mem_cons, List.not_mem_nil, or_false] at hop
  rcases hop with rfl | rfl | rfl | rfl <;> trivial

end

end Verif.Props
