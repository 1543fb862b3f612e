import Verif.Props.WobblyTwice

/-! # A grabbed model far out that answers false and then moves again (C116) -/

namespace Verif.Props

open Wobbly Wobbly.Rounded Spec Outcome Classical

noncomputable section

variable (R : Rounding64) {x : Settings} {b : ℕ}

/-- Above 2^53 doubles are even. -/
theorem rnd_even {v : ℝ} {m : ℤ} (h0 : (2 : ℝ) ^ 52 + 2 ≤ m) (h1 : (m : ℝ) < 2 ^ 53) (hv : |v - 2 * m| < 1) : R.rnd v = 2 * m := by
  have hm : Double (2 * m) := ⟨m, 1, by
    rw [abs_of_nonneg (by
      have : (0 : ℝ) ≤ m := by linarith [show (0 : ℝ) ≤ 2 ^ 52 by positivity]
      exact_mod_cast this)]
    exact_mod_cast h1, by norm_num, by norm_num; ring⟩
  have hn := R.nearest v _ hm
  rw [abs_sub_comm (2 * (m : ℝ)) v] at hn
  have hlt : |R.rnd v - 2 * m| < 2 := by
    have : R.rnd v - 2 * m = (R.rnd v - v) + (v - 2 * m) := by ring
    rw [this]
    exact (abs_add_le _ _).trans_lt (by linarith)
  rw [abs_lt] at hlt
  obtain ⟨j, hj⟩ := double_multiple (R.double v) (k := 1) (by
    rw [abs_of_nonneg (by linarith [show (0 : ℝ) ≤ 2 ^ 52 by positivity])]
    have : (2 : ℝ) ^ ((1 : ℤ) + 52) = 2 * 2 ^ 52 := by norm_num
    rw [this]
    linarith)
  rw [zpow_one] at hj
  rw [hj] at hlt ⊢
  have a1 : (-1 : ℝ) < (j - m : ℤ) := by push_cast; linarith
  have a2 : ((j - m : ℤ) : ℝ) < 1 := by push_cast; linarith
  have : j = m := by
    have b1 : -1 < j - m := by exact_mod_cast a1
    have b2 : j - m < 1 := by exact_mod_cast a2
    omega
  rw [this]
  ring

/-- The tile of the model below. -/
def farTile : Pt := ⟨1607 / 16, 100⟩

/-- How far out the model is. -/
def farOut : ℝ := 9007199254742016

theorem far_rnd {v : ℝ} (m : ℕ) (hm : m ≤ 1000) (hv : |v - (farOut + 2 * m)| < 1) : R.rnd v = farOut + 2 * m := by
  have e : farOut + 2 * m = 2 * ((4503599627371008 + m : ℤ) : ℝ) := by
    unfold farOut
    push_cast
    ring
  rw [e] at hv ⊢
  have : (m : ℝ) ≤ 1000 := by exact_mod_cast hm
  refine rnd_even R ?_ ?_ hv <;> push_cast <;> linarith [show (0 : ℝ) ≤ m from Nat.cast_nonneg m]

/-- Where its points are: the columns 100 pixels apart. -/
def farMesh : Mesh := fun j => ⟨farOut + 100 * col j, 100 * row j⟩

/-- Where their targets are: the last column two pixels further out. -/
def farTargets : Mesh := fun j => ⟨farOut + 100 * col j + (if col j = 3 then 2 else 0), 100 * row j⟩

theorem col_le (j : Idx) : col j ≤ 3 := by revert j; decide

theorem row_le (j : Idx) : row j ≤ 3 := by revert j; decide

theorem dyadic {m : ℤ} (k : ℕ) (hm : |m| < 2 ^ 53) (hk : k ≤ 100) : Double (m / 2 ^ k) :=
  ⟨m, -k, hm, by omega, by rw [zpow_neg, zpow_natCast]; rfl⟩

theorem sixteenth {v : ℝ} (m : ℤ) (hm : |m| < 2 ^ 53) (e : v = m / 16) : R.rnd v = v := by
  rw [e]
  have := R.exact (dyadic 4 hm (by norm_num))
  norm_num at this
  exact this

theorem far_new (x : Settings) (b : ℕ) : Rounded.new R.rnd 0 (4821 / 16) 300 x b =
    ⟨4821 / 16, 300, x, fun _ => 0, none, fun j => ⟨col j * (1607 / 16), row j * 100⟩, 0, fun j => ⟨col j * (1607 / 16), row j * 100⟩,
      fun _ => 0, baseSprings farTile b, [], b + springCount, False, [], 0⟩ := by
  have e1 : R.rnd (4821 / 16 / (4 - 1)) = 1607 / 16 := by
    rw [show (4821 / 16 / (4 - 1) : ℝ) = 1607 / 16 by norm_num]
    exact sixteenth R 1607 (by norm_num) (by norm_num)
  have e2 : R.rnd (300 / (4 - 1)) = 100 := by
    rw [show (300 / (4 - 1) : ℝ) = 100 by norm_num]
    exact sixteenth R 1600 (by norm_num) (by norm_num)
  have e3 : Rounded.positionArray R.rnd 0 ⟨1607 / 16, 100⟩ = fun j => ⟨col j * (1607 / 16), row j * 100⟩ := by
    funext j
    have hc := col_le j
    have hr := row_le j
    have f1 : R.rnd (col j * (1607 / 16)) = col j * (1607 / 16) :=
      sixteenth R (col j * 1607) (by rw [abs_of_nonneg (by positivity)]; omega) (by push_cast; ring)
    have f2 : R.rnd (row j * 100) = row j * 100 :=
      sixteenth R (row j * 1600) (by rw [abs_of_nonneg (by positivity)]; omega) (by push_cast; ring)
    simp only [Rounded.positionArray, add, Pt.zero_x, Pt.zero_y, zero_add, f1, f2]
  unfold Rounded.new
  rw [e1, e2, e3]
  rfl

/-- The model after the two moves. -/
def farState (t : Mesh) (x : Settings) (b : ℕ) : State :=
  ⟨4821 / 16, 300, x, fun _ => 0, none, t, 0, farMesh, fun _ => 0, baseSprings farTile b, [], b + springCount, False, [], 0⟩

theorem far_moved (x : Settings) (b : ℕ) :
    ∃ t, run R.rnd (Rounded.new R.rnd 0 (4821 / 16) 300 x b) [.moveBy ⟨-(1 / 2), 0⟩, .moveBy ⟨farOut, 0⟩] =
      .ok (farState t x b, [.none, .none]) := by
  rw [far_new]
  simp only [run, exec, bind_ok]
  refine ⟨fun i => add R.rnd (add R.rnd ⟨(col i : ℝ) * (1607 / 16), (row i : ℝ) * 100⟩ ⟨-(1 / 2), 0⟩) ⟨farOut, 0⟩,
    congrArg (fun z => Outcome.ok (z, [Res.none, Res.none])) ?_⟩
  have e : (fun i : Idx => add R.rnd (add R.rnd ⟨(col i : ℝ) * (1607 / 16), (row i : ℝ) * 100⟩ ⟨-(1 / 2), 0⟩) ⟨farOut, 0⟩) = farMesh := by
    funext j
    have hc := col_le j
    have hr := row_le j
    have f1 : R.rnd (col j * (1607 / 16) + -(1 / 2)) = col j * (1607 / 16) + -(1 / 2) :=
      sixteenth R (col j * 1607 - 8) (by rw [abs_lt]; constructor <;> omega) (by push_cast; ring)
    have f2 : R.rnd (row j * 100) = row j * 100 :=
      sixteenth R (row j * 1600) (by rw [abs_of_nonneg (by positivity)]; omega) (by push_cast; ring)
    have f3 : R.rnd (col j * (1607 / 16) + -(1 / 2) + farOut) = farOut + 100 * col j := by
      have c0 : (0 : ℝ) ≤ col j := Nat.cast_nonneg _
      have c3 : (col j : ℝ) ≤ 3 := by exact_mod_cast hc
      have := far_rnd R (v := col j * (1607 / 16) + -(1 / 2) + farOut) (50 * col j) (by omega) (by
        rw [abs_lt]
        push_cast
        constructor <;> linarith)
      rw [this]
      push_cast
      ring
    simp only [add, farMesh, add_zero, f1, f2, f3]
    rw [mul_comm (row j : ℝ) 100]
  simp only [moveBy, e, List.map_nil]
  rfl

/-- What a spring makes of one coordinate. -/
def pull (r : ℝ → ℝ) (u d : ℝ) : ℝ := clip (1 / 2) (r (1 / 2 * r (r u + d)))

theorem deltaA_pull (r : ℝ → ℝ) (y : Spring) (at_ : Node → Pt) : deltaA r y at_ =
    ⟨pull r ((at_ y.b).x - (at_ y.a).x) (r (y.desired.x * -1)), pull r ((at_ y.b).y - (at_ y.a).y) (r (y.desired.y * -1))⟩ := rfl

theorem deltaB_pull (r : ℝ → ℝ) (y : Spring) (at_ : Node → Pt) : deltaB r y at_ =
    ⟨pull r ((at_ y.a).x - (at_ y.b).x) y.desired.x, pull r ((at_ y.a).y - (at_ y.b).y) y.desired.y⟩ := rfl

theorem rnd_dyadic {v : ℝ} (m : ℤ) (hm : |m| < 2 ^ 53) (e : v = m / 32) : R.rnd v = v := by
  rw [e]
  have := R.exact (dyadic 5 hm (by norm_num))
  norm_num at this
  exact this

theorem pull_eq {u d : ℝ} (m n : ℤ) (hu : u = 2 * m / 32) (hd : d = 2 * n / 32) (h1 : |2 * m| < 2 ^ 53) (h2 : |2 * (m + n)| < 2 ^ 53)
    (h3 : |m + n| < 2 ^ 53) : pull R.rnd u d = clip (1 / 2) ((u + d) / 2) := by
  unfold pull
  have e1 : R.rnd u = u := rnd_dyadic R (2 * m) h1 (by rw [hu]; push_cast; ring)
  have e2 : R.rnd (u + d) = u + d := rnd_dyadic R (2 * (m + n)) h2 (by rw [hu, hd]; push_cast; ring)
  have e3 : R.rnd (1 / 2 * (u + d)) = 1 / 2 * (u + d) := rnd_dyadic R (m + n) h3 (by rw [hu, hd]; push_cast; ring)
  rw [e1, e2, e3]
  ring_nf

theorem far_slack (b : ℕ) : ∀ y ∈ baseSprings farTile b, Slack R y (meshAt farMesh) := by
  intro y hy
  simp only [baseSprings, List.mem_map] at hy
  obtain ⟨e, he, rfl⟩ := hy
  obtain ⟨u1, u2⟩ := edges_unit e.1 (List.fst_mem_of_mem_zipIdx he)
  have d0 : R.rnd (0 * -1) = 0 := by rw [zero_mul]; exact rnd_zero R
  have d1 : R.rnd (1607 / 16 * -1) = -(1607 / 16) := by
    rw [sixteenth R (-1607) (by norm_num) (by norm_num)]
    norm_num
  have d2 : R.rnd (100 * -1) = -100 := by
    rw [sixteenth R (-1600) (by norm_num) (by norm_num)]
    norm_num
  have p0 : pull R.rnd 0 0 = 0 := by
    rw [pull_eq R 0 0 (by norm_num) (by norm_num) (by norm_num) (by norm_num) (by norm_num)]
    norm_num [clip]
  have p1 : pull R.rnd 100 (-100) = 0 := by
    rw [pull_eq R 1600 (-1600) (by norm_num) (by norm_num) (by norm_num) (by norm_num) (by norm_num)]
    norm_num [clip]
  have p2 : pull R.rnd (-100) 100 = 0 := by
    rw [pull_eq R (-1600) 1600 (by norm_num) (by norm_num) (by norm_num) (by norm_num) (by norm_num)]
    norm_num [clip]
  have p3 : pull R.rnd 100 (-(1607 / 16)) = 0 := by
    rw [pull_eq R 1600 (-1607) (by norm_num) (by norm_num) (by norm_num) (by norm_num) (by norm_num)]
    norm_num [clip, abs_lt]
  have p4 : pull R.rnd (-100) (1607 / 16) = 0 := by
    rw [pull_eq R (-1600) 1607 (by norm_num) (by norm_num) (by norm_num) (by norm_num) (by norm_num)]
    norm_num [clip, abs_lt]
  cases hb : e.1.2.2 with
  | true =>
    obtain ⟨c, r⟩ := u1 hb
    refine ⟨?_, ?_⟩
    · rw [deltaA_pull]
      simp only [meshAt, farMesh, c, r, farTile, if_true, Nat.cast_add, Nat.cast_one, sub_self, d0, d2, p0]
      rw [show (100 * ((row e.1.1 : ℝ) + 1) - 100 * row e.1.1) = 100 by ring, p1]
      rfl
    · rw [deltaB_pull]
      simp only [meshAt, farMesh, c, r, farTile, if_true, Nat.cast_add, Nat.cast_one, sub_self, p0]
      rw [show (100 * (row e.1.1 : ℝ) - 100 * (row e.1.1 + 1)) = -100 by ring, p2]
      rfl
  | false =>
    obtain ⟨c, r⟩ := u2 hb
    refine ⟨?_, ?_⟩
    · rw [deltaA_pull]
      simp only [meshAt, farMesh, c, r, farTile, if_false, Nat.cast_add, Nat.cast_one, sub_self, d0, d1, p0, Bool.false_eq_true]
      rw [show (farOut + 100 * ((col e.1.1 : ℝ) + 1) - (farOut + 100 * col e.1.1)) = 100 by ring, p3]
      rfl
    · rw [deltaB_pull]
      simp only [meshAt, farMesh, c, r, farTile, if_false, Nat.cast_add, Nat.cast_one, sub_self, p0, Bool.false_eq_true]
      rw [show (farOut + 100 * (col e.1.1 : ℝ) - (farOut + 100 * (col e.1.1 + 1))) = -100 by ring, p4]
      rfl

theorem far_tight (b : ℕ) : ∃ y ∈ baseSprings farTile b, ¬ Slack R y (meshAt farTargets) := by
  have hm : ((2 : Idx), (3 : Idx), false) ∈ baseEdges := by decide
  obtain ⟨k, hk⟩ : ∃ k, (((2 : Idx), (3 : Idx), false), k) ∈ baseEdges.zipIdx := by
    obtain ⟨n, hn, e⟩ := List.mem_iff_getElem.1 hm
    exact ⟨n, by
      rw [List.mem_zipIdx_iff_getElem?]
      rw [List.getElem?_eq_getElem hn, e]⟩
  refine ⟨_, List.mem_map.2 ⟨_, hk, rfl⟩, fun h => ?_⟩
  have := congrArg Pt.x h.2
  rw [deltaB_pull] at this
  simp only [meshAt, farTargets, farTile, Pt.zero_x] at this
  have h2 : col (2 : Idx) = 2 := rfl
  have h3 : col (3 : Idx) = 3 := rfl
  rw [h2, h3] at this
  simp only [if_false, Bool.false_eq_true] at this
  norm_num at this
  rw [show farOut + 200 - (farOut + 300 + 2) = -102 by ring,
    pull_eq R (-1632) 1607 (by norm_num) (by norm_num) (by norm_num) (by norm_num) (by norm_num)] at this
  norm_num [clip, abs_lt] at this

theorem far_tile : (⟨R.rnd (4821 / 16 / (4 - 1)), R.rnd (300 / (4 - 1))⟩ : Pt) = farTile := by
  unfold farTile
  rw [show (4821 / 16 / (4 - 1) : ℝ) = 1607 / 16 by norm_num, show (300 / (4 - 1) : ℝ) = 100 by norm_num,
    sixteenth R 1607 (by norm_num) (by norm_num), sixteenth R 1600 (by norm_num) (by norm_num)]

theorem far_aim : Rounded.positionArray R.rnd (farMesh 0) farTile = farTargets := by
  funext j
  have hc := col_le j
  have hr := row_le j
  have f1 : R.rnd (col j * (1607 / 16)) = col j * (1607 / 16) :=
    sixteenth R (col j * 1607) (by rw [abs_of_nonneg (by positivity)]; omega) (by push_cast; ring)
  have f2 : R.rnd (row j * 100) = row j * 100 :=
    sixteenth R (row j * 1600) (by rw [abs_of_nonneg (by positivity)]; omega) (by push_cast; ring)
  have f3 : R.rnd (farOut + col j * (1607 / 16)) = farOut + 100 * col j + (if col j = 3 then 2 else 0) := by
    by_cases h3 : col j = 3
    · rw [if_pos h3, h3, far_rnd R 151 (by norm_num) (by rw [abs_lt]; constructor <;> norm_num)]
      norm_num
      ring
    · have c0 : (0 : ℝ) ≤ col j := Nat.cast_nonneg _
      have c2 : (col j : ℝ) ≤ 2 := by exact_mod_cast (by omega : col j ≤ 2)
      rw [if_neg h3, far_rnd R (50 * col j) (by omega) (by rw [abs_lt]; push_cast; constructor <;> linarith)]
      push_cast
      ring
  have c0 : col (0 : Idx) = 0 := rfl
  have r0 : row (0 : Idx) = 0 := rfl
  simp only [Rounded.positionArray, add, farMesh, farTile, c0, r0, Nat.cast_zero, mul_zero, add_zero, zero_add, f1, f2, f3, farTargets]
  rw [mul_comm (row j : ℝ) 100]

/-- **C116 (limit).** With one anchor a single answer need not be final, even if that anchor is a grab: a model of 301.3125 by
300 pixels is moved by half a pixel to the left, by 2^53 + 1024 pixels to the right and grabbed at its top-left corner. The first
`Step (16)` answers false and the second one answers true. -/
theorem C116_once_is_not_enough (hx : 2 < x.maximumRange) :
    ∃ s rs s1 s2, run R.rnd (Rounded.new R.rnd 0 (301 + 5 / 16) 300 x b)
        [.moveBy ⟨-(1 / 2), 0⟩, .moveBy ⟨2 ^ 53 + 1024, 0⟩, .grab ⟨2 ^ 53 + 1024, 0⟩] = .ok (s, rs) ∧ s.live.length = 1 ∧
      exec R.rnd s (.step 16) = .ok (s1, .more False) ∧ exec R.rnd s1 (.step 16) = .ok (s2, .more True) := by
  obtain ⟨t, e0⟩ := far_moved R x b
  rw [show (301 + 5 / 16 : ℝ) = 4821 / 16 by norm_num, show (2 ^ 53 + 1024 : ℝ) = farOut by unfold farOut; norm_num]
  have A0 := run_double (new_double R 0 (4821 / 16) 300 x b) e0
  have N0 : NoAnchor (farState t x b) := ⟨rfl, rfl, fun _ => rfl, fun y hy => base_ends_mesh (t := farTile) (b := b) hy⟩
  have m0 : farMesh 0 = ⟨farOut, 0⟩ := by
    have c0 : col (0 : Idx) = 0 := rfl
    have r0 : row (0 : Idx) = 0 := rfl
    simp [farMesh, c0, r0]
  obtain ⟨i, ei, -⟩ := closest_some R (m := farMesh) (p := ⟨farOut, 0⟩) (by
    rw [m0]
    exact screen_distance R (by norm_num) (by norm_num))
  have hrest : targetByFullIntegration R.rnd { farState t x b with unequal := True, count := (farState t x b).count + 1 } =
      .ok (farMesh 0) := by
    have : targetByFullIntegration R.rnd { farState t x b with unequal := True, count := (farState t x b).count + 1 } =
      targetByFullIntegration R.rnd (farState t x b) := rfl
    rw [this, rest_target R.rnd N0]
    refine settle_slack R (q := ⟨farMesh, fun _ => 0⟩) A0.pos (fun _ => rfl) fun y hy => far_slack R (b + springCount) y ?_
    have : (part (farState t x b)).tile R.rnd = farTile := by
      rw [← tile_free, ← far_tile R]
      rfl
    rw [this] at hy
    exact hy
  have hact : activate R.rnd { farState t x b with unequal := True } =
      .ok { farState t x b with
        unequal := True
        count := (farState t x b).count + 1
        lastId := (farState t x b).lastId + springCount
        targets := farTargets } := by
    unfold activate
    rw [if_pos (by rfl)]
    unfold recalc
    rw [hrest]
    simp only [bind_ok]
    have : Rounded.positionArray R.rnd (farMesh 0)
        (Rounded.tile R.rnd { farState t x b with unequal := True, count := (farState t x b).count + 1 }) = farTargets := by
      rw [← far_aim R, ← far_tile R]
      rfl
    rw [this]
    rfl
  have e1 : ∃ s, exec R.rnd (farState t x b) (.grab ⟨farOut, 0⟩) = .ok (s, .handle 0) ∧ s.live = [⟨0, .grab i⟩] ∧ s.count = 1 ∧
      s.pos = farMesh ∧ s.targets = farTargets ∧ s.springs = baseSprings farTile b ∧ (∀ j, s.vel j = 0) ∧ s.settings = x := by
    have : Rounded.closestIndex R.rnd (farState t x b).pos ⟨farOut, 0⟩ = some i := ei
    simp only [exec, grab, this, hact, bind_ok]
    exact ⟨_, rfl, rfl, rfl, rfl, rfl, rfl, fun _ => rfl, rfl⟩
  obtain ⟨s, e1, l1, k1, p1, t1, g1, v1, x1⟩ := e1
  have er : run R.rnd (Rounded.new R.rnd 0 (4821 / 16) 300 x b)
      [.moveBy ⟨-(1 / 2), 0⟩, .moveBy ⟨farOut, 0⟩, .grab ⟨farOut, 0⟩] = .ok (s, [.none, .none, .handle 0]) := run_snoc e0 e1
  have A := run_double (new_double R 0 (4821 / 16) 300 x b) er
  have ends : ∀ y ∈ s.springs, (∃ i, y.a = .mesh i) ∧ ∃ j, y.b = .mesh j := fun y hy => by
    rw [g1] at hy
    exact base_ends_mesh hy
  have hd : ¬ dangling s.springs s.live := mesh_ends_sound ends
  have slack : ∀ (s : State) (m : Mesh) (y : Spring), ((∃ i, y.a = .mesh i) ∧ ∃ j, y.b = .mesh j) →
      (Slack R y (s.env.at_ m) ↔ Slack R y (meshAt m)) := by
    rintro s m y ⟨⟨i, hi⟩, j, hj⟩
    unfold Slack deltaA deltaB
    rw [hi, hj]
    rfl
  have I : Idle R s s.pos := by
    refine ⟨fun _ j => ?_, fun y hy => (slack s s.pos y (ends y hy)).2 ?_⟩
    · rw [p1, t1, x1]
      refine lt_of_le_of_lt ?_ hx
      have two : R.rnd 2 = 2 := sixteenth R 32 (by norm_num) (by norm_num)
      have four : R.rnd 4 = 4 := sixteenth R 64 (by norm_num) (by norm_num)
      have zero := rnd_zero R
      have root : Real.sqrt 4 = 2 := by
        rw [show (4 : ℝ) = 2 ^ 2 by norm_num]
        exact Real.sqrt_sq (by norm_num)
      unfold Rounded.distance
      simp only [farTargets, farMesh, sub_self, zero, mul_zero, add_zero, zero_add, add_sub_cancel_left]
      split_ifs
      · rw [two, show (2 * 2 : ℝ) = 4 by norm_num, four, four, root, two]
      · simp [zero]
    · rw [p1]
      rw [g1] at hy
      exact far_slack R b y hy
  obtain ⟨s1, e2⟩ := idle_answer A I v1 hd (t := 16) (by norm_num)
  obtain ⟨-, f, -⟩ := step_idle A (by norm_num) e2
  rw [if_pos (show s.active from k1)] at f
  have A1 : AllDouble s1 := step_double A e2
  have hp1 : s1.pos = s1.targets := by rw [f]
  have hs1 : s1.springs = s.springs := by rw [f]
  have k2 : s1.active := by rw [f]; exact k1
  have hx1 : s1.settings.maximumRange = x.maximumRange := by rw [f]; exact congrArg _ x1
  have same : constrain R.rnd s1.settings.maximumRange s1.targets s1.pos = .ok (s1.pos, False) := by
    refine constrain_idle fun j => ?_
    rw [hp1, hx1]
    have zero := rnd_zero R
    unfold Rounded.distance
    simp only [sub_self, zero, mul_zero, add_zero, Real.sqrt_zero]
    linarith
  have ends1 : ∀ y ∈ s1.springs, (∃ i, y.a = .mesh i) ∧ ∃ j, y.b = .mesh j := by rw [hs1]; exact ends
  have e3 : ∃ s2 m, Rounded.step R.rnd s1 16 = .ok (s2, .more m) := by
    unfold Rounded.step
    rw [if_neg fun hc => mesh_ends_sound ends1 hc.2, show stepCount 16 = 1 by rw [stepCount_eq]]
    simp only [Rounded.rounds, Rounded.round, if_pos k2, same, bind_ok]
    exact ⟨_, _, rfl⟩
  obtain ⟨s2, m, e3⟩ := e3
  have hm : m := by
    by_contra hm
    have : m = False := propext ⟨hm, False.elim⟩
    subst this
    obtain ⟨I1, -⟩ := step_idle A1 (by norm_num) e3
    obtain ⟨y, hy, hn⟩ := far_tight R b
    rw [← g1, ← hs1] at hy
    have := I1.slack y hy
    rw [slack s1 s1.pos y (ends1 y hy), hp1] at this
    rw [show s1.targets = farTargets by rw [f]; exact t1] at this
    exact hn this
  have : m = True := propext ⟨fun _ => trivial, fun _ => hm⟩
  subst this
  exact ⟨s, _, s1, s2, er, by rw [l1]; rfl, e2, e3⟩

end

end Verif.Props
