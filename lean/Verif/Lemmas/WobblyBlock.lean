import Verif.Lemmas.WobblyOscillator

/-! Four mesh points in a corner that swing against each other while nothing is held, with little friction. -/

namespace Verif.Wobbly

open Spec Outcome

/-! ## Meshes displaced horizontally -/

/-- The lattice with horizontal displacements `u` and velocities `v`. -/
noncomputable def slid (p tile : Pt) (u v : Idx → ℝ) : Phys :=
  ⟨fun i => positionArray p tile i + ⟨u i, 0⟩, fun i => ⟨v i, 0⟩⟩

/-- The horizontal force on a point. -/
noncomputable def slidForce (k : ℝ) (u : Idx → ℝ) (i : Idx) : ℝ :=
  (baseEdges.map fun z => (if i = z.1 then pull k (u z.2.1 - u z.1) else 0) -
    (if i = z.2.1 then pull k (u z.2.1 - u z.1) else 0)).sum

theorem sum_slid (k : ℝ) (u : Idx → ℝ) (i : Idx) (l : List (Idx × Idx × Bool)) :
    (l.map (edgeForce k (fun i => ⟨u i, 0⟩) i)).sum =
      ⟨(l.map fun z => (if i = z.1 then pull k (u z.2.1 - u z.1) else 0) -
        (if i = z.2.1 then pull k (u z.2.1 - u z.1) else 0)).sum, 0⟩ := by
  induction l with
  | nil => rfl
  | cons z l ih =>
    rw [List.map_cons, List.sum_cons, ih, List.map_cons, List.sum_cons]
    unfold edgeForce edgePull
    ext
    · simp only [Pt.add_x, Pt.sub_x]
      split_ifs <;> simp
    · simp only [Pt.add_y, Pt.sub_y]
      split_ifs <;> simp [pull_zero]

/-- New velocities of such a mesh. -/
noncomputable def slidVel (e : Env) (u v : Idx → ℝ) (i : Idx) : ℝ :=
  if e.locks i > 0 then 0 else eulerVelocity 1 e.friction mass (v i) (slidForce e.k u i)

theorem springStep_slid {e : Env} {p tile : Pt} {b : ℕ} (hs : e.springs = baseSprings tile b) (u v : Idx → ℝ) :
    (springStep e (slid p tile u v)).1 = slid p tile (fun i => u i + slidVel e u v i * (1 / 2)) (slidVel e u v) ∧
      ((springStep e (slid p tile u v)).2 ↔ (∃ z ∈ baseEdges, ¬ |u z.2.1 - u z.1| < 1) ∨
        ∃ i, ¬ e.locks i > 0 ∧ slidVel e u v i ≠ 0) := by
  have hm : ∀ i, (slid p tile u v).pos i = positionArray p tile i + ⟨u i, 0⟩ := fun _ => rfl
  have hforce : ∀ i, (calculateForces e.k (e.at_ (slid p tile u v).pos) e.springs).1 (.mesh i) = ⟨slidForce e.k u i, 0⟩ := by
    intro i
    rw [hs, force_disp (e := e) (b := b) e.k hm, sum_slid]
    rfl
  have hv0 : ∀ f, eulerVelocity 1 f mass 0 0 = 0 := by
    intro f
    rw [eulerVelocity_free]
    simp [clip_zero]
  refine ⟨?_, ?_⟩
  · unfold springStep anchoredIntegration
    ext1
    · funext i
      dsimp only
      rw [hforce]
      by_cases hi : e.locks i > 0
      · simp [slid, slidVel, hi]
      · rw [if_neg hi]
        simp only [eulerIntegrate, slid, slidVel, if_neg hi, hv0]
        ext
        · simp only [Pt.add_x, Pt.scale_x]
          ring
        · simp
    · funext i
      dsimp only
      rw [hforce]
      by_cases hi : e.locks i > 0
      · simp only [if_pos hi, slid, slidVel]
        rfl
      · rw [if_neg hi]
        simp only [eulerIntegrate, slid, slidVel, if_neg hi, hv0]
  · unfold springStep anchoredIntegration
    simp only
    have hmore := more_disp (e := e) (b := b) e.k hm
    rw [hs] at hforce ⊢
    rw [hmore]
    simp only [hforce]
    refine or_congr ?_ ?_
    · simp
    · refine exists_congr fun i => and_congr_right fun hi => ?_
      simp only [eulerIntegrate, slid, slidVel, if_neg hi, hv0, gt_iff_lt, abs_pos]
      simp

theorem slidForce_calm {u : Idx → ℝ} (h : ∀ z ∈ baseEdges, |u z.2.1 - u z.1| < 1) (k : ℝ) (i : Idx) :
    slidForce k u i = 0 := by
  unfold slidForce
  apply List.sum_eq_zero
  intro y hy
  obtain ⟨z, hz, rfl⟩ := List.mem_map.1 hy
  have : pull k (u z.2.1 - u z.1) = 0 := by
    unfold pull
    rw [if_pos (h z hz)]
  rw [this]
  simp

/-! ## The corner -/

/-- `a` at points 0 and 5, `-a` at 1 and 4, the four points of the top left cell. -/
noncomputable def block (a : ℝ) (i : Idx) : ℝ := if i = 0 ∨ i = 5 then a else if i = 1 ∨ i = 4 then -a else 0

theorem slidForce_block {d : ℝ} (hd : |d| < 2) (k : ℝ) (i : Idx) :
    slidForce k (block (d / 2)) i = block (2 * pull k (-d)) i := by
  obtain ⟨h1, h2⟩ := abs_lt.1 hd
  have z1 : pull k (d / 2) = 0 := by
    unfold pull
    rw [if_pos (by rw [abs_lt]; constructor <;> linarith)]
  have z2 : pull k (-(d / 2)) = 0 := by rw [pull_neg, z1, neg_zero]
  have n1 : pull k d = -pull k (-d) := by rw [pull_neg, neg_neg]
  have e1 : d / 2 + d / 2 = d := by ring
  have e2 : -(d / 2) - d / 2 = -d := by ring
  unfold slidForce
  rw [baseEdges_list]
  fin_cases i <;> simp [block, z1, z2, pull_zero, e1, e2, n1] <;> ring

/-- New distance and velocity of the corner. -/
noncomputable def corner (k f : ℝ) (q : ℝ × ℝ) : ℝ × ℝ :=
  let v := eulerVelocity 1 f mass q.2 (2 * pull k (-q.1))
  (q.1 + v, v)

/-- The corner keeps to itself and asks for another round. -/
def Busy (k f : ℝ) (q : ℝ × ℝ) : Prop := |q.1| < 2 ∧ (1 ≤ |q.1| ∨ (corner k f q).2 ≠ 0)

/-- The mesh with such a corner. -/
noncomputable def cornerPhys (p tile : Pt) (q : ℝ × ℝ) : Phys := slid p tile (block (q.1 / 2)) (block q.2)

theorem springStep_corner {e : Env} {p tile : Pt} {b : ℕ} (hs : e.springs = baseSprings tile b)
    (hl : ∀ i, ¬ e.locks i > 0) {q : ℝ × ℝ} (hq : Busy e.k e.friction q) :
    (springStep e (cornerPhys p tile q)).1 = cornerPhys p tile (corner e.k e.friction q) ∧
      (springStep e (cornerPhys p tile q)).2 := by
  obtain ⟨h1, h2⟩ := springStep_slid (p := p) hs (block (q.1 / 2)) (block q.2)
  have hv0 : eulerVelocity 1 e.friction mass 0 0 = 0 := by
    rw [eulerVelocity_free]
    simp [clip_zero]
  have hv : slidVel e (block (q.1 / 2)) (block q.2) = block (corner e.k e.friction q).2 := by
    funext i
    unfold slidVel
    rw [if_neg (hl i), slidForce_block hq.1]
    unfold block corner
    split_ifs
    · rfl
    · rw [eulerVelocity_neg]
    · exact hv0
  refine ⟨?_, h2.2 ?_⟩
  · unfold cornerPhys
    rw [h1, hv]
    congr 1
    funext i
    unfold block corner
    dsimp only
    split_ifs <;> ring
  · rcases hq.2 with h | h
    · left
      refine ⟨(0, 1, false), by rw [baseEdges_list]; decide, ?_⟩
      have e1 : block (q.1 / 2) 1 - block (q.1 / 2) 0 = -q.1 := by
        simp [block]
        ring
      rw [not_lt]
      show 1 ≤ |block (q.1 / 2) 1 - block (q.1 / 2) 0|
      rw [e1, abs_neg]
      exact h
    · right
      refine ⟨0, hl 0, ?_⟩
      rw [hv]
      simpa [block] using h

theorem corner_settles_never {e : Env} {p tile : Pt} {b : ℕ} (hs : e.springs = baseSprings tile b)
    (hl : ∀ i, ¬ e.locks i > 0) {q : ℝ × ℝ} (hq : ∀ n, Busy e.k e.friction ((corner e.k e.friction)^[n] q)) (n : ℕ) :
    settleMore e (cornerPhys p tile q) n := by
  have hi : ∀ n, settleIter e (cornerPhys p tile q) n = cornerPhys p tile ((corner e.k e.friction)^[n] q) := by
    intro n
    induction n with
    | zero => rfl
    | succ n ih => rw [settleIter_succ, ih, (springStep_corner hs hl (hq n)).1, Function.iterate_succ_apply']
  unfold settleMore
  rw [hi]
  exact (springStep_corner hs hl (hq n)).2

/-! ## Spring constant 8, friction 1/2: the swing never ends -/

/-- From `q` the corner gets to `q'`, busy all the time. -/
def Reaches (q q' : ℝ × ℝ) : Prop :=
  ∃ n, (corner 8 (1 / 2))^[n + 1] q = q' ∧ ∀ j < n + 1, Busy 8 (1 / 2) ((corner 8 (1 / 2))^[j] q)

theorem Reaches.trans {q q' q'' : ℝ × ℝ} (h : Reaches q q') (h' : Reaches q' q'') : Reaches q q'' := by
  obtain ⟨n, h1, h2⟩ := h
  obtain ⟨m, h3, h4⟩ := h'
  refine ⟨m + 1 + n, ?_, fun j hj => ?_⟩
  · rw [show m + 1 + n + 1 = m + 1 + (n + 1) by omega, Function.iterate_add_apply, h1, h3]
  · by_cases hc : j < n + 1
    · exact h2 j hc
    · obtain ⟨i, rfl⟩ := Nat.exists_eq_add_of_le (not_lt.1 hc)
      rw [Nat.add_comm, Function.iterate_add_apply, h1]
      exact h4 i (by omega)

theorem reaches_one {q q' : ℝ × ℝ} (h : corner 8 (1 / 2) q = q') (hb : Busy 8 (1 / 2) q) : Reaches q q' :=
  ⟨0, h, fun j hj => by
    have : j = 0 := by omega
    subst this
    exact hb⟩

theorem corner_neg (k f : ℝ) (q : ℝ × ℝ) : corner k f (-q) = -corner k f q := by
  unfold corner
  simp only [Prod.fst_neg, Prod.snd_neg]
  have : 2 * pull k (- -q.1) = -(2 * pull k (-q.1)) := by rw [pull_neg]; ring
  rw [this, eulerVelocity_neg]
  ext
  · simp only [Prod.fst_neg]
    ring
  · rfl

theorem corner_iter_neg (k f : ℝ) (n : ℕ) (q : ℝ × ℝ) : (corner k f)^[n] (-q) = -(corner k f)^[n] q := by
  induction n with
  | zero => rfl
  | succ n ih => rw [Function.iterate_succ_apply', Function.iterate_succ_apply', ih, corner_neg]

theorem busy_neg (k f : ℝ) (q : ℝ × ℝ) : Busy k f (-q) ↔ Busy k f q := by
  unfold Busy
  rw [corner_neg]
  simp

theorem reaches_coast {d a b a' b' : ℝ} (hb : b' = 29 / 30 * b) (ha : a' = a + b') (h1 : |a * d| < 1)
    (h2 : 1 / 10 ≤ |b' * d|) : Reaches (a * d, b * d) (a' * d, b' * d) := by
  have hp : pull 8 (-(a * d)) = 0 := by
    unfold pull
    rw [abs_neg, if_pos h1]
  have hc : corner 8 (1 / 2) (a * d, b * d) = (a' * d, b' * d) := by
    unfold corner
    simp only [hp, mul_zero, eulerVelocity_free]
    have e1 : (1 - 1 / 2 / 15) * (b * d) = b' * d := by rw [hb]; ring
    rw [e1]
    unfold clip
    rw [if_neg (not_lt.2 h2), ha]
    ext <;> ring
  refine reaches_one hc ⟨by linarith, Or.inr ?_⟩
  rw [hc]
  intro h
  simp only at h
  rw [h] at h2
  norm_num at h2

theorem reaches_kick {d a b a' b' : ℝ} (hb : b' = 29 / 30 * b - 8 / 15 * a) (ha : a' = a + b') (h1 : 1 ≤ |a * d|)
    (h2 : 1 / 10 ≤ |b' * d|) (h3 : |a * d| < 2) : Reaches (a * d, b * d) (a' * d, b' * d) := by
  have hp : pull 8 (-(a * d)) = -(4 * (a * d)) := by
    unfold pull
    rw [abs_neg, if_neg (not_lt.2 h1)]
    ring
  have hc : corner 8 (1 / 2) (a * d, b * d) = (a' * d, b' * d) := by
    unfold corner eulerVelocity mass
    simp only [hp]
    have e1 : b * d + (2 * -(4 * (a * d)) - b * d * (1 / 2)) * (1 / 15) * 1 = b' * d := by rw [hb]; ring
    rw [e1]
    unfold clip
    rw [if_neg (not_lt.2 h2), ha]
    ext <;> ring
  exact reaches_one hc ⟨h3, Or.inl h1⟩

theorem reaches_stop {d a b : ℝ} (h1 : 1 ≤ |a * d|) (h2 : |(29 / 30 * b - 8 / 15 * a) * d| < 1 / 10) (h3 : |a * d| < 2) :
    Reaches (a * d, b * d) (a * d, 0) := by
  have hp : pull 8 (-(a * d)) = -(4 * (a * d)) := by
    unfold pull
    rw [abs_neg, if_neg (not_lt.2 h1)]
    ring
  have hc : corner 8 (1 / 2) (a * d, b * d) = (a * d, 0) := by
    unfold corner eulerVelocity mass
    simp only [hp]
    have e1 : b * d + (2 * -(4 * (a * d)) - b * d * (1 / 2)) * (1 / 15) * 1 = (29 / 30 * b - 8 / 15 * a) * d := by ring
    rw [e1]
    unfold clip
    rw [if_pos h2]
    ext <;> simp
  exact reaches_one hc ⟨h3, Or.inl h1⟩

theorem le_abs_of_le {c x : ℝ} (h : c ≤ x) : c ≤ |x| := h.trans (le_abs_self x)
theorem le_abs_of_le_neg {c x : ℝ} (h : c ≤ -x) : c ≤ |x| := h.trans (neg_le_abs x)

theorem swing_short {d : ℝ} (h1 : 1 ≤ d) (h2 : 126223 / 1518750 * d < 1 / 10) : Reaches (d, 0) ((-52094 / 50625) * d, 0) := by
  have e0 : ((d, 0) : ℝ × ℝ) = (1 * d, 0 * d) := by simp
  rw [e0]
  refine Reaches.trans (reaches_kick (d := d) (a := (1)) (b := (0)) (a' := (7 / 15)) (b' := (-8 / 15)) (by norm_num) (by norm_num) (le_abs_of_le (by linarith)) (le_abs_of_le_neg (by linarith)) (by rw [abs_lt]; constructor <;> linarith)) ?_
  refine Reaches.trans (reaches_coast (d := d) (a := (7 / 15)) (b := (-8 / 15)) (a' := (-11 / 225)) (b' := (-116 / 225)) (by norm_num) (by norm_num) (by rw [abs_lt]; constructor <;> linarith) (le_abs_of_le_neg (by linarith))) ?_
  refine Reaches.trans (reaches_coast (d := d) (a := (-11 / 225)) (b := (-116 / 225)) (a' := (-1847 / 3375)) (b' := (-1682 / 3375)) (by norm_num) (by norm_num) (by rw [abs_lt]; constructor <;> linarith) (le_abs_of_le_neg (by linarith))) ?_
  refine Reaches.trans (reaches_coast (d := d) (a := (-1847 / 3375)) (b := (-1682 / 3375)) (a' := (-52094 / 50625)) (b' := (-24389 / 50625)) (by norm_num) (by norm_num) (by rw [abs_lt]; constructor <;> linarith) (le_abs_of_le_neg (by linarith))) ?_
  exact reaches_stop (d := d) (a := (-52094 / 50625)) (b := (-24389 / 50625)) (le_abs_of_le_neg (by linarith)) (by rw [abs_lt]; constructor <;> linarith) (by rw [abs_lt]; constructor <;> linarith)

theorem swing_long {d : ℝ} (h1 : 1 / 10 ≤ 126223 / 1518750 * d) (h2 : d ≤ 1.2383) : Reaches (d, 0) ((20442044989315251204325849 / 24213780562500000000000000) * d, 0) := by
  norm_num at h2
  have e0 : ((d, 0) : ℝ × ℝ) = (1 * d, 0 * d) := by simp
  rw [e0]
  refine Reaches.trans (reaches_kick (d := d) (a := (1)) (b := (0)) (a' := (7 / 15)) (b' := (-8 / 15)) (by norm_num) (by norm_num) (le_abs_of_le (by linarith)) (le_abs_of_le_neg (by linarith)) (by rw [abs_lt]; constructor <;> linarith)) ?_
  refine Reaches.trans (reaches_coast (d := d) (a := (7 / 15)) (b := (-8 / 15)) (a' := (-11 / 225)) (b' := (-116 / 225)) (by norm_num) (by norm_num) (by rw [abs_lt]; constructor <;> linarith) (le_abs_of_le_neg (by linarith))) ?_
  refine Reaches.trans (reaches_coast (d := d) (a := (-11 / 225)) (b := (-116 / 225)) (a' := (-1847 / 3375)) (b' := (-1682 / 3375)) (by norm_num) (by norm_num) (by rw [abs_lt]; constructor <;> linarith) (le_abs_of_le_neg (by linarith))) ?_
  refine Reaches.trans (reaches_coast (d := d) (a := (-1847 / 3375)) (b := (-1682 / 3375)) (a' := (-52094 / 50625)) (b' := (-24389 / 50625)) (by norm_num) (by norm_num) (by rw [abs_lt]; constructor <;> linarith) (le_abs_of_le_neg (by linarith))) ?_
  refine Reaches.trans (reaches_kick (d := d) (a := (-52094 / 50625)) (b := (-24389 / 50625)) (a' := (-1436597 / 1518750)) (b' := (126223 / 1518750)) (by norm_num) (by norm_num) (le_abs_of_le_neg (by linarith)) (le_abs_of_le (by linarith)) (by rw [abs_lt]; constructor <;> linarith)) ?_
  refine Reaches.trans (reaches_kick (d := d) (a := (-1436597 / 1518750)) (b := (126223 / 1518750)) (a' := (-16451891 / 45562500)) (b' := (26646019 / 45562500)) (by norm_num) (by norm_num) (le_abs_of_le_neg (by linarith)) (le_abs_of_le (by linarith)) (by rw [abs_lt]; constructor <;> linarith)) ?_
  refine Reaches.trans (reaches_coast (d := d) (a := (-16451891 / 45562500)) (b := (26646019 / 45562500)) (a' := (279177821 / 1366875000)) (b' := (772734551 / 1366875000)) (by norm_num) (by norm_num) (by rw [abs_lt]; constructor <;> linarith) (le_abs_of_le (by linarith))) ?_
  refine Reaches.trans (reaches_coast (d := d) (a := (279177821 / 1366875000)) (b := (772734551 / 1366875000)) (a' := (30784636609 / 41006250000)) (b' := (22409301979 / 41006250000)) (by norm_num) (by norm_num) (by rw [abs_lt]; constructor <;> linarith) (le_abs_of_le (by linarith))) ?_
  refine Reaches.trans (reaches_coast (d := d) (a := (30784636609 / 41006250000)) (b := (22409301979 / 41006250000)) (a' := (1573408855661 / 1230187500000)) (b' := (649869757391 / 1230187500000)) (by norm_num) (by norm_num) (by rw [abs_lt]; constructor <;> linarith) (le_abs_of_le (by linarith))) ?_
  refine Reaches.trans (reaches_kick (d := d) (a := (1573408855661 / 1230187500000)) (b := (649869757391 / 1230187500000)) (a' := (40873946943593 / 36905625000000)) (b' := (-6328318726237 / 36905625000000)) (by norm_num) (by norm_num) (le_abs_of_le (by linarith)) (le_abs_of_le_neg (by linarith)) (by rw [abs_lt]; constructor <;> linarith)) ?_
  refine Reaches.trans (reaches_kick (d := d) (a := (40873946943593 / 36905625000000)) (b := (-6328318726237 / 36905625000000)) (a' := (388714014149429 / 1107168750000000)) (b' := (-837504394158361 / 1107168750000000)) (by norm_num) (by norm_num) (le_abs_of_le (by linarith)) (le_abs_of_le_neg (by linarith)) (by rw [abs_lt]; constructor <;> linarith)) ?_
  refine Reaches.trans (reaches_coast (d := d) (a := (388714014149429 / 1107168750000000)) (b := (-837504394158361 / 1107168750000000)) (a' := (-12626207006109599 / 33215062500000000)) (b' := (-24287627430592469 / 33215062500000000)) (by norm_num) (by norm_num) (by rw [abs_lt]; constructor <;> linarith) (le_abs_of_le_neg (by linarith))) ?_
  refine Reaches.trans (reaches_coast (d := d) (a := (-12626207006109599 / 33215062500000000)) (b := (-24287627430592469 / 33215062500000000)) (a' := (-1083127405670469571 / 996451875000000000)) (b' := (-704341195487181601 / 996451875000000000)) (by norm_num) (by norm_num) (by rw [abs_lt]; constructor <;> linarith) (le_abs_of_le_neg (by linarith))) ?_
  refine Reaches.trans (reaches_kick (d := d) (a := (-1083127405670469571 / 996451875000000000)) (b := (-704341195487181601 / 996451875000000000)) (a' := (-35589678348514840423 / 29893556250000000000)) (b' := (-3095856178400753293 / 29893556250000000000)) (by norm_num) (by norm_num) (le_abs_of_le_neg (by linarith)) (le_abs_of_le_neg (by linarith)) (by rw [abs_lt]; constructor <;> linarith)) ?_
  refine Reaches.trans (reaches_kick (d := d) (a := (-35589678348514840423 / 29893556250000000000)) (b := (-3095856178400753293 / 29893556250000000000)) (a' := (-588035326052829611419 / 896806687500000000000)) (b' := (479655024402615601271 / 896806687500000000000)) (by norm_num) (by norm_num) (le_abs_of_le_neg (by linarith)) (le_abs_of_le (by linarith)) (by rw [abs_lt]; constructor <;> linarith)) ?_
  refine Reaches.trans (reaches_coast (d := d) (a := (-588035326052829611419 / 896806687500000000000)) (b := (479655024402615601271 / 896806687500000000000)) (a' := (-3731064073909035905711 / 26904200625000000000000)) (b' := (13909995707675852436859 / 26904200625000000000000)) (by norm_num) (by norm_num) (by rw [abs_lt]; constructor <;> linarith) (le_abs_of_le (by linarith))) ?_
  refine Reaches.trans (reaches_coast (d := d) (a := (-3731064073909035905711 / 26904200625000000000000)) (b := (13909995707675852436859 / 26904200625000000000000)) (a' := (291457953305328643497581 / 807126018750000000000000)) (b' := (403389875522599720668911 / 807126018750000000000000)) (by norm_num) (by norm_num) (by rw [abs_lt]; constructor <;> linarith) (le_abs_of_le (by linarith))) ?_
  refine Reaches.trans (reaches_coast (d := d) (a := (291457953305328643497581 / 807126018750000000000000)) (b := (403389875522599720668911 / 807126018750000000000000)) (a' := (20442044989315251204325849 / 24213780562500000000000000)) (b' := (11698306390155391899398419 / 24213780562500000000000000)) (by norm_num) (by norm_num) (by rw [abs_lt]; constructor <;> linarith) (le_abs_of_le (by linarith))) ?_
  exact reaches_stop (d := d) (a := (20442044989315251204325849 / 24213780562500000000000000)) (b := (11698306390155391899398419 / 24213780562500000000000000)) (le_abs_of_le (by linarith)) (by rw [abs_lt]; constructor <;> linarith) (by rw [abs_lt]; constructor <;> linarith)

theorem corner_forever (n : ℕ) : ∀ {d : ℝ}, 1 ≤ d → d ≤ 1.2383 → Busy 8 (1 / 2) ((corner 8 (1 / 2))^[n] (d, 0)) := by
  induction n using Nat.strong_induction_on with
  | _ n ih =>
    intro d h1 h2
    norm_num at h2
    have key : ∃ d', 1 ≤ d' ∧ d' ≤ 1.2383 ∧ (Reaches (d, 0) (d', 0) ∨ Reaches (d, 0) (-(d', 0))) := by
      by_cases hc : 126223 / 1518750 * d < 1 / 10
      · refine ⟨52094 / 50625 * d, by linarith, by norm_num; linarith, Or.inr ?_⟩
        have := swing_short h1 hc
        convert this using 1
        ext
        · simp only [Prod.fst_neg]
          ring
        · simp
      · exact ⟨_, by linarith, by norm_num; linarith, Or.inl (swing_long (not_lt.1 hc) (by norm_num; linarith))⟩
    obtain ⟨d', g1, g2, hr⟩ := key
    rcases hr with ⟨k, r1, r2⟩ | ⟨k, r1, r2⟩
    · by_cases hk : n < k + 1
      · exact r2 n hk
      · obtain ⟨j, rfl⟩ := Nat.exists_eq_add_of_le (not_lt.1 hk)
        rw [Nat.add_comm, Function.iterate_add_apply, r1]
        exact ih j (by omega) g1 g2
    · by_cases hk : n < k + 1
      · exact r2 n hk
      · obtain ⟨j, rfl⟩ := Nat.exists_eq_add_of_le (not_lt.1 hk)
        rw [Nat.add_comm, Function.iterate_add_apply, r1, corner_iter_neg, busy_neg]
        exact ih j (by omega) g1 g2

/-! ## Friction 10: with point 0 held the corner comes to rest at once -/

/-- Point 0 at `a`, the rest of the corner as in `block c`. -/
noncomputable def heldBlock (a c : ℝ) (i : Idx) : ℝ := if i = 0 then a else block c i

theorem heldBlock_calm {a c : ℝ} (ha : |a + c| < 1) (hc : |c| < 1 / 2) :
    ∀ z ∈ baseEdges, |heldBlock a c z.2.1 - heldBlock a c z.1| < 1 := by
  obtain ⟨h1, h2⟩ := abs_lt.1 ha
  obtain ⟨h3, h4⟩ := abs_lt.1 hc
  rw [baseEdges_list]
  simp only [List.mem_cons, List.not_mem_nil, or_false, forall_eq_or_imp, forall_eq]
  refine ⟨?_, ?_, ?_, ?_, ?_, ?_, ?_, ?_, ?_, ?_, ?_, ?_, ?_, ?_, ?_, ?_, ?_, ?_, ?_, ?_, ?_, ?_, ?_, ?_⟩ <;>
    simp (decide := true) only [heldBlock, block, if_true, if_false] <;> rw [abs_lt] <;> constructor <;> linarith

theorem heldBlock_coast {e : Env} {p tile : Pt} {b : ℕ} (hs : e.springs = baseSprings tile b) (hl0 : e.locks 0 > 0)
    (hl : ∀ i, i ≠ 0 → ¬ e.locks i > 0) {a c v v' : ℝ} (ha : |a + c| < 1) (hc : |c| < 1 / 2)
    (hv : clip (1 / 10) ((1 - e.friction / 15) * v) = v') :
    (springStep e (slid p tile (heldBlock a c) (heldBlock 0 v))).1 =
        slid p tile (heldBlock a (c + v' / 2)) (heldBlock 0 v') ∧
      ((springStep e (slid p tile (heldBlock a c) (heldBlock 0 v))).2 ↔ v' ≠ 0) := by
  obtain ⟨h1, h2⟩ := springStep_slid (p := p) hs (heldBlock a c) (heldBlock 0 v)
  have hcalm := heldBlock_calm ha hc
  have hV : slidVel e (heldBlock a c) (heldBlock 0 v) = heldBlock 0 v' := by
    funext i
    unfold slidVel heldBlock
    by_cases hi : i = 0
    · subst hi
      rw [if_pos hl0, if_pos rfl]
    · rw [if_neg (hl i hi), if_neg hi, if_neg hi]
      have := slidForce_calm hcalm e.k i
      unfold heldBlock at this
      rw [this, eulerVelocity_free]
      unfold block
      split_ifs
      · exact hv
      · rw [mul_neg, clip_neg, hv]
      · simp [clip_zero]
  refine ⟨?_, ?_⟩
  · rw [h1, hV]
    congr 1
    funext i
    unfold heldBlock block
    split_ifs <;> ring
  · rw [h2, hV]
    constructor
    · rintro (⟨z, hz, h⟩ | ⟨i, hi, h⟩)
      · exact absurd (hcalm z hz) h
      · rintro rfl
        apply h
        unfold heldBlock block
        split_ifs <;> simp
    · intro h
      exact Or.inr ⟨5, hl 5 (by decide), by simpa [heldBlock, block] using h⟩

theorem held_settles {e : Env} {p tile : Pt} {b : ℕ} (hk : e.k = 8) (hf : e.friction = 10)
    (hs : e.springs = baseSprings tile b) (hl0 : e.locks 0 > 0) (hl : ∀ i, i ≠ 0 → ¬ e.locks i > 0) {d : ℝ}
    (h1 : 1 ≤ d) (h2 : d ≤ 1.2383) : ∃ z, settle e (cornerPhys p tile (d, 0)) = .ok z := by
  norm_num at h2
  obtain ⟨g1, g2⟩ := springStep_slid (p := p) hs (block (d / 2)) (block 0)
  have hp : pull 8 (-d) = -(4 * d) := by
    unfold pull
    rw [abs_neg, abs_of_pos (by linarith), if_neg (by linarith)]
    ring
  have hV : slidVel e (block (d / 2)) (block 0) = heldBlock 0 (-(8 / 15 * d)) := by
    funext i
    unfold slidVel heldBlock
    by_cases hi : i = 0
    · subst hi
      rw [if_pos hl0, if_pos rfl]
    · rw [if_neg (hl i hi), if_neg hi, slidForce_block (by rw [abs_of_pos] <;> linarith), hk, hf, hp]
      have hv : eulerVelocity 1 10 mass 0 (2 * -(4 * d)) = -(8 / 15 * d) := by
        unfold eulerVelocity mass clip
        have e1 : 0 + (2 * -(4 * d) - 0 * 10) * (1 / 15) * 1 = -(8 / 15 * d) := by ring
        rw [e1, if_neg]
        rw [abs_neg, abs_of_pos (by linarith)]
        linarith
      unfold block
      split_ifs
      · exact hv
      · rw [eulerVelocity_neg, hv]
      · rw [eulerVelocity_free]
        simp [clip_zero]
  have s0 : settleIter e (cornerPhys p tile (d, 0)) 1 = slid p tile (heldBlock (d / 2) (7 / 30 * d)) (heldBlock 0 (-(8 / 15 * d))) := by
    rw [settleIter_succ]
    show (springStep e (slid p tile (block (d / 2)) (block 0))).1 = _
    rw [g1, hV]
    congr 1
    funext i
    unfold heldBlock block
    by_cases hi : i = 0
    · subst hi
      simp
    · simp only [hi, if_false, false_or]
      split_ifs <;> ring
  have s1 := heldBlock_coast (p := p) hs hl0 hl (a := d / 2) (c := 7 / 30 * d) (v := -(8 / 15 * d)) (v' := -(8 / 45 * d))
    (by rw [abs_of_pos] <;> linarith) (by rw [abs_of_pos] <;> linarith) (by
      rw [hf]
      unfold clip
      rw [if_neg]
      · ring
      · rw [show (1 - 10 / 15) * -(8 / 15 * d) = -(8 / 45 * d) by ring, abs_neg, abs_of_pos] <;> linarith)
  have s2 := heldBlock_coast (p := p) hs hl0 hl (a := d / 2) (c := 7 / 30 * d + -(8 / 45 * d) / 2) (v := -(8 / 45 * d)) (v' := 0)
    (by rw [abs_of_pos] <;> linarith) (by rw [abs_of_pos] <;> linarith) (by
      rw [hf]
      unfold clip
      rw [if_pos]
      rw [show (1 - 10 / 15) * -(8 / 45 * d) = -(8 / 135 * d) by ring, abs_neg, abs_of_pos] <;> linarith)
  have i2 : settleIter e (cornerPhys p tile (d, 0)) 2 =
      slid p tile (heldBlock (d / 2) (7 / 30 * d + -(8 / 45 * d) / 2)) (heldBlock 0 (-(8 / 45 * d))) := by
    rw [settleIter_succ, s0, s1.1]
  refine ⟨_, settle_of (n := 2) ?_ ?_⟩
  · unfold settleMore
    rw [i2, s2.2]
    simp
  · intro m hm
    unfold settleMore
    obtain rfl | rfl : m = 0 ∨ m = 1 := by omega
    · show (springStep e (slid p tile (block (d / 2)) (block 0))).2
      rw [g2, hV]
      refine Or.inr ⟨5, hl 5 (by decide), ?_⟩
      have : heldBlock 0 (-(8 / 15 * d)) 5 = -(8 / 15 * d) := by simp [heldBlock, block]
      rw [this]
      linarith
    · rw [s0, s1.2]
      linarith

/-- As `release_grab_two`, for a mesh that moves. -/
theorem release_grab_two_of {s : State} {k : ℕ} {i : Idx} {t : Pt}
    (hf : s.live.find? (fun a => decide (a.hid = k)) = some ⟨k, .grab i⟩) (hl : s.locks i ≠ 0) (hc : s.count = 2)
    (ht : settle (unlocked s i).settleEnv ⟨s.pos, s.vel⟩ = .ok t) :
    s.exec (.release k) = .ok ({ unlocked ({ s with live := s.live.filter fun a => a.hid ≠ k } : State) i with
      count := 1
      targets := positionArray t s.tile
      lastId := s.lastId + springCount }, .none) := by
  have hrel : ({ s with live := s.live.filter fun a => a.hid ≠ k } : State).releaseKind (.grab i) =
      .ok (unlocked ({ s with live := s.live.filter fun a => a.hid ≠ k } : State) i) := by
    simp only [State.releaseKind, State.unlock]
    rw [if_neg hl]
    rfl
  simp only [State.exec, State.release]
  rw [hf]
  simp only
  rw [hrel, bind_ok]
  set s1 := unlocked ({ s with live := s.live.filter fun a => a.hid ≠ k } : State) i with hs1
  have hset : State.targetByFullIntegration { s1 with count := s1.count - 1 } = .ok t := ht
  have hc1 : s1.count = 2 := hc
  unfold State.deactivate
  rw [if_neg (by omega)]
  simp only
  rw [if_pos (by omega)]
  unfold State.recalc
  rw [hset, bind_ok, bind_ok, hc1]
  rfl

end Verif.Wobbly
