import Verif.Lemmas.WobblyFree
import Verif.Lemmas.WobblySettle
import Verif.Lemmas.WobblyOscillator

/-! # From the coupled oscillators to the model (for C111) -/

namespace Verif.Wobbly

open Spec Outcome Classical Props

theorem forces_off {e : Env} {tile : Pt} {c : ℕ} (hs : e.springs.Perm (baseSprings tile c)) (P : Pt) (m : Mesh) (i : Idx) :
    ((calculateForces e.k (e.at_ m) e.springs).1 (.mesh i)).x =
      force e.k (fun j => (m j).x - (positionArray P tile j).x) i ∧
    ((calculateForces e.k (e.at_ m) e.springs).1 (.mesh i)).y =
      force e.k (fun j => (m j).y - (positionArray P tile j).y) i := by
  have e1 : (calculateForces e.k (e.at_ m) e.springs).1 (.mesh i) =
      (calculateForces e.k (e.at_ m) (baseSprings tile c)).1 (.mesh i) := by
    rw [calculateForces_force, calculateForces_force]
    exact (hs.map _).sum_eq
  have e2 := force_disp (e := e) (p := P) (tile := tile) (b := c) (m := m)
    (disp := fun j => m j - positionArray P tile j) e.k (fun j => by ext <;> simp) i
  rw [e1, e2, sum_x, sum_y, List.map_map, List.map_map]
  unfold force
  refine ⟨?_, ?_⟩
  · congr 1
    refine List.map_congr_left fun z _ => ?_
    show (edgeForce _ _ _ _).x = _
    unfold edgeForce edgePull
    rw [Pt.sub_x]
    congr 1 <;> split_ifs <;> rfl
  · congr 1
    refine List.map_congr_left fun z _ => ?_
    show (edgeForce _ _ _ _).y = _
    unfold edgeForce edgePull
    rw [Pt.sub_y]
    congr 1 <;> split_ifs <;> rfl

/-- Both coordinates of the mesh, off any lattice, are coupled oscillators. -/
theorem moves_mesh {e : Env} {tile : Pt} {c : ℕ} (hs : e.springs.Perm (baseSprings tile c)) (P : Pt) (q : Phys) :
    Moves e.k e.friction (fun i => ¬ e.locks i > 0)
      (fun n i => ((settleIter e q n).pos i).x - (positionArray P tile i).x) (fun n i => ((settleIter e q n).vel i).x) ∧
    Moves e.k e.friction (fun i => ¬ e.locks i > 0)
      (fun n i => ((settleIter e q n).pos i).y - (positionArray P tile i).y) (fun n i => ((settleIter e q n).vel i).y) := by
  have hf : ∀ n i, ¬ e.locks i > 0 → (settleIter e q (n + 1)).vel i =
      ⟨eulerVelocity 1 e.friction mass ((settleIter e q n).vel i).x
        (force e.k (fun j => ((settleIter e q n).pos j).x - (positionArray P tile j).x) i),
       eulerVelocity 1 e.friction mass ((settleIter e q n).vel i).y
        (force e.k (fun j => ((settleIter e q n).pos j).y - (positionArray P tile j).y) i)⟩ ∧
      (settleIter e q (n + 1)).pos i = ⟨((settleIter e q n).pos i).x + ((settleIter e q (n + 1)).vel i).x / 2,
        ((settleIter e q n).pos i).y + ((settleIter e q (n + 1)).vel i).y / 2⟩ := by
    intro n i hi
    obtain ⟨f1, f2⟩ := forces_off hs P (settleIter e q n).pos i
    rw [settleIter_succ]
    simp only [springStep, anchoredIntegration, if_neg hi, eulerIntegrate]
    rw [f1, f2]
    refine ⟨rfl, ?_⟩
    ext <;> simp <;> ring
  have hl : ∀ n i, ¬ ¬ e.locks i > 0 → (settleIter e q (n + 1)).vel i = 0 ∧
      (settleIter e q (n + 1)).pos i = (settleIter e q n).pos i := by
    intro n i hi
    have hi' := not_not.1 hi
    exact ⟨(settleIter_locked e q hi' (n + 1)).2 (by omega),
      (settleIter_locked e q hi' (n + 1)).1.trans (settleIter_locked e q hi' n).1.symm⟩
  refine ⟨⟨fun n i hi => ?_, fun n i hi => ?_, fun n i hi => ?_, fun n i hi => ?_⟩,
    ⟨fun n i hi => ?_, fun n i hi => ?_, fun n i hi => ?_, fun n i hi => ?_⟩⟩
  · rw [(hf n i hi).1]
  · rw [(hf n i hi).2]
    simp only
    ring
  · rw [(hl n i hi).1]
    rfl
  · rw [(hl n i hi).2]
  · rw [(hf n i hi).1]
  · rw [(hf n i hi).2]
    simp only
    ring
  · rw [(hl n i hi).1]
    rfl
  · rw [(hl n i hi).2]

/-- Bounds along the edges bound everything. -/
theorem connected {g : Idx → ℝ} {B : ℝ} (h : ∀ z ∈ baseEdges, |g z.2.1 - g z.1| ≤ B) (i j : Idx) : |g i - g j| ≤ 12 * B := by
  have hB : 0 ≤ B := (abs_nonneg _).trans (h (0, 4, true) (by rw [baseEdges_list]; simp))
  have key : ∀ i, |g i - g 0| ≤ 6 * B := by
    rw [baseEdges_list] at h
    simp only [List.mem_cons, List.not_mem_nil, or_false, forall_eq_or_imp, forall_eq, abs_le] at h
    intro i
    rw [abs_le]
    fin_cases i <;> simp only [Fin.zero_eta, Fin.mk_one, Fin.reduceFinMk] <;> constructor <;> linarith
  have : g i - g j = (g i - g 0) - (g j - g 0) := by ring
  rw [this]
  exact (abs_sub _ _).trans (by linarith [key i, key j])

/-- One coordinate: velocities, and the shape the other points have with respect to the held ones. -/
theorem tame_axis {k f : ℝ} (hk : 0 < k) (hk' : k ≤ 10) (hf : 0 < f) (hf' : f ≤ 10) (free : Idx → Prop) :
    ∃ C τ : ℝ, 0 ≤ C ∧ 0 ≤ τ ∧ τ < 1 ∧ ∀ d u, Moves k f free d u → ∀ D, 0 ≤ D → (∀ i, ¬ free i → |d 0 i| ≤ D) → ∀ n,
      (∀ i, free i → |u n i| ≤ C * (τ ^ n * (1 + ∑ i, (d 0 i ^ 2 + u 0 i ^ 2)) + 1 + D)) ∧
      ∀ i j, |d n i - d n j| ≤ C * (τ ^ n * (1 + ∑ i, (d 0 i ^ 2 + u 0 i ^ 2)) + 1 + D) := by
  obtain ⟨C, τ, hC, t0, t1, H⟩ := moves_bounded hk hk' hf hf' free
  set τ' := Real.sqrt τ with hτ
  have t0' : 0 ≤ τ' := Real.sqrt_nonneg _
  have t1' : τ' < 1 := by
    rw [hτ, Real.sqrt_lt' one_pos]
    simpa using t1
  have tt : τ' ^ 2 = τ := Real.sq_sqrt t0
  set c := Real.sqrt C with hc
  have c0 : 0 ≤ c := Real.sqrt_nonneg _
  have cc : c ^ 2 = C := Real.sq_sqrt hC
  clear_value τ' c
  refine ⟨12 * (c + 2), τ', by positivity, t0', t1', fun d u M D hD hp n => ?_⟩
  obtain ⟨h1, h2⟩ := H d u M D hD hp n
  set S := ∑ i, (d 0 i ^ 2 + u 0 i ^ 2) with hS
  have S0 : 0 ≤ S := Finset.sum_nonneg fun i _ => by positivity
  clear_value S
  set T := τ' ^ n with hT
  have T0 : 0 ≤ T := by positivity
  have eT : τ ^ n = T ^ 2 := by rw [← tt, hT]; ring
  rw [eT] at h1 h2
  clear_value T
  have root : ∀ {a : ℝ}, a ^ 2 ≤ C * (T ^ 2 * S + (1 + D) ^ 2) → |a| ≤ c * (T * (1 + S) + 1 + D) := by
    intro a ha
    have b0 : 0 ≤ c * (T * (1 + S) + 1 + D) := by positivity
    refine abs_le_of_sq_le_sq (ha.trans ?_) b0
    rw [← cc, mul_pow]
    refine mul_le_mul_of_nonneg_left ?_ (by positivity)
    have e1 : T ^ 2 * S ≤ (T * (1 + S)) ^ 2 := by
      rw [mul_pow]
      exact mul_le_mul_of_nonneg_left (by nlinarith) (by positivity)
    have e2 : 0 ≤ T * (1 + S) := by positivity
    nlinarith
  have Z0 : 0 ≤ T * (1 + S) := by positivity
  constructor
  · intro i hi
    refine (root (h1 i hi)).trans ?_
    exact mul_le_mul_of_nonneg_right (by linarith) (by positivity)
  · intro i j
    have pinned : ∀ n i, ¬ free i → d n i = d 0 i := by
      intro n i hi
      induction n with
      | zero => rfl
      | succ n ih => rw [M.posPinned n i hi, ih]
    have near : ∀ i, |d n i - part free (d n) i| ≤ D := by
      intro i
      unfold part
      split_ifs with hi
      · simpa using hD
      · rw [sub_zero, pinned n i hi]
        exact hp i hi
    have step : ∀ z ∈ baseEdges, |d n z.2.1 - d n z.1| ≤ c * (T * (1 + S) + 1 + D) + 2 * D := by
      intro z hz
      have e1 := root (h2 z hz)
      have e2 := near z.2.1
      have e3 := near z.1
      rw [abs_le] at *
      constructor <;> linarith [e1.1, e1.2, e2.1, e2.2, e3.1, e3.2]
    refine (connected step i j).trans ?_
    nlinarith

/-- How far two points are from the offset they have at rest. -/
def offShape (tile : Pt) (m : Mesh) (i j : Idx) : Pt :=
  ⟨(m j).x - (m i).x - ((col j : ℝ) - col i) * tile.x, (m j).y - (m i).y - ((row j : ℝ) - row i) * tile.y⟩

theorem tame {k f : ℝ} (hk : 0 < k) (hk' : k ≤ 10) (hf : 0 < f) (hf' : f ≤ 10) :
    ∃ C : ℝ, 0 ≤ C ∧ ∀ (e : Env) (tile : Pt) (c : ℕ) (q : Phys) (D : ℝ), e.k = k → e.friction = f →
      e.springs.Perm (baseSprings tile c) → 0 ≤ D →
      (∀ i j, e.locks i > 0 → e.locks j > 0 → |(offShape tile q.pos i j).x| ≤ D ∧ |(offShape tile q.pos i j).y| ≤ D) →
      ∃ Z τ : ℝ, 0 ≤ Z ∧ 0 ≤ τ ∧ τ < 1 ∧ ∀ n,
        (∀ i, ¬ e.locks i > 0 ∨ n ≠ 0 → |((settleIter e q n).vel i).x| ≤ C * (τ ^ n * Z + 1 + D) ∧
          |((settleIter e q n).vel i).y| ≤ C * (τ ^ n * Z + 1 + D)) ∧
        ∀ i j, |(offShape tile (settleIter e q n).pos i j).x| ≤ C * (τ ^ n * Z + 1 + D) ∧
          |(offShape tile (settleIter e q n).pos i j).y| ≤ C * (τ ^ n * Z + 1 + D) := by
  choose C τ hC t0 t1 H using fun free => tame_axis hk hk' hf hf' free
  refine ⟨∑ free, C free, Finset.sum_nonneg fun free _ => hC free, fun e tile c q D ek ef hs hD hl => ?_⟩
  set free : Idx → Prop := fun i => ¬ e.locks i > 0 with hfree
  have hle : C free ≤ ∑ free, C free := Finset.single_le_sum (fun z _ => hC z) (Finset.mem_univ free)
  obtain ⟨P, hP⟩ : ∃ P : Pt, ∀ i, ¬ free i → |(q.pos i).x - (positionArray P tile i).x| ≤ D ∧
      |(q.pos i).y - (positionArray P tile i).y| ≤ D := by
    by_cases hj : ∃ j, e.locks j > 0
    · obtain ⟨j, hj⟩ := hj
      refine ⟨q.pos j - ⟨col j * tile.x, row j * tile.y⟩, fun i hi => ?_⟩
      obtain ⟨h1, h2⟩ := hl j i hj (not_not.1 hi)
      unfold offShape at h1 h2
      simp only at h1 h2
      constructor
      · convert h1 using 2
        simp [positionArray]
        ring
      · convert h2 using 2
        simp [positionArray]
        ring
    · exact ⟨0, fun i hi => absurd ⟨i, not_not.1 hi⟩ hj⟩
  obtain ⟨mx, my⟩ := moves_mesh hs P q
  rw [ek, ef] at mx my
  have fold : ∀ {d u : ℕ → Idx → ℝ}, Moves k f free d u → (∀ i, ¬ free i → |d 0 i| ≤ D) → ∃ S, 0 ≤ S ∧ ∀ n,
      (∀ i, free i → |u n i| ≤ C free * (τ free ^ n * S + 1 + D)) ∧
      ∀ i j, |d n i - d n j| ≤ C free * (τ free ^ n * S + 1 + D) := fun {d u} M h =>
    ⟨1 + ∑ i, (d 0 i ^ 2 + u 0 i ^ 2), add_nonneg one_pos.le (Finset.sum_nonneg fun i _ => by positivity),
      H free d u M D hD h⟩
  obtain ⟨Sx, x0, bx⟩ := fold mx fun i hi => (hP i hi).1
  obtain ⟨Sy, y0, bb⟩ := fold my fun i hi => (hP i hi).2
  refine ⟨Sx + Sy, τ free, by positivity, t0 free, t1 free, fun n => ?_⟩
  have T0 : 0 ≤ τ free ^ n := pow_nonneg (t0 free) n
  have m1 : C free * (τ free ^ n * Sx + 1 + D) ≤ (∑ free, C free) * (τ free ^ n * (Sx + Sy) + 1 + D) :=
    mul_le_mul hle (by nlinarith) (by positivity) (le_trans (hC free) hle)
  have m2 : C free * (τ free ^ n * Sy + 1 + D) ≤ (∑ free, C free) * (τ free ^ n * (Sx + Sy) + 1 + D) :=
    mul_le_mul hle (by nlinarith) (by positivity) (le_trans (hC free) hle)
  have m0 : 0 ≤ (∑ free, C free) * (τ free ^ n * (Sx + Sy) + 1 + D) :=
    mul_nonneg (le_trans (hC free) hle) (by positivity)
  constructor
  · rintro i hi
    by_cases hi' : e.locks i > 0
    · have := (settleIter_locked e q hi' n).2 (hi.resolve_left (not_not.2 hi'))
      rw [this]
      simpa using m0
    · exact ⟨((bx n).1 i hi').trans m1, ((bb n).1 i hi').trans m2⟩
  · intro i j
    have kx := ((bx n).2 j i).trans m1
    have ky := ((bb n).2 j i).trans m2
    have ex : (offShape tile (settleIter e q n).pos i j).x = ((settleIter e q n).pos j).x - (positionArray P tile j).x -
        (((settleIter e q n).pos i).x - (positionArray P tile i).x) := by
      simp only [offShape, positionArray, Pt.add_x]
      ring
    have ey : (offShape tile (settleIter e q n).pos i j).y = ((settleIter e q n).pos j).y - (positionArray P tile j).y -
        (((settleIter e q n).pos i).y - (positionArray P tile i).y) := by
      simp only [offShape, positionArray, Pt.add_y]
      ring
    rw [ex, ey]
    exact ⟨kx, ky⟩

/-! ## A point between four held ones, with springs that are too stiff -/

/-- New position and velocity of the free point. -/
noncomputable def swing (k f : ℝ) (q : ℝ × ℝ) : ℝ × ℝ :=
  let v := eulerVelocity 1 f mass q.2 (4 * pull k (-q.1))
  (q.1 + v * (1 / 2), v)

theorem swing_grows {k f : ℝ} (hk : 60 ≤ k) (hf : 0 < f) (hf' : f ≤ 15) {q : ℝ × ℝ} (h1 : 1 ≤ |q.1|)
    (h2 : 0 ≤ q.2 * q.1) (h3 : q.2 * q.1 ≤ 4 * q.1 ^ 2) :
    (1 + f / 15) * |q.1| ≤ |(swing k f q).1| ∧ 0 ≤ (swing k f q).2 * (swing k f q).1 ∧
      (swing k f q).2 * (swing k f q).1 ≤ 4 * (swing k f q).1 ^ 2 := by
  obtain ⟨y, v⟩ := q
  simp only at h1 h2 h3
  have hp : pull k (-y) = -(k / 2 * y) := by
    unfold pull
    rw [if_neg (by rw [abs_neg]; linarith)]
    ring
  set b := 1 - f / 15 with hb
  have b0 : 0 ≤ b := by rw [hb]; linarith
  have b1 : b < 1 := by rw [hb]; linarith
  set a := 2 * k / 15 with ha
  have a8 : 8 ≤ a := by rw [ha]; linarith
  have hv : v + (4 * pull k (-y) - v * f) * (1 / mass) * 1 = b * v - a * y := by
    rw [hp, hb, ha]
    unfold mass
    ring
  have hy2 : 1 ≤ y ^ 2 := by
    rw [← sq_abs]
    nlinarith [abs_nonneg y]
  have hbv : b * (v * y) ≤ 4 * y ^ 2 := by nlinarith
  have hbv' : b * (v * y) ≤ 4 * b * y ^ 2 := by nlinarith
  set V := b * v - a * y with hV
  have m1 : 4 * y ^ 2 ≤ -(V * y) := by rw [hV]; nlinarith
  have y0 : 0 < |y| := by linarith
  have V4 : 4 ≤ |V| := by
    have e1 : -(V * y) ≤ |V| * |y| := by rw [← abs_mul]; exact neg_le_abs _
    have e2 : 4 * |y| * |y| ≤ |V| * |y| := by
      have : 4 * |y| * |y| = 4 * y ^ 2 := by rw [mul_assoc, abs_mul_abs_self]; ring
      linarith
    have := le_of_mul_le_mul_right e2 y0
    linarith
  have ev : (swing k f (y, v)).2 = V := by
    show eulerVelocity 1 f mass v (4 * pull k (-y)) = V
    unfold eulerVelocity clip
    rw [hv, if_neg (by linarith)]
  have ey : (swing k f (y, v)).1 = y + V * (1 / 2) := by
    rw [← ev]
    rfl
  rw [ev, ey]
  set Y := y + V * (1 / 2) with hY
  have m2 : -(Y * y) = -(V * y) / 2 - y ^ 2 := by rw [hY]; ring
  have m3 : (1 + 2 * (f / 15)) * y ^ 2 ≤ -(Y * y) := by
    rw [m2, hV]
    have : f / 15 = 1 - b := by rw [hb]; ring
    rw [this]
    nlinarith
  have f0 : 0 < f / 15 := by positivity
  clear_value V Y
  have yy : 0 < y ^ 2 := by linarith
  refine ⟨?_, ?_, ?_⟩
  · have e1 : -(Y * y) ≤ |Y| * |y| := by rw [← abs_mul]; exact neg_le_abs _
    have e2 : (1 + f / 15) * |y| * |y| ≤ |Y| * |y| := by
      have : (1 + f / 15) * |y| * |y| = (1 + f / 15) * y ^ 2 := by rw [mul_assoc, abs_mul_abs_self]; ring
      nlinarith
    exact le_of_mul_le_mul_right e2 y0
  · have e : (V * Y) * y ^ 2 = (-(V * y)) * (-(Y * y)) := by ring
    have : 0 ≤ (V * Y) * y ^ 2 := by
      rw [e]
      exact mul_nonneg (by linarith) (by nlinarith)
    exact nonneg_of_mul_nonneg_left this yy
  · have e : (4 * Y ^ 2 - V * Y) * y ^ 2 = (-(Y * y)) * (4 * (-(Y * y)) - (-(V * y))) := by ring
    have : 0 ≤ (4 * Y ^ 2 - V * Y) * y ^ 2 := by
      rw [e]
      exact mul_nonneg (by nlinarith) (by linarith)
    linarith [nonneg_of_mul_nonneg_left this yy]

theorem swing_iter {k f : ℝ} (hk : 60 ≤ k) (hf : 0 < f) (hf' : f ≤ 15) {y : ℝ} (h1 : 1 ≤ |y|) (n : ℕ) :
    (1 + f / 15) ^ n ≤ |((swing k f)^[n] (y, 0)).1| ∧
      0 ≤ ((swing k f)^[n] (y, 0)).2 * ((swing k f)^[n] (y, 0)).1 ∧
      ((swing k f)^[n] (y, 0)).2 * ((swing k f)^[n] (y, 0)).1 ≤ 4 * ((swing k f)^[n] (y, 0)).1 ^ 2 := by
  induction n with
  | zero => exact ⟨by simpa using h1, by simp, by simp; positivity⟩
  | succ n ih =>
    rw [Function.iterate_succ_apply']
    have h0 : 1 ≤ 1 + f / 15 := by linarith [div_pos hf (by norm_num : (0 : ℝ) < 15)]
    obtain ⟨k1, k2, k3⟩ := swing_grows hk hf hf' ((one_le_pow₀ h0).trans ih.1) ih.2.1 ih.2.2
    refine ⟨?_, k2, k3⟩
    rw [pow_succ, mul_comm]
    exact (mul_le_mul_of_nonneg_left ih.1 (by linarith)).trans k1

theorem springStep_swing {e : Env} {p tile : Pt} {b : ℕ} (hs : e.springs.Perm (baseSprings tile b)) (h1 : e.locks 1 > 0)
    (h4 : e.locks 4 > 0) (h6 : e.locks 6 > 0) (h9 : e.locks 9 > 0) (h5 : e.locks 5 = 0) (q : ℝ × ℝ) :
    (springStep e (oscPhys p tile q)).1 = oscPhys p tile (swing e.k e.friction q) := by
  have hm : ∀ i, (oscPhys p tile q).pos i = positionArray p tile i + oneOff q.1 i := fun _ => rfl
  have hforce : ∀ i, (calculateForces e.k (e.at_ (oscPhys p tile q).pos) e.springs).1 (.mesh i) =
      (baseEdges.map (edgeForce e.k (oneOff q.1) i)).sum := by
    intro i
    rw [← force_disp (e := e) (b := b) e.k hm, calculateForces_force, calculateForces_force]
    exact (hs.map _).sum_eq
  have hfive : (calculateForces e.k (e.at_ (oscPhys p tile q).pos) e.springs).1 (.mesh 5) =
      ⟨4 * pull e.k (-q.1), 0⟩ := by
    rw [hforce, oneOff_force_five]
  have hother : ∀ i, ¬ e.locks i > 0 → i ≠ 5 →
      (calculateForces e.k (e.at_ (oscPhys p tile q).pos) e.springs).1 (.mesh i) = 0 := by
    intro i hi hi5
    rw [hforce]
    apply oneOff_force_far _ _ _ _ _ hi5
    all_goals
      rintro rfl
      first | exact hi h1 | exact hi h4 | exact hi h6 | exact hi h9
  have hv0 : ∀ f, eulerVelocity 1 f mass 0 0 = 0 := by
    intro f
    rw [eulerVelocity_free]
    simp [clip_zero]
  unfold springStep anchoredIntegration
  ext1
  · funext i
    dsimp only
    by_cases hi : e.locks i > 0
    · rw [if_pos hi]
      have : i ≠ 5 := by
        rintro rfl
        omega
      simp [oscPhys, oneOff, this]
    · rw [if_neg hi]
      by_cases hi5 : i = 5
      · subst hi5
        rw [hfive]
        simp only [eulerIntegrate, oscPhys, oneOff, if_true, hv0, swing]
        ext
        · simp only [Pt.add_x, Pt.scale_x]
          ring
        · simp
      · rw [hother i hi hi5]
        have : (oscPhys p tile q).vel i = 0 := by simp [oscPhys, oneOff, hi5]
        rw [this, euler_zero]
        simp [oscPhys, oneOff, hi5]
  · funext i
    dsimp only
    by_cases hi : e.locks i > 0
    · rw [if_pos hi]
      have : i ≠ 5 := by
        rintro rfl
        omega
      simp only [oscPhys, oneOff, if_neg this]
      rfl
    · rw [if_neg hi]
      by_cases hi5 : i = 5
      · subst hi5
        rw [hfive]
        simp only [eulerIntegrate, oscPhys, oneOff, if_true, hv0, swing]
      · rw [hother i hi hi5]
        have : (oscPhys p tile q).vel i = 0 := by simp [oscPhys, oneOff, hi5]
        rw [this, euler_zero]
        simp [oscPhys, oneOff, hi5]

end Verif.Wobbly
