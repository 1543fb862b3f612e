import Verif.Lemmas.WobblyStable
import Verif.Lemmas.WobblyBounded

/-! # The mesh as coupled oscillators (for C111) -/

namespace Verif.Wobbly

open Spec Outcome Classical Props
open scoped InnerProductSpace

/-- What springs without a dead zone would do: for each edge the difference of its ends. -/
def lap (l : List (Idx × Idx × Bool)) (d : Idx → ℝ) (i : Idx) : ℝ :=
  (l.map fun z => (if i = z.1 then d z.1 - d z.2.1 else 0) - (if i = z.2.1 then d z.1 - d z.2.1 else 0)).sum

theorem lap_inner (l : List (Idx × Idx × Bool)) (d y : Idx → ℝ) :
    ∑ i, lap l d i * y i = (l.map fun z => (d z.1 - d z.2.1) * (y z.1 - y z.2.1)).sum := by
  induction l with
  | nil => simp [lap]
  | cons z l ih =>
    have e : ∀ i, lap (z :: l) d i * y i = ((if i = z.1 then (d z.1 - d z.2.1) * y i else 0) -
        (if i = z.2.1 then (d z.1 - d z.2.1) * y i else 0)) + lap l d i * y i := by
      intro i
      simp only [lap, List.map_cons, List.sum_cons, add_mul, sub_mul, ite_mul, zero_mul]
    rw [Finset.sum_congr rfl fun i _ => e i, Finset.sum_add_distrib, ih, Finset.sum_sub_distrib, List.map_cons,
      List.sum_cons]
    simp only [Finset.sum_ite_eq', Finset.mem_univ, if_true]
    ring

theorem lap_add (l : List (Idx × Idx × Bool)) (d y : Idx → ℝ) (i : Idx) :
    lap l (fun j => d j + y j) i = lap l d i + lap l y i := by
  induction l with
  | nil => simp [lap]
  | cons z l ih =>
    simp only [lap, List.map_cons, List.sum_cons] at ih ⊢
    rw [ih]
    split_ifs <;> ring

theorem lap_mul (l : List (Idx × Idx × Bool)) (c : ℝ) (y : Idx → ℝ) (i : Idx) :
    lap l (fun j => c * y j) i = c * lap l y i := by
  induction l with
  | nil => simp [lap]
  | cons z l ih =>
    simp only [lap, List.map_cons, List.sum_cons] at ih ⊢
    rw [ih]
    split_ifs <;> ring

/-- The coordinates that are not pinned. -/
noncomputable def part (free : Idx → Prop) (y : Idx → ℝ) (i : Idx) : ℝ := if free i then y i else 0

/-- The linear part of the spring forces on the points that are not pinned. -/
noncomputable def spring (c : ℝ) (free : Idx → Prop) : EuclideanSpace ℝ (Fin 16) →ₗ[ℝ] EuclideanSpace ℝ (Fin 16) where
  toFun y := WithLp.toLp 2 (part free fun i => c * lap baseEdges (part free y) i)
  map_add' y z := by
    ext i
    have : part free (y + z) = fun j => part free y j + part free z j := by
      funext j
      unfold part
      split_ifs <;> simp
    simp only [PiLp.add_apply, part]
    split_ifs
    · show c * lap baseEdges (part free (y + z)) i = c * lap baseEdges (part free y) i + c * lap baseEdges (part free z) i
      rw [this, lap_add]
      ring
    · simp
  map_smul' a y := by
    ext i
    have : part free (a • y) = fun j => a * part free y j := by
      funext j
      unfold part
      split_ifs <;> simp
    simp only [PiLp.smul_apply, part]
    split_ifs
    · show c * lap baseEdges (part free (a • y)) i = a • (c * lap baseEdges (part free y) i)
      rw [this, lap_mul]
      simp only [smul_eq_mul]
      ring
    · simp

theorem spring_apply (c : ℝ) (free : Idx → Prop) (y : EuclideanSpace ℝ (Fin 16)) (i : Idx) :
    (spring c free y) i = part free (fun i => c * lap baseEdges (part free y) i) i := rfl

theorem spring_inner (c : ℝ) (free : Idx → Prop) (x y : EuclideanSpace ℝ (Fin 16)) :
    ⟪spring c free x, y⟫_ℝ =
      c * (baseEdges.map fun z => (part free x z.1 - part free x z.2.1) * (part free y z.1 - part free y z.2.1)).sum := by
  rw [← lap_inner, PiLp.inner_apply, Finset.mul_sum]
  refine Finset.sum_congr rfl fun i _ => ?_
  rw [spring_apply]
  unfold part
  split_ifs
  · simp
    ring
  · simp

theorem spring_symmetric (c : ℝ) (free : Idx → Prop) : (spring c free).IsSymmetric := by
  intro x y
  rw [spring_inner, real_inner_comm, spring_inner]
  congr 3
  funext z
  ring

theorem list_nonneg {α : Type} (l : List α) (f : α → ℝ) (h : ∀ z ∈ l, 0 ≤ f z) : 0 ≤ (l.map f).sum :=
  List.sum_nonneg (by simpa using h)

theorem list_zero {α : Type} (l : List α) (f : α → ℝ) (h : ∀ z ∈ l, 0 ≤ f z) (h0 : (l.map f).sum = 0) :
    ∀ z ∈ l, f z = 0 := by
  induction l with
  | nil => simp
  | cons a l ih =>
    rw [List.map_cons, List.sum_cons] at h0
    have h1 := h a (by simp)
    have h2 := list_nonneg l f fun z hz => h z (List.mem_cons_of_mem _ hz)
    intro z hz
    rcases List.mem_cons.1 hz with rfl | hz
    · linarith
    · exact ih (fun z hz => h z (List.mem_cons_of_mem _ hz)) (by linarith) z hz

theorem spring_nonneg {c : ℝ} (hc : 0 ≤ c) (free : Idx → Prop) (x : EuclideanSpace ℝ (Fin 16)) :
    0 ≤ ⟪spring c free x, x⟫_ℝ := by
  rw [spring_inner]
  exact mul_nonneg hc (list_nonneg _ _ fun z _ => mul_self_nonneg _)

theorem ends_sum (l : List (Idx × Idx × Bool)) (f : Idx → ℝ) :
    (l.map fun z => f z.1 + f z.2.1).sum = ∑ i, ((l.countP fun z => i = z.1) + (l.countP fun z => i = z.2.1) : ℕ) * f i := by
  induction l with
  | nil => simp
  | cons z l ih =>
    rw [List.map_cons, List.sum_cons, ih]
    have e : ∀ i : Idx, (((z :: l).countP fun z => i = z.1) + ((z :: l).countP fun z => i = z.2.1) : ℕ) * f i =
        ((if i = z.1 then f i else 0) + (if i = z.2.1 then f i else 0)) +
        ((l.countP fun z => i = z.1) + (l.countP fun z => i = z.2.1) : ℕ) * f i := by
      intro i
      simp only [List.countP_cons, decide_eq_true_eq]
      split_ifs <;> push_cast <;> ring
    rw [Finset.sum_congr rfl fun i _ => e i, Finset.sum_add_distrib, Finset.sum_add_distrib]
    simp

theorem degrees (i : Idx) : (baseEdges.countP fun z => i = z.1) + (baseEdges.countP fun z => i = z.2.1) ≤ 4 := by
  revert i
  decide

theorem spring_le {c : ℝ} (hc : 0 ≤ c) (hc' : c ≤ 1 / 3) (free : Idx → Prop) (x : EuclideanSpace ℝ (Fin 16)) :
    ⟪spring c free x, x⟫_ℝ ≤ 8 / 3 * ‖x‖ ^ 2 := by
  rw [spring_inner]
  set y := part free x with hy
  have h1 : (baseEdges.map fun z => (y z.1 - y z.2.1) * (y z.1 - y z.2.1)).sum ≤
      (baseEdges.map fun z => (2 * y z.1 ^ 2 + 2 * y z.2.1 ^ 2)).sum := by
    refine List.sum_le_sum fun z _ => ?_
    nlinarith [sq_nonneg (y z.1 + y z.2.1)]
  rw [ends_sum baseEdges fun i => 2 * y i ^ 2] at h1
  have h2 : ∑ i, ((baseEdges.countP fun z => i = z.1) + (baseEdges.countP fun z => i = z.2.1) : ℕ) * (2 * y i ^ 2) ≤
      ∑ i, 8 * x i ^ 2 := by
    refine Finset.sum_le_sum fun i _ => ?_
    have d : (((baseEdges.countP fun z => i = z.1) + (baseEdges.countP fun z => i = z.2.1) : ℕ) : ℝ) ≤ 4 := by
      exact_mod_cast degrees i
    have k : y i ^ 2 ≤ x i ^ 2 := by
      simp only [hy, part]
      split_ifs
      · exact le_refl _
      · simpa using sq_nonneg (x i)
    calc _ ≤ 4 * (2 * y i ^ 2) := mul_le_mul_of_nonneg_right d (by positivity)
      _ ≤ 8 * x i ^ 2 := by linarith
  have h3 : ∑ i, 8 * x i ^ 2 = 8 * ‖x‖ ^ 2 := by
    rw [EuclideanSpace.norm_sq_eq, Finset.mul_sum]
    simp
  have h4 := h1.trans (h2.trans_eq h3)
  have h5 : 0 ≤ 8 * ‖x‖ ^ 2 := by positivity
  calc _ ≤ c * (8 * ‖x‖ ^ 2) := mul_le_mul_of_nonneg_left h4 hc
    _ ≤ 1 / 3 * (8 * ‖x‖ ^ 2) := mul_le_mul_of_nonneg_right hc' h5
    _ = 8 / 3 * ‖x‖ ^ 2 := by ring

/-- The stretch of an edge between points that are not pinned. -/
noncomputable def stretch (free : Idx → Prop) (z : Idx × Idx × Bool) : EuclideanSpace ℝ (Fin 16) →ₗ[ℝ] ℝ where
  toFun y := part free y z.2.1 - part free y z.1
  map_add' x y := by
    simp only [part, PiLp.add_apply]
    split_ifs <;> ring
  map_smul' a y := by
    simp only [part, PiLp.smul_apply, smul_eq_mul, RingHom.id_apply]
    split_ifs <;> ring

theorem stretch_zero {c : ℝ} (hc : 0 < c) (free : Idx → Prop) {z : Idx × Idx × Bool} (hz : z ∈ baseEdges)
    {y : EuclideanSpace ℝ (Fin 16)} (h : spring c free y = 0) : stretch free z y = 0 := by
  have k := spring_inner c free y y
  rw [h, inner_zero_left] at k
  have k2 : (baseEdges.map fun z => (part free y z.1 - part free y z.2.1) * (part free y z.1 - part free y z.2.1)).sum = 0 := by
    rcases mul_eq_zero.1 k.symm with h | h
    · exact absurd h hc.ne'
    · exact h
  have k3 := list_zero _ _ (fun z _ => mul_self_nonneg _) k2 z hz
  have k4 := mul_self_eq_zero.1 k3
  show part free y z.2.1 - part free y z.1 = 0
  linarith

theorem coord_le_norm (y : EuclideanSpace ℝ (Fin 16)) (i : Fin 16) : |y i| ≤ ‖y‖ := by
  simpa using PiLp.norm_apply_le y i

theorem stretch_le (free : Idx → Prop) (z : Idx × Idx × Bool) {y : EuclideanSpace ℝ (Fin 16)} (h : ‖y‖ = 1) :
    |stretch free z y| ≤ 2 := by
  have k : ∀ i, |part free y i| ≤ 1 := by
    intro i
    unfold part
    split_ifs
    · rw [← h]
      exact coord_le_norm y i
    · simp
  show |part free y z.2.1 - part free y z.1| ≤ 2
  exact (abs_sub _ _).trans (by linarith [k z.2.1, k z.1])

/-- The force of all springs on point `i`, when the points are off the lattice by `d`. -/
noncomputable def force (k : ℝ) (d : Idx → ℝ) (i : Idx) : ℝ :=
  (baseEdges.map fun z => (if i = z.1 then pull k (d z.2.1 - d z.1) else 0) -
    (if i = z.2.1 then pull k (d z.2.1 - d z.1) else 0)).sum

/-- One coordinate of the mesh over time: `d` off the lattice, velocities `u`. -/
structure Moves (k f : ℝ) (free : Idx → Prop) (d u : ℕ → Idx → ℝ) : Prop where
  velFree : ∀ n i, free i → u (n + 1) i = eulerVelocity 1 f mass (u n i) (force k (d n) i)
  posFree : ∀ n i, free i → d (n + 1) i = d n i + u (n + 1) i / 2
  velPinned : ∀ n i, ¬ free i → u (n + 1) i = 0
  posPinned : ∀ n i, ¬ free i → d (n + 1) i = d n i

theorem pull_near {k : ℝ} (hk : 0 ≤ k) (x : ℝ) : |pull k x - k / 2 * x| ≤ k / 2 := by
  unfold pull
  split_ifs with h
  · rw [zero_sub, abs_neg, abs_mul, abs_of_nonneg (by positivity : (0 : ℝ) ≤ k / 2)]
    nlinarith
  · rw [sub_self, abs_zero]
    positivity

theorem force_near {k : ℝ} (hk : 0 ≤ k) (d : Idx → ℝ) (i : Idx) :
    |force k d i + k / 2 * lap baseEdges d i| ≤ 2 * k := by
  have e : force k d i + k / 2 * lap baseEdges d i = (baseEdges.map fun z =>
      (if i = z.1 then pull k (d z.2.1 - d z.1) - k / 2 * (d z.2.1 - d z.1) else 0) -
      (if i = z.2.1 then pull k (d z.2.1 - d z.1) - k / 2 * (d z.2.1 - d z.1) else 0)).sum := by
    unfold force lap
    generalize baseEdges = l
    induction l with
    | nil => simp
    | cons z l ih =>
      simp only [List.map_cons, List.sum_cons]
      rw [← ih]
      split_ifs <;> ring
  rw [e]
  refine (sum_bound (B := k / 2) _ _ (fun z => i = z.1 ∨ i = z.2.1) ?_ ?_).trans ?_
  · intro z hz hi
    have hp := pull_near hk (d z.2.1 - d z.1)
    have hn := no_loops z hz
    by_cases h1 : i = z.1
    · rw [if_pos h1, if_neg (fun h => hn (h1.symm.trans h)), sub_zero]
      exact hp
    · rw [if_neg h1, if_pos (hi.resolve_left h1), zero_sub, abs_neg]
      exact hp
  · intro z _ hi
    rw [not_or] at hi
    rw [if_neg hi.1, if_neg hi.2, sub_zero]
  · have h4 : ((baseEdges.countP fun z => decide (i = z.1 ∨ i = z.2.1) : ℕ) : ℝ) ≤ 4 := by exact_mod_cast degree_le i
    calc _ ≤ 4 * (k / 2) := by
          refine mul_le_mul_of_nonneg_right ?_ (by positivity)
          refine le_trans (le_of_eq ?_) h4
          congr!
      _ = 2 * k := by ring

theorem lap_le {d : Idx → ℝ} {D : ℝ} (hd : ∀ i, |d i| ≤ D) (i : Idx) : |lap baseEdges d i| ≤ 8 * D := by
  have hD : 0 ≤ D := (abs_nonneg _).trans (hd 0)
  refine (sum_bound (B := 2 * D) _ _ (fun z => i = z.1 ∨ i = z.2.1) ?_ ?_).trans ?_
  · intro z hz hi
    have hp : |d z.1 - d z.2.1| ≤ 2 * D := (abs_sub _ _).trans (by linarith [hd z.1, hd z.2.1])
    have hn := no_loops z hz
    by_cases h1 : i = z.1
    · rw [if_pos h1, if_neg (fun h => hn (h1.symm.trans h)), sub_zero]
      exact hp
    · rw [if_neg h1, if_pos (hi.resolve_left h1), zero_sub, abs_neg]
      exact hp
  · intro z _ hi
    rw [not_or] at hi
    rw [if_neg hi.1, if_neg hi.2, sub_zero]
  · have h4 : ((baseEdges.countP fun z => decide (i = z.1 ∨ i = z.2.1) : ℕ) : ℝ) ≤ 4 := by exact_mod_cast degree_le i
    calc _ ≤ 4 * (2 * D) := by
          refine mul_le_mul_of_nonneg_right ?_ (by positivity)
          refine le_trans (le_of_eq ?_) h4
          congr!
      _ = 8 * D := by ring

theorem norm_le_of_coords {y : EuclideanSpace ℝ (Fin 16)} {B : ℝ} (hB : 0 ≤ B) (h : ∀ i, |y i| ≤ B) : ‖y‖ ≤ 4 * B := by
  refine abs_le_of_sq_le_sq' ?_ (by positivity) |>.2
  rw [EuclideanSpace.norm_sq_eq]
  calc ∑ i, ‖y i‖ ^ 2 ≤ ∑ _i : Fin 16, B ^ 2 := Finset.sum_le_sum fun i _ => by
        rw [Real.norm_eq_abs]
        exact pow_le_pow_left₀ (abs_nonneg _) (h i) 2
    _ = (4 * B) ^ 2 := by simp; ring

/-- A mesh with pinned points and springs of a constant up to 10 stays bounded. -/
theorem moves_bounded {k f : ℝ} (hk : 0 < k) (hk' : k ≤ 10) (hf : 0 < f) (hf' : f ≤ 10) (free : Idx → Prop) :
    ∃ C τ : ℝ, 0 ≤ C ∧ 0 ≤ τ ∧ τ < 1 ∧ ∀ d u, Moves k f free d u → ∀ D, 0 ≤ D → (∀ i, ¬ free i → |d 0 i| ≤ D) → ∀ n,
      (∀ i, free i → u n i ^ 2 ≤ C * (τ ^ n * ∑ i, (d 0 i ^ 2 + u 0 i ^ 2) + (1 + D) ^ 2)) ∧
      ∀ z ∈ baseEdges, (part free (d n) z.2.1 - part free (d n) z.1) ^ 2 ≤
        C * (τ ^ n * ∑ i, (d 0 i ^ 2 + u 0 i ^ 2) + (1 + D) ^ 2) := by
  have hc : 0 < k / 30 := by positivity
  obtain ⟨C, τ, C0, t0, t1, hO⟩ := oscillators (n := 16) (by norm_num) (spring (k / 30) free) (spring_symmetric _ _)
    (γ := f / 15) (by positivity) (by linarith) (spring_nonneg hc.le free) (spring_le hc.le (by linarith) free)
  refine ⟨144 * C, τ, by positivity, t0, t1, fun d u H D hD hp n => ?_⟩
  have pinned : ∀ n i, ¬ free i → d n i = d 0 i := by
    intro n i hi
    induction n with
    | zero => rfl
    | succ n ih => rw [H.posPinned n i hi, ih]
  set x : ℕ → EuclideanSpace ℝ (Fin 16) := fun n => WithLp.toLp 2 (part free (d n)) with hx
  set v : ℕ → EuclideanSpace ℝ (Fin 16) := fun n => WithLp.toLp 2 (part free (u n)) with hv
  set w : ℕ → EuclideanSpace ℝ (Fin 16) := fun n => v (n + 1) - ((1 - f / 15) • v n - spring (k / 30) free (x n)) with hw
  have xi : ∀ n i, x n i = part free (d n) i := fun _ _ => rfl
  have vi : ∀ n i, v n i = part free (u n) i := fun _ _ => rfl
  have pp : ∀ n, part free (x n) = part free (d n) := by
    intro n
    funext i
    show part free (part free (d n)) i = part free (d n) i
    unfold part
    split_ifs <;> rfl
  have wi : ∀ n i, |w n i| ≤ 3 * (1 + D) := by
    intro n i
    have e : w n i = part free (u (n + 1)) i - ((1 - f / 15) * part free (u n) i -
        part free (fun i => k / 30 * lap baseEdges (part free (d n)) i) i) := by
      simp only [hw, PiLp.sub_apply, PiLp.smul_apply, smul_eq_mul, spring_apply, pp, vi]
    rw [e]
    unfold part
    by_cases hi : free i
    · simp only [if_pos hi]
      rw [H.velFree n i hi]
      set q : Idx → ℝ := fun j => if free j then 0 else d n j with hq
      have el : lap baseEdges (d n) i = lap baseEdges (part free (d n)) i + lap baseEdges q i := by
        rw [← lap_add]
        congr 1
        funext j
        simp only [part, hq]
        split_ifs <;> ring
      have b1 := force_near hk.le (d n) i
      have b2 : |lap baseEdges q i| ≤ 8 * D := lap_le (fun j => by
        simp only [hq]
        split_ifs with hj
        · simpa using hD
        · rw [pinned n j hj]
          exact hp j hj) i
      have b3 : |eulerVelocity 1 f mass (u n i) (force k (d n) i) -
          (u n i + (force k (d n) i - f * u n i) / 15)| ≤ 1 / 10 := by
        rw [newVelocity_eq]
        exact newVelocity_near f (u n i) (force k (d n) i)
      change |_ - ((1 - f / 15) * u n i - k / 30 * lap baseEdges (part free (d n)) i)| ≤ _
      have b4 : |force k (d n) i + k / 2 * lap baseEdges (d n) i| / 15 ≤ 2 * k / 15 := by linarith
      rw [abs_le] at b1 b2 b3 ⊢
      have b5 : k / 30 * lap baseEdges q i ≤ 1 / 3 * (8 * D) := by
        calc k / 30 * lap baseEdges q i ≤ k / 30 * (8 * D) := mul_le_mul_of_nonneg_left b2.2 hc.le
          _ ≤ 1 / 3 * (8 * D) := mul_le_mul_of_nonneg_right (by linarith) (by positivity)
      have b6 : -(1 / 3 * (8 * D)) ≤ k / 30 * lap baseEdges q i := by
        have : k / 30 * (-(8 * D)) ≤ k / 30 * lap baseEdges q i := mul_le_mul_of_nonneg_left b2.1 hc.le
        have : k / 30 * (8 * D) ≤ 1 / 3 * (8 * D) := mul_le_mul_of_nonneg_right (by linarith) (by positivity)
        linarith
      rw [el] at b1
      constructor <;> nlinarith
    · simp only [if_neg hi]
      norm_num
      linarith
  have hW : ∀ n, ‖w n‖ ≤ 12 * (1 + D) := fun n => (norm_le_of_coords (by positivity) (wi n)).trans (by linarith)
  have key := hO x v w (12 * (1 + D)) hW (fun k => by simp only [hw]; abel) (fun n => by
    ext i
    simp only [PiLp.add_apply, PiLp.smul_apply, smul_eq_mul, xi, vi, part]
    split_ifs with hi
    · rw [H.posFree n i hi]
      ring
    · ring) n
  have nx : ‖x 0‖ ^ 2 + ‖v 0‖ ^ 2 ≤ ∑ i, (d 0 i ^ 2 + u 0 i ^ 2) := by
    rw [EuclideanSpace.norm_sq_eq, EuclideanSpace.norm_sq_eq, ← Finset.sum_add_distrib]
    refine Finset.sum_le_sum fun i _ => ?_
    simp only [xi, vi, part, Real.norm_eq_abs, sq_abs]
    split_ifs
    · exact le_refl _
    · have := sq_nonneg (d 0 i)
      have := sq_nonneg (u 0 i)
      norm_num
      positivity
  have big : C * (τ ^ n * (‖x 0‖ ^ 2 + ‖v 0‖ ^ 2) + (12 * (1 + D)) ^ 2) ≤
      144 * C * (τ ^ n * ∑ i, (d 0 i ^ 2 + u 0 i ^ 2) + (1 + D) ^ 2) := by
    have k1 : τ ^ n * (‖x 0‖ ^ 2 + ‖v 0‖ ^ 2) ≤ τ ^ n * ∑ i, (d 0 i ^ 2 + u 0 i ^ 2) :=
      mul_le_mul_of_nonneg_left nx (pow_nonneg t0 n)
    have k2 : 0 ≤ τ ^ n * ∑ i, (d 0 i ^ 2 + u 0 i ^ 2) :=
      mul_nonneg (pow_nonneg t0 n) (Finset.sum_nonneg fun i _ => by positivity)
    calc _ ≤ C * (144 * (τ ^ n * ∑ i, (d 0 i ^ 2 + u 0 i ^ 2) + (1 + D) ^ 2)) :=
          mul_le_mul_of_nonneg_left (by nlinarith) C0
      _ = _ := by ring
  constructor
  · intro i hi
    have e : u n i = v n i := by
      rw [vi]
      exact (if_pos hi).symm
    have : v n i ^ 2 ≤ ‖v n‖ ^ 2 := by
      rw [← sq_abs]
      exact pow_le_pow_left₀ (abs_nonneg _) (coord_le_norm _ i) 2
    rw [e]
    exact this.trans (key.1.trans big)
  · intro z hz
    have := key.2 (stretch free z) (fun y hy => stretch_zero hc free hz hy) (fun y hy => stretch_le free z hy)
    have e : stretch free z (x n) = part free (d n) z.2.1 - part free (d n) z.1 := by
      show part free (x n) z.2.1 - part free (x n) z.1 = _
      rw [pp]
    rw [e] at this
    exact this.trans big

end Verif.Wobbly
