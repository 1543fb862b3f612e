import Verif.Lemmas.WobblyWeb
import Verif.Lemmas.WobblyTame
import Verif.Lemmas.WobblyLimit

/-! # A mesh with springs to anchors as coupled oscillators (for C136) -/

namespace Verif.Wobbly

open Spec Outcome Classical Props
open scoped InnerProductSpace

/-- Mesh points off by `g`, anchors where they are. -/
def ground (g : Idx → ℝ) : Node → ℝ
  | .mesh i => g i
  | .anchor _ => 0

theorem ground_add (g g' : Idx → ℝ) (n : Node) : ground (fun j => g j + g' j) n = ground g n + ground g' n := by
  cases n <;> simp [ground]

theorem ground_mul (c : ℝ) (g : Idx → ℝ) (n : Node) : ground (fun j => c * g j) n = c * ground g n := by
  cases n <;> simp [ground]

theorem ground_sum (g : Idx → ℝ) (c : ℝ) (n : Node) : ∑ i, (if .mesh i = n then c * g i else 0) = c * ground g n := by
  cases n with
  | mesh j => simp [ground]
  | anchor h => simp [ground]

/-- What springs without a dead zone would do: for each spring the difference of its ends. -/
noncomputable def webLap (l : List Spring) (y : Idx → ℝ) (i : Idx) : ℝ :=
  (l.map fun z => (if .mesh i = z.a then ground y z.a - ground y z.b else 0) -
    (if .mesh i = z.b then ground y z.a - ground y z.b else 0)).sum

theorem webLap_inner (l : List Spring) (d y : Idx → ℝ) : ∑ i, webLap l d i * y i =
    (l.map fun z => (ground d z.a - ground d z.b) * (ground y z.a - ground y z.b)).sum := by
  induction l with
  | nil => simp [webLap]
  | cons z l ih =>
    have e : ∀ i, webLap (z :: l) d i * y i = ((if .mesh i = z.a then (ground d z.a - ground d z.b) * y i else 0) -
        (if .mesh i = z.b then (ground d z.a - ground d z.b) * y i else 0)) + webLap l d i * y i := by
      intro i
      simp only [webLap, List.map_cons, List.sum_cons, add_mul, sub_mul, ite_mul, zero_mul]
    rw [Finset.sum_congr rfl fun i _ => e i, Finset.sum_add_distrib, ih, Finset.sum_sub_distrib, List.map_cons,
      List.sum_cons, ground_sum, ground_sum]
    ring

theorem webLap_add (l : List Spring) (d y : Idx → ℝ) (i : Idx) :
    webLap l (fun j => d j + y j) i = webLap l d i + webLap l y i := by
  induction l with
  | nil => simp [webLap]
  | cons z l ih =>
    simp only [webLap, List.map_cons, List.sum_cons, ground_add] at ih ⊢
    rw [ih]
    split_ifs <;> ring

theorem webLap_mul (l : List Spring) (c : ℝ) (y : Idx → ℝ) (i : Idx) :
    webLap l (fun j => c * y j) i = c * webLap l y i := by
  induction l with
  | nil => simp [webLap]
  | cons z l ih =>
    simp only [webLap, List.map_cons, List.sum_cons, ground_mul] at ih ⊢
    rw [ih]
    split_ifs <;> ring

/-- The linear part of the spring forces on the points that are not pinned. -/
noncomputable def web (l : List Spring) (c : ℝ) (free : Idx → Prop) :
    EuclideanSpace ℝ (Fin 16) →ₗ[ℝ] EuclideanSpace ℝ (Fin 16) where
  toFun y := WithLp.toLp 2 (part free fun i => c * webLap l (part free y) i)
  map_add' y z := by
    ext i
    have : part free (y + z) = fun j => part free y j + part free z j := by
      funext j
      unfold part
      split_ifs <;> simp
    simp only [PiLp.add_apply, part]
    split_ifs
    · show c * webLap l (part free (y + z)) i = c * webLap l (part free y) i + c * webLap l (part free z) i
      rw [this, webLap_add]
      ring
    · simp
  map_smul' a y := by
    ext i
    have : part free (a • y) = fun j => a * part free y j := by
      funext j
      unfold part
      split_ifs <;> simp
    simp only [PiLp.smul_apply, part]
    split_ifs
    · show c * webLap l (part free (a • y)) i = a • (c * webLap l (part free y) i)
      rw [this, webLap_mul]
      simp only [smul_eq_mul]
      ring
    · simp

variable {l : List Spring}

theorem web_apply (c : ℝ) (free : Idx → Prop) (y : EuclideanSpace ℝ (Fin 16)) (i : Idx) :
    (web l c free y) i = part free (fun i => c * webLap l (part free y) i) i := rfl

theorem web_inner (c : ℝ) (free : Idx → Prop) (x y : EuclideanSpace ℝ (Fin 16)) :
    ⟪web l c free x, y⟫_ℝ = c * (l.map fun z => (ground (part free x) z.a - ground (part free x) z.b) *
      (ground (part free y) z.a - ground (part free y) z.b)).sum := by
  rw [← webLap_inner, PiLp.inner_apply, Finset.mul_sum]
  refine Finset.sum_congr rfl fun i _ => ?_
  rw [web_apply]
  unfold part
  split_ifs
  · simp
    ring
  · simp

theorem web_symmetric (c : ℝ) (free : Idx → Prop) : (web l c free).IsSymmetric := by
  intro x y
  rw [web_inner, real_inner_comm, web_inner]
  congr 3
  funext z
  ring

theorem web_nonneg {c : ℝ} (hc : 0 ≤ c) (free : Idx → Prop) (x : EuclideanSpace ℝ (Fin 16)) :
    0 ≤ ⟪web l c free x, x⟫_ℝ := by
  rw [web_inner]
  exact mul_nonneg hc (list_nonneg _ _ fun z _ => mul_self_nonneg _)

theorem web_ends (l : List Spring) (f : Idx → ℝ) :
    (l.map fun z => ground f z.a + ground f z.b).sum = ∑ i, (((l.map (endsAt i)).sum : ℕ) : ℝ) * f i := by
  induction l with
  | nil => simp
  | cons z l ih =>
    rw [List.map_cons, List.sum_cons, ih]
    have e : ∀ i : Idx, ((((z :: l).map (endsAt i)).sum : ℕ) : ℝ) * f i =
        ((if .mesh i = z.a then 1 * f i else 0) + (if .mesh i = z.b then 1 * f i else 0)) +
        (((l.map (endsAt i)).sum : ℕ) : ℝ) * f i := by
      intro i
      rw [List.map_cons, List.sum_cons]
      simp only [endsAt]
      split_ifs <;> push_cast <;> ring
    rw [Finset.sum_congr rfl fun i _ => e i, Finset.sum_add_distrib, Finset.sum_add_distrib, ground_sum, ground_sum]
    ring

theorem ground_sq (f : Idx → ℝ) (n : Node) : ground f n ^ 2 = ground (fun i => f i ^ 2) n := by
  cases n <;> simp [ground]

theorem web_le (hd : ∀ i, (l.map (endsAt i)).sum ≤ 4) {c : ℝ} (hc : 0 ≤ c) (hc' : c ≤ 1 / 3) (free : Idx → Prop)
    (x : EuclideanSpace ℝ (Fin 16)) : ⟪web l c free x, x⟫_ℝ ≤ 8 / 3 * ‖x‖ ^ 2 := by
  rw [web_inner]
  set y := part free x with hy
  have h1 : (l.map fun z => (ground y z.a - ground y z.b) * (ground y z.a - ground y z.b)).sum ≤
      (l.map fun z => ground (fun i => 2 * y i ^ 2) z.a + ground (fun i => 2 * y i ^ 2) z.b).sum := by
    refine List.sum_le_sum fun z _ => ?_
    rw [ground_mul 2 fun i => y i ^ 2, ground_mul 2 fun i => y i ^ 2, ← ground_sq, ← ground_sq]
    nlinarith [sq_nonneg (ground y z.a + ground y z.b)]
  rw [web_ends] at h1
  have h2 : ∑ i, (((l.map (endsAt i)).sum : ℕ) : ℝ) * (2 * y i ^ 2) ≤ ∑ i, 8 * x i ^ 2 := by
    refine Finset.sum_le_sum fun i _ => ?_
    have d : (((l.map (endsAt i)).sum : ℕ) : ℝ) ≤ 4 := by exact_mod_cast hd i
    have k : y i ^ 2 ≤ x i ^ 2 := by
      simp only [hy, part]
      split_ifs
      · exact le_refl _
      · simpa using sq_nonneg (x i)
    calc _ ≤ 4 * (2 * y i ^ 2) := mul_le_mul_of_nonneg_right d (by positivity)
      _ ≤ 8 * x i ^ 2 := by linarith
  have h3 : ∑ i, 8 * x i ^ 2 = 8 * ‖x‖ ^ 2 := by
    rw [EuclideanSpace.norm_sq_eq, Finset.mul_sum]
    simp
  have h4 := h1.trans (h2.trans_eq h3)
  have h5 : 0 ≤ 8 * ‖x‖ ^ 2 := by positivity
  calc _ ≤ c * (8 * ‖x‖ ^ 2) := mul_le_mul_of_nonneg_left h4 hc
    _ ≤ 1 / 3 * (8 * ‖x‖ ^ 2) := mul_le_mul_of_nonneg_right hc' h5
    _ = 8 / 3 * ‖x‖ ^ 2 := by ring

/-- The stretch of a spring, pinned points and anchors counting as 0. -/
noncomputable def webStretch (free : Idx → Prop) (z : Spring) : EuclideanSpace ℝ (Fin 16) →ₗ[ℝ] ℝ where
  toFun y := ground (part free y) z.b - ground (part free y) z.a
  map_add' x y := by
    have : part free (x + y).ofLp = fun j => part free x j + part free y j := by
      funext j
      unfold part
      split_ifs <;> simp
    rw [this, ground_add, ground_add]
    ring
  map_smul' a y := by
    have : part free (a • y).ofLp = fun j => a * part free y j := by
      funext j
      unfold part
      split_ifs <;> simp
    rw [this, ground_mul, ground_mul]
    simp only [smul_eq_mul, RingHom.id_apply]
    ring

theorem webStretch_zero {c : ℝ} (hc : 0 < c) (free : Idx → Prop) {z : Spring} (hz : z ∈ l)
    {y : EuclideanSpace ℝ (Fin 16)} (h : web l c free y = 0) : webStretch free z y = 0 := by
  have k := web_inner (l := l) c free y y
  rw [h, inner_zero_left] at k
  have k3 := list_zero _ _ (fun z _ => mul_self_nonneg _) ((mul_eq_zero.1 k.symm).resolve_left hc.ne') z hz
  have k4 := mul_self_eq_zero.1 k3
  show ground (part free y) z.b - ground (part free y) z.a = 0
  linarith

theorem webStretch_le (free : Idx → Prop) (z : Spring) {y : EuclideanSpace ℝ (Fin 16)} (h : ‖y‖ = 1) :
    |webStretch free z y| ≤ 2 := by
  have k : ∀ n, |ground (part free y) n| ≤ 1 := by
    intro n
    cases n with
    | anchor h => simp [ground]
    | mesh i =>
      show |part free y i| ≤ 1
      unfold part
      split_ifs
      · rw [← h]
        exact coord_le_norm y i
      · simp
  show |ground (part free y) z.b - ground (part free y) z.a| ≤ 2
  exact (abs_sub _ _).trans (by linarith [k z.b, k z.a])

/-- What a spring of deviation `D z` does to point `i`, summed. -/
noncomputable def webForce (l : List Spring) (k : ℝ) (D : Spring → ℝ) (i : Idx) : ℝ :=
  (l.map fun z => (if .mesh i = z.a then pull k (D z) else 0) - (if .mesh i = z.b then pull k (D z) else 0)).sum

/-- One coordinate of the mesh over time: positions `d`, velocities `u`; `r` is what pinned ends and lengths add to the
deviation of a spring. -/
structure WebMoves (l : List Spring) (k f : ℝ) (free : Idx → Prop) (r : Spring → ℝ) (d u : ℕ → Idx → ℝ) : Prop where
  velFree : ∀ n i, free i → u (n + 1) i = eulerVelocity 1 f mass (u n i)
    (webForce l k (fun z => ground (part free (d n)) z.b - ground (part free (d n)) z.a + r z) i)
  posFree : ∀ n i, free i → d (n + 1) i = d n i + u (n + 1) i / 2

theorem ends_bound (l : List Spring) (e : Spring → ℝ) {E : ℝ} (h : ∀ z ∈ l, |e z| ≤ E) (i : Idx) :
    |(l.map fun z => (if .mesh i = z.a then e z else 0) - (if .mesh i = z.b then e z else 0)).sum| ≤
      (((l.map (endsAt i)).sum : ℕ) : ℝ) * E := by
  induction l with
  | nil => simp
  | cons z l ih =>
    have h1 := h z (by simp)
    have h2 := ih fun y hy => h y (List.mem_cons_of_mem _ hy)
    rw [List.map_cons, List.sum_cons, List.map_cons, List.sum_cons]
    have h3 : |(if .mesh i = z.a then e z else 0) - (if .mesh i = z.b then e z else 0)| ≤ (endsAt i z : ℝ) * E := by
      have h0 : 0 ≤ E := (abs_nonneg _).trans h1
      unfold endsAt
      split_ifs
      · rw [sub_self, abs_zero]
        push_cast
        positivity
      · simpa using h1
      · simpa using h1
      · simp
    calc _ ≤ _ := abs_add_le _ _
      _ ≤ (endsAt i z : ℝ) * E + (((l.map (endsAt i)).sum : ℕ) : ℝ) * E := add_le_add h3 h2
      _ = _ := by push_cast; ring

theorem webForce_near (hd : ∀ i, (l.map (endsAt i)).sum ≤ 4) {k : ℝ} (hk : 0 ≤ k) {y : Idx → ℝ} {r : Spring → ℝ} {R : ℝ}
    (hR : 0 ≤ R) (hr : ∀ z ∈ l, |r z| ≤ R) (i : Idx) :
    |webForce l k (fun z => ground y z.b - ground y z.a + r z) i + k / 2 * webLap l y i| ≤ 2 * k * (1 + R) := by
  have e : webForce l k (fun z => ground y z.b - ground y z.a + r z) i + k / 2 * webLap l y i = (l.map fun z =>
      (if .mesh i = z.a then pull k (ground y z.b - ground y z.a + r z) - k / 2 * (ground y z.b - ground y z.a) else 0) -
      (if .mesh i = z.b then pull k (ground y z.b - ground y z.a + r z) - k / 2 * (ground y z.b - ground y z.a)
        else 0)).sum := by
    unfold webForce webLap
    clear hd hr
    induction l with
    | nil => simp
    | cons z l ih =>
      simp only [List.map_cons, List.sum_cons]
      rw [← ih]
      split_ifs <;> ring
  rw [e]
  refine (ends_bound l (fun z => pull k (ground y z.b - ground y z.a + r z) - k / 2 * (ground y z.b - ground y z.a))
    (E := k / 2 * (1 + R)) (fun z hz => ?_) i).trans ?_
  · have h1 := pull_near hk (ground y z.b - ground y z.a + r z)
    have h2 : |k / 2 * r z| ≤ k / 2 * R := by
      rw [abs_mul, abs_of_nonneg (by positivity : (0 : ℝ) ≤ k / 2)]
      exact mul_le_mul_of_nonneg_left (hr z hz) (by positivity)
    rw [abs_le] at *
    constructor <;> nlinarith [h1.1, h1.2, h2.1, h2.2]
  · have d : (((l.map (endsAt i)).sum : ℕ) : ℝ) ≤ 4 := by exact_mod_cast hd i
    calc _ ≤ 4 * (k / 2 * (1 + R)) := mul_le_mul_of_nonneg_right d (by positivity)
      _ = 2 * k * (1 + R) := by ring

/-- Velocities and stretches stay bounded. -/
theorem web_bounded (hd : ∀ i, (l.map (endsAt i)).sum ≤ 4) {k f : ℝ} (hk : 0 < k) (hk' : k ≤ 10) (hf : 0 < f) (hf' : f ≤ 10)
    {free : Idx → Prop} {r : Spring → ℝ} {R : ℝ} (hR : 0 ≤ R) (hr : ∀ z ∈ l, |r z| ≤ R) {d u : ℕ → Idx → ℝ}
    (H : WebMoves l k f free r d u) : ∃ B, 0 ≤ B ∧ ∀ n, (∀ i, free i → |u n i| ≤ B) ∧
      ∀ z ∈ l, |ground (part free (d n)) z.b - ground (part free (d n)) z.a| ≤ B := by
  have hc : 0 < k / 30 := by positivity
  obtain ⟨C, τ, C0, t0, t1, hO⟩ := oscillators (n := 16) (by norm_num) (web l (k / 30) free) (web_symmetric _ _)
    (γ := f / 15) (by positivity) (by linarith) (web_nonneg hc.le free) (web_le hd hc.le (by linarith) free)
  set x : ℕ → EuclideanSpace ℝ (Fin 16) := fun n => WithLp.toLp 2 (part free (d n)) with hx
  set v : ℕ → EuclideanSpace ℝ (Fin 16) := fun n => WithLp.toLp 2 (part free (u n)) with hv
  set w : ℕ → EuclideanSpace ℝ (Fin 16) := fun n => v (n + 1) - ((1 - f / 15) • v n - web l (k / 30) free (x n)) with hw
  have xi : ∀ n i, x n i = part free (d n) i := fun _ _ => rfl
  have vi : ∀ n i, v n i = part free (u n) i := fun _ _ => rfl
  have pp : ∀ n, part free (x n) = part free (d n) := by
    intro n
    funext i
    show part free (part free (d n)) i = part free (d n) i
    unfold part
    split_ifs <;> rfl
  have wi : ∀ n i, |w n i| ≤ 3 * (1 + R) := by
    intro n i
    have e : w n i = part free (u (n + 1)) i - ((1 - f / 15) * part free (u n) i -
        part free (fun i => k / 30 * webLap l (part free (d n)) i) i) := by
      simp only [hw, PiLp.sub_apply, PiLp.smul_apply, smul_eq_mul, web_apply, pp, vi]
    rw [e]
    by_cases hi : free i
    · have b0 : ∀ g : Idx → ℝ, part free g i = g i := fun g => if_pos hi
      rw [b0 (u (n + 1)), b0 (u n), b0 fun i => k / 30 * webLap l (part free (d n)) i, H.velFree n i hi]
      have b1 := webForce_near hd hk.le (y := part free (d n)) hR hr i
      set F := webForce l k (fun z => ground (part free (d n)) z.b - ground (part free (d n)) z.a + r z) i with hF
      have b3 : |eulerVelocity 1 f mass (u n i) F - (u n i + (F - f * u n i) / 15)| ≤ 1 / 10 := by
        rw [newVelocity_eq]
        exact newVelocity_near f (u n i) F
      have b4 : 2 * k * (1 + R) ≤ 20 * (1 + R) := mul_le_mul_of_nonneg_right (by linarith) (by positivity)
      rw [abs_le] at b1 b3 ⊢
      constructor <;> linarith [b1.1, b1.2, b3.1, b3.2]
    · have b0 : ∀ g : Idx → ℝ, part free g i = 0 := fun g => if_neg hi
      rw [b0, b0, b0]
      norm_num
      linarith
  have hW : ∀ n, ‖w n‖ ≤ 12 * (1 + R) := fun n => (norm_le_of_coords (by positivity) (wi n)).trans (by linarith)
  have key := hO x v w (12 * (1 + R)) hW (fun k => by simp only [hw]; abel) (fun n => by
    ext i
    simp only [PiLp.add_apply, PiLp.smul_apply, smul_eq_mul, xi, vi, part]
    split_ifs with hi
    · rw [H.posFree n i hi]
      ring
    · ring)
  set M := C * ((‖x 0‖ ^ 2 + ‖v 0‖ ^ 2) + (12 * (1 + R)) ^ 2) with hM
  have big : ∀ n, C * (τ ^ n * (‖x 0‖ ^ 2 + ‖v 0‖ ^ 2) + (12 * (1 + R)) ^ 2) ≤ M := by
    intro n
    refine mul_le_mul_of_nonneg_left ?_ C0
    have := mul_le_mul_of_nonneg_right (pow_le_one₀ t0 t1.le : τ ^ n ≤ 1) (by positivity : 0 ≤ ‖x 0‖ ^ 2 + ‖v 0‖ ^ 2)
    linarith
  refine ⟨Real.sqrt M, Real.sqrt_nonneg _, fun n => ⟨fun i hi => ?_, fun z hz => ?_⟩⟩
  · have e : u n i = v n i := by
      rw [vi]
      exact (if_pos hi).symm
    have : v n i ^ 2 ≤ ‖v n‖ ^ 2 := by
      rw [← sq_abs]
      exact pow_le_pow_left₀ (abs_nonneg _) (coord_le_norm _ i) 2
    rw [e]
    exact Real.abs_le_sqrt (this.trans ((key n).1.trans (big n)))
  · have := (key n).2 (webStretch free z) (fun y hy => webStretch_zero hc free hz hy) (fun y hy => webStretch_le free z hy)
    have e : webStretch free z (x n) = ground (part free (d n)) z.b - ground (part free (d n)) z.a := by
      show ground (part free (x n)) z.b - ground (part free (x n)) z.a = _
      rw [pp]
    rw [e] at this
    exact Real.abs_le_sqrt (this.trans (big n))

/-! ## The model -/

/-- What pinned ends add, in one coordinate. -/
noncomputable def fixedAt (c : Pt → ℝ) (e : Env) (q : Phys) : Node → ℝ
  | .mesh i => if e.locks i > 0 then c (q.pos i) else 0
  | .anchor h => c (e.apos h)

theorem fixed_ground {c : Pt → ℝ} {e : Env} {q : Phys} (n : ℕ) (z : Node) :
    c (e.at_ (settleIter e q n).pos z) =
      ground (part (fun i => ¬ e.locks i > 0) fun i => c ((settleIter e q n).pos i)) z + fixedAt c e q z := by
  cases z with
  | anchor h => simp [Env.at_, ground, fixedAt]
  | mesh i =>
    simp only [Env.at_, ground, fixedAt, part]
    by_cases hi : e.locks i > 0
    · rw [if_neg (not_not.2 hi), if_pos hi, (settleIter_locked e q hi n).1, zero_add]
    · rw [if_pos hi, if_neg hi, add_zero]

theorem webMoves_mesh (e : Env) (q : Phys) :
    WebMoves e.springs e.k e.friction (fun i => ¬ e.locks i > 0)
      (fun z => fixedAt Pt.x e q z.b - fixedAt Pt.x e q z.a - z.desired.x)
      (fun n i => ((settleIter e q n).pos i).x) (fun n i => ((settleIter e q n).vel i).x) ∧
    WebMoves e.springs e.k e.friction (fun i => ¬ e.locks i > 0)
      (fun z => fixedAt Pt.y e q z.b - fixedAt Pt.y e q z.a - z.desired.y)
      (fun n i => ((settleIter e q n).pos i).y) (fun n i => ((settleIter e q n).vel i).y) := by
  have forces : ∀ n i, ((calculateForces e.k (e.at_ (settleIter e q n).pos) e.springs).1 (.mesh i)).x =
      webForce e.springs e.k (fun z => (deviation (e.at_ (settleIter e q n).pos) z).x) i ∧
      ((calculateForces e.k (e.at_ (settleIter e q n).pos) e.springs).1 (.mesh i)).y =
      webForce e.springs e.k (fun z => (deviation (e.at_ (settleIter e q n).pos) z).y) i := by
    intro n i
    rw [calculateForces_force, sum_x, sum_y, List.map_map, List.map_map]
    unfold webForce
    constructor
    · congr 1
      refine List.map_congr_left fun z _ => ?_
      show (contribution _ _ _ _).x = _
      unfold contribution pullPt
      rw [Pt.sub_x]
      congr 1 <;> split_ifs <;> rfl
    · congr 1
      refine List.map_congr_left fun z _ => ?_
      show (contribution _ _ _ _).y = _
      unfold contribution pullPt
      rw [Pt.sub_y]
      congr 1 <;> split_ifs <;> rfl
  have hf : ∀ n i, ¬ e.locks i > 0 → (settleIter e q (n + 1)).vel i =
      ⟨eulerVelocity 1 e.friction mass ((settleIter e q n).vel i).x
        (webForce e.springs e.k (fun z => (deviation (e.at_ (settleIter e q n).pos) z).x) i),
       eulerVelocity 1 e.friction mass ((settleIter e q n).vel i).y
        (webForce e.springs e.k (fun z => (deviation (e.at_ (settleIter e q n).pos) z).y) i)⟩ ∧
      (settleIter e q (n + 1)).pos i = ⟨((settleIter e q n).pos i).x + ((settleIter e q (n + 1)).vel i).x / 2,
        ((settleIter e q n).pos i).y + ((settleIter e q (n + 1)).vel i).y / 2⟩ := by
    intro n i hi
    obtain ⟨f1, f2⟩ := forces n i
    rw [settleIter_succ]
    simp only [springStep, anchoredIntegration, if_neg hi, eulerIntegrate]
    rw [f1, f2]
    refine ⟨rfl, ?_⟩
    ext <;> simp <;> ring
  refine ⟨⟨fun n i hi => ?_, fun n i hi => ?_⟩, ⟨fun n i hi => ?_, fun n i hi => ?_⟩⟩
  · rw [(hf n i hi).1]
    simp only
    congr 2
    funext z
    simp only [deviation]
    rw [fixed_ground (c := Pt.x) n z.a, fixed_ground (c := Pt.x) n z.b]
    ring
  · rw [(hf n i hi).2]
  · rw [(hf n i hi).1]
    simp only
    congr 2
    funext z
    simp only [deviation]
    rw [fixed_ground (c := Pt.y) n z.a, fixed_ground (c := Pt.y) n z.b]
    ring
  · rw [(hf n i hi).2]

/-- One coordinate of a mesh with whatever anchors, over all ticks. -/
theorem web_held {b : ℕ} {s : State} (hs : Inv b s) (hw : Web s) (hk : 0 < s.settings.springConstant)
    (hk' : s.settings.springConstant ≤ 10) (hf : 0 < s.settings.friction) (hf' : s.settings.friction ≤ 10) {c : Pt → ℝ}
    {ln : Spring → ℝ} (c0 : c 0 = 0)
    (H : WebMoves s.env.springs s.env.k s.env.friction (fun i => ¬ s.env.locks i > 0)
      (fun z => fixedAt c s.env ⟨s.pos, s.vel⟩ z.b - fixedAt c s.env ⟨s.pos, s.vel⟩ z.a - ln z)
      (fun n i => c ((settleIter s.env ⟨s.pos, s.vel⟩ n).pos i))
      (fun n i => c ((settleIter s.env ⟨s.pos, s.vel⟩ n).vel i))) :
    ∃ B, 0 ≤ B ∧ ∀ n i, |c ((settleIter s.env ⟨s.pos, s.vel⟩ n).vel i)| ≤ B ∧
      (∀ j, |c ((settleIter s.env ⟨s.pos, s.vel⟩ n).pos i) - c ((settleIter s.env ⟨s.pos, s.vel⟩ n).pos j)| ≤ B) ∧
      (s.live ≠ [] → |c ((settleIter s.env ⟨s.pos, s.vel⟩ n).pos i) - c (s.pos i)| ≤ B) := by
  obtain ⟨R, hR0, hR⟩ := exists_bound s.springs
    (fun z => |fixedAt c s.env ⟨s.pos, s.vel⟩ z.b - fixedAt c s.env ⟨s.pos, s.vel⟩ z.a - ln z|)
  obtain ⟨E, hE0, hE⟩ := web_bounded (hw.degree hs) hk hk' hf hf' hR0 hR H
  set q : Phys := ⟨s.pos, s.vel⟩ with hq
  set e := s.env with he
  -- Off the pinned points, by how much.
  set Y : ℕ → Idx → ℝ := fun n => part (fun i => ¬ e.locks i > 0) fun i => c ((settleIter e q n).pos i) with hY
  have hpos : ∀ n i, c ((settleIter e q n).pos i) = Y n i + fixedAt c e q (.mesh i) := fun n i =>
    fixed_ground n (.mesh i)
  have htied : ∀ n i, TiedTo s i → |Y n i| ≤ E := by
    rintro n i ⟨z, hz, ha, hb⟩
    have k := (hE n).2 z hz
    rw [hb] at k
    cases hza : z.a with
    | mesh j => exact absurd (by rw [hza]; trivial) ha
    | anchor j =>
      rw [hza] at k
      exact (sub_zero (Y n i)) ▸ k
  have hedge : ∀ n, ∀ z ∈ baseEdges, |Y n z.2.1 - Y n z.1| ≤ 2 * E := by
    intro n z hz
    rcases hw.edges hs hz with ⟨y, hy, ha, hb⟩ | ⟨h1, h2⟩
    · have k := (hE n).2 y hy
      rw [ha, hb] at k
      exact (show |Y n z.2.1 - Y n z.1| ≤ E from k).trans (by linarith)
    · have k1 := htied n _ h1
      have k2 := htied n _ h2
      rw [abs_le] at k1 k2 ⊢
      constructor <;> linarith [k1.1, k1.2, k2.1, k2.2]
  have hYY : ∀ n i j, |Y n i - Y n j| ≤ 24 * E := fun n i j => (connected (hedge n) i j).trans (by linarith)
  obtain ⟨F, hF0, hF⟩ : ∃ F, 0 ≤ F ∧ ∀ i, |fixedAt c e q (.mesh i)| ≤ F :=
    ⟨∑ i, |fixedAt c e q (.mesh i)|, Finset.sum_nonneg fun i _ => abs_nonneg _, fun i =>
      Finset.single_le_sum (f := fun i => |fixedAt c e q (.mesh i)|) (fun i _ => abs_nonneg _) (Finset.mem_univ i)⟩
  obtain ⟨V, hV0, hV⟩ : ∃ V, 0 ≤ V ∧ ∀ i, |c (s.vel i)| ≤ V :=
    ⟨∑ i, |c (s.vel i)|, Finset.sum_nonneg fun i _ => abs_nonneg _, fun i =>
      Finset.single_le_sum (f := fun i => |c (s.vel i)|) (fun i _ => abs_nonneg _) (Finset.mem_univ i)⟩
  refine ⟨50 * E + 2 * F + V, by positivity, fun n i => ⟨?_, fun j => ?_, fun hl => ?_⟩⟩
  · by_cases hi : e.locks i > 0
    · rcases Nat.eq_zero_or_pos n with rfl | hn
      · have := hV i
        change |c (s.vel i)| ≤ _
        linarith
      · rw [(settleIter_locked e q hi n).2 hn.ne', c0, abs_zero]
        positivity
    · have := (hE n).1 i hi
      linarith
  · rw [hpos, hpos]
    have k := hYY n i j
    have k1 := hF i
    have k2 := hF j
    rw [abs_le] at k k1 k2 ⊢
    constructor <;> linarith [k.1, k.2, k1.1, k1.2, k2.1, k2.2]
  · have base : ∀ n, ∃ j, |Y n j| ≤ E := by
      intro n
      obtain ⟨a, ha⟩ := List.exists_mem_of_ne_nil _ hl
      by_cases hi : IsInserted a
      · obtain ⟨j, hj⟩ := hw.some_tied hs ha hi
        exact ⟨j, htied n j hj⟩
      · cases hkk : a.kind with
        | ins p st f g => exact absurd ⟨p, st, f, g, hkk⟩ hi
        | grab j =>
          have hlock : e.locks j > 0 := by
            change s.locks j > 0
            rw [hs.locks, grabs, gt_iff_lt, List.countP_pos_iff]
            exact ⟨a, ha, by rw [hkk]; simp [Kind.isGrab]⟩
          refine ⟨j, ?_⟩
          have : Y n j = 0 := by simp only [hY, part, not_not.2 hlock, if_false]
          rw [this, abs_zero]
          exact hE0
    have hall : ∀ n, |Y n i| ≤ 25 * E := by
      intro n
      obtain ⟨j, hj⟩ := base n
      have k := hYY n i j
      rw [abs_le] at hj k ⊢
      constructor <;> linarith [k.1, k.2, hj.1, hj.2]
    have h0 := hpos 0 i
    change c (s.pos i) = _ at h0
    rw [hpos, h0]
    have k1 := hall n
    have k2 := hall 0
    rw [abs_le] at k1 k2 ⊢
    constructor <;> linarith [k1.1, k1.2, k2.1, k2.2]

end Verif.Wobbly
