import Verif.Lemmas.WobblyTied

/-! # Oscillators that are pushed about, and a mesh whose anchors move (for C137) -/

namespace Verif.Wobbly

open Spec Outcome Classical Props
open scoped InnerProductSpace

/-! ## Oscillators -/

section

variable {n : ℕ} (T : EuclideanSpace ℝ (Fin n) →ₗ[ℝ] EuclideanSpace ℝ (Fin n)) (γ W : ℝ) (x0 v0 : EuclideanSpace ℝ (Fin n))

/-- Where coupled oscillators get to from `x0` and `v0`, pushed by at most `W` in every tick. -/
inductive Swings : EuclideanSpace ℝ (Fin n) → EuclideanSpace ℝ (Fin n) → Prop
  | start : Swings x0 v0
  | tick {x v w v' : EuclideanSpace ℝ (Fin n)} (h : Swings x v) (hw : ‖w‖ ≤ W) (hv : v' = (1 - γ) • v - T x + w) :
      Swings (x + (1 / 2 : ℝ) • v') v'

/-- The same with the pushes given. -/
noncomputable def orbit (w : ℕ → EuclideanSpace ℝ (Fin n)) : ℕ → EuclideanSpace ℝ (Fin n) × EuclideanSpace ℝ (Fin n)
  | 0 => (x0, v0)
  | m + 1 =>
    let q := orbit w m
    (q.1 + (1 / 2 : ℝ) • ((1 - γ) • q.2 - T q.1 + w m), (1 - γ) • q.2 - T q.1 + w m)

variable {T γ W x0 v0}

theorem orbit_congr {w w' : ℕ → EuclideanSpace ℝ (Fin n)} {m : ℕ} (h : ∀ k < m, w k = w' k) :
    orbit T γ x0 v0 w m = orbit T γ x0 v0 w' m := by
  induction m with
  | zero => rfl
  | succ m ih =>
    simp only [orbit]
    rw [ih fun k hk => h k (by omega), h m (by omega)]

theorem Swings.orbit {x v : EuclideanSpace ℝ (Fin n)} (hW : 0 ≤ W) (h : Swings T γ W x0 v0 x v) :
    ∃ w m, (∀ k, ‖w k‖ ≤ W) ∧ orbit T γ x0 v0 w m = (x, v) := by
  induction h with
  | start => exact ⟨fun _ => 0, 0, fun _ => by simpa using hW, rfl⟩
  | @tick x v u v' h hu hv ih =>
    obtain ⟨w, m, hw, ho⟩ := ih
    refine ⟨fun k => if k = m then u else w k, m + 1, fun k => ?_, ?_⟩
    · dsimp only
      split_ifs
      · exact hu
      · exact hw k
    · have : Wobbly.orbit T γ x0 v0 (fun k => if k = m then u else w k) m = (x, v) := by
        rw [← ho]
        exact orbit_congr fun k hk => if_neg (by omega)
      simp only [Wobbly.orbit, this, if_true]
      rw [hv]

theorem swings_bounded (hn : 0 < n) (hT : T.IsSymmetric) (h0 : 0 < γ) (h1 : γ ≤ 2 / 3) (hp : ∀ x, 0 ≤ ⟪T x, x⟫_ℝ)
    (hu : ∀ x, ⟪T x, x⟫_ℝ ≤ 8 / 3 * ‖x‖ ^ 2) :
    ∃ C : ℝ, 0 ≤ C ∧ ∀ W x0 v0 x v, 0 ≤ W → Swings T γ W x0 v0 x v →
      ‖v‖ ^ 2 ≤ C * (‖x0‖ ^ 2 + ‖v0‖ ^ 2 + W ^ 2) ∧
      ∀ φ : EuclideanSpace ℝ (Fin n) →ₗ[ℝ] ℝ, (∀ y, T y = 0 → φ y = 0) → (∀ y, ‖y‖ = 1 → |φ y| ≤ 2) →
        φ x ^ 2 ≤ C * (‖x0‖ ^ 2 + ‖v0‖ ^ 2 + W ^ 2) := by
  obtain ⟨C, τ, C0, t0, t1, hO⟩ := oscillators hn T hT h0 h1 hp hu
  refine ⟨C, C0, fun W x0 v0 x v hW hS => ?_⟩
  obtain ⟨w, m, hw, ho⟩ := hS.orbit hW
  have key := hO (fun k => (orbit T γ x0 v0 w k).1) (fun k => (orbit T γ x0 v0 w k).2) w W hw (fun k => rfl) (fun k => rfl) m
  simp only [ho] at key
  have big : C * (τ ^ m * (‖x0‖ ^ 2 + ‖v0‖ ^ 2) + W ^ 2) ≤ C * (‖x0‖ ^ 2 + ‖v0‖ ^ 2 + W ^ 2) := by
    refine mul_le_mul_of_nonneg_left ?_ C0
    have := mul_le_mul_of_nonneg_right (pow_le_one₀ t0 t1.le : τ ^ m ≤ 1) (by positivity : 0 ≤ ‖x0‖ ^ 2 + ‖v0‖ ^ 2)
    linarith
  exact ⟨key.1.trans big, fun φ h1 h2 => (key.2 φ h1 h2).trans big⟩

end

/-! ## One coordinate of a mesh -/

/-- The points that are free, in one coordinate. -/
noncomputable def sway (free : Idx → Prop) (g : Idx → ℝ) : EuclideanSpace ℝ (Fin 16) := WithLp.toLp 2 (part free g)

variable {l : List Spring}

theorem web_tick (hd : ∀ i, (l.map (endsAt i)).sum ≤ 4) {k f : ℝ} (hk : 0 < k) (hk' : k ≤ 10)
    {free : Idx → Prop} {r : Spring → ℝ} {R : ℝ} (hR : 0 ≤ R) (hr : ∀ z ∈ l, |r z| ≤ R) {d u d' u' : Idx → ℝ}
    (hv : ∀ i, free i → u' i = eulerVelocity 1 f mass (u i)
      (webForce l k (fun z => ground (part free d) z.b - ground (part free d) z.a + r z) i))
    (hx : ∀ i, free i → d' i = d i + u' i / 2) :
    ∃ w, ‖w‖ ≤ 12 * (1 + R) ∧ sway free u' = (1 - f / 15) • sway free u - web l (k / 30) free (sway free d) + w ∧
      sway free d' = sway free d + (1 / 2 : ℝ) • sway free u' := by
  have pp : part free (sway free d) = part free d := by
    funext i
    show part free (part free d) i = part free d i
    unfold part
    split_ifs <;> rfl
  set w : EuclideanSpace ℝ (Fin 16) := sway free u' - ((1 - f / 15) • sway free u - web l (k / 30) free (sway free d)) with hw
  have wi : ∀ i, |w i| ≤ 3 * (1 + R) := by
    intro i
    have e : w i = part free u' i - ((1 - f / 15) * part free u i -
        part free (fun i => k / 30 * webLap l (part free d) i) i) := by
      simp only [hw, PiLp.sub_apply, PiLp.smul_apply, smul_eq_mul, web_apply, pp]
      rfl
    rw [e]
    by_cases hi : free i
    · have b0 : ∀ g : Idx → ℝ, part free g i = g i := fun g => if_pos hi
      rw [b0 u', b0 u, b0 fun i => k / 30 * webLap l (part free d) i, hv i hi]
      have b1 := webForce_near hd hk.le (y := part free d) hR hr i
      set F := webForce l k (fun z => ground (part free d) z.b - ground (part free d) z.a + r z) i with hF
      have b3 : |eulerVelocity 1 f mass (u i) F - (u i + (F - f * u i) / 15)| ≤ 1 / 10 := by
        rw [newVelocity_eq]
        exact newVelocity_near f (u i) F
      have b4 : 2 * k * (1 + R) ≤ 20 * (1 + R) := mul_le_mul_of_nonneg_right (by linarith) (by positivity)
      rw [abs_le] at b1 b3 ⊢
      constructor <;> linarith [b1.1, b1.2, b3.1, b3.2]
    · have b0 : ∀ g : Idx → ℝ, part free g i = 0 := fun g => if_neg hi
      rw [b0, b0, b0]
      norm_num
      linarith
  refine ⟨w, (norm_le_of_coords (by positivity) wi).trans (by linarith), by simp only [hw]; abel, ?_⟩
  ext i
  simp only [PiLp.add_apply, PiLp.smul_apply, smul_eq_mul]
  show part free d' i = part free d i + 1 / 2 * part free u' i
  unfold part
  split_ifs with hi
  · rw [hx i hi]
    ring
  · ring

/-- Ticks with anchors that stay where they are. -/
theorem WebMoves.swings (hd : ∀ i, (l.map (endsAt i)).sum ≤ 4) {k f : ℝ} (hk : 0 < k) (hk' : k ≤ 10) {free : Idx → Prop}
    {r : Spring → ℝ} {R : ℝ} (hR : 0 ≤ R) (hr : ∀ z ∈ l, |r z| ≤ R) {d u : ℕ → Idx → ℝ} (H : WebMoves l k f free r d u)
    {x0 v0 : EuclideanSpace ℝ (Fin 16)}
    (h : Swings (web l (k / 30) free) (f / 15) (12 * (1 + R)) x0 v0 (sway free (d 0)) (sway free (u 0))) (n : ℕ) :
    Swings (web l (k / 30) free) (f / 15) (12 * (1 + R)) x0 v0 (sway free (d n)) (sway free (u n)) := by
  induction n with
  | zero => exact h
  | succ n ih =>
    obtain ⟨w, h1, h2, h3⟩ := web_tick hd hk hk' hR hr (H.velFree n) (H.posFree n)
    rw [h3]
    exact ih.tick h1 h2

/-- How fast free points are and how far springs stretch. -/
theorem swings_web (hd : ∀ i, (l.map (endsAt i)).sum ≤ 4) {k f : ℝ} (hk : 0 < k) (hk' : k ≤ 10) (hf : 0 < f) (hf' : f ≤ 10)
    (free : Idx → Prop) {R : ℝ} (hR : 0 ≤ R) (x0 v0 : EuclideanSpace ℝ (Fin 16)) :
    ∃ E, 0 ≤ E ∧ ∀ d u : Idx → ℝ,
      Swings (web l (k / 30) free) (f / 15) (12 * (1 + R)) x0 v0 (sway free d) (sway free u) →
      (∀ i, free i → |u i| ≤ E) ∧ ∀ z ∈ l, |ground (part free d) z.b - ground (part free d) z.a| ≤ E := by
  have hc : 0 < k / 30 := by positivity
  obtain ⟨C, C0, hO⟩ := swings_bounded (T := web l (k / 30) free) (γ := f / 15) (by norm_num) (web_symmetric _ _)
    (by positivity) (by linarith) (web_nonneg hc.le free) (web_le hd hc.le (by linarith) free)
  refine ⟨Real.sqrt (C * (‖x0‖ ^ 2 + ‖v0‖ ^ 2 + (12 * (1 + R)) ^ 2)), Real.sqrt_nonneg _, fun d u hS => ?_⟩
  obtain ⟨k1, k2⟩ := hO _ _ _ _ _ (by positivity) hS
  refine ⟨fun i hi => ?_, fun z hz => ?_⟩
  · have e : u i = (sway free u) i := (if_pos hi : part free u i = u i).symm
    have : (sway free u) i ^ 2 ≤ ‖sway free u‖ ^ 2 := by
      rw [← sq_abs]
      exact pow_le_pow_left₀ (abs_nonneg _) (coord_le_norm _ i) 2
    rw [e]
    exact Real.abs_le_sqrt (this.trans k1)
  · have := k2 (webStretch free z) (fun y hy => webStretch_zero hc free hz hy) (fun y hy => webStretch_le free z hy)
    have e : webStretch free z (sway free d) = ground (part free d) z.b - ground (part free d) z.a := by
      have pp : part free (sway free d) = part free d := by
        funext i
        show part free (part free d) i = part free d i
        unfold part
        split_ifs <;> rfl
      show ground (part free (sway free d)) z.b - ground (part free (sway free d)) z.a = _
      rw [pp]
    rw [e] at this
    exact Real.abs_le_sqrt this

/-- Springs that stretch little hold the mesh together. -/
theorem web_spread {b : ℕ} {s : State} (hs : Inv b s) (hw : Web s) {E : ℝ} (hE0 : 0 ≤ E) {Y : Idx → ℝ}
    (hY : ∀ i, s.locks i > 0 → Y i = 0) (hE : ∀ z ∈ s.springs, |ground Y z.b - ground Y z.a| ≤ E) :
    (∀ i j, |Y i - Y j| ≤ 24 * E) ∧ (s.live ≠ [] → ∀ i, |Y i| ≤ 25 * E) := by
  have htied : ∀ i, TiedTo s i → |Y i| ≤ E := by
    rintro i ⟨z, hz, ha, hb⟩
    have k := hE z hz
    rw [hb] at k
    cases hza : z.a with
    | mesh j => exact absurd (by rw [hza]; trivial) ha
    | anchor j =>
      rw [hza] at k
      exact (sub_zero (Y i)) ▸ k
  have hedge : ∀ z ∈ baseEdges, |Y z.2.1 - Y z.1| ≤ 2 * E := by
    intro z hz
    rcases hw.edges hs hz with ⟨y, hy, ha, hb⟩ | ⟨h1, h2⟩
    · have k := hE y hy
      rw [ha, hb] at k
      exact (show |Y z.2.1 - Y z.1| ≤ E from k).trans (by linarith)
    · have k1 := htied _ h1
      have k2 := htied _ h2
      rw [abs_le] at k1 k2 ⊢
      constructor <;> linarith [k1.1, k1.2, k2.1, k2.2]
  have hYY : ∀ i j, |Y i - Y j| ≤ 24 * E := fun i j => (connected hedge i j).trans (by linarith)
  refine ⟨hYY, fun hl i => ?_⟩
  have base : ∃ j, |Y j| ≤ E := by
    obtain ⟨a, ha⟩ := List.exists_mem_of_ne_nil _ hl
    by_cases hi : IsInserted a
    · obtain ⟨j, hj⟩ := hw.some_tied hs ha hi
      exact ⟨j, htied j hj⟩
    · cases hkk : a.kind with
      | ins p st f g => exact absurd ⟨p, st, f, g, hkk⟩ hi
      | grab j =>
        have hlock : s.locks j > 0 := by
          rw [hs.locks, grabs, gt_iff_lt, List.countP_pos_iff]
          exact ⟨a, ha, by rw [hkk]; simp [Kind.isGrab]⟩
        exact ⟨j, by rw [hY j hlock, abs_zero]; exact hE0⟩
  obtain ⟨j, hj⟩ := base
  have k := hYY i j
  rw [abs_le] at hj k ⊢
  constructor <;> linarith [k.1, k.2, hj.1, hj.2]

theorem webMoves_axis {c : Pt → ℝ} (hc : c = Pt.x ∨ c = Pt.y) (e : Env) (q : Phys) :
    WebMoves e.springs e.k e.friction (fun i => ¬ e.locks i > 0)
      (fun z => fixedAt c e q z.b - fixedAt c e q z.a - c z.desired)
      (fun n i => c ((settleIter e q n).pos i)) (fun n i => c ((settleIter e q n).vel i)) := by
  rcases hc with rfl | rfl
  · exact (webMoves_mesh e q).1
  · exact (webMoves_mesh e q).2

end Verif.Wobbly
