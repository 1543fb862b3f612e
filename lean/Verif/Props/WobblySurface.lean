import Verif.Lemmas.WobblySurface
import Verif.Props.WobblyBounded
import Verif.Props.WobblySteps

/-! # The surface of a wobbly model follows its mesh and does not fold (C118) -/

namespace Verif.Props

open Wobbly Spec Outcome Classical

noncomputable section

theorem euclid_le {p q : Pt} {D : ℝ} (hD : 0 ≤ D) : euclid p q ≤ D ↔ (p.x - q.x) ^ 2 + (p.y - q.y) ^ 2 ≤ D ^ 2 := by
  unfold euclid
  exact Real.sqrt_le_left hD

/-- **C118.** If no mesh point moves further than `δ`, no place of the texture does. -/
theorem C118_follows {m m' : Mesh} {δ : ℝ} (h : ∀ i, euclid (m i) (m' i) ≤ δ) {uv : Pt} (hu : InSquare uv) :
    euclid (deformTexcoords m uv) (deformTexcoords m' uv) ≤ δ := by
  have hδ : 0 ≤ δ := (Real.sqrt_nonneg _).trans (h 0)
  rw [euclid_le hδ, deform_eq, deform_eq]
  have k := combine_le (w := weight uv) (x := fun i => (m i).x - (m' i).x) (y := fun i => (m i).y - (m' i).y)
    (fun i => mul_nonneg (coeff_nonneg hu.1.1 hu.1.2 _) (coeff_nonneg hu.2.1 hu.2.2 _))
    (fun i => (euclid_le hδ).1 (h i))
  rw [weight_sum, one_mul] at k
  simpa only [mul_sub, Finset.sum_sub_distrib] using k

/-- One point of the mesh moved by five pixels: no place of the texture moves by more. -/
example (i : Idx) : euclid (demo.pos i) (Function.update demo.pos 5 ⟨103, 104⟩ i) ≤ 5 := by
  rw [euclid_le (by norm_num)]
  by_cases h : i = 5
  · rw [h, Function.update_self, demo_pos]
    norm_num [col, row]
  · rw [Function.update_of_ne h]
    norm_num

/-- **C118.** The borders of the texture go by the outer rows and columns of the mesh alone. -/
theorem C118_borders (m m' : Mesh) (t : ℝ) :
    ((∀ i : Idx, i.val / 4 = 0 → m i = m' i) → deformTexcoords m ⟨0, t⟩ = deformTexcoords m' ⟨0, t⟩) ∧
    ((∀ i : Idx, i.val / 4 = 3 → m i = m' i) → deformTexcoords m ⟨1, t⟩ = deformTexcoords m' ⟨1, t⟩) ∧
    ((∀ i : Idx, i.val % 4 = 0 → m i = m' i) → deformTexcoords m ⟨t, 0⟩ = deformTexcoords m' ⟨t, 0⟩) ∧
    ((∀ i : Idx, i.val % 4 = 3 → m i = m' i) → deformTexcoords m ⟨t, 1⟩ = deformTexcoords m' ⟨t, 1⟩) := by
  have key : ∀ (uv : Pt) (P : Idx → Prop), (∀ i, ¬ P i → weight uv i = 0) → (∀ i, P i → m i = m' i) →
      deformTexcoords m uv = deformTexcoords m' uv := by
    intro uv P h0 hm
    rw [deform_eq, deform_eq]
    have q : ∀ g : Pt → ℝ, ∑ i, weight uv i * g (m i) = ∑ i, weight uv i * g (m' i) := by
      intro g
      refine Finset.sum_congr rfl fun i _ => ?_
      by_cases hi : P i
      · rw [hm i hi]
      · rw [h0 i hi, zero_mul, zero_mul]
    rw [q Pt.x, q Pt.y]
  have z0 : ∀ n, n < 4 → n ≠ 0 → bezierCoeff 0 n = 0 := by
    intro n h1 h2
    obtain rfl | rfl | rfl : n = 1 ∨ n = 2 ∨ n = 3 := by omega
    all_goals simp [bezierCoeff]
  have z1 : ∀ n, n < 4 → n ≠ 3 → bezierCoeff 1 n = 0 := by
    intro n h1 h2
    obtain rfl | rfl | rfl : n = 0 ∨ n = 1 ∨ n = 2 := by omega
    all_goals simp [bezierCoeff]
  have r4 : ∀ i : Idx, row i < 4 := fun i => by unfold row; omega
  have c4 : ∀ i : Idx, col i < 4 := fun i => by unfold col; omega
  refine ⟨fun h => key _ _ (fun i hi => ?_) h, fun h => key _ _ (fun i hi => ?_) h,
    fun h => key _ _ (fun i hi => ?_) h, fun h => key _ _ (fun i hi => ?_) h⟩
  · exact mul_eq_zero_of_left (z0 _ (r4 i) hi) _
  · exact mul_eq_zero_of_left (z1 _ (r4 i) hi) _
  · exact mul_eq_zero_of_right _ (z0 _ (c4 i) hi)
  · exact mul_eq_zero_of_right _ (z1 _ (c4 i) hi)

/-- Moving an inner point leaves all four borders alone. -/
example (i : Idx) (h : i.val / 4 = 0) : demo.pos i = Function.update demo.pos 5 ⟨103, 104⟩ i := by
  rw [Function.update_of_ne]
  rintro rfl
  norm_num at h

/-- **C118.** Turning, stretching, shearing and moving the mesh does the same to the surface. -/
theorem C118_affine (m : Mesh) (a b c d e f : ℝ) (uv : Pt) :
    deformTexcoords (fun i => ⟨a * (m i).x + b * (m i).y + c, d * (m i).x + e * (m i).y + f⟩) uv =
      ⟨a * (deformTexcoords m uv).x + b * (deformTexcoords m uv).y + c,
        d * (deformTexcoords m uv).x + e * (deformTexcoords m uv).y + f⟩ := by
  have key : ∀ a b c : ℝ, ∑ i, weight uv i * (a * (m i).x + b * (m i).y + c) =
      a * ∑ i, weight uv i * (m i).x + b * ∑ i, weight uv i * (m i).y + c := by
    intro a b c
    have hs := weight_sum uv
    calc ∑ i, weight uv i * (a * (m i).x + b * (m i).y + c)
        = ∑ i, (a * (weight uv i * (m i).x) + b * (weight uv i * (m i).y) + weight uv i * c) :=
          Finset.sum_congr rfl fun i _ => by ring
      _ = _ := by
          rw [Finset.sum_add_distrib, Finset.sum_add_distrib, ← Finset.mul_sum, ← Finset.mul_sum, ← Finset.sum_mul,
            hs, one_mul]
  simp only [deform_eq, key]

/-- **C118.** Along a row the surface moves on by at most three times the longest distance between neighbours in a
row, per unit of the second texture coordinate. -/
theorem C118_rate_in_rows {m : Mesh} {D : ℝ} (h : ∀ i j, NextInRow i j → euclid (m i) (m j) ≤ D) {u s t : ℝ}
    (hs : InSquare ⟨u, s⟩) (ht : InSquare ⟨u, t⟩) :
    euclid (deformTexcoords m ⟨u, s⟩) (deformTexcoords m ⟨u, t⟩) ≤ 3 * D * |t - s| := by
  have hD : 0 ≤ D := (Real.sqrt_nonneg _).trans (h _ _ (next_row 0))
  rw [euclid_le (by positivity), deform_eq, deform_eq]
  have k := combine_le (w := portion u s t) (x := fun k => (m (rightOf k)).x - (m (leftOf k)).x)
    (y := fun k => (m (rightOf k)).y - (m (leftOf k)).y) (D := D) (portion_nonneg hs.1 hs.2 ht.2) (fun k => by
      have := (euclid_le hD).1 (h _ _ (next_row k))
      nlinarith)
  rw [portion_sum] at k
  have hx := along_rows (fun i => (m i).x) u s t
  have hy := along_rows (fun i => (m i).y) u s t
  have e : (3 * D * |t - s|) ^ 2 = (t - s) ^ 2 * (3 * D) ^ 2 := by rw [mul_pow, sq_abs]; ring
  rw [e]
  have k' := mul_le_mul_of_nonneg_left k (sq_nonneg (t - s))
  dsimp only at hx hy ⊢
  have q : ∀ a b c : ℝ, b - a = c → (a - b) ^ 2 = c ^ 2 := by rintro a b c rfl; ring
  rw [q _ _ _ hx, q _ _ _ hy]
  linarith

example (i j : Idx) (h : NextInRow i j) : euclid (demo.pos i) (demo.pos j) ≤ 100 := by
  have h1 : row j = row i := h.1
  have h2 : col j = col i + 1 := h.2
  rw [euclid_le (by norm_num), demo_pos, demo_pos, h1, h2]
  push_cast
  nlinarith

/-- **C118.** The same along a column. -/
theorem C118_rate_in_columns {m : Mesh} {D : ℝ} (h : ∀ i j, NextInColumn i j → euclid (m i) (m j) ≤ D) {v s t : ℝ}
    (hs : InSquare ⟨s, v⟩) (ht : InSquare ⟨t, v⟩) :
    euclid (deformTexcoords m ⟨s, v⟩) (deformTexcoords m ⟨t, v⟩) ≤ 3 * D * |t - s| := by
  have hD : 0 ≤ D := (Real.sqrt_nonneg _).trans (h _ _ (next_column 0))
  rw [euclid_le (by positivity), deform_eq, deform_eq]
  have k := combine_le (w := portion v s t) (x := fun k => (m (lowerOf k)).x - (m (upperOf k)).x)
    (y := fun k => (m (lowerOf k)).y - (m (upperOf k)).y) (D := D) (portion_nonneg hs.2 hs.1 ht.1) (fun k => by
      have := (euclid_le hD).1 (h _ _ (next_column k))
      nlinarith)
  rw [portion_sum] at k
  have hx := along_columns (fun i => (m i).x) v s t
  have hy := along_columns (fun i => (m i).y) v s t
  have e : (3 * D * |t - s|) ^ 2 = (t - s) ^ 2 * (3 * D) ^ 2 := by rw [mul_pow, sq_abs]; ring
  rw [e]
  have k' := mul_le_mul_of_nonneg_left k (sq_nonneg (t - s))
  dsimp only at hx hy ⊢
  have q : ∀ a b c : ℝ, b - a = c → (a - b) ^ 2 = c ^ 2 := by rintro a b c rfl; ring
  rw [q _ _ _ hx, q _ _ _ hy]
  linarith

example (i j : Idx) (h : NextInColumn i j) : euclid (demo.pos i) (demo.pos j) ≤ 100 := by
  have h0 : j.val = i.val + 4 := h
  have h1 : row j = row i + 1 := by unfold row; omega
  have h2 : col j = col i := by unfold col; omega
  rw [euclid_le (by norm_num), demo_pos, demo_pos, h1, h2]
  push_cast
  nlinarith

/-- **C118.** If in each row the mesh points go from left to right, so does the texture; and if in each column they go
from top to bottom, so does the texture. -/
theorem C118_not_mirrored {m : Mesh} :
    ((∀ i j, NextInRow i j → (m i).x < (m j).x) → ∀ u s t, InSquare ⟨u, s⟩ → InSquare ⟨u, t⟩ → s < t →
      (deformTexcoords m ⟨u, s⟩).x < (deformTexcoords m ⟨u, t⟩).x) ∧
    ((∀ i j, NextInColumn i j → (m i).y < (m j).y) → ∀ v s t, InSquare ⟨s, v⟩ → InSquare ⟨t, v⟩ → s < t →
      (deformTexcoords m ⟨s, v⟩).y < (deformTexcoords m ⟨t, v⟩).y) := by
  constructor
  · intro h u s t hs ht hst
    have hx := along_rows (fun i => (m i).x) u s t
    have k := combine_pos (w := portion u s t) (x := fun k => (m (rightOf k)).x - (m (leftOf k)).x)
      (portion_nonneg hs.1 hs.2 ht.2) (by rw [portion_sum]; norm_num) (fun k => by linarith [h _ _ (next_row k)])
    have k' := mul_pos (sub_pos.2 hst) k
    rw [deform_eq, deform_eq]
    dsimp only at hx ⊢
    linarith
  · intro h v s t hs ht hst
    have hy := along_columns (fun i => (m i).y) v s t
    have k := combine_pos (w := portion v s t) (x := fun k => (m (lowerOf k)).y - (m (upperOf k)).y)
      (portion_nonneg hs.2 hs.1 ht.1) (by rw [portion_sum]; norm_num) (fun k => by linarith [h _ _ (next_column k)])
    have k' := mul_pos (sub_pos.2 hst) k
    rw [deform_eq, deform_eq]
    dsimp only at hy ⊢
    linarith

/-- **C118.** A mesh whose points are in order never folds over: no two places of the texture are shown at the same
place. -/
theorem C118_unfolded {m : Mesh} {slope : ℝ} (hp : 0 < slope) (h : InOrder slope m) :
    Unfolded (deformTexcoords m) := by
  rintro ⟨u, v⟩ ⟨u', v'⟩ ha hb e
  rw [deform_eq, deform_eq] at e
  have ex := congrArg Pt.x e
  have ey := congrArg Pt.y e
  dsimp only [InSquare] at ha hb ex ey
  have r1 := along_rows (fun i => (m i).x) u' v v'
  have r2 := along_rows (fun i => (m i).y) u' v v'
  have c1 := along_columns (fun i => (m i).x) v u u'
  have c2 := along_columns (fun i => (m i).y) v u u'
  have wr := portion_nonneg (q := u') (s := v) (t := v') hb.1 ha.2 hb.2
  have wc := portion_nonneg (q := v) (s := u) (t := u') ha.2 ha.1 hb.1
  have pr := portion_sum u' v v'
  have pc := portion_sum v u u'
  -- the four sums
  have k1 := combine_pos (x := fun k => slope * ((m (rightOf k)).x - (m (leftOf k)).x) -
    ((m (rightOf k)).y - (m (leftOf k)).y)) wr (by rw [pr]; norm_num)
    (fun k => by linarith [h.1 _ _ (next_row k), le_abs_self ((m (rightOf k)).y - (m (leftOf k)).y)])
  have k2 := combine_pos (x := fun k => slope * ((m (rightOf k)).x - (m (leftOf k)).x) +
    ((m (rightOf k)).y - (m (leftOf k)).y)) wr (by rw [pr]; norm_num)
    (fun k => by linarith [h.1 _ _ (next_row k), neg_abs_le ((m (rightOf k)).y - (m (leftOf k)).y)])
  have k3 := combine_pos (x := fun k => ((m (lowerOf k)).y - (m (upperOf k)).y) -
    slope * ((m (lowerOf k)).x - (m (upperOf k)).x)) wc (by rw [pc]; norm_num)
    (fun k => by nlinarith [h.2 _ _ (next_column k), le_abs_self ((m (lowerOf k)).x - (m (upperOf k)).x)])
  have k4 := combine_pos (x := fun k => ((m (lowerOf k)).y - (m (upperOf k)).y) +
    slope * ((m (lowerOf k)).x - (m (upperOf k)).x)) wc (by rw [pc]; norm_num)
    (fun k => by nlinarith [h.2 _ _ (next_column k), neg_abs_le ((m (lowerOf k)).x - (m (upperOf k)).x)])
  have lin : ∀ (w : Fin 12 → ℝ) (a b : Fin 12 → ℝ) (c : ℝ), ∑ k, w k * (a k + c * b k) =
      ∑ k, w k * a k + c * ∑ k, w k * b k := by
    intro w a b c
    rw [Finset.mul_sum, ← Finset.sum_add_distrib]
    exact Finset.sum_congr rfl fun i _ => by ring
  set X := ∑ k, portion u' v v' k * ((m (rightOf k)).x - (m (leftOf k)).x)
  set Y := ∑ k, portion u' v v' k * ((m (rightOf k)).y - (m (leftOf k)).y)
  set A := ∑ k, portion v u u' k * ((m (lowerOf k)).x - (m (upperOf k)).x)
  set B := ∑ k, portion v u u' k * ((m (lowerOf k)).y - (m (upperOf k)).y)
  have q1 : 0 < slope * X - Y := by
    have := lin (portion u' v v') (fun k => -((m (rightOf k)).y - (m (leftOf k)).y))
      (fun k => (m (rightOf k)).x - (m (leftOf k)).x) slope
    simp only [mul_neg, Finset.sum_neg_distrib] at this
    have e : slope * X - Y = -Y + slope * X := by ring
    rw [e, ← this]
    simpa only [neg_add_eq_sub] using k1
  have q2 : 0 < slope * X + Y := by
    have := lin (portion u' v v') (fun k => (m (rightOf k)).y - (m (leftOf k)).y)
      (fun k => (m (rightOf k)).x - (m (leftOf k)).x) slope
    rw [add_comm, ← this]
    refine lt_of_lt_of_eq k2 (Finset.sum_congr rfl fun i _ => by ring)
  have q3 : 0 < B - slope * A := by
    have := lin (portion v u u') (fun k => (m (lowerOf k)).y - (m (upperOf k)).y)
      (fun k => (m (lowerOf k)).x - (m (upperOf k)).x) (-slope)
    rw [show B - slope * A = B + -slope * A by ring, ← this]
    refine lt_of_lt_of_eq k3 (Finset.sum_congr rfl fun i _ => by ring)
  have q4 : 0 < B + slope * A := by
    have := lin (portion v u u') (fun k => (m (lowerOf k)).y - (m (upperOf k)).y)
      (fun k => (m (lowerOf k)).x - (m (upperOf k)).x) slope
    rw [← this]
    exact k4
  have e1 : (v' - v) * X + (u' - u) * A = 0 := by linarith
  have e2 : (v' - v) * Y + (u' - u) * B = 0 := by linarith
  have hX : 0 < X := by nlinarith
  have hB : 0 < B := by nlinarith
  have det : 0 < X * B - A * Y := by
    have p1 := mul_pos q1 q4
    have p2 := mul_pos q2 q3
    nlinarith
  have hu : u' - u = 0 := by
    have : (u' - u) * (X * B - A * Y) = 0 := by linear_combination X * e2 - Y * e1
    rcases mul_eq_zero.1 this with h | h
    · exact h
    · exact absurd h det.ne'
  have hv : v' - v = 0 := by
    have : (v' - v) * (X * B - A * Y) = 0 := by linear_combination B * e1 - A * e2
    rcases mul_eq_zero.1 this with h | h
    · exact h
    · exact absurd h det.ne'
  rw [show u' = u by linarith, show v' = v by linarith]

example : InOrder 1 demo.pos := by
  constructor
  · intro i j h
    rw [demo_pos, demo_pos]
    have h1 : row j = row i := h.1
    have h2 : col j = col i + 1 := h.2
    simp only [h1, h2, sub_self, abs_zero]
    push_cast
    linarith
  · intro i j h
    rw [demo_pos, demo_pos]
    have h0 : j.val = i.val + 4 := h
    have h1 : row j = row i + 1 := by unfold row; omega
    have h2 : col j = col i := by unfold col; omega
    simp only [h1, h2, sub_self, abs_zero]
    push_cast
    linarith

variable {p : Pt} {w h : ℝ} {x : Settings} {b : ℕ} {ops more : List Op} {s s' : State} {rs rs' : List Res}

/-- **C118.** While a program owns exactly one anchor, made by `GrabAnchor` when nothing moved: with spring constant `k`,
maximum range `R` and friction `f` let `ρ = R (1 + 2 k / f)`. Whatever is dragged, moved, resized and stepped, after every
`Step` the surface of a model `w` wide and `h` high is not folded, if `6 ρ (w + h) < w h`. -/
theorem C118_drag (e : (State.new p w h x b).run ops = .ok (s, rs))
    (hr : AllAlong ResizeAllowed (State.new p w h x b) ops) (h1 : (owned [] ops rs).length = 1) (hn : NoneInserted s)
    (hk : 0 ≤ s.settings.springConstant) (hf : 0 < s.settings.friction) (hf' : s.settings.friction ≤ 15)
    (hR : 0 < s.settings.maximumRange) (hv : ∀ i, s.vel i = ⟨0, 0⟩)
    (ho : ∀ op ∈ more, KeepsAnchors op ∧ ∀ y, op ≠ .setSettings y)
    (e' : s.run more = .ok (s', rs')) (hw : 0 < s'.width) (hh : 0 < s'.height)
    (hbig : 6 * (s.settings.maximumRange * (1 + 2 * s.settings.springConstant / s.settings.friction)) *
      (s'.width + s'.height) < s'.width * s'.height) {t : ℕ} (ht : t ≠ 0) :
    ∃ s'' b, s'.exec (.step t) = .ok (s'', .more b) ∧ Unfolded (deformTexcoords s''.pos) := by
  obtain ⟨s'', c, hx, k⟩ := C110_from_rest e hr h1 hn hk hf hf' hR hv ho e' ht
  refine ⟨s'', c, hx, ?_⟩
  set ρ := s.settings.maximumRange * (1 + 2 * s.settings.springConstant / s.settings.friction) with hρ
  have hρ0 : 0 < ρ := by positivity
  have htar := (run_induction inv_exec (run_induction inv_exec (inv_new p w h x b) e) e').targets
  have hpt : ∀ i, s'.targets i = ⟨(s'.targets 0).x + col i * (s'.width / 3), (s'.targets 0).y + row i * (s'.height / 3)⟩ := by
    intro i
    have := congrFun htar i
    rw [this]
    ext <;> simp [positionArray, State.tile] <;> norm_num [row, col]
  set W := s'.width
  set H := s'.height
  have hW : 6 * ρ < W := by nlinarith
  have hH : 6 * ρ < H := by nlinarith
  have d : 0 < W - 6 * ρ := by linarith
  have g : 6 * ρ / (W - 6 * ρ) < (H - 6 * ρ) / (6 * ρ) := by
    rw [div_lt_div_iff₀ d (by positivity)]
    nlinarith
  have g0 : 0 < 6 * ρ / (W - 6 * ρ) := by positivity
  obtain ⟨σ, σ1, σ2⟩ := exists_between g
  have σ0 : 0 < σ := g0.trans σ1
  have g1 : 6 * ρ < σ * (W - 6 * ρ) := (div_lt_iff₀ d).1 σ1
  have g2 : σ * (6 * ρ) < H - 6 * ρ := (lt_div_iff₀ (by positivity)).1 σ2
  refine C118_unfolded σ0 ?_
  constructor
  · intro i j hij
    have c1 : (row j : ℝ) = row i := by
      have : row j = row i := hij.1
      rw [this]
    have c2 : (col j : ℝ) = col i + 1 := by
      have : col j = col i + 1 := hij.2
      rw [this]
      push_cast
      rfl
    obtain ⟨ax, ay, -⟩ := k i
    obtain ⟨bx, bY, -⟩ := k j
    rw [hpt i] at ax ay
    rw [hpt j] at bx bY
    dsimp only at ax ay bx bY
    rw [c2] at bx
    rw [c1] at bY
    rw [abs_le] at ax ay bx bY
    have l : (W - 6 * ρ) / 3 ≤ (s''.pos j).x - (s''.pos i).x := by linarith [ax.2, bx.1]
    have r : |(s''.pos j).y - (s''.pos i).y| ≤ 2 * ρ := by
      rw [abs_le]
      constructor <;> linarith [ay.1, ay.2, bY.1, bY.2]
    nlinarith
  · intro i j hij
    have h0 : j.val = i.val + 4 := hij
    have c1 : (row j : ℝ) = row i + 1 := by
      have : row j = row i + 1 := by unfold row; omega
      rw [this]
      push_cast
      rfl
    have c2 : (col j : ℝ) = col i := by
      have : col j = col i := by unfold col; omega
      rw [this]
    obtain ⟨ax, ay, -⟩ := k i
    obtain ⟨bx, bY, -⟩ := k j
    rw [hpt i] at ax ay
    rw [hpt j] at bx bY
    dsimp only at ax ay bx bY
    rw [c2] at bx
    rw [c1] at bY
    rw [abs_le] at ax ay bx bY
    have l : (H - 6 * ρ) / 3 ≤ (s''.pos j).y - (s''.pos i).y := by linarith [ay.2, bY.1]
    have r : |(s''.pos j).x - (s''.pos i).x| ≤ 2 * ρ := by
      rw [abs_le]
      constructor <;> linarith [ax.1, ax.2, bx.1, bx.2]
    nlinarith

/-- A model of 1200 by 900 pixels with a maximum range of 10 and otherwise the default settings, grabbed. -/
example : ∃ s rs, (State.new ⟨0, 0⟩ 1200 900 ⟨8, 3, 10⟩ 0).run [.grab ⟨0, 0⟩] = .ok (s, rs) ∧
    (owned [] [.grab ⟨0, 0⟩] rs).length = 1 ∧ NoneInserted s ∧
    AllAlong ResizeAllowed (State.new ⟨0, 0⟩ 1200 900 ⟨8, 3, 10⟩ 0) [.grab ⟨0, 0⟩] ∧ (∀ i, s.vel i = ⟨0, 0⟩) ∧
    6 * (s.settings.maximumRange * (1 + 2 * s.settings.springConstant / s.settings.friction)) * (s.width + s.height) <
      s.width * s.height := by
  have hz : ∀ i, Representable ((State.new ⟨0, 0⟩ 1200 900 ⟨8, 3, 10⟩ 0).pos i) := by
    intro i
    obtain ⟨h1, h2⟩ := lattice_bounds i
    apply rep_small
    all_goals
      simp only [State.new, positionArray, Pt.add_x, Pt.add_y, zero_add]
      rw [abs_of_nonneg (by positivity)]
      linarith
  obtain ⟨i, t, n, hi, e1, -, -⟩ := grab_atRest (new_atRest ⟨0, 0⟩ 1200 900 ⟨8, 3, 10⟩ 0) hz
    (rep_small (p := ⟨0, 0⟩) (by norm_num) (by norm_num))
  refine ⟨_, [.handle 0], run_one e1, rfl, ?_, ⟨trivial, fun _ _ _ => trivial⟩, fun i => rfl, ?_⟩
  · rintro a ha ⟨q, st, f, g, hk⟩
    rw [List.mem_singleton.1 ha] at hk
    cases hk
  · norm_num [grabbed, State.lock, State.new]

/-- **C118 (limit).** A surface can fold: take a new model by its top left corner and drag that to the top right corner.
Before the next `Step` both corners of the texture are shown at one place. -/
theorem C118_can_fold (p : Pt) {w h : ℝ} (x : Settings) (b : ℕ) (hw : w ≠ 0) (hh : h ≠ 0)
    (hz : ∀ i, Representable ((State.new p w h x b).pos i)) :
    ∃ s, (State.new p w h x b).run [.grab p, .moveAnchor 0 ⟨w, 0⟩] = .ok (s, [.handle 0, .none]) ∧
      ¬ Unfolded (deformTexcoords s.pos) := by
  set m := State.new p w h x b with hm
  have hR : AtRest m := new_atRest p w h x b
  have hp0 : m.pos 0 = p := positionArray_zero _ _
  obtain ⟨i, t, n, hi, e1, -, -⟩ := grab_atRest hR hz (hz 0)
  rw [closest_at (new_injective hw hh) hz 0] at hi
  simp only [Option.some.injEq] at hi
  subst hi
  set s1 := grabbed m 0 t n with hs1
  have e2 : s1.exec (.moveAnchor 0 ⟨w, 0⟩) = .ok ({ s1 with
      targets := fun i => s1.targets i + ⟨w, 0⟩
      pos := Function.update s1.pos 0 (s1.pos 0 + ⟨w, 0⟩) }, .none) := by
    simp only [State.exec, State.moveAnchor]
    have hf : s1.live.find? (fun a => decide (a.hid = 0)) = some ⟨0, .grab 0⟩ := rfl
    rw [hf]
    simp only
    have ha : s1.active := rfl
    rw [if_pos ha]
  have e1' : m.exec (.grab p) = .ok (s1, .handle 0) := by rw [← hp0]; exact e1
  refine ⟨_, by simp only [State.run, e1', e2, bind_ok]; rfl, fun hu => ?_⟩
  have hc := C55_corners (Function.update s1.pos 0 (s1.pos 0 + ⟨w, 0⟩))
  have e0 : Function.update s1.pos 0 (s1.pos 0 + ⟨w, 0⟩) 0 = Function.update s1.pos 0 (s1.pos 0 + ⟨w, 0⟩) 3 := by
    rw [Function.update_self, Function.update_of_ne (by decide)]
    show m.pos 0 + _ = m.pos 3
    rw [hm]
    ext <;> simp [State.new, positionArray, row, col]
    ring
  have := hu ⟨0, 0⟩ ⟨0, 1⟩ (by norm_num [InSquare]) (by norm_num [InSquare]) (by
    show deformTexcoords (Function.update s1.pos 0 (s1.pos 0 + ⟨w, 0⟩)) ⟨0, 0⟩ =
      deformTexcoords (Function.update s1.pos 0 (s1.pos 0 + ⟨w, 0⟩)) ⟨0, 1⟩
    rw [hc.1, hc.2.1, e0])
  have := congrArg Pt.y this
  norm_num at this

end

end Verif.Props
