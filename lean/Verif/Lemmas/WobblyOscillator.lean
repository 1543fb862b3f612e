import Verif.Lemmas.WobblyHang

/-! One free mesh point between four pinned ones, at the default settings: an oscillation that never ends. -/

namespace Verif.Wobbly

open Spec Outcome

/-! ## The one-dimensional system -/

/-- New velocity and position of the free point. -/
noncomputable def osc (q : ℝ × ℝ) : ℝ × ℝ :=
  let v := eulerVelocity 1 3 mass q.2 (4 * pull 8 (-q.1))
  (q.1 + v * (1 / 2), v)

/-- The system asks for another round. -/
def oscMore (q : ℝ × ℝ) : Prop := 1 ≤ |q.1| ∨ (osc q).2 ≠ 0

theorem eulerVelocity_neg (f v c : ℝ) : eulerVelocity 1 f mass (-v) (-c) = -eulerVelocity 1 f mass v c := by
  unfold eulerVelocity
  rw [← clip_neg]
  congr 1
  ring

theorem osc_neg (q : ℝ × ℝ) : osc (-q) = -osc q := by
  unfold osc
  simp only [Prod.fst_neg, Prod.snd_neg]
  have : 4 * pull 8 (- -q.1) = -(4 * pull 8 (-q.1)) := by rw [pull_neg]; ring
  rw [this, eulerVelocity_neg]
  ext
  · simp only [Prod.fst_neg]
    ring
  · rfl

theorem oscMore_neg (q : ℝ × ℝ) : oscMore (-q) ↔ oscMore q := by
  unfold oscMore
  rw [osc_neg]
  simp

/-- The state just after a push: it will coast to `-c`, its speed is `u`. -/
def pushed (c u : ℝ) : ℝ × ℝ := (2 * u - c, -u)

theorem osc_coast {c u : ℝ} (h1 : 2 * u - c < 1) (h2 : -1 < 2 * u - c) (hu : 1 / 10 ≤ 4 / 5 * u) :
    osc (pushed c u) = pushed c (4 / 5 * u) ∧ oscMore (pushed c u) := by
  have hp : pull 8 (-(2 * u - c)) = 0 := by
    unfold pull
    rw [if_pos (by rw [abs_neg, abs_lt]; exact ⟨h2, h1⟩)]
  have hv : eulerVelocity 1 3 mass (-u) 0 = -(4 / 5 * u) := by
    unfold eulerVelocity mass clip
    have e : -u + (0 - -u * 3) * (1 / 15) * 1 = -(4 / 5 * u) := by ring
    rw [e, if_neg]
    rw [abs_neg, abs_of_nonneg (by linarith)]
    linarith
  have ho : osc (pushed c u) = pushed c (4 / 5 * u) := by
    unfold osc pushed
    simp only [hp, mul_zero, hv, Prod.mk.injEq, and_true]
    ring
  refine ⟨ho, Or.inr ?_⟩
  rw [ho]
  simp only [pushed]
  linarith

theorem osc_push {c u : ℝ} (h : 2 * u - c ≤ -1) (hu : 1 / 10 ≤ 16 / 15 * c - 44 / 15 * u) :
    osc (pushed c u) = -pushed (5 / 3 * c - 16 / 3 * u) (16 / 15 * c - 44 / 15 * u) ∧ oscMore (pushed c u) := by
  have hp : pull 8 (-(2 * u - c)) = 4 * (c - 2 * u) := by
    unfold pull
    rw [if_neg (by rw [abs_neg, abs_of_neg (by linarith)]; linarith)]
    ring
  have hv : eulerVelocity 1 3 mass (-u) (4 * (4 * (c - 2 * u))) = 16 / 15 * c - 44 / 15 * u := by
    unfold eulerVelocity mass clip
    have e : -u + (4 * (4 * (c - 2 * u)) - -u * 3) * (1 / 15) * 1 = 16 / 15 * c - 44 / 15 * u := by ring
    rw [e, if_neg]
    rw [abs_of_nonneg (by linarith)]
    linarith
  refine ⟨?_, Or.inl ?_⟩
  · unfold osc pushed
    simp only [hp, hv, Prod.neg_mk, neg_neg, Prod.mk.injEq, and_true]
    ring
  · show 1 ≤ |2 * u - c|
    rw [abs_of_neg (by linarith)]
    linarith

theorem osc_coasts {c u : ℝ} (m : ℕ) (h1 : 2 * u - c < 1) (hu : 1 / 10 ≤ (4 / 5) ^ m * u)
    (h2 : ∀ j < m, -1 < 2 * ((4 / 5) ^ j * u) - c) :
    osc^[m] (pushed c u) = pushed c ((4 / 5) ^ m * u) ∧ ∀ j < m, oscMore (osc^[j] (pushed c u)) := by
  induction m with
  | zero => simp
  | succ m ih =>
    have hu0 : 0 < u := by
      by_contra hc
      have : (4 / 5 : ℝ) ^ (m + 1) * u ≤ 0 := mul_nonpos_of_nonneg_of_nonpos (by positivity) (by linarith)
      linarith
    have hg : (4 / 5 : ℝ) ^ m ≤ 1 := pow_le_one₀ (by norm_num) (by norm_num)
    have hg0 : (0 : ℝ) < (4 / 5) ^ m := by positivity
    have hstep : 1 / 10 ≤ 4 / 5 * ((4 / 5) ^ m * u) := by
      rw [pow_succ] at hu
      linarith
    obtain ⟨i1, i2⟩ := ih (by nlinarith) (fun j hj => h2 j (by omega))
    have := osc_coast (c := c) (u := (4 / 5) ^ m * u) (by nlinarith) (h2 m (by omega)) hstep
    refine ⟨?_, fun j hj => ?_⟩
    · rw [Function.iterate_succ_apply', i1, this.1, pow_succ]
      congr 1
      ring
    · rcases Nat.lt_succ_iff_lt_or_eq.1 hj with h | rfl
      · exact i2 j h
      · rw [i1]
        exact this.2

/-- Coasting for `m` rounds and being pushed back. -/
theorem osc_half {c u : ℝ} (m : ℕ) (hu : 0 < u) (h1 : 2 * u - c < 1) (h2 : -1 < 2 * ((4 / 5) ^ m * u) - c)
    (h3 : 2 * ((4 / 5) ^ (m + 1) * u) - c ≤ -1) (hv : 1 / 10 ≤ (4 / 5) ^ (m + 1) * u)
    (hn : 1 / 10 ≤ 16 / 15 * c - 44 / 15 * ((4 / 5) ^ (m + 1) * u)) :
    osc^[m + 2] (pushed c u) = -pushed (5 / 3 * c - 16 / 3 * ((4 / 5) ^ (m + 1) * u))
      (16 / 15 * c - 44 / 15 * ((4 / 5) ^ (m + 1) * u)) ∧ ∀ j < m + 2, oscMore (osc^[j] (pushed c u)) := by
  obtain ⟨i1, i2⟩ := osc_coasts (c := c) (u := u) (m + 1) h1 hv (fun j hj => by
    have : (4 / 5 : ℝ) ^ m ≤ (4 / 5) ^ j := pow_le_pow_of_le_one (by norm_num) (by norm_num) (by omega)
    have := mul_le_mul_of_nonneg_right this hu.le
    linarith)
  have hp := osc_push (c := c) (u := (4 / 5) ^ (m + 1) * u) h3 hn
  refine ⟨?_, fun j hj => ?_⟩
  · rw [Function.iterate_succ_apply', i1, hp.1]
  · rcases Nat.lt_succ_iff_lt_or_eq.1 hj with h | rfl
    · exact i2 j h
    · rw [i1]
      exact hp.2

/-! ## A region that is never left -/

/-- `c / u` and `u` lie between the given bounds. -/
def InCell (rl rh ul uh c u : ℝ) : Prop := rl * u ≤ c ∧ c ≤ rh * u ∧ ul ≤ u ∧ u ≤ uh

/-- The five cells, named after the number of rounds between the last pushes. -/
inductive Trapped : ℝ → ℝ → Prop where
  | c97 {c u : ℝ} (h : InCell 1.396 1.398 0.934 0.986 c u) : Trapped c u
  | c78 {c u : ℝ} (h : InCell 1.435 1.437 0.939 0.986 c u) : Trapped c u
  | c88 {c u : ℝ} (h : InCell 1.441 1.443 0.975 1.023 c u) : Trapped c u
  | c87 {c u : ℝ} (h : InCell 1.39 1.393 0.901 0.946 c u) : Trapped c u
  | c79 {c u : ℝ} (h : InCell 1.47 1.471 0.981 1.033 c u) : Trapped c u

theorem trapped_step {c u : ℝ} (h : Trapped c u) :
    ∃ n c' u', osc^[n + 1] (pushed c u) = -pushed c' u' ∧ Trapped c' u' ∧
      ∀ j < n + 1, oscMore (osc^[j] (pushed c u)) := by
  have p6 : (4 / 5 : ℝ) ^ 6 = 4096 / 15625 := by norm_num
  have p7 : (4 / 5 : ℝ) ^ (6 + 1) = 16384 / 78125 := by norm_num
  have p7' : (4 / 5 : ℝ) ^ 7 = 16384 / 78125 := by norm_num
  have p8 : (4 / 5 : ℝ) ^ (7 + 1) = 65536 / 390625 := by norm_num
  have p8' : (4 / 5 : ℝ) ^ 8 = 65536 / 390625 := by norm_num
  have p9 : (4 / 5 : ℝ) ^ (8 + 1) = 262144 / 1953125 := by norm_num
  cases h with
  | c97 h =>
    obtain ⟨a1, a2, a3, a4⟩ := h
    norm_num at a1 a2 a3 a4
    by_cases hc : 2 * ((4 / 5) ^ (7 + 1) * u) - c ≤ -1
    · have := osc_half (c := c) (u := u) 7 (by linarith) (by linarith) (by rw [p7']; linarith) hc
        (by rw [p8]; linarith) (by rw [p8]; linarith)
      rw [p8] at this hc
      exact ⟨8, _, _, this.1, .c78 (by unfold InCell; norm_num; refine ⟨?_, ?_, ?_, ?_⟩ <;> linarith), this.2⟩
    · rw [p8] at hc
      have := osc_half (c := c) (u := u) 8 (by linarith) (by linarith) (by rw [p8']; linarith) (by rw [p9]; linarith)
        (by rw [p9]; linarith) (by rw [p9]; linarith)
      rw [p9] at this
      exact ⟨9, _, _, this.1, .c79 (by unfold InCell; norm_num; refine ⟨?_, ?_, ?_, ?_⟩ <;> linarith), this.2⟩
  | c78 h =>
    obtain ⟨a1, a2, a3, a4⟩ := h
    norm_num at a1 a2 a3 a4
    by_cases hc : 2 * ((4 / 5) ^ (6 + 1) * u) - c ≤ -1
    · have := osc_half (c := c) (u := u) 6 (by linarith) (by linarith) (by rw [p6]; linarith) hc
        (by rw [p7]; linarith) (by rw [p7]; linarith)
      rw [p7] at this hc
      exact ⟨7, _, _, this.1, .c87 (by unfold InCell; norm_num; refine ⟨?_, ?_, ?_, ?_⟩ <;> linarith), this.2⟩
    · rw [p7] at hc
      have := osc_half (c := c) (u := u) 7 (by linarith) (by linarith) (by rw [p7']; linarith) (by rw [p8]; linarith)
        (by rw [p8]; linarith) (by rw [p8]; linarith)
      rw [p8] at this
      exact ⟨8, _, _, this.1, .c88 (by unfold InCell; norm_num; refine ⟨?_, ?_, ?_, ?_⟩ <;> linarith), this.2⟩
  | c88 h =>
    obtain ⟨a1, a2, a3, a4⟩ := h
    norm_num at a1 a2 a3 a4
    by_cases hc : 2 * ((4 / 5) ^ (6 + 1) * u) - c ≤ -1
    · have := osc_half (c := c) (u := u) 6 (by linarith) (by linarith) (by rw [p6]; linarith) hc
        (by rw [p7]; linarith) (by rw [p7]; linarith)
      rw [p7] at this hc
      exact ⟨7, _, _, this.1, .c87 (by unfold InCell; norm_num; refine ⟨?_, ?_, ?_, ?_⟩ <;> linarith), this.2⟩
    · rw [p7] at hc
      have := osc_half (c := c) (u := u) 7 (by linarith) (by linarith) (by rw [p7']; linarith) (by rw [p8]; linarith)
        (by rw [p8]; linarith) (by rw [p8]; linarith)
      rw [p8] at this
      exact ⟨8, _, _, this.1, .c88 (by unfold InCell; norm_num; refine ⟨?_, ?_, ?_, ?_⟩ <;> linarith), this.2⟩
  | c87 h =>
    obtain ⟨a1, a2, a3, a4⟩ := h
    norm_num at a1 a2 a3 a4
    by_cases hc : 2 * ((4 / 5) ^ (7 + 1) * u) - c ≤ -1
    · have := osc_half (c := c) (u := u) 7 (by linarith) (by linarith) (by rw [p7']; linarith) hc
        (by rw [p8]; linarith) (by rw [p8]; linarith)
      rw [p8] at this hc
      exact ⟨8, _, _, this.1, .c78 (by unfold InCell; norm_num; refine ⟨?_, ?_, ?_, ?_⟩ <;> linarith), this.2⟩
    · rw [p8] at hc
      have := osc_half (c := c) (u := u) 8 (by linarith) (by linarith) (by rw [p8']; linarith) (by rw [p9]; linarith)
        (by rw [p9]; linarith) (by rw [p9]; linarith)
      rw [p9] at this
      exact ⟨9, _, _, this.1, .c79 (by unfold InCell; norm_num; refine ⟨?_, ?_, ?_, ?_⟩ <;> linarith), this.2⟩
  | c79 h =>
    obtain ⟨a1, a2, a3, a4⟩ := h
    norm_num at a1 a2 a3 a4
    have := osc_half (c := c) (u := u) 6 (by linarith) (by linarith) (by rw [p6]; linarith) (by rw [p7]; linarith)
      (by rw [p7]; linarith) (by rw [p7]; linarith)
    rw [p7] at this
    exact ⟨7, _, _, this.1, .c97 (by unfold InCell; norm_num; refine ⟨?_, ?_, ?_, ?_⟩ <;> linarith), this.2⟩

theorem osc_iter_neg (n : ℕ) (q : ℝ × ℝ) : osc^[n] (-q) = -osc^[n] q := by
  induction n with
  | zero => rfl
  | succ n ih => rw [Function.iterate_succ_apply', Function.iterate_succ_apply', ih, osc_neg]

/-- From such a state on it always asks for another round. -/
theorem trapped_forever (n : ℕ) : ∀ {c u : ℝ}, Trapped c u → oscMore (osc^[n] (pushed c u)) := by
  induction n using Nat.strong_induction_on with
  | _ n ih =>
    intro c u h
    obtain ⟨k, c', u', h1, h2, h3⟩ := trapped_step h
    by_cases hk : n < k + 1
    · exact h3 n hk
    · obtain ⟨d, rfl⟩ := Nat.exists_eq_add_of_le (not_lt.1 hk)
      rw [Nat.add_comm, Function.iterate_add_apply, h1, osc_iter_neg, oscMore_neg]
      exact ih d (by omega) h2

/-- The same from rest, for displacements a little above one pixel. -/
theorem osc_forever {y : ℝ} (h1 : 1 ≤ y) (h2 : y ≤ 1.03) (n : ℕ) : oscMore (osc^[n] (y, 0)) := by
  norm_num at h2
  have q5 : (4 / 5 : ℝ) ^ 5 = 1024 / 3125 := by norm_num
  have q6 : (4 / 5 : ℝ) ^ (5 + 1) = 4096 / 15625 := by norm_num
  have q6' : (4 / 5 : ℝ) ^ 6 = 4096 / 15625 := by norm_num
  have q7 : (4 / 5 : ℝ) ^ (6 + 1) = 16384 / 78125 := by norm_num
  have q8 : (4 / 5 : ℝ) ^ 8 = 65536 / 390625 := by norm_num
  have q9 : (4 / 5 : ℝ) ^ (8 + 1) = 262144 / 1953125 := by norm_num
  -- first push
  have e0 : ((y, 0) : ℝ × ℝ) = -pushed y 0 := by
    unfold pushed
    simp
  have s0 := osc_push (c := y) (u := 0) (by linarith) (by linarith)
  norm_num at s0
  set c1 : ℝ := 5 / 3 * y with hc1
  set u1 : ℝ := 16 / 15 * y with hu1
  have s1 := osc_half (c := c1) (u := u1) 5 (by linarith) (by linarith) (by rw [q5]; linarith) (by rw [q6]; linarith)
    (by rw [q6]; linarith) (by rw [q6]; linarith)
  rw [q6] at s1
  set c2 : ℝ := 5 / 3 * c1 - 16 / 3 * (4096 / 15625 * u1) with hc2
  set u2 : ℝ := 16 / 15 * c1 - 44 / 15 * (4096 / 15625 * u1) with hu2
  have s2 := osc_half (c := c2) (u := u2) 8 (by linarith) (by linarith) (by rw [q8]; linarith) (by rw [q9]; linarith)
    (by rw [q9]; linarith) (by rw [q9]; linarith)
  rw [q9] at s2
  set c3 : ℝ := 5 / 3 * c2 - 16 / 3 * (262144 / 1953125 * u2) with hc3
  set u3 : ℝ := 16 / 15 * c2 - 44 / 15 * (262144 / 1953125 * u2) with hu3
  have s3 := osc_half (c := c3) (u := u3) 6 (by linarith) (by linarith) (by rw [q6']; linarith) (by rw [q7]; linarith)
    (by rw [q7]; linarith) (by rw [q7]; linarith)
  rw [q7] at s3
  set c4 : ℝ := 5 / 3 * c3 - 16 / 3 * (16384 / 78125 * u3) with hc4
  set u4 : ℝ := 16 / 15 * c3 - 44 / 15 * (16384 / 78125 * u3) with hu4
  have s4 : Trapped c4 u4 := .c97 (by unfold InCell; norm_num; refine ⟨?_, ?_, ?_, ?_⟩ <;> linarith)
  have f4 : ∀ n, oscMore (osc^[n] (pushed c4 u4)) := fun n => trapped_forever n s4
  have step : ∀ {q q' : ℝ × ℝ} {k : ℕ}, osc^[k] q = -q' → (∀ j < k, oscMore (osc^[j] q)) →
      (∀ n, oscMore (osc^[n] q')) → ∀ n, oscMore (osc^[n] q) := by
    intro q q' k hk hj hq n
    by_cases hn : n < k
    · exact hj n hn
    · obtain ⟨d, rfl⟩ := Nat.exists_eq_add_of_le (not_lt.1 hn)
      rw [Nat.add_comm, Function.iterate_add_apply, hk, osc_iter_neg, oscMore_neg]
      exact hq d
  have f3 := step s3.1 s3.2 f4
  have f2 := step s2.1 s2.2 f3
  have f1 := step s1.1 s1.2 f2
  have f0 : ∀ n, oscMore (osc^[n] (pushed y 0)) := by
    refine step (k := 1) (q' := pushed c1 u1) s0.1 (fun j hj => ?_) f1
    have : j = 0 := by omega
    subst this
    exact s0.2
  rw [e0, osc_iter_neg, oscMore_neg]
  exact f0 n

/-! ## The mesh -/

/-- Point 5 displaced horizontally by `y`, all others on the lattice. -/
noncomputable def oneOff (y : ℝ) (i : Idx) : Pt := if i = 5 then ⟨y, 0⟩ else 0

/-- Such a mesh, point 5 having horizontal velocity `v`. -/
noncomputable def oscPhys (p tile : Pt) (q : ℝ × ℝ) : Phys :=
  ⟨fun i => positionArray p tile i + oneOff q.1 i, oneOff q.2⟩

theorem pull_zero (k : ℝ) : pull k 0 = 0 := by simp [pull]

theorem edgePull_oneOff (k y : ℝ) (z : Idx × Idx × Bool) : edgePull k (oneOff y) z =
    ⟨pull k ((if z.2.1 = 5 then y else 0) - (if z.1 = 5 then y else 0)), 0⟩ := by
  unfold edgePull oneOff
  ext
  · simp only
    split_ifs <;> rfl
  · simp only
    split_ifs <;> simp [pull_zero]

theorem oneOff_force_five (k y : ℝ) : (baseEdges.map (edgeForce k (oneOff y) 5)).sum = ⟨4 * pull k (-y), 0⟩ := by
  rw [baseEdges_list]
  have hn : pull k y = -pull k (-y) := by rw [pull_neg, neg_neg]
  ext
  · simp [edgeForce, edgePull_oneOff, hn]
    ring
  · simp [edgeForce, edgePull_oneOff]

set_option maxRecDepth 10000 in
theorem oneOff_force_far (k y : ℝ) (i : Idx) (h1 : i ≠ 1) (h4 : i ≠ 4) (h5 : i ≠ 5) (h6 : i ≠ 6) (h9 : i ≠ 9) :
    (baseEdges.map (edgeForce k (oneOff y) i)).sum = 0 := by
  apply List.sum_eq_zero
  intro z hz
  obtain ⟨w, hw, rfl⟩ := List.mem_map.1 hz
  have hfar : ∀ w ∈ baseEdges, (w.1 = 5 → w.2.1 = 6 ∨ w.2.1 = 9) ∧ (w.2.1 = 5 → w.1 = 1 ∨ w.1 = 4) := by
    rw [baseEdges_list]
    decide
  obtain ⟨ha, hb⟩ := hfar w hw
  unfold edgeForce
  rw [edgePull_oneOff]
  by_cases hi : i = w.1
  · have h5' : w.1 ≠ 5 := fun h => h5 (hi.trans h)
    have hb' : w.2.1 ≠ 5 := fun h => by
      rcases hb h with h | h
      · exact h1 (hi.trans h)
      · exact h4 (hi.trans h)
    rw [if_neg h5', if_neg hb', sub_zero, pull_zero]
    ext <;> split_ifs <;> simp
  · rw [if_neg hi]
    by_cases hj : i = w.2.1
    · have h5' : w.2.1 ≠ 5 := fun h => h5 (hj.trans h)
      have hb' : w.1 ≠ 5 := fun h => by
        rcases ha h with h | h
        · exact h6 (hj.trans h)
        · exact h9 (hj.trans h)
      rw [if_neg h5', if_neg hb', sub_zero, pull_zero]
      ext <;> split_ifs <;> simp
    · rw [if_neg hj]
      simp

theorem springStep_osc {e : Env} {p tile : Pt} {b : ℕ} (hk : e.k = 8) (hf : e.friction = 3)
    (hs : e.springs = baseSprings tile b) (h1 : e.locks 1 > 0) (h4 : e.locks 4 > 0) (h6 : e.locks 6 > 0)
    (h9 : e.locks 9 > 0) (h5 : e.locks 5 = 0) (q : ℝ × ℝ) :
    (springStep e (oscPhys p tile q)).1 = oscPhys p tile (osc q) ∧
      (oscMore q → (springStep e (oscPhys p tile q)).2) := by
  have hm : ∀ i, (oscPhys p tile q).pos i = positionArray p tile i + oneOff q.1 i := fun _ => rfl
  have hforce := force_disp (e := e) (b := b) 8 hm
  have hmore := more_disp (e := e) (b := b) 8 hm
  have hfive : (calculateForces e.k (e.at_ (oscPhys p tile q).pos) e.springs).1 (.mesh 5) =
      ⟨4 * pull 8 (-q.1), 0⟩ := by
    rw [hk, hs, hforce, oneOff_force_five]
  have hother : ∀ i, ¬ e.locks i > 0 → i ≠ 5 →
      (calculateForces e.k (e.at_ (oscPhys p tile q).pos) e.springs).1 (.mesh i) = 0 := by
    intro i hi hi5
    rw [hk, hs, hforce]
    apply oneOff_force_far _ _ _ _ _ hi5
    all_goals
      rintro rfl
      first | exact hi h1 | exact hi h4 | exact hi h6 | exact hi h9
  have hv0 : eulerVelocity 1 3 mass 0 0 = 0 := by
    rw [eulerVelocity_free]
    simp [clip_zero]
  constructor
  · unfold springStep anchoredIntegration
    ext1
    · funext i
      simp only [hf]
      by_cases hi : e.locks i > 0
      · rw [if_pos hi]
        have : i ≠ 5 := by
          rintro rfl
          omega
        simp [oscPhys, oneOff, this]
      · rw [if_neg hi]
        by_cases hi5 : i = 5
        · subst hi5
          rw [hfive]
          simp only [eulerIntegrate, oscPhys, oneOff, if_true, hv0, osc]
          ext
          · simp only [Pt.add_x, Pt.scale_x]
            ring
          · simp
        · rw [hother i hi hi5]
          have : (oscPhys p tile q).vel i = 0 := by simp [oscPhys, oneOff, hi5]
          rw [this, euler_zero]
          simp [oscPhys, oneOff, hi5]
    · funext i
      simp only [hf]
      by_cases hi : e.locks i > 0
      · rw [if_pos hi]
        have : i ≠ 5 := by
          rintro rfl
          omega
        simp only [oscPhys, oneOff, if_neg this]
        rfl
      · rw [if_neg hi]
        by_cases hi5 : i = 5
        · subst hi5
          rw [hfive]
          simp only [eulerIntegrate, oscPhys, oneOff, if_true, hv0, osc]
        · rw [hother i hi hi5]
          have : (oscPhys p tile q).vel i = 0 := by simp [oscPhys, oneOff, hi5]
          rw [this, euler_zero]
          simp [oscPhys, oneOff, hi5]
  · rintro (h | h)
    · left
      show (calculateForces e.k (e.at_ (oscPhys p tile q).pos) e.springs).2
      rw [hk, hs, hmore]
      refine ⟨(1, 5, true), by rw [baseEdges_list]; decide, fun hc => ?_⟩
      have := hc.1
      simp [oneOff] at this
      linarith
    · right
      refine ⟨5, by rw [h5]; exact lt_irrefl 0, Or.inl ?_⟩
      simp only [hfive, hf, eulerIntegrate, gt_iff_lt, abs_pos]
      have : ((oscPhys p tile q).vel 5).x = q.2 := by simp [oscPhys, oneOff]
      rw [this]
      exact h

/-- The full integration of such a mesh never ends. -/
theorem osc_settles_never {e : Env} {p tile : Pt} {b : ℕ} (hk : e.k = 8) (hf : e.friction = 3)
    (hs : e.springs = baseSprings tile b) (h1 : e.locks 1 > 0) (h4 : e.locks 4 > 0) (h6 : e.locks 6 > 0)
    (h9 : e.locks 9 > 0) (h5 : e.locks 5 = 0) {y : ℝ} (hy1 : 1 ≤ y) (hy2 : y ≤ 1.03) (n : ℕ) :
    settleMore e (oscPhys p tile (y, 0)) n := by
  have hi : ∀ n, settleIter e (oscPhys p tile (y, 0)) n = oscPhys p tile (osc^[n] (y, 0)) := by
    intro n
    induction n with
    | zero => rfl
    | succ n ih =>
      rw [settleIter_succ, ih, (springStep_osc hk hf hs h1 h4 h6 h9 h5 _).1, Function.iterate_succ_apply']
  unfold settleMore
  rw [hi]
  exact (springStep_osc hk hf hs h1 h4 h6 h9 h5 _).2 (osc_forever hy1 hy2 n)

end Verif.Wobbly
