import Verif.Spec.Slow
import Verif.Lemmas.WobblySettle
import Verif.Lemmas.WobblyResize

/-! Slow meshes: only friction acts, and the movement ends. -/

namespace Verif.Wobbly

open Spec Outcome

theorem stillToGo_nonneg {f : ℝ} (h0 : 0 < f) (h1 : f ≤ 15) (v : ℝ) : 0 ≤ stillToGo f v := by
  unfold stillToGo
  have : 0 ≤ 15 - f := by linarith
  positivity

theorem stillToGo_zero (f : ℝ) : stillToGo f 0 = 0 := by
  unfold stillToGo
  simp

/-- One tick of friction. -/
theorem free_go {f : ℝ} (h0 : 0 < f) (h1 : f ≤ 15) (v : ℝ) :
    |eulerVelocity 1 f mass v 0 * (1 / 2)| + stillToGo f (eulerVelocity 1 f mass v 0) ≤ stillToGo f v := by
  have h := free_abs_le f v
  rw [abs_of_nonneg (by linarith : (0 : ℝ) ≤ 1 - f / 15)] at h
  unfold stillToGo
  rw [abs_mul, abs_of_pos (by norm_num : (0 : ℝ) < 1 / 2)]
  have e : |eulerVelocity 1 f mass v 0| * (1 / 2) + (15 - f) / (2 * f) * |eulerVelocity 1 f mass v 0| =
      15 / (2 * f) * |eulerVelocity 1 f mass v 0| := by
    field_simp
    ring
  rw [e]
  calc 15 / (2 * f) * |eulerVelocity 1 f mass v 0| ≤ 15 / (2 * f) * ((1 - f / 15) * |v|) :=
        mul_le_mul_of_nonneg_left h (by positivity)
    _ = (15 - f) / (2 * f) * |v| := by
      field_simp

/-- The largest value of `t^7 (1 - t)`. -/
theorem seventh {t : ℝ} (h0 : 0 ≤ t) : t ^ 7 * (1 - t) ≤ 7 ^ 7 / 8 ^ 8 := by
  rcases h0.eq_or_lt with rfl | h0
  · norm_num
  have hb := one_add_mul_le_pow (a := 7 / (8 * t) - 1) (by
    have : 0 < 7 / (8 * t) := by positivity
    linarith) 8
  rw [show (1 : ℝ) + (7 / (8 * t) - 1) = 7 / (8 * t) by ring, div_pow, mul_pow] at hb
  have h8 : (0 : ℝ) < 8 ^ 8 * t ^ 8 := by positivity
  rw [le_div_iff₀ h8] at hb
  have e : (1 + ((8 : ℕ) : ℝ) * (7 / (8 * t) - 1)) * (8 ^ 8 * t ^ 8) = 7 * 8 ^ 8 * (t ^ 7 * (1 - t)) := by
    push_cast
    field_simp
    ring
  rw [e] at hb
  rw [le_div_iff₀ (by norm_num)]
  linarith

/-- Eight ticks of friction stop what cannot get a pixel far. -/
theorem eight_ticks {f v : ℝ} (h0 : 0 < f) (h1 : f ≤ 15) (h : stillToGo f v < 1) : (1 - f / 15) ^ 8 * |v| < 1 / 10 := by
  unfold stillToGo at h
  rw [div_mul_eq_mul_div, div_lt_one (by positivity)] at h
  have ht : 0 ≤ 1 - f / 15 := by linarith
  have h2 : (1 - f / 15) * |v| ≤ 2 * (1 - (1 - f / 15)) := by linarith
  have h3 := mul_le_mul_of_nonneg_left h2 (pow_nonneg ht 7)
  have h4 := seventh ht
  rw [pow_succ, mul_assoc]
  norm_num at *
  linarith

/-- What `q'` can still do is part of what `q` could. -/
def Fading (f : ℝ) (q q' : Phys) : Prop :=
  ∀ i, |(q'.pos i).x - (q.pos i).x| + stillToGo f (q'.vel i).x ≤ stillToGo f (q.vel i).x ∧
    |(q'.pos i).y - (q.pos i).y| + stillToGo f (q'.vel i).y ≤ stillToGo f (q.vel i).y

theorem Fading.refl (f : ℝ) (q : Phys) : Fading f q q := fun i => by simp

theorem Fading.trans {f : ℝ} {q q' q'' : Phys} (h : Fading f q q') (h' : Fading f q' q'') : Fading f q q'' := by
  intro i
  obtain ⟨a, c⟩ := h i
  obtain ⟨a', c'⟩ := h' i
  have e1 := abs_sub_le (q''.pos i).x (q'.pos i).x (q.pos i).x
  have e2 := abs_sub_le (q''.pos i).y (q'.pos i).y (q.pos i).y
  constructor <;> linarith

/-- All springs stay in their dead zones whatever movement is left. -/
def SlowEnv (e : Env) (q : Phys) : Prop :=
  ∀ x ∈ e.springs, ∃ i j, x.a = .mesh i ∧ x.b = .mesh j ∧
    |(deviation (e.at_ q.pos) x).x| + stillToGo e.friction (q.vel i).x + stillToGo e.friction (q.vel j).x < 1 ∧
    |(deviation (e.at_ q.pos) x).y| + stillToGo e.friction (q.vel i).y + stillToGo e.friction (q.vel j).y < 1

theorem SlowEnv.dead {e : Env} {q : Phys} (h0 : 0 < e.friction) (h1 : e.friction ≤ 15) (h : SlowEnv e q) :
    ∀ x ∈ e.springs, InDeadZone (e.at_ q.pos) x := by
  intro x hx
  obtain ⟨i, j, -, -, a, c⟩ := h x hx
  have a1 := stillToGo_nonneg h0 h1 (q.vel i).x
  have a2 := stillToGo_nonneg h0 h1 (q.vel j).x
  have a3 := stillToGo_nonneg h0 h1 (q.vel i).y
  have a4 := stillToGo_nonneg h0 h1 (q.vel j).y
  constructor <;> linarith

theorem SlowEnv.fading {e : Env} {q q' : Phys} (h : SlowEnv e q) (hf : Fading e.friction q q') : SlowEnv e q' := by
  intro x hx
  obtain ⟨i, j, hi, hj, a, c⟩ := h x hx
  refine ⟨i, j, hi, hj, ?_, ?_⟩
  · have b1 := (hf i).1
    have b2 := (hf j).1
    have e1 : (deviation (e.at_ q'.pos) x).x = (deviation (e.at_ q.pos) x).x + ((q'.pos j).x - (q.pos j).x) -
        ((q'.pos i).x - (q.pos i).x) := by
      simp only [deviation, hi, hj, Env.at_]
      ring
    have e2 := abs_sub ((deviation (e.at_ q.pos) x).x + ((q'.pos j).x - (q.pos j).x)) ((q'.pos i).x - (q.pos i).x)
    have e3 := abs_add_le (deviation (e.at_ q.pos) x).x ((q'.pos j).x - (q.pos j).x)
    rw [e1]
    linarith
  · have b1 := (hf i).2
    have b2 := (hf j).2
    have e1 : (deviation (e.at_ q'.pos) x).y = (deviation (e.at_ q.pos) x).y + ((q'.pos j).y - (q.pos j).y) -
        ((q'.pos i).y - (q.pos i).y) := by
      simp only [deviation, hi, hj, Env.at_]
      ring
    have e2 := abs_sub ((deviation (e.at_ q.pos) x).y + ((q'.pos j).y - (q.pos j).y)) ((q'.pos i).y - (q.pos i).y)
    have e3 := abs_add_le (deviation (e.at_ q.pos) x).y ((q'.pos j).y - (q.pos j).y)
    rw [e1]
    linarith

/-- A tick of a slow mesh, written out. -/
theorem slow_tick {e : Env} {q : Phys} (h0 : 0 < e.friction) (h1 : e.friction ≤ 15) (h : SlowEnv e q) (i : Idx) :
    (springStep e q).1.pos i = (if e.locks i > 0 then q.pos i else
      q.pos i + (⟨eulerVelocity 1 e.friction mass (q.vel i).x 0, eulerVelocity 1 e.friction mass (q.vel i).y 0⟩ : Pt).scale (1 / 2)) ∧
    (springStep e q).1.vel i = (if e.locks i > 0 then 0 else
      ⟨eulerVelocity 1 e.friction mass (q.vel i).x 0, eulerVelocity 1 e.friction mass (q.vel i).y 0⟩) := by
  have hf : ∀ i, (calculateForces e.k (e.at_ q.pos) e.springs).1 (.mesh i) = 0 := fun i =>
    calculateForces_dead _ _ _ (h.dead h0 h1) _
  unfold springStep anchoredIntegration eulerIntegrate
  simp only [hf]
  exact ⟨rfl, rfl⟩

theorem slow_tick_fading {e : Env} {q : Phys} (h0 : 0 < e.friction) (h1 : e.friction ≤ 15) (h : SlowEnv e q) :
    Fading e.friction q (springStep e q).1 := by
  intro i
  obtain ⟨hp, hv⟩ := slow_tick h0 h1 h i
  rw [hp, hv]
  by_cases hl : e.locks i > 0
  · rw [if_pos hl, if_pos hl]
    simp only [sub_self, abs_zero, Pt.zero_x, Pt.zero_y, stillToGo_zero, add_zero]
    exact ⟨stillToGo_nonneg h0 h1 _, stillToGo_nonneg h0 h1 _⟩
  · rw [if_neg hl, if_neg hl]
    have a := free_go h0 h1 (q.vel i).x
    have c := free_go h0 h1 (q.vel i).y
    simp only [Pt.add_x, Pt.add_y, Pt.scale, add_sub_cancel_left]
    exact ⟨a, c⟩

theorem slow_tick_vel {e : Env} {q : Phys} (h0 : 0 < e.friction) (h1 : e.friction ≤ 15) (h : SlowEnv e q) (i : Idx) :
    |((springStep e q).1.vel i).x| ≤ (1 - e.friction / 15) * |(q.vel i).x| ∧
    |((springStep e q).1.vel i).y| ≤ (1 - e.friction / 15) * |(q.vel i).y| := by
  obtain ⟨-, hv⟩ := slow_tick h0 h1 h i
  have hn : (0 : ℝ) ≤ 1 - e.friction / 15 := by linarith
  rw [hv]
  split_ifs
  · simp only [Pt.zero_x, Pt.zero_y, abs_zero]
    constructor <;> positivity
  · have a := free_abs_le e.friction (q.vel i).x
    have c := free_abs_le e.friction (q.vel i).y
    rw [abs_of_nonneg hn] at a c
    exact ⟨a, c⟩

theorem clip_small {t c : ℝ} (h : |clip t c| < t) : clip t c = 0 := by
  unfold clip at h ⊢
  split_ifs at h ⊢ with hc
  · rfl
  · exact absurd h hc

theorem slow_tick_zero {e : Env} {q : Phys} (h0 : 0 < e.friction) (h1 : e.friction ≤ 15) (h : SlowEnv e q) (i : Idx)
    (hx : |((springStep e q).1.vel i).x| < 1 / 10) (hy : |((springStep e q).1.vel i).y| < 1 / 10) :
    (springStep e q).1.vel i = 0 := by
  obtain ⟨-, hv⟩ := slow_tick h0 h1 h i
  rw [hv] at hx hy ⊢
  split_ifs at hx hy ⊢ with hl
  · rfl
  · ext
    · exact clip_small hx
    · exact clip_small hy

theorem slow_iter {e : Env} {q : Phys} (h0 : 0 < e.friction) (h1 : e.friction ≤ 15) (h : SlowEnv e q) (n : ℕ) :
    Fading e.friction q (settleIter e q n) ∧ SlowEnv e (settleIter e q n) ∧ ∀ i,
      |((settleIter e q n).vel i).x| ≤ (1 - e.friction / 15) ^ n * |(q.vel i).x| ∧
      |((settleIter e q n).vel i).y| ≤ (1 - e.friction / 15) ^ n * |(q.vel i).y| := by
  induction n with
  | zero =>
    refine ⟨Fading.refl _ _, h, fun i => ?_⟩
    simp [settleIter_zero]
  | succ n ih =>
    obtain ⟨ha, hs, hv⟩ := ih
    have hf := slow_tick_fading h0 h1 hs
    have hn : (0 : ℝ) ≤ 1 - e.friction / 15 := by linarith
    rw [settleIter_succ]
    refine ⟨ha.trans hf, hs.fading hf, fun i => ?_⟩
    obtain ⟨a, c⟩ := slow_tick_vel h0 h1 hs i
    constructor
    · refine a.trans ?_
      rw [pow_succ', mul_assoc]
      exact mul_le_mul_of_nonneg_left (hv i).1 hn
    · refine c.trans ?_
      rw [pow_succ', mul_assoc]
      exact mul_le_mul_of_nonneg_left (hv i).2 hn

/-- Velocities that have faded are zero. -/
theorem slow_stops {e : Env} {q : Phys} (h0 : 0 < e.friction) (h1 : e.friction ≤ 15) (h : SlowEnv e q) {n : ℕ}
    (hn : n ≠ 0) (hv : ∀ i, (1 - e.friction / 15) ^ n * |(q.vel i).x| < 1 / 10 ∧
      (1 - e.friction / 15) ^ n * |(q.vel i).y| < 1 / 10) (i : Idx) : (settleIter e q n).vel i = 0 := by
  obtain ⟨m, rfl⟩ := Nat.exists_eq_succ_of_ne_zero hn
  have h2 := (slow_iter h0 h1 h (m + 1)).2.2 i
  have h3 := (slow_iter h0 h1 h m).2.1
  have h4 := hv i
  rw [Nat.succ_eq_add_one] at h4 ⊢
  rw [settleIter_succ] at h2 ⊢
  exact slow_tick_zero h0 h1 h3 i (h2.1.trans_lt h4.1) (h2.2.trans_lt h4.2)

theorem slow_not_more {e : Env} {q : Phys} (h0 : 0 < e.friction) (h1 : e.friction ≤ 15) (h : SlowEnv e q) {n : ℕ}
    (hn : n ≠ 0) (hv : ∀ i, (1 - e.friction / 15) ^ n * |(q.vel i).x| < 1 / 10 ∧
      (1 - e.friction / 15) ^ n * |(q.vel i).y| < 1 / 10) : ¬ settleMore e q n := by
  unfold settleMore
  rw [springStep_rest ((slow_iter h0 h1 h n).2.1.dead h0 h1) (slow_stops h0 h1 h hn hv)]
  exact id

/-- Velocities do fade. -/
theorem fades {f : ℝ} (h0 : 0 < f) (h1 : f ≤ 15) (v : Mesh) :
    ∃ n, n ≠ 0 ∧ ∀ i, (1 - f / 15) ^ n * |(v i).x| < 1 / 10 ∧ (1 - f / 15) ^ n * |(v i).y| < 1 / 10 := by
  obtain ⟨X, hX⟩ := (Set.finite_range fun i : Idx => |(v i).x|).bddAbove
  obtain ⟨Y, hY⟩ := (Set.finite_range fun i : Idx => |(v i).y|).bddAbove
  have hn : (0 : ℝ) ≤ 1 - f / 15 := by linarith
  have hM : 0 < |X| + |Y| + 1 := by positivity
  obtain ⟨n, hn'⟩ := exists_pow_lt_of_lt_one (y := 1 - f / 15) (x := 1 / 10 / (|X| + |Y| + 1)) (by positivity)
    (by linarith)
  rw [lt_div_iff₀ hM] at hn'
  have hpn : (0 : ℝ) ≤ (1 - f / 15) ^ n := pow_nonneg hn n
  have hlt : ∀ a, a ≤ |X| + |Y| + 1 → (1 - f / 15) ^ (n + 1) * a < 1 / 10 := by
    intro a ha
    have e1 : (1 - f / 15) ^ (n + 1) * a ≤ (1 - f / 15) ^ (n + 1) * (|X| + |Y| + 1) :=
      mul_le_mul_of_nonneg_left ha (pow_nonneg hn _)
    have e2 : (1 - f / 15) ^ (n + 1) * (|X| + |Y| + 1) ≤ (1 - f / 15) ^ n * (|X| + |Y| + 1) := by
      refine mul_le_mul_of_nonneg_right ?_ hM.le
      exact pow_le_pow_of_le_one hn (by linarith) (by omega)
    linarith
  refine ⟨n + 1, by omega, fun i => ⟨hlt _ ?_, hlt _ ?_⟩⟩
  · have := hX ⟨i, rfl⟩
    have h3 := le_abs_self X
    have h4 := abs_nonneg Y
    simp only at this
    linarith
  · have := hY ⟨i, rfl⟩
    have h3 := le_abs_self Y
    have h4 := abs_nonneg X
    simp only at this
    linarith

/-- The full integration of a slow mesh returns, and where. -/
theorem slow_settles {e : Env} {q : Phys} (h0 : 0 < e.friction) (h1 : e.friction ≤ 15) (h : SlowEnv e q) :
    ∃ p, settle e q = .ok p ∧ |p.x - (q.pos 0).x| ≤ stillToGo e.friction (q.vel 0).x ∧
      |p.y - (q.pos 0).y| ≤ stillToGo e.friction (q.vel 0).y := by
  obtain ⟨n, hn, hv⟩ := fades h0 h1 q.vel
  have hm := slow_not_more h0 h1 h hn hv
  rcases settle_cases e q with ⟨p, hp⟩ | hd
  · refine ⟨p, hp, ?_⟩
    have hat := settle_at hp hm
    rw [← hat]
    obtain ⟨a, c⟩ := (slow_iter h0 h1 h n).1 0
    have a1 := stillToGo_nonneg h0 h1 ((settleIter e q n).vel 0).x
    have a2 := stillToGo_nonneg h0 h1 ((settleIter e q n).vel 0).y
    constructor <;> linarith
  · exact absurd (settle_diverges.1 hd n) hm

/-- Every point has a neighbour. -/
theorem beside : ∀ i : Idx, ∃ j : Idx, (j.val = i.val + 1 ∧ i.val % 4 ≠ 3) ∨ (i.val = j.val + 1 ∧ j.val % 4 ≠ 3) := by
  decide

theorem slow_all {s : State} (h0 : 0 < s.settings.friction) (h1 : s.settings.friction ≤ 15) (h : Slow s) (i : Idx) :
    stillToGo s.settings.friction (s.vel i).x < 1 ∧ stillToGo s.settings.friction (s.vel i).y < 1 := by
  have fn := stillToGo_nonneg h0 h1
  obtain ⟨j, hj | hj⟩ := beside i
  · have := h.right i j hj
    simp only [KeepsWithinOne] at this
    have a1 := abs_nonneg ((s.pos j).x - (s.pos i).x - s.width / 3)
    have a2 := abs_nonneg ((s.pos j).y - (s.pos i).y - 0)
    constructor <;> linarith [this.1, this.2, fn (s.vel j).x, fn (s.vel j).y]
  · have := h.right j i hj
    simp only [KeepsWithinOne] at this
    have a1 := abs_nonneg ((s.pos i).x - (s.pos j).x - s.width / 3)
    have a2 := abs_nonneg ((s.pos i).y - (s.pos j).y - 0)
    constructor <;> linarith [this.1, this.2, fn (s.vel j).x, fn (s.vel j).y]

set_option maxRecDepth 10000 in
theorem baseEdges_beside : ∀ x ∈ baseEdges, if x.2.2 then x.2.1.val = x.1.val + 4
    else x.2.1.val = x.1.val + 1 ∧ x.1.val % 4 ≠ 3 := by decide

/-- A slow state is slow for the fresh spring mesh and for any locks. -/
theorem slow_base {s : State} (h : Slow s) (e : Env) (b : ℕ) (hf : e.friction = s.settings.friction)
    (hs : ∀ x ∈ e.springs, x ∈ baseSprings s.tile b) : SlowEnv e ⟨s.pos, s.vel⟩ := by
  intro x hx
  have hx' := hs x hx
  simp only [baseSprings, List.mem_map] at hx'
  obtain ⟨⟨y, n⟩, hy, rfl⟩ := hx'
  have hmem : y ∈ baseEdges := (List.mem_zipIdx hy).2.2 ▸ List.getElem_mem _
  have hg := baseEdges_beside y hmem
  obtain ⟨i, j, v⟩ := y
  refine ⟨i, j, rfl, rfl, ?_⟩
  rw [hf]
  have e3 : (4 : ℝ) - 1 = 3 := by norm_num
  cases v with
  | true =>
    simp only [if_true] at hg
    have := h.below i j hg
    simp only [KeepsWithinOne] at this
    simpa only [deviation, Env.at_, if_true, State.tile, e3] using this
  | false =>
    simp only [Bool.false_eq_true, if_false] at hg
    have := h.right i j hg
    simp only [KeepsWithinOne] at this
    simpa only [deviation, Env.at_, Bool.false_eq_true, if_false, State.tile, e3] using this

theorem slow_target {s : State} (h : Slow s) (h0 : 0 < s.settings.friction) (h1 : s.settings.friction ≤ 15) :
    ∃ p, s.targetByFullIntegration = .ok p ∧ |p.x - (s.pos 0).x| ≤ stillToGo s.settings.friction (s.vel 0).x ∧
      |p.y - (s.pos 0).y| ≤ stillToGo s.settings.friction (s.vel 0).y :=
  slow_settles (e := s.settleEnv) h0 h1 (slow_base h s.settleEnv s.lastId rfl fun _ hx => hx)

theorem slow_recalc {s : State} (h : Slow s) (h0 : 0 < s.settings.friction) (h1 : s.settings.friction ≤ 15) :
    ∃ z, s.recalc = .ok z := by
  obtain ⟨p, hp, -⟩ := slow_target h h0 h1
  unfold State.recalc
  rw [hp]
  exact ⟨_, rfl⟩

theorem slow_activate {s : State} (h : Slow s) (h0 : 0 < s.settings.friction) (h1 : s.settings.friction ≤ 15) :
    ∃ z, s.activate = .ok z := by
  unfold State.activate
  simp only
  split_ifs
  · exact slow_recalc (s := { s with count := s.count + 1 }) ⟨h.right, h.below⟩ h0 h1
  · exact ⟨_, rfl⟩

theorem slow_deactivate {s : State} (h : Slow s) (h0 : 0 < s.settings.friction) (h1 : s.settings.friction ≤ 15)
    (hc : s.count ≠ 0) : ∃ z, s.deactivate = .ok z := by
  unfold State.deactivate
  simp only
  rw [if_neg hc]
  split_ifs
  · exact slow_recalc (s := { s with count := s.count - 1 }) ⟨h.right, h.below⟩ h0 h1
  · exact ⟨_, rfl⟩

/-! ## Following targets -/

theorem euclid_moved (t p p' : Pt) : euclid t p' ≤ euclid t p + |p'.x - p.x| + |p'.y - p.y| := by
  have hd := Real.sqrt_nonneg ((t.x - p.x) ^ 2 + (t.y - p.y) ^ 2)
  have hq := Real.sq_sqrt (by positivity : (0 : ℝ) ≤ (t.x - p.x) ^ 2 + (t.y - p.y) ^ 2)
  have hx : |t.x - p.x| ≤ Real.sqrt ((t.x - p.x) ^ 2 + (t.y - p.y) ^ 2) := Real.abs_le_sqrt (by nlinarith [sq_nonneg (t.y - p.y)])
  have hy : |t.y - p.y| ≤ Real.sqrt ((t.x - p.x) ^ 2 + (t.y - p.y) ^ 2) := Real.abs_le_sqrt (by nlinarith [sq_nonneg (t.x - p.x)])
  unfold euclid
  set d := Real.sqrt ((t.x - p.x) ^ 2 + (t.y - p.y) ^ 2)
  have ha := abs_nonneg (p'.x - p.x)
  have hb := abs_nonneg (p'.y - p.y)
  rw [Real.sqrt_le_left (by positivity)]
  have e1 : (t.x - p'.x) ^ 2 = (t.x - p.x) ^ 2 - 2 * ((t.x - p.x) * (p'.x - p.x)) + |p'.x - p.x| ^ 2 := by
    rw [sq_abs]
    ring
  have e2 : (t.y - p'.y) ^ 2 = (t.y - p.y) ^ 2 - 2 * ((t.y - p.y) * (p'.y - p.y)) + |p'.y - p.y| ^ 2 := by
    rw [sq_abs]
    ring
  have f1 : -((t.x - p.x) * (p'.x - p.x)) ≤ d * |p'.x - p.x| := by
    refine (neg_le_abs _).trans ?_
    rw [abs_mul]
    exact mul_le_mul_of_nonneg_right hx ha
  have f2 : -((t.y - p.y) * (p'.y - p.y)) ≤ d * |p'.y - p.y| := by
    refine (neg_le_abs _).trans ?_
    rw [abs_mul]
    exact mul_le_mul_of_nonneg_right hy hb
  rw [e1, e2]
  nlinarith [mul_nonneg ha hb]

/-- No point gets out of the range of its target any more. -/
def InRange (s : State) (q : Phys) : Prop :=
  ∀ i, euclid (s.targets i) (q.pos i) + stillToGo s.settings.friction (q.vel i).x +
    stillToGo s.settings.friction (q.vel i).y < s.settings.maximumRange

theorem InRange.fading {s : State} {q q' : Phys} (h : InRange s q) (hf : Fading s.settings.friction q q') :
    InRange s q' := by
  intro i
  have h1 := h i
  have h2 := hf i
  have h3 := euclid_moved (s.targets i) (q.pos i) (q'.pos i)
  linarith [h2.1, h2.2]

theorem round_in_range {s : State} {q : Phys} (h0 : 0 < s.settings.friction) (h1 : s.settings.friction ≤ 15)
    (ha : s.active) (h : InRange s q) : s.round q = .ok ((springStep s.env q).1, (springStep s.env q).2) := by
  have hd : ∀ i, Pt.distance (s.targets i) (q.pos i) < s.settings.maximumRange := by
    intro i
    have h2 := h i
    have a1 := stillToGo_nonneg h0 h1 (q.vel i).x
    have a2 := stillToGo_nonneg h0 h1 (q.vel i).y
    rw [Pt.distance_eq]
    linarith
  unfold State.round constrain
  rw [if_pos ha, if_neg (by
    rintro ⟨i, hi, -⟩
    exact hi (hd i))]
  simp only [hd, not_true, if_true, exists_false, bind_ok, false_or]

theorem integrate_in_range_slow {s : State} (h0 : 0 < s.settings.friction) (h1 : s.settings.friction ≤ 15)
    (ha : s.active) (n : ℕ) (q : Phys) (hs : SlowEnv s.env q) (h : InRange s q) :
    s.integrate n q = .ok (settleIter s.env q n, ∃ m < n, settleMore s.env q m) := by
  induction n generalizing q with
  | zero => simp [State.integrate, settleIter_zero]
  | succ n ih =>
    have hf := slow_tick_fading (e := s.env) h0 h1 hs
    simp only [State.integrate, round_in_range h0 h1 ha h, bind_ok, ih _ (hs.fading hf) (h.fading hf), Outcome.ok.injEq,
      Prod.mk.injEq, eq_iff_iff]
    constructor
    · have := settleIter_add s.env q 1 n
      rw [Nat.add_comm 1 n] at this
      rw [this]
      rfl
    · constructor
      · rintro (h | ⟨m, hm, h⟩)
        · exact ⟨0, by omega, h⟩
        · refine ⟨1 + m, by omega, ?_⟩
          rw [settleMore_add]
          exact h
      · rintro ⟨m, hm, h⟩
        cases m with
        | zero => exact Or.inl h
        | succ m =>
          refine Or.inr ⟨m, by omega, ?_⟩
          rw [Nat.add_comm, settleMore_add] at h
          exact h

/-- One step while following targets in range. -/
theorem step_in_range {s : State} (h0 : 0 < s.settings.friction) (h1 : s.settings.friction ≤ 15) (ha : s.active)
    (hd : ¬ dangling s.springs s.live) (hs : SlowEnv s.env ⟨s.pos, s.vel⟩) (h : InRange s ⟨s.pos, s.vel⟩) {t : ℕ}
    (ht : t ≠ 0) :
    ((∃ m < stepCount t, settleMore s.env ⟨s.pos, s.vel⟩ m) →
      s.step t = .ok (s.withPhys (settleIter s.env ⟨s.pos, s.vel⟩ (stepCount t)) True, .more True)) ∧
    ((¬ ∃ m < stepCount t, settleMore s.env ⟨s.pos, s.vel⟩ m) →
      s.step t = .ok (s.withPhys ⟨s.targets, fun _ => 0⟩ False, .more False)) := by
  have hM : ((if t ≠ 0 then False else s.unequal) ∨ ∃ m < stepCount t, settleMore s.env ⟨s.pos, s.vel⟩ m) =
      ∃ m < stepCount t, settleMore s.env ⟨s.pos, s.vel⟩ m := by
    simp [ht]
  constructor
  · intro hm
    unfold State.step
    rw [if_neg (fun hh => hd hh.2), integrate_in_range_slow h0 h1 ha _ _ hs h, bind_ok]
    have hT : (∃ m < stepCount t, settleMore s.env ⟨s.pos, s.vel⟩ m) = True := by simpa using hm
    simp only [Outcome.ok.injEq, Prod.mk.injEq, State.withPhys, State.mk.injEq, true_and, and_true, Res.more.injEq]
    exact ⟨⟨if_neg (fun hh => hh.1 (Or.inr hm)), hM.trans hT⟩, hM.trans hT⟩
  · intro hm
    unfold State.step
    rw [if_neg (fun hh => hd hh.2), integrate_in_range_slow h0 h1 ha _ _ hs h, bind_ok]
    have hvz : (settleIter s.env ⟨s.pos, s.vel⟩ (stepCount t)).vel = fun _ => 0 := by
      obtain ⟨n, hn⟩ := Nat.exists_eq_succ_of_ne_zero (stepCount_pos ht)
      have hz : ¬ settleMore s.env ⟨s.pos, s.vel⟩ 0 := fun hh => hm ⟨0, by omega, hh⟩
      have h2 := (settled_forever hz n).2.1
      rw [hn, show n.succ = 0 + 1 + n by omega, h2, settleIter_succ, (springStep_still hz).1]
    have hF : (∃ m < stepCount t, settleMore s.env ⟨s.pos, s.vel⟩ m) = False := by simpa using hm
    simp only [Outcome.ok.injEq, Prod.mk.injEq, State.withPhys, State.mk.injEq, true_and, and_true, Res.more.injEq]
    exact ⟨⟨if_pos ⟨fun hh => hm (hM.mp hh), ha⟩, hvz, hM.trans hF⟩, hM.trans hF⟩

/-- Steps while following targets in range: the mesh fades, or it is on its targets. -/
theorem steps_in_range {s : State} (h0 : 0 < s.settings.friction) (h1 : s.settings.friction ≤ 15) (ha : s.active)
    (hd : ¬ dangling s.springs s.live) (hq : Quiet { s with pos := s.targets, vel := fun _ => 0 })
    (hs : SlowEnv s.env ⟨s.pos, s.vel⟩) (h : InRange s ⟨s.pos, s.vel⟩) {ts : List ℕ} (ht : ∀ t ∈ ts, t ≠ 0) :
    ∃ u rs, s.run (ts.map .step) = .ok (s.withPhys (settleIter s.env ⟨s.pos, s.vel⟩ (ticks ts)) u, rs) ∨
      s.run (ts.map .step) = .ok (s.withPhys ⟨s.targets, fun _ => 0⟩ u, rs) := by
  induction ts generalizing s with
  | nil => exact ⟨s.unequal, [], Or.inl rfl⟩
  | cons t ts ih =>
    have ht0 : t ≠ 0 := ht t (by simp)
    have hsum : ticks (t :: ts) = stepCount t + ticks ts := by simp [ticks]
    obtain ⟨hy, hn⟩ := step_in_range h0 h1 ha hd hs h ht0
    simp only [List.map_cons, State.run, State.exec]
    by_cases hm : ∃ m < stepCount t, settleMore s.env ⟨s.pos, s.vel⟩ m
    · have hi := slow_iter (e := s.env) h0 h1 hs (stepCount t)
      obtain ⟨u, rs, hr⟩ := @ih (s.withPhys (settleIter s.env ⟨s.pos, s.vel⟩ (stepCount t)) True) h0 h1 ha hd
        (hq.unequal _) hi.2.1 (h.fading hi.1) (fun t' ht' => ht t' (by simp [ht']))
      rw [hy hm, bind_ok, hsum, settleIter_add]
      rcases hr with hr | hr
      · refine ⟨u, .more True :: rs, Or.inl ?_⟩
        simp only
        rw [hr, bind_ok]
        rfl
      · refine ⟨u, .more True :: rs, Or.inr ?_⟩
        simp only
        rw [hr, bind_ok]
        rfl
    · rw [hn hm, bind_ok]
      have hQ : Quiet (s.withPhys ⟨s.targets, fun _ => 0⟩ False) := hq.unequal _
      have hrun := hQ.run (fun hh => hh) ts
      simp only
      rw [hrun]
      exact ⟨False, _, Or.inr rfl⟩

end Verif.Wobbly
