import Verif.Lemmas.WobblyDamped
import Verif.Lemmas.WobblyFine

/-! # A mesh in double precision has an energy that stays bounded (for C138) -/

namespace Verif.Wobbly

open Spec Outcome Classical Props
open scoped InnerProductSpace

/-- Only the coordinates that are not free. -/
noncomputable def held (free : Idx → Prop) : EuclideanSpace ℝ (Fin 16) →ₗ[ℝ] EuclideanSpace ℝ (Fin 16) where
  toFun y := WithLp.toLp 2 (part (fun i => ¬ free i) y)
  map_add' y z := by
    ext i
    show part (fun i => ¬ free i) (y + z).ofLp i = part (fun i => ¬ free i) y i + part (fun i => ¬ free i) z i
    unfold part
    split_ifs
    · rfl
    · rw [add_zero]
  map_smul' c y := by
    ext i
    show part (fun i => ¬ free i) (c • y).ofLp i = c * part (fun i => ¬ free i) y i
    unfold part
    split_ifs
    · rfl
    · rw [mul_zero]

theorem held_inner (free : Idx → Prop) (x y : EuclideanSpace ℝ (Fin 16)) :
    ⟪held free x, y⟫_ℝ = ∑ i, part (fun i => ¬ free i) x i * part (fun i => ¬ free i) y i := by
  rw [PiLp.inner_apply]
  refine Finset.sum_congr rfl fun i _ => ?_
  show y i * part (fun i => ¬ free i) x i = _
  unfold part
  split_ifs <;> ring

theorem held_sway (free : Idx → Prop) (g : Idx → ℝ) : held free (sway free g) = 0 := by
  ext i
  show part (fun i => ¬ free i) (part free g) i = 0
  unfold part
  split_ifs <;> rfl

theorem part_sum (free : Idx → Prop) (x : EuclideanSpace ℝ (Fin 16)) :
    ‖x‖ ^ 2 = ∑ i, part free x i ^ 2 + ∑ i, part (fun i => ¬ free i) x i ^ 2 := by
  rw [EuclideanSpace.norm_sq_eq, ← Finset.sum_add_distrib]
  refine Finset.sum_congr rfl fun i _ => ?_
  rw [Real.norm_eq_abs, sq_abs]
  unfold part
  by_cases hi : free i
  · rw [if_pos hi, if_neg (not_not.2 hi)]
    ring
  · rw [if_neg hi, if_pos hi]
    ring

theorem part_part (free : Idx → Prop) (g : Idx → ℝ) : part free (part free g) = part free g := by
  funext i
  unfold part
  split_ifs <;> rfl

/-- Points whose springs hardly stretch are hardly away from where they are held. -/
def Firm (l : List Spring) (c : ℝ) (free : Idx → Prop) : Prop :=
  ∀ y : Idx → ℝ, (∀ i, ¬ free i → y i = 0) →
    1 / 2 ^ 20 * ∑ i, y i ^ 2 ≤ c * (l.map fun z => (ground y z.a - ground y z.b) * (ground y z.a - ground y z.b)).sum

/-- An energy with which springs and friction make the mesh calm down. -/
structure Calms (l : List Spring) (c γ : ℝ) (free : Idx → Prop)
    (S : EuclideanSpace ℝ (Fin 16) → EuclideanSpace ℝ (Fin 16) → ℝ) : Prop where
  vel : ∀ x v, ‖v‖ ^ 2 ≤ 4 * S x v
  pos : ∀ x v, ‖x‖ ^ 2 ≤ 2 ^ 21 * S x v
  le : ∀ x v, S x v ≤ 18 * (‖x‖ ^ 2 + ‖v‖ ^ 2)
  tick : ∀ (g : Idx → ℝ) (v w e : EuclideanSpace ℝ (Fin 16)),
    S (sway free g + (1 / 2 : ℝ) • ((1 - γ) • v - web l c free (sway free g) + w) + e)
      ((1 - γ) • v - web l c free (sway free g) + w) ≤
    (1 - 1 / 2 ^ 25) * S (sway free g) v + 2 ^ 31 * (‖(1 / 2 : ℝ) • w + e‖ ^ 2 + ‖w‖ ^ 2)

theorem exists_calms {l : List Spring} (hd : ∀ i, (l.map (endsAt i)).sum ≤ 4) {c γ : ℝ} (hc : 0 ≤ c) (hc' : c ≤ 1 / 3)
    (h0 : 1 / 150 ≤ γ) (h1 : γ ≤ 2 / 3) {free : Idx → Prop} (hP : Firm l c free) : ∃ S, Calms l c γ free S := by
  have hsym : (web l c free + held free).IsSymmetric := by
    refine LinearMap.IsSymmetric.add (web_symmetric c free) fun x y => ?_
    rw [held_inner, real_inner_comm, held_inner]
    exact Finset.sum_congr rfl fun i _ => mul_comm _ _
  have hlow : ∀ x, 1 / 2 ^ 20 * ‖x‖ ^ 2 ≤ ⟪(web l c free + held free) x, x⟫_ℝ := by
    intro x
    rw [LinearMap.add_apply, inner_add_left, web_inner, held_inner, part_sum free x]
    have k1 := hP (part free x) fun i hi => if_neg hi
    have k2 : 0 ≤ ∑ i, part (fun i => ¬ free i) x i ^ 2 := Finset.sum_nonneg fun i _ => sq_nonneg _
    have k3 : ∑ i, part (fun i => ¬ free i) x i * part (fun i => ¬ free i) x i = ∑ i, part (fun i => ¬ free i) x i ^ 2 :=
      Finset.sum_congr rfl fun i _ => (sq _).symm
    rw [k3]
    norm_num at k1 ⊢
    linarith
  have hupp : ∀ x, ⟪(web l c free + held free) x, x⟫_ℝ ≤ 8 / 3 * ‖x‖ ^ 2 := by
    intro x
    have k0 := web_le hd hc hc' free (sway free x)
    rw [web_inner] at k0
    have pp : part free (sway free x) = part free x := part_part free x
    rw [pp, part_sum free (sway free x), pp] at k0
    have e0 : ∑ i, part (fun i => ¬ free i) (sway free x) i ^ 2 = 0 := by
      refine Finset.sum_eq_zero fun i _ => ?_
      show part (fun i => ¬ free i) (part free x) i ^ 2 = 0
      unfold part
      split_ifs <;> simp
    rw [e0, add_zero] at k0
    rw [LinearMap.add_apply, inner_add_left, web_inner, held_inner, part_sum free x]
    have k2 : 0 ≤ ∑ i, part (fun i => ¬ free i) x i ^ 2 := Finset.sum_nonneg fun i _ => sq_nonneg _
    have k3 : ∑ i, part (fun i => ¬ free i) x i * part (fun i => ¬ free i) x i = ∑ i, part (fun i => ¬ free i) x i ^ 2 :=
      Finset.sum_congr rfl fun i _ => (sq _).symm
    rw [k3]
    linarith
  obtain ⟨S, hb, ht⟩ := total_energy _ hsym h0 h1 hlow hupp
  refine ⟨S, fun x v => (hb x v).1, fun x v => (hb x v).2.1, fun x v => (hb x v).2.2, fun g v w e => ?_⟩
  have := ht (sway free g) v w e
  rw [LinearMap.add_apply, held_sway, add_zero] at this
  exact this

namespace Rounded

variable {r : ℝ → ℝ} {N : ℝ}

theorem fixed_ground_now {c : Pt → ℝ} (e : Env) (q : Phys) (z : Node) :
    c (e.at_ q.pos z) = ground (Wobbly.part (fun i => ¬ e.locks i > 0) fun i => c (q.pos i)) z + fixedAt c e q z :=
  fixed_ground (c := c) (e := e) (q := q) 0 z

/-- What a tick does to a free point. -/
theorem point_fine (h : Fine r N) (hN : 1 ≤ N) {M : ℝ} (hM : 1 ≤ M) (hMN : M ≤ N) {e : Env} {q : Phys}
    (hd : ∀ i, (e.springs.map (endsAt i)).sum ≤ 4) (hk : 0 ≤ e.k) (hk' : e.k ≤ 10) (hf : 0 ≤ e.friction) (hf' : e.friction ≤ 10)
    {c : Pt → ℝ} (hc : c = Pt.x ∨ c = Pt.y) (hfix : ∀ z ∈ e.springs, |fixedAt c e q z.a| ≤ M ∧ |fixedAt c e q z.b| ≤ M)
    (hdes : ∀ z ∈ e.springs, |c z.desired| ≤ M) (hpos : ∀ i, ¬ e.locks i > 0 → |c (q.pos i)| ≤ N)
    (hvel : ∀ i, ¬ e.locks i > 0 → |c (q.vel i)| ≤ N) {i : Idx} (hi : ¬ e.locks i > 0) :
    |c ((springRound r e q).1.vel i) - ((1 - e.friction / 15) * c (q.vel i) -
        e.k / 30 * webLap e.springs (Wobbly.part (fun i => ¬ e.locks i > 0) fun i => c (q.pos i)) i)| ≤ 6 * M + 1024 * (N / 2 ^ 53) ∧
    |c ((springRound r e q).1.pos i) - (c (q.pos i) + 1 / 2 * c ((springRound r e q).1.vel i))| ≤ 1024 * (N / 2 ^ 53) := by
  set Y := Wobbly.part (fun i => ¬ e.locks i > 0) fun i => c (q.pos i) with hY
  have hg : ∀ z ∈ e.springs, ∀ n, n = z.a ∨ n = z.b → |c (e.at_ q.pos n)| ≤ N := by
    intro z hz n hn
    have hf : |fixedAt c e q n| ≤ M := by
      rcases hn with rfl | rfl
      · exact (hfix z hz).1
      · exact (hfix z hz).2
    cases n with
    | anchor j => exact (show |c (e.apos j)| ≤ M from hf).trans hMN
    | mesh j =>
      by_cases hj : e.locks j > 0
      · simp only [fixedAt, if_pos hj] at hf
        exact hf.trans hMN
      · exact hpos j hj
  have F := force_fine h hN hk hk' hc (at_ := e.at_ q.pos) (l := e.springs) i (hd i)
    fun z hz => ⟨hg z hz _ (.inl rfl), hg z hz _ (.inr rfl), (hdes z hz).trans hMN⟩
  have hn : (((e.springs.map (endsAt i)).sum : ℕ) : ℝ) ≤ 4 := by exact_mod_cast hd i
  set ρ : Spring → ℝ := fun z => e.k / 2 * (fixedAt c e q z.b - fixedAt c e q z.a - c z.desired) with hρ
  have hsum : (e.springs.map fun z =>
        (if .mesh i = z.a then e.k / 2 * (c (e.at_ q.pos z.b) - c (e.at_ q.pos z.a) - c z.desired) else 0) -
        (if .mesh i = z.b then e.k / 2 * (c (e.at_ q.pos z.b) - c (e.at_ q.pos z.a) - c z.desired) else 0)).sum =
      (e.springs.map fun z => (if .mesh i = z.a then ρ z else 0) - (if .mesh i = z.b then ρ z else 0)).sum -
        e.k / 2 * webLap e.springs Y i := by
    unfold webLap
    simp only [fixed_ground_now (c := c) e q, ← hY, hρ]
    generalize e.springs = l
    induction l with
    | nil => simp
    | cons z l ih =>
      simp only [List.map_cons, List.sum_cons]
      rw [ih]
      split_ifs <;> ring
  have hρM : |(e.springs.map fun z => (if .mesh i = z.a then ρ z else 0) - (if .mesh i = z.b then ρ z else 0)).sum| ≤ 60 * M := by
    refine (ends_bound e.springs ρ (E := 15 * M) (fun z hz => ?_) i).trans ?_
    · obtain ⟨a1, a2⟩ := hfix z hz
      have a3 := hdes z hz
      have a4 : |fixedAt c e q z.b - fixedAt c e q z.a - c z.desired| ≤ 3 * M := by
        rw [abs_le] at *
        constructor <;> linarith
      rw [hρ, abs_mul, abs_of_nonneg (by positivity)]
      calc _ ≤ 10 / 2 * (3 * M) := mul_le_mul (by linarith) a4 (abs_nonneg _) (by norm_num)
        _ = _ := by ring
    · calc _ ≤ 4 * (15 * M) := mul_le_mul_of_nonneg_right hn (by linarith)
        _ = _ := by ring
  rw [hsum] at F
  set FF := c ((calculateForces r e.k (e.at_ q.pos) e.springs).1 (.mesh i)) with hFF
  have F1 : |FF| ≤ 88 * N := F.1.trans (by
    calc _ ≤ 4 * (22 * N) := mul_le_mul_of_nonneg_right hn (by linarith)
      _ = _ := by ring)
  have F2 := F.2.trans (mul_le_mul_of_nonneg_right hn (by positivity))
  have hv : c ((springRound r e q).1.vel i) = eulerVelocity r 1 e.friction mass (c (q.vel i)) FF := by
    simp only [springRound, anchoredIntegration, if_neg hi, eulerIntegrate]
    rcases hc with rfl | rfl <;> rfl
  have hp : c ((springRound r e q).1.pos i) = r (c (q.pos i) + r (c ((springRound r e q).1.vel i) * r (1 / 2))) := by
    simp only [springRound, anchoredIntegration, if_neg hi, eulerIntegrate]
    rcases hc with rfl | rfl <;> rfl
  obtain ⟨V1, V2⟩ := velocity_fine h hN hf hf' (hvel i hi) F1
  rw [← hv] at V1 V2
  refine ⟨?_, ?_⟩
  · rw [abs_le] at hρM F2 V1 ⊢
    constructor <;> linarith
  · have := position_fine h hN (hpos i hi) V2
    rw [← hp] at this
    have e1 : c ((springRound r e q).1.vel i) / 2 = 1 / 2 * c ((springRound r e q).1.vel i) := by ring
    rw [e1] at this
    exact this

theorem round_locked (e : Env) (q : Phys) {i : Idx} (hi : e.locks i > 0) :
    (springRound r e q).1.pos i = q.pos i ∧ (springRound r e q).1.vel i = 0 := by
  simp only [springRound, anchoredIntegration, if_pos hi]
  exact ⟨trivial, rfl⟩

/-- A tick does not take the energy past its bound. -/
theorem round_calm {M : ℝ} (hM : 1 ≤ M) (h : Fine r (2 ^ 45 * M)) {e : Env} {q : Phys}
    (hd : ∀ i, (e.springs.map (endsAt i)).sum ≤ 4) (hk : 0 ≤ e.k) (hk' : e.k ≤ 10) (hf : 0 ≤ e.friction) (hf' : e.friction ≤ 10)
    {c : Pt → ℝ} (hc : c = Pt.x ∨ c = Pt.y) (hfix : ∀ z ∈ e.springs, |fixedAt c e q z.a| ≤ M ∧ |fixedAt c e q z.b| ≤ M)
    (hdes : ∀ z ∈ e.springs, |c z.desired| ≤ M) {S : EuclideanSpace ℝ (Fin 16) → EuclideanSpace ℝ (Fin 16) → ℝ}
    {free : Idx → Prop} (hfree : free = fun i => ¬ e.locks i > 0)
    (hS : Calms e.springs (e.k / 30) (e.friction / 15) free S)
    (hb : S (sway free fun i => c (q.pos i)) (sway free fun i => c (q.vel i)) ≤ 2 ^ 69 * M ^ 2) :
    S (sway free fun i => c ((springRound r e q).1.pos i)) (sway free fun i => c ((springRound r e q).1.vel i)) ≤ 2 ^ 69 * M ^ 2 := by
  subst hfree
  set free : Idx → Prop := fun i => ¬ e.locks i > 0 with hfree
  set d : Idx → ℝ := fun i => c (q.pos i) with hdd
  set u : Idx → ℝ := fun i => c (q.vel i) with hu
  set d' : Idx → ℝ := fun i => c ((springRound r e q).1.pos i) with hd'
  set u' : Idx → ℝ := fun i => c ((springRound r e q).1.vel i) with hu'
  have M0 : 0 < M := by linarith
  have hN : 1 ≤ 2 ^ 45 * M := by
    norm_num
    linarith
  have hMN : M ≤ 2 ^ 45 * M := by
    norm_num
    linarith
  have coord : ∀ (g : Idx → ℝ) (B : ℝ), 0 ≤ B → ‖sway free g‖ ^ 2 ≤ B ^ 2 → ∀ i, free i → |g i| ≤ B := by
    intro g B hB hg i hi
    have e1 : g i = (sway free g) i := (if_pos hi : Wobbly.part free g i = g i).symm
    rw [e1]
    exact (coord_le_norm _ i).trans (abs_le_of_sq_le_sq' hg hB).2
  have hpos : ∀ i, free i → |c (q.pos i)| ≤ 2 ^ 45 * M := by
    refine coord d _ (by positivity) ((hS.pos (sway free d) (sway free u)).trans ?_)
    calc _ ≤ 2 ^ 21 * (2 ^ 69 * M ^ 2) := mul_le_mul_of_nonneg_left hb (by positivity)
      _ = _ := by ring
  have hvel : ∀ i, free i → |c (q.vel i)| ≤ 2 ^ 45 * M := by
    refine coord u _ (by positivity) ((hS.vel (sway free d) (sway free u)).trans ?_)
    calc _ ≤ 4 * (2 ^ 69 * M ^ 2) := mul_le_mul_of_nonneg_left hb (by norm_num)
      _ ≤ 2 ^ 90 * M ^ 2 := by
        norm_num
        nlinarith [sq_nonneg M]
      _ = _ := by ring
  have P := fun i (hi : ¬ e.locks i > 0) => point_fine h hN hM hMN hd hk hk' hf hf' hc hfix hdes hpos hvel hi
  set w : EuclideanSpace ℝ (Fin 16) :=
    sway free u' - ((1 - e.friction / 15) • sway free u - web e.springs (e.k / 30) free (sway free d)) with hw
  set er : EuclideanSpace ℝ (Fin 16) := sway free d' - (sway free d + (1 / 2 : ℝ) • sway free u') with her
  have pp : Wobbly.part free (sway free d) = Wobbly.part free d := part_part free d
  have wi : ∀ i, |w i| ≤ 10 * M := by
    intro i
    have e1 : w i = Wobbly.part free u' i - ((1 - e.friction / 15) * Wobbly.part free u i -
        Wobbly.part free (fun i => e.k / 30 * webLap e.springs (Wobbly.part free d) i) i) := by
      simp only [hw, PiLp.sub_apply, PiLp.smul_apply, smul_eq_mul, web_apply, pp]
      rfl
    rw [e1]
    by_cases hi : free i
    · have b0 : ∀ g : Idx → ℝ, Wobbly.part free g i = g i := fun g => if_pos hi
      rw [b0 u', b0 u, b0 fun i => e.k / 30 * webLap e.springs (Wobbly.part free d) i]
      refine (P i hi).1.trans ?_
      norm_num
      linarith
    · have b0 : ∀ g : Idx → ℝ, Wobbly.part free g i = 0 := fun g => if_neg hi
      rw [b0, b0, b0]
      norm_num
      linarith
  have ei : ∀ i, |er i| ≤ 4 * M := by
    intro i
    have e1 : er i = Wobbly.part free d' i - (Wobbly.part free d i + 1 / 2 * Wobbly.part free u' i) := by
      simp only [her, PiLp.sub_apply, PiLp.smul_apply, smul_eq_mul, PiLp.add_apply]
      rfl
    rw [e1]
    by_cases hi : free i
    · have b0 : ∀ g : Idx → ℝ, Wobbly.part free g i = g i := fun g => if_pos hi
      rw [b0 u', b0 d, b0 d']
      refine (P i hi).2.trans ?_
      norm_num
      linarith
    · have b0 : ∀ g : Idx → ℝ, Wobbly.part free g i = 0 := fun g => if_neg hi
      rw [b0, b0, b0]
      norm_num
      linarith
  have wn := norm_le_of_coords (by positivity) wi
  have en := norm_le_of_coords (by positivity) ei
  have sn : ‖(1 / 2 : ℝ) • w + er‖ ≤ 36 * M := by
    refine (norm_add_le _ _).trans ?_
    rw [norm_smul, Real.norm_eq_abs, abs_of_pos (by norm_num : (0 : ℝ) < 1 / 2)]
    linarith
  have w2 : ‖w‖ ^ 2 ≤ (40 * M) ^ 2 := pow_le_pow_left₀ (norm_nonneg _) (by linarith) 2
  have s2 : ‖(1 / 2 : ℝ) • w + er‖ ^ 2 ≤ (36 * M) ^ 2 := pow_le_pow_left₀ (norm_nonneg _) sn 2
  have T := hS.tick d (sway free u) w er
  have ew : (1 - e.friction / 15) • sway free u - web e.springs (e.k / 30) free (sway free d) + w = sway free u' := by
    rw [hw]
    abel
  have ee : sway free d + (1 / 2 : ℝ) • sway free u' + er = sway free d' := by
    rw [her]
    abel
  rw [ew, ee] at T
  refine T.trans ?_
  norm_num at hb ⊢
  nlinarith

theorem rounds_calm {M : ℝ} (hM : 1 ≤ M) (h : Fine r (2 ^ 45 * M)) {s : State} (ha : ¬ s.active)
    (hd : ∀ i, (s.springs.map (endsAt i)).sum ≤ 4) (hk : 0 ≤ s.settings.springConstant) (hk' : s.settings.springConstant ≤ 10)
    (hf : 0 ≤ s.settings.friction) (hf' : s.settings.friction ≤ 10)
    (hdes : ∀ z ∈ s.springs, ∀ c, c = Pt.x ∨ c = Pt.y → |c z.desired| ≤ M)
    {S : EuclideanSpace ℝ (Fin 16) → EuclideanSpace ℝ (Fin 16) → ℝ}
    {free : Idx → Prop} (hfree : free = fun i => ¬ s.locks i > 0)
    (hS : Calms s.springs (s.settings.springConstant / 30) (s.settings.friction / 15) free S) (n : ℕ) (q : Phys)
    (hfix : ∀ z ∈ s.springs, ∀ c, c = Pt.x ∨ c = Pt.y → |fixedAt c s.env q z.a| ≤ M ∧ |fixedAt c s.env q z.b| ≤ M)
    (hb : ∀ c, c = Pt.x ∨ c = Pt.y → S (sway free fun i => c (q.pos i)) (sway free fun i => c (q.vel i)) ≤ 2 ^ 69 * M ^ 2) :
    ∃ q' m, rounds r s n q = .ok (q', m) ∧
      (∀ c, c = Pt.x ∨ c = Pt.y → S (sway free fun i => c (q'.pos i)) (sway free fun i => c (q'.vel i)) ≤ 2 ^ 69 * M ^ 2) ∧
      ∀ i, s.locks i > 0 → q'.pos i = q.pos i ∧ (q'.vel i = q.vel i ∨ q'.vel i = 0) := by
  induction n generalizing q with
  | zero => exact ⟨q, False, rfl, hb, fun i _ => ⟨rfl, .inl rfl⟩⟩
  | succ n ih =>
    have hround : round r s q = .ok ((springRound r s.env q).1, (springRound r s.env q).2) := by
      unfold round
      rw [if_neg ha]
    have hlock : ∀ i, s.locks i > 0 → (springRound r s.env q).1.pos i = q.pos i ∧ (springRound r s.env q).1.vel i = 0 :=
      fun i hi => round_locked s.env q hi
    have hfx : ∀ c n, fixedAt c s.env (springRound r s.env q).1 n = fixedAt c s.env q n := by
      intro c n
      cases n with
      | anchor j => rfl
      | mesh j =>
        simp only [fixedAt]
        split_ifs with hj
        · rw [(hlock j hj).1]
        · rfl
    obtain ⟨q', m, e1, e2, e3⟩ := ih (springRound r s.env q).1 (fun z hz c hc => by rw [hfx, hfx]; exact hfix z hz c hc)
      (fun c hc => round_calm hM h (e := s.env) hd hk hk' hf hf' hc (fun z hz => hfix z hz c hc) (fun z hz => hdes z hz c hc)
        hfree hS (hb c hc))
    refine ⟨q', (springRound r s.env q).2 ∨ m, ?_, e2, fun i hi => ?_⟩
    · simp only [rounds, hround, bind_ok, e1]
    · refine ⟨(e3 i hi).1.trans (hlock i hi).1, .inr ?_⟩
      rcases (e3 i hi).2 with k | k
      · exact k.trans (hlock i hi).2
      · exact k

end Rounded

end Verif.Wobbly
