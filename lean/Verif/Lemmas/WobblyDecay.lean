import Verif.Lemmas.WobblyTugAgree
import Verif.Lemmas.WobblyBits

/-! # The swing of a mesh in double precision comes down (for C140) -/

namespace Verif.Wobbly.Rounded

open Spec Outcome Classical Props Wobbly

variable {r : ℝ → ℝ}

theorem _root_.Verif.Wobbly.Calms.nonneg {l : List Spring} {c γ : ℝ} {free : Idx → Prop} {S : EuclideanSpace ℝ (Fin 16) → EuclideanSpace ℝ (Fin 16) → ℝ}
    (hS : Calms l c γ free S) (x v : EuclideanSpace ℝ (Fin 16)) : 0 ≤ S x v := by
  have := hS.vel x v
  nlinarith [sq_nonneg ‖v‖]

/-- A tick takes a fixed part of the energy away, up to what is due to the size of the mesh. -/
theorem round_decay {M K : ℝ} (hM : 1 ≤ M) (hMK : M ≤ K) (h : Fine r (2 ^ 47 * K)) {e : Env} {q : Phys}
    (hd : ∀ i, (e.springs.map (endsAt i)).sum ≤ 4) (hk : 0 ≤ e.k) (hk' : e.k ≤ 10) (hf : 0 ≤ e.friction) (hf' : e.friction ≤ 10)
    {c : Pt → ℝ} (hc : c = Pt.x ∨ c = Pt.y) (hfix : ∀ z ∈ e.springs, |fixedAt c e q z.a| ≤ M ∧ |fixedAt c e q z.b| ≤ M)
    (hdes : ∀ z ∈ e.springs, |c z.desired| ≤ M) {S : EuclideanSpace ℝ (Fin 16) → EuclideanSpace ℝ (Fin 16) → ℝ}
    {free : Idx → Prop} (hfree : free = fun i => ¬ e.locks i > 0)
    (hS : Calms e.springs (e.k / 30) (e.friction / 15) free S)
    (hb : S (sway free fun i => c (q.pos i)) (sway free fun i => c (q.vel i)) ≤ 2 ^ 70 * K ^ 2) :
    S (sway free fun i => c ((springRound r e q).1.pos i)) (sway free fun i => c ((springRound r e q).1.vel i)) ≤
      (1 - 1 / 2 ^ 26) * S (sway free fun i => c (q.pos i)) (sway free fun i => c (q.vel i)) + 2 ^ 43 * M ^ 2 := by
  subst hfree
  set free : Idx → Prop := fun i => ¬ e.locks i > 0 with hfree
  set d : Idx → ℝ := fun i => c (q.pos i) with hdd
  set u : Idx → ℝ := fun i => c (q.vel i) with hu
  set d' : Idx → ℝ := fun i => c ((springRound r e q).1.pos i) with hd'
  set u' : Idx → ℝ := fun i => c ((springRound r e q).1.vel i) with hu'
  have M0 : 0 < M := by linarith
  have K0 : 0 < K := by linarith
  set Z := S (sway free d) (sway free u) with hZ
  have Z0 : 0 ≤ Z := hS.nonneg _ _
  set σ := Real.sqrt Z with hσ
  have σ0 : 0 ≤ σ := Real.sqrt_nonneg _
  have σ2 : σ ^ 2 = Z := Real.sq_sqrt Z0
  have σK : σ ≤ 2 ^ 35 * K := by
    refine Real.sqrt_le_iff.2 ⟨by positivity, hb.trans (le_of_eq ?_)⟩
    ring
  set N := 2 ^ 11 * σ + M with hNd
  have hN : 1 ≤ N := by
    have : 0 ≤ 2 ^ 11 * σ := by positivity
    linarith
  have hMN : M ≤ N := by
    have : 0 ≤ 2 ^ 11 * σ := by positivity
    linarith
  have hr : Fine r N := by
    intro x hx
    refine h x (hx.trans (mul_le_mul_of_nonneg_left ?_ (by norm_num)))
    norm_num at σK hNd ⊢
    linarith
  have coord : ∀ (g : Idx → ℝ) (B : ℝ), 0 ≤ B → ‖sway free g‖ ^ 2 ≤ B ^ 2 → ∀ i, free i → |g i| ≤ B := by
    intro g B hB hg i hi
    have e1 : g i = (sway free g) i := (if_pos hi : Wobbly.part free g i = g i).symm
    rw [e1]
    exact (coord_le_norm _ i).trans (abs_le_of_sq_le_sq' hg hB).2
  have hbig : (2 ^ 11 * σ) ^ 2 ≤ N ^ 2 := pow_le_pow_left₀ (by positivity) (by linarith) 2
  have hpos : ∀ i, free i → |c (q.pos i)| ≤ N := by
    refine coord d _ (by linarith) ((hS.pos (sway free d) (sway free u)).trans (le_trans ?_ hbig))
    rw [mul_pow, σ2]
    norm_num
    linarith
  have hvel : ∀ i, free i → |c (q.vel i)| ≤ N := by
    refine coord u _ (by linarith) ((hS.vel (sway free d) (sway free u)).trans (le_trans ?_ hbig))
    rw [mul_pow, σ2]
    norm_num
    linarith
  have P := fun i (hi : ¬ e.locks i > 0) => point_fine hr hN hM hMN hd hk hk' hf hf' hc hfix hdes hpos hvel hi
  have hNe : 1024 * (N / 2 ^ 53) ≤ M + σ / 2 ^ 32 := by
    rw [hNd]
    norm_num
    linarith
  set w : EuclideanSpace ℝ (Fin 16) :=
    sway free u' - ((1 - e.friction / 15) • sway free u - web e.springs (e.k / 30) free (sway free d)) with hw
  set er : EuclideanSpace ℝ (Fin 16) := sway free d' - (sway free d + (1 / 2 : ℝ) • sway free u') with her
  have pp : Wobbly.part free (sway free d) = Wobbly.part free d := part_part free d
  have wi : ∀ i, |w i| ≤ 7 * M + σ / 2 ^ 32 := by
    intro i
    have e1 : w i = Wobbly.part free u' i - ((1 - e.friction / 15) * Wobbly.part free u i -
        Wobbly.part free (fun i => e.k / 30 * webLap e.springs (Wobbly.part free d) i) i) := by
      simp only [hw, PiLp.sub_apply, PiLp.smul_apply, smul_eq_mul, web_apply, pp]
      rfl
    rw [e1]
    by_cases hi : free i
    · have b0 : ∀ g : Idx → ℝ, Wobbly.part free g i = g i := fun g => if_pos hi
      rw [b0 u', b0 u, b0 fun i => e.k / 30 * webLap e.springs (Wobbly.part free d) i]
      refine (P i hi).1.trans ?_
      linarith
    · have b0 : ∀ g : Idx → ℝ, Wobbly.part free g i = 0 := fun g => if_neg hi
      rw [b0, b0, b0, mul_zero, sub_zero, sub_zero, abs_zero]
      positivity
  have ei : ∀ i, |er i| ≤ M + σ / 2 ^ 32 := by
    intro i
    have e1 : er i = Wobbly.part free d' i - (Wobbly.part free d i + 1 / 2 * Wobbly.part free u' i) := by
      simp only [her, PiLp.sub_apply, PiLp.smul_apply, smul_eq_mul, PiLp.add_apply]
      rfl
    rw [e1]
    by_cases hi : free i
    · have b0 : ∀ g : Idx → ℝ, Wobbly.part free g i = g i := fun g => if_pos hi
      rw [b0 u', b0 d, b0 d']
      exact (P i hi).2.trans hNe
    · have b0 : ∀ g : Idx → ℝ, Wobbly.part free g i = 0 := fun g => if_neg hi
      rw [b0, b0, b0, mul_zero, add_zero, sub_zero, abs_zero]
      positivity
  have wn := norm_le_of_coords (by positivity) wi
  have en := norm_le_of_coords (by positivity) ei
  have sn : ‖(1 / 2 : ℝ) • w + er‖ ≤ 18 * M + 6 * (σ / 2 ^ 32) := by
    refine (norm_add_le _ _).trans ?_
    rw [norm_smul, Real.norm_eq_abs, abs_of_pos (by norm_num : (0 : ℝ) < 1 / 2)]
    linarith
  have w2 : ‖w‖ ^ 2 ≤ (28 * M + 4 * (σ / 2 ^ 32)) ^ 2 := pow_le_pow_left₀ (norm_nonneg _) (by linarith) 2
  have s2 : ‖(1 / 2 : ℝ) • w + er‖ ^ 2 ≤ (18 * M + 6 * (σ / 2 ^ 32)) ^ 2 := pow_le_pow_left₀ (norm_nonneg _) sn 2
  have w3 : (28 * M + 4 * (σ / 2 ^ 32)) ^ 2 ≤ 1568 * M ^ 2 + 32 * (Z / 2 ^ 64) := by
    rw [← σ2]
    nlinarith [sq_nonneg (28 * M - 4 * (σ / 2 ^ 32))]
  have s3 : (18 * M + 6 * (σ / 2 ^ 32)) ^ 2 ≤ 648 * M ^ 2 + 72 * (Z / 2 ^ 64) := by
    rw [← σ2]
    nlinarith [sq_nonneg (18 * M - 6 * (σ / 2 ^ 32))]
  have T := hS.tick d (sway free u) w er
  have ew : (1 - e.friction / 15) • sway free u - web e.springs (e.k / 30) free (sway free d) + w = sway free u' := by
    rw [hw]
    abel
  have ee : sway free d + (1 / 2 : ℝ) • sway free u' + er = sway free d' := by
    rw [her]
    abel
  rw [ew, ee] at T
  refine T.trans ?_
  have M2 := sq_nonneg M
  have k := add_le_add (s2.trans s3) (w2.trans w3)
  have k2 := mul_le_mul_of_nonneg_left k (show (0 : ℝ) ≤ 2 ^ 31 by norm_num)
  refine (add_le_add_right k2 _).trans ?_
  norm_num
  linarith

theorem rounds_decay {M K A : ℝ} (hM : 1 ≤ M) (hMK : M ≤ K) (hA : 0 ≤ A) (hAK : A + 2 ^ 69 * M ^ 2 ≤ 2 ^ 70 * K ^ 2)
    (h : Fine r (2 ^ 47 * K)) {s : State} (ha : ¬ s.active)
    (hd : ∀ i, (s.springs.map (endsAt i)).sum ≤ 4) (hk : 0 ≤ s.settings.springConstant) (hk' : s.settings.springConstant ≤ 10)
    (hf : 0 ≤ s.settings.friction) (hf' : s.settings.friction ≤ 10)
    (hdes : ∀ z ∈ s.springs, ∀ c, c = Pt.x ∨ c = Pt.y → |c z.desired| ≤ M)
    {S : EuclideanSpace ℝ (Fin 16) → EuclideanSpace ℝ (Fin 16) → ℝ}
    {free : Idx → Prop} (hfree : free = fun i => ¬ s.locks i > 0)
    (hS : Calms s.springs (s.settings.springConstant / 30) (s.settings.friction / 15) free S) (n : ℕ) (q : Phys)
    (hfix : ∀ z ∈ s.springs, ∀ c, c = Pt.x ∨ c = Pt.y → |fixedAt c s.env q z.a| ≤ M ∧ |fixedAt c s.env q z.b| ≤ M)
    (hb : ∀ c, c = Pt.x ∨ c = Pt.y → S (sway free fun i => c (q.pos i)) (sway free fun i => c (q.vel i)) ≤ A + 2 ^ 69 * M ^ 2)
    {q' : Phys} {m : Prop} (e : rounds r s n q = .ok (q', m)) :
    (∀ c, c = Pt.x ∨ c = Pt.y → S (sway free fun i => c (q'.pos i)) (sway free fun i => c (q'.vel i)) ≤
      (1 - 1 / 2 ^ 26) ^ n * A + 2 ^ 69 * M ^ 2) ∧
      ∀ i, s.locks i > 0 → (0 < n ∨ q.vel i = 0) → q'.vel i = 0 := by
  induction n generalizing q A m with
  | zero =>
    simp only [rounds, Outcome.ok.injEq, Prod.mk.injEq] at e
    rw [← e.1, pow_zero, one_mul]
    exact ⟨hb, fun i _ h => h.resolve_left (lt_irrefl 0)⟩
  | succ n ih =>
    have hround : round r s q = .ok ((springRound r s.env q).1, (springRound r s.env q).2) := by
      unfold round
      rw [if_neg ha]
    have hlock : ∀ i, s.locks i > 0 → (springRound r s.env q).1.pos i = q.pos i ∧ (springRound r s.env q).1.vel i = 0 :=
      fun i hi => round_locked s.env q hi
    have hfx : ∀ c n, fixedAt c s.env (springRound r s.env q).1 n = fixedAt c s.env q n := by
      intro c n
      cases n with
      | anchor j => rfl
      | mesh j =>
        simp only [fixedAt]
        split_ifs with hj
        · rw [(hlock j hj).1]
        · rfl
    simp only [rounds, hround, bind_ok, bind_eq_ok] at e
    obtain ⟨⟨q2, m2⟩, e3, e4⟩ := e
    simp only [Outcome.ok.injEq, Prod.mk.injEq] at e4
    obtain ⟨rfl, -⟩ := e4
    have hb2 : ∀ c, c = Pt.x ∨ c = Pt.y → S (sway free fun i => c ((springRound r s.env q).1.pos i))
        (sway free fun i => c ((springRound r s.env q).1.vel i)) ≤ (1 - 1 / 2 ^ 26) * A + 2 ^ 69 * M ^ 2 := by
      intro c hc
      have := round_decay hM hMK h (e := s.env) hd hk hk' hf hf' hc (fun z hz => hfix z hz c hc) (fun z hz => hdes z hz c hc)
        hfree hS ((hb c hc).trans hAK)
      refine this.trans ?_
      have k := mul_le_mul_of_nonneg_left (hb c hc) (show (0 : ℝ) ≤ 1 - 1 / 2 ^ 26 by norm_num)
      refine (add_le_add_left k _).trans (le_of_eq ?_)
      ring
    obtain ⟨k1, k2⟩ := ih (A := (1 - 1 / 2 ^ 26) * A) (mul_nonneg (by norm_num) hA) (by norm_num at hAK ⊢; linarith)
      (springRound r s.env q).1 (fun z hz c hc => by rw [hfx, hfx]; exact hfix z hz c hc) hb2 e3
    refine ⟨fun c hc => ?_, fun i hi _ => k2 i hi (.inr (hlock i hi).2)⟩
    rw [pow_succ, mul_assoc]
    exact k1 c hc

/-- How many ticks these calls are. -/
noncomputable def ticksOf : List Op → ℕ
  | [] => 0
  | .step t :: ops => stepCount t + ticksOf ops
  | _ :: ops => ticksOf ops

theorem ticksOf_append (l m : List Op) : ticksOf (l ++ m) = ticksOf l + ticksOf m := by
  induction l with
  | nil => simp [ticksOf]
  | cons op l ih => cases op <;> simp only [List.cons_append, ticksOf, ih, add_assoc]

theorem steppedFor_le (l : List Op) : steppedFor l ≤ 16 * ticksOf l := by
  induction l with
  | nil => simp [steppedFor]
  | cons op l ih =>
    cases op with
    | step t =>
      simp only [steppedFor, ticksOf]
      have : t ≤ 16 * stepCount t := by
        have := Nat.le_ceil ((t : ℝ) / 16)
        have h2 : (t : ℝ) ≤ 16 * (stepCount t : ℝ) := by
          unfold stepCount
          linarith
        exact_mod_cast h2
      omega
    | _ => exact ih

theorem AnchorsWithin.mono {M N : ℝ} {s : State} (h : AnchorsWithin M s) (hN : M ≤ N) : AnchorsWithin N s :=
  ⟨fun i hi => ⟨(h.1 i hi).1.trans hN, (h.1 i hi).2.trans hN⟩,
    fun a ha p st f g hk => ⟨(h.2 a ha p st f g hk).1.trans hN, (h.2 a ha p st f g hk).2.trans hN⟩⟩

/-- Calls take the energy down. -/
theorem tug_decay {M V : ℝ} (hM : 1 ≤ M) (hMV : M ≤ V) (hr : Fine r (2 ^ 47 * V)) {o : State} (ha : ¬ o.active)
    (hn : (o.live.map Live.hid).Nodup) (hl : ∀ i, o.locks i = heldBy o i)
    (hdeg : ∀ i, (o.springs.map (endsAt i)).sum ≤ 4) (hd : ¬ dangling o.springs o.live)
    (hk : 0 ≤ o.settings.springConstant) (hk' : o.settings.springConstant ≤ 10)
    (hf : 1 / 10 ≤ o.settings.friction) (hf' : o.settings.friction ≤ 10)
    {free : Idx → Prop} (hfree : free = fun i => ¬ o.locks i > 0)
    (hP : Firm o.springs (o.settings.springConstant / 30) free) (hall : SwingsWithin V M o) :
    ∃ S, Calms o.springs (o.settings.springConstant / 30) (o.settings.friction / 15) free S ∧
    ∀ ops, (∀ op ∈ ops, Tugs op) → KeepsAnchorsWithin r M o ops →
      ∃ s rs, run r o ops = .ok (s, rs) ∧ Rigged o s ∧ (s.live.map Live.hid).Nodup ∧
        (∀ c, c = Pt.x ∨ c = Pt.y → S (sway free fun i => c (s.pos i)) (sway free fun i => c (s.vel i)) ≤
          (1 - 1 / 2 ^ 26) ^ ticksOf ops * (2 ^ 10 * V ^ 2) + 2 ^ 69 * M ^ 2) ∧
        (0 < ticksOf ops → ∀ i, o.locks i > 0 → s.vel i = 0) := by
  obtain ⟨S, hS⟩ := exists_calms hdeg (c := o.settings.springConstant / 30) (γ := o.settings.friction / 15) (by positivity)
    (by linarith) (by linarith) (by linarith) hP
  have M0 : 0 < M := by linarith
  have V0 : 0 < V := by linarith
  have MV2 : M ^ 2 ≤ V ^ 2 := pow_le_pow_left₀ M0.le hMV 2
  have V2 : 0 ≤ V ^ 2 := sq_nonneg V
  have start : ∀ c, c = Pt.x ∨ c = Pt.y →
      S (sway free fun i => c (o.pos i)) (sway free fun i => c (o.vel i)) ≤ 2 ^ 10 * V ^ 2 + 2 ^ 69 * M ^ 2 := by
    intro c hc
    refine (hS.le _ _).trans ?_
    have k : ∀ g : Idx → ℝ, (∀ i, |g i| ≤ V) → ‖sway free g‖ ^ 2 ≤ (4 * V) ^ 2 := by
      intro g hg
      refine pow_le_pow_left₀ (norm_nonneg _) (norm_le_of_coords V0.le fun i => ?_) 2
      show |Wobbly.part free g i| ≤ V
      unfold Wobbly.part
      split_ifs
      · exact hg i
      · rw [abs_zero]
        exact V0.le
    have k1 := k (fun i => c (o.pos i)) fun i => (hall.1 i).axis hc
    have k2 := k (fun i => c (o.vel i)) fun i => (hall.2.1 i).axis hc
    have := sq_nonneg M
    norm_num
    nlinarith
  refine ⟨S, hS, ?_⟩
  have ρ0 : (0 : ℝ) ≤ 1 - 1 / 2 ^ 26 := by norm_num
  have ρ1 : (1 - 1 / 2 ^ 26 : ℝ) ≤ 1 := by norm_num
  intro ops
  induction ops using List.reverseRecOn with
  | nil =>
    refine fun _ _ => ⟨o, [], rfl, rigged_self o, hn, fun c hc => ?_, fun h => absurd h (lt_irrefl 0)⟩
    simp only [ticksOf, pow_zero, one_mul]
    exact start c hc
  | append_singleton l op ih =>
    intro hops hnear
    obtain ⟨s, rs, hrun, H, hns, hbs, hz⟩ := ih (fun op h => hops op (List.mem_append_left _ h))
      (fun m hm => hnear m (hm.trans (List.prefix_append _ _)))
    set A := (1 - 1 / 2 ^ 26 : ℝ) ^ ticksOf l * (2 ^ 10 * V ^ 2) with hA
    have A0 : 0 ≤ A := mul_nonneg (pow_nonneg ρ0 _) (by positivity)
    have A1 : A ≤ 2 ^ 10 * V ^ 2 := by
      have := mul_le_mul_of_nonneg_right (pow_le_one₀ (n := ticksOf l) ρ0 ρ1) (show (0 : ℝ) ≤ 2 ^ 10 * V ^ 2 by positivity)
      rw [one_mul] at this
      exact this
    set K := Real.sqrt (A / 2 ^ 69 + M ^ 2) with hK
    have hK2 : K ^ 2 = A / 2 ^ 69 + M ^ 2 := Real.sq_sqrt (by positivity)
    have hMK : M ≤ K := Real.le_sqrt_of_sq_le (by
      have : 0 ≤ A / 2 ^ 69 := by positivity
      linarith)
    have hKV : K ≤ 2 * V := by
      refine Real.sqrt_le_iff.2 ⟨by positivity, ?_⟩
      norm_num at A1 ⊢
      nlinarith
    have hbK : 2 ^ 69 * K ^ 2 = A + 2 ^ 69 * M ^ 2 := by
      rw [hK2]
      ring
    have hanch := hnear l (List.prefix_append _ _) s rs hrun
    have hrK : Fine r (2 ^ 45 * K) := fun x hx => hr x (hx.trans (by norm_num; linarith))
    have hop := hops op (by simp)
    obtain ⟨s', y, hex, H', hn', hb'⟩ := H.exec (by linarith) hrK ha hns hl hdeg hd hk hk' (by linarith) hf'
      (fun z hz => ⟨(hall.2.2 z hz).1.trans hMK, (hall.2.2 z hz).2.trans hMK⟩) hfree hS
      (by rw [hbK]; exact hbs) (AnchorsWithin.mono hanch hMK) hop
    refine ⟨s', rs ++ [y], ?_, H', hn', ?_⟩
    · rw [Rounded.run_append, hrun, bind_ok]
      simp only [run, hex, bind_ok]
    rw [ticksOf_append, pow_add, mul_comm ((1 - 1 / 2 ^ 26 : ℝ) ^ ticksOf l), mul_assoc, ← hA]
    by_cases hstep : ∃ t, op = .step t
    · obtain ⟨t, rfl⟩ := hstep
      have ha' : ¬ s.active := by
        unfold State.active
        rw [H.count]
        exact ha
      have hfx : ∀ n c, c = Pt.x ∨ c = Pt.y → |fixedAt c s.env ⟨s.pos, s.vel⟩ n| ≤ M := by
        intro n c hc
        cases n with
        | anchor j => exact (anchorData_within (by linarith) hanch.2 j).axis hc
        | mesh j =>
          simp only [fixedAt]
          split_ifs with hj
          · refine (hanch.1 j ?_).axis hc
            rw [H.grabs, ← hl, ← H.locks]
            exact hj
          · rw [abs_zero]
            linarith
      obtain ⟨pos, vel, m, rfl, rfl⟩ := Rounded.step_fields hex
      obtain ⟨q, u, hq, hv, -, hp⟩ := step_did hex
      rw [if_neg fun hh => ha' hh.2] at hp
      simp only at hp hv
      obtain ⟨d1, d2⟩ := rounds_decay hM (K := V) hMV A0 (by norm_num at A1 ⊢; nlinarith) hr ha' (by rw [H.springs]; exact hdeg)
        (by rw [H.settings]; exact hk) (by rw [H.settings]; exact hk') (by rw [H.settings]; linarith) (by rw [H.settings]; exact hf')
        (by rw [H.springs]; exact fun z hz c hc => (hall.2.2 z hz).axis hc) (free := free) (by rw [hfree, H.locks])
        (by rw [H.springs, H.settings]; exact hS) (stepCount t) ⟨s.pos, s.vel⟩ (fun z _ c hc => ⟨hfx _ c hc, hfx _ c hc⟩) hbs hq
      have et : ticksOf [Op.step t] = stepCount t := rfl
      rw [et]
      refine ⟨fun c hc => ?_, fun hpos i hi => ?_⟩
      · show S (sway free fun i => c (pos i)) (sway free fun i => c (vel i)) ≤ _
        rw [hp, hv]
        exact d1 c hc
      · show vel i = 0
        rw [hv]
        refine d2 i (by rw [H.locks]; exact hi) ?_
        rcases Nat.eq_zero_or_pos (stepCount t) with h0 | h0
        · exact .inr (hz (by omega) i hi)
        · exact .inl h0
    · have et : ticksOf [op] = 0 := by
        cases op with
        | step t => exact absurd ⟨t, rfl⟩ hstep
        | _ => rfl
      have hvel : s'.vel = s.vel := by
        cases op with
        | step t => exact absurd ⟨t, rfl⟩ hstep
        | moveAnchor k d =>
          simp only [Rounded.exec, moveAnchor] at hex
          split at hex
          · simp only [Outcome.ok.injEq, Prod.mk.injEq] at hex
            rw [← hex.1]
          · split at hex <;>
            · simp only [Outcome.ok.injEq, Prod.mk.injEq] at hex
              rw [← hex.1]
        | elsewhere n =>
          simp only [Rounded.exec, Outcome.ok.injEq, Prod.mk.injEq] at hex
          rw [← hex.1]
        | _ => exact hop.elim
      rw [et, pow_zero, one_mul, ← hbK]
      refine ⟨hb', fun hpos i hi => ?_⟩
      rw [hvel]
      exact hz (by omega) i hi

theorem slowly_halved (k : ℕ) {n : ℕ} (hn : 2 ^ 26 * k ≤ n) : (1 - 1 / 2 ^ 26 : ℝ) ^ n * 2 ^ k ≤ 1 := by
  have h0 : (0 : ℝ) ≤ 1 - 1 / 2 ^ 26 := by norm_num
  have h1 : (1 - 1 / 2 ^ 26 : ℝ) ^ n ≤ (1 - 1 / 2 ^ 26) ^ (2 ^ 26 * k) := pow_le_pow_of_le_one h0 (by norm_num) hn
  have h2 : ∀ N : ℕ, (N : ℝ) = 2 ^ 26 → (1 - 1 / 2 ^ 26 : ℝ) ^ N * 2 ≤ 1 := by
    intro N hN
    have b := one_add_mul_le_pow (a := (1 / 2 ^ 26 : ℝ)) (by norm_num) N
    rw [hN, mul_one_div_cancel (by positivity)] at b
    calc (1 - 1 / 2 ^ 26 : ℝ) ^ N * 2 ≤ (1 - 1 / 2 ^ 26 : ℝ) ^ N * (1 + 1 / 2 ^ 26) ^ N :=
          mul_le_mul_of_nonneg_left (by linarith) (pow_nonneg h0 N)
      _ = ((1 - 1 / 2 ^ 26 : ℝ) * (1 + 1 / 2 ^ 26)) ^ N := (mul_pow _ _ _).symm
      _ ≤ 1 := pow_le_one₀ (by norm_num) (by norm_num)
  calc (1 - 1 / 2 ^ 26 : ℝ) ^ n * 2 ^ k ≤ (1 - 1 / 2 ^ 26) ^ (2 ^ 26 * k) * 2 ^ k := mul_le_mul_of_nonneg_right h1 (by positivity)
    _ = ((1 - 1 / 2 ^ 26 : ℝ) ^ (2 ^ 26) * 2) ^ k := by rw [pow_mul, mul_pow]
    _ ≤ 1 := pow_le_one₀ (mul_nonneg (pow_nonneg h0 _) (by norm_num)) (h2 _ (by norm_num))

/-- In the end the mesh is no larger than its anchors and springs make it. -/
theorem tug_settles {M V : ℝ} (hM : 1 ≤ M) (hMV : M ≤ V) {k : ℕ} (hVk : V ≤ 2 ^ k * M) (hr : Fine r (2 ^ 47 * V)) {o : State}
    (ha : ¬ o.active) (hnd : (o.live.map Live.hid).Nodup) (hl : ∀ i, o.locks i = heldBy o i)
    (hdeg : ∀ i, (o.springs.map (endsAt i)).sum ≤ 4) (hd : ¬ dangling o.springs o.live)
    (hk : 0 ≤ o.settings.springConstant) (hk' : o.settings.springConstant ≤ 10)
    (hf : 1 / 10 ≤ o.settings.friction) (hf' : o.settings.friction ≤ 10)
    (hP : Firm o.springs (o.settings.springConstant / 30) (fun i => ¬ o.locks i > 0)) (hall : SwingsWithin V M o)
    (ops : List Op) (hops : ∀ op ∈ ops, Tugs op) (hnear : KeepsAnchorsWithin r M o ops) (hT : 16 * (2 ^ 27 * k + 1) ≤ steppedFor ops) :
    ∃ s rs, run r o ops = .ok (s, rs) ∧ ∀ i, Within (2 ^ 46 * M) (s.pos i) ∧ Within (2 ^ 36 * M) (s.vel i) := by
  have M0 : 0 < M := by linarith
  have V0 : 0 < V := by linarith
  set free : Idx → Prop := fun i => ¬ o.locks i > 0 with hfree
  obtain ⟨S, hS, key⟩ := tug_decay hM hMV hr ha hnd hl hdeg hd hk hk' hf hf' hfree hP hall
  obtain ⟨s, rs, hrun, H, -, hb, hz⟩ := key ops hops hnear
  have ht := steppedFor_le ops
  have htn : 2 ^ 26 * (2 * k) + 1 ≤ ticksOf ops := by
    have : 2 ^ 26 * (2 * k) = 2 ^ 27 * k := by ring
    omega
  have hsmall : (1 - 1 / 2 ^ 26 : ℝ) ^ ticksOf ops * (2 ^ 10 * V ^ 2) ≤ 2 ^ 69 * M ^ 2 := by
    have h0 : (0 : ℝ) ≤ (1 - 1 / 2 ^ 26) ^ ticksOf ops := pow_nonneg (by norm_num) _
    have h1 : V ^ 2 ≤ 2 ^ (2 * k) * M ^ 2 := by
      calc V ^ 2 ≤ (2 ^ k * M) ^ 2 := pow_le_pow_left₀ V0.le hVk 2
        _ = _ := by ring
    have h2 : (1 - 1 / 2 ^ 26 : ℝ) ^ ticksOf ops * V ^ 2 ≤ M ^ 2 := by
      calc (1 - 1 / 2 ^ 26 : ℝ) ^ ticksOf ops * V ^ 2 ≤ (1 - 1 / 2 ^ 26) ^ ticksOf ops * (2 ^ (2 * k) * M ^ 2) :=
            mul_le_mul_of_nonneg_left h1 h0
        _ = (1 - 1 / 2 ^ 26) ^ ticksOf ops * 2 ^ (2 * k) * M ^ 2 := (mul_assoc _ _ _).symm
        _ ≤ 1 * M ^ 2 := mul_le_mul_of_nonneg_right (slowly_halved (2 * k) (by omega)) (sq_nonneg M)
        _ = M ^ 2 := one_mul _
    have h3 := sq_nonneg M
    calc (1 - 1 / 2 ^ 26 : ℝ) ^ ticksOf ops * (2 ^ 10 * V ^ 2) = 2 ^ 10 * ((1 - 1 / 2 ^ 26) ^ ticksOf ops * V ^ 2) :=
          mul_left_comm _ _ _
      _ ≤ 2 ^ 10 * M ^ 2 := mul_le_mul_of_nonneg_left h2 (by norm_num)
      _ ≤ 2 ^ 69 * M ^ 2 := mul_le_mul_of_nonneg_right (by norm_num) h3
  have hlast := hnear ops (List.prefix_refl _) s rs hrun
  have coord : ∀ (g : Idx → ℝ) (B : ℝ), 0 ≤ B → ‖sway free g‖ ^ 2 ≤ B ^ 2 → ∀ i, free i → |g i| ≤ B := by
    intro g B hB hg i hi
    have e1 : g i = (sway free g) i := (if_pos hi : Wobbly.part free g i = g i).symm
    rw [e1]
    exact (coord_le_norm _ i).trans (abs_le_of_sq_le_sq' hg hB).2
  have fin : ∀ c, c = Pt.x ∨ c = Pt.y → ∀ i, |c (s.pos i)| ≤ 2 ^ 46 * M ∧ |c (s.vel i)| ≤ 2 ^ 36 * M := by
    intro c hc i
    have hb : S (sway free fun i => c (s.pos i)) (sway free fun i => c (s.vel i)) ≤ 2 ^ 70 * M ^ 2 :=
      (hb c hc).trans (by linarith)
    have M2 := sq_nonneg M
    by_cases hi : free i
    · constructor
      · refine coord (fun i => c (s.pos i)) _ (by positivity)
          ((hS.pos (sway free fun i => c (s.pos i)) (sway free fun i => c (s.vel i))).trans ?_) i hi
        calc _ ≤ 2 ^ 21 * (2 ^ 70 * M ^ 2) := mul_le_mul_of_nonneg_left hb (by positivity)
          _ ≤ 2 ^ 92 * M ^ 2 := by
            norm_num
            linarith
          _ = _ := by ring
      · refine coord (fun i => c (s.vel i)) _ (by positivity)
          ((hS.vel (sway free fun i => c (s.pos i)) (sway free fun i => c (s.vel i))).trans ?_) i hi
        calc _ ≤ 4 * (2 ^ 70 * M ^ 2) := mul_le_mul_of_nonneg_left hb (by norm_num)
          _ = _ := by ring
    · have hi' : o.locks i > 0 := not_not.1 hi
      constructor
      · refine ((hlast.1 i ?_).axis hc).trans ?_
        · rw [H.grabs, ← hl]
          exact hi'
        · norm_num
          linarith
      · rw [hz (by omega) i hi', axis_zero hc, abs_zero]
        positivity
  exact ⟨s, rs, hrun, fun i => ⟨⟨(fin _ (.inl rfl) i).1, (fin _ (.inr rfl) i).1⟩, (fin _ (.inl rfl) i).2, (fin _ (.inr rfl) i).2⟩⟩

end Verif.Wobbly.Rounded
