import Verif.Lemmas.WobblyHaul
import Verif.Lemmas.WobblyDecay

/-! # The swing of a mesh with a single anchor comes down in double precision (for C141) -/

namespace Verif.Wobbly.Rounded

open Spec Outcome Classical Props Wobbly

variable {R : Rounding64}

theorem fine_rnd (R : Rounding64) (N : ℝ) : Fine R.rnd N := by
  intro x _
  refine (R.error_rel x).trans ?_
  have k2 : (1 : ℝ) / 2 ^ 200 ≤ 1 / 2 ^ 53 :=
    one_div_le_one_div_of_le (by positivity) (pow_le_pow_right₀ (by norm_num) (by omega))
  rw [add_div]
  linarith

/-- What the springs and friction do to points near their targets. -/
theorem haul_swing {M A : ℝ} (hM : 1 ≤ M) (hA : 0 ≤ A) {e : Env} {q : Phys}
    (hd : ∀ i, (e.springs.map (endsAt i)).sum ≤ 4) (hk : 0 ≤ e.k) (hk' : e.k ≤ 10) (hf : 1 / 10 ≤ e.friction) (hf' : e.friction ≤ 10)
    (hdes : ∀ z ∈ e.springs, Within M z.desired) (hap : ∀ k, Within M (e.apos k)) (hp : ∀ i, Within (4 * M) (q.pos i))
    (hv : ∀ i, Within (A + 2 ^ 13 * M) (q.vel i)) (i : Idx) :
    Within (199 / 200 * A + 2 ^ 13 * M) ((springRound R.rnd e q).1.pos i) ∧
      Within (199 / 200 * A + 2 ^ 13 * M) ((springRound R.rnd e q).1.vel i) := by
  have M0 : 0 < M := by linarith
  have key : ∀ c, c = Pt.x ∨ c = Pt.y → |c ((springRound R.rnd e q).1.pos i)| ≤ 199 / 200 * A + 2 ^ 13 * M ∧
      |c ((springRound R.rnd e q).1.vel i)| ≤ 199 / 200 * A + 2 ^ 13 * M := by
    intro c hc
    by_cases hi : e.locks i > 0
    · obtain ⟨a1, a2⟩ := round_locked (r := R.rnd) e q hi
      rw [a1, a2, axis_zero hc, abs_zero]
      refine ⟨((hp i).axis hc).trans ?_, by positivity⟩
      norm_num
      linarith
    · have hat : ∀ n, |c (e.at_ q.pos n)| ≤ 4 * M := by
        intro n
        cases n with
        | mesh j => exact (hp j).axis hc
        | anchor k => exact ((hap k).axis hc).trans (by linarith)
      have F := (force_fine (fine_rnd R (4 * M)) (by linarith) hk hk' hc (at_ := e.at_ q.pos)
        (l := e.springs) i (hd i) fun z hz => ⟨hat _, hat _, ((hdes z hz).axis hc).trans (by linarith)⟩).1
      have hn : (((e.springs.map (endsAt i)).sum : ℕ) : ℝ) ≤ 4 := by exact_mod_cast hd i
      set FF := c ((calculateForces R.rnd e.k (e.at_ q.pos) e.springs).1 (.mesh i)) with hFF
      have F1 : |FF| ≤ 352 * M := F.trans (by
        calc _ ≤ 4 * (22 * (4 * M)) := mul_le_mul_of_nonneg_right hn (by linarith)
          _ = _ := by ring)
      have hev : c ((springRound R.rnd e q).1.vel i) = eulerVelocity R.rnd 1 e.friction mass (c (q.vel i)) FF := by
        simp only [springRound, anchoredIntegration, if_neg hi, eulerIntegrate]
        rcases hc with rfl | rfl <;> rfl
      have hep : c ((springRound R.rnd e q).1.pos i) =
          R.rnd (c (q.pos i) + R.rnd (c ((springRound R.rnd e q).1.vel i) * R.rnd (1 / 2))) := by
        simp only [springRound, anchoredIntegration, if_neg hi, eulerIntegrate]
        rcases hc with rfl | rfl <;> rfl
      have h13 : 1 ≤ A + 2 ^ 13 * M := by
        norm_num
        linarith
      have V := (velocity_fine (fine_rnd R (A + 2 ^ 13 * M)) h13 (by linarith) hf' ((hv i).axis hc) (F := FF)
        (F1.trans (by norm_num; linarith))).1
      rw [← hev] at V
      have hvb : |(1 - e.friction / 15) * c (q.vel i)| ≤ (1 - 1 / 150) * (A + 2 ^ 13 * M) := by
        rw [abs_mul, abs_of_nonneg (by linarith)]
        exact mul_le_mul (by linarith) ((hv i).axis hc) (abs_nonneg _) (by norm_num)
      have hvel : |c ((springRound R.rnd e q).1.vel i)| ≤ 199 / 200 * A + 2 ^ 13 * M := by
        have e1 : c (q.vel i) + (FF - e.friction * c (q.vel i)) / 15 = (1 - e.friction / 15) * c (q.vel i) + FF / 15 := by ring
        rw [e1] at V
        rw [abs_le] at V F1 hvb ⊢
        norm_num at V F1 hvb ⊢
        constructor <;> linarith
      refine ⟨?_, hvel⟩
      have P := position_fine (fine_rnd R (A + 2 ^ 13 * M)) h13 (((hp i).axis hc).trans (by norm_num; linarith))
        (hvel.trans (by norm_num; linarith))
      rw [← hep] at P
      have := (hp i).axis hc
      rw [abs_le] at *
      norm_num at *
      constructor <;> linarith
  exact ⟨⟨(key _ (.inl rfl)).1, (key _ (.inr rfl)).1⟩, (key _ (.inl rfl)).2, (key _ (.inr rfl)).2⟩

/-- The ticks of one `Step`. -/
theorem rounds_swing {M A : ℝ} (hM : 1 ≤ M) (hA : 0 ≤ A) {s : State} (ha : s.active)
    (hdeg : ∀ i, (s.springs.map (endsAt i)).sum ≤ 4)
    (hk : 0 ≤ s.settings.springConstant) (hk' : s.settings.springConstant ≤ 10)
    (hf : 1 / 10 ≤ s.settings.friction) (hf' : s.settings.friction ≤ 10)
    (hr1 : 1 ≤ s.settings.maximumRange) (hr3 : s.settings.maximumRange ≤ M)
    (hdes : ∀ z ∈ s.springs, Within M z.desired) (hap : ∀ k, Within M (apos s.live k)) (ht : ∀ i, Within M (s.targets i))
    {n : ℕ} {q q' : Phys} {m : Prop} (e : rounds R.rnd s n q = .ok (q', m)) (hp : ∀ i, Within (A + 2 ^ 13 * M) (q.pos i))
    (hv : ∀ i, Within (A + 2 ^ 13 * M) (q.vel i)) :
    (∀ i, Within ((199 / 200) ^ n * A + 2 ^ 13 * M) (q'.pos i)) ∧ ∀ i, Within ((199 / 200) ^ n * A + 2 ^ 13 * M) (q'.vel i) := by
  induction n generalizing q q' A m with
  | zero =>
    simp only [rounds, Outcome.ok.injEq, Prod.mk.injEq] at e
    rw [← e.1, pow_zero, one_mul]
    exact ⟨hp, hv⟩
  | succ n ih =>
    obtain ⟨m', b, e1, e2⟩ := haul_constrain (R := R) (m := q.pos) hr1 hr3 ht
    have a2 : round R.rnd s q = .ok ((springRound R.rnd s.env ⟨m', q.vel⟩).1, b ∨ (springRound R.rnd s.env ⟨m', q.vel⟩).2) := by
      unfold round
      rw [if_pos ha, e1, bind_ok]
    simp only [rounds, a2, bind_ok, bind_eq_ok] at e
    obtain ⟨⟨q2, m2⟩, e3, e4⟩ := e
    simp only [Outcome.ok.injEq, Prod.mk.injEq] at e4
    rw [← e4.1]
    have e5 := haul_swing (R := R) hM hA (e := s.env) (q := ⟨m', q.vel⟩) hdeg hk hk' hf hf' hdes hap e2 hv
    have := ih (A := 199 / 200 * A) (by positivity) e3 (fun i => (e5 i).1) fun i => (e5 i).2
    rw [pow_succ, mul_assoc]
    exact this

/-- Calls take the swing down. -/
theorem haul_decay {M V : ℝ} (hM : 1 ≤ M) (hMV : M ≤ V) (hV' : V ≤ 2 ^ 180) {o : State} (ha : o.active)
    (hdeg : ∀ i, (o.springs.map (endsAt i)).sum ≤ 4) (hd : ¬ dangling o.springs o.live) (hlen : o.springs.length ≤ 64)
    (hk : 0 ≤ o.settings.springConstant) (hk' : o.settings.springConstant ≤ 10)
    (hf : 1 / 10 ≤ o.settings.friction) (hf' : o.settings.friction ≤ 10)
    (hr1 : 1 ≤ o.settings.maximumRange) (hr2 : o.settings.maximumRange ≤ 1000) (hr3 : o.settings.maximumRange ≤ M)
    (hall : SwingsWithin V M o) (ops : List Op) (hops : ∀ op ∈ ops, Tugs op) (hnear : KeepsHoldWithin R.rnd M o ops)
    {s : State} {rs : List Res} (e : run R.rnd o ops = .ok (s, rs)) :
    (∀ i, Within ((199 / 200) ^ ticksOf ops * V + 2 ^ 13 * M) (s.pos i)) ∧
      ∀ i, Within ((199 / 200) ^ ticksOf ops * V + 2 ^ 13 * M) (s.vel i) := by
  have M0 : 0 < M := by linarith
  have wide : KeepsHoldWithin R.rnd V o ops := fun l hl s' rs' e' =>
    ⟨AnchorsWithin.mono (hnear l hl s' rs' e').1 hMV, fun i => ((hnear l hl s' rs' e').2 i).mono hMV⟩
  have all : AllWithin V o := ⟨hall.1, hall.2.1, fun z hz => (hall.2.2 z hz).mono hMV⟩
  induction ops using List.reverseRecOn generalizing s rs with
  | nil =>
    simp only [run, Outcome.ok.injEq, Prod.mk.injEq] at e
    rw [← e.1]
    have : V ≤ (199 / 200) ^ ticksOf [] * V + 2 ^ 13 * M := by
      simp only [ticksOf, pow_zero, one_mul]
      linarith
    exact ⟨fun i => (hall.1 i).mono this, fun i => (hall.2.1 i).mono this⟩
  | append_singleton l op ih =>
    have pre : ∀ m, m <+: l → m <+: l ++ [op] := fun m hm => hm.trans (List.prefix_append _ _)
    obtain ⟨-, c, ys, hrun, H⟩ := haul_fine (agrees_self R) (by linarith) hV' ha hdeg hd hlen hk hk' hf hf' hr1 hr2
      (hr3.trans hMV) all l (fun op h => hops op (List.mem_append_left _ h)) fun m hm => wide m (pre m hm)
    obtain ⟨p1, p2⟩ := ih (fun op h => hops op (List.mem_append_left _ h)) (fun m hm => hnear m (pre m hm)) hrun
      fun m hm => wide m (pre m hm)
    obtain ⟨hA, hT⟩ := hnear l (List.prefix_append _ _) c ys hrun
    obtain ⟨hA', -⟩ := hnear _ (List.prefix_refl _) s rs e
    rw [Rounded.run_append, hrun, bind_ok] at e
    simp only [run, bind_eq_ok, Outcome.ok.injEq, Prod.mk.injEq] at e
    obtain ⟨⟨d, z⟩, ⟨⟨d', y⟩, e1, ⟨d2, y2⟩, ⟨rfl, rfl⟩, rfl, rfl⟩, rfl, rfl⟩ := e
    have ha' : c.active := by
      unfold State.active
      rw [H.count]
      exact ha
    rw [ticksOf_append, pow_add, mul_comm ((199 / 200 : ℝ) ^ ticksOf l), mul_assoc]
    set A := (199 / 200 : ℝ) ^ ticksOf l * V with hAd
    have A0 : 0 ≤ A := by
      have : 0 ≤ V := by linarith
      positivity
    have hop := hops op (by simp)
    cases op with
    | step t =>
      obtain ⟨pos, vel, m, rfl, rfl⟩ := Rounded.step_fields e1
      obtain ⟨q, u, hq, hv, -, hp⟩ := step_did e1
      simp only at hv hp
      obtain ⟨k1, k2⟩ := rounds_swing (R := R) hM A0 ha' (by rw [H.springs]; exact hdeg) (by rw [H.settings]; exact hk)
        (by rw [H.settings]; exact hk') (by rw [H.settings]; exact hf) (by rw [H.settings]; exact hf')
        (by rw [H.settings]; exact hr1) (by rw [H.settings]; exact hr3) (by rw [H.springs]; exact hall.2.2)
        (anchorData_within M0.le hA.2) hT hq p1 p2
      have et : ticksOf [Op.step t] = stepCount t := rfl
      rw [et]
      refine ⟨fun i => ?_, fun i => ?_⟩
      · show Within _ (pos i)
        rw [hp]
        split_ifs
        · refine (hT i).mono ?_
          have k0 : 0 ≤ (199 / 200 : ℝ) ^ stepCount t * A := by positivity
          have k3 : M ≤ 2 ^ 13 * M := by
            norm_num
            linarith
          linarith
        · exact k1 i
      · show Within _ (vel i)
        rw [hv]
        exact k2 i
    | moveAnchor k d =>
      have et : ticksOf [Op.moveAnchor k d] = 0 := rfl
      rw [et, pow_zero, one_mul]
      simp only [Rounded.exec, moveAnchor] at e1
      split at e1
      · simp only [Outcome.ok.injEq, Prod.mk.injEq] at e1
        rw [← e1.1]
        exact ⟨p1, p2⟩
      · rename_i a hfind
        have ham : a ∈ c.live := List.mem_of_find?_eq_some hfind
        split at e1
        · rename_i i hkind
          simp only [Outcome.ok.injEq, Prod.mk.injEq] at e1
          obtain ⟨e1, -⟩ := e1
          subst e1
          refine ⟨fun j => ?_, p2⟩
          by_cases hj : j = i
          · subst hj
            refine (hA'.1 j ?_).mono (by norm_num; linarith)
            show heldBy c j > 0
            rw [heldBy, gt_iff_lt, List.countP_pos_iff]
            exact ⟨a, ham, by rw [hkind]; simp⟩
          · dsimp only
            rw [Function.update_of_ne hj]
            exact p1 j
        · simp only [Outcome.ok.injEq, Prod.mk.injEq] at e1
          rw [← e1.1]
          exact ⟨p1, p2⟩
    | elsewhere n =>
      have et : ticksOf [Op.elsewhere n] = 0 := rfl
      rw [et, pow_zero, one_mul]
      simp only [Rounded.exec, Outcome.ok.injEq, Prod.mk.injEq] at e1
      rw [← e1.1]
      exact ⟨p1, p2⟩
    | _ => exact hop.elim

/-- Two hundred ticks halve it. -/
theorem halved (k : ℕ) {n : ℕ} (hn : 200 * k ≤ n) : (199 / 200 : ℝ) ^ n * 2 ^ k ≤ 1 := by
  have h1 : (199 / 200 : ℝ) ^ n ≤ (199 / 200) ^ (200 * k) := pow_le_pow_of_le_one (by norm_num) (by norm_num) hn
  have h2 : (199 / 200 : ℝ) ^ 200 * 2 ≤ 1 := by norm_num
  calc (199 / 200 : ℝ) ^ n * 2 ^ k ≤ (199 / 200) ^ (200 * k) * 2 ^ k := mul_le_mul_of_nonneg_right h1 (by positivity)
    _ = ((199 / 200 : ℝ) ^ 200 * 2) ^ k := by rw [pow_mul, mul_pow]
    _ ≤ 1 := pow_le_one₀ (by positivity) h2

end Verif.Wobbly.Rounded
