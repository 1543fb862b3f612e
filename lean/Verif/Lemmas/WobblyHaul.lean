import Verif.Lemmas.WobblyTugAgree
import Verif.Lemmas.WobblyPaced

/-! # A single anchor that is dragged far away, in double precision (for C139) -/

namespace Verif.Wobbly.Rounded

open Spec Outcome Classical Props Wobbly

variable {R : Rounding64} {r : ℝ → ℝ}

theorem Fine.down {N N' : ℝ} (h : Fine r N) (hN : N' ≤ N) : Fine r N' := fun x hx => h x (hx.trans (by linarith))

/-- Rounding from above. -/
theorem rnd_abs_le (R : Rounding64) {x A : ℝ} (hx : |x| ≤ A) : |R.rnd x| ≤ A + (A + 1) / 2 ^ 53 := by
  have k1 := R.error_rel x
  have k2 : (1 : ℝ) / 2 ^ 200 ≤ 1 / 2 ^ 53 :=
    one_div_le_one_div_of_le (by positivity) (pow_le_pow_right₀ (by norm_num) (by omega))
  have k3 : |x| / 2 ^ 53 ≤ A / 2 ^ 53 := div_le_div_of_nonneg_right hx (by positivity)
  have k4 := abs_sub_abs_le_abs_sub (R.rnd x) x
  rw [add_div]
  linarith

/-- Rounding from below. -/
theorem abs_le_rnd (R : Rounding64) {x A : ℝ} (hx : |R.rnd x| ≤ A) : |x| ≤ 1001 / 1000 * A + 1 / 1000 := by
  have k1 := R.error_rel x
  have k2 : (1 : ℝ) / 2 ^ 200 ≤ 1 / 2 ^ 53 :=
    one_div_le_one_div_of_le (by positivity) (pow_le_pow_right₀ (by norm_num) (by omega))
  have k4 := abs_sub_abs_le_abs_sub x (R.rnd x)
  rw [abs_sub_comm] at k4
  have k0 := abs_nonneg x
  norm_num at k1 k2 ⊢
  linarith

/-- One coordinate of a point that is within range. -/
theorem haul_near {t m x d M : ℝ} (h1 : 1 ≤ d) (hd : d ≤ M) (ht : |t| ≤ M)
    (hc : 1 ≤ |R.rnd (t - m)| → |R.rnd (t - m)| ≤ x * (1 + 1 / 2 ^ 50)) (hx : x < d) : |m| ≤ 4 * M := by
  have hb : |R.rnd (t - m)| ≤ 1001 / 1000 * d := by
    rcases le_or_gt 1 |R.rnd (t - m)| with h | h
    · have := hc h
      norm_num at this ⊢
      linarith
    · linarith
  have k := abs_le_rnd R hb
  rw [abs_le] at *
  constructor <;> linarith [k.1, k.2, ht.1, ht.2]

/-- One coordinate of a point that was out of range. -/
theorem haul_pulled {t x d c M : ℝ} (h1 : 1 ≤ d) (hd : d ≤ M) (ht : |t| ≤ M)
    (hc : 1 ≤ |c| → |c| ≤ x * (1 + 1 / 2 ^ 50)) (hx : d ≤ x) :
    |R.rnd (t - R.rnd (min d x * R.rnd (c / x)))| ≤ 4 * M := by
  have x0 : 0 < x := by linarith
  have d0 : 0 < d := by linarith
  have hq : |c / x| ≤ 1001 / 1000 := by
    rw [abs_div, abs_of_pos x0, div_le_iff₀ x0]
    rcases le_or_gt 1 |c| with h | h
    · have := hc h
      norm_num at this ⊢
      linarith
    · linarith
  have q1 : |R.rnd (c / x)| ≤ 1002 / 1000 := (rnd_abs_le R hq).trans (by norm_num)
  rw [min_eq_left hx]
  have q2 : |d * R.rnd (c / x)| ≤ 1002 / 1000 * M := by
    rw [abs_mul, abs_of_pos d0, mul_comm]
    exact mul_le_mul q1 hd d0.le (by norm_num)
  have q3 := rnd_abs_le R q2
  have q4 : |t - R.rnd (d * R.rnd (c / x))| ≤ 5 / 2 * M := by
    refine (abs_sub _ _).trans ?_
    norm_num at q3 ⊢
    linarith
  refine (rnd_abs_le R q4).trans ?_
  norm_num
  linarith

/-- The constrainment step brings every point near its target. -/
theorem haul_constrain {d M : ℝ} {t m : Mesh} (h1 : 1 ≤ d) (hd : d ≤ M) (ht : ∀ j, Within M (t j)) :
    ∃ m' b, constrain R.rnd d t m = .ok (m', b) ∧ ∀ j, Within (4 * M) (m' j) := by
  unfold constrain
  rw [if_neg (by
    rintro ⟨j, a, b⟩
    rw [b] at a
    exact a (by linarith))]
  refine ⟨_, _, rfl, fun j => ?_⟩
  by_cases h : distance R.rnd (t j) (m j) < d
  · rw [if_pos h]
    exact ⟨haul_near h1 hd (ht j).1 (distance_ge R (Or.inl rfl)) h, haul_near h1 hd (ht j).2 (distance_ge R (Or.inr rfl)) h⟩
  · rw [if_neg h]
    push Not at h
    exact ⟨haul_pulled h1 hd (ht j).1 (distance_ge R (Or.inl rfl)) h, haul_pulled h1 hd (ht j).2 (distance_ge R (Or.inr rfl)) h⟩

/-- What the springs do then. -/
theorem haul_spring {M : ℝ} (hM : 1 ≤ M) (hr : Fine r (2 ^ 45 * M)) {e : Env} {q : Phys}
    (hd : ∀ i, (e.springs.map (endsAt i)).sum ≤ 4) (hk : 0 ≤ e.k) (hk' : e.k ≤ 10) (hf : 1 / 10 ≤ e.friction) (hf' : e.friction ≤ 10)
    (hdes : ∀ z ∈ e.springs, Within M z.desired) (hap : ∀ k, Within M (e.apos k)) (hp : ∀ i, Within (4 * M) (q.pos i))
    (hv : ∀ i, Within (2 ^ 12 * M) (q.vel i)) (i : Idx) :
    Within (2 ^ 12 * M) ((springRound r e q).1.pos i) ∧ Within (2 ^ 12 * M) ((springRound r e q).1.vel i) := by
  have M0 : 0 < M := by linarith
  have key : ∀ c, c = Pt.x ∨ c = Pt.y →
      |c ((springRound r e q).1.pos i)| ≤ 2 ^ 12 * M ∧ |c ((springRound r e q).1.vel i)| ≤ 2 ^ 12 * M := by
    intro c hc
    by_cases hi : e.locks i > 0
    · obtain ⟨a1, a2⟩ := round_locked (r := r) e q hi
      rw [a1, a2, axis_zero hc, abs_zero]
      refine ⟨((hp i).axis hc).trans ?_, by positivity⟩
      norm_num
      linarith
    · have hat : ∀ n, |c (e.at_ q.pos n)| ≤ 4 * M := by
        intro n
        cases n with
        | mesh j => exact (hp j).axis hc
        | anchor k => exact ((hap k).axis hc).trans (by linarith)
      have F := (force_fine (hr.down (N' := 4 * M) (by norm_num; linarith)) (by linarith) hk hk' hc (at_ := e.at_ q.pos)
        (l := e.springs) i (hd i) fun z hz => ⟨hat _, hat _, ((hdes z hz).axis hc).trans (by linarith)⟩).1
      have hn : (((e.springs.map (endsAt i)).sum : ℕ) : ℝ) ≤ 4 := by exact_mod_cast hd i
      set FF := c ((calculateForces r e.k (e.at_ q.pos) e.springs).1 (.mesh i)) with hFF
      have F1 : |FF| ≤ 352 * M := F.trans (by
        calc _ ≤ 4 * (22 * (4 * M)) := mul_le_mul_of_nonneg_right hn (by linarith)
          _ = _ := by ring)
      have hev : c ((springRound r e q).1.vel i) = eulerVelocity r 1 e.friction mass (c (q.vel i)) FF := by
        simp only [springRound, anchoredIntegration, if_neg hi, eulerIntegrate]
        rcases hc with rfl | rfl <;> rfl
      have hep : c ((springRound r e q).1.pos i) = r (c (q.pos i) + r (c ((springRound r e q).1.vel i) * r (1 / 2))) := by
        simp only [springRound, anchoredIntegration, if_neg hi, eulerIntegrate]
        rcases hc with rfl | rfl <;> rfl
      have hr' : Fine r (2 ^ 12 * M) := hr.down (by norm_num; linarith)
      have h12 : 1 ≤ 2 ^ 12 * M := by
        norm_num
        linarith
      have V := (velocity_fine hr' h12 (by linarith) hf' ((hv i).axis hc) (F := FF) (F1.trans (by norm_num; linarith))).1
      rw [← hev] at V
      have hvb : |(1 - e.friction / 15) * c (q.vel i)| ≤ (1 - 1 / 150) * (2 ^ 12 * M) := by
        rw [abs_mul, abs_of_nonneg (by linarith)]
        exact mul_le_mul (by linarith) ((hv i).axis hc) (abs_nonneg _) (by norm_num)
      have hvel : |c ((springRound r e q).1.vel i)| ≤ 2 ^ 12 * M := by
        have e1 : c (q.vel i) + (FF - e.friction * c (q.vel i)) / 15 = (1 - e.friction / 15) * c (q.vel i) + FF / 15 := by ring
        rw [e1] at V
        rw [abs_le] at V F1 hvb ⊢
        norm_num at V F1 hvb ⊢
        constructor <;> linarith
      refine ⟨?_, hvel⟩
      have P := position_fine hr' h12 (((hp i).axis hc).trans (by norm_num; linarith)) (hvel.trans (by norm_num; linarith))
      rw [← hep] at P
      have := (hp i).axis hc
      rw [abs_le] at *
      norm_num at *
      constructor <;> linarith
  exact ⟨⟨(key _ (.inl rfl)).1, (key _ (.inr rfl)).1⟩, (key _ (.inl rfl)).2, (key _ (.inr rfl)).2⟩

theorem within_small {M : ℝ} (hM : M ≤ 2 ^ 180) {p : Pt} (h : Within (2 ^ 12 * M) p) : Small 192 p := by
  have k : 2 ^ 12 * M ≤ (2 : ℝ) ^ 192 := by
    calc 2 ^ 12 * M ≤ 2 ^ 12 * 2 ^ 180 := mul_le_mul_of_nonneg_left hM (by positivity)
      _ = (2 : ℝ) ^ 192 := by rw [← pow_add]
  exact ⟨h.1.trans k, h.2.trans k⟩

theorem _root_.Verif.Spec.Within.mono {M N : ℝ} {p : Pt} (h : Within M p) (hN : M ≤ N) : Within N p :=
  ⟨h.1.trans hN, h.2.trans hN⟩

/-- The ticks of one `Step`. -/
theorem haul_rounds (hr : Agrees R r) {M : ℝ} (hM : 1 ≤ M) (hM' : M ≤ 2 ^ 180) {s : State} (ha : s.active)
    (hdeg : ∀ i, (s.springs.map (endsAt i)).sum ≤ 4) (hlen : s.springs.length ≤ 64)
    (hk : 0 ≤ s.settings.springConstant) (hk' : s.settings.springConstant ≤ 10)
    (hf : 1 / 10 ≤ s.settings.friction) (hf' : s.settings.friction ≤ 10)
    (hr1 : 1 ≤ s.settings.maximumRange) (hr2 : s.settings.maximumRange ≤ 1000) (hr3 : s.settings.maximumRange ≤ M)
    (hdes : ∀ z ∈ s.springs, Within M z.desired) (hap : ∀ k, Within M (apos s.live k)) (ht : ∀ i, Within M (s.targets i))
    (n : ℕ) (q : Phys) (hp : ∀ i, Within (2 ^ 12 * M) (q.pos i)) (hv : ∀ i, Within (2 ^ 12 * M) (q.vel i)) :
    rounds r s n q = rounds R.rnd s n q ∧ ∃ q' m, rounds R.rnd s n q = .ok (q', m) ∧
      (∀ i, Within (2 ^ 12 * M) (q'.pos i)) ∧ ∀ i, Within (2 ^ 12 * M) (q'.vel i) := by
  have big : M ≤ 2 ^ 12 * M := by
    norm_num
    linarith
  have big2 : 2 ^ 12 * M ≤ 2 ^ 45 * M := by
    norm_num
    linarith
  have F : Fine R.rnd (2 ^ 45 * M) := (agrees_self R).fine hM (hM'.trans (pow_le_pow_right₀ (by norm_num) (by omega)))
  induction n generalizing q with
  | zero => exact ⟨rfl, q, False, rfl, hp, hv⟩
  | succ n ih =>
    obtain ⟨m', b, e1, e2⟩ := haul_constrain (R := R) (m := q.pos) hr1 hr3 ht
    have e3 : constrain r s.settings.maximumRange s.targets q.pos = .ok (m', b) := by
      rw [ag_constrain hr (n := 192) hr1 (hr2.trans (by norm_num)) (fun j => within_small hM' ((ht j).mono big))
        (fun j => within_small hM' (hp j)), e1]
    have e4 : springRound r s.env ⟨m', q.vel⟩ = springRound R.rnd s.env ⟨m', q.vel⟩ :=
      spring_agrees hr (hM'.trans (pow_le_pow_right₀ (by norm_num) (by omega))) (e := s.env) hlen hk hk' (by linarith [show
        (1 : ℝ) / 10 ≤ s.env.friction from hf]) hf' hdes hap (fun i => (e2 i).mono (by norm_num; linarith))
        fun i => (hv i).mono big2
    have e5 := haul_spring hM F (e := s.env) (q := ⟨m', q.vel⟩) hdeg hk hk' hf hf' hdes hap e2 hv
    have a1 : round r s q = .ok ((springRound R.rnd s.env ⟨m', q.vel⟩).1, b ∨ (springRound R.rnd s.env ⟨m', q.vel⟩).2) := by
      unfold round
      rw [if_pos ha, e3, bind_ok]
      dsimp only
      rw [e4]
    have a2 : round R.rnd s q = .ok ((springRound R.rnd s.env ⟨m', q.vel⟩).1, b ∨ (springRound R.rnd s.env ⟨m', q.vel⟩).2) := by
      unfold round
      rw [if_pos ha, e1, bind_ok]
    obtain ⟨b1, q', m, b2, b3, b4⟩ := ih (springRound R.rnd s.env ⟨m', q.vel⟩).1 (fun i => (e5 i).1) fun i => (e5 i).2
    simp only [rounds, a1, a2, bind_ok, b1, b2]
    exact ⟨trivial, _, _, rfl, b3, b4⟩

/-- A held point is near its target once it is there. -/
theorem rounds_pinned {M : ℝ} {s : State} (ha : s.active) (hr1 : 1 ≤ s.settings.maximumRange) (hr2 : s.settings.maximumRange ≤ M)
    (ht : ∀ i, Within M (s.targets i)) {i : Idx} (hi : s.locks i > 0) {n : ℕ} {q q' : Phys} {m : Prop}
    (e : rounds R.rnd s n q = .ok (q', m)) (h : Within (4 * M) (q.pos i)) : Within (4 * M) (q'.pos i) := by
  induction n generalizing q q' m with
  | zero =>
    simp only [rounds, Outcome.ok.injEq, Prod.mk.injEq] at e
    rw [← e.1]
    exact h
  | succ n ih =>
    obtain ⟨m', b, e1, e2⟩ := haul_constrain (R := R) (m := q.pos) hr1 hr2 ht
    have a2 : round R.rnd s q = .ok ((springRound R.rnd s.env ⟨m', q.vel⟩).1, b ∨ (springRound R.rnd s.env ⟨m', q.vel⟩).2) := by
      unfold round
      rw [if_pos ha, e1, bind_ok]
    simp only [rounds, a2, bind_ok, bind_eq_ok] at e
    obtain ⟨⟨q2, m2⟩, e3, e4⟩ := e
    simp only [Outcome.ok.injEq, Prod.mk.injEq] at e4
    rw [← e4.1]
    refine ih e3 ?_
    rw [(round_locked (r := R.rnd) s.env ⟨m', q.vel⟩ (i := i) hi).1]
    exact e2 i

/-- The model `s`, which was `o` before some calls. -/
structure Hauled (M : ℝ) (o s : State) : Prop where
  settings : s.settings = o.settings
  springs : s.springs = o.springs
  count : s.count = o.count
  alive : ∀ n : Node, n.alive o.live → n.alive s.live
  pos : ∀ i, Within (2 ^ 12 * M) (s.pos i)
  vel : ∀ i, Within (2 ^ 12 * M) (s.vel i)

/-- One more call. -/
theorem Hauled.exec (hr : Agrees R r) {M : ℝ} (hM : 1 ≤ M) (hM' : M ≤ 2 ^ 180) {o s : State} (H : Hauled M o s) (ha : o.active)
    (hdeg : ∀ i, (o.springs.map (endsAt i)).sum ≤ 4) (hd : ¬ dangling o.springs o.live) (hlen : o.springs.length ≤ 64)
    (hk : 0 ≤ o.settings.springConstant) (hk' : o.settings.springConstant ≤ 10)
    (hf : 1 / 10 ≤ o.settings.friction) (hf' : o.settings.friction ≤ 10)
    (hr1 : 1 ≤ o.settings.maximumRange) (hr2 : o.settings.maximumRange ≤ 1000) (hr3 : o.settings.maximumRange ≤ M)
    (hdes : ∀ z ∈ o.springs, Within M z.desired) {op : Op} (hop : Tugs op) (hA : AnchorsWithin M s) (hT : RestWithin M s)
    (hnext : ∀ s' y, exec R.rnd s op = .ok (s', y) → AnchorsWithin M s' ∧ RestWithin M s') :
    exec r s op = exec R.rnd s op ∧ ∃ s' y, exec R.rnd s op = .ok (s', y) ∧ Hauled M o s' := by
  have ha' : s.active := by
    unfold State.active
    rw [H.count]
    exact ha
  have hM2 : M ≤ 2 ^ 200 := hM'.trans (pow_le_pow_right₀ (by norm_num) (by omega))
  have M0 : (0 : ℝ) ≤ M := by linarith
  have big : M ≤ 2 ^ 12 * M := by
    norm_num
    linarith
  cases op with
  | grab q => exact hop.elim
  | insert q => exact hop.elim
  | release k => exact hop.elim
  | moveBy d => exact hop.elim
  | moveTo q => exact hop.elim
  | resize w h => exact hop.elim
  | setSettings x => exact hop.elim
  | elsewhere n =>
    exact ⟨rfl, _, _, rfl, ⟨H.settings, H.springs, H.count, H.alive, H.pos, H.vel⟩⟩
  | step t =>
    have hd' : ¬ dangling s.springs s.live := by
      rintro ⟨y, hy, hc⟩
      rw [H.springs] at hy
      exact hd ⟨y, hy, fun h => hc ⟨H.alive _ h.1, H.alive _ h.2⟩⟩
    obtain ⟨e0, q', m, e1, e2, e3⟩ := haul_rounds hr hM hM' ha' (by rw [H.springs]; exact hdeg) (by rw [H.springs]; exact hlen)
      (by rw [H.settings]; exact hk) (by rw [H.settings]; exact hk') (by rw [H.settings]; exact hf) (by rw [H.settings]; exact hf')
      (by rw [H.settings]; exact hr1) (by rw [H.settings]; exact hr2) (by rw [H.settings]; exact hr3)
      (by rw [H.springs]; exact hdes) (anchorData_within M0 hA.2) hT (stepCount t) ⟨s.pos, s.vel⟩ H.pos H.vel
    have hx : ∀ f, rounds f s (stepCount t) ⟨s.pos, s.vel⟩ = .ok (q', m) → Rounded.exec f s (.step t) = .ok ({ s with
        pos := if ¬ ((if t ≠ 0 then False else s.unequal) ∨ m) ∧ s.active then s.targets else q'.pos
        vel := q'.vel
        unequal := (if t ≠ 0 then False else s.unequal) ∨ m }, .more ((if t ≠ 0 then False else s.unequal) ∨ m)) := by
      intro f e
      simp only [Rounded.exec, step]
      rw [if_neg fun h => hd' h.2, e, bind_ok]
    refine ⟨by rw [hx r (e0.trans e1), hx R.rnd e1], _, _, hx R.rnd e1, ⟨H.settings, H.springs, H.count, H.alive, fun i => ?_, e3⟩⟩
    have key : ∀ (P : Prop) [Decidable P], Within (2 ^ 12 * M) ((if P then s.targets else q'.pos) i) := by
      intro P _
      split_ifs
      · exact (hT i).mono big
      · exact e2 i
    exact key _
  | moveAnchor k d =>
    cases hfind : s.live.find? (fun a => decide (a.hid = k)) with
    | none =>
      have hx : ∀ f, Rounded.exec f s (.moveAnchor k d) = .ok (s, .none) := by
        intro f
        simp only [Rounded.exec, moveAnchor, hfind]
      exact ⟨by rw [hx, hx], _, _, hx _, H⟩
    | some a =>
      have ham : a ∈ s.live := List.mem_of_find?_eq_some hfind
      cases hkind : a.kind with
      | grab i =>
        have hx : ∀ f, Rounded.exec f s (.moveAnchor k d) = .ok ({ s with
            targets := fun i => add f (s.targets i) d, pos := Function.update s.pos i (add f (s.pos i) d) }, .none) := by
          intro f
          simp only [Rounded.exec, moveAnchor, hfind, if_pos ha', hkind]
        obtain ⟨n1, n2⟩ := hnext _ _ (hx R.rnd)
        have hpos : heldBy s i > 0 := by
          rw [heldBy, gt_iff_lt, List.countP_pos_iff]
          exact ⟨a, ham, by rw [hkind]; simp⟩
        have n3 := n1.1 i hpos
        simp only [Function.update_self] at n3
        have t1 : (fun i => add r (s.targets i) d) = fun i => add R.rnd (s.targets i) d := by
          funext j
          exact add_agrees hr hM2 (n2 j)
        refine ⟨by rw [hx, hx, t1, add_agrees hr hM2 n3], _, _, hx _, ⟨H.settings, H.springs, H.count, H.alive, fun j => ?_, H.vel⟩⟩
        dsimp only
        by_cases hj : j = i
        · subst hj
          rw [Function.update_self]
          exact n3.mono big
        · rw [Function.update_of_ne hj]
          exact H.pos j
      | ins p st f g =>
        have hx : ∀ f, Rounded.exec f s (.moveAnchor k d) = .ok ({ s with
            targets := fun i => add f (s.targets i) d,
            live := s.live.map fun b => if b.hid = k then ⟨b.hid, shift f d b.kind⟩ else b }, .none) := by
          intro f
          simp only [Rounded.exec, moveAnchor, hfind, if_pos ha', hkind]
        obtain ⟨n1, n2⟩ := hnext _ _ (hx R.rnd)
        have t1 : (fun i => add r (s.targets i) d) = fun i => add R.rnd (s.targets i) d := by
          funext j
          exact add_agrees hr hM2 (n2 j)
        have t2 : (s.live.map fun b => if b.hid = k then (⟨b.hid, shift r d b.kind⟩ : Live) else b) =
            s.live.map fun b => if b.hid = k then ⟨b.hid, shift R.rnd d b.kind⟩ else b := by
          refine List.map_congr_left fun b hb => ?_
          split_ifs with hbk
          · cases hkb : b.kind with
            | grab i => rfl
            | ins q st' f' g' =>
              have := n1.2 _ (List.mem_map.2 ⟨b, hb, rfl⟩) (add R.rnd q d) st' f' g' (by rw [if_pos hbk, hkb]; rfl)
              simp only [shift]
              rw [add_agrees hr hM2 this]
          · rfl
        have hdata : ∀ j, anchorData (s.live.map fun b => if b.hid = k then ⟨b.hid, shift R.rnd d b.kind⟩ else b) j =
            (anchorData s.live j).map (fun p => if j = k then add R.rnd p d else p) := by
          intro j
          have e0 : (fun b : Live => if b.hid = k then (⟨b.hid, shift R.rnd d b.kind⟩ : Live) else b) =
              fun b => ⟨b.hid, (fun (h : ℕ) (x : Kind) => if h = k then shift R.rnd d x else x) b.hid b.kind⟩ := by
            funext b
            dsimp only
            split_ifs <;> rfl
          rw [e0]
          refine anchorData_map_kind s.live (fun (h : ℕ) (x : Kind) => if h = k then shift R.rnd d x else x)
            (fun j p => if j = k then add R.rnd p d else p) (fun j x => ?_) j
          cases x <;> split_ifs <;> rfl
        refine ⟨by rw [hx, hx, t1, t2], _, _, hx _, ⟨H.settings, H.springs, H.count, fun n hn => ?_, H.pos, H.vel⟩⟩
        have := H.alive n hn
        cases n with
        | mesh i => trivial
        | anchor j =>
          simp only [Node.alive] at this ⊢
          rw [hdata, Option.isSome_map]
          exact this

/-- A mesh whose only anchor is dragged about stays within a bound. -/
theorem haul_fine (hr : Agrees R r) {M : ℝ} (hM : 1 ≤ M) (hM' : M ≤ 2 ^ 180) {o : State} (ha : o.active)
    (hdeg : ∀ i, (o.springs.map (endsAt i)).sum ≤ 4) (hd : ¬ dangling o.springs o.live) (hlen : o.springs.length ≤ 64)
    (hk : 0 ≤ o.settings.springConstant) (hk' : o.settings.springConstant ≤ 10)
    (hf : 1 / 10 ≤ o.settings.friction) (hf' : o.settings.friction ≤ 10)
    (hr1 : 1 ≤ o.settings.maximumRange) (hr2 : o.settings.maximumRange ≤ 1000) (hr3 : o.settings.maximumRange ≤ M)
    (hall : AllWithin M o) (ops : List Op) (hops : ∀ op ∈ ops, Tugs op) (hnear : KeepsHoldWithin R.rnd M o ops) :
    run r o ops = run R.rnd o ops ∧ ∃ s rs, run R.rnd o ops = .ok (s, rs) ∧ Hauled M o s := by
  have big : M ≤ 2 ^ 12 * M := by
    norm_num
    linarith
  induction ops using List.reverseRecOn with
  | nil => exact ⟨rfl, o, [], rfl, rfl, rfl, rfl, fun _ h => h, fun i => (hall.1 i).mono big, fun i => (hall.2.1 i).mono big⟩
  | append_singleton l op ih =>
    obtain ⟨er, s, rs, hrun, H⟩ := ih (fun op h => hops op (List.mem_append_left _ h))
      (fun m hm => hnear m (hm.trans (List.prefix_append _ _)))
    obtain ⟨hA, hT⟩ := hnear l (List.prefix_append _ _) s rs hrun
    obtain ⟨e1, s', y, e2, H'⟩ := H.exec hr hM hM' ha hdeg hd hlen hk hk' hf hf' hr1 hr2 hr3 hall.2.2 (hops op (by simp)) hA hT
      fun s' y e => hnear _ (List.prefix_refl _) s' _ (run_snoc hrun e)
    refine ⟨?_, s', rs ++ [y], run_snoc hrun e2, H'⟩
    rw [Rounded.run_append, Rounded.run_append, er, hrun]
    simp only [bind_ok, run, e1]

end Verif.Wobbly.Rounded
