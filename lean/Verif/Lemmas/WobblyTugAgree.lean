import Verif.Lemmas.WobblyTugDouble
import Verif.Lemmas.WobblyRoomy

/-! # Nothing overflows while several anchors are dragged (for C138) -/

namespace Verif.Wobbly.Rounded

open Spec Outcome Classical Props Wobbly

variable {R : Rounding64} {r : ℝ → ℝ}

theorem agrees_self (R : Rounding64) : Agrees R R.rnd := fun _ _ => rfl

/-- Rounding up to `2 ^ 500` is accurate. -/
theorem Agrees.fine (hr : Agrees R r) {M : ℝ} (h0 : 1 ≤ M) (hM : M ≤ 2 ^ 400) : Fine r (2 ^ 45 * M) := by
  intro x hx
  have k1 : 1000 * (2 ^ 45 * M) ≤ (2 : ℝ) ^ 500 := by
    calc 1000 * (2 ^ 45 * M) ≤ 2 ^ 10 * (2 ^ 45 * 2 ^ 400) := by
          refine mul_le_mul (by norm_num) (mul_le_mul_of_nonneg_left hM (by positivity)) (by positivity) (by positivity)
      _ = (2 : ℝ) ^ (10 + (45 + 400)) := by rw [pow_add, pow_add]
      _ ≤ _ := pow_le_pow_right₀ (by norm_num) (by omega)
  rw [hr x (hx.trans k1)]
  refine (R.error_rel x).trans ?_
  rw [add_div]
  have : (1 : ℝ) / 2 ^ 200 ≤ 1 / 2 ^ 53 := by
    refine one_div_le_one_div_of_le (by positivity) (pow_le_pow_right₀ (by norm_num) (by omega))
  linarith

theorem joined_ends {l : List Spring} (hj : Joined l) : ∀ y ∈ l, (∃ i, y.a = .mesh i) ∧ ∃ j, y.b = .mesh j := by
  intro y hy
  have : (y.a, y.b) ∈ l.map fun y => (y.a, y.b) := List.mem_map.2 ⟨y, hy, rfl⟩
  rw [hj.mem_iff, List.mem_map] at this
  obtain ⟨z, hz, ez⟩ := this
  simp only [Prod.mk.injEq] at ez
  exact ⟨⟨_, ez.1.symm⟩, _, ez.2.symm⟩

theorem joined_degree {l : List Spring} (hj : Joined l) (i : Idx) : (l.map (endsAt i)).sum ≤ 4 := by
  refine le_trans (le_of_eq ?_) (hj.count i)
  have hne := hj.ne
  clear hj
  induction l with
  | nil => rfl
  | cons y l ih =>
    rw [List.map_cons, List.sum_cons, List.countP_cons, ih fun z hz => hne z (List.mem_cons_of_mem _ hz), add_comm]
    congr 1
    have := hne y (by simp)
    unfold endsAt
    simp only [eq_comm (a := Node.mesh i), decide_eq_true_eq]
    by_cases h1 : y.a = .mesh i
    · have h2 : y.b ≠ .mesh i := fun h => this (h1.trans h.symm)
      simp [h1, h2]
    · by_cases h2 : y.b = .mesh i <;> simp [h1, h2]

/-- Positions and velocities this small are not lost. -/
theorem spring_agrees (hr : Agrees R r) {M : ℝ} (hM : M ≤ 2 ^ 200) {e : Env} {q : Phys} (hlen : e.springs.length ≤ 64)
    (hk : 0 ≤ e.k) (hk' : e.k ≤ 10) (hf : 0 ≤ e.friction) (hf' : e.friction ≤ 10) (hdes : ∀ z ∈ e.springs, Within M z.desired)
    (hap : ∀ k, Within M (e.apos k))
    (hp : ∀ i, Within (2 ^ 45 * M) (q.pos i)) (hv : ∀ i, Within (2 ^ 45 * M) (q.vel i)) :
    springRound r e q = springRound R.rnd e q := by
  have k1 : 2 ^ 45 * M ≤ (2 : ℝ) ^ 245 := by
    calc 2 ^ 45 * M ≤ 2 ^ 45 * 2 ^ 200 := mul_le_mul_of_nonneg_left hM (by positivity)
      _ = (2 : ℝ) ^ 245 := by rw [← pow_add]
  have k2 : M ≤ (2 : ℝ) ^ 245 := hM.trans (pow_le_pow_right₀ (by norm_num) (by omega))
  have hp' : ∀ i, Small 245 (q.pos i) := fun i => ⟨(hp i).1.trans k1, (hp i).2.trans k1⟩
  have hv' : ∀ i, Small 245 (q.vel i) := fun i => ⟨(hv i).1.trans k1, (hv i).2.trans k1⟩
  have hat : ∀ n, Small 245 (e.at_ q.pos n) := by
    intro n
    cases n with
    | mesh i => exact hp' i
    | anchor k => exact ⟨(hap k).1.trans k2, (hap k).2.trans k2⟩
  have hkk : |e.k| ≤ 2 ^ 4 := by rw [abs_of_nonneg hk]; linarith
  have hff : |e.friction| ≤ 2 ^ 4 := by rw [abs_of_nonneg hf]; linarith
  have hs : ∀ y ∈ e.springs, Fair 245 (e.at_ q.pos) y := fun y hy =>
    ⟨hat _, hat _, (hdes y hy).1.trans k2, (hdes y hy).2.trans k2⟩
  obtain ⟨f1, f2⟩ := ag_forces hr hs hkk (by omega)
  have E : ∀ j, eulerIntegrate r 1 e.friction mass (q.pos j) (q.vel j)
      ((calculateForces R.rnd e.k (e.at_ q.pos) e.springs).1 (.mesh j)) =
      eulerIntegrate R.rnd 1 e.friction mass (q.pos j) (q.vel j)
      ((calculateForces R.rnd e.k (e.at_ q.pos) e.springs).1 (.mesh j)) := fun j =>
    ag_euler hr (n := 245 + 6 + 2 * e.springs.length) hff ((hp' j).up (by omega)) ((hv' j).up (by omega)) (f2 _) (by omega)
  unfold springRound anchoredIntegration
  dsimp only
  rw [f1]
  simp only [E]

/-- A bound on the energy is one on positions and velocities. -/
theorem calm_within {M : ℝ} (hM : 1 ≤ M) {l : List Spring} {c γ : ℝ} {free : Idx → Prop}
    {S : EuclideanSpace ℝ (Fin 16) → EuclideanSpace ℝ (Fin 16) → ℝ} (hS : Calms l c γ free S) {q : Phys}
    (hb : ∀ c, c = Pt.x ∨ c = Pt.y → S (sway free fun i => c (q.pos i)) (sway free fun i => c (q.vel i)) ≤ 2 ^ 69 * M ^ 2)
    (hl : ∀ i, ¬ free i → Within M (q.pos i) ∧ Within M (q.vel i)) (i : Idx) :
    Within (2 ^ 45 * M) (q.pos i) ∧ Within (2 ^ 45 * M) (q.vel i) := by
  have coord : ∀ (g : Idx → ℝ) (B : ℝ), 0 ≤ B → ‖sway free g‖ ^ 2 ≤ B ^ 2 → ∀ i, free i → |g i| ≤ B := by
    intro g B hB hg i hi
    have e1 : g i = (sway free g) i := (if_pos hi : Wobbly.part free g i = g i).symm
    rw [e1]
    exact (coord_le_norm _ i).trans (abs_le_of_sq_le_sq' hg hB).2
  have big : M ≤ 2 ^ 45 * M := by
    norm_num
    linarith
  have fin : ∀ c, c = Pt.x ∨ c = Pt.y → |c (q.pos i)| ≤ 2 ^ 45 * M ∧ |c (q.vel i)| ≤ 2 ^ 45 * M := by
    intro c hc
    have hb := hb c hc
    by_cases hi : free i
    · constructor
      · refine coord (fun i => c (q.pos i)) _ (by positivity)
          ((hS.pos (sway free fun i => c (q.pos i)) (sway free fun i => c (q.vel i))).trans ?_) i hi
        calc _ ≤ 2 ^ 21 * (2 ^ 69 * M ^ 2) := mul_le_mul_of_nonneg_left hb (by positivity)
          _ = _ := by ring
      · refine coord (fun i => c (q.vel i)) _ (by positivity)
          ((hS.vel (sway free fun i => c (q.pos i)) (sway free fun i => c (q.vel i))).trans ?_) i hi
        calc _ ≤ 4 * (2 ^ 69 * M ^ 2) := mul_le_mul_of_nonneg_left hb (by norm_num)
          _ ≤ 2 ^ 90 * M ^ 2 := by
            norm_num
            nlinarith [sq_nonneg M]
          _ = _ := by ring
    · exact ⟨((hl i hi).1.axis hc).trans big, ((hl i hi).2.axis hc).trans big⟩
  exact ⟨⟨(fin _ (.inl rfl)).1, (fin _ (.inr rfl)).1⟩, (fin _ (.inl rfl)).2, (fin _ (.inr rfl)).2⟩

theorem rounds_agree (hr : Agrees R r) {M : ℝ} (hM : 1 ≤ M) (hM' : M ≤ 2 ^ 200) {s : State} (ha : ¬ s.active)
    (hdeg : ∀ i, (s.springs.map (endsAt i)).sum ≤ 4) (hlen : s.springs.length ≤ 64)
    (hk : 0 ≤ s.settings.springConstant) (hk' : s.settings.springConstant ≤ 10)
    (hf : 0 ≤ s.settings.friction) (hf' : s.settings.friction ≤ 10) (hdes : ∀ z ∈ s.springs, Within M z.desired)
    (hap : ∀ k, Within M (apos s.live k))
    {S : EuclideanSpace ℝ (Fin 16) → EuclideanSpace ℝ (Fin 16) → ℝ}
    {free : Idx → Prop} (hfree : free = fun i => ¬ s.locks i > 0)
    (hS : Calms s.springs (s.settings.springConstant / 30) (s.settings.friction / 15) free S) (n : ℕ) (q : Phys)
    (hl : ∀ i, ¬ free i → Within M (q.pos i) ∧ Within M (q.vel i))
    (hb : ∀ c, c = Pt.x ∨ c = Pt.y → S (sway free fun i => c (q.pos i)) (sway free fun i => c (q.vel i)) ≤ 2 ^ 69 * M ^ 2) :
    rounds r s n q = rounds R.rnd s n q := by
  have F : Fine R.rnd (2 ^ 45 * M) := (agrees_self R).fine hM (hM'.trans (pow_le_pow_right₀ (by norm_num) (by omega)))
  have M0 : (0 : ℝ) ≤ M := by linarith
  induction n generalizing q with
  | zero => rfl
  | succ n ih =>
    have hw := calm_within hM hS hb hl
    have e := spring_agrees hr hM' (e := s.env) (q := q) hlen hk hk' hf hf' hdes hap (fun i => (hw i).1) fun i => (hw i).2
    have hround : ∀ f, round f s q = .ok ((springRound f s.env q).1, (springRound f s.env q).2) := by
      intro f
      unfold round
      rw [if_neg ha]
    simp only [rounds, hround, bind_ok]
    rw [e, ih]
    · intro i hi
      have hi' : s.env.locks i > 0 := by
        rw [hfree] at hi
        exact not_not.1 hi
      obtain ⟨h1, h2⟩ := round_locked (r := R.rnd) s.env q hi'
      rw [h1, h2]
      exact ⟨(hl i hi).1, by simpa [Within] using M0⟩
    · intro c hc
      refine round_calm hM F (e := s.env) hdeg hk hk' hf hf' hc (fun z hz => ?_) (fun z hz => (hdes z hz).axis hc)
        hfree hS (hb c hc)
      have key : ∀ j, |fixedAt c s.env q (.mesh j)| ≤ M := by
        intro j
        simp only [fixedAt]
        split_ifs with h
        · refine (hl j ?_).1.axis hc
          rw [hfree]
          exact not_not.2 h
        · rw [abs_zero]
          exact M0
      have key' : ∀ n, |fixedAt c s.env q n| ≤ M := by
        intro n
        cases n with
        | mesh j => exact key j
        | anchor k => exact (hap k).axis hc
      exact ⟨key' _, key' _⟩

/-- A sum that rounds to something small is small. -/
theorem sum_agrees (hr : Agrees R r) {M x : ℝ} (hM : M ≤ 2 ^ 200) (h : |R.rnd x| ≤ M) : r x = R.rnd x := by
  refine hr x ?_
  have k1 := R.error_rel x
  have k2 : |x| ≤ |R.rnd x| + |R.rnd x - x| := by
    have := abs_sub_abs_le_abs_sub x (R.rnd x)
    rw [abs_sub_comm] at this
    linarith
  have k3 : (1 : ℝ) / 2 ^ 200 ≤ 1 := by
    rw [div_le_one (by positivity)]
    exact one_le_pow₀ (by norm_num)
  have k4 : |x| / 2 ^ 53 ≤ |x| / 2 := div_le_div_of_nonneg_left (abs_nonneg _) (by norm_num) (by norm_num)
  have k5 : (1 : ℝ) ≤ 2 ^ 200 := one_le_pow₀ (by norm_num)
  have k6 : |x| ≤ 2 ^ 2 * 2 ^ 200 := by linarith
  rw [← pow_add] at k6
  exact pow_up k6 (by omega)

theorem add_agrees (hr : Agrees R r) {M : ℝ} {p d : Pt} (hM : M ≤ 2 ^ 200) (h : Within M (add R.rnd p d)) :
    add r p d = add R.rnd p d := by
  unfold add
  rw [sum_agrees hr hM h.1, sum_agrees hr hM h.2]

/-- The calls of a drag give the same with every such rounding. -/
theorem tug_agrees (hr : Agrees R r) {M : ℝ} (hM : 1 ≤ M) (hM' : M ≤ 2 ^ 200) {o : State} (ha : ¬ o.active)
    (hn : (o.live.map Live.hid).Nodup) (hl : ∀ i, o.locks i = heldBy o i)
    (hdeg : ∀ i, (o.springs.map (endsAt i)).sum ≤ 4) (hd : ¬ dangling o.springs o.live) (hlen : o.springs.length ≤ 64)
    (hk : 0 ≤ o.settings.springConstant) (hk' : o.settings.springConstant ≤ 10)
    (hf : 1 / 10 ≤ o.settings.friction) (hf' : o.settings.friction ≤ 10)
    (hP : Firm o.springs (o.settings.springConstant / 30) fun i => ¬ o.locks i > 0)
    (hall : AllWithin M o) (ops : List Op) (hops : ∀ op ∈ ops, Tugs op) (hnear : KeepsAnchorsWithin R.rnd M o ops) :
    run r o ops = run R.rnd o ops := by
  have F : Fine R.rnd (2 ^ 45 * M) := (agrees_self R).fine hM (hM'.trans (pow_le_pow_right₀ (by norm_num) (by omega)))
  obtain ⟨S, hS, key⟩ := tug_calm hM F ha hn hl hdeg hd hk hk' hf hf' (free := fun i => ¬ o.locks i > 0) rfl hP hall
  have M0 : (0 : ℝ) ≤ M := by linarith
  induction ops using List.reverseRecOn with
  | nil => rfl
  | append_singleton l op ih =>
    have hnl : KeepsAnchorsWithin R.rnd M o l := fun m hm => hnear m (hm.trans (List.prefix_append _ _))
    have hol : ∀ op ∈ l, Tugs op := fun op h => hops op (List.mem_append_left _ h)
    obtain ⟨s, rs, hrun, H, hns, hb⟩ := key l hol hnl
    rw [Rounded.run_append, Rounded.run_append, ih hol hnl, hrun]
    simp only [bind_ok]
    have hA := hnl l (List.prefix_refl _) s rs hrun
    suffices e : exec r s op = exec R.rnd s op by simp only [run, e]
    have ha' : ¬ s.active := by
      unfold State.active
      rw [H.count]
      exact ha
    have hT := hops op (by simp)
    cases op with
    | grab q => exact hT.elim
    | insert q => exact hT.elim
    | release k => exact hT.elim
    | moveBy d => exact hT.elim
    | moveTo q => exact hT.elim
    | resize w h => exact hT.elim
    | setSettings x => exact hT.elim
    | elsewhere n => rfl
    | step t =>
      simp only [exec, step]
      rw [rounds_agree hr hM hM' ha' (by rw [H.springs]; exact hdeg) (by rw [H.springs]; exact hlen) (by rw [H.settings]; exact hk)
        (by rw [H.settings]; exact hk') (by rw [H.settings]; linarith) (by rw [H.settings]; exact hf')
        (by rw [H.springs]; exact hall.2.2) (anchorData_within M0 hA.2)
        (free := fun i => ¬ o.locks i > 0) (by rw [H.locks]) (by rw [H.springs, H.settings]; exact hS) (stepCount t) ⟨s.pos, s.vel⟩
        (fun i hi => ?_) hb]
      have hi' : o.locks i > 0 := not_not.1 hi
      refine ⟨hA.1 i (by rw [H.grabs, ← hl]; exact hi'), ?_⟩
      rcases H.stopped i hi' with h | h
      · dsimp only
        rw [h]
        exact hall.2.1 i
      · dsimp only
        rw [h]
        simpa [Within] using M0
    | moveAnchor k d =>
      simp only [exec, moveAnchor]
      cases hfind : s.live.find? (fun a => decide (a.hid = k)) with
      | none => rfl
      | some a =>
        have ham : a ∈ s.live := List.mem_of_find?_eq_some hfind
        simp only [ha', if_false]
        cases hkind : a.kind with
        | ins p st f g =>
          have e1 : exec R.rnd s (.moveAnchor k d) = .ok ({ s with
              live := s.live.map fun b => if b.hid = k then ⟨b.hid, shift R.rnd d b.kind⟩ else b }, .none) := by
            simp only [exec, moveAnchor, hfind, ha', if_false, hkind]
          have hA' := hnear _ (List.prefix_refl _) _ _ (run_snoc hrun e1)
          have e2 : (s.live.map fun b => if b.hid = k then (⟨b.hid, shift r d b.kind⟩ : Live) else b) =
              s.live.map fun b => if b.hid = k then ⟨b.hid, shift R.rnd d b.kind⟩ else b := by
            refine List.map_congr_left fun b hb => ?_
            split_ifs with hbk
            · cases hkb : b.kind with
              | grab i => rfl
              | ins q st' f' g' =>
                have := hA'.2 _ (List.mem_map.2 ⟨b, hb, rfl⟩) (add R.rnd q d) st' f' g' (by rw [if_pos hbk, hkb]; rfl)
                simp only [shift]
                rw [add_agrees hr hM' this]
            · rfl
          rw [e2]
        | grab i =>
          have e1 : exec R.rnd s (.moveAnchor k d) = .ok ({ s with
              pos := Function.update s.pos i (add R.rnd (s.pos i) d) }, .none) := by
            simp only [exec, moveAnchor, hfind, ha', if_false, hkind]
          have hA' := hnear _ (List.prefix_refl _) _ _ (run_snoc hrun e1)
          have hpos : heldBy s i > 0 := by
            rw [heldBy, gt_iff_lt, List.countP_pos_iff]
            exact ⟨a, ham, by rw [hkind]; simp⟩
          have := hA'.1 i hpos
          simp only [Function.update_self] at this
          dsimp only
          rw [add_agrees hr hM' this]

end Verif.Wobbly.Rounded
