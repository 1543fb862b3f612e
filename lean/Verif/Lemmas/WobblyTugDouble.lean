import Verif.Spec.WobblyBounds
import Verif.Lemmas.WobblyTug
import Verif.Lemmas.WobblyBook
import Verif.Lemmas.WobblyFineWeb

/-! # Several anchors that are dragged, in double precision (for C138) -/

namespace Verif.Wobbly.Rounded

open Spec Outcome Classical Props Wobbly

variable {r : ℝ → ℝ}

theorem _root_.Verif.Spec.Within.axis {M : ℝ} {p : Pt} (h : Within M p) {c : Pt → ℝ} (hc : c = Pt.x ∨ c = Pt.y) : |c p| ≤ M := by
  rcases hc with rfl | rfl
  · exact h.1
  · exact h.2

/-- The model `s`, which was `o` before some calls. -/
structure Rigged (o s : State) : Prop where
  settings : s.settings = o.settings
  locks : s.locks = o.locks
  springs : s.springs = o.springs
  count : s.count = o.count
  alive : ∀ n : Node, n.alive o.live → n.alive s.live
  grabs : ∀ i, heldBy s i = heldBy o i
  stopped : ∀ i, o.locks i > 0 → s.vel i = o.vel i ∨ s.vel i = 0

theorem rigged_self (o : State) : Rigged o o := ⟨rfl, rfl, rfl, rfl, fun _ h => h, fun _ => rfl, fun _ _ => .inl rfl⟩

theorem anchorData_within {M : ℝ} (hM : 0 ≤ M) {live : List Live}
    (h : ∀ a ∈ live, ∀ p st f g, a.kind = .ins p st f g → Within M p) (k : ℕ) : Within M (apos live k) := by
  unfold apos
  cases hk : anchorData live k with
  | none =>
    exact ⟨by show |(0 : ℝ)| ≤ M; rw [abs_zero]; exact hM, by show |(0 : ℝ)| ≤ M; rw [abs_zero]; exact hM⟩
  | some p =>
    unfold anchorData at hk
    obtain ⟨a, ha, e⟩ := List.exists_of_findSome?_eq_some hk
    cases hkind : a.kind with
    | grab i =>
      rw [hkind] at e
      cases e
    | ins q st f g =>
      rw [hkind] at e
      simp only at e
      split_ifs at e
      simp only [Option.some.injEq] at e
      subst e
      exact h a ha _ _ _ _ hkind

/-- One more call. -/
theorem Rigged.exec {M : ℝ} (hM : 1 ≤ M) (hr : Fine r (2 ^ 45 * M)) {o s : State} (H : Rigged o s) (ha : ¬ o.active)
    (hn : (s.live.map Live.hid).Nodup) (hl : ∀ i, o.locks i = heldBy o i)
    (hdeg : ∀ i, (o.springs.map (endsAt i)).sum ≤ 4) (hd : ¬ dangling o.springs o.live)
    (hk : 0 ≤ o.settings.springConstant) (hk' : o.settings.springConstant ≤ 10)
    (hf : 0 ≤ o.settings.friction) (hf' : o.settings.friction ≤ 10) (hdes : ∀ z ∈ o.springs, Within M z.desired)
    {S : EuclideanSpace ℝ (Fin 16) → EuclideanSpace ℝ (Fin 16) → ℝ} {free : Idx → Prop} (hfree : free = fun i => ¬ o.locks i > 0)
    (hS : Calms o.springs (o.settings.springConstant / 30) (o.settings.friction / 15) free S)
    (hb : ∀ c, c = Pt.x ∨ c = Pt.y → S (sway free fun i => c (s.pos i)) (sway free fun i => c (s.vel i)) ≤ 2 ^ 69 * M ^ 2)
    (hA : AnchorsWithin M s) {op : Op} (hop : Tugs op) :
    ∃ s' y, exec r s op = .ok (s', y) ∧ Rigged o s' ∧ (s'.live.map Live.hid).Nodup ∧
      ∀ c, c = Pt.x ∨ c = Pt.y → S (sway free fun i => c (s'.pos i)) (sway free fun i => c (s'.vel i)) ≤ 2 ^ 69 * M ^ 2 := by
  have ha' : ¬ s.active := by
    unfold State.active
    rw [H.count]
    exact ha
  cases op with
  | grab q => exact hop.elim
  | insert q => exact hop.elim
  | release k => exact hop.elim
  | moveBy d => exact hop.elim
  | moveTo q => exact hop.elim
  | resize w h => exact hop.elim
  | setSettings x => exact hop.elim
  | elsewhere n =>
    exact ⟨_, _, rfl, ⟨H.settings, H.locks, H.springs, H.count, H.alive, H.grabs, H.stopped⟩, hn, hb⟩
  | step t =>
    have hd' : ¬ dangling s.springs s.live := by
      rintro ⟨y, hy, hc⟩
      rw [H.springs] at hy
      exact hd ⟨y, hy, fun h => hc ⟨H.alive _ h.1, H.alive _ h.2⟩⟩
    have hfx : ∀ n c, c = Pt.x ∨ c = Pt.y → |fixedAt c s.env ⟨s.pos, s.vel⟩ n| ≤ M := by
      intro n c hc
      cases n with
      | anchor j => exact (anchorData_within (by linarith) hA.2 j).axis hc
      | mesh j =>
        simp only [fixedAt]
        split_ifs with hj
        · refine (hA.1 j ?_).axis hc
          rw [H.grabs, ← hl, ← H.locks]
          exact hj
        · rw [abs_zero]
          linarith
    obtain ⟨q', m, e1, e2, e3⟩ := rounds_calm (s := s) hM hr ha' (by rw [H.springs]; exact hdeg) (by rw [H.settings]; exact hk)
      (by rw [H.settings]; exact hk') (by rw [H.settings]; exact hf) (by rw [H.settings]; exact hf')
      (by rw [H.springs]; exact fun z hz c hc => (hdes z hz).axis hc) (free := free) (by rw [hfree, H.locks])
      (by rw [H.springs, H.settings]; exact hS) (stepCount t) ⟨s.pos, s.vel⟩ (fun z _ c hc => ⟨hfx _ c hc, hfx _ c hc⟩) hb
    have hx : Rounded.exec r s (.step t) = .ok ({ s with
        pos := if ¬ ((if t ≠ 0 then False else s.unequal) ∨ m) ∧ s.active then s.targets else q'.pos
        vel := q'.vel
        unequal := (if t ≠ 0 then False else s.unequal) ∨ m }, .more ((if t ≠ 0 then False else s.unequal) ∨ m)) := by
      simp only [Rounded.exec, step]
      rw [if_neg fun h => hd' h.2, e1, bind_ok]
    have hp : (if ¬ ((if t ≠ 0 then False else s.unequal) ∨ m) ∧ s.active then s.targets else q'.pos) = q'.pos :=
      if_neg fun h => ha' h.2
    rw [hp] at hx
    refine ⟨_, _, hx, ⟨H.settings, H.locks, H.springs, H.count, H.alive, H.grabs, fun i hi => ?_⟩, hn, e2⟩
    rcases (e3 i (by rw [H.locks]; exact hi)).2 with k | k
    · rcases H.stopped i hi with h | h
      · exact .inl (k.trans h)
      · exact .inr (k.trans h)
    · exact .inr k
  | moveAnchor k d =>
    simp only [Rounded.exec, moveAnchor]
    cases hfind : s.live.find? (fun a => decide (a.hid = k)) with
    | none => exact ⟨s, _, rfl, H, hn, hb⟩
    | some a =>
      have ham : a ∈ s.live := List.mem_of_find?_eq_some hfind
      simp only [ha', if_false]
      cases hkind : a.kind with
      | grab i =>
        have hlock : o.locks i > 0 := by
          rw [hl, ← H.grabs, heldBy, gt_iff_lt, List.countP_pos_iff]
          exact ⟨a, ham, by rw [hkind]; simp⟩
        refine ⟨_, _, rfl, ⟨H.settings, H.locks, H.springs, H.count, H.alive, H.grabs, H.stopped⟩, hn, fun c hc => ?_⟩
        have e : (sway free fun j => c (Function.update s.pos i (add r (s.pos i) d) j)) = sway free fun j => c (s.pos j) := by
          unfold sway
          congr 1
          funext j
          unfold Wobbly.part
          by_cases hj : free j
          · rw [if_pos hj, if_pos hj]
            refine congrArg c (Function.update_of_ne (fun h => ?_) _ _)
            rw [hfree, h] at hj
            exact hj hlock
          · rw [if_neg hj, if_neg hj]
        dsimp only
        rw [e]
        exact hb c hc
      | ins p st f g =>
        have hdata : ∀ j, anchorData (s.live.map fun b => if b.hid = k then ⟨b.hid, shift r d b.kind⟩ else b) j =
            (anchorData s.live j).map (fun p => if j = k then add r p d else p) := by
          intro j
          have e0 : (fun b : Live => if b.hid = k then (⟨b.hid, shift r d b.kind⟩ : Live) else b) =
              fun b => ⟨b.hid, (fun (h : ℕ) (x : Kind) => if h = k then shift r d x else x) b.hid b.kind⟩ := by
            funext b
            dsimp only
            split_ifs <;> rfl
          rw [e0]
          refine anchorData_map_kind s.live (fun (h : ℕ) (x : Kind) => if h = k then shift r d x else x)
            (fun j p => if j = k then add r p d else p) (fun j x => ?_) j
          cases x <;> split_ifs <;> rfl
        refine ⟨_, _, rfl, ⟨H.settings, H.locks, H.springs, H.count, fun n hn => ?_, fun i => ?_, H.stopped⟩, ?_, hb⟩
        · have := H.alive n hn
          cases n with
          | mesh i => trivial
          | anchor j =>
            simp only [Node.alive] at this ⊢
            rw [hdata, Option.isSome_map]
            exact this
        · rw [← H.grabs i]
          unfold heldBy
          rw [List.countP_map]
          refine List.countP_congr fun b _ => ?_
          dsimp only [Function.comp]
          split_ifs
          · cases b.kind <;> rfl
          · rfl
        · dsimp only
          rw [List.map_map]
          have : Live.hid ∘ (fun b : Live => if b.hid = k then (⟨b.hid, shift r d b.kind⟩ : Live) else b) = Live.hid := by
            funext b
            dsimp only [Function.comp]
            split_ifs <;> rfl
          rw [this]
          exact hn

/-- What is called the energy of the mesh stays bounded while its anchors are dragged about. -/
theorem tug_calm {M : ℝ} (hM : 1 ≤ M) (hr : Fine r (2 ^ 45 * M)) {o : State} (ha : ¬ o.active)
    (hn : (o.live.map Live.hid).Nodup) (hl : ∀ i, o.locks i = heldBy o i)
    (hdeg : ∀ i, (o.springs.map (endsAt i)).sum ≤ 4) (hd : ¬ dangling o.springs o.live)
    (hk : 0 ≤ o.settings.springConstant) (hk' : o.settings.springConstant ≤ 10)
    (hf : 1 / 10 ≤ o.settings.friction) (hf' : o.settings.friction ≤ 10)
    {free : Idx → Prop} (hfree : free = fun i => ¬ o.locks i > 0)
    (hP : Firm o.springs (o.settings.springConstant / 30) free) (hall : AllWithin M o) :
    ∃ S, Calms o.springs (o.settings.springConstant / 30) (o.settings.friction / 15) free S ∧
    ∀ ops, (∀ op ∈ ops, Tugs op) → KeepsAnchorsWithin r M o ops →
      ∃ s rs, run r o ops = .ok (s, rs) ∧ Rigged o s ∧ (s.live.map Live.hid).Nodup ∧
        ∀ c, c = Pt.x ∨ c = Pt.y → S (sway free fun i => c (s.pos i)) (sway free fun i => c (s.vel i)) ≤ 2 ^ 69 * M ^ 2 := by
  obtain ⟨S, hS⟩ := exists_calms hdeg (c := o.settings.springConstant / 30) (γ := o.settings.friction / 15) (by positivity)
    (by linarith) (by linarith) (by linarith) hP
  have M0 : 0 < M := by linarith
  have start : ∀ c, c = Pt.x ∨ c = Pt.y →
      S (sway free fun i => c (o.pos i)) (sway free fun i => c (o.vel i)) ≤ 2 ^ 69 * M ^ 2 := by
    intro c hc
    refine (hS.le _ _).trans ?_
    have k : ∀ g : Idx → ℝ, (∀ i, |g i| ≤ M) → ‖sway free g‖ ^ 2 ≤ (4 * M) ^ 2 := by
      intro g hg
      refine pow_le_pow_left₀ (norm_nonneg _) (norm_le_of_coords M0.le fun i => ?_) 2
      show |Wobbly.part free g i| ≤ M
      unfold Wobbly.part
      split_ifs
      · exact hg i
      · rw [abs_zero]
        exact M0.le
    have k1 := k (fun i => c (o.pos i)) fun i => (hall.1 i).axis hc
    have k2 := k (fun i => c (o.vel i)) fun i => (hall.2.1 i).axis hc
    have := sq_nonneg M
    norm_num
    nlinarith
  refine ⟨S, hS, ?_⟩
  intro ops
  induction ops using List.reverseRecOn with
  | nil => exact fun _ _ => ⟨o, [], rfl, rigged_self o, hn, start⟩
  | append_singleton l op ih =>
    intro hops hnear
    obtain ⟨s, rs, hrun, H, hns, hbs⟩ := ih (fun op h => hops op (List.mem_append_left _ h))
      (fun m hm => hnear m (hm.trans (List.prefix_append _ _)))
    obtain ⟨s', y, hex, H', hn', hb'⟩ := H.exec hM hr ha hns hl hdeg hd hk hk' (by linarith) hf' hall.2.2 hfree hS hbs
      (hnear l (List.prefix_append _ _) s rs hrun) (hops op (by simp))
    refine ⟨s', rs ++ [y], ?_, H', hn', hb'⟩
    rw [Rounded.run_append, hrun, bind_ok]
    simp only [run, hex, bind_ok]

/-- A mesh whose anchors are dragged about stays within a bound. -/
theorem tug_fine {M : ℝ} (hM : 1 ≤ M) (hr : Fine r (2 ^ 45 * M)) {o : State} (ha : ¬ o.active)
    (hn : (o.live.map Live.hid).Nodup) (hl : ∀ i, o.locks i = heldBy o i)
    (hdeg : ∀ i, (o.springs.map (endsAt i)).sum ≤ 4) (hd : ¬ dangling o.springs o.live)
    (hk : 0 ≤ o.settings.springConstant) (hk' : o.settings.springConstant ≤ 10)
    (hf : 1 / 10 ≤ o.settings.friction) (hf' : o.settings.friction ≤ 10)
    (hP : Firm o.springs (o.settings.springConstant / 30) fun i => ¬ o.locks i > 0) (hall : AllWithin M o) (ops : List Op)
    (hops : ∀ op ∈ ops, Tugs op) (hnear : KeepsAnchorsWithin r M o ops) :
    ∃ s rs, run r o ops = .ok (s, rs) ∧ Rigged o s ∧ ∀ i, Within (2 ^ 45 * M) (s.pos i) ∧ Within (2 ^ 36 * M) (s.vel i) := by
  set free : Idx → Prop := fun i => ¬ o.locks i > 0 with hfree
  have M0 : 0 < M := by linarith
  obtain ⟨S, hS, key⟩ := tug_calm hM hr ha hn hl hdeg hd hk hk' hf hf' hfree hP hall
  obtain ⟨s, rs, hrun, H, -, hb⟩ := key ops hops hnear
  have hlast := hnear ops (List.prefix_refl _) s rs hrun
  have coord : ∀ (g : Idx → ℝ) (B : ℝ), 0 ≤ B → ‖sway free g‖ ^ 2 ≤ B ^ 2 → ∀ i, free i → |g i| ≤ B := by
    intro g B hB hg i hi
    have e1 : g i = (sway free g) i := (if_pos hi : Wobbly.part free g i = g i).symm
    rw [e1]
    exact (coord_le_norm _ i).trans (abs_le_of_sq_le_sq' hg hB).2
  have big : M ≤ 2 ^ 45 * M := by
    norm_num
    linarith
  have big' : M ≤ 2 ^ 36 * M := by
    norm_num
    linarith
  have fin : ∀ c, c = Pt.x ∨ c = Pt.y → ∀ i, |c (s.pos i)| ≤ 2 ^ 45 * M ∧ |c (s.vel i)| ≤ 2 ^ 36 * M := by
    intro c hc i
    have hb := hb c hc
    by_cases hi : free i
    · constructor
      · refine coord (fun i => c (s.pos i)) _ (by positivity)
          ((hS.pos (sway free fun i => c (s.pos i)) (sway free fun i => c (s.vel i))).trans ?_) i hi
        calc _ ≤ 2 ^ 21 * (2 ^ 69 * M ^ 2) := mul_le_mul_of_nonneg_left hb (by positivity)
          _ = _ := by ring
      · refine coord (fun i => c (s.vel i)) _ (by positivity)
          ((hS.vel (sway free fun i => c (s.pos i)) (sway free fun i => c (s.vel i))).trans ?_) i hi
        calc _ ≤ 4 * (2 ^ 69 * M ^ 2) := mul_le_mul_of_nonneg_left hb (by norm_num)
          _ ≤ 2 ^ 72 * M ^ 2 := by
            norm_num
            nlinarith [sq_nonneg M]
          _ = _ := by ring
    · have hi' : o.locks i > 0 := not_not.1 hi
      constructor
      · refine ((hlast.1 i ?_).axis hc).trans big
        rw [H.grabs, ← hl]
        exact hi'
      · rcases H.stopped i hi' with h | h
        · rw [h]
          exact ((hall.2.1 i).axis hc).trans big'
        · rw [h, axis_zero hc, abs_zero]
          positivity
  exact ⟨s, rs, hrun, H, fun i => ⟨⟨(fin _ (.inl rfl) i).1, (fin _ (.inr rfl) i).1⟩, (fin _ (.inl rfl) i).2, (fin _ (.inr rfl) i).2⟩⟩

/-- Springs joined as in a fresh mesh, with a point that is held. -/
theorem joined_firm {l : List Spring} (hj : Joined l) {c : ℝ} (hc : 1 / 300 ≤ c) {free : Idx → Prop} {j : Idx} (hfree : ¬ free j) :
    Firm l c free := by
  intro y hy
  set Q := (l.map fun z => (ground y z.a - ground y z.b) * (ground y z.a - ground y z.b)).sum with hQ
  have Q0 : 0 ≤ Q := list_nonneg _ _ fun z _ => mul_self_nonneg _
  have hedge : ∀ z ∈ baseEdges, |y z.2.1 - y z.1| ≤ Real.sqrt Q := by
    intro z hz
    have hm : (Node.mesh z.1, Node.mesh z.2.1) ∈ l.map fun y => (y.a, y.b) := by
      rw [hj.mem_iff]
      exact List.mem_map.2 ⟨z, hz, rfl⟩
    obtain ⟨x, hx, e⟩ := List.mem_map.1 hm
    simp only [Prod.mk.injEq] at e
    refine Real.abs_le_sqrt ?_
    have k : (ground y x.a - ground y x.b) * (ground y x.a - ground y x.b) ≤ Q :=
      List.single_le_sum (fun v hv => by
        obtain ⟨z, -, rfl⟩ := List.mem_map.1 hv
        exact mul_self_nonneg _) _ (List.mem_map.2 ⟨x, hx, rfl⟩)
    rw [e.1, e.2] at k
    simp only [ground] at k
    nlinarith
  have hyi : ∀ i, y i ^ 2 ≤ 144 * Q := by
    intro i
    have k := connected hedge i j
    rw [hy j hfree, sub_zero] at k
    have k2 := pow_le_pow_left₀ (abs_nonneg _) k 2
    rw [sq_abs, mul_pow, Real.sq_sqrt Q0] at k2
    linarith
  have hsum : ∑ i, y i ^ 2 ≤ 16 * (144 * Q) := by
    calc ∑ i, y i ^ 2 ≤ ∑ _i : Fin 16, 144 * Q := Finset.sum_le_sum fun i _ => hyi i
      _ = _ := by simp
  have k := mul_le_mul_of_nonneg_right hc Q0
  norm_num
  linarith

end Verif.Wobbly.Rounded
