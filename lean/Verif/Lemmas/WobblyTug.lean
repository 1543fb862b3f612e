import Verif.Spec.WobblyTug
import Verif.Lemmas.WobblySwing

/-! # Several anchors that are dragged (for C137) -/

namespace Verif.Wobbly

open Spec Outcome Classical Props

theorem dragged_append (h : ℕ) (l m : List Op) : dragged h (l ++ m) = dragged h l + dragged h m := by
  induction l with
  | nil => rw [List.nil_append]; exact (zero_add _).symm
  | cons op l ih =>
    rw [List.cons_append]
    cases op <;> simp only [dragged, ih]
    split_ifs
    · rw [add_assoc]
    · rfl

theorem dragged_step (h t : ℕ) (l : List Op) : dragged h (l ++ [.step t]) = dragged h l := by
  rw [dragged_append]
  exact add_zero _

theorem dragged_move (h k : ℕ) (d : Pt) (l : List Op) :
    dragged h (l ++ [.moveAnchor k d]) = dragged h l + if k = h then d else 0 := by
  rw [dragged_append]
  congr 1
  simp only [dragged]
  split_ifs
  · exact add_zero d
  · rfl

/-- How far these calls drag the point `i`, in one coordinate. -/
noncomputable def pinnedBy (live : List Live) (l : List Op) (c : Pt → ℝ) (i : Idx) : ℝ :=
  (live.map fun a => if a.kind = .grab i then c (dragged a.hid l) else 0).sum

theorem pinnedBy_nil (live : List Live) {c : Pt → ℝ} (c0 : c 0 = 0) (i : Idx) : pinnedBy live [] c i = 0 := by
  unfold pinnedBy
  induction live with
  | nil => rfl
  | cons a live ih =>
    rw [List.map_cons, List.sum_cons, ih]
    simp [dragged, c0]

theorem pinnedBy_step (live : List Live) (l : List Op) (c : Pt → ℝ) (i : Idx) (t : ℕ) :
    pinnedBy live (l ++ [.step t]) c i = pinnedBy live l c i := by
  unfold pinnedBy
  simp only [dragged_step]

theorem pinnedBy_move {live : List Live} (hn : (live.map Live.hid).Nodup) (l : List Op) {c : Pt → ℝ}
    (ca : ∀ p q, c (p + q) = c p + c q) (c0 : c 0 = 0) (i : Idx) (k : ℕ) (d : Pt) :
    pinnedBy live (l ++ [.moveAnchor k d]) c i =
      pinnedBy live l c i + if ∃ a ∈ live, a.hid = k ∧ a.kind = .grab i then c d else 0 := by
  unfold pinnedBy
  simp only [dragged_move]
  induction live with
  | nil => simp
  | cons a live ih =>
    rw [List.map_cons, List.nodup_cons] at hn
    simp only [List.map_cons, List.sum_cons]
    rw [ih hn.2]
    by_cases hk : k = a.hid
    · have hno : ¬ ∃ b ∈ live, b.hid = k ∧ b.kind = .grab i := by
        rintro ⟨b, hb, hbk, -⟩
        exact hn.1 (List.mem_map.2 ⟨b, hb, hbk.trans hk⟩)
      rw [if_neg hno, if_pos hk]
      by_cases hg : a.kind = .grab i
      · rw [if_pos hg, if_pos hg, if_pos ⟨a, by simp, hk.symm, hg⟩, ca]
        ring
      · rw [if_neg hg, if_neg hg, if_neg]
        · ring
        · rintro ⟨b, hb, hbk, hbg⟩
          rcases List.mem_cons.1 hb with rfl | hb
          · exact hg hbg
          · exact hno ⟨b, hb, hbk, hbg⟩
    · have e : (∃ b ∈ a :: live, b.hid = k ∧ b.kind = .grab i) ↔ ∃ b ∈ live, b.hid = k ∧ b.kind = .grab i := by
        constructor
        · rintro ⟨b, hb, hbk, hbg⟩
          rcases List.mem_cons.1 hb with rfl | hb
          · exact absurd hbk.symm hk
          · exact ⟨b, hb, hbk, hbg⟩
        · rintro ⟨b, hb, h⟩
          exact ⟨b, List.mem_cons_of_mem _ hb, h⟩
      rw [if_neg hk]
      simp only [e, add_zero]
      ring

theorem pinnedBy_le {live : List Live} {l : List Op} {c : Pt → ℝ} {D : ℝ} (hD : 0 ≤ D)
    (h : ∀ a ∈ live, |c (dragged a.hid l)| ≤ D) (i : Idx) : |pinnedBy live l c i| ≤ live.length * D := by
  unfold pinnedBy
  induction live with
  | nil => simp
  | cons a live ih =>
    have h1 := ih fun b hb => h b (List.mem_cons_of_mem _ hb)
    rw [List.map_cons, List.sum_cons, List.length_cons]
    push_cast
    have h2 : |if a.kind = .grab i then c (dragged a.hid l) else 0| ≤ D := by
      split_ifs
      · exact h a (by simp)
      · rw [abs_zero]
        exact hD
    calc _ ≤ _ := abs_add_le _ _
      _ ≤ D + live.length * D := add_le_add h2 h1
      _ = _ := by ring

/-- The model `s`, which was `o` before these calls. -/
structure Tugged (o : State) (l : List Op) (s : State) : Prop where
  settings : s.settings = o.settings
  locks : s.locks = o.locks
  springs : s.springs = o.springs
  count : s.count = o.count
  live : s.live = o.live.map fun a => ⟨a.hid, a.kind.shift (dragged a.hid l)⟩
  pinned : ∀ c, c = Pt.x ∨ c = Pt.y → ∀ i, o.locks i > 0 → c (s.pos i) = c (o.pos i) + pinnedBy o.live l c i
  stopped : ∀ i, o.locks i > 0 → s.vel i = o.vel i ∨ s.vel i = 0

theorem shift_zero (k : Kind) : k.shift 0 = k := by
  cases k with
  | grab i => rfl
  | ins p st f g =>
    simp only [Kind.shift]
    rw [show p + 0 = p from add_zero p]

theorem shift_add (k : Kind) (d d' : Pt) : k.shift (d + d') = (k.shift d).shift d' := by
  cases k with
  | grab i => rfl
  | ins p st f g =>
    simp only [Kind.shift]
    rw [show p + d + d' = p + (d + d') from add_assoc p d d']

theorem axis_add {c : Pt → ℝ} (hc : c = Pt.x ∨ c = Pt.y) (p q : Pt) : c (p + q) = c p + c q := by
  rcases hc with rfl | rfl <;> rfl

theorem axis_zero {c : Pt → ℝ} (hc : c = Pt.x ∨ c = Pt.y) : c 0 = 0 := by
  rcases hc with rfl | rfl <;> rfl

theorem tugged_nil (o : State) : Tugged o [] o where
  settings := rfl
  locks := rfl
  springs := rfl
  count := rfl
  live := by
    have : ∀ a : Live, (⟨a.hid, a.kind.shift (dragged a.hid [])⟩ : Live) = a := by
      intro a
      rw [show dragged a.hid [] = 0 from rfl, shift_zero]
    simp only [this, List.map_id']
  pinned c hc i _ := by rw [pinnedBy_nil _ (axis_zero hc), add_zero]
  stopped i _ := Or.inl rfl

theorem Tugged.data {o s : State} {l : List Op} (H : Tugged o l s) (h : ℕ) :
    anchorData s.live h = (anchorData o.live h).map (· + dragged h l) := by
  rw [H.live]
  exact anchorData_map_kind o.live (fun j x => x.shift (dragged j l)) (fun j p => p + dragged j l)
    (fun _ x => by cases x <;> rfl) h

theorem Tugged.not_dangling {o s : State} {l : List Op} (H : Tugged o l s) (hd : ¬ dangling o.springs o.live) :
    ¬ dangling s.springs s.live := by
  have halive : ∀ n : Node, n.alive o.live → n.alive s.live := by
    intro n hn
    cases n with
    | mesh i => trivial
    | anchor j =>
      simp only [Node.alive] at hn ⊢
      rw [H.data, Option.isSome_map]
      exact hn
  rintro ⟨y, hy, hc⟩
  rw [H.springs] at hy
  refine hd ⟨y, hy, fun h => hc ⟨halive _ h.1, halive _ h.2⟩⟩

/-- One more call. -/
theorem Tugged.exec {b : ℕ} {o s : State} {l : List Op} {op : Op} (H : Tugged o l s) (hI : Inv b o) (ha : ¬ o.active)
    (hd : ¬ dangling o.springs o.live) (hop : Tugs op) :
    ∃ s' r, s.exec op = .ok (s', r) ∧ Tugged o (l ++ [op]) s' ∧
      ((∃ n, s'.pos = (settleIter s.env ⟨s.pos, s.vel⟩ n).pos ∧ s'.vel = (settleIter s.env ⟨s.pos, s.vel⟩ n).vel) ∨
        s'.vel = s.vel ∧ ∀ i, ¬ o.locks i > 0 → s'.pos i = s.pos i) := by
  have ha' : ¬ s.active := by
    unfold State.active
    rw [H.count]
    exact ha
  have hlocks : s.env.locks = o.locks := H.locks
  cases op with
  | grab q => exact hop.elim
  | insert q => exact hop.elim
  | release k => exact hop.elim
  | moveBy d => exact hop.elim
  | moveTo q => exact hop.elim
  | resize w h => exact hop.elim
  | setSettings x => exact hop.elim
  | elsewhere n =>
    have hdr : ∀ h, dragged h (l ++ [.elsewhere n]) = dragged h l := by
      intro h
      rw [dragged_append]
      exact add_zero _
    refine ⟨_, _, rfl, ⟨H.settings, H.locks, H.springs, H.count, ?_, fun c hc i hi => ?_, H.stopped⟩, Or.inr ⟨rfl, fun _ _ => rfl⟩⟩
    · show s.live = _
      rw [H.live]
      simp only [hdr]
    · have : pinnedBy o.live (l ++ [.elsewhere n]) c i = pinnedBy o.live l c i := by
        unfold pinnedBy
        simp only [hdr]
      rw [this]
      exact H.pinned c hc i hi
  | step t =>
    have hst := step_inactive ha' (t := t) fun _ => H.not_dangling hd
    refine ⟨_, _, hst, ⟨H.settings, H.locks, H.springs, H.count, ?_, fun c hc i hi => ?_, fun i hi => ?_⟩,
      Or.inl ⟨_, rfl, rfl⟩⟩
    · show s.live = _
      rw [H.live]
      simp only [dragged_step]
    · rw [pinnedBy_step]
      have := (settleIter_locked s.env ⟨s.pos, s.vel⟩ (i := i) (by rw [hlocks]; exact hi) (stepCount t)).1
      show c ((settleIter s.env ⟨s.pos, s.vel⟩ (stepCount t)).pos i) = _
      rw [this]
      exact H.pinned c hc i hi
    · show (settleIter s.env ⟨s.pos, s.vel⟩ (stepCount t)).vel i = _ ∨ (settleIter s.env ⟨s.pos, s.vel⟩ (stepCount t)).vel i = _
      by_cases hn : stepCount t = 0
      · rw [hn]
        exact H.stopped i hi
      · exact Or.inr ((settleIter_locked s.env ⟨s.pos, s.vel⟩ (i := i) (by rw [hlocks]; exact hi) (stepCount t)).2 hn)
  | moveAnchor k d =>
    have hlive : ∀ a : Live, (⟨a.hid, a.kind.shift (dragged a.hid (l ++ [.moveAnchor k d]))⟩ : Live) =
        if a.hid = k then ⟨a.hid, (a.kind.shift (dragged a.hid l)).shift d⟩ else ⟨a.hid, a.kind.shift (dragged a.hid l)⟩ := by
      intro a
      rw [dragged_move]
      by_cases hk : a.hid = k
      · rw [if_pos hk.symm, if_pos hk, shift_add]
      · rw [if_neg (Ne.symm hk), if_neg hk, show dragged a.hid l + 0 = dragged a.hid l from add_zero _]
    have hmem : ∀ i, (∃ a ∈ o.live, a.hid = k ∧ a.kind = .grab i) ↔ ∃ a ∈ s.live, a.hid = k ∧ a.kind = .grab i := by
      intro i
      rw [H.live]
      constructor
      · rintro ⟨a, ha, h1, h2⟩
        exact ⟨_, List.mem_map.2 ⟨a, ha, rfl⟩, h1, by rw [h2]; rfl⟩
      · rintro ⟨a, ha, h1, h2⟩
        obtain ⟨a', ha', rfl⟩ := List.mem_map.1 ha
        refine ⟨a', ha', h1, ?_⟩
        cases hk : a'.kind with
        | grab j =>
          rw [hk] at h2
          exact h2
        | ins p st f g =>
          rw [hk] at h2
          cases h2
    have hnd : (s.live.map Live.hid).Nodup := by
      rw [H.live, List.map_map]
      exact hI.hids
    simp only [State.exec, State.moveAnchor]
    cases hfind : s.live.find? (fun a => decide (a.hid = k)) with
    | none =>
      have hno : ∀ a ∈ s.live, a.hid ≠ k := by
        intro a ha
        have := List.find?_eq_none.1 hfind a ha
        simpa using this
      refine ⟨s, _, rfl, ⟨H.settings, H.locks, H.springs, H.count, ?_, fun c hc i hi => ?_, H.stopped⟩, Or.inr ⟨rfl, fun _ _ => rfl⟩⟩
      · rw [H.live]
        refine List.map_congr_left fun a ha => ?_
        rw [hlive, if_neg]
        exact hno ⟨a.hid, a.kind.shift (dragged a.hid l)⟩ (by rw [H.live]; exact List.mem_map.2 ⟨a, ha, rfl⟩)
      · rw [pinnedBy_move hI.hids l (axis_add hc) (axis_zero hc), if_neg, add_zero]
        · exact H.pinned c hc i hi
        · rw [hmem]
          rintro ⟨a, ha, h1, -⟩
          exact hno a ha h1
    | some a =>
      have ham : a ∈ s.live := List.mem_of_find?_eq_some hfind
      have hak : a.hid = k := by simpa using List.find?_some hfind
      have huniq : ∀ a' ∈ s.live, a'.hid = k → a' = a := by
        intro a' ha' h'
        exact List.inj_on_of_nodup_map hnd ha' ham (h'.trans hak.symm)
      simp only [ha', if_false]
      cases hkind : a.kind with
      | grab i =>
        have hlock : o.locks i > 0 := by
          obtain ⟨a', ha', h1, h2⟩ := (hmem i).2 ⟨a, ham, hak, hkind⟩
          rw [hI.locks, grabs, gt_iff_lt, List.countP_pos_iff]
          exact ⟨a', ha', by rw [h2]; simp [Kind.isGrab]⟩
        refine ⟨_, _, rfl, ⟨H.settings, H.locks, H.springs, H.count, ?_, fun c hc j hj => ?_, H.stopped⟩, Or.inr ⟨rfl, fun j hj => ?_⟩⟩
        · show s.live = _
          rw [H.live]
          refine List.map_congr_left fun a' ha' => ?_
          rw [hlive]
          split_ifs with hk
          · have := huniq ⟨a'.hid, a'.kind.shift (dragged a'.hid l)⟩
              (by rw [H.live]; exact List.mem_map.2 ⟨a', ha', rfl⟩) hk
            have h3 : a'.kind.shift (dragged a'.hid l) = .grab i := by
              rw [← hkind, ← this]
            rw [h3]
            rfl
          · rfl
        · rw [pinnedBy_move hI.hids l (axis_add hc) (axis_zero hc)]
          show c (Function.update s.pos i (s.pos i + d) j) = _
          by_cases hij : j = i
          · subst hij
            rw [Function.update_self, axis_add hc, H.pinned c hc j hj, if_pos ((hmem j).2 ⟨a, ham, hak, hkind⟩)]
            ring
          · rw [Function.update_of_ne hij, H.pinned c hc j hj, if_neg, add_zero]
            rw [hmem]
            rintro ⟨a', ha', h1, h2⟩
            rw [huniq a' ha' h1, hkind] at h2
            cases h2
            exact hij rfl
        · exact Function.update_of_ne (fun h => hj (by rw [h]; exact hlock)) _ _
      | ins p st f g =>
        refine ⟨_, _, rfl, ⟨H.settings, H.locks, H.springs, H.count, ?_, fun c hc j hj => ?_, H.stopped⟩, Or.inr ⟨rfl, fun j hj => rfl⟩⟩
        · show s.live.map _ = _
          rw [H.live, List.map_map]
          refine List.map_congr_left fun a' ha' => ?_
          rw [hlive]
          rfl
        · rw [pinnedBy_move hI.hids l (axis_add hc) (axis_zero hc), if_neg, add_zero]
          · exact H.pinned c hc j hj
          · rw [hmem]
            rintro ⟨a', ha', h1, h2⟩
            rw [huniq a' ha' h1, hkind] at h2
            cases h2

/-- The ends of springs that do not swing are not far from where they were. -/
theorem Tugged.fixed {o s : State} {l : List Op} (H : Tugged o l s) {c : Pt → ℝ}
    (hc : c = Pt.x ∨ c = Pt.y) {D : ℝ} (hD : 0 ≤ D) (hl : ∀ a ∈ o.live, |c (dragged a.hid l)| ≤ D) {n : Node}
    (hn : n.alive o.live) :
    |fixedAt c s.env ⟨s.pos, s.vel⟩ n - fixedAt c o.env ⟨o.pos, o.vel⟩ n| ≤ o.live.length * D + D := by
  have hlen : 0 ≤ (o.live.length : ℝ) * D := by positivity
  cases n with
  | mesh i =>
    have hlocks : s.env.locks = o.locks := H.locks
    have hlocks' : o.env.locks = o.locks := rfl
    simp only [fixedAt, hlocks, hlocks']
    split_ifs with hi
    · rw [H.pinned c hc i hi, add_sub_cancel_left]
      exact (pinnedBy_le hD hl i).trans (by linarith)
    · rw [sub_self, abs_zero]
      linarith
  | anchor h =>
    simp only [Node.alive] at hn
    simp only [fixedAt, State.env, apos, H.data]
    obtain ⟨a, ha, hah, -⟩ := (anchorData_isSome o.live h).1 hn
    obtain ⟨p, hp⟩ := Option.isSome_iff_exists.1 hn
    rw [hp]
    simp only [Option.map_some, Option.getD_some]
    rw [axis_add hc, add_sub_cancel_left, ← hah]
    exact (hl a ha).trans (by linarith)

/-- One coordinate of a mesh whose anchors are dragged about, but not far. -/
theorem tug_bounded {b : ℕ} {o : State} (hI : Inv b o) (hW : Web o) (ha : ¬ o.active)
    (hd : ¬ dangling o.springs o.live) (hk : 0 < o.settings.springConstant)
    (hk' : o.settings.springConstant ≤ 10) (hf : 0 < o.settings.friction) (hf' : o.settings.friction ≤ 10) {c : Pt → ℝ}
    (hc : c = Pt.x ∨ c = Pt.y) {D : ℝ} (hD : 0 ≤ D) :
    ∃ B, 0 ≤ B ∧ ∀ ops, (∀ op ∈ ops, Tugs op) → (∀ l, l <+: ops → ∀ a ∈ o.live, |c (dragged a.hid l)| ≤ D) →
      ∃ s rs, o.run ops = .ok (s, rs) ∧ ∀ i, |c (s.vel i)| ≤ B ∧ (∀ j, |c (s.pos i) - c (s.pos j)| ≤ B) ∧
        (o.live ≠ [] → |c (s.pos i) - c (o.pos i)| ≤ B) := by
  obtain ⟨R1, hR10, hR1⟩ := exists_bound o.springs
    (fun z => |fixedAt c o.env ⟨o.pos, o.vel⟩ z.b - fixedAt c o.env ⟨o.pos, o.vel⟩ z.a - c z.desired|)
  set L := o.live.length * D + D with hL
  have hL0 : 0 ≤ L := by positivity
  set R := R1 + 2 * L with hRdef
  have hR0 : 0 ≤ R := by positivity
  set free : Idx → Prop := fun i => ¬ o.locks i > 0 with hfree
  set x0 := sway free fun i => c (o.pos i) with hx0
  set v0 := sway free fun i => c (o.vel i) with hv0
  obtain ⟨E, hE0, hE⟩ := swings_web (hW.degree hI) hk hk' hf hf' free hR0 x0 v0
  have hal : ∀ y ∈ o.springs, y.a.alive o.live ∧ y.b.alive o.live := by
    intro y hy
    by_contra hc
    exact hd ⟨y, hy, hc⟩
  have key : ∀ ops, (∀ op ∈ ops, Tugs op) → (∀ l, l <+: ops → ∀ a ∈ o.live, |c (dragged a.hid l)| ≤ D) →
      ∃ s rs, o.run ops = .ok (s, rs) ∧ Tugged o ops s ∧
        Swings (web o.springs (o.settings.springConstant / 30) free) (o.settings.friction / 15) (12 * (1 + R)) x0 v0
          (sway free fun i => c (s.pos i)) (sway free fun i => c (s.vel i)) := by
    intro ops
    induction ops using List.reverseRecOn with
    | nil => exact fun _ _ => ⟨o, [], rfl, tugged_nil o, .start⟩
    | append_singleton l op ih =>
      intro hops hnear
      obtain ⟨s, rs, hrun, H, hS⟩ := ih (fun op h => hops op (List.mem_append_left _ h))
        (fun m hm => hnear m (hm.trans (List.prefix_append _ _)))
      obtain ⟨s', r, hex, H', hphys⟩ := H.exec hI ha hd (hops op (by simp))
      refine ⟨s', rs ++ [r], ?_, H', ?_⟩
      · rw [run_append, hrun, bind_ok]
        simp only [State.run, hex, bind_ok]
      · rcases hphys with ⟨n, hp, hv⟩ | ⟨hv, hp⟩
        · have M := webMoves_axis hc s.env ⟨s.pos, s.vel⟩
          have e1 : s.env.springs = o.springs := H.springs
          have e2 : s.env.k = o.settings.springConstant := congrArg Settings.springConstant H.settings
          have e3 : s.env.friction = o.settings.friction := congrArg Settings.friction H.settings
          have e4 : s.env.locks = o.locks := H.locks
          rw [e1, e2, e3, e4] at M
          have hr : ∀ z ∈ o.springs, |fixedAt c s.env ⟨s.pos, s.vel⟩ z.b - fixedAt c s.env ⟨s.pos, s.vel⟩ z.a -
              c z.desired| ≤ R := by
            intro z hz
            have k0 := hR1 z hz
            have hl := hnear l (List.prefix_append _ _)
            have k1 := H.fixed hc hD hl (hal z hz).1
            have k2 := H.fixed hc hD hl (hal z hz).2
            rw [abs_le] at k0 k1 k2 ⊢
            constructor <;> linarith [k0.1, k0.2, k1.1, k1.2, k2.1, k2.2]
          have := M.swings (hW.degree hI) hk hk' hR0 hr hS n
          simp only [hp, hv]
          exact this
        · have e : (sway free fun i => c (s'.pos i)) = sway free fun i => c (s.pos i) := by
            unfold sway
            congr 1
            funext i
            unfold part
            by_cases hi : free i
            · rw [if_pos hi, if_pos hi]
              exact congrArg c (hp i hi)
            · rw [if_neg hi, if_neg hi]
          rw [e, hv]
          exact hS
  obtain ⟨F, hF0, hF⟩ : ∃ F, 0 ≤ F ∧ ∀ i, |c (o.pos i)| ≤ F :=
    ⟨∑ i, |c (o.pos i)|, Finset.sum_nonneg fun i _ => abs_nonneg _, fun i =>
      Finset.single_le_sum (f := fun i => |c (o.pos i)|) (fun i _ => abs_nonneg _) (Finset.mem_univ i)⟩
  obtain ⟨V, hV0, hV⟩ : ∃ V, 0 ≤ V ∧ ∀ i, |c (o.vel i)| ≤ V :=
    ⟨∑ i, |c (o.vel i)|, Finset.sum_nonneg fun i _ => abs_nonneg _, fun i =>
      Finset.single_le_sum (f := fun i => |c (o.vel i)|) (fun i _ => abs_nonneg _) (Finset.mem_univ i)⟩
  refine ⟨50 * E + 2 * F + 2 * L + V, by positivity, fun ops hops hnear => ?_⟩
  obtain ⟨s, rs, hrun, H, hS⟩ := key ops hops hnear
  obtain ⟨k1, k2⟩ := hE _ _ hS
  set Y := part free fun i => c (s.pos i) with hY
  have hY0 : ∀ i, o.locks i > 0 → Y i = 0 := fun i hi => if_neg (not_not.2 hi)
  obtain ⟨m1, m2⟩ := web_spread hI hW hE0 hY0 k2
  have hfix : ∀ i, |c (s.pos i) - Y i| ≤ F + L := by
    intro i
    by_cases hi : o.locks i > 0
    · rw [hY0 i hi, sub_zero, H.pinned c hc i hi]
      have := pinnedBy_le hD (hnear ops (List.prefix_refl _)) i
      have hFi := hF i
      rw [abs_le] at this hFi ⊢
      constructor <;> linarith [this.1, this.2, hFi.1, hFi.2]
    · rw [show Y i = c (s.pos i) from if_pos hi, sub_self, abs_zero]
      positivity
  refine ⟨s, rs, hrun, fun i => ⟨?_, fun j => ?_, fun hl => ?_⟩⟩
  · by_cases hi : o.locks i > 0
    · rcases H.stopped i hi with h | h
      · rw [h]
        linarith [hV i]
      · rw [h, axis_zero hc, abs_zero]
        positivity
    · linarith [k1 i hi]
  · have a1 := hfix i
    have a2 := hfix j
    have a3 := m1 i j
    rw [abs_le] at a1 a2 a3 ⊢
    constructor <;> linarith [a1.1, a1.2, a2.1, a2.2, a3.1, a3.2]
  · have a1 := hfix i
    have a2 := hF i
    have a3 := m2 hl i
    rw [abs_le] at a1 a2 a3 ⊢
    constructor <;> linarith [a1.1, a1.2, a2.1, a2.2, a3.1, a3.2]

end Verif.Wobbly
