import Verif.Lemmas.WobblyBits
import Verif.Lemmas.WobblyLoose
import Verif.Lemmas.WobblyTugAgree
import Verif.Props.WobblyBook
import Verif.Props.WobblySlowDouble

/-! # Dragging several anchors in double precision (C138) -/

namespace Verif.Props

open Spec Outcome Wobbly Wobbly.Rounded

section

variable {R : Rounding64} {r : ℝ → ℝ} {p : Pt} {w h : ℝ} {x : Settings} {b : ℕ} {ops : List Op} {s : State} {rs : List Res}

/-- What a history with two or more anchors leaves, if `Step` is defined. -/
theorem anchored_facts (e : run r (Rounded.new r p w h x b) ops = .ok (s, rs)) (h2 : 2 ≤ (owned [] ops rs).length)
    (hu : exec r s (.step 16) ≠ .ub) {c : ℝ} (hc : 1 / 300 ≤ c) : ¬ s.active ∧ (s.live.map Live.hid).Nodup ∧
      (∀ i, s.locks i = heldBy s i) ∧ (∀ i, (s.springs.map (endsAt i)).sum ≤ 4) ∧ ¬ dangling s.springs s.live ∧
      (Firm s.springs c fun i => ¬ s.locks i > 0) ∧ s.springs.length ≤ 24 + (owned [] ops rs).length := by
  have B := run_book e
  have hd : ¬ dangling s.springs s.live := fun h => hu ((step_undefined_iff s (by norm_num)).2 h)
  have hp : s.pending = [] := loose_none B (run_loose e) hd
  have he : Ends (flat s) := B.ends.frame keeps_id (by simp [flat]) rfl rfl
  have W : Web (flat s) := web_of_ends B.inv he hp
  have hc' : s.live.length = (owned [] ops rs).length := by
    rw [← (C126_tracking e).1]
    exact B.inv.count.symm
  have hne : s.live ≠ [] := by
    intro h
    rw [h, List.length_nil] at hc'
    omega
  refine ⟨?_, B.inv.hids, fun i => (C126_locks e i).1, fun i => Web.degree (s := flat s) B.inv W i, hd,
    web_firm (s := flat s) B.inv W hne hc, ?_⟩
  · rw [(C126_tracking e).2]
    omega
  · rw [← hc']
    exact web_length (s := flat s) B.inv hp

/-- **C138.** A model with two or more anchors, grabbed or inserted, is dragged about in double precision, and `Step` is
defined. As long as the anchors stay within `M`, every call returns, all positions stay within `2 ^ 45 * M` and all velocities
within `2 ^ 36 * M`, however long this goes on and whatever rounding does beyond `2 ^ 500`. -/
theorem C138_bounded (hr : Agrees R r) (e : run r (Rounded.new r p w h x b) ops = .ok (s, rs))
    (h2 : 2 ≤ (owned [] ops rs).length) (hu : exec r s (.step 16) ≠ .ub)
    (hk : 1 / 10 ≤ s.settings.springConstant) (hk' : s.settings.springConstant ≤ 10)
    (hf : 1 / 10 ≤ s.settings.friction) (hf' : s.settings.friction ≤ 10)
    {M : ℝ} (hM : 1 ≤ M) (hM' : M ≤ 2 ^ 400) (hs : AllWithin M s) (more : List Op) (hm : ∀ op ∈ more, Tugs op)
    (hA : KeepsAnchorsWithin r M s more) :
    ∃ s' rs', run r s more = .ok (s', rs') ∧ ∀ i, Within (2 ^ 45 * M) (s'.pos i) ∧ Within (2 ^ 36 * M) (s'.vel i) := by
  obtain ⟨ha, hids, hl, hdeg, hd, hfirm, -⟩ := anchored_facts e h2 hu (c := s.settings.springConstant / 30) (by linarith)
  obtain ⟨s', rs', h1, -, h3⟩ := tug_fine hM (hr.fine hM hM') ha hids hl hdeg hd (by linarith) hk' hf hf' hfirm hs more hm hA
  exact ⟨s', rs', h1, h3⟩

/-- **C138.** With no more than 40 anchors nothing overflows on the way: whatever rounding does beyond `2 ^ 500`, the calls give
the same. -/
theorem C138_no_overflow (hr : Agrees R r) (e : run r (Rounded.new r p w h x b) ops = .ok (s, rs))
    (h2 : 2 ≤ (owned [] ops rs).length) (h40 : (owned [] ops rs).length ≤ 40) (hu : exec r s (.step 16) ≠ .ub)
    (hk : 1 / 10 ≤ s.settings.springConstant) (hk' : s.settings.springConstant ≤ 10)
    (hf : 1 / 10 ≤ s.settings.friction) (hf' : s.settings.friction ≤ 10)
    {M : ℝ} (hM : 1 ≤ M) (hM' : M ≤ 2 ^ 200) (hs : AllWithin M s) (more : List Op) (hm : ∀ op ∈ more, Tugs op)
    (hA : KeepsAnchorsWithin R.rnd M s more) : run r s more = run R.rnd s more := by
  obtain ⟨ha, hids, hl, hdeg, hd, hfirm, hlen⟩ := anchored_facts e h2 hu (c := s.settings.springConstant / 30) (by linarith)
  exact tug_agrees hr hM hM' ha hids hl hdeg hd (by omega) (by linarith) hk' hf hf' hfirm hs more hm hA

end

/-! The hypotheses can be met: a model of 300 by 300 is grabbed at a corner, an anchor is inserted, both are dragged and the
model swings. -/

variable {R : Rounding64} {s : State}

/-- A corner is grabbed, an anchor is inserted, and both are within `2 ^ n`. -/
structure Pair (n : ℕ) (s : State) : Prop where
  live : ∃ q st f g, s.live = [⟨0, .grab 0⟩, ⟨1, .ins q st f g⟩] ∧ Small n q
  idle : ¬ s.active
  locks : s.locks 0 > 0
  first : Small n (s.pos 0)

theorem Pair.anchors {n m : ℕ} (h : Pair n s) (hm : n ≤ m) : AnchorsWithin (2 ^ m) s := by
  obtain ⟨q, st, f, g, hl, hq⟩ := h.live
  refine ⟨fun i hi => ?_, fun a ha q' st' f' g' hk => ?_⟩
  · have : i = 0 := by
      rw [heldBy, gt_iff_lt, List.countP_pos_iff] at hi
      obtain ⟨a, ha, hk⟩ := hi
      rw [hl] at ha
      simp only [List.mem_cons, List.not_mem_nil, or_false] at ha
      rcases ha with rfl | rfl <;> simp at hk
      exact hk.symm
    subst this
    exact h.first.up hm
  · rw [hl] at ha
    simp only [List.mem_cons, List.not_mem_nil, or_false] at ha
    rcases ha with rfl | rfl
    · cases hk
    · simp only [Kind.ins.injEq] at hk
      rw [← hk.1]
      exact hq.up hm

theorem Pair.step {n : ℕ} (h : Pair n s) {t : ℕ} {s' : State} {y : Res} (e : exec R.rnd s (.step t) = .ok (s', y)) : Pair n s' := by
  obtain ⟨pos, vel, m, rfl, rfl⟩ := Rounded.step_fields e
  obtain ⟨q, u, hq, -, -, hp⟩ := step_did e
  obtain ⟨-, h2⟩ := rounds_held hq
  rw [if_neg fun hh => h.idle hh.2] at hp
  simp only at hp
  refine ⟨h.live, h.idle, h.locks, ?_⟩
  show Small n (pos 0)
  have k : pos 0 = s.pos 0 := by
    rw [hp]
    exact (h2 0 h.locks).2 fun hh => absurd hh h.idle
  rw [k]
  exact h.first

theorem Pair.drag {n : ℕ} (h : Pair n s) (hn : n ≤ 100) {d : Pt} (hd : Small n d) {j : ℕ} (hj : j = 0 ∨ j = 1) {s' : State} {y : Res}
    (e : exec R.rnd s (.moveAnchor j d) = .ok (s', y)) : Pair (n + 1) s' := by
  have S : ∀ q, Small n q → Small (n + 1) (Rounded.add R.rnd q d) := fun q hq => (ag_add (agrees_self R) hq hd).2
  obtain ⟨q, st, f, g, hl, hq⟩ := h.live
  rcases hj with rfl | rfl
  · simp only [exec, Rounded.moveAnchor, hl, List.find?_cons_of_pos, decide_true, if_neg h.idle, Outcome.ok.injEq,
      Prod.mk.injEq] at e
    rw [← e.1]
    refine ⟨⟨q, st, f, g, rfl, hq.up (by omega)⟩, h.idle, h.locks, ?_⟩
    simp only [Function.update_self]
    exact S _ h.first
  · have hf : s.live.find? (fun a => decide (a.hid = 1)) = some ⟨1, .ins q st f g⟩ := by
      rw [hl]
      simp
    simp only [exec, Rounded.moveAnchor, hf, if_neg h.idle, Outcome.ok.injEq, Prod.mk.injEq] at e
    rw [← e.1]
    refine ⟨⟨Rounded.add R.rnd q d, st, f, g, ?_, S _ hq⟩, h.idle, h.locks, h.first.up (by omega)⟩
    simp [hl, Rounded.shift]

theorem keeps_cons {r : ℝ → ℝ} {M : ℝ} {s : State} {op : Op} {ops : List Op} (h1 : AnchorsWithin M s)
    (h2 : ∀ s' y, exec r s op = .ok (s', y) → KeepsAnchorsWithin r M s' ops) : KeepsAnchorsWithin r M s (op :: ops) := by
  intro l hl s' rs e
  cases l with
  | nil =>
    simp only [run, Outcome.ok.injEq, Prod.mk.injEq] at e
    rw [← e.1]
    exact h1
  | cons o l =>
    obtain ⟨rfl, hl'⟩ := List.cons_prefix_cons.1 hl
    simp only [run, bind_eq_ok] at e
    obtain ⟨⟨s1, y⟩, e1, ⟨s2, ys⟩, e2, e3⟩ := e
    simp only [Outcome.ok.injEq, Prod.mk.injEq] at e3
    rw [← e3.1]
    exact h2 s1 y e1 l hl' _ _ e2

theorem keeps_nil {r : ℝ → ℝ} {M : ℝ} {s : State} (h1 : AnchorsWithin M s) : KeepsAnchorsWithin r M s [] := by
  intro l hl s' rs e
  rw [List.prefix_nil] at hl
  subst hl
  simp only [run, Outcome.ok.injEq, Prod.mk.injEq] at e
  rw [← e.1]
  exact h1

theorem pair_model (R : Rounding64) (b : ℕ) :
    ∃ ops s rs, run R.rnd (Rounded.new R.rnd ⟨0, 0⟩ 300 300 ⟨8, 5, 500⟩ b) ops = .ok (s, rs) ∧
    (owned [] ops rs).length = 2 ∧ exec R.rnd s (.step 16) ≠ .ub ∧ (∃ a ∈ s.live, IsInserted a) ∧ s.settings = ⟨8, 5, 500⟩ ∧
    AllWithin (2 ^ 12) s ∧ Pair 9 s := by
  obtain ⟨s1, e1, hp, hv, -, -, -, hs, hsp, hl, hc, hn, hk⟩ :=
    whole_grab R (b := b) (x := ⟨8, 5, 500⟩) (by norm_num) (by norm_num) 0
  have hpos : ∀ i, Small 9 (s1.pos i) := by
    intro i
    rw [hp]
    have c1 := col_grid.nonneg i
    have c2 := col_grid.le i
    have r1 := row_grid.nonneg i
    have r2 := row_grid.le i
    unfold wholeMesh
    constructor <;> simp only [] <;> rw [abs_le] <;> norm_num <;> constructor <;> linarith
  have hmesh : ∀ y ∈ s1.springs, (∃ i, y.a = .mesh i) ∧ ∃ j, y.b = .mesh j := by
    rw [hsp]
    exact joined_ends (joined_base _ _)
  have hdes : ∀ z ∈ s1.springs, Within (2 ^ 12) z.desired := by
    intro z hz
    rw [hsp] at hz
    unfold baseSprings at hz
    obtain ⟨e, -, rfl⟩ := List.mem_map.1 hz
    dsimp only
    split_ifs <;> constructor <;> norm_num
  obtain ⟨y, hy⟩ : ∃ y, y ∈ s1.springs := by
    refine List.exists_mem_of_ne_nil _ fun h => ?_
    have := (joined_base ⟨100, 100⟩ b).length
    rw [← hsp, h] at this
    cases this
  obtain ⟨f, hf, -⟩ := found_nearest (r := R.rnd) (at_ := s1.env.at_ s1.pos) (p := ⟨50, 50⟩) (l := s1.springs) ⟨y, hy, by
    obtain ⟨⟨i, hi⟩, -⟩ := hmesh y hy
    rw [hi]
    refine screen_distance R ?_ ?_
    · have := (hpos i).1
      show |(s1.pos i).x - 50| ≤ _
      rw [abs_le] at this ⊢
      norm_num at this ⊢
      constructor <;> linarith [this.1, this.2]
    · have := (hpos i).2
      show |(s1.pos i).y - 50| ≤ _
      rw [abs_le] at this ⊢
      norm_num at this ⊢
      constructor <;> linarith [this.1, this.2]⟩
  have hfm := found_mem _ _ _ _ hf
  obtain ⟨⟨i, hi⟩, j, hj⟩ := hmesh f hfm
  let a2 : State := { s1 with unequal := True, count := s1.count + 1 }
  let s2 : State := Rounded.install R.rnd a2 ⟨50, 50⟩ f (s1.pos i) (s1.pos j)
  have e2 : exec R.rnd s1 (.insert ⟨50, 50⟩) = .ok (s2, .handle 1) := by
    have hact : Rounded.activate R.rnd { s1 with unequal := True } = .ok a2 := by
      unfold Rounded.activate
      dsimp only
      rw [if_neg (by rw [hc]; norm_num)]
    have hidle : ¬ a2.active := by
      show s1.count + 1 ≠ 1
      omega
    have hpre : ∀ q, a2.preferred q = .ok q := fun q => by
      unfold State.preferred
      rw [if_neg hidle]
    simp only [exec, Rounded.insert, hact, bind_ok]
    unfold Rounded.insertSprings
    rw [if_neg (show ¬ dangling s1.springs s1.live from mesh_ends_sound hmesh)]
    have hf' : findSpringToSplit R.rnd (a2.env.at_ a2.pos) ⟨50, 50⟩ a2.springs = some f := hf
    simp only [hf', hpre, bind_ok, hi, hj]
    show Outcome.ok (s2, Res.handle s1.nextHid) = _
    rw [hn]
  have hl2 : s2.live = [⟨0, .grab 0⟩, ⟨1, .ins ⟨50, 50⟩ f (s1.lastId + 1) (s1.lastId + 2)⟩] := by
    show s1.live ++ [⟨s1.nextHid, _⟩] = _
    rw [hl, hn]
    rfl
  have er : run R.rnd (Rounded.new R.rnd ⟨0, 0⟩ 300 300 ⟨8, 5, 500⟩ b) [.grab (wholeMesh 0), .insert ⟨50, 50⟩] =
      .ok (s2, [.handle 0, .handle 1]) := by
    simp only [run, e1, e2, bind_ok]
  have hidle : ¬ s2.active := by
    show s1.count + 1 ≠ 1
    omega
  have P : Pair 9 s2 :=
    ⟨⟨_, _, _, _, hl2, by constructor <;> norm_num⟩, hidle, ((C126_locks er 0).2).2 ⟨⟨0, .grab 0⟩, by rw [hl2]; simp, rfl⟩, hpos 0⟩
  have hsub : ∀ i, Within (2 ^ 12) (Rounded.sub R.rnd (s1.pos i) ⟨50, 50⟩) := by
    intro i
    exact ((ag_sub (agrees_self R) (hpos i) (q := ⟨50, 50⟩) (by constructor <;> norm_num)).2).up (by omega)
  refine ⟨_, s2, _, er, rfl, fun hub => ?_,
    ⟨⟨1, .ins ⟨50, 50⟩ f (s1.lastId + 1) (s1.lastId + 2)⟩, by rw [hl2]; simp, ⟨50, 50⟩, f, _, _, rfl⟩, hs,
    ⟨fun i => (hpos i).up (by omega), fun i => ?_, fun z hz => ?_⟩, P⟩
  · obtain ⟨a, ha, z, ⟨q, f', g', hz⟩, k, h1, -⟩ := (C126_undefined_iff er (by norm_num)).1 hub
    rw [hl2] at ha
    simp only [List.mem_cons, List.not_mem_nil, or_false] at ha
    rcases ha with rfl | rfl
    · cases hz
    · simp only [Kind.ins.injEq] at hz
      rw [← hz.2.1, hi, hj] at h1
      rcases h1 with h1 | h1 <;> cases h1
  · show Within _ (s1.vel i)
    rw [hv]
    simp [Within]
  · have hz' : z ∈ removeId s1.springs f.id ++ [⟨s1.lastId + 1, .anchor s1.nextHid, f.a, Rounded.sub R.rnd (s1.pos i) ⟨50, 50⟩⟩,
        ⟨s1.lastId + 2, .anchor s1.nextHid, f.b, Rounded.sub R.rnd (s1.pos j) ⟨50, 50⟩⟩] := hz
    simp only [List.mem_append, List.mem_cons, List.not_mem_nil, or_false] at hz'
    rcases hz' with hz' | rfl | rfl
    · exact hdes z (List.mem_of_mem_filter hz')
    · exact hsub i
    · exact hsub j

example (R : Rounding64) (b : ℕ) : ∃ ops s rs more, run R.rnd (Rounded.new R.rnd ⟨0, 0⟩ 300 300 ⟨8, 5, 500⟩ b) ops = .ok (s, rs) ∧
    (owned [] ops rs).length = 2 ∧ exec R.rnd s (.step 16) ≠ .ub ∧ (∃ a ∈ s.live, IsInserted a) ∧ s.settings = ⟨8, 5, 500⟩ ∧
    AllWithin (2 ^ 12) s ∧
    more = [.step 16, .moveAnchor 0 ⟨-200, 10⟩, .step 480, .moveAnchor 1 ⟨100, 64⟩, .step 160] ∧ (∀ op ∈ more, Tugs op) ∧
    KeepsAnchorsWithin R.rnd (2 ^ 12) s more := by
  obtain ⟨ops, s2, rs, er, h1, h2, h3, h4, h5, P⟩ := pair_model R b
  refine ⟨ops, s2, rs, _, er, h1, h2, h3, h4, h5, rfl, fun op hop => ?_, ?_⟩
  · simp only [List.mem_cons, List.not_mem_nil, or_false] at hop
    rcases hop with rfl | rfl | rfl | rfl | rfl <;> trivial
  · refine keeps_cons (P.anchors (by omega)) fun s3 _ e3 => ?_
    have P3 := P.step e3
    refine keeps_cons (P3.anchors (by omega)) fun s4 _ e4 => ?_
    have P4 := P3.drag (by omega) (by constructor <;> norm_num) (.inl rfl) e4
    refine keeps_cons (P4.anchors (by omega)) fun s5 _ e5 => ?_
    have P5 := P4.step e5
    refine keeps_cons (P5.anchors (by omega)) fun s6 _ e6 => ?_
    have P6 := P5.drag (by omega) (by constructor <;> norm_num) (.inr rfl) e6
    refine keeps_cons (P6.anchors (by omega)) fun s7 _ e7 => ?_
    exact keeps_nil ((P6.step e7).anchors (by omega))

end Verif.Props
