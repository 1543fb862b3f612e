import Verif.Lemmas.WobblyHaul
import Verif.Props.WobblyTugDouble

/-! # Dragging a single anchor in double precision (C139) -/

namespace Verif.Props

open Spec Outcome Wobbly Wobbly.Rounded

section

variable {R : Rounding64} {r : ℝ → ℝ} {p : Pt} {w h : ℝ} {x : Settings} {b : ℕ} {ops : List Op} {s : State} {rs : List Res}

/-- What a history with a single anchor leaves, if `Step` is defined. -/
theorem single_facts (e : run r (Rounded.new r p w h x b) ops = .ok (s, rs)) (h1 : (owned [] ops rs).length = 1)
    (hu : exec r s (.step 16) ≠ .ub) : s.active ∧ (∀ i, (s.springs.map (endsAt i)).sum ≤ 4) ∧ ¬ dangling s.springs s.live ∧
      s.springs.length ≤ 25 := by
  have B := run_book e
  have hd : ¬ dangling s.springs s.live := fun h => hu ((step_undefined_iff s (by norm_num)).2 h)
  have hp : s.pending = [] := loose_none B (run_loose e) hd
  have he : Ends (flat s) := B.ends.frame keeps_id (by simp [flat]) rfl rfl
  have W : Web (flat s) := web_of_ends B.inv he hp
  have hc' : s.live.length = (owned [] ops rs).length := by
    rw [← (C126_tracking e).1]
    exact B.inv.count.symm
  refine ⟨(C126_tracking e).2.2 h1, fun i => Web.degree (s := flat s) B.inv W i, hd, ?_⟩
  have k : s.springs.length ≤ 24 + s.live.length := web_length (s := flat s) B.inv hp
  omega

/-- **C139.** A model with a single anchor, grabbed or inserted, is dragged about in double precision, and `Step` is defined. As
long as the anchor and the resting places stay within `M`, every call returns, and all positions and velocities stay within
`2 ^ 12 * M`, however long this goes on and whatever rounding does beyond `2 ^ 500`. -/
theorem C139_bounded (hr : Agrees R r) (e : run r (Rounded.new r p w h x b) ops = .ok (s, rs))
    (h1 : (owned [] ops rs).length = 1) (hu : exec r s (.step 16) ≠ .ub)
    (hk : 0 ≤ s.settings.springConstant) (hk' : s.settings.springConstant ≤ 10)
    (hf : 1 / 10 ≤ s.settings.friction) (hf' : s.settings.friction ≤ 10)
    (hr1 : 1 ≤ s.settings.maximumRange) (hr2 : s.settings.maximumRange ≤ 1000)
    {M : ℝ} (hM : s.settings.maximumRange ≤ M) (hM' : M ≤ 2 ^ 180) (hs : AllWithin M s) (more : List Op)
    (hm : ∀ op ∈ more, Tugs op) (hA : KeepsHoldWithin R.rnd M s more) :
    ∃ s' rs', run r s more = .ok (s', rs') ∧ ∀ i, Within (2 ^ 12 * M) (s'.pos i) ∧ Within (2 ^ 12 * M) (s'.vel i) := by
  obtain ⟨ha, hdeg, hd, hlen⟩ := single_facts e h1 hu
  obtain ⟨e1, s', rs', e2, H⟩ := haul_fine hr (by linarith) hM' ha hdeg hd (by omega) hk hk' hf hf' hr1 hr2 hM hs more hm hA
  exact ⟨s', rs', e1.trans e2, fun i => ⟨H.pos i, H.vel i⟩⟩

/-- **C139.** Nothing overflows on the way: whatever rounding does beyond `2 ^ 500`, the calls give the same. -/
theorem C139_no_overflow (hr : Agrees R r) (e : run r (Rounded.new r p w h x b) ops = .ok (s, rs))
    (h1 : (owned [] ops rs).length = 1) (hu : exec r s (.step 16) ≠ .ub)
    (hk : 0 ≤ s.settings.springConstant) (hk' : s.settings.springConstant ≤ 10)
    (hf : 1 / 10 ≤ s.settings.friction) (hf' : s.settings.friction ≤ 10)
    (hr1 : 1 ≤ s.settings.maximumRange) (hr2 : s.settings.maximumRange ≤ 1000)
    {M : ℝ} (hM : s.settings.maximumRange ≤ M) (hM' : M ≤ 2 ^ 180) (hs : AllWithin M s) (more : List Op)
    (hm : ∀ op ∈ more, Tugs op) (hA : KeepsHoldWithin R.rnd M s more) : run r s more = run R.rnd s more := by
  obtain ⟨ha, hdeg, hd, hlen⟩ := single_facts e h1 hu
  exact (haul_fine hr (by linarith) hM' ha hdeg hd (by omega) hk hk' hf hf' hr1 hr2 hM hs more hm hA).1

end

/-! The hypotheses can be met: a model of 300 by 300 is grabbed at a corner and dragged `2 ^ 100` pixels away, and further. -/

variable {R : Rounding64} {s : State}

/-- A corner is grabbed, it is within `2 ^ (n + 2)`, and the resting places are within `2 ^ n`. -/
structure Solo (n : ℕ) (s : State) : Prop where
  live : s.live = [⟨0, .grab 0⟩]
  busy : s.active
  locks : s.locks 0 > 0
  range : s.settings.maximumRange = 500
  first : Small (n + 2) (s.pos 0)
  rest : ∀ i, Small n (s.targets i)

theorem Solo.hold {n m : ℕ} (h : Solo n s) (hm : n + 2 ≤ m) : AnchorsWithin (2 ^ m) s ∧ RestWithin (2 ^ m) s := by
  refine ⟨⟨fun i hi => ?_, fun a ha q' st' f' g' hk => ?_⟩, fun i => (h.rest i).up (by omega)⟩
  · have : i = 0 := by
      rw [heldBy, gt_iff_lt, List.countP_pos_iff] at hi
      obtain ⟨a, ha, hk⟩ := hi
      rw [h.live] at ha
      simp only [List.mem_cons, List.not_mem_nil, or_false] at ha
      subst ha
      simp at hk
      exact hk.symm
    subst this
    exact h.first.up hm
  · rw [h.live] at ha
    simp only [List.mem_cons, List.not_mem_nil, or_false] at ha
    subst ha
    cases hk

theorem Solo.step {n : ℕ} (h : Solo n s) (hn : 9 ≤ n) {t : ℕ} {s' : State} {y : Res} (e : exec R.rnd s (.step t) = .ok (s', y)) :
    Solo n s' := by
  obtain ⟨pos, vel, m, rfl, rfl⟩ := Rounded.step_fields e
  obtain ⟨q, u, hq, -, -, hp⟩ := step_did e
  have h9 : (512 : ℝ) ≤ 2 ^ n := by
    calc (512 : ℝ) = 2 ^ 9 := by norm_num
      _ ≤ _ := pow_le_pow_right₀ (by norm_num) hn
  have e4 : (4 : ℝ) * 2 ^ n = 2 ^ (n + 2) := by
    rw [pow_add]
    norm_num
    ring
  have k := rounds_pinned (M := 2 ^ n) h.busy (by rw [h.range]; norm_num) (by rw [h.range]; linarith) h.rest h.locks hq
    (by rw [e4]; exact h.first)
  rw [e4] at k
  refine ⟨h.live, h.busy, h.locks, h.range, ?_, h.rest⟩
  simp only at hp
  show Small (n + 2) (pos 0)
  rw [hp]
  split_ifs
  · exact (h.rest 0).up (by omega)
  · exact k

theorem Solo.drag {n : ℕ} (h : Solo n s) (hn : n ≤ 150) {d : Pt} (hd : Small n d) {s' : State} {y : Res}
    (e : exec R.rnd s (.moveAnchor 0 d) = .ok (s', y)) : Solo (n + 1) s' := by
  simp only [exec, Rounded.moveAnchor, h.live, List.find?_cons_of_pos, decide_true, if_pos h.busy, Outcome.ok.injEq,
    Prod.mk.injEq] at e
  rw [← e.1]
  refine ⟨rfl, h.busy, h.locks, h.range, ?_, fun i => (ag_add (agrees_self R) (h.rest i) hd).2⟩
  simp only [Function.update_self]
  exact (ag_add (agrees_self R) h.first (hd.up (by omega))).2

theorem hold_cons {r : ℝ → ℝ} {M : ℝ} {s : State} {op : Op} {ops : List Op} (h1 : AnchorsWithin M s ∧ RestWithin M s)
    (h2 : ∀ s' y, exec r s op = .ok (s', y) → KeepsHoldWithin r M s' ops) : KeepsHoldWithin r M s (op :: ops) := by
  intro l hl s' rs e
  cases l with
  | nil =>
    simp only [run, Outcome.ok.injEq, Prod.mk.injEq] at e
    rw [← e.1]
    exact h1
  | cons o l =>
    obtain ⟨rfl, hl'⟩ := List.cons_prefix_cons.1 hl
    simp only [run, bind_eq_ok] at e
    obtain ⟨⟨s1, y⟩, e1, ⟨s2, ys⟩, e2, e3⟩ := e
    simp only [Outcome.ok.injEq, Prod.mk.injEq] at e3
    rw [← e3.1]
    exact h2 s1 y e1 l hl' _ _ e2

theorem hold_nil {r : ℝ → ℝ} {M : ℝ} {s : State} (h1 : AnchorsWithin M s ∧ RestWithin M s) : KeepsHoldWithin r M s [] := by
  intro l hl s' rs e
  rw [List.prefix_nil] at hl
  subst hl
  simp only [run, Outcome.ok.injEq, Prod.mk.injEq] at e
  rw [← e.1]
  exact h1

/-- A model of 300 by 300 with a corner grabbed. -/
theorem solo_model (R : Rounding64) (b : ℕ) :
    ∃ s, run R.rnd (Rounded.new R.rnd ⟨0, 0⟩ 300 300 ⟨8, 5, 500⟩ b) [.grab (wholeMesh 0)] = .ok (s, [.handle 0]) ∧
    (owned [] [.grab (wholeMesh 0)] [.handle 0]).length = 1 ∧ exec R.rnd s (.step 16) ≠ .ub ∧ s.settings = ⟨8, 5, 500⟩ ∧ AllWithin (2 ^ 9) s ∧ Solo 9 s := by
  obtain ⟨s1, e1, hp, hv, ht, -, -, hs, hsp, hl, hc, hn, hk⟩ :=
    whole_grab R (b := b) (x := ⟨8, 5, 500⟩) (by norm_num) (by norm_num) 0
  have hsmall : ∀ i, Small 9 (wholeMesh i) := by
    intro i
    have c1 := col_grid.nonneg i
    have c2 := col_grid.le i
    have r1 := row_grid.nonneg i
    have r2 := row_grid.le i
    unfold wholeMesh
    constructor <;> simp only [] <;> rw [abs_le] <;> norm_num <;> constructor <;> linarith
  have hdes : ∀ z ∈ s1.springs, Small 9 z.desired := by
    intro z hz
    rw [hsp] at hz
    unfold baseSprings at hz
    obtain ⟨e, -, rfl⟩ := List.mem_map.1 hz
    dsimp only
    split_ifs <;> constructor <;> norm_num
  have P : Solo 9 s1 :=
    ⟨hl, hc, by rw [hk]; simp, by rw [hs], by rw [hp]; exact (hsmall 0).up (by omega), fun i => by rw [ht]; exact hsmall i⟩
  have er : run R.rnd (Rounded.new R.rnd ⟨0, 0⟩ 300 300 ⟨8, 5, 500⟩ b) [.grab (wholeMesh 0)] = .ok (s1, [.handle 0]) := by
    simp only [run, e1, bind_ok]
  refine ⟨s1, er, rfl, fun hub => ?_, hs, ⟨fun i => by rw [hp]; exact hsmall i, fun i => ?_, hdes⟩, P⟩
  · have hmesh : ∀ y ∈ s1.springs, (∃ i, y.a = .mesh i) ∧ ∃ j, y.b = .mesh j := by
      rw [hsp]
      exact joined_ends (joined_base _ _)
    exact mesh_ends_sound hmesh ((step_undefined_iff s1 (by norm_num)).1 hub)
  · rw [hv]
    simp [Within]

/-- The corner is dragged far away, twice. -/
theorem solo_keeps (P : Solo 100 s) : KeepsHoldWithin R.rnd (2 ^ 104) s
    [.step 16, .moveAnchor 0 ⟨2 ^ 100, 10⟩, .step 480, .moveAnchor 0 ⟨-200, 2 ^ 99⟩, .step 160] := by
  refine hold_cons (P.hold (by omega)) fun s3 _ e3 => ?_
  have P3 := P.step (by omega) e3
  refine hold_cons (P3.hold (by omega)) fun s4 _ e4 => ?_
  have P4 := P3.drag (by omega) (by constructor <;> norm_num) e4
  refine hold_cons (P4.hold (by omega)) fun s5 _ e5 => ?_
  have P5 := P4.step (by omega) e5
  refine hold_cons (P5.hold (by omega)) fun s6 _ e6 => ?_
  have P6 := P5.drag (by omega) (by constructor <;> norm_num) e6
  refine hold_cons (P6.hold (by omega)) fun s7 _ e7 => ?_
  exact hold_nil ((P6.step (by omega) e7).hold (by omega))

example (R : Rounding64) (b : ℕ) : ∃ ops s rs more, run R.rnd (Rounded.new R.rnd ⟨0, 0⟩ 300 300 ⟨8, 5, 500⟩ b) ops = .ok (s, rs) ∧
    (owned [] ops rs).length = 1 ∧ exec R.rnd s (.step 16) ≠ .ub ∧ s.settings = ⟨8, 5, 500⟩ ∧ AllWithin (2 ^ 104) s ∧
    more = [.step 16, .moveAnchor 0 ⟨2 ^ 100, 10⟩, .step 480, .moveAnchor 0 ⟨-200, 2 ^ 99⟩, .step 160] ∧ (∀ op ∈ more, Tugs op) ∧
    KeepsHoldWithin R.rnd (2 ^ 104) s more := by
  obtain ⟨s1, er, h1, h2, h3, h4, P⟩ := solo_model R b
  have hup : ∀ {q : Pt}, Within (2 ^ 9) q → Within (2 ^ 104) q := fun h => Small.up (n := 9) (m := 104) h (by omega)
  have P : Solo 100 s1 := ⟨P.live, P.busy, P.locks, P.range, P.first.up (by omega), fun i => (P.rest i).up (by omega)⟩
  refine ⟨_, s1, _, _, er, h1, h2, h3, ⟨fun i => hup (h4.1 i), fun i => hup (h4.2.1 i), fun z hz => hup (h4.2.2 z hz)⟩, rfl,
    fun op hop => ?_, ?_⟩
  · simp only [List.mem_cons, List.not_mem_nil, or_false] at hop
    rcases hop with rfl | rfl | rfl | rfl | rfl <;> trivial
  · exact solo_keeps P

end Verif.Props
