import Verif.Lemmas.WobblyLoose
import Verif.Lemmas.WobblyTied
import Verif.Props.WobblyStable
import Verif.Props.WobblyBounded

/-! # A mesh cannot run away, whatever anchors hold it (C136) -/

namespace Verif.Props

open Wobbly Spec Outcome Classical

noncomputable section

variable {p : Pt} {w h : ℝ} {x : Settings} {b : ℕ} {ops : List Op} {s : State} {rs : List Res}

/-- Stepping with other than one anchor. -/
theorem bounded_others (e : (State.new p w h x b).run ops = .ok (s, rs))
    (hu : s.exec (.step 16) ≠ .ub) (h1 : (owned [] ops rs).length ≠ 1)
    (hk : 0 < s.settings.springConstant) (hk' : s.settings.springConstant ≤ 10)
    (hf : 0 < s.settings.friction) (hf' : s.settings.friction ≤ 10) :
    ∃ B : ℝ, ∀ ts : List ℕ, ∃ s' rs', s.run (ts.map .step) = .ok (s', rs') ∧ SlowerThan s' B ∧
      (∀ i j, |(s'.pos i).x - (s'.pos j).x| ≤ B ∧ |(s'.pos i).y - (s'.pos j).y| ≤ B) ∧
      (owned [] ops rs ≠ [] → ∀ i, |(s'.pos i).x - (s.pos i).x| ≤ B ∧ |(s'.pos i).y - (s.pos i).y| ≤ B) := by
  have hI := inv_run e
  obtain ⟨hW, hd⟩ := web_run e hu
  have ha : ¬ s.active := fun hh => h1 ((C45_tracking_iff e).1 hh)
  have hlive : owned [] ops rs ≠ [] → s.live ≠ [] := by
    intro hne hl
    have := live_owned e
    rw [hl] at this
    exact hne this.symm
  obtain ⟨X, hX0, hX⟩ := web_held (ln := fun z => z.desired.x) hI hW hk hk' hf hf' rfl (webMoves_mesh s.env ⟨s.pos, s.vel⟩).1
  obtain ⟨Y, hY0, hY⟩ := web_held (ln := fun z => z.desired.y) hI hW hk hk' hf hf' rfl (webMoves_mesh s.env ⟨s.pos, s.vel⟩).2
  refine ⟨X + Y, fun ts => ?_⟩
  obtain ⟨u, rs', hrun⟩ := steps_inactive ha (ts := ts) fun _ => hd
  have hx := hX (ticks ts)
  have hy := hY (ticks ts)
  refine ⟨_, rs', hrun, fun i => ⟨?_, ?_⟩, fun i j => ⟨?_, ?_⟩, fun hne i => ⟨?_, ?_⟩⟩
  · exact (hx i).1.trans (by linarith)
  · exact (hy i).1.trans (by linarith)
  · exact ((hx i).2.1 j).trans (by linarith)
  · exact ((hy i).2.1 j).trans (by linarith)
  · exact ((hx i).2.2 (hlive hne)).trans (by linarith)
  · exact ((hy i).2.2 (hlive hne)).trans (by linarith)

/-- Stepping with one anchor. -/
theorem bounded_one (e : (State.new p w h x b).run ops = .ok (s, rs)) (hd : ¬ dangling s.springs s.live)
    (h1 : (owned [] ops rs).length = 1) (hk : 0 ≤ s.settings.springConstant)
    (hf : 0 < s.settings.friction) (hf' : s.settings.friction ≤ 15) (hR : 0 < s.settings.maximumRange) :
    ∃ B : ℝ, ∀ ts : List ℕ, ∃ s' rs', s.run (ts.map .step) = .ok (s', rs') ∧ SlowerThan s' B ∧
      ∀ i, |(s'.pos i).x - (s.targets i).x| ≤ B ∧ |(s'.pos i).y - (s.targets i).y| ≤ B := by
  have hact : s.count = 1 := (C45_tracking_iff e).2 h1
  have hlive : ∃ a, s.live = [a] := by
    rw [← List.length_eq_one_iff, ← (inv_run e).count]
    exact hact
  have H : Kept s s := ⟨rfl, hlive, hact, rfl, hd, fun _ _ => rfl⟩
  obtain ⟨B, hB0, hB⟩ := Kept.limited (o := s) hk
  obtain ⟨V0, hV0⟩ : ∃ V0, ∀ i, |(s.vel i).x| ≤ V0 ∧ |(s.vel i).y| ≤ V0 := by
    refine ⟨∑ i, (|(s.vel i).x| + |(s.vel i).y|), fun i => ?_⟩
    have := Finset.single_le_sum (f := fun i => |(s.vel i).x| + |(s.vel i).y|) (fun i _ => by positivity) (Finset.mem_univ i)
    constructor <;> linarith [abs_nonneg (s.vel i).x, abs_nonneg (s.vel i).y]
  obtain ⟨D0, hD0⟩ : ∃ D0, ∀ i, |(s.pos i).x - (s.targets i).x| ≤ D0 ∧ |(s.pos i).y - (s.targets i).y| ≤ D0 := by
    refine ⟨∑ i, (|(s.pos i).x - (s.targets i).x| + |(s.pos i).y - (s.targets i).y|), fun i => ?_⟩
    have := Finset.single_le_sum (f := fun i => |(s.pos i).x - (s.targets i).x| + |(s.pos i).y - (s.targets i).y|)
      (fun i _ => by positivity) (Finset.mem_univ i)
    constructor <;>
      linarith [abs_nonneg ((s.pos i).x - (s.targets i).x), abs_nonneg ((s.pos i).y - (s.targets i).y)]
  set V := max V0 (B / s.settings.friction) with hVdef
  have hV : B ≤ V * s.settings.friction := by
    rw [← div_le_iff₀ hf]
    exact le_max_right _ _
  have hV' : 0 ≤ V := (abs_nonneg (s.vel 0).x).trans ((hV0 0).1.trans (le_max_left _ _))
  set C := V + D0 + s.settings.maximumRange with hC
  have hD' : 0 ≤ D0 := (abs_nonneg _).trans (hD0 0).1
  have key : ∀ ts : List ℕ, ∃ s' rs', s.run (ts.map .step) = .ok (s', rs') ∧ Kept s s' ∧
      (∀ i, |(s'.vel i).x| ≤ V ∧ |(s'.vel i).y| ≤ V) ∧ s'.targets = s.targets ∧
      ∀ i, |(s'.pos i).x - (s.targets i).x| ≤ C ∧ |(s'.pos i).y - (s.targets i).y| ≤ C := by
    intro ts
    induction ts using List.reverseRecOn with
    | nil =>
      exact ⟨s, [], rfl, H, fun i => ⟨(hV0 i).1.trans (le_max_left _ _), (hV0 i).2.trans (le_max_left _ _)⟩, rfl,
        fun i => ⟨(hD0 i).1.trans (by linarith), (hD0 i).2.trans (by linarith)⟩⟩
    | append_singleton ts t ih =>
      obtain ⟨s', rs', hrun, hK, hv, ht, hp⟩ := ih
      have keep : ∀ s'' r, s'.exec (.step t) = .ok (s'', r) → Kept s s'' ∧ (∀ i, |(s''.vel i).x| ≤ V ∧ |(s''.vel i).y| ≤ V) ∧
          s.run ((ts ++ [t]).map .step) = .ok (s'', rs' ++ [r]) := by
        intro s'' r hex
        have h2 : s.run ((ts ++ [t]).map .step) = .ok (s'', rs' ++ [r]) := by
          rw [List.map_append]
          exact run_snoc hrun hex
        obtain ⟨k1, k2⟩ := H.run hB hf hf' hV hR
          (fun i => ⟨(hV0 i).1.trans (le_max_left _ _), (hV0 i).2.trans (le_max_left _ _)⟩) (by
            intro op hop
            obtain ⟨t, -, rfl⟩ := List.mem_map.1 hop
            exact ⟨trivial, fun _ => by simp, fun _ _ => by simp⟩) h2
        exact ⟨k1, k2, h2⟩
      have htar : ∀ s'' r, s'.exec (.step t) = .ok (s'', r) → s''.targets = s'.targets := by
        intro s'' r hex
        change s'.step t = _ at hex
        unfold State.step at hex
        split at hex
        · cases hex
        · obtain ⟨y, -, hy⟩ := bind_eq_ok.1 hex
          simp only [Outcome.ok.injEq, Prod.mk.injEq] at hy
          rw [← hy.1]
      rcases Nat.eq_zero_or_pos t with rfl | ht0
      · have hex : s'.exec (.step 0) = _ := step_zero s'
        obtain ⟨k1, k2, k3⟩ := keep _ _ hex
        refine ⟨_, _, k3, k1, k2, ht, fun i => ?_⟩
        dsimp only
        split_ifs
        · rw [ht, sub_self, sub_self, abs_zero]
          exact ⟨by linarith, by linarith⟩
        · exact hp i
      · obtain ⟨s'', m, hex, hs⟩ := (hB s' hK).step hK.fine hv hf hf' hV hR ht0.ne'
        obtain ⟨k1, k2, k3⟩ := keep _ _ hex
        refine ⟨s'', _, k3, k1, k2, (htar _ _ hex).trans ht, fun i => ?_⟩
        rw [← ht]
        exact ⟨(hs i).2.2.1.trans (by linarith), (hs i).2.2.2.trans (by linarith)⟩
  refine ⟨C, fun ts => ?_⟩
  obtain ⟨s', rs', hrun, -, hv, -, hp⟩ := key ts
  exact ⟨s', rs', hrun, fun i => ⟨(hv i).1.trans (by linarith), (hv i).2.trans (by linarith)⟩, hp⟩

/-- **C136.** Whatever anchors a program holds, grabbed and inserted, however many, and however the model came to its
state, if `Step` is defined there: from there it may step as often and as long as it likes. Every step returns, and one
bound holds for all velocities, for how far points get from each other and, if there is an anchor, for how far they get
from where they are. -/
theorem C136_bounded (e : (State.new p w h x b).run ops = .ok (s, rs)) (hu : s.exec (.step 16) ≠ .ub)
    (hk : 0 < s.settings.springConstant) (hk' : s.settings.springConstant ≤ 10)
    (hf : 0 < s.settings.friction) (hf' : s.settings.friction ≤ 10) (hR : 0 < s.settings.maximumRange) :
    ∃ B : ℝ, ∀ ts : List ℕ, ∃ s' rs', s.run (ts.map .step) = .ok (s', rs') ∧ SlowerThan s' B ∧
      (∀ i j, |(s'.pos i).x - (s'.pos j).x| ≤ B ∧ |(s'.pos i).y - (s'.pos j).y| ≤ B) ∧
      (owned [] ops rs ≠ [] → ∀ i, |(s'.pos i).x - (s.pos i).x| ≤ B ∧ |(s'.pos i).y - (s.pos i).y| ≤ B) := by
  by_cases h1 : (owned [] ops rs).length = 1
  · obtain ⟨B, hB⟩ := bounded_one e (web_run e hu).2 h1 hk.le hf (by linarith) hR
    obtain ⟨T, hT0, hT⟩ : ∃ T, 0 ≤ T ∧ ∀ i, |(s.targets i).x| ≤ T ∧ |(s.targets i).y| ≤ T := by
      refine ⟨∑ i, (|(s.targets i).x| + |(s.targets i).y|), Finset.sum_nonneg fun i _ => by positivity, fun i => ?_⟩
      have := Finset.single_le_sum (f := fun i => |(s.targets i).x| + |(s.targets i).y|) (fun i _ => by positivity)
        (Finset.mem_univ i)
      constructor <;> linarith [abs_nonneg (s.targets i).x, abs_nonneg (s.targets i).y]
    obtain ⟨s0, rs0, h0, -, hp0⟩ := hB []
    simp only [List.map_nil, State.run, Outcome.ok.injEq, Prod.mk.injEq] at h0
    rw [← h0.1] at hp0
    have hB0 : 0 ≤ B := (abs_nonneg _).trans (hp0 0).1
    refine ⟨2 * B + 2 * T, fun ts => ?_⟩
    obtain ⟨s', rs', hrun, hv, hp⟩ := hB ts
    refine ⟨s', rs', hrun, fun i => ⟨(hv i).1.trans (by linarith), (hv i).2.trans (by linarith)⟩, fun i j => ?_, fun _ i => ?_⟩
    · have a1 := hp i
      have a2 := hp j
      have a3 := hT i
      have a4 := hT j
      simp only [abs_le] at a1 a2 a3 a4 ⊢
      refine ⟨⟨?_, ?_⟩, ⟨?_, ?_⟩⟩ <;>
        linarith [a1.1.1, a1.1.2, a1.2.1, a1.2.2, a2.1.1, a2.1.2, a2.2.1, a2.2.2, a3.1.1, a3.1.2, a3.2.1, a3.2.2,
          a4.1.1, a4.1.2, a4.2.1, a4.2.2]
    · have a1 := hp i
      have a2 := hp0 i
      simp only [abs_le] at a1 a2 ⊢
      refine ⟨⟨?_, ?_⟩, ⟨?_, ?_⟩⟩ <;> linarith [a1.1.1, a1.1.2, a1.2.1, a1.2.2, a2.1.1, a2.1.2, a2.2.1, a2.2.2]
  · exact bounded_others e hu h1 hk hk' hf hf'

/-- A fresh model with an inserted anchor and a grabbed one. -/
example : ∃ s rs, demo.run [.insert ⟨50, 50⟩, .grab ⟨90, 10⟩] = .ok (s, rs) ∧
    (owned [] [.insert ⟨50, 50⟩, .grab ⟨90, 10⟩] rs).length = 2 ∧
    s.exec (.step 16) ≠ .ub ∧ s.settings = defaultSettings := by
  obtain ⟨t, n, found, -, -, -, h⟩ :=
    demo_insert ⟨50, 50⟩ (rep_small (by norm_num [abs_of_pos]) (by norm_num [abs_of_pos]))
  have hR := new_atRest ⟨0, 0⟩ 300 300 defaultSettings 0
  obtain ⟨i, t', n', -, h2, -⟩ := grab_atRest (s := (preInsert demo t n).install ⟨50, 50⟩ found
    (demo.env.at_ demo.pos found.a) (demo.env.at_ demo.pos found.b)) ⟨hR.pos, hR.vel⟩ demo_rep (p := ⟨90, 10⟩)
    (rep_small (by norm_num [abs_of_pos]) (by norm_num [abs_of_pos]))
  exact ⟨_, _, run_snoc (run_one h) h2, rfl, step_defined (no_dangling (ops := [.insert ⟨50, 50⟩, .grab ⟨90, 10⟩])
    (run_snoc (run_one h) h2)
    ⟨trivial, fun _ _ _ => ⟨trivial, fun _ _ _ => trivial⟩⟩), rfl⟩

end

end Verif.Props
