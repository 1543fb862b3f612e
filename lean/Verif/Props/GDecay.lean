import Verif.Props.GTug
import Verif.Props.WobblyDecay
import Verif.Props.WobblyHaulDecay

/-! # The swing of an `AnimationWobblyModel` comes down (C147) -/

namespace Verif.Props

open Spec Outcome Wobbly GWobbly GWobbly.Rounded

section

variable {R : Rounding64} {rd : ℝ → ℝ} {p z : Pt} {k f r : ℝ} {b : ℕ} {g0 g : GState} {ops : List GOp} {rs : List GRes} {s : State}

theorem gSteppedFor_eq {t : Track} {more : List GOp} (h : ∀ op ∈ more, GTugs op) :
    steppedFor (nativeCalls t more) = gSteppedFor more := by
  induction more with
  | nil => rfl
  | cons op more ih =>
    have ih' := ih fun o ho => h o (List.mem_cons_of_mem _ ho)
    have h0 := h op List.mem_cons_self
    rw [tugs_calls h0]
    cases op with
    | step n => simp only [Track.native, List.singleton_append, steppedFor, gSteppedFor, ih']
    | anchorMoveBy a d =>
      by_cases ha : a ∈ t.released
      · simp only [Track.native, if_pos ha, List.nil_append, gSteppedFor, ih']
      · simp only [Track.native, if_neg ha, List.singleton_append, steppedFor, gSteppedFor, ih']
    | _ => exact h0.elim

/-- **C147.** A program holds one or more anchors of an `AnimationWobblyModel`, up to 40, and the springs are no longer than `M`.
However far off the mesh is and however fast it moves, up to `2 ^ n` times as much: the program steps the model and drags the
anchors, which stay within `M`, and so do the resting places if there is a single anchor. Once it has stepped for `3200 * n`
milliseconds with a single anchor, or `2 ^ 31 * n + 16` with several, everything has come down to a size that `M` gives, in double
precision and whatever rounding does beyond `2 ^ 500`. -/
theorem C147_glib_comes_down (hr : ∀ x, |x| ≤ 2 ^ 500 → rd x = R.rnd x) (h0 : modelNew rd p z k f r b = .ok g0)
    (hrun : GWobbly.Rounded.run rd g0 ops = .ok (g, rs)) (hm : g.model = some s) (hx : Spec.InRange s.settings)
    (h1 : 1 ≤ (heldAnchors ops rs).length) (h40 : (heldAnchors ops rs).length ≤ 40)
    (hu : GWobbly.Rounded.exec rd g (.step 16) ≠ .ub)
    {M V : ℝ} {n : ℕ} (hM : 1000 ≤ M) (hMV : M ≤ V) (hVn : V ≤ 2 ^ n * M) (hV : V ≤ 2 ^ 180) (hs : SwingsWithin V M s)
    (more : List GOp) (tugs : ∀ op ∈ more, GTugs op)
    (usable : ∀ a d, .anchorMoveBy a d ∈ more → a ∈ gAnchors rs ∧ .anchorUnref a ∉ ops)
    (keeps : GKeepsWithin R.rnd M ((heldAnchors ops rs).length = 1) g more)
    (long1 : (heldAnchors ops rs).length = 1 → 3200 * n ≤ gSteppedFor more)
    (long2 : (heldAnchors ops rs).length ≠ 1 → 2 ^ 31 * n + 16 ≤ gSteppedFor more) :
    ∃ g' rs' s', GWobbly.Rounded.run rd g more = .ok (g', rs') ∧ g'.model = some s' ∧
      (∀ i, Within (2 ^ 46 * M) (s'.pos i) ∧ Within (2 ^ 36 * M) (s'.vel i)) ∧
      ((heldAnchors ops rs).length = 1 → ∀ i, Within (2 ^ 14 * M) (s'.pos i) ∧ Within (2 ^ 14 * M) (s'.vel i)) := by
  obtain ⟨t, nops, ys, ⟨hrel, ok, hal⟩, e, hown, -, allow, keep', hub'⟩ := gtug h0 hrun hm tugs usable
  obtain ⟨⟨hk, hk'⟩, ⟨hf, hf'⟩, hr1, hr2⟩ := hx
  have M0 : 0 ≤ M := by linarith
  have keep := keep' keeps
  have hub := hub' hu
  have tugs' := tugs_all (t := t) tugs
  have native : ∃ s' us, Wobbly.Rounded.run rd s (nativeCalls t more) = .ok (s', us) ∧
      (∀ i, Within (2 ^ 46 * M) (s'.pos i) ∧ Within (2 ^ 36 * M) (s'.vel i)) ∧
      ((heldAnchors ops rs).length = 1 → ∀ i, Within (2 ^ 14 * M) (s'.pos i) ∧ Within (2 ^ 14 * M) (s'.vel i)) := by
    have wide : ∀ {B C : ℝ} {q : Pt}, B ≤ C → Within (B * M) q → Within (C * M) q := fun hBC hq =>
      hq.mono (mul_le_mul_of_nonneg_right hBC M0)
    by_cases hlen : (heldAnchors ops rs).length = 1
    · have hA : KeepsHoldWithin R.rnd M s (nativeCalls t more) := fun l hl s' us el =>
        ⟨(keep l hl s' us el).1, (keep l hl s' us el).2 hlen⟩
      obtain ⟨s', us, k1, k2⟩ := C141_comes_down hr e (by rw [hown]; exact hlen) hub (by linarith) hk' hf hf' (by linarith) hr2
        (by linarith) hMV hVn hV hs _ tugs' hA (by rw [gSteppedFor_eq tugs]; exact long1 hlen)
      exact ⟨s', us, k1, fun i => ⟨wide (by norm_num) (k2 i).1, wide (by norm_num) (k2 i).2⟩, fun _ => k2⟩
    · have h2 : 2 ≤ (owned [] nops ys).length := by rw [hown]; omega
      have h40' : (owned [] nops ys).length ≤ 40 := by rw [hown]; exact h40
      have hall : AllWithin V s := ⟨hs.1, hs.2.1, fun y hy => (hs.2.2 y hy).mono hMV⟩
      have hA : KeepsAnchorsWithin rd M s (nativeCalls t more) := by
        intro l hl s' us el
        refine (keep l hl s' us ?_).1
        rw [← el]
        symm
        refine C138_no_overflow hr e h2 h40' hub hk hk' hf hf' (by linarith)
          (hV.trans (pow_le_pow_right₀ (by norm_num) (by omega))) hall l (fun o ho => tugs' o (hl.subset ho)) ?_
        intro l' hl' s2 us2 el2
        have a := (keep l' (hl'.trans hl) s2 us2 el2).1
        exact ⟨fun i hi => (a.1 i hi).mono hMV, fun y hy q st u w hw => (a.2 y hy q st u w hw).mono hMV⟩
      obtain ⟨s', us, k1, k2⟩ := C140_comes_down hr e h2 hub hk hk' hf hf' (by linarith) hMV hVn
        (hV.trans (pow_le_pow_right₀ (by norm_num) (by omega))) hs _ tugs' hA (by rw [gSteppedFor_eq tugs]; exact long2 hlen)
      exact ⟨s', us, k1, k2, fun h => absurd h hlen⟩
  obtain ⟨s', us, n1, n2, n3⟩ := native
  obtain ⟨g', rs', k1, k2, -⟩ := tugs_sim hrel ok hal tugs allow n1
  exact ⟨g', rs', s', k1, k2, n2, n3⟩

end

/-! The hypotheses can be met: a model of 300 by 300 is grabbed at a corner, dragged, and left to itself. -/

example (R : Rounding64) (b : ℕ) : ∃ g0 ops g rs s more, modelNew R.rnd ⟨0, 0⟩ ⟨300, 300⟩ 8 5 500 b = .ok g0 ∧
    GWobbly.Rounded.run R.rnd g0 ops = .ok (g, rs) ∧ g.model = some s ∧ Spec.InRange s.settings ∧ (heldAnchors ops rs).length = 1 ∧
    GWobbly.Rounded.exec R.rnd g (.step 16) ≠ .ub ∧ SwingsWithin (2 ^ 20) (2 ^ 12) s ∧ (2 : ℝ) ^ 20 ≤ 2 ^ 8 * 2 ^ 12 ∧
    more = [.step 16, .anchorMoveBy 0 ⟨-200, 10⟩, .step 25600] ∧
    (∀ op ∈ more, GTugs op) ∧ (∀ a d, .anchorMoveBy a d ∈ more → a ∈ gAnchors rs ∧ .anchorUnref a ∉ ops) ∧
    GKeepsWithin R.rnd (2 ^ 12) ((heldAnchors ops rs).length = 1) g more ∧ 3200 * 8 ≤ gSteppedFor more := by
  obtain ⟨g0, g, s, h0, hrun, hm, h1, h2, h3, h4, P⟩ := gsolo R b
  have hup : ∀ {n : ℕ} {q : Pt}, 9 ≤ n → Within (2 ^ 9) q → Within (2 ^ n) q := fun hn h => Wobbly.Rounded.Small.up (n := 9) h hn
  have tugs : ∀ op ∈ ([.step 16, .anchorMoveBy 0 ⟨-200, 10⟩, .step 25600] : List GOp), GTugs op := by
    intro op hop
    simp only [List.mem_cons, List.not_mem_nil, or_false] at hop
    rcases hop with rfl | rfl | rfl <;> trivial
  have usable : ∀ a d, GOp.anchorMoveBy a d ∈ ([.step 16, .anchorMoveBy 0 ⟨-200, 10⟩, .step 25600] : List GOp) → a = 0 := by
    intro a d hop
    simp only [List.mem_cons, List.not_mem_nil, or_false, reduceCtorEq, false_or, GOp.anchorMoveBy.injEq] at hop
    exact hop.1
  refine ⟨g0, _, g, _, s, _, h0, hrun, hm, h1, by rw [h2]; rfl, h3,
    ⟨fun i => hup (by omega) (h4.1 i), fun i => hup (by omega) (h4.2.1 i), fun z hz => hup (by omega) (h4.2.2 z hz)⟩,
    by norm_num, rfl, tugs, fun a d h => ?_, gsolo_keeps h0 hrun hm tugs usable (fun t ht => ?_) _, by simp [gSteppedFor]⟩
  · rw [usable a d h]
    exact ⟨by simp [gAnchors], by simp⟩
  · have hn : nativeCalls t [.step 16, .anchorMoveBy 0 ⟨-200, 10⟩, .step 25600] = [.step 16, .moveAnchor 0 ⟨-200, 10⟩, .step 25600] := by
      simp [nativeCalls, Track.native, Track.next, ht]
    rw [hn]
    refine hold_cons (P.hold (by omega)) fun s3 _ e3 => ?_
    have P3 := P.step (by omega) e3
    refine hold_cons (P3.hold (by omega)) fun s4 _ e4 => ?_
    have P4 := P3.drag (by omega) (by constructor <;> norm_num) e4
    refine hold_cons (P4.hold (by omega)) fun s5 _ e5 => ?_
    exact hold_nil ((P4.step (by omega) e5).hold (by omega))

end Verif.Props
