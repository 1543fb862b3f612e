import Verif.Lemmas.WobblyDecay
import Verif.Props.WobblyTugDouble

/-! # The swing of a dragged mesh comes down in double precision (C140) -/

namespace Verif.Props

open Spec Outcome Wobbly Wobbly.Rounded

variable {R : Rounding64} {r : ℝ → ℝ} {p : Pt} {w h : ℝ} {x : Settings} {b : ℕ} {ops : List Op} {s : State} {rs : List Res}

/-- **C140.** Let the anchors, two or more, stay within `M` while they are dragged, and let the springs be no longer. However
far off the mesh is and however fast it moves, up to `2 ^ k` times as much, once it has been stepped for `2 ^ 31 * k + 16`
milliseconds all positions are within `2 ^ 46 * M` and all velocities within `2 ^ 36 * M`, in double precision and whatever
rounding does beyond `2 ^ 500`. -/
theorem C140_comes_down (hr : Agrees R r) (e : run r (Rounded.new r p w h x b) ops = .ok (s, rs))
    (h2 : 2 ≤ (owned [] ops rs).length) (hu : exec r s (.step 16) ≠ .ub)
    (hk : 1 / 10 ≤ s.settings.springConstant) (hk' : s.settings.springConstant ≤ 10)
    (hf : 1 / 10 ≤ s.settings.friction) (hf' : s.settings.friction ≤ 10)
    {M V : ℝ} {k : ℕ} (hM : 1 ≤ M) (hMV : M ≤ V) (hVk : V ≤ 2 ^ k * M) (hV : V ≤ 2 ^ 390)
    (hs : SwingsWithin V M s) (more : List Op) (hm : ∀ op ∈ more, Tugs op) (hA : KeepsAnchorsWithin r M s more)
    (hT : 2 ^ 31 * k + 16 ≤ steppedFor more) :
    ∃ s' rs', run r s more = .ok (s', rs') ∧ ∀ i, Within (2 ^ 46 * M) (s'.pos i) ∧ Within (2 ^ 36 * M) (s'.vel i) := by
  obtain ⟨ha, hids, hl, hdeg, hd, hfirm, -⟩ := anchored_facts e h2 hu (c := s.settings.springConstant / 30) (by linarith)
  have hF : Fine r (2 ^ 47 * V) := by
    have hV4 : 4 * V ≤ 2 ^ 400 := by
      calc 4 * V ≤ 2 ^ 2 * 2 ^ 390 := by linarith
        _ = (2 : ℝ) ^ (2 + 390) := (pow_add _ _ _).symm
        _ ≤ _ := pow_le_pow_right₀ (by norm_num) (by omega)
    have := hr.fine (M := 4 * V) (by linarith) hV4
    have e1 : (2 : ℝ) ^ 45 * (4 * V) = 2 ^ 47 * V := by ring
    rw [e1] at this
    exact this
  exact tug_settles hM hMV hVk hF ha hids hl hdeg hd (by linarith) hk' hf hf' hfirm hs more hm hA (by omega)

/-! The hypotheses can be met: a model of 300 by 300 is grabbed at a corner, an anchor is inserted, and after a drag
the model is left to itself for as long as needed. What is bounded by 2^12 is within 2^13 as well, so that `k` is one. -/

example (R : Rounding64) (b : ℕ) : ∃ ops s rs more, run R.rnd (Rounded.new R.rnd ⟨0, 0⟩ 300 300 ⟨8, 5, 500⟩ b) ops = .ok (s, rs) ∧
    (owned [] ops rs).length = 2 ∧ exec R.rnd s (.step 16) ≠ .ub ∧ s.settings = ⟨8, 5, 500⟩ ∧
    SwingsWithin (2 ^ 13) (2 ^ 12) s ∧ (2 : ℝ) ^ 13 ≤ 2 ^ 1 * 2 ^ 12 ∧ more = [.step 16, .moveAnchor 0 ⟨-200, 10⟩, .step (2 ^ 31)] ∧ (∀ op ∈ more, Tugs op) ∧
    KeepsAnchorsWithin R.rnd (2 ^ 12) s more ∧ 2 ^ 31 * 1 + 16 ≤ steppedFor more := by
  obtain ⟨ops, s2, rs, er, h1, h2, -, h4, h5, P⟩ := pair_model R b
  refine ⟨ops, s2, rs, _, er, h1, h2, h4, ⟨fun i => ?_, fun i => ?_, h5.2.2⟩, by norm_num, rfl, fun op hop => ?_, ?_, ?_⟩
  · exact ⟨(h5.1 i).1.trans (by norm_num), (h5.1 i).2.trans (by norm_num)⟩
  · exact ⟨(h5.2.1 i).1.trans (by norm_num), (h5.2.1 i).2.trans (by norm_num)⟩
  · simp only [List.mem_cons, List.not_mem_nil, or_false] at hop
    rcases hop with rfl | rfl | rfl <;> trivial
  · refine keeps_cons (P.anchors (by omega)) fun s3 _ e3 => ?_
    have P3 := P.step e3
    refine keeps_cons (P3.anchors (by omega)) fun s4 _ e4 => ?_
    have P4 := P3.drag (by omega) (by constructor <;> norm_num) (.inl rfl) e4
    refine keeps_cons (P4.anchors (by omega)) fun s5 _ e5 => ?_
    exact keeps_nil ((P4.step e5).anchors (by omega))
  · simp only [steppedFor]
    omega

end Verif.Props
