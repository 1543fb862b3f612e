import Verif.Lemmas.WobblyHaulDecay
import Verif.Props.WobblyHaul

/-! # The swing of a mesh with a single anchor comes down in double precision (C141) -/

namespace Verif.Props

open Spec Outcome Wobbly Wobbly.Rounded

variable {R : Rounding64} {r : ℝ → ℝ} {p : Pt} {w h : ℝ} {x : Settings} {b : ℕ} {ops : List Op} {s : State} {rs : List Res}

/-- **C141.** Let the only anchor and the resting places stay within `M` while the anchor is dragged, and let the springs be no
longer. However far off the mesh is and however fast it moves, up to `2 ^ k` times as much, once it has been stepped for `3200 * k`
milliseconds all positions and velocities are within `2 ^ 14 * M`, in double precision and whatever rounding does beyond
`2 ^ 500`. -/
theorem C141_comes_down (hr : Agrees R r) (e : run r (Rounded.new r p w h x b) ops = .ok (s, rs))
    (h1 : (owned [] ops rs).length = 1) (hu : exec r s (.step 16) ≠ .ub)
    (hk : 0 ≤ s.settings.springConstant) (hk' : s.settings.springConstant ≤ 10)
    (hf : 1 / 10 ≤ s.settings.friction) (hf' : s.settings.friction ≤ 10)
    (hr1 : 1 ≤ s.settings.maximumRange) (hr2 : s.settings.maximumRange ≤ 1000)
    {M V : ℝ} {k : ℕ} (hM : s.settings.maximumRange ≤ M) (hMV : M ≤ V) (hV : V ≤ 2 ^ k * M) (hV' : V ≤ 2 ^ 180)
    (hs : SwingsWithin V M s) (more : List Op) (hm : ∀ op ∈ more, Tugs op) (hA : KeepsHoldWithin R.rnd M s more)
    (hT : 3200 * k ≤ steppedFor more) :
    ∃ s' rs', run r s more = .ok (s', rs') ∧ ∀ i, Within (2 ^ 14 * M) (s'.pos i) ∧ Within (2 ^ 14 * M) (s'.vel i) := by
  obtain ⟨ha, hdeg, hd, hlen⟩ := single_facts e h1 hu
  have hM1 : 1 ≤ M := hr1.trans hM
  have wide : KeepsHoldWithin R.rnd V s more := fun l hl s' rs' e' =>
    ⟨AnchorsWithin.mono (hA l hl s' rs' e').1 hMV, fun i => ((hA l hl s' rs' e').2 i).mono hMV⟩
  obtain ⟨e1, s', rs', e2, -⟩ := haul_fine hr (hM1.trans hMV) hV' ha hdeg hd (by omega) hk hk' hf hf' hr1 hr2 (hM.trans hMV)
    ⟨hs.1, hs.2.1, fun z hz => (hs.2.2 z hz).mono hMV⟩ more hm wide
  obtain ⟨k1, k2⟩ := haul_decay hM1 hMV hV' ha hdeg hd (by omega) hk hk' hf hf' hr1 hr2 hM hs more hm hA e2
  have ht := steppedFor_le more
  have small : (199 / 200 : ℝ) ^ ticksOf more * V + 2 ^ 13 * M ≤ 2 ^ 14 * M := by
    have h0 : (0 : ℝ) ≤ (199 / 200) ^ ticksOf more := by positivity
    have h2 : (199 / 200 : ℝ) ^ ticksOf more * V ≤ M := by
      calc (199 / 200 : ℝ) ^ ticksOf more * V ≤ (199 / 200) ^ ticksOf more * (2 ^ k * M) := mul_le_mul_of_nonneg_left hV h0
        _ = (199 / 200) ^ ticksOf more * 2 ^ k * M := by ring
        _ ≤ 1 * M := mul_le_mul_of_nonneg_right (halved k (by omega)) (by linarith)
        _ = M := one_mul M
    norm_num at h2 ⊢
    linarith
  exact ⟨s', rs', e1.trans e2, fun i => ⟨(k1 i).mono small, (k2 i).mono small⟩⟩

/-! The hypotheses can be met: a model of 300 by 300 is grabbed at a corner, dragged, and left to itself. -/

example (R : Rounding64) (b : ℕ) : ∃ ops s rs more, run R.rnd (Rounded.new R.rnd ⟨0, 0⟩ 300 300 ⟨8, 5, 500⟩ b) ops = .ok (s, rs) ∧
    (owned [] ops rs).length = 1 ∧ exec R.rnd s (.step 16) ≠ .ub ∧ s.settings = ⟨8, 5, 500⟩ ∧ SwingsWithin (2 ^ 20) (2 ^ 12) s ∧
    (2 : ℝ) ^ 20 ≤ 2 ^ 8 * 2 ^ 12 ∧ more = [.step 16, .moveAnchor 0 ⟨-200, 10⟩, .step 25600] ∧ (∀ op ∈ more, Tugs op) ∧
    KeepsHoldWithin R.rnd (2 ^ 12) s more ∧ 3200 * 8 ≤ steppedFor more := by
  obtain ⟨s1, er, h1, h2, h3, h4, P⟩ := solo_model R b
  have hup : ∀ {n : ℕ} {q : Pt}, 9 ≤ n → Within (2 ^ 9) q → Within (2 ^ n) q := fun hn h => Small.up (n := 9) h hn
  refine ⟨_, s1, _, _, er, h1, h2, h3,
    ⟨fun i => hup (by omega) (h4.1 i), fun i => hup (by omega) (h4.2.1 i), fun z hz => hup (by omega) (h4.2.2 z hz)⟩,
    by norm_num, rfl, fun op hop => ?_, ?_, by simp [steppedFor]⟩
  · simp only [List.mem_cons, List.not_mem_nil, or_false] at hop
    rcases hop with rfl | rfl | rfl <;> trivial
  · refine hold_cons (P.hold (by omega)) fun s3 _ e3 => ?_
    have P3 := P.step (by omega) e3
    refine hold_cons (P3.hold (by omega)) fun s4 _ e4 => ?_
    have P4 := P3.drag (by omega) (by constructor <;> norm_num) e4
    refine hold_cons (P4.hold (by omega)) fun s5 _ e5 => ?_
    exact hold_nil ((P4.step (by omega) e5).hold (by omega))

end Verif.Props
