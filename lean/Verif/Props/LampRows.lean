import Verif.Lemmas.LampRows
import Verif.Props.LampFloat

/-! # The heights of the rows of the magic lamp in single precision (C104) -/

namespace Verif.Props

open XR (fin)
open Spec MagicLamp

noncomputable section

variable (R : Rounding) (D : Rounding64) (sin sinf cosf : ℝ → ℝ) (ex : ℝ → ℝ)

local notation "MM" => Machine.ieee R D sin sinf cosf

/-- **C104.** After every Step every vertex is at the height of its row, up to an error of a 64th of a pixel and a 256th for
every row of the grid. -/
theorem C104_row_heights (p : Params) (s : Stepper) (ops : List (AnimOp MagicLamp.Setter)) (hk : KeepsResolution ops) (ms : ℕ) :
    let a := ((MM).lamp ex).run ((MM).lampNew ex p s).1 ops
    (2 ≤ p.gh ∧ p.gh ≤ 2 ^ 20) → OnDesktop a.params.source → OnDesktop a.params.target →
      (Single a.params.stretch ∧ 0.2 ≤ a.params.stretch ∧ a.params.stretch < 1) →
      ∃ r g, (((MM).lamp ex).step a ms).1.progress = fin r ∧ 0 ≤ r ∧ r ≤ 1 ∧ (((MM).lamp ex).step a ms).1.out = .ok g ∧
        ∀ i j, i < p.gw → j < p.gh → ∃ v y, g[j * p.gw + i]? = some v ∧ v.y = fin y ∧
          |y - rowHeight a.params r j| ≤ ((p.gh : ℝ) - 1) / 256 + 1 / 64 := by
  intro a hgh hsrc htgt hst
  obtain ⟨r, g, h0, h1, hr, hg, hw, hh, hv⟩ := lampFloat_step (MM) ex p s ops hk ms
  change a.params.gw = p.gw at hw
  change a.params.gh = p.gh at hh
  refine ⟨r, g, hr, h0, h1, hg, fun i j hi hj => ?_⟩
  have iv : (MM).sub (fin 1) (fin r) = fin (R.rnd (1 - r)) := by
    unfold Machine.sub
    rw [XR.fin_sub, Machine.f_ok (by rw [abs_of_nonneg (by linarith)]; norm_num; linarith)]
  obtain ⟨y, hy, ey⟩ := Machine.stretchedY_near (R := R) (D := D) (sin := sin) (sinf := sinf) (cosf := cosf) (p := a.params)
    (by rw [hh]; exact hgh) hsrc htgt hst (j := j) (by rw [hh]; exact hj) h0 h1
  refine ⟨_, y, hv.2 i j hi hj, ?_, ?_⟩
  · unfold Machine.lampVertex
    simp only
    rw [iv]
    exact hy
  · rw [hh] at ey
    unfold rowHeight
    rw [latticeY, latticeY]
    unfold lerp
    rw [hh]
    refine le_of_eq_of_le (congrArg abs (congrArg (y - ·) ?_)) ey
    ring

/-- In the middle of a lamp of 100 ms with 10 rows every height has an error of less than a 16th. -/
example : ∃ r g, (((MM).lamp ex).step ((MM).lampNew ex deskLamp (linear 100)).1 50).1.progress = fin r ∧ 0 ≤ r ∧ r ≤ 1 ∧
    (((MM).lamp ex).step ((MM).lampNew ex deskLamp (linear 100)).1 50).1.out = .ok g ∧
    ∀ i j, i < 10 → j < 10 → ∃ v y, g[j * 10 + i]? = some v ∧ v.y = fin y ∧ |y - rowHeight deskLamp r j| ≤ 1 / 16 := by
  obtain ⟨r, g, h1, h2, h3, h4, h5⟩ := C104_row_heights R D sin sinf cosf ex deskLamp (linear 100) [] (by intro _ _ h; cases h) 50
    (by norm_num [deskLamp]) deskLamp_sensible.source deskLamp_sensible.target deskLamp_sensible.stretch
  refine ⟨r, g, h1, h2, h3, h4, fun i j hi hj => ?_⟩
  obtain ⟨v, y, e1, e2, e3⟩ := h5 i j hi hj
  refine ⟨v, y, e1, e2, e3.trans ?_⟩
  norm_num [deskLamp]

end

end Verif.Props
