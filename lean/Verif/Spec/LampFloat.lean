import Verif.Spec.Float
import Verif.Spec.Lamp
import Mathlib.Analysis.SpecialFunctions.Exp

/-! # Specification vocabulary for the rounded magic lamp -/

namespace Verif.Spec

open MagicLamp

noncomputable section

/-- What is asked of libm's `exp`: it is never negative, and between -32 and 32 it has a relative error of at most
one millionth. -/
structure GoodExp (ex : ℝ → ℝ) : Prop where
  nonneg : ∀ x, 0 ≤ ex x
  near : ∀ x, |x| ≤ 32 → |ex x - Real.exp x| ≤ Real.exp x / 10 ^ 6

/-- A box on a desktop: its coordinates are `double` numbers of at most 8192. -/
structure OnDesktop (b : Box) : Prop where
  double : Double b.tl.x ∧ Double b.tl.y ∧ Double b.br.x ∧ Double b.br.y
  left : |b.tl.x| ≤ 8192
  top : |b.tl.y| ≤ 8192
  right : |b.br.x| ≤ 8192
  bottom : |b.br.y| ≤ 8192

/-- Lamp parameters without a degenerate case, as `float` numbers: all that the GObject properties permit except stretch 1,
one-wide grids, and tops that are less than a hundredth of a pixel apart. -/
structure SensibleFloat (p : Params) : Prop where
  gw : 2 ≤ p.gw ∧ p.gw ≤ 2 ^ 24
  gh : 2 ≤ p.gh ∧ p.gh ≤ 2 ^ 24
  source : OnDesktop p.source
  target : OnDesktop p.target
  bend : 1 ≤ p.bend ∧ p.bend ≤ 20
  offset : 0.1 ≤ p.offset ∧ p.offset ≤ 1
  stretch : Single p.stretch ∧ 0.2 ≤ p.stretch ∧ p.stretch < 1
  deformSpeed : 1 ≤ p.deformSpeed ∧ p.deformSpeed ≤ 4
  tops : 0.01 ≤ |p.source.tl.y - p.target.tl.y|

/-- The point is at most `e` away from `q`, on each axis. -/
def Close (e : ℝ) (v : Vertex) (q : Pt) : Prop := ∃ x y, v = ⟨.fin x, .fin y⟩ ∧ |x - q.x| ≤ e ∧ |y - q.y| ≤ e

/-- The height of row `j` at progress `r`: on the way from its height over the source to its height over the target, in step
with the time, and the later rows leave later. -/
def rowHeight (p : Params) (r : ℝ) (j : ℕ) : ℝ :=
  lerp (min ((1 - r) / (1 - j / ((p.gh : ℝ) - 1) * p.stretch)) 1)
    (latticePoint p.target p.gw p.gh 0 j).y (latticePoint p.source p.gw p.gh 0 j).y

end

end Verif.Spec
