import Verif.Model.MagicLamp

/-! # Specification vocabulary for the magic lamp -/

namespace Verif.Spec

open MagicLamp XR

noncomputable section

/-- Lattice point in column `i`, row `j` of a `gw × gh` lattice over a box. -/
def latticePoint (b : Box) (gw gh i j : ℕ) : Pt :=
  ⟨b.tl.x + (i / ((gw : ℝ) - 1)) * (b.br.x - b.tl.x),
   b.tl.y + (j / ((gh : ℝ) - 1)) * (b.br.y - b.tl.y)⟩

/-- The point of the box with the given unit coordinates. -/
def boxPoint (b : Box) (uv : Pt) : Pt :=
  ⟨b.tl.x + uv.x * (b.br.x - b.tl.x), b.tl.y + uv.y * (b.br.y - b.tl.y)⟩

/-- The grid holds exactly the vertices `f i j`, row by row. -/
def HoldsGrid (g : Grid) (gw gh : ℕ) (f : ℕ → ℕ → Vertex) : Prop :=
  g.length = gw * gh ∧ ∀ i j, i < gw → j < gh → g[j * gw + i]? = some (f i j)

/-- The grid is the regular lattice over the box. -/
def IsLattice (g : Grid) (gw gh : ℕ) (b : Box) : Prop :=
  HoldsGrid g gw gh fun i j => .ofPt (latticePoint b gw gh i j)

/-- Parameters without a degenerate case: all that the GObject properties permit except stretch 1,
equal tops and one-wide grids. -/
structure Sensible (p : Params) : Prop where
  gw : 2 ≤ p.gw
  gh : 2 ≤ p.gh
  bend : 1 ≤ p.bend ∧ p.bend ≤ 20
  offset : 0.1 ≤ p.offset ∧ p.offset ≤ 1
  stretch : 0.2 ≤ p.stretch ∧ p.stretch < 1
  deformSpeed : 1 ≤ p.deformSpeed ∧ p.deformSpeed ≤ 4
  tops : p.source.tl.y ≠ p.target.tl.y

/-- The box is not upside down. -/
def Upright (b : Box) : Prop := b.tl.y ≤ b.br.y

/-- No call in the history changes the grid resolution. -/
def KeepsResolution (ops : List (AnimOp MagicLamp.Setter)) : Prop :=
  ∀ gw gh, AnimOp.set (MagicLamp.Setter.gridResolution gw gh) ∉ ops

/-- `x` is between `a` and `b`, in either order. -/
def Between (x a b : ℝ) : Prop := min a b ≤ x ∧ x ≤ max a b

/-- Both coordinates are numbers. -/
def FiniteVertex (v : Vertex) : Prop := v.x.IsFinite ∧ v.y.IsFinite

/-- Everything that the GObject properties permit. -/
structure LampInRange (p : Params) : Prop where
  bend : 1 ≤ p.bend ∧ p.bend ≤ 20
  offset : 0.1 ≤ p.offset ∧ p.offset ≤ 1
  stretch : 0.2 ≤ p.stretch ∧ p.stretch ≤ 1
  deformSpeed : 1 ≤ p.deformSpeed ∧ p.deformSpeed ≤ 4

/-- Some `Step` of the history is made while the resolution has more than `n` vertices; it has `c` at the start. -/
def StepsBeyond (n : ℕ) : ℕ → List (AnimOp MagicLamp.Setter) → Prop
  | _, [] => False
  | c, .step _ :: ops => n < c ∨ StepsBeyond n c ops
  | _, .set (.gridResolution gw gh) :: ops => StepsBeyond n (gw * gh) ops
  | c, .set _ :: ops => StepsBeyond n c ops
  | c, .setStepper _ :: ops => StepsBeyond n c ops

end

end Verif.Spec
