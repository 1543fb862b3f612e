import Verif.Props.LampGrid

/-! # What DeformUVToModelSpace shows at the ends of a magic lamp (C18, C19, C22) -/

namespace Verif.Props

open XR (fin)
open Spec MagicLamp

noncomputable section

/-- Between neighbouring lattice lines. -/
theorem cell_line {n l : ℕ} (hn : 2 ≤ n) (hl : l < n) {u x a d : ℝ} (h1 : u ≤ 1) (hx : x = u * (n - 1) - l) (x0 : 0 ≤ x) :
    (1 - x) * (a + l * d / (n - 1)) + x * (a + (min (n - 1) (l + 1) : ℕ) * d / (n - 1)) = a + u * d := by
  have hp := (pred_pos hn)
  have hp' := hp.ne'
  by_cases h : l + 1 ≤ n - 1
  · rw [min_eq_right h]
    push_cast
    rw [hx]
    field_simp
    ring
  · have e : l + 1 = n := by omega
    have e' : (l : ℝ) = n - 1 := by
      have : ((l + 1 : ℕ) : ℝ) = n := by rw [e]
      push_cast at this
      linarith
    have hu : u * (n - 1) ≤ n - 1 := by nlinarith
    have hz : x = 0 := by linarith
    have hu1 : u = 1 := by
      have : u * ((n : ℝ) - 1) = n - 1 := by linarith
      field_simp at this
      linarith
    rw [hz, e', hu1]
    field_simp
    ring

theorem lattice_uv {g : Grid} {gw gh : ℕ} {b : Box} (hw : 2 ≤ gw) (hh : 2 ≤ gh) (h : IsLattice g gw gh b) {uv : Pt}
    (hu : UnitUV uv) : interpolate uv gw gh g = .ok (.ofPt (boxPoint b uv)) := by
  obtain ⟨l, t, r, bt, x, y, ll, tl, rl, bl, ex, ey, x0, x1, y0, y1, er, eb, e⟩ := interpolate_eq hw hh h hu
  have cx := cell_line (a := b.tl.x) (d := b.br.x - b.tl.x) hw ll hu.2.1 ex x0
  have cy := cell_line (a := b.tl.y) (d := b.br.y - b.tl.y) hh tl hu.2.2.2 ey y0
  rw [← er] at cx
  rw [← eb] at cy
  rw [e]
  simp only [latticeX, latticeY, Vertex.ofPt, boxPoint, Outcome.ok.injEq, Vertex.mk.injEq, XR.fin_inj]
  constructor
  · rw [← cx]
    ring
  · rw [← cy]
    ring

/-- **C18.** At progress 1 `DeformUVToModelSpace` maps the unit square onto the target box, whatever the resolution
of the grid. -/
theorem C18_uv_ends_at_target (p : Params) (s : Stepper) (ops : List (AnimOp MagicLamp.Setter))
    (hk : KeepsResolution ops) (ms : ℕ) (uv : Pt) (hu : UnitUV uv) :
    let a := MagicLamp.cls.run (MagicLamp.new p s).1 ops
    Sensible a.params → (MagicLamp.cls.step a ms).1.progress = fin 1 →
      (MagicLamp.cls.step a ms).1.out.bind (interpolate uv p.gw p.gh) = .ok (.ofPt (boxPoint a.params.target uv)) := by
  intro a hs h
  obtain ⟨_, _, _, _, _, _, hw, hh, _⟩ := lamp_step p s ops hk ms
  obtain ⟨g, e, hg⟩ := C18_lamp_ends_at_target p s ops hk ms hs h
  rw [e]
  exact lattice_uv (by rw [← hw]; exact hs.gw) (by rw [← hh]; exact hs.gh) hg hu

/-- **C19 (partial).** At progress 0 `DeformUVToModelSpace` maps the unit square onto the source box. Missing: targets
below the source, where the claim is false. -/
theorem C19_uv_starts_at_source_partial (p : Params) (s : Stepper) (ops : List (AnimOp MagicLamp.Setter))
    (hk : KeepsResolution ops) (ms : ℕ) (uv : Pt) (hu : UnitUV uv) :
    let a := MagicLamp.cls.run (MagicLamp.new p s).1 ops
    Sensible a.params → a.params.target.tl.y < a.params.source.tl.y → Upright a.params.source →
      (MagicLamp.cls.step a ms).1.progress = fin 0 →
      (MagicLamp.cls.step a ms).1.out.bind (interpolate uv p.gw p.gh) = .ok (.ofPt (boxPoint a.params.source uv)) := by
  intro a hs h1 h2 h
  obtain ⟨_, _, _, _, _, _, hw, hh, _⟩ := lamp_step p s ops hk ms
  obtain ⟨g, e, hg⟩ := C19_lamp_starts_at_source_partial p s ops hk ms hs h1 h2 h
  rw [e]
  exact lattice_uv (by rw [← hw]; exact hs.gw) (by rw [← hh]; exact hs.gh) hg hu

/-- **C22.** After every Step of every history (short of changing the resolution), every `uv` in the unit square gives
a finite point. -/
theorem C22_uv_after_step (p : Params) (s : Stepper) (ops : List (AnimOp MagicLamp.Setter))
    (hk : KeepsResolution ops) (ms : ℕ) (uv : Pt) (hu : UnitUV uv) :
    let a := MagicLamp.cls.run (MagicLamp.new p s).1 ops
    Sensible a.params →
      ∃ q, (MagicLamp.cls.step a ms).1.out.bind (interpolate uv p.gw p.gh) = .ok (.ofPt q) := by
  intro a hs
  obtain ⟨r, g, _, _, _, hg, hw, hh, hv⟩ := lamp_step p s ops hk ms
  rw [hg]
  have h2w : 2 ≤ p.gw := by rw [← hw]; exact hs.gw
  have h2h : 2 ≤ p.gh := by rw [← hh]; exact hs.gh
  have hv' : HoldsGrid g p.gw p.gh fun i j => .ofPt ⟨outX a.params r i j, outY a.params r j⟩ :=
    holdsGrid_congr hv fun i j _ hj => lamp_vertex hs r (by rw [hh]; exact hj)
  obtain ⟨q, e, _⟩ := C22_uv_hull g p.gw p.gh _ h2w h2h hv' uv hu
  exact ⟨q, e⟩

example : UnitUV ⟨1 / 3, 1⟩ ∧ boxPoint ⟨⟨100, 0⟩, ⟨160, 20⟩⟩ ⟨1 / 3, 1⟩ = ⟨120, 20⟩ := by
  constructor
  · refine ⟨?_, ?_, ?_, ?_⟩ <;> norm_num
  · unfold boxPoint
    norm_num

end

end Verif.Props
