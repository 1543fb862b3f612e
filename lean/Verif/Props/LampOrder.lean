import Verif.Lemmas.LampOrder

/-! # The lines of the texture while the magic lamp runs (C120) -/

namespace Verif.Props

open XR (fin)
open Spec MagicLamp

noncomputable section

theorem lamp_shown (p : Params) (s : Stepper) (ops : List (AnimOp MagicLamp.Setter)) (hk : KeepsResolution ops) (ms : ℕ)
    {r : ℝ} :
    let a := MagicLamp.cls.run (MagicLamp.new p s).1 ops
    Sensible a.params → (MagicLamp.cls.step a ms).1.progress = fin r → ∀ uv, UnitUV uv →
      (MagicLamp.cls.step a ms).1.out.bind (interpolate uv p.gw p.gh) =
        .ok (.ofPt ⟨along a.params.gh (rowLeft a.params r) uv.y + uv.x * along a.params.gh (rowWidth a.params r) uv.y,
          along a.params.gh (outY a.params r) uv.y⟩) := by
  intro a hs hr uv hu
  obtain ⟨r', g, _, _, hr', hg, hw, hh, hv⟩ := lamp_step p s ops hk ms
  rw [hr, XR.fin_inj] at hr'
  subst hr'
  rw [hg]
  change a.params.gw = p.gw at hw
  change a.params.gh = p.gh at hh
  rw [← hw, ← hh] at hv ⊢
  exact lamp_lines hs hv hu

theorem rowWidth_between {p : Params} (hs : Sensible p) (hg : GoesUp p) {r : ℝ} (h1 : r ≤ 1) {j : ℕ} (hj : j < p.gh) :
    min (p.source.br.x - p.source.tl.x) (p.target.br.x - p.target.tl.x) ≤ rowWidth p r j ∧
    rowWidth p r j ≤ max (p.source.br.x - p.source.tl.x) (p.target.br.x - p.target.tl.x) := by
  obtain ⟨f0, f1⟩ := xFactor_mem hs h1 hg.source.2.le hg.target.2.le hg.top hj
  rw [rowWidth]
  generalize xFactor p r j = F at *
  generalize p.source.br.x - p.source.tl.x = A
  generalize p.target.br.x - p.target.tl.x = B
  rcases le_total A B with h | h
  · rw [min_eq_left h, max_eq_right h]
    constructor <;> nlinarith
  · rw [min_eq_right h, max_eq_left h]
    constructor <;> nlinarith

/-- **C120.** After every Step of every history (short of changing the resolution), every level line of the texture is
shown as a level line, evenly stretched. -/
theorem C120_level_lines (p : Params) (s : Stepper) (ops : List (AnimOp MagicLamp.Setter)) (hk : KeepsResolution ops)
    (ms : ℕ) :
    let a := MagicLamp.cls.run (MagicLamp.new p s).1 ops
    Sensible a.params → ∃ left width height : ℝ → ℝ, ∀ uv, UnitUV uv →
      (MagicLamp.cls.step a ms).1.out.bind (interpolate uv p.gw p.gh) =
        .ok (.ofPt ⟨left uv.y + uv.x * width uv.y, height uv.y⟩) := by
  intro a hs
  obtain ⟨r, g, _, _, hr, -⟩ := lamp_step p s ops hk ms
  exact ⟨_, _, _, lamp_shown p s ops hk ms hs hr⟩

/-- **C120.** If the target begins above the source and does not end below it, the lines are in order from top to bottom,
and each is no shorter than the narrower and no longer than the wider of the two boxes. -/
theorem C120_in_order (p : Params) (s : Stepper) (ops : List (AnimOp MagicLamp.Setter)) (hk : KeepsResolution ops)
    (ms : ℕ) :
    let a := MagicLamp.cls.run (MagicLamp.new p s).1 ops
    Sensible a.params → GoesUp a.params → ∃ left width height : ℝ → ℝ,
      (∀ uv, UnitUV uv → (MagicLamp.cls.step a ms).1.out.bind (interpolate uv p.gw p.gh) =
        .ok (.ofPt ⟨left uv.y + uv.x * width uv.y, height uv.y⟩)) ∧
      (∀ v, 0 ≤ v → v ≤ 1 → Between (width v) (a.params.source.br.x - a.params.source.tl.x)
        (a.params.target.br.x - a.params.target.tl.x)) ∧
      ∀ v v', 0 ≤ v → v < v' → v' ≤ 1 → height v < height v' := by
  intro a hs hg
  obtain ⟨r, g, _, h1, hr, -⟩ := lamp_step p s ops hk ms
  refine ⟨_, _, _, lamp_shown p s ops hk ms hs hr, fun v v0 v1 => ?_, fun v v' v0 vv v1 => ?_⟩
  · exact along_between hs.gh (fun j hj => rowWidth_between hs hg h1 hj) v0 v1
  · exact along_lt (c := outY a.params r) hs.gh (fun j hj => outY_lt hs h1 hg.source.2 hg.target.2 hg.top hg.bottom hj) v0 vv v1

/-- **C120.** Then nothing is folded over: different places of the texture are shown in different places. -/
theorem C120_no_fold (p : Params) (s : Stepper) (ops : List (AnimOp MagicLamp.Setter)) (hk : KeepsResolution ops)
    (ms : ℕ) (uv uv' : Pt) (hu : UnitUV uv) (hu' : UnitUV uv') :
    let a := MagicLamp.cls.run (MagicLamp.new p s).1 ops
    Sensible a.params → GoesUp a.params →
      (MagicLamp.cls.step a ms).1.out.bind (interpolate uv p.gw p.gh) =
        (MagicLamp.cls.step a ms).1.out.bind (interpolate uv' p.gw p.gh) → uv = uv' := by
  intro a hs hg e
  obtain ⟨L, W, Y, h1, h2, h3⟩ := C120_in_order p s ops hk ms hs hg
  rw [h1 uv hu, h1 uv' hu'] at e
  simp only [Vertex.ofPt, Outcome.ok.injEq, Vertex.mk.injEq, XR.fin_inj] at e
  obtain ⟨ex, ey⟩ := e
  have hy : uv.y = uv'.y := by
    rcases lt_trichotomy uv.y uv'.y with h | h | h
    · exact absurd ey (h3 _ _ hu.2.2.1 h hu'.2.2.2).ne
    · exact h
    · exact absurd ey (h3 _ _ hu'.2.2.1 h hu.2.2.2).ne'
  rw [hy] at ex
  have hw : 0 < W uv'.y := by
    refine lt_of_lt_of_le (lt_min ?_ ?_) (h2 _ hu'.2.2.1 hu'.2.2.2).1
    · exact sub_pos.2 hg.source.1
    · exact sub_pos.2 hg.target.1
  have hx : uv.x = uv'.x := mul_right_cancel₀ hw.ne' (by linarith)
  cases uv
  cases uv'
  simp only at hx hy
  rw [hx, hy]

theorem outY_anti {p : Params} (hs : Sensible p) (hg : GoesUp p) {r r' : ℝ} (h : r ≤ r') (h1 : r' ≤ 1) {j : ℕ}
    (hj : j < p.gh) : outY p r' j ≤ outY p r j ∧ dstY p j ≤ outY p r' j := by
  have hF := yFactor_anti hs h hj
  have hF0 := (yFactor_mem hs h1 hj).1
  obtain ⟨f0, f1⟩ := frac_mem hs.gh hj
  have e : srcY p j - dstY p j = (p.source.tl.y + (j / (p.gh - 1)) * (p.source.br.y - p.source.tl.y)) -
    (p.target.tl.y + (j / (p.gh - 1)) * (p.target.br.y - p.target.tl.y)) := by
    simp only [srcY, dstY]
    ring
  have hd : 0 ≤ srcY p j - dstY p j := by
    rw [e]
    nlinarith [hg.top, hg.bottom]
  rw [outY, outY]
  constructor <;> nlinarith

/-- **C120.** Then nothing ever moves back: from one Step to a later one with the same settings and at least the same
progress, every vertex rises or stays, and moves sideways only towards its place in the target. -/
theorem C120_never_back (p : Params) (s s' : Stepper) (ops ops' : List (AnimOp MagicLamp.Setter))
    (hk : KeepsResolution ops) (hk' : KeepsResolution ops') (ms ms' : ℕ) (r r' : ℝ) (hr : r ≤ r') :
    let a := MagicLamp.cls.run (MagicLamp.new p s).1 ops
    let a' := MagicLamp.cls.run (MagicLamp.new p s').1 ops'
    a'.params = a.params → Sensible a.params → GoesUp a.params →
    (MagicLamp.cls.step a ms).1.progress = fin r → (MagicLamp.cls.step a' ms').1.progress = fin r' →
    ∃ (g g' : Grid) (V V' : ℕ → ℕ → Pt),
      (MagicLamp.cls.step a ms).1.out = .ok g ∧ HoldsGrid g p.gw p.gh (fun i j => .ofPt (V i j)) ∧
      (MagicLamp.cls.step a' ms').1.out = .ok g' ∧ HoldsGrid g' p.gw p.gh (fun i j => .ofPt (V' i j)) ∧
      ∀ i j, i < p.gw → j < p.gh →
        (latticePoint a.params.target p.gw p.gh i j).y ≤ (V' i j).y ∧ (V' i j).y ≤ (V i j).y ∧
        Between (V' i j).x (V i j).x (latticePoint a.params.target p.gw p.gh i j).x := by
  intro a a' hpar hs hg h1 h2
  obtain ⟨q, g, _, _, hq, hgr, hw, hh, hv⟩ := lamp_step p s ops hk ms
  obtain ⟨q', g', _, q1, hq', hgr', hw', hh', hv'⟩ := lamp_step p s' ops' hk' ms'
  change a.params.gw = p.gw at hw
  change a.params.gh = p.gh at hh
  change HoldsGrid g' p.gw p.gh (vertex a'.params (fin q')) at hv'
  rw [hpar] at hv'
  rw [h1, XR.fin_inj] at hq
  rw [h2, XR.fin_inj] at hq'
  subst hq hq'
  refine ⟨g, g', fun i j => ⟨outX a.params r i j, outY a.params r j⟩, fun i j => ⟨outX a.params r' i j, outY a.params r' j⟩,
    hgr, holdsGrid_congr hv fun i j _ hj => lamp_vertex hs r (by rw [hh]; exact hj), hgr',
    holdsGrid_congr hv' fun i j _ hj => lamp_vertex hs r' (by rw [hh]; exact hj), fun i j hi hj => ?_⟩
  have hj' : j < a.params.gh := by rw [hh]; exact hj
  obtain ⟨y1, y2⟩ := outY_anti hs hg hr q1 hj'
  have ey : (latticePoint a.params.target p.gw p.gh i j).y = dstY a.params j := by rw [latticeY, dstY, hh]
  have ex : (latticePoint a.params.target p.gw p.gh i j).x = dstX a.params i := by rw [latticeX, dstX, hw]
  rw [ey, ex]
  refine ⟨y2, y1, ?_⟩
  have hF := xFactor_anti hs hr q1 hg.source.2.le hg.target.2.le hg.top hg.bottom hj'
  have hF0 := (xFactor_mem hs q1 hg.source.2.le hg.target.2.le hg.top hj').1
  simp only [outX, Between]
  generalize xFactor a.params r' j = F' at *
  generalize xFactor a.params r j = F at *
  generalize srcX a.params i = A
  generalize dstX a.params i = B
  rcases le_total A B with h | h
  · rw [min_eq_left (by nlinarith), max_eq_right (by nlinarith)]
    constructor <;> nlinarith
  · rw [min_eq_right (by nlinarith), max_eq_left (by nlinarith)]
    constructor <;> nlinarith

/-- **C120 (negation for targets below).** If the target begins far below the source, there is a moment when the window is
upside down: at progress equal to the stretch factor all of the top line is shown below all of the bottom line. -/
theorem C120_upside_down (p : Params) (s : Stepper) (ops : List (AnimOp MagicLamp.Setter)) (hk : KeepsResolution ops)
    (ms : ℕ) :
    let a := MagicLamp.cls.run (MagicLamp.new p s).1 ops
    Sensible a.params →
    a.params.source.br.y - a.params.source.tl.y < a.params.stretch * (a.params.target.tl.y - a.params.source.tl.y) →
    (MagicLamp.cls.step a ms).1.progress = fin a.params.stretch →
    ∀ u u' : ℝ, 0 ≤ u → u ≤ 1 → 0 ≤ u' → u' ≤ 1 → ∃ top bottom : Pt,
      (MagicLamp.cls.step a ms).1.out.bind (interpolate ⟨u, 0⟩ p.gw p.gh) = .ok (.ofPt top) ∧
      (MagicLamp.cls.step a ms).1.out.bind (interpolate ⟨u', 1⟩ p.gw p.gh) = .ok (.ofPt bottom) ∧ bottom.y < top.y := by
  intro a hs hfar hr u u' u0 u1 u0' u1'
  refine ⟨_, _, lamp_shown p s ops hk ms hs hr ⟨u, 0⟩ ⟨u0, u1, le_rfl, zero_le_one⟩,
    lamp_shown p s ops hk ms hs hr ⟨u', 1⟩ ⟨u0', u1', zero_le_one, le_rfl⟩, ?_⟩
  show along _ _ 1 < along _ _ 0
  change along a.params.gh (outY a.params a.params.stretch) 1 < along a.params.gh (outY a.params a.params.stretch) 0
  rw [along_one hs.gh, along_zero hs.gh]
  have hp := pred_pos hs.gh
  have hst := hs.stretch
  have hst' : (1 : ℝ) - a.params.stretch ≠ 0 := by linarith [hst.2]
  have e : ((a.params.gh - 1 : ℕ) : ℝ) = a.params.gh - 1 := by
    rw [Nat.cast_sub (by have := hs.gh; omega)]
    simp
  simp only [outY, yFactor, dstY, srcY, e]
  rw [div_self hp.ne']
  simp only [Nat.cast_zero, zero_div, zero_mul, sub_zero, div_one, one_mul, add_zero, mul_one]
  rw [mul_one_div, div_self hst', min_self, min_eq_left (by linarith [hst.1])]
  rw [mul_div_assoc, mul_div_assoc, mul_div_cancel₀ _ hp.ne', mul_div_cancel₀ _ hp.ne']
  nlinarith

theorem taller_example : Sensible ⟨⟨⟨0, 10⟩, ⟨10, 20⟩⟩, ⟨⟨0, 0⟩, ⟨10, 1000⟩⟩, 2, 11, 10, 0.5, 0.5, 2⟩ := by
  constructor <;> norm_num

theorem half_progress (p : Params) :
    (MagicLamp.cls.step (MagicLamp.new p (linear 100)).1 50).1.progress = fin (1 / 2) := by
  have h : _ = fin (min 1 (((0 + 50 : ℕ) : ℝ) / 100)) :=
    C04_linear_progress MagicLamp.cls p (.ok (initializeGrid p.gw p.gh)) (by norm_num : (0:ℝ) < 100) [] 50
  refine Eq.trans h ?_
  norm_num

/-- **C120 (negation for taller targets).** It is not enough that the target begins above the source: if it also ends far
below the source, a line is shown below the bottom line. -/
theorem C120_taller_target :
    ∃ p : Params, Sensible p ∧ ProperBox p.source ∧ ProperBox p.target ∧ p.target.tl.y < p.source.tl.y ∧
      ∃ line bottom : Pt,
        (MagicLamp.cls.step (MagicLamp.new p (linear 100)).1 50).1.out.bind (interpolate ⟨0, 9 / 10⟩ p.gw p.gh) =
          .ok (.ofPt line) ∧
        (MagicLamp.cls.step (MagicLamp.new p (linear 100)).1 50).1.out.bind (interpolate ⟨0, 1⟩ p.gw p.gh) =
          .ok (.ofPt bottom) ∧ bottom.y < line.y := by
  refine ⟨⟨⟨⟨0, 10⟩, ⟨10, 20⟩⟩, ⟨⟨0, 0⟩, ⟨10, 1000⟩⟩, 2, 11, 10, 0.5, 0.5, 2⟩, taller_example, by norm_num [ProperBox],
    by norm_num [ProperBox], by norm_num, _, _,
    lamp_shown _ (linear 100) [] (by intro _ _ h; cases h) 50 taller_example (half_progress _) ⟨0, 9 / 10⟩
      (by refine ⟨?_, ?_, ?_, ?_⟩ <;> norm_num),
    lamp_shown _ (linear 100) [] (by intro _ _ h; cases h) 50 taller_example (half_progress _) ⟨0, 1⟩
      (by refine ⟨?_, ?_, ?_, ?_⟩ <;> norm_num), ?_⟩
  show along 11 (outY ⟨⟨⟨0, 10⟩, ⟨10, 20⟩⟩, ⟨⟨0, 0⟩, ⟨10, 1000⟩⟩, 2, 11, 10, 0.5, 0.5, 2⟩ (1 / 2)) 1 <
    along 11 (outY ⟨⟨⟨0, 10⟩, ⟨10, 20⟩⟩, ⟨⟨0, 0⟩, ⟨10, 1000⟩⟩, 2, 11, 10, 0.5, 0.5, 2⟩ (1 / 2)) (9 / 10)
  rw [along_one (by norm_num), along_eq (by norm_num) _ (by norm_num) (t := 9) (by norm_num) (by norm_num) (by norm_num)]
  norm_num [outY, yFactor, dstY, srcY]

/-- Moments in between, upwards: a window of 400 × 300 minimised into an icon of 50 × 20. -/
example : Sensible ⟨⟨⟨0, 500⟩, ⟨400, 800⟩⟩, ⟨⟨100, 0⟩, ⟨150, 20⟩⟩, 10, 10, 10, 0.5, 0.45, 2.3⟩ ∧
    GoesUp ⟨⟨⟨0, 500⟩, ⟨400, 800⟩⟩, ⟨⟨100, 0⟩, ⟨150, 20⟩⟩, 10, 10, 10, 0.5, 0.45, 2.3⟩ ∧
    (MagicLamp.cls.step (MagicLamp.new ⟨⟨⟨0, 500⟩, ⟨400, 800⟩⟩, ⟨⟨100, 0⟩, ⟨150, 20⟩⟩, 10, 10, 10, 0.5, 0.45, 2.3⟩
      (linear 100)).1 50).1.progress = fin (1 / 2) :=
  ⟨sensible_example, ⟨by constructor <;> norm_num, by constructor <;> norm_num, by norm_num, by norm_num⟩, half_progress _⟩

/-- Downwards: a window of height 100 at the top, minimised into an icon 900 below, with stretch factor one half. -/
example : Sensible ⟨⟨⟨0, 0⟩, ⟨400, 100⟩⟩, ⟨⟨100, 900⟩, ⟨150, 920⟩⟩, 10, 10, 10, 0.5, 1 / 2, 2⟩ ∧ (100 : ℝ) - 0 < 1 / 2 * (900 - 0) ∧
    (MagicLamp.cls.step (MagicLamp.new ⟨⟨⟨0, 0⟩, ⟨400, 100⟩⟩, ⟨⟨100, 900⟩, ⟨150, 920⟩⟩, 10, 10, 10, 0.5, 1 / 2, 2⟩
      (linear 100)).1 50).1.progress = fin (1 / 2) :=
  ⟨by constructor <;> norm_num, by norm_num, half_progress _⟩

end

end Verif.Props
