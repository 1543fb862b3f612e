import Verif.Lemmas.Lamp
import Verif.Spec.Lamp
import Verif.Props.Transforms

/-! # Magic lamp (C18-C25) -/

namespace Verif.Props

open XR (fin)
open Spec MagicLamp

noncomputable section

/-! ## The grid after a Step -/

/-- Invariant: the stored grid has the size of the current resolution. -/
def LampOk (gw gh : ℕ) (a : Anim Params (Outcome Grid)) : Prop :=
  a.params.gw = gw ∧ a.params.gh = gh ∧ ∃ g, a.out = .ok g ∧ g.length = gw * gh

theorem lampOk_render {gw gh : ℕ} {p : Params} (hw : p.gw = gw) (hh : p.gh = gh) (r : XR)
    {o : Outcome Grid} (ho : ∃ g, o = .ok g ∧ g.length = gw * gh) :
    ∃ g', MagicLamp.render p r o = .ok g' ∧ HoldsGrid g' gw gh (vertex p r) := by
  obtain ⟨g, rfl, hg⟩ := ho
  subst hw hh
  obtain ⟨g', h1, h2, h3⟩ := moveGrid_ok p r g hg.ge
  refine ⟨g', h1, h2.trans hg, fun i j hi hj => ?_⟩
  have hlt : j * p.gw + i < p.gw * p.gh := by
    have : (j + 1) * p.gw ≤ p.gh * p.gw := Nat.mul_le_mul_right _ hj
    rw [Nat.succ_mul] at this
    rw [mul_comm p.gw]; omega
  have hpos : 0 < p.gw := by omega
  rw [h3, if_pos hlt]
  congr 2
  · rw [mul_comm, Nat.mul_add_mod]; exact Nat.mod_eq_of_lt hi
  · rw [mul_comm, Nat.mul_add_div hpos, Nat.div_eq_of_lt hi]; rfl

theorem lampOk_new (p : Params) (s : Stepper) : LampOk p.gw p.gh (MagicLamp.new p s).1 := by
  refine ⟨rfl, rfl, ?_⟩
  obtain ⟨g', h, h'⟩ := lampOk_render (p := p) rfl rfl (s.value 0)
    (o := .ok (initializeGrid p.gw p.gh)) ⟨_, rfl, by simp [initializeGrid]⟩
  exact ⟨g', h, h'.1⟩

theorem lampOk_run {gw gh : ℕ} (ops : List (AnimOp MagicLamp.Setter)) (hk : KeepsResolution ops)
    (a : Anim Params (Outcome Grid)) (ha : LampOk gw gh a) :
    LampOk gw gh (MagicLamp.cls.run a ops) := by
  induction ops generalizing a with
  | nil => exact ha
  | cons o ops ih =>
    refine ih (fun gw gh h => hk gw gh (List.mem_cons_of_mem _ h)) (MagicLamp.cls.exec a o) ?_
    obtain ⟨h1, h2, h3⟩ := ha
    cases o with
    | step ms =>
      obtain ⟨g', h, h'⟩ := lampOk_render h1 h2 (AnimClass.clampedProgress (a.stepper.value ms)) h3
      exact ⟨h1, h2, g', h, h'.1⟩
    | set s =>
      cases s with
      | gridResolution w h => exact absurd (List.mem_cons_self ..) (hk w h)
      | _ => exact ⟨h1, h2, h3⟩
    | setStepper s => exact ⟨h1, h2, h3⟩

/-- What a magic lamp Step leaves behind, in any history that keeps the resolution. -/
theorem lamp_step (p : Params) (s : Stepper) (ops : List (AnimOp MagicLamp.Setter))
    (hk : KeepsResolution ops) (ms : ℕ) :
    let a := MagicLamp.cls.run (MagicLamp.new p s).1 ops
    ∃ (r : ℝ) (g : Grid), 0 ≤ r ∧ r ≤ 1 ∧ (MagicLamp.cls.step a ms).1.progress = fin r ∧
      (MagicLamp.cls.step a ms).1.out = .ok g ∧ a.params.gw = p.gw ∧ a.params.gh = p.gh ∧
      HoldsGrid g p.gw p.gh (vertex a.params (fin r)) := by
  intro a
  obtain ⟨h1, h2, h3⟩ := lampOk_run ops hk _ (lampOk_new p s)
  obtain ⟨r, hr, h0, h1'⟩ := clamp_inUnit (a.stepper.value ms)
  obtain ⟨g, hg, hg'⟩ := lampOk_render h1 h2 (clamp (a.stepper.value ms) (fin 0) (fin 1)) h3
  rw [hr] at hg'
  exact ⟨r, g, h0, h1', hr, hg, h1, h2, hg'⟩

/-! ## Formula facts -/

theorem lamp_vertex {p : Params} (hp : Sensible p) (r : ℝ) {i j : ℕ} (hj : j < p.gh) :
    vertex p (fin r) i j = ⟨fin (outX p r i j), fin (outY p r j)⟩ :=
  vertex_fin p r hp.gw hp.gh hj hp.stretch.2 (by linarith [hp.bend.1]) hp.tops

theorem yFactor_mem {p : Params} (hp : Sensible p) {r : ℝ} (h1 : r ≤ 1) {j : ℕ}
    (hj : j < p.gh) : 0 ≤ yFactor p r (j / (p.gh - 1)) ∧ yFactor p r (j / (p.gh - 1)) ≤ 1 := by
  obtain ⟨f0, f1⟩ := frac_mem hp.gh hj
  have h3 := stretch_pos f0 f1 hp.stretch.2
  refine ⟨le_min ?_ zero_le_one, min_le_right _ _⟩
  have : 0 ≤ 1 - r := by linarith
  positivity

theorem yFactor_zero {p : Params} (hp : Sensible p) {j : ℕ} (hj : j < p.gh) :
    yFactor p 0 (j / (p.gh - 1)) = 1 := by
  obtain ⟨f0, f1⟩ := frac_mem hp.gh hj
  have h3 := stretch_pos f0 f1 hp.stretch.2
  refine min_eq_right ?_
  rw [sub_zero, one_mul, le_div_iff₀ h3]
  have : 0 ≤ p.stretch := by linarith [hp.stretch.1]
  nlinarith

theorem latticeX (b : Box) (gw gh i j : ℕ) :
    (latticePoint b gw gh i j).x = b.tl.x + i * (b.br.x - b.tl.x) / (gw - 1) := by
  simp only [latticePoint]; ring

theorem latticeY (b : Box) (gw gh i j : ℕ) :
    (latticePoint b gw gh i j).y = b.tl.y + j * (b.br.y - b.tl.y) / (gh - 1) := by
  simp only [latticePoint]; ring

theorem holdsGrid_congr {g : Grid} {gw gh : ℕ} {f f' : ℕ → ℕ → Vertex} (h : HoldsGrid g gw gh f)
    (e : ∀ i j, i < gw → j < gh → f i j = f' i j) : HoldsGrid g gw gh f' :=
  ⟨h.1, fun i j hi hj => by rw [h.2 i j hi hj, e i j hi hj]⟩

/-- **C18.** Whatever has been done before (short of changing the resolution), a Step that ends with
progress 1 leaves exactly the regular lattice over the target box. -/
theorem C18_lamp_ends_at_target (p : Params) (s : Stepper) (ops : List (AnimOp MagicLamp.Setter))
    (hk : KeepsResolution ops) (ms : ℕ) :
    let a := MagicLamp.cls.run (MagicLamp.new p s).1 ops
    Sensible a.params → (MagicLamp.cls.step a ms).1.progress = fin 1 →
      ∃ g, (MagicLamp.cls.step a ms).1.out = .ok g ∧ IsLattice g p.gw p.gh a.params.target := by
  intro a hs h
  obtain ⟨r, g, _, _, hr, hg, hw, hh, hv⟩ := lamp_step p s ops hk ms
  change a.params.gw = p.gw at hw
  change a.params.gh = p.gh at hh
  rw [hr, XR.fin_inj] at h
  subst h
  refine ⟨g, hg, holdsGrid_congr hv fun i j hi hj => ?_⟩
  have hj' : j < a.params.gh := by rw [hh]; exact hj
  rw [lamp_vertex hs 1 hj']
  have hY : outY a.params 1 j = dstY a.params j := by
    simp [outY, yFactor]
  have hX : outX a.params 1 i j = dstX a.params i := by
    simp [outX, xFactor, xProg]
  rw [hX, hY]
  simp only [Vertex.ofPt, latticeX, latticeY, dstX, dstY, hw, hh]

theorem sensible_example : Sensible ⟨⟨⟨0, 500⟩, ⟨400, 800⟩⟩, ⟨⟨100, 0⟩, ⟨150, 20⟩⟩, 10, 10, 10, 0.5,
    0.45, 2.3⟩ := by
  constructor <;> norm_num

example : (MagicLamp.cls.step (MagicLamp.new ⟨⟨⟨0, 500⟩, ⟨400, 800⟩⟩, ⟨⟨100, 0⟩, ⟨150, 20⟩⟩, 10, 10,
      10, 0.5, 0.45, 2.3⟩ (linear 100)).1 100).1.progress = fin 1 := by
  have h : _ = fin (min 1 (((0 + 100 : ℕ) : ℝ) / 100)) :=
    C04_linear_progress MagicLamp.cls ⟨⟨⟨0, 500⟩, ⟨400, 800⟩⟩, ⟨⟨100, 0⟩, ⟨150, 20⟩⟩, 10, 10, 10, 0.5,
      0.45, 2.3⟩ (.ok (initializeGrid 10 10)) (by norm_num : (0:ℝ) < 100) [] 100
  refine Eq.trans h ?_
  norm_num

/-- **C19 (partial).** With the target above the source, a Step that ends with progress 0 leaves
exactly the regular lattice over the source box.  Missing: targets below the source, where the claim
is false. -/
theorem C19_lamp_starts_at_source_partial (p : Params) (s : Stepper)
    (ops : List (AnimOp MagicLamp.Setter)) (hk : KeepsResolution ops) (ms : ℕ) :
    let a := MagicLamp.cls.run (MagicLamp.new p s).1 ops
    Sensible a.params → a.params.target.tl.y < a.params.source.tl.y → Upright a.params.source →
      (MagicLamp.cls.step a ms).1.progress = fin 0 →
      ∃ g, (MagicLamp.cls.step a ms).1.out = .ok g ∧ IsLattice g p.gw p.gh a.params.source := by
  intro a hs habove hup h
  obtain ⟨r, g, _, _, hr, hg, hw, hh, hv⟩ := lamp_step p s ops hk ms
  change a.params.gw = p.gw at hw
  change a.params.gh = p.gh at hh
  rw [hr, XR.fin_inj] at h
  subst h
  refine ⟨g, hg, holdsGrid_congr hv fun i j hi hj => ?_⟩
  have hj' : j < a.params.gh := by rw [hh]; exact hj
  rw [lamp_vertex hs 0 hj']
  have hY : outY a.params 0 j = srcY a.params j := by
    simp [outY, yFactor_zero hs hj']
  have hD : xProg a.params 0 j = 1 := by
    have h1 : min ((1 - 0) * a.params.deformSpeed) 1 = 1 :=
      min_eq_right (by linarith [hs.deformSpeed.1])
    have h2 : a.params.source.tl.y ≤ srcY a.params j := by
      have := pred_pos hs.gh
      have hu : 0 ≤ a.params.source.br.y - a.params.source.tl.y := sub_nonneg.2 hup
      have : 0 ≤ (j : ℝ) * (a.params.source.br.y - a.params.source.tl.y) / (a.params.gh - 1) := by
        positivity
      simp only [srcY]; linarith
    have h3 : (a.params.source.tl.y - srcY a.params j) /
        (a.params.source.tl.y - a.params.target.tl.y) ≤ 0 :=
      div_nonpos_of_nonpos_of_nonneg (by linarith) (by linarith)
    rw [xProg, h1, hY, mul_one]
    exact min_eq_right (by linarith)
  have hX : outX a.params 0 i j = srcX a.params i := by
    have hb : 0 < a.params.bend := by linarith [hs.bend.1]
    have h5 : sig 1 a.params.bend a.params.offset - sig 0 a.params.bend a.params.offset ≠ 0 :=
      (sub_pos.2 (sig_strictMono hb _ one_pos)).ne'
    simp [outX, xFactor, hD, div_self h5]
  rw [hX, hY]
  simp only [Vertex.ofPt, latticeX, latticeY, srcX, srcY, hw, hh]

/-- **C19 (negation).** A source at the top of the screen with the target 100 below it: the freshly
built animation with a linear stepper, stepped by 0, is at progress 0 but its bottom left vertex is
not the bottom left corner of the source. -/
theorem C19_lamp_start_not_source :
    ∃ p : Params, Sensible p ∧ Upright p.source ∧ Upright p.target ∧
      (MagicLamp.cls.step (MagicLamp.new p (linear 100)).1 0).1.progress = fin 0 ∧
      ∃ g, (MagicLamp.cls.step (MagicLamp.new p (linear 100)).1 0).1.out = .ok g ∧
        ¬ IsLattice g p.gw p.gh p.source := by
  set p : Params := ⟨⟨⟨0, 0⟩, ⟨400, 50⟩⟩, ⟨⟨100, 100⟩, ⟨150, 120⟩⟩, 2, 2, 10, 0.5, 0.45, 2.3⟩ with hp
  have hs : Sensible p := by constructor <;> norm_num [hp]
  have hprog : (MagicLamp.cls.step (MagicLamp.new p (linear 100)).1 0).1.progress = fin 0 := by
    have h : _ = fin (min 1 (((0 + 0 : ℕ) : ℝ) / 100)) :=
      C04_linear_progress MagicLamp.cls p (.ok (initializeGrid 2 2)) (by norm_num : (0:ℝ) < 100) [] 0
    refine Eq.trans h ?_
    norm_num
  refine ⟨p, hs, by norm_num [Upright, hp], by norm_num [Upright, hp], hprog, ?_⟩
  obtain ⟨r, g, _, _, hr, hg, hw, hh, hv⟩ := lamp_step p (linear 100) [] (by intro _ _ h; cases h) 0
  have hr0 : r = 0 := by
    have := hr.symm.trans hprog
    rwa [XR.fin_inj] at this
  subst hr0
  refine ⟨g, hg, fun hl => ?_⟩
  have e1 := hv.2 0 1 (by norm_num [hp]) (by norm_num [hp])
  have e2 := hl.2 0 1 (by norm_num [hp]) (by norm_num [hp])
  rw [e1] at e2
  have e3 : vertex p (fin 0) 0 1 = Vertex.ofPt (latticePoint p.source p.gw p.gh 0 1) := by
    exact Option.some.inj e2
  rw [lamp_vertex hs 0 (by norm_num [hp] : 1 < p.gh)] at e3
  have e4 := congrArg Vertex.x e3
  simp only [Vertex.ofPt, XR.fin_inj, latticeX] at e4
  have hY : outY p 0 1 = srcY p 1 := by
    have := yFactor_zero hs (by norm_num [hp] : 1 < p.gh)
    rw [outY, this]; ring
  have hD : xProg p 0 1 = 1 / 2 := by
    rw [xProg, hY]
    norm_num [srcY, hp]
  have hlt : sig (1 / 2) p.bend p.offset < sig 1 p.bend p.offset :=
    sig_strictMono (by linarith [hs.bend.1]) _ (by norm_num)
  have h0 : sig 0 p.bend p.offset < sig 1 p.bend p.offset :=
    sig_strictMono (by linarith [hs.bend.1]) _ (by norm_num)
  have hX : outX p 0 0 1 = 100 - 100 * xFactor p 0 1 := by
    rw [outX]; norm_num [dstX, srcX, hp]; ring
  have hF : xFactor p 0 1 < 1 := by
    rw [xFactor, hD, div_lt_one (by linarith)]; linarith
  rw [hX] at e4
  norm_num [hp] at e4
  norm_num [hp] at hF
  linarith

theorem between_lerp {A B F : ℝ} (h0 : 0 ≤ F) (h1 : F ≤ 1) : Between (B + (A - B) * F) A B := by
  constructor
  · rcases le_total A B with h | h
    · rw [min_eq_left h]; nlinarith
    · rw [min_eq_right h]; nlinarith
  · rcases le_total A B with h | h
    · rw [max_eq_right h]; nlinarith
    · rw [max_eq_left h]; nlinarith

/-- **C20.** With the target above the source, after every Step each vertex lies between its place
in the source lattice and its place in the target lattice, in both coordinates. -/
theorem C20_lamp_between (p : Params) (s : Stepper)
    (ops : List (AnimOp MagicLamp.Setter)) (hk : KeepsResolution ops) (ms : ℕ) :
    let a := MagicLamp.cls.run (MagicLamp.new p s).1 ops
    Sensible a.params → a.params.target.tl.y < a.params.source.tl.y →
    Upright a.params.source → Upright a.params.target →
      ∃ g, (MagicLamp.cls.step a ms).1.out = .ok g ∧ ∀ i j, i < p.gw → j < p.gh →
        ∃ x y : ℝ, g[j * p.gw + i]? = some ⟨fin x, fin y⟩ ∧
          Between x (latticePoint a.params.source p.gw p.gh i j).x
            (latticePoint a.params.target p.gw p.gh i j).x ∧
          Between y (latticePoint a.params.source p.gw p.gh i j).y
            (latticePoint a.params.target p.gw p.gh i j).y := by
  intro a hs habove hup hup'
  obtain ⟨r, g, hr0, hr1, hr, hg, hw, hh, hv⟩ := lamp_step p s ops hk ms
  change a.params.gw = p.gw at hw
  change a.params.gh = p.gh at hh
  refine ⟨g, hg, fun i j hi hj => ?_⟩
  have hj' : j < a.params.gh := by rw [hh]; exact hj
  refine ⟨_, _, (hv.2 i j hi hj).trans (by rw [lamp_vertex hs r hj']), ?_, ?_⟩
  · -- x
    have hb : 0 < a.params.bend := by linarith [hs.bend.1]
    have hfac := yFactor_mem hs hr1 hj'
    have hpp := pred_pos hs.gh
    have hS : a.params.source.tl.y ≤ srcY a.params j := by
      have hu : 0 ≤ a.params.source.br.y - a.params.source.tl.y := sub_nonneg.2 hup
      have : 0 ≤ (j : ℝ) * (a.params.source.br.y - a.params.source.tl.y) / (a.params.gh - 1) := by
        positivity
      simp only [srcY]; linarith
    have hT : a.params.target.tl.y ≤ dstY a.params j := by
      have hu : 0 ≤ a.params.target.br.y - a.params.target.tl.y := sub_nonneg.2 hup'
      have : 0 ≤ (j : ℝ) * (a.params.target.br.y - a.params.target.tl.y) / (a.params.gh - 1) := by
        positivity
      simp only [dstY]; linarith
    have hY : a.params.target.tl.y ≤ outY a.params r j := by
      rw [outY]
      nlinarith [mul_nonneg hfac.1 (by linarith : 0 ≤ srcY a.params j - a.params.target.tl.y),
        mul_nonneg (by linarith [hfac.2] : 0 ≤ 1 - yFactor a.params r (j / (a.params.gh - 1)))
          (by linarith : 0 ≤ dstY a.params j - a.params.target.tl.y)]
    have hq0 : 0 ≤ min ((1 - r) * a.params.deformSpeed) 1 :=
      le_min (mul_nonneg (by linarith) (by linarith [hs.deformSpeed.1])) zero_le_one
    have hq1 : min ((1 - r) * a.params.deformSpeed) 1 ≤ 1 := min_le_right _ _
    have hd0 : 0 ≤ min (1 - (a.params.source.tl.y - outY a.params r j) /
        (a.params.source.tl.y - a.params.target.tl.y)) 1 := by
      refine le_min ?_ zero_le_one
      rw [sub_nonneg, div_le_one (by linarith)]
      linarith
    have hd1 : min (1 - (a.params.source.tl.y - outY a.params r j) /
        (a.params.source.tl.y - a.params.target.tl.y)) 1 ≤ 1 := min_le_right _ _
    have hD0 : 0 ≤ xProg a.params r j := mul_nonneg hd0 hq0
    have hD1 : xProg a.params r j ≤ 1 := mul_le_one₀ hd1 hq0 hq1
    have h0 : 0 < sig 1 a.params.bend a.params.offset - sig 0 a.params.bend a.params.offset :=
      sub_pos.2 (sig_strictMono hb _ (by norm_num))
    have hF0 : 0 ≤ xFactor a.params r j :=
      div_nonneg (sub_nonneg.2 (sig_mono hb _ hD0)) h0.le
    have hF1 : xFactor a.params r j ≤ 1 := by
      rw [xFactor, div_le_one h0]
      linarith [sig_mono hb a.params.offset hD1]
    rw [latticeX, latticeX]
    have ex : outX a.params r i j = dstX a.params i + (srcX a.params i - dstX a.params i) *
      xFactor a.params r j := rfl
    rw [ex]
    simp only [dstX, srcX, hw]
    exact between_lerp hF0 hF1
  · -- y
    obtain ⟨hF0, hF1⟩ := yFactor_mem hs hr1 hj'
    rw [latticeY, latticeY]
    have ex : outY a.params r j = dstY a.params j + (srcY a.params j - dstY a.params j) *
      yFactor a.params r (j / (a.params.gh - 1)) := rfl
    rw [ex]
    generalize yFactor a.params r (j / (a.params.gh - 1)) = F at hF0 hF1
    simp only [dstY, srcY, hh]
    exact between_lerp hF0 hF1

/-- **C21 (partial).** With non-degenerate parameters every vertex computed by a Step is a pair of
numbers, whatever was done before.  Missing: stretch 1, one-wide grids and equal tops, where the claim
is false. -/
theorem C21_lamp_finite_partial (p : Params) (s : Stepper)
    (ops : List (AnimOp MagicLamp.Setter)) (hk : KeepsResolution ops) (ms : ℕ) :
    let a := MagicLamp.cls.run (MagicLamp.new p s).1 ops
    Sensible a.params →
      ∃ g, (MagicLamp.cls.step a ms).1.out = .ok g ∧ g.length = p.gw * p.gh ∧
        ∀ v ∈ g, FiniteVertex v := by
  intro a hs
  obtain ⟨r, g, _, _, hr, hg, hw, hh, hv⟩ := lamp_step p s ops hk ms
  change a.params.gw = p.gw at hw
  change a.params.gh = p.gh at hh
  refine ⟨g, hg, hv.1, fun v hv' => ?_⟩
  obtain ⟨k, hk', hk2⟩ := List.mem_iff_getElem.1 hv'
  have hpos : 0 < p.gw := by
    rcases Nat.eq_zero_or_pos p.gw with h | h
    · rw [hv.1, h] at hk'; simp at hk'
    · exact h
  have hjlt : k / p.gw < p.gh := by
    rw [Nat.div_lt_iff_lt_mul hpos, mul_comm, ← hv.1]; exact hk'
  have := hv.2 (k % p.gw) (k / p.gw) (Nat.mod_lt _ hpos) hjlt
  rw [Nat.div_add_mod', List.getElem?_eq_getElem hk', hk2, Option.some_inj] at this
  rw [this, lamp_vertex hs r (by rw [hh]; exact hjlt)]
  exact ⟨trivial, trivial⟩

theorem vertex_stretch_one (p : Params) (hw : 2 ≤ p.gw) (hh : 2 ≤ p.gh) (hs : p.stretch = 1)
    (i : ℕ) : (vertex p (fin 1) i (p.gh - 1)).y = .nan := by
  have h2 := (pred_pos hh).ne'
  have e : ((p.gh - 1 : ℕ) : ℝ) = (p.gh : ℝ) - 1 := by
    rw [Nat.cast_sub (by omega)]; norm_num
  simp only [vertex, pred_eq hw, pred_eq hh, XR.fin_mul, XR.fin_add, XR.fin_sub,
    XR.fin_div _ h2, e, hs, div_self h2, mul_one, sub_self, XR.fin_div_zero]
  have h1 : XR.signed 1 = .pinf := by simp [XR.signed]
  have h3 : fin 0 * XR.pinf = XR.nan := by
    show XR.signed 0 = _
    simp [XR.signed]
  have h4 : XR.stdMin .nan (fin 1) = .nan := by simp [XR.stdMin, XR.lt]
  rw [h1, h3, h4]
  rfl

theorem vertex_one_wide (p : Params) (r : XR) (hw : p.gw = 1) (j : ℕ) :
    (vertex p r 0 j).x = .nan := by
  have h1 : fin ((0:ℕ):ℝ) * fin (p.target.br.x - p.target.tl.x) / fin (pred p.gw) = .nan := by
    have : pred p.gw = 0 := by simp [pred, hw]
    rw [this, XR.fin_mul, XR.fin_div_zero]
    simp [XR.signed]
  have h2 : fin p.target.tl.x + fin ((0:ℕ):ℝ) * fin (p.target.br.x - p.target.tl.x) / fin (pred p.gw) = .nan := by
    rw [h1]; rfl
  show fin p.target.tl.x + fin ((0:ℕ):ℝ) * fin (p.target.br.x - p.target.tl.x) / fin (pred p.gw) + _ = _
  rw [h2]; rfl

theorem vertex_equal_tops (p : Params) (r : ℝ) (hw : 2 ≤ p.gw) (hh : 2 ≤ p.gh)
    (ht : p.source.tl.y = p.target.tl.y) (i : ℕ) :
    (vertex p (fin r) i 0).x = .nan := by
  have h1 := (pred_pos hw).ne'
  have h2 := (pred_pos hh).ne'
  simp only [vertex, pred_eq hw, pred_eq hh, XR.fin_mul, XR.fin_add, XR.fin_sub, ht,
    XR.fin_div _ h2, XR.fin_div _ h1, XR.stdMin_fin, Nat.cast_zero, zero_mul, zero_div, sub_zero, add_zero,
    sub_self, XR.fin_div_zero, XR.fin_div _ (one_ne_zero : (1:ℝ) ≠ 0)]
  have h1 : XR.signed 0 = .nan := by simp [XR.signed]
  have h4 : XR.stdMin .nan (fin 1) = .nan := by simp [XR.stdMin, XR.lt]
  have h5 : fin 1 - XR.nan = .nan := rfl
  rw [h1, h5, h4]
  have h6 : ∀ x : XR, XR.nan * x = .nan := by intro x; cases x <;> rfl
  have h7 : ∀ x : XR, x * XR.nan = .nan := by intro x; cases x <;> rfl
  have h8 : ∀ x : XR, XR.nan - x = .nan := by intro x; cases x <;> rfl
  have h9 : ∀ x : XR, XR.nan / x = .nan := by intro x; cases x <;> rfl
  have h10 : sigmoid .nan p.bend p.offset = .nan := by
    simp only [sigmoid, h8, h7]; rfl
  rw [h6, h10, h8, h9, h7]
  rfl

/-- **C21 (negation).** With stretch 1, which the GObject range permits, every vertex of the last row
has a NaN height once the animation has finished: whatever the boxes and the other parameters. -/
theorem C21_stretch_one_nan (p : Params) (s : Stepper) (ops : List (AnimOp MagicLamp.Setter))
    (hk : KeepsResolution ops) (ms : ℕ) (hw : 2 ≤ p.gw) (hh : 2 ≤ p.gh) :
    let a := MagicLamp.cls.run (MagicLamp.new p s).1 ops
    a.params.stretch = 1 → (MagicLamp.cls.step a ms).1.progress = fin 1 →
      ∃ g, (MagicLamp.cls.step a ms).1.out = .ok g ∧
        ∀ i, i < p.gw → ∃ v, g[(p.gh - 1) * p.gw + i]? = some v ∧ v.y = .nan := by
  intro a hs h1
  obtain ⟨r, g, _, _, hr, hg, ew, eh, hv⟩ := lamp_step p s ops hk ms
  refine ⟨g, hg, fun i hi => ⟨_, hv.2 i (p.gh - 1) hi (by omega), ?_⟩⟩
  rw [hr, XR.fin_inj] at h1
  rw [h1]
  have := vertex_stretch_one a.params (by rw [ew]; exact hw) (by rw [eh]; exact hh) hs i
  rw [eh] at this
  exact this

/-- **C21 (negation).** A one-wide grid gives NaN to every vertex, at every Step. -/
theorem C21_one_wide_nan (p : Params) (s : Stepper) (ops : List (AnimOp MagicLamp.Setter))
    (hk : KeepsResolution ops) (ms : ℕ) (hw : p.gw = 1) :
    let a := MagicLamp.cls.run (MagicLamp.new p s).1 ops
    ∃ g, (MagicLamp.cls.step a ms).1.out = .ok g ∧ g.length = p.gh ∧
      ∀ j, j < p.gh → ∃ v, g[j]? = some v ∧ v.x = .nan := by
  intro a
  obtain ⟨r, g, _, _, _, hg, ew, _, hv⟩ := lamp_step p s ops hk ms
  refine ⟨g, hg, by rw [hv.1, hw, one_mul], fun j hj => ?_⟩
  have := hv.2 0 j (by omega) hj
  rw [hw, mul_one, add_zero] at this
  exact ⟨_, this, vertex_one_wide _ _ (by rw [ew]; exact hw) j⟩

/-- **C21 (negation).** If source and target have equal tops, the whole top row has NaN in it after every Step. -/
theorem C21_equal_tops_nan (p : Params) (s : Stepper) (ops : List (AnimOp MagicLamp.Setter))
    (hk : KeepsResolution ops) (ms : ℕ) (hw : 2 ≤ p.gw) (hh : 2 ≤ p.gh) :
    let a := MagicLamp.cls.run (MagicLamp.new p s).1 ops
    a.params.source.tl.y = a.params.target.tl.y →
      ∃ g, (MagicLamp.cls.step a ms).1.out = .ok g ∧ ∀ i, i < p.gw → ∃ v, g[i]? = some v ∧ v.x = .nan := by
  intro a ht
  obtain ⟨r, g, _, _, _, hg, ew, eh, hv⟩ := lamp_step p s ops hk ms
  refine ⟨g, hg, fun i hi => ?_⟩
  have := hv.2 i 0 hi (by omega)
  rw [zero_mul, zero_add] at this
  exact ⟨_, this, vertex_equal_tops _ _ (by rw [ew]; exact hw) (by rw [eh]; exact hh) ht i⟩

example : ∃ p : Params, 2 ≤ p.gw ∧ 2 ≤ p.gh ∧ p.stretch = 1 ∧ p.source.tl.y ≠ p.target.tl.y :=
  ⟨⟨⟨⟨0, 500⟩, ⟨400, 800⟩⟩, ⟨⟨100, 0⟩, ⟨150, 20⟩⟩, 10, 10, 10, 0.5, 1, 2.3⟩, by norm_num, by norm_num,
    rfl, by norm_num⟩

end

end Verif.Props
