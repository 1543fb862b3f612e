import Verif.Props.LampShape
import Verif.Props.Transforms
import Mathlib.Analysis.SpecialFunctions.Trigonometric.Deriv
import Mathlib.Analysis.SpecialFunctions.Exp

/-! # Animations do not jump (C81) -/

namespace Verif.Props

open XR (fin)
open Spec

noncomputable section

/-- A path in space without jumps. -/
def NoJumps (F : ℝ → Vec4) : Prop :=
  Continuous (fun r => (F r).x) ∧ Continuous (fun r => (F r).y) ∧ Continuous (fun r => (F r).z) ∧
    Continuous (fun r => (F r).w)

/-- After every step of an animation with parameters `p`, the surface point `q` is shown at the place
`F` of the progress. -/
def FollowsPath {P S : Type} (K : AnimClass P (Option Mat4) S) (p : P) (q : Pt) (F : ℝ → Vec4) : Prop :=
  ∀ (a : Anim P (Option Mat4)) (ms : ℕ), a.params = p →
    ∃ (r : ℝ) (M : Mat4), (K.step a ms).1.progress = fin r ∧ (K.step a ms).1.out = some M ∧
      transformPoint q M = F r

/-- **C81.** While the parameters stay the same, every surface point of a Bounce moves on one path that
is continuous in the progress, whatever the stepper and the history. -/
theorem C81_bounce (p : Bounce.Params) (q : Pt) :
    ∃ F, NoJumps F ∧ FollowsPath Bounce.cls p q F := by
  refine ⟨fun r => ⟨(middle p.target).x + Bounce.scaleFactor r p.initialScale p.maximumScale p.nBounce *
      (q.x - (middle p.target).x), (middle p.target).y +
      Bounce.scaleFactor r p.initialScale p.maximumScale p.nBounce * (q.y - (middle p.target).y), 0, 1⟩,
    ?_, ?_⟩
  · refine ⟨?_, ?_, ?_, ?_⟩ <;> simp only [Bounce.scaleFactor, Bounce.sampleSineWave] <;> fun_prop
  · rintro a ms rfl
    obtain ⟨r, _, _, hr, ho⟩ := bounce_step a ms
    exact ⟨r, _, hr, ho, bounce_scales _ _ _ _ _ q⟩

/-- **C81.** The same for a Zoom (whose final box has an area, as the constructor sees to). -/
theorem C81_zoom (p : Zoom.Params) (hp : HasArea p.dst) (q : Pt) :
    ∃ F, NoJumps F ∧ FollowsPath Zoom.cls p q F := by
  have hw := sub_ne_zero.2 hp.1
  have hh := sub_ne_zero.2 hp.2
  have eq : q = ⟨q.x / (p.dst.br.x - p.dst.tl.x) * (p.dst.br.x - p.dst.tl.x),
      q.y / (p.dst.br.y - p.dst.tl.y) * (p.dst.br.y - p.dst.tl.y)⟩ := by
    ext <;> simp only <;> field_simp
  refine ⟨fun r => ⟨lerp (q.x / (p.dst.br.x - p.dst.tl.x)) (lerp r p.frm.tl.x p.dst.tl.x)
        (lerp r p.frm.br.x p.dst.br.x) - p.dst.tl.x,
      lerp (q.y / (p.dst.br.y - p.dst.tl.y)) (lerp r p.frm.tl.y p.dst.tl.y)
        (lerp r p.frm.br.y p.dst.br.y) - p.dst.tl.y, 0, 1⟩, ?_, ?_⟩
  · refine ⟨?_, ?_, ?_, ?_⟩ <;> simp only [lerp] <;> fun_prop
  · rintro a ms rfl
    obtain ⟨r, _, _, hr, ho⟩ := zoom_step a ms
    obtain ⟨M, hM, k⟩ := zoom_transform (p := r) (f := a.params.frm) hp
    refine ⟨r, M, hr, ho.trans hM, ?_⟩
    exact (congrArg (transformPoint · M) eq).trans (k _ _)

example : HasArea ⟨⟨0, 0⟩, ⟨100, 50⟩⟩ := by constructor <;> norm_num

/-- **C81.** The same for a Glide. -/
theorem C81_glide (p : Glide.Params) (hp : p.screenWidth ≠ 0) (q : Pt) :
    ∃ F, NoJumps F ∧ FollowsPath Glide.cls p q F := by
  refine ⟨fun r => transformPoint q (Glide.transform r p), ?_, ?_⟩
  · refine ⟨?_, ?_, ?_, ?_⟩ <;> simp only [glide_coords] <;> fun_prop
  · rintro a ms rfl
    obtain ⟨r, _, _, hr, ho⟩ := glide_step a ms hp
    exact ⟨r, _, hr, ho, rfl⟩

theorem sig_continuous (b o : ℝ) : Continuous fun x => MagicLamp.sig x b o := by
  unfold MagicLamp.sig
  refine continuous_const.div (by fun_prop) fun x => ?_
  positivity

open MagicLamp in
/-- **C81.** The same for every place of the surface of a magic lamp with sensible parameters: the path
depends on the current parameters only, and is continuous. -/
theorem C81_lamp (p : Params) (hp : Sensible p) (uv : Pt) (hu : UnitUV uv) :
    ∃ X Y : ℝ → ℝ, Continuous X ∧ Continuous Y ∧
      ∀ (p0 : Params) (s : Stepper) (ops : List (AnimOp MagicLamp.Setter)) (ms : ℕ),
        KeepsResolution ops → (MagicLamp.cls.run (MagicLamp.new p0 s).1 ops).params = p →
        ∃ (r : ℝ) (g : Grid),
          (MagicLamp.cls.step (MagicLamp.cls.run (MagicLamp.new p0 s).1 ops) ms).1.progress = fin r ∧
          (MagicLamp.cls.step (MagicLamp.cls.run (MagicLamp.new p0 s).1 ops) ms).1.out = .ok g ∧
          interpolate uv p.gw p.gh g = .ok (.ofPt ⟨X r, Y r⟩) := by
  have hb : 0 < p.bend := by linarith [hp.bend.1]
  refine ⟨fun r => (surface p.gw p.gh (fun i j => ⟨outX p r i j, outY p r j⟩) uv).x,
    fun r => (surface p.gw p.gh (fun i j => ⟨outX p r i j, outY p r j⟩) uv).y, ?_, ?_, ?_⟩
  · have hx : ∀ j, Continuous fun r => xFactor p r j := by
      intro j
      have h2 : Continuous fun r => xProg p r j := by
        simp only [xProg, outY, yFactor]
        fun_prop
      exact (((sig_continuous p.bend p.offset).comp h2).sub continuous_const).div_const _
    simp only [surface, outX]
    fun_prop
  · simp only [surface, outY, yFactor]
    fun_prop
  · intro p0 s ops ms hk e
    obtain ⟨r, g, _, _, er, eg, ew, eh, hg⟩ := lamp_step p0 s ops hk ms
    rw [e] at ew eh hg
    rw [← ew, ← eh] at hg
    refine ⟨r, g, er, eg, C80_bilinear g p.gw p.gh _ hp.gw hp.gh ⟨hg.1, fun i j hi hj => ?_⟩ uv hu⟩
    rw [hg.2 i j hi hj, vertex_fin p r hp.gw hp.gh hj hp.stretch.2 hb hp.tops]
    rfl

example : Sensible ⟨⟨⟨0, 0⟩, ⟨100, 50⟩⟩, ⟨⟨40, 200⟩, ⟨60, 220⟩⟩, 10, 10, 10, 0.5, 0.45, 1.7⟩ := by
  constructor <;> norm_num

end

end Verif.Props
