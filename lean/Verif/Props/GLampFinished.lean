import Verif.Props.GFinished
import Verif.Props.GLampOnTime
import Verif.Props.LampFloat

/-! # An AnimationMagicLampAnimation that is over is in place (C152) -/

namespace Verif.Props

open XR (fin)
open Spec GObj

noncomputable section

variable (R : Rounding) (D : Rounding64) (sin sinf cosf : ℝ → ℝ) {ex : ℝ → ℝ}

local notation "MM" => Machine.ieee R D sin sinf cosf

/-- The factors stay in range. -/
theorem glamp_factors (M : Machine) (ex : ℝ → ℝ) (ops : List (GOp LampFn)) (h : ∀ op ∈ ops, LeavesStepper op)
    (hf : ∀ op ∈ ops, FactorInRange op) : ∀ a : Anim MagicLamp.Params (Outcome MagicLamp.Grid),
    ((1 ≤ a.params.bend ∧ a.params.bend ≤ 20) ∧ (0.1 ≤ a.params.offset ∧ a.params.offset ≤ 1) ∧
      (1 ≤ a.params.deformSpeed ∧ a.params.deformSpeed ≤ 4)) →
    let q := ((M.lamp ex).run a (animCalls lampProperty LampFn.native ops)).params
    (1 ≤ q.bend ∧ q.bend ≤ 20) ∧ (0.1 ≤ q.offset ∧ q.offset ≤ 1) ∧ (1 ≤ q.deformSpeed ∧ q.deformSpeed ≤ 4) := by
  induction ops with
  | nil => exact fun a h => h
  | cons op ops ih =>
    intro a ha
    have i := ih (fun o ho => h o (List.mem_cons_of_mem _ ho)) fun o ho => hf o (List.mem_cons_of_mem _ ho)
    have h0 := h op List.mem_cons_self
    have f0 := hf op List.mem_cons_self
    obtain ⟨b1, b2, b3⟩ := ha
    cases op with
    | step ms => exact i _ ⟨b1, b2, b3⟩
    | call s =>
      cases s with
      | source b => exact i _ ⟨b1, b2, b3⟩
      | bend v => exact i _ ⟨f0, b2, b3⟩
      | offset v => exact i _ ⟨b1, f0, b3⟩
      | stretch v => exact i _ ⟨b1, b2, b3⟩
      | deformSpeed v => exact i _ ⟨b1, b2, f0⟩
    | callSetStepper s => exact absurd h0 (by simp [LeavesStepper])
    | setProperty n v =>
      have hn : n ≠ "stepper" := h0
      have e : (M.lamp ex).run a (animCalls lampProperty LampFn.native (.setProperty n v :: ops)) =
          (M.lamp ex).run ((M.lamp ex).run a (lampProperty n v).toList) (animCalls lampProperty LampFn.native ops) := by
        rw [← run_append]
        rfl
      rw [e]
      refine i _ ?_
      unfold lampProperty within
      split
      · exact ⟨b1, b2, b3⟩
      · split_ifs with hr
        · exact ⟨hr, b2, b3⟩
        · exact ⟨b1, b2, b3⟩
      · split_ifs with hr
        · exact ⟨b1, ⟨by norm_num; exact hr.1, hr.2⟩, b3⟩
        · exact ⟨b1, b2, b3⟩
      · split_ifs with hr
        · exact ⟨b1, b2, hr⟩
        · exact ⟨b1, b2, b3⟩
      · exact absurd rfl hn
      · exact ⟨b1, b2, b3⟩

/-- Stepping a lamp whose time is over, from the state the native constructor makes. -/
theorem glamp_over (hex : GoodExp ex) {L : ℝ} (hL : 0 < L) (p0 : MagicLamp.Params) (ops : List (GOp LampFn))
    (hk : ∀ op ∈ ops, LeavesStepper op) (m : ℕ) (ho : Over L ops m) (hfac : ∀ op ∈ ops, FactorInRange op)
    (h0 : (1 ≤ p0.bend ∧ p0.bend ≤ 20) ∧ (0.1 ≤ p0.offset ∧ p0.offset ≤ 1) ∧ (1 ≤ p0.deformSpeed ∧ p0.deformSpeed ≤ 4))
    (hgw : 2 ≤ p0.gw ∧ p0.gw ≤ 2 ^ 24) (hgh : 2 ≤ p0.gh ∧ p0.gh ≤ 2 ^ 24)
    (hsrc : OnDesktop (gLampSource p0.source ops)) (htgt : OnDesktop p0.target)
    (hst : Single (gLampStretch p0.stretch ops) ∧ 0.2 ≤ gLampStretch p0.stretch ops ∧ gLampStretch p0.stretch ops < 1)
    (htop : 0.01 ≤ |(gLampSource p0.source ops).tl.y - p0.target.tl.y|) :
    ∃ a g, (Float.lamp R (MM) ex).run ((MM).lampNew ex p0 (linear32 R L)).1 (ops ++ [.step m]) = .ok a ∧ a.progress = fin 1 ∧
      a.out = .ok g ∧ g.length = p0.gw * p0.gh ∧ ∀ i j, i < p0.gw → j < p0.gh →
        ∃ v, g[j * p0.gw + i]? = some v ∧ Close (1 / 256) v (latticePoint p0.target p0.gw p0.gh i j) := by
  obtain ⟨q1, q2, q3, q4, q5⟩ := gcalls lampProperty LampFn.native lampProperty_set ops hk
  obtain ⟨r1, r2⟩ := glamp_params (MM) ex ops hk
  have hf := glamp_factors (MM) ex ops hk hfac ((MM).lampNew ex p0 (linear32 R L)).1 h0
  obtain ⟨k1, k2, k3, k4, k5⟩ := r2 ((MM).lampNew ex p0 (linear32 R L)).1
  have hpr : (((MM).lamp ex).step (((MM).lamp ex).run ((MM).lampNew ex p0 (linear32 R L)).1
      (animCalls lampProperty LampFn.native ops)) m).1.progress = fin 1 :=
    over_progress R ((MM).lamp ex) p0 _ hL _ q2 m ops ho q3 q4 q5
  change _ = gLampSource p0.source ops at k1
  change _ = gLampStretch p0.stretch ops at k2
  change _ = p0.target at k3
  change _ = p0.gw at k4
  change _ = p0.gh at k5
  obtain ⟨g, eg, el, hv⟩ := C101_ends_near_target R D sin sinf cosf hex p0 (linear32 R L) _ r1 m
    ⟨by rw [k4]; exact hgw, by rw [k5]; exact hgh, by rw [k1]; exact hsrc, by rw [k3]; exact htgt, hf.1, hf.2.1,
      by rw [k2]; exact hst, hf.2.2, by rw [k1, k3]; exact htop⟩ hpr
  refine ⟨_, g, run_native (Float.lamp R (MM) ex) lampProperty LampFn.native rfl (glamp_set R (MM) ex) _ _ (never_null q1 m),
    ?_, ?_, el, ?_⟩
  · rw [animCalls_step, show (Float.lamp R (MM) ex).native = (MM).lamp ex from rfl, run_append]
    exact hpr
  · rw [animCalls_step, show (Float.lamp R (MM) ex).native = (MM).lamp ex from rfl, run_append]
    exact eg
  · intro i j hi hj
    obtain ⟨v, e, h⟩ := hv i j hi hj
    rw [k3] at h
    exact ⟨v, e, h⟩

/-- **C152.** An AnimationMagicLampAnimation made with `g_object_new` and all its properties, with a linear stepper, stepped
once more when its time is over: the progress is 1 and every vertex is within 1/256 of its place in the lattice over the
target box. -/
theorem C152_lamp (hex : GoodExp ex) {L : ℝ} (hL : 0 < L) (f0 t0 : Option Box) (r0 : Option Pt) (be o st ds : ℝ)
    (s : Option Stepper) (hs : s.getD (linear32 R 300) = linear32 R L) (ops : List (GOp LampFn))
    (hk : ∀ op ∈ ops, LeavesStepper op) (m : ℕ) (ho : Over L ops m) (hfac : ∀ op ∈ ops, FactorInRange op)
    (h0 : (1 ≤ be ∧ be ≤ 20) ∧ (0.1 ≤ o ∧ o ≤ 1) ∧ (1 ≤ ds ∧ ds ≤ 4)) (gw gh : ℕ)
    (hr : 0 ≤ (r0.getD ⟨10, 10⟩).x ∧ 0 ≤ (r0.getD ⟨10, 10⟩).y) (ew : gw = ⌊(r0.getD ⟨10, 10⟩).x⌋₊)
    (eh : gh = ⌊(r0.getD ⟨10, 10⟩).y⌋₊) (hgw : 2 ≤ gw ∧ gw ≤ 2 ^ 24) (hgh : 2 ≤ gh ∧ gh ≤ 2 ^ 24)
    (hsrc : OnDesktop (gLampSource (boxOr f0) ops)) (htgt : OnDesktop (boxOr t0))
    (hst : Single (gLampStretch st ops) ∧ 0.2 ≤ gLampStretch st ops ∧ gLampStretch st ops < 1)
    (htop : 0.01 ≤ |(gLampSource (boxOr f0) ops).tl.y - (boxOr t0).tl.y|) :
    ∃ a0 a g, (Float.lamp R (MM) ex).objectNew [("source", .box f0), ("target", .box t0), ("resolution", .vector r0),
        ("bend-factor", .float be), ("offset-factor", .float o), ("stretch-factor", .float st),
        ("deform-speed-factor", .float ds), ("stepper", .stepper s)] = .ok a0 ∧
      (Float.lamp R (MM) ex).run a0 (ops ++ [.step m]) = .ok a ∧ a.progress = fin 1 ∧ a.out = .ok g ∧ g.length = gw * gh ∧
      ∀ i j, i < gw → j < gh → ∃ v, g[j * gw + i]? = some v ∧ Close (1 / 256) v (latticePoint (boxOr t0) gw gh i j) := by
  subst ew eh
  obtain ⟨a, g, h⟩ := glamp_over R D sin sinf cosf hex hL ⟨boxOr f0, boxOr t0, ⌊(r0.getD ⟨10, 10⟩).x⌋₊,
    ⌊(r0.getD ⟨10, 10⟩).y⌋₊, be, o, st, ds⟩ ops hk m ho hfac h0 hgw hgh hsrc htgt hst htop
  refine ⟨_, a, g, glamp_given R (MM) ex f0 t0 r0 be o st ds s hr (by rw [hs]; exact linear_after R hL), ?_⟩
  rw [hs]
  exact h

/-- **C152.** The same for one made with `animation_magiclamp_new`, whose factors do not matter (C62). -/
theorem C152_lamp_new (hex : GoodExp ex) {L : ℝ} (hL : 0 < L) (f0 t0 : Option Box) (r0 : Option Pt) (be o st ds : ℝ)
    (s : Option Stepper) (hs : s.getD (linear32 R 300) = linear32 R L) (ops : List (GOp LampFn))
    (hk : ∀ op ∈ ops, LeavesStepper op) (m : ℕ) (ho : Over L ops m) (hfac : ∀ op ∈ ops, FactorInRange op) (gw gh : ℕ)
    (hr : 0 ≤ (r0.getD ⟨10, 10⟩).x ∧ 0 ≤ (r0.getD ⟨10, 10⟩).y) (ew : gw = ⌊(r0.getD ⟨10, 10⟩).x⌋₊)
    (eh : gh = ⌊(r0.getD ⟨10, 10⟩).y⌋₊) (hgw : 2 ≤ gw ∧ gw ≤ 2 ^ 24) (hgh : 2 ≤ gh ∧ gh ≤ 2 ^ 24)
    (hsrc : OnDesktop (gLampSource (boxOr f0) ops)) (htgt : OnDesktop (boxOr t0))
    (hst : Single (gLampStretch (R.rnd (45 / 100)) ops) ∧ 0.2 ≤ gLampStretch (R.rnd (45 / 100)) ops ∧
      gLampStretch (R.rnd (45 / 100)) ops < 1)
    (htop : 0.01 ≤ |(gLampSource (boxOr f0) ops).tl.y - (boxOr t0).tl.y|) :
    ∃ a0 a g, Float.lampNew R (MM) ex f0 t0 r0 be o st ds s = .ok a0 ∧
      (Float.lamp R (MM) ex).run a0 (ops ++ [.step m]) = .ok a ∧ a.progress = fin 1 ∧ a.out = .ok g ∧ g.length = gw * gh ∧
      ∀ i j, i < gw → j < gh → ∃ v, g[j * gw + i]? = some v ∧ Close (1 / 256) v (latticePoint (boxOr t0) gw gh i j) := by
  subst ew eh
  have hds := abs_le.1 (R.nearest (23 / 10) 2 ⟨1, 1, by norm_num, by norm_num, by norm_num⟩)
  norm_num [abs_of_nonneg, abs_of_nonpos] at hds
  obtain ⟨a, g, h⟩ := glamp_over R D sin sinf cosf hex hL ⟨boxOr f0, boxOr t0, ⌊(r0.getD ⟨10, 10⟩).x⌋₊,
    ⌊(r0.getD ⟨10, 10⟩).y⌋₊, 10, 5 / 10, R.rnd (45 / 100), R.rnd (23 / 10)⟩ ops hk m ho hfac
    ⟨by norm_num, by norm_num, by constructor <;> linarith [hds.1, hds.2]⟩ hgw hgh hsrc htgt hst htop
  refine ⟨_, a, g, glampNew_eq R (MM) ex f0 t0 r0 be o st ds s hr (by rw [hs]; exact linear_after R hL), ?_⟩
  rw [hs]
  exact h

/-- The lamp of `deskLamp` after 20 frames of 16 ms. The bend is set out of its range by the property, to no effect. -/
example : ∃ a0 a g, Float.lampNew R (MM) Real.exp (some deskLamp.source) (some deskLamp.target) none 3 1 1 1 none = .ok a0 ∧
    (Float.lamp R (MM) Real.exp).run a0 (.setProperty "bend-factor" (.float 50) :: .call (.stretch 0.5) ::
      List.replicate 19 (.step 16) ++ [.step 16]) = .ok a ∧ a.progress = fin 1 ∧ a.out = .ok g ∧ g.length = 100 ∧
    ∀ i j, i < 10 → j < 10 →
      ∃ v, g[j * 10 + i]? = some v ∧ Close (1 / 256) v (latticePoint ⟨⟨100, 0⟩, ⟨150, 20⟩⟩ 10 10 i j) :=
  C152_lamp_new R D sin sinf cosf goodExp_exp (L := 300) (by norm_num) (some deskLamp.source) (some deskLamp.target) none 3 1 1 1
    none rfl (.setProperty "bend-factor" (.float 50) :: .call (.stretch 0.5) :: List.replicate 19 (.step 16))
    (by simp [LeavesStepper]) 16
    ⟨by norm_num [gElapsed, List.replicate], by norm_num [gFrames, List.replicate], by intro k h; simp at h; omega⟩
    (by simp [FactorInRange]) 10 10 (by norm_num) (by norm_num) (by norm_num) (by norm_num) (by norm_num)
    deskLamp_sensible.source deskLamp_sensible.target deskLamp_sensible.stretch deskLamp_sensible.tops

end

end Verif.Props
