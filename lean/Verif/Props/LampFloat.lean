import Verif.Lemmas.LampVertex
import Verif.Lemmas.HalfEven
import Verif.Props.Lamp

/-! # The magic lamp in single precision (C101, C102) -/

namespace Verif.Props

open XR (fin)
open Spec MagicLamp

noncomputable section

/-! ## The grid after a Step -/

section

variable (M : Machine) (ex : ℝ → ℝ)

theorem lampFloat_render {gw gh : ℕ} {p : Params} (hw : p.gw = gw) (hh : p.gh = gh) (r : XR)
    {o : Outcome Grid} (ho : ∃ g, o = .ok g ∧ g.length = gw * gh) :
    ∃ g', M.lampRender ex p r o = .ok g' ∧ HoldsGrid g' gw gh (M.lampVertex ex p r) := by
  obtain ⟨g, rfl, hg⟩ := ho
  subst hw hh
  exact Machine.fill_holds p.gw p.gh _ g hg

theorem lampFloat_new (p : Params) (s : Stepper) : LampOk p.gw p.gh (M.lampNew ex p s).1 := by
  refine ⟨rfl, rfl, ?_⟩
  obtain ⟨g', h, h'⟩ := lampFloat_render M ex (p := p) rfl rfl (s.value 0)
    (o := .ok (initializeGrid p.gw p.gh)) ⟨_, rfl, by simp [initializeGrid]⟩
  exact ⟨g', h, h'.1⟩

theorem lampFloat_run {gw gh : ℕ} (ops : List (AnimOp MagicLamp.Setter)) (hk : KeepsResolution ops)
    (a : Anim Params (Outcome Grid)) (ha : LampOk gw gh a) : LampOk gw gh ((M.lamp ex).run a ops) := by
  induction ops generalizing a with
  | nil => exact ha
  | cons o ops ih =>
    refine ih (fun gw gh h => hk gw gh (List.mem_cons_of_mem _ h)) ((M.lamp ex).exec a o) ?_
    obtain ⟨h1, h2, h3⟩ := ha
    cases o with
    | step ms =>
      obtain ⟨g', h, h'⟩ := lampFloat_render M ex h1 h2 (AnimClass.clampedProgress (a.stepper.value ms)) h3
      exact ⟨h1, h2, g', h, h'.1⟩
    | set s =>
      cases s with
      | gridResolution w h => exact absurd (List.mem_cons_self ..) (hk w h)
      | _ => exact ⟨h1, h2, h3⟩
    | setStepper s => exact ⟨h1, h2, h3⟩

/-- What a Step leaves behind, in any history that keeps the resolution. -/
theorem lampFloat_step (p : Params) (s : Stepper) (ops : List (AnimOp MagicLamp.Setter)) (hk : KeepsResolution ops) (ms : ℕ) :
    let a := (M.lamp ex).run (M.lampNew ex p s).1 ops
    ∃ (r : ℝ) (g : Grid), 0 ≤ r ∧ r ≤ 1 ∧ ((M.lamp ex).step a ms).1.progress = fin r ∧
      ((M.lamp ex).step a ms).1.out = .ok g ∧ a.params.gw = p.gw ∧ a.params.gh = p.gh ∧
      HoldsGrid g p.gw p.gh (M.lampVertex ex a.params (fin r)) := by
  intro a
  obtain ⟨h1, h2, h3⟩ := lampFloat_run M ex ops hk _ (lampFloat_new M ex p s)
  obtain ⟨r, hr, h0, h1'⟩ := clamp_inUnit (a.stepper.value ms)
  obtain ⟨g, hg, hg'⟩ := lampFloat_render M ex h1 h2 (clamp (a.stepper.value ms) (fin 0) (fin 1)) h3
  rw [hr] at hg'
  exact ⟨r, g, h0, h1', hr, hg, h1, h2, hg'⟩

end

theorem grid_ext {g g' : Grid} {gw gh : ℕ} {f : ℕ → ℕ → Vertex} (h : HoldsGrid g gw gh f) (h' : HoldsGrid g' gw gh f) : g = g' := by
  apply List.ext_getElem?
  intro k
  by_cases hk : k < gw * gh
  · have hw : 0 < gw := by
      rcases Nat.eq_zero_or_pos gw with rfl | hw
      · simp at hk
      · exact hw
    have e : k = k / gw * gw + k % gw := by rw [mul_comm]; exact (Nat.div_add_mod k gw).symm
    have hj : k / gw < gh := Nat.div_lt_of_lt_mul hk
    rw [e, h.2 _ _ (Nat.mod_lt _ hw) hj, h'.2 _ _ (Nat.mod_lt _ hw) hj]
  · rw [List.getElem?_eq_none (by rw [h.1]; omega), List.getElem?_eq_none (by rw [h'.1]; omega)]

variable (R : Rounding) (D : Rounding64) (sin sinf cosf : ℝ → ℝ) {ex : ℝ → ℝ}

local notation "MM" => Machine.ieee R D sin sinf cosf

/-- **C101.** Whatever has been done before (short of changing the resolution), a Step that ends with progress 1 leaves
every vertex within 1/256 of its place in the lattice over the target box. -/
theorem C101_ends_near_target (hex : GoodExp ex) (p : Params) (s : Stepper) (ops : List (AnimOp MagicLamp.Setter))
    (hk : KeepsResolution ops) (ms : ℕ) :
    let a := ((MM).lamp ex).run ((MM).lampNew ex p s).1 ops
    SensibleFloat a.params → (((MM).lamp ex).step a ms).1.progress = fin 1 →
      ∃ g, (((MM).lamp ex).step a ms).1.out = .ok g ∧ g.length = p.gw * p.gh ∧
        ∀ i j, i < p.gw → j < p.gh →
          ∃ v, g[j * p.gw + i]? = some v ∧ Close (1 / 256) v (latticePoint a.params.target p.gw p.gh i j) := by
  intro a hs h
  obtain ⟨r, g, h0, h1, hr, hg, hw, hh, hv⟩ := lampFloat_step (MM) ex p s ops hk ms
  change a.params.gw = p.gw at hw
  change a.params.gh = p.gh at hh
  rw [hr, XR.fin_inj] at h
  refine ⟨g, hg, hv.1, fun i j hi hj => ⟨_, hv.2 i j hi hj, ?_⟩⟩
  have hi' : i < a.params.gw := by rw [hw]; exact hi
  have hj' : j < a.params.gh := by rw [hh]; exact hj
  obtain ⟨x, y, hxy, he⟩ := Machine.lampVertex_ok (R := R) (D := D) (sin := sin) (sinf := sinf) (cosf := cosf) hex hs hi' hj' h0 h1
  obtain ⟨u, v, hu, hv', rfl, rfl⟩ := he h
  obtain ⟨x', hx, -, -, -, bx⟩ := Machine.lattice_ok (R := R) (D := D) (sin := sin) (sinf := sinf) (cosf := cosf)
    hs.target.left hs.target.right hs.gw.1 hs.gw.2 hi'
  obtain ⟨y', hy, -, -, -, by'⟩ := Machine.lattice_ok (R := R) (D := D) (sin := sin) (sinf := sinf) (cosf := cosf)
    hs.target.top hs.target.bottom hs.gh.1 hs.gh.2 hj'
  rw [hu, XR.fin_inj] at hx
  rw [hv', XR.fin_inj] at hy
  subst hx hy
  refine ⟨_, _, hxy, ?_, ?_⟩
  · rw [latticeX, ← hw]
    exact bx
  · rw [latticeY, ← hh]
    exact by'

/-- A lamp that meets every condition. -/
def deskLamp : Params := ⟨⟨⟨0, 500⟩, ⟨400, 800⟩⟩, ⟨⟨100, 0⟩, ⟨150, 20⟩⟩, 10, 10, 10, 0.5, 0.5, 2.5⟩

theorem deskLamp_sensible : SensibleFloat deskLamp := by
  have d : ∀ n : ℕ, n < 2 ^ 53 → Double n := fun n hn => ⟨n, 0, by rw [Nat.abs_cast]; exact_mod_cast hn, by norm_num, by simp⟩
  have d500 : Double 500 := by exact_mod_cast d 500 (by norm_num)
  have d400 : Double 400 := by exact_mod_cast d 400 (by norm_num)
  have d800 : Double 800 := by exact_mod_cast d 800 (by norm_num)
  have d100 : Double 100 := by exact_mod_cast d 100 (by norm_num)
  have d150 : Double 150 := by exact_mod_cast d 150 (by norm_num)
  have d20 : Double 20 := by exact_mod_cast d 20 (by norm_num)
  have half : Single 0.5 := ⟨1, -1, by norm_num, by norm_num, by norm_num⟩
  unfold deskLamp
  constructor
  case source => exact ⟨⟨double_zero, d500, d400, d800⟩, by norm_num, by norm_num [abs_le], by norm_num [abs_le], by norm_num [abs_le]⟩
  case target => exact ⟨⟨d100, double_zero, d150, d20⟩, by norm_num [abs_le], by norm_num, by norm_num [abs_le], by norm_num [abs_le]⟩
  case stretch => exact ⟨half, by norm_num, by norm_num⟩
  case tops => norm_num [abs_of_pos]
  all_goals norm_num

/-- The exponential function itself is a possible `exp`. -/
theorem goodExp_exp : GoodExp Real.exp := by
  refine ⟨fun x => (Real.exp_pos x).le, fun x _ => ?_⟩
  rw [sub_self, abs_zero]
  have := Real.exp_pos x
  positivity

theorem lampFloat_end (p : Params) :
    (((MM).lamp ex).step ((MM).lampNew ex p (linear 100)).1 100).1.progress = fin 1 := by
  have h : _ = fin (min 1 (((0 + 100 : ℕ) : ℝ) / 100)) :=
    C04_linear_progress ((MM).lamp ex) p (.ok (initializeGrid p.gw p.gh)) (by norm_num : (0:ℝ) < 100) [] 100
  refine Eq.trans h ?_
  norm_num

/-- A lamp of 100 ms reaches its end after one Step of 100 ms. -/
example : ∃ g, (((MM).lamp Real.exp).step ((MM).lampNew Real.exp deskLamp (linear 100)).1 100).1.out = .ok g ∧
    g.length = 10 * 10 ∧ ∀ i j, i < 10 → j < 10 →
      ∃ v, g[j * 10 + i]? = some v ∧ Close (1 / 256) v (latticePoint ⟨⟨100, 0⟩, ⟨150, 20⟩⟩ 10 10 i j) :=
  C101_ends_near_target R D sin sinf cosf goodExp_exp deskLamp (linear 100) [] (by intro _ _ h; cases h) 100 deskLamp_sensible
    (lampFloat_end R D sin sinf cosf _)

/-- **C101.** The finished grid does not depend on where the lamp came from, nor on its shape or on what was done to it: two
lamps with the same target and resolution end with the same numbers, without any difference from rounding. -/
theorem C101_same_end (hex : GoodExp ex) (p p' : Params) (s s' : Stepper) (ops ops' : List (AnimOp MagicLamp.Setter))
    (hk : KeepsResolution ops) (hk' : KeepsResolution ops') (ms ms' : ℕ) :
    let a := ((MM).lamp ex).run ((MM).lampNew ex p s).1 ops
    let a' := ((MM).lamp ex).run ((MM).lampNew ex p' s').1 ops'
    SensibleFloat a.params → SensibleFloat a'.params →
      a.params.target = a'.params.target → p.gw = p'.gw → p.gh = p'.gh →
      (((MM).lamp ex).step a ms).1.progress = fin 1 → (((MM).lamp ex).step a' ms').1.progress = fin 1 →
      (((MM).lamp ex).step a ms).1.out = (((MM).lamp ex).step a' ms').1.out := by
  intro a a' hs hs' ht hgw hgh h h'
  obtain ⟨r, g, h0, h1, hr, hg, hw, hh, hv⟩ := lampFloat_step (MM) ex p s ops hk ms
  obtain ⟨r', g', h0', h1', hr', hg', hw', hh', hv'⟩ := lampFloat_step (MM) ex p' s' ops' hk' ms'
  change a.params.gw = p.gw at hw
  change a.params.gh = p.gh at hh
  change a'.params.gw = p'.gw at hw'
  change a'.params.gh = p'.gh at hh'
  rw [hr, XR.fin_inj] at h
  rw [hr', XR.fin_inj] at h'
  rw [hg, hg']
  rw [← hgw, ← hgh] at hv'
  congr 1
  refine grid_ext hv (holdsGrid_congr hv' fun i j hi hj => ?_)
  obtain ⟨x, y, hxy, he⟩ := Machine.lampVertex_ok (R := R) (D := D) (sin := sin) (sinf := sinf) (cosf := cosf) hex hs
    (i := i) (j := j) (by omega) (by omega) h0 h1
  obtain ⟨x', y', hxy', he'⟩ := Machine.lampVertex_ok (R := R) (D := D) (sin := sin) (sinf := sinf) (cosf := cosf) hex hs'
    (i := i) (j := j) (by omega) (by omega) h0' h1'
  obtain ⟨u, v, hu, hv1, rfl, rfl⟩ := he h
  obtain ⟨u', v', hu', hv1', rfl, rfl⟩ := he' h'
  rw [ht, show a.params.gw = a'.params.gw by omega, hu', XR.fin_inj] at hu
  rw [ht, show a.params.gh = a'.params.gh by omega, hv1', XR.fin_inj] at hv1
  change (MM).lampVertex ex a'.params (fin r') i j = (MM).lampVertex ex a.params (fin r) i j
  rw [hxy, hxy', hu, hv1]

example : SensibleFloat deskLamp ∧
    (((MM).lamp Real.exp).step ((MM).lampNew Real.exp deskLamp (linear 100)).1 100).1.progress = fin 1 :=
  ⟨deskLamp_sensible, lampFloat_end R D sin sinf cosf _⟩

/-- **C101.** The top left corner of a finished lamp is exactly where it belongs, converted to `float`. -/
theorem C101_top_left (hex : GoodExp ex) (p : Params) (s : Stepper) (ops : List (AnimOp MagicLamp.Setter))
    (hk : KeepsResolution ops) (ms : ℕ) :
    let a := ((MM).lamp ex).run ((MM).lampNew ex p s).1 ops
    SensibleFloat a.params → (((MM).lamp ex).step a ms).1.progress = fin 1 →
      ∃ g, (((MM).lamp ex).step a ms).1.out = .ok g ∧
        g[0]? = some ⟨fin (R.rnd a.params.target.tl.x), fin (R.rnd a.params.target.tl.y)⟩ := by
  intro a hs h
  obtain ⟨r, g, h0, h1, hr, hg, hw, hh, hv⟩ := lampFloat_step (MM) ex p s ops hk ms
  change a.params.gw = p.gw at hw
  change a.params.gh = p.gh at hh
  rw [hr, XR.fin_inj] at h
  have h2 := hs.gw.1
  have h3 := hs.gh.1
  obtain ⟨x, y, hxy, he⟩ := Machine.lampVertex_ok (R := R) (D := D) (sin := sin) (sinf := sinf) (cosf := cosf) hex hs
    (i := 0) (j := 0) (by omega) (by omega) h0 h1
  obtain ⟨u, v, hu, hv1, rfl, rfl⟩ := he h
  rw [Machine.lattice_first (Machine.desk hs.target.left) (Machine.desk hs.target.right) hs.target.double.1 hs.gw.1 hs.gw.2,
    XR.fin_inj] at hu
  rw [Machine.lattice_first (Machine.desk hs.target.top) (Machine.desk hs.target.bottom) hs.target.double.2.1 hs.gh.1 hs.gh.2,
    XR.fin_inj] at hv1
  refine ⟨g, hg, ?_⟩
  have := hv.2 0 0 (by omega) (by omega)
  rw [Nat.zero_mul] at this
  rw [this, hu, hv1]
  exact congrArg some hxy

example : ∃ g, (((MM).lamp Real.exp).step ((MM).lampNew Real.exp deskLamp (linear 100)).1 100).1.out = .ok g ∧
    g[0]? = some ⟨fin (R.rnd 100), fin (R.rnd 0)⟩ :=
  C101_top_left R D sin sinf cosf goodExp_exp deskLamp (linear 100) [] (by intro _ _ h; cases h) 100 deskLamp_sensible
    (lampFloat_end R D sin sinf cosf _)

/-- **C102 (partial).** Every Step leaves only finite numbers in the grid. Missing: tops that are closer together than a
hundredth of a pixel; there the claim is false (`C102_close_tops`), and stretch 1 and one-wide grids, where it is false
even without rounding (C21). -/
theorem C102_finite_partial (hex : GoodExp ex) (p : Params) (s : Stepper) (ops : List (AnimOp MagicLamp.Setter))
    (hk : KeepsResolution ops) (ms : ℕ) :
    let a := ((MM).lamp ex).run ((MM).lampNew ex p s).1 ops
    SensibleFloat a.params →
      ∃ g, (((MM).lamp ex).step a ms).1.out = .ok g ∧ g.length = p.gw * p.gh ∧ ∀ v ∈ g, FiniteVertex v := by
  intro a hs
  obtain ⟨r, g, h0, h1, hr, hg, hw, hh, hv⟩ := lampFloat_step (MM) ex p s ops hk ms
  change a.params.gw = p.gw at hw
  change a.params.gh = p.gh at hh
  refine ⟨g, hg, hv.1, fun v hvg => ?_⟩
  obtain ⟨k, hk', e⟩ := List.mem_iff_getElem.1 hvg
  have hk2 : k < p.gw * p.gh := by rw [← hv.1]; exact hk'
  have hw0 : 0 < p.gw := by have := hs.gw.1; omega
  have ek : k = k / p.gw * p.gw + k % p.gw := by rw [mul_comm]; exact (Nat.div_add_mod k p.gw).symm
  have hj : k / p.gw < p.gh := Nat.div_lt_of_lt_mul hk2
  have hi := Nat.mod_lt k hw0
  have hv2 := hv.2 _ _ hi hj
  rw [← ek, List.getElem?_eq_getElem hk', e] at hv2
  obtain ⟨x, y, hxy, -⟩ := Machine.lampVertex_ok (R := R) (D := D) (sin := sin) (sinf := sinf) (cosf := cosf) hex hs
    (i := k % p.gw) (j := k / p.gw) (by omega) (by omega) h0 h1
  rw [hxy, Option.some_inj] at hv2
  rw [hv2]
  exact ⟨trivial, trivial⟩

example : ∃ g, (((MM).lamp Real.exp).step ((MM).lampNew Real.exp deskLamp (linear 100)).1 40).1.out = .ok g ∧
    g.length = 100 ∧ ∀ v ∈ g, FiniteVertex v :=
  C102_finite_partial R D sin sinf cosf goodExp_exp deskLamp (linear 100) [] (by intro _ _ h; cases h) 40 deskLamp_sensible

/-- **C102 (negation).** When the two tops are the same `float`, every finished lamp has NaN in its whole top row. -/
theorem C102_close_tops (p : Params) (s : Stepper) (ops : List (AnimOp MagicLamp.Setter)) (hk : KeepsResolution ops) (ms : ℕ) :
    let a := ((MM).lamp ex).run ((MM).lampNew ex p s).1 ops
    (2 ≤ a.params.gw ∧ a.params.gw ≤ 2 ^ 24) → (2 ≤ a.params.gh ∧ a.params.gh ≤ 2 ^ 24) → OnDesktop a.params.source →
      OnDesktop a.params.target → (Single a.params.stretch ∧ 0.2 ≤ a.params.stretch ∧ a.params.stretch < 1) →
      R.rnd a.params.source.tl.y = R.rnd a.params.target.tl.y →
      (((MM).lamp ex).step a ms).1.progress = fin 1 →
      ∃ g, (((MM).lamp ex).step a ms).1.out = .ok g ∧ ∀ i, i < p.gw → ∃ v, g[i]? = some v ∧ v.x = .nan := by
  intro a hgw hgh hsrc htgt hst ht h
  obtain ⟨r, g, h0, h1, hr, hg, hw, hh, hv⟩ := lampFloat_step (MM) ex p s ops hk ms
  change a.params.gw = p.gw at hw
  change a.params.gh = p.gh at hh
  rw [hr, XR.fin_inj] at h
  subst h
  refine ⟨g, hg, fun i hi => ⟨(MM).lampVertex ex a.params (fin 1) i 0, ?_, ?_⟩⟩
  · have := hv.2 i 0 hi (by have := hgh.1; omega)
    rwa [Nat.zero_mul, Nat.zero_add] at this
  · have iv : (MM).sub (fin 1) (fin 1) = fin 0 := by
      unfold Machine.sub
      rw [XR.fin_sub, sub_self, Machine.f_zero]
    obtain ⟨y, hy, -, hz⟩ := Machine.stretchedY_ok (R := R) (D := D) (sin := sin) (sinf := sinf) (cosf := cosf) hgh hsrc htgt hst
      (j := 0) (by have := hgh.1; omega) (q := 0) le_rfl zero_le_one
    obtain ⟨t, ht', hyt⟩ := hz rfl
    rw [Machine.lattice_first (Machine.desk htgt.top) (Machine.desk htgt.bottom) htgt.double.2.1 hgh.1 hgh.2, XR.fin_inj] at ht'
    have e1 : (MM).f (fin a.params.source.tl.y) = fin y := by
      rw [Machine.f_ok (hsrc.top.trans (by norm_num)), ht, hyt, ht']
    have e2 : (MM).f (fin a.params.target.tl.y) = fin y := by
      rw [Machine.f_ok (htgt.top.trans (by norm_num)), hyt, ht']
    have e3 : (MM).sub (fin y) (fin y) = fin 0 := by
      unfold Machine.sub
      rw [XR.fin_sub, sub_self, Machine.f_zero]
    have e4 : (MM).div (fin 0) (fin 0) = .nan := by
      unfold Machine.div
      rw [XR.fin_div_zero]
      unfold XR.signed
      simp
      rfl
    have e5 : XR.stdMin ((MM).sub (fin 1) .nan) (fin 1) = .nan := by
      have : (MM).sub (fin 1) .nan = .nan := rfl
      rw [this]
      unfold XR.stdMin
      simp [XR.lt]
    obtain ⟨m, hm⟩ : ∃ m, XR.stdMin ((MM).mul (fin 0) (fin a.params.deformSpeed)) (fin 1) = fin m := by
      unfold Machine.mul
      rw [XR.fin_mul, zero_mul, Machine.f_zero, XR.stdMin_fin]
      exact ⟨_, rfl⟩
    have e6 : (MM).deformation ex a.params (fin 0) (fin y) = .nan := by
      unfold Machine.deformation
      simp only
      rw [e1, e2, e3, e4, e5, hm]
      have : (MM).mul .nan (fin m) = .nan := rfl
      rw [this]
      have : (MM).sigmoid ex .nan a.params.bend a.params.offset = .nan := rfl
      rw [this]
      have nl : ∀ u, (MM).sub .nan u = .nan := fun u => by cases u <;> rfl
      rw [nl]
      generalize (MM).sub _ _ = u
      cases u <;> rfl
    unfold Machine.lampVertex
    simp only
    rw [iv, hy, e6]
    have nr : ∀ u, (MM).mulD u .nan = .nan := fun u => by cases u <;> rfl
    have na : ∀ u, (MM).addD u .nan = .nan := fun u => by cases u <;> rfl
    rw [nr, na]
    rfl

/-- **C102 (negation).** Tops that differ and are still the same `float`, with every other parameter as it should be. -/
theorem C102_close_tops_exist : ∃ source target : Box, OnDesktop source ∧ OnDesktop target ∧ source.tl.y ≠ target.tl.y ∧
    ∀ R : Rounding, R.rnd source.tl.y = R.rnd target.tl.y := by
  have dbl : ∀ m e : ℤ, |m| < 2 ^ 53 → -1074 ≤ e → Double (m * 2 ^ e) := fun m e h1 h2 => ⟨m, e, h1, h2, rfl⟩
  have d0 : Double 0 := double_zero
  have d2 : Double 2000 := by
    have := dbl 2000 0 (by norm_num) (by norm_num)
    norm_num at this
    exact this
  have d3 : Double 3000 := by
    have := dbl 3000 0 (by norm_num) (by norm_num)
    norm_num at this
    exact this
  have d4 : Double (2000 + 1 / 2 ^ 20) := by
    have := dbl (2000 * 2 ^ 20 + 1) (-20) (by norm_num) (by norm_num)
    norm_num at this ⊢
    exact this
  refine ⟨⟨⟨0, 2000 + 1 / 2 ^ 20⟩, ⟨2000, 3000⟩⟩, ⟨⟨0, 2000⟩, ⟨2000, 3000⟩⟩, ⟨⟨d0, d4, d2, d3⟩, ?_, ?_, ?_, ?_⟩,
    ⟨⟨d0, d2, d2, d3⟩, ?_, ?_, ?_, ?_⟩, ?_, fun R => ?_⟩
  any_goals norm_num [abs_le]
  have s2 : Single 2000 := by
    have := single_nat (n := 2000) (by norm_num)
    exact_mod_cast this
  rw [R.exact s2]
  have n1 := R.nearest (2000 + 1 / 2 ^ 20) 2000 s2
  have n2 : |(2000 : ℝ) - (2000 + 1 / 2 ^ 20)| = 1 / 2 ^ 20 := by
    rw [abs_of_neg (by norm_num)]
    norm_num
  rw [n2, abs_le] at n1
  norm_num at n1 ⊢
  have hs := R.single (2097152001 / 1048576)
  obtain ⟨j, hj⟩ := single_multiple hs (k := -13) (by rw [abs_of_pos (by linarith)]; norm_num; linarith)
  rw [hj] at n1 ⊢
  norm_num at n1 ⊢
  have : j = 16384000 := by
    have a : (16383999 : ℝ) < j := by linarith
    have b : (j : ℝ) < 16384001 := by linarith
    have a' : (16383999 : ℤ) < j := by exact_mod_cast a
    have b' : j < (16384001 : ℤ) := by exact_mod_cast b
    omega
  rw [this]
  norm_num

/-- Two such boxes leave a window whose top row has no place at the end. -/
example : ∃ p : Params, p.source.tl.y ≠ p.target.tl.y ∧
    ∃ g, (((MM).lamp ex).step ((MM).lampNew ex p (linear 100)).1 100).1.out = .ok g ∧
      ∀ i, i < 10 → ∃ v, g[i]? = some v ∧ v.x = .nan := by
  obtain ⟨source, target, h1, h2, h3, h4⟩ := C102_close_tops_exist
  refine ⟨⟨source, target, 10, 10, 10, 0.5, 0.5, 2.5⟩, h3, ?_⟩
  exact C102_close_tops R D sin sinf cosf ⟨source, target, 10, 10, 10, 0.5, 0.5, 2.5⟩ (linear 100) [] (by intro _ _ h; cases h) 100
    ⟨by norm_num [AnimClass.run, Machine.lampNew, AnimClass.new], by norm_num [AnimClass.run, Machine.lampNew, AnimClass.new]⟩
    ⟨by norm_num [AnimClass.run, Machine.lampNew, AnimClass.new], by norm_num [AnimClass.run, Machine.lampNew, AnimClass.new]⟩ h1 h2
    deskLamp_sensible.stretch (h4 R) (lampFloat_end R D sin sinf cosf _)

end

end Verif.Props
