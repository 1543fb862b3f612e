import Verif.Lemmas.LampOneWay
import Verif.Props.LampFloat

/-! # The magic lamp in single precision moves one way only (C121) -/

namespace Verif.Props

open XR (fin)
open Spec MagicLamp

noncomputable section

variable (R : Rounding) (D : Rounding64) (sin sinf cosf : ℝ → ℝ) (ex : ℝ → ℝ)

local notation "MM" => Machine.ieee R D sin sinf cosf

theorem between_of {x1 x2 x3 δ : ℝ} (h21 : 0 ≤ δ → x2 ≤ x1) (h21' : δ ≤ 0 → x1 ≤ x2) (h32 : 0 ≤ δ → x3 ≤ x2)
    (h32' : δ ≤ 0 → x2 ≤ x3) : Between x2 x1 x3 := by
  rcases le_total 0 δ with h | h
  · exact ⟨(min_le_right _ _).trans (h32 h), (h21 h).trans (le_max_left _ _)⟩
  · exact ⟨(min_le_left _ _).trans (h21' h), (h32' h).trans (le_max_right _ _)⟩

/-- **C121.** The height of a vertex changes in one direction only, as computed and without any tolerance: of three Steps
with the same settings the one in the middle of the animation shows it at a height between the other two. This holds
wherever the boxes are, and for every `exp`. -/
theorem C121_heights (p : Params) (s₁ s₂ s₃ : Stepper) (ops₁ ops₂ ops₃ : List (AnimOp MagicLamp.Setter))
    (hk₁ : KeepsResolution ops₁) (hk₂ : KeepsResolution ops₂) (hk₃ : KeepsResolution ops₃) (ms₁ ms₂ ms₃ : ℕ) (r₁ r₂ r₃ : ℝ)
    (h12 : r₁ ≤ r₂) (h23 : r₂ ≤ r₃) :
    let a₁ := ((MM).lamp ex).run ((MM).lampNew ex p s₁).1 ops₁
    let a₂ := ((MM).lamp ex).run ((MM).lampNew ex p s₂).1 ops₂
    let a₃ := ((MM).lamp ex).run ((MM).lampNew ex p s₃).1 ops₃
    a₁.params = a₂.params → a₃.params = a₂.params →
    (2 ≤ p.gh ∧ p.gh ≤ 2 ^ 24) → OnDesktop a₂.params.source → OnDesktop a₂.params.target →
    (Single a₂.params.stretch ∧ 0.2 ≤ a₂.params.stretch ∧ a₂.params.stretch < 1) →
    (((MM).lamp ex).step a₁ ms₁).1.progress = fin r₁ → (((MM).lamp ex).step a₂ ms₂).1.progress = fin r₂ →
    (((MM).lamp ex).step a₃ ms₃).1.progress = fin r₃ →
    ∃ g₁ g₂ g₃, (((MM).lamp ex).step a₁ ms₁).1.out = .ok g₁ ∧ (((MM).lamp ex).step a₂ ms₂).1.out = .ok g₂ ∧
      (((MM).lamp ex).step a₃ ms₃).1.out = .ok g₃ ∧
      ∀ i j, i < p.gw → j < p.gh → ∃ v₁ v₂ v₃ y₁ y₂ y₃, g₁[j * p.gw + i]? = some v₁ ∧ g₂[j * p.gw + i]? = some v₂ ∧
        g₃[j * p.gw + i]? = some v₃ ∧ v₁.y = fin y₁ ∧ v₂.y = fin y₂ ∧ v₃.y = fin y₃ ∧ Between y₂ y₁ y₃ := by
  intro a₁ a₂ a₃ e1 e3 hgh hsrc htgt hst hr₁ hr₂ hr₃
  obtain ⟨r, g₁, h0, h1, hr, hg₁, -, -, hv₁⟩ := lampFloat_step (MM) ex p s₁ ops₁ hk₁ ms₁
  rw [hr₁, XR.fin_inj] at hr
  subst hr
  obtain ⟨r, g₂, -, -, hr, hg₂, -, hh, hv₂⟩ := lampFloat_step (MM) ex p s₂ ops₂ hk₂ ms₂
  rw [hr₂, XR.fin_inj] at hr
  subst hr
  obtain ⟨r, g₃, k0, k1, hr, hg₃, -, -, hv₃⟩ := lampFloat_step (MM) ex p s₃ ops₃ hk₃ ms₃
  rw [hr₃, XR.fin_inj] at hr
  subst hr
  change HoldsGrid g₁ p.gw p.gh ((MM).lampVertex ex a₁.params (fin r₁)) at hv₁
  change HoldsGrid g₂ p.gw p.gh ((MM).lampVertex ex a₂.params (fin r₂)) at hv₂
  change HoldsGrid g₃ p.gw p.gh ((MM).lampVertex ex a₃.params (fin r₃)) at hv₃
  change a₂.params.gh = p.gh at hh
  rw [e1] at hv₁
  rw [e3] at hv₃
  refine ⟨g₁, g₂, g₃, hg₁, hg₂, hg₃, fun i j hi hj => ?_⟩
  obtain ⟨q1, p1, p1'⟩ := Machine.inv_eq (R := R) (D := D) (sin := sin) (sinf := sinf) (cosf := cosf) h0 h1
  obtain ⟨q2, p2, p2'⟩ := Machine.inv_eq (R := R) (D := D) (sin := sin) (sinf := sinf) (cosf := cosf) (h0.trans h12) (h23.trans k1)
  obtain ⟨q3, p3, p3'⟩ := Machine.inv_eq (R := R) (D := D) (sin := sin) (sinf := sinf) (cosf := cosf) k0 k1
  obtain ⟨_, _, δ, -, -, -, hyy⟩ := Machine.stretchedY_mono (R := R) (D := D) (sin := sin) (sinf := sinf) (cosf := cosf)
    (p := a₂.params) (by rw [hh]; exact hgh) hsrc htgt hst (j := j) (by rw [hh]; exact hj)
  obtain ⟨y₂, y₁, hy₂, hy₁, -, -, u, d⟩ := hyy _ _ p2 (R.mono (by linarith : 1 - r₂ ≤ 1 - r₁)) p1'
  obtain ⟨y₃, z₂, hy₃, hz₂, -, -, u', d'⟩ := hyy _ _ p3 (R.mono (by linarith : 1 - r₃ ≤ 1 - r₂)) p2'
  rw [hy₂, XR.fin_inj] at hz₂
  subst hz₂
  refine ⟨_, _, _, y₁, y₂, y₃, hv₁.2 i j hi hj, hv₂.2 i j hi hj, hv₃.2 i j hi hj, ?_, ?_, ?_, between_of (δ := δ) (fun h => (u h).2) d
    (fun h => (u' h).2) d'⟩
  · unfold Machine.lampVertex
    simp only
    rw [q1]
    exact hy₁
  · unfold Machine.lampVertex
    simp only
    rw [q2]
    exact hy₂
  · unfold Machine.lampVertex
    simp only
    rw [q3]
    exact hy₃

/-- **C121.** If the target is clearly above the source, no vertex ever sinks, nor does it ever move back sideways: of three
Steps with the same settings the one in the middle shows it at a place between the other two on both axes. As computed,
without any tolerance, if `exp` never decreases. -/
theorem C121_one_way (hex : GoodExp ex) (hm : Monotone ex) (p : Params) (s₁ s₂ s₃ : Stepper)
    (ops₁ ops₂ ops₃ : List (AnimOp MagicLamp.Setter)) (hk₁ : KeepsResolution ops₁) (hk₂ : KeepsResolution ops₂)
    (hk₃ : KeepsResolution ops₃) (ms₁ ms₂ ms₃ : ℕ) (r₁ r₂ r₃ : ℝ) (h12 : r₁ ≤ r₂) (h23 : r₂ ≤ r₃) :
    let a₁ := ((MM).lamp ex).run ((MM).lampNew ex p s₁).1 ops₁
    let a₂ := ((MM).lamp ex).run ((MM).lampNew ex p s₂).1 ops₂
    let a₃ := ((MM).lamp ex).run ((MM).lampNew ex p s₃).1 ops₃
    a₁.params = a₂.params → a₃.params = a₂.params → SensibleFloat a₂.params → ClearlyUp a₂.params →
    (((MM).lamp ex).step a₁ ms₁).1.progress = fin r₁ → (((MM).lamp ex).step a₂ ms₂).1.progress = fin r₂ →
    (((MM).lamp ex).step a₃ ms₃).1.progress = fin r₃ →
    ∃ g₁ g₂ g₃, (((MM).lamp ex).step a₁ ms₁).1.out = .ok g₁ ∧ (((MM).lamp ex).step a₂ ms₂).1.out = .ok g₂ ∧
      (((MM).lamp ex).step a₃ ms₃).1.out = .ok g₃ ∧
      ∀ i j, i < p.gw → j < p.gh → ∃ x₁ y₁ x₂ y₂ x₃ y₃ : ℝ, g₁[j * p.gw + i]? = some ⟨fin x₁, fin y₁⟩ ∧
        g₂[j * p.gw + i]? = some ⟨fin x₂, fin y₂⟩ ∧ g₃[j * p.gw + i]? = some ⟨fin x₃, fin y₃⟩ ∧
        y₃ ≤ y₂ ∧ y₂ ≤ y₁ ∧ Between x₂ x₁ x₃ := by
  intro a₁ a₂ a₃ e1 e3 hs hup hr₁ hr₂ hr₃
  obtain ⟨r, g₁, h0, h1, hr, hg₁, -, -, hv₁⟩ := lampFloat_step (MM) ex p s₁ ops₁ hk₁ ms₁
  rw [hr₁, XR.fin_inj] at hr
  subst hr
  obtain ⟨r, g₂, -, -, hr, hg₂, hw, hh, hv₂⟩ := lampFloat_step (MM) ex p s₂ ops₂ hk₂ ms₂
  rw [hr₂, XR.fin_inj] at hr
  subst hr
  obtain ⟨r, g₃, k0, k1, hr, hg₃, -, -, hv₃⟩ := lampFloat_step (MM) ex p s₃ ops₃ hk₃ ms₃
  rw [hr₃, XR.fin_inj] at hr
  subst hr
  change HoldsGrid g₁ p.gw p.gh ((MM).lampVertex ex a₁.params (fin r₁)) at hv₁
  change HoldsGrid g₂ p.gw p.gh ((MM).lampVertex ex a₂.params (fin r₂)) at hv₂
  change HoldsGrid g₃ p.gw p.gh ((MM).lampVertex ex a₃.params (fin r₃)) at hv₃
  change a₂.params.gh = p.gh at hh
  change a₂.params.gw = p.gw at hw
  rw [e1] at hv₁
  rw [e3] at hv₃
  refine ⟨g₁, g₂, g₃, hg₁, hg₂, hg₃, fun i j hi hj => ?_⟩
  have m0 := h0.trans h12
  have m1 := h23.trans k1
  obtain ⟨q1, p1, p1'⟩ := Machine.inv_eq (R := R) (D := D) (sin := sin) (sinf := sinf) (cosf := cosf) h0 h1
  obtain ⟨q2, p2, p2'⟩ := Machine.inv_eq (R := R) (D := D) (sin := sin) (sinf := sinf) (cosf := cosf) m0 m1
  obtain ⟨q3, p3, p3'⟩ := Machine.inv_eq (R := R) (D := D) (sin := sin) (sinf := sinf) (cosf := cosf) k0 k1
  obtain ⟨δ, hδ⟩ := Machine.lampVertex_mono (R := R) (D := D) (sin := sin) (sinf := sinf) (cosf := cosf) hex hm hs hup (i := i) (j := j)
    (by rw [hw]; exact hi) (by rw [hh]; exact hj)
  obtain ⟨x₂, y₂, x₁, y₁, hA, hB, yy, u, d⟩ := hδ _ _ p2 (R.mono (by linarith : 1 - r₂ ≤ 1 - r₁)) p1' _ _ q2 q1 m0 m1 h0 h1
  obtain ⟨x₃, y₃, z, w, hC, hE, yy', u', d'⟩ := hδ _ _ p3 (R.mono (by linarith : 1 - r₃ ≤ 1 - r₂)) p2' _ _ q3 q2 k0 k1 m0 m1
  rw [hA, Vertex.mk.injEq, XR.fin_inj, XR.fin_inj] at hE
  obtain ⟨rfl, rfl⟩ := hE
  refine ⟨x₁, y₁, x₂, y₂, x₃, y₃, ?_, ?_, ?_, yy', yy, between_of u d u' d'⟩
  · rw [hv₁.2 i j hi hj, hB]
  · rw [hv₂.2 i j hi hj, hA]
  · rw [hv₃.2 i j hi hj, hC]

theorem lampFloat_at (p : Params) {ms : ℕ} (h : ms ≤ 100) :
    (((MM).lamp ex).step ((MM).lampNew ex p (linear 100)).1 ms).1.progress = fin (ms / 100) := by
  have h' : _ = fin (min 1 (((0 + ms : ℕ) : ℝ) / 100)) :=
    C04_linear_progress ((MM).lamp ex) p (.ok (initializeGrid p.gw p.gh)) (by norm_num : (0:ℝ) < 100) [] ms
  refine Eq.trans h' ?_
  rw [zero_add, min_eq_right]
  rw [div_le_one (by norm_num)]
  exact_mod_cast h

theorem deskLamp_up : ClearlyUp deskLamp := by
  constructor <;> norm_num [deskLamp, Upright]

/-- A lamp of 100 ms after 20, 50 and 80 ms. -/
example : ∃ g₁ g₂ g₃, (((MM).lamp Real.exp).step ((MM).lampNew Real.exp deskLamp (linear 100)).1 20).1.out = .ok g₁ ∧
    (((MM).lamp Real.exp).step ((MM).lampNew Real.exp deskLamp (linear 100)).1 50).1.out = .ok g₂ ∧
    (((MM).lamp Real.exp).step ((MM).lampNew Real.exp deskLamp (linear 100)).1 80).1.out = .ok g₃ ∧
    ∀ i j, i < 10 → j < 10 → ∃ x₁ y₁ x₂ y₂ x₃ y₃ : ℝ, g₁[j * 10 + i]? = some ⟨fin x₁, fin y₁⟩ ∧
      g₂[j * 10 + i]? = some ⟨fin x₂, fin y₂⟩ ∧ g₃[j * 10 + i]? = some ⟨fin x₃, fin y₃⟩ ∧
      y₃ ≤ y₂ ∧ y₂ ≤ y₁ ∧ Between x₂ x₁ x₃ :=
  have hk : KeepsResolution [] := by intro _ _ h; cases h
  C121_one_way R D sin sinf cosf Real.exp goodExp_exp Real.exp_monotone deskLamp (linear 100) (linear 100) (linear 100) [] [] []
    hk hk hk 20 50 80 _ _ _ (by norm_num) (by norm_num) rfl rfl deskLamp_sensible deskLamp_up
    (lampFloat_at R D sin sinf cosf _ _ (by norm_num)) (lampFloat_at R D sin sinf cosf _ _ (by norm_num))
    (lampFloat_at R D sin sinf cosf _ _ (by norm_num))

/-- The same lamp, its heights alone. -/
example : ∃ g₁ g₂ g₃, (((MM).lamp ex).step ((MM).lampNew ex deskLamp (linear 100)).1 20).1.out = .ok g₁ ∧
    (((MM).lamp ex).step ((MM).lampNew ex deskLamp (linear 100)).1 50).1.out = .ok g₂ ∧
    (((MM).lamp ex).step ((MM).lampNew ex deskLamp (linear 100)).1 80).1.out = .ok g₃ ∧
    ∀ i j, i < 10 → j < 10 → ∃ v₁ v₂ v₃ y₁ y₂ y₃, g₁[j * 10 + i]? = some v₁ ∧ g₂[j * 10 + i]? = some v₂ ∧
      g₃[j * 10 + i]? = some v₃ ∧ v₁.y = fin y₁ ∧ v₂.y = fin y₂ ∧ v₃.y = fin y₃ ∧ Between y₂ y₁ y₃ :=
  have hk : KeepsResolution [] := by intro _ _ h; cases h
  C121_heights R D sin sinf cosf ex deskLamp (linear 100) (linear 100) (linear 100) [] [] []
    hk hk hk 20 50 80 _ _ _ (by norm_num) (by norm_num) rfl rfl deskLamp_sensible.gh deskLamp_sensible.source deskLamp_sensible.target
    deskLamp_sensible.stretch (lampFloat_at R D sin sinf cosf _ _ (by norm_num)) (lampFloat_at R D sin sinf cosf _ _ (by norm_num))
    (lampFloat_at R D sin sinf cosf _ _ (by norm_num))

end

end Verif.Props
