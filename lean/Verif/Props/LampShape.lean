import Verif.Props.LampGrid
import Mathlib.Topology.Algebra.Order.LiminfLimsup
import Mathlib.Topology.Instances.Real.Lemmas
import Mathlib.Algebra.BigOperators.Fin

/-! # The surface between the vertices of the magic lamp (C80) -/

namespace Verif.Props

open XR (fin)
open Spec MagicLamp

noncomputable section

/-- The hat function: 1 at 0, falling linearly to 0 at distance 1, and 0 beyond. -/
def hat (z : ℝ) : ℝ := max 0 (1 - |z|)

theorem hat_sum (n l r : ℕ) (z : ℝ) (c : ℕ → ℝ) (hl : l < n) (h0 : 0 ≤ z - l) (h1 : z - l < 1)
    (hr : r = min (n - 1) (l + 1)) (hz : z ≤ n - 1) :
    ∑ i ∈ Finset.range n, hat (z - i) * c i = (1 - (z - l)) * c l + (z - l) * c r := by
  have far : ∀ i : ℕ, i ≠ l → i ≠ l + 1 → hat (z - i) = 0 := by
    intro i h2 h3
    rw [hat, max_eq_left]
    rcases Nat.lt_or_gt_of_ne h2 with h | h
    · have : (i : ℝ) + 1 ≤ l := by exact_mod_cast h
      rw [abs_of_nonneg (by linarith)]; linarith
    · have h4 : l + 2 ≤ i := by omega
      have : (l : ℝ) + 2 ≤ i := by exact_mod_cast h4
      rw [abs_of_nonpos (by linarith)]; linarith
  have hat_l : hat (z - l) = 1 - (z - l) := by
    rw [hat, abs_of_nonneg h0, max_eq_right (by linarith)]
  have hat_r : hat (z - (l + 1 : ℕ)) = z - l := by
    push_cast
    rw [hat, abs_of_nonpos (by linarith), max_eq_right (by linarith)]; ring
  by_cases hlast : l + 1 < n
  · have er : r = l + 1 := by omega
    subst er
    rw [← Finset.sum_subset (s₁ := {l, l + 1})]
    · rw [Finset.sum_pair (by omega), hat_l, hat_r]
    · intro i hi
      simp only [Finset.mem_insert, Finset.mem_singleton] at hi
      rw [Finset.mem_range]; omega
    · intro i _ hi
      simp only [Finset.mem_insert, Finset.mem_singleton, not_or] at hi
      rw [far i hi.1 hi.2, zero_mul]
  · have er : r = l := by omega
    have ez : z - l = 0 := by
      have : l + 1 = n := by omega
      have : (l : ℝ) + 1 = n := by exact_mod_cast this
      linarith
    rw [Finset.sum_eq_single_of_mem l (Finset.mem_range.2 hl), hat_l, ez, er]
    · ring
    · intro i hi hne
      rw [Finset.mem_range] at hi
      rw [far i hne (by omega), zero_mul]

/-- The share of the vertex in column `i`, row `j` in the point shown at `uv`: the product of two hat
functions, each one cell wide to either side. -/
def share (gw gh : ℕ) (uv : Pt) (i j : ℕ) : ℝ :=
  hat (uv.x * (gw - 1) - i) * hat (uv.y * (gh - 1) - j)

/-- The surface through the vertices `V`. -/
def surface (gw gh : ℕ) (V : ℕ → ℕ → Pt) (uv : Pt) : Pt :=
  ⟨∑ j ∈ Finset.range gh, ∑ i ∈ Finset.range gw, share gw gh uv i j * (V i j).x,
   ∑ j ∈ Finset.range gh, ∑ i ∈ Finset.range gw, share gw gh uv i j * (V i j).y⟩

theorem surface_sum {gw gh l r t b : ℕ} {uv : Pt} {x y : ℝ} (c : ℕ → ℕ → ℝ) (hl : l < gw) (ht : t < gh)
    (hx : x = uv.x * (gw - 1) - l) (hy : y = uv.y * (gh - 1) - t) (x0 : 0 ≤ x) (x1 : x < 1) (y0 : 0 ≤ y)
    (y1 : y < 1) (hr : r = min (gw - 1) (l + 1)) (hb : b = min (gh - 1) (t + 1))
    (hw : uv.x * ((gw : ℝ) - 1) ≤ gw - 1) (hh : uv.y * ((gh : ℝ) - 1) ≤ gh - 1) :
    ∑ j ∈ Finset.range gh, ∑ i ∈ Finset.range gw, share gw gh uv i j * c i j =
      (1 - x) * (1 - y) * c l t + (1 - x) * y * c l b + x * (1 - y) * c r t + x * y * c r b := by
  have inner : ∀ j, ∑ i ∈ Finset.range gw, share gw gh uv i j * c i j =
      hat (uv.y * (gh - 1) - j) * ((1 - x) * c l j + x * c r j) := by
    intro j
    rw [hx, ← hat_sum gw l r _ (fun i => c i j) hl (by rw [← hx]; exact x0) (by rw [← hx]; exact x1) hr hw,
      Finset.mul_sum]
    refine Finset.sum_congr rfl fun i _ => ?_
    rw [share]; ring
  simp only [inner]
  rw [hat_sum gh t b _ (fun j => (1 - x) * c l j + x * c r j) ht (by rw [← hy]; exact y0)
    (by rw [← hy]; exact y1) hb hh, ← hy]
  ring

/-- **C80.** Between the vertices the surface is spanned bilinearly: at `uv` in the unit square every
vertex has the share given by its two hat functions, so only the four around the place count. -/
theorem C80_bilinear (g : Grid) (gw gh : ℕ) (V : ℕ → ℕ → Pt) (hw : 2 ≤ gw) (hh : 2 ≤ gh)
    (h : HoldsGrid g gw gh fun i j => .ofPt (V i j)) (uv : Pt) (hu : UnitUV uv) :
    interpolate uv gw gh g = .ok (.ofPt (surface gw gh V uv)) := by
  obtain ⟨l, t, r, b, x, y, hl, ht, _, _, hx, hy, x0, x1, y0, y1, hr, hb, e⟩ :=
    interpolate_eq hw hh h hu
  have hp := pred_pos hw
  have hq := pred_pos hh
  obtain ⟨_, u1, _, v1⟩ := hu
  have bw : uv.x * ((gw : ℝ) - 1) ≤ gw - 1 := by nlinarith
  have bh : uv.y * ((gh : ℝ) - 1) ≤ gh - 1 := by nlinarith
  rw [e, surface, surface_sum (fun i j => (V i j).x) hl ht hx hy x0 x1 y0 y1 hr hb bw bh,
    surface_sum (fun i j => (V i j).y) hl ht hx hy x0 x1 y0 y1 hr hb bw bh]
  rfl

theorem hat_continuous : Continuous hat := by unfold hat; fun_prop

theorem surface_continuous (gw gh : ℕ) (V : ℕ → ℕ → Pt) :
    Continuous (fun p : ℝ × ℝ => (surface gw gh V ⟨p.1, p.2⟩).x) ∧
    Continuous (fun p : ℝ × ℝ => (surface gw gh V ⟨p.1, p.2⟩).y) := by
  have hh := hat_continuous
  constructor <;> simp only [surface, share] <;> fun_prop

/-- **C80.** The surface has no tears: the point shown depends continuously on the unit coordinate, also
across the borders between cells. -/
theorem C80_continuous (g : Grid) (gw gh : ℕ) (V : ℕ → ℕ → Pt) (hw : 2 ≤ gw) (hh : 2 ≤ gh)
    (h : HoldsGrid g gw gh fun i j => .ofPt (V i j)) :
    ∃ X Y : ℝ × ℝ → ℝ, Continuous X ∧ Continuous Y ∧ ∀ uv : Pt, UnitUV uv →
      interpolate uv gw gh g = .ok (.ofPt ⟨X (uv.x, uv.y), Y (uv.x, uv.y)⟩) :=
  ⟨_, _, (surface_continuous gw gh V).1, (surface_continuous gw gh V).2,
    fun uv hu => C80_bilinear g gw gh V hw hh h uv hu⟩

example : ∃ V : ℕ → ℕ → Pt, HoldsGrid [.ofPt ⟨0, 0⟩, .ofPt ⟨10, 1⟩, .ofPt ⟨2, 7⟩, .ofPt ⟨12, 9⟩] 2 2
    (fun i j => .ofPt (V i j)) ∧ UnitUV ⟨0.3, 0.9⟩ :=
  ⟨_, grid22, by refine ⟨?_, ?_, ?_, ?_⟩ <;> norm_num⟩

end

end Verif.Props
