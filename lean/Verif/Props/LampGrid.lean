import Verif.Props.Lamp

/-! # Reading the magic lamp grid (C22-C25), and C17 for the lamp -/

namespace Verif.Props

open XR (fin)
open Spec MagicLamp

noncomputable section

/-- `uv` is in the unit square. -/
def UnitUV (uv : Pt) : Prop := 0 ≤ uv.x ∧ uv.x ≤ 1 ∧ 0 ≤ uv.y ∧ uv.y ≤ 1

theorem floor_cell {n : ℕ} (hn : 2 ≤ n) {u : ℝ} (h0 : 0 ≤ u) (h1 : u ≤ 1) :
    ∃ k : ℕ, toSize (u * pred n) = .ok k ∧ k < n ∧ 0 ≤ u * (n - 1) - k ∧ u * (n - 1) - k < 1 ∧
      (k + 1 = n → u * (n - 1) - k = 0) := by
  have hp := pred_pos hn
  have hnn : 0 ≤ u * ((n : ℝ) - 1) := by positivity
  have hle : u * ((n : ℝ) - 1) ≤ n - 1 := by nlinarith
  refine ⟨⌊u * ((n : ℝ) - 1)⌋₊, ?_, ?_, ?_, ?_, ?_⟩
  · rw [pred_eq hn, toSize, if_neg (by linarith)]
  · rw [Nat.floor_lt hnn]; linarith
  · linarith [Nat.floor_le hnn]
  · linarith [Nat.lt_floor_add_one (u * ((n : ℝ) - 1))]
  · intro h
    have h2 : ((⌊u * ((n : ℝ) - 1)⌋₊ : ℕ) : ℝ) + 1 = n := by exact_mod_cast h
    have := Nat.floor_le hnn
    linarith

theorem read_grid {g : Grid} {gw gh : ℕ} {f : ℕ → ℕ → Vertex} (h : HoldsGrid g gw gh f) {i j : ℕ}
    (hi : i < gw) (hj : j < gh) : read g (i + j * gw) = .ok (f i j) := by
  unfold MagicLamp.read
  rw [add_comm, h.2 i j hi hj]

theorem cell_unit {n : ℕ} (hn : 2 ≤ n) (u : ℝ) (k : ℕ) :
    (fin u - fin 1 / fin (pred n) * fin k) / (fin 1 / fin (pred n)) = fin (u * (n - 1) - k) := by
  have hp := (pred_pos hn).ne'
  rw [pred_eq hn, XR.fin_div _ hp, XR.fin_mul, XR.fin_sub, XR.fin_div _ (one_div_ne_zero hp)]
  congr 1
  field_simp

/-- The value returned for a `uv` in the unit square: bilinear in the cell. -/
theorem interpolate_eq {g : Grid} {gw gh : ℕ} {V : ℕ → ℕ → Pt} (hw : 2 ≤ gw) (hh : 2 ≤ gh)
    (h : HoldsGrid g gw gh fun i j => .ofPt (V i j)) {uv : Pt} (hu : UnitUV uv) :
    ∃ (l t r b : ℕ) (x y : ℝ), l < gw ∧ t < gh ∧ r < gw ∧ b < gh ∧ x = uv.x * (gw - 1) - l ∧
      y = uv.y * (gh - 1) - t ∧ 0 ≤ x ∧ x < 1 ∧ 0 ≤ y ∧ y < 1 ∧ r = min (gw - 1) (l + 1) ∧
      b = min (gh - 1) (t + 1) ∧
      interpolate uv gw gh g = .ok ⟨
        fin ((1 - x) * (1 - y) * (V l t).x + (1 - x) * y * (V l b).x + x * (1 - y) * (V r t).x +
          x * y * (V r b).x),
        fin ((1 - x) * (1 - y) * (V l t).y + (1 - x) * y * (V l b).y + x * (1 - y) * (V r t).y +
          x * y * (V r b).y)⟩ := by
  obtain ⟨h0, h1, h2, h3⟩ := hu
  obtain ⟨l, el, ll, lx0, lx1, _⟩ := floor_cell hw h0 h1
  obtain ⟨t, et, tl, ty0, ty1, _⟩ := floor_cell hh h2 h3
  have rl : min (gw - 1) (l + 1) < gw := by omega
  have bl : min (gh - 1) (t + 1) < gh := by omega
  refine ⟨l, t, _, _, _, _, ll, tl, rl, bl, rfl, rfl, lx0, lx1, ty0, ty1, rfl, rfl, ?_⟩
  unfold interpolate
  rw [el, et]
  simp only [Outcome.bind]
  rw [if_neg (by omega)]
  simp only [read_grid h ll tl, read_grid h ll bl, read_grid h rl tl, read_grid h rl bl,
    cell_unit hw, cell_unit hh, Vertex.ofPt, XR.fin_mul, XR.fin_add, XR.fin_sub, Outcome.ok.injEq,
    Vertex.mk.injEq, XR.fin_inj]
  constructor <;> ring

/-- **C22.** For `uv` in the unit square only existing vertices are read, whatever they hold, as long as there are at
least as many as the resolution says. -/
theorem C22_uv_in_bounds (g : Grid) (gw gh : ℕ) (hw : 2 ≤ gw) (hh : 2 ≤ gh)
    (hg : gw * gh ≤ g.length) (uv : Pt) (hu : UnitUV uv) :
    ∃ v, interpolate uv gw gh g = .ok v := by
  have hidx : ∀ i j, i < gw → j < gh → j * gw + i < g.length := by
    intro i j hi hj
    have : (j + 1) * gw ≤ gh * gw := Nat.mul_le_mul_right _ hj
    rw [Nat.succ_mul] at this
    rw [mul_comm gw] at hg
    omega
  have h : ∀ i j, i < gw → j < gh → read g (i + j * gw) = .ok ((g[j * gw + i]?).getD ⟨fin 0, fin 0⟩) := by
    intro i j hi hj
    unfold MagicLamp.read
    rw [add_comm i]
    simp [List.getElem?_eq_getElem (hidx i j hi hj)]
  obtain ⟨h0, h1, h2, h3⟩ := hu
  obtain ⟨l, el, ll, _⟩ := floor_cell hw h0 h1
  obtain ⟨t, et, tl, _⟩ := floor_cell hh h2 h3
  have rl : min (gw - 1) (l + 1) < gw := by omega
  have bl : min (gh - 1) (t + 1) < gh := by omega
  unfold interpolate
  rw [el, et]
  simp only [Outcome.bind]
  rw [if_neg (by omega)]
  simp only [h _ _ ll tl, h _ _ ll bl, h _ _ rl tl, h _ _ rl bl]
  exact ⟨_, rfl⟩

/-- **C22.** At the `uv` of a lattice point the vertex itself is returned. -/
theorem C22_uv_lattice (g : Grid) (gw gh : ℕ) (V : ℕ → ℕ → Pt) (hw : 2 ≤ gw) (hh : 2 ≤ gh)
    (h : HoldsGrid g gw gh fun i j => .ofPt (V i j)) (i j : ℕ) (hi : i < gw) (hj : j < gh) :
    interpolate ⟨i / ((gw : ℝ) - 1), j / ((gh : ℝ) - 1)⟩ gw gh g = .ok (.ofPt (V i j)) := by
  have hu : UnitUV ⟨i / ((gw : ℝ) - 1), j / ((gh : ℝ) - 1)⟩ :=
    ⟨(frac_mem hw hi).1, (frac_mem hw hi).2, (frac_mem hh hj).1, (frac_mem hh hj).2⟩
  obtain ⟨l, t, r, b, x, y, ll, tl, rl, bl, ex, ey, x0, x1, y0, y1, _, _, e⟩ :=
    interpolate_eq hw hh h hu
  have hp := (pred_pos hw).ne'
  have hq := (pred_pos hh).ne'
  simp only [div_mul_cancel₀ _ hp] at ex
  simp only [div_mul_cancel₀ _ hq] at ey
  have hil : i = l := by
    have a1 : (l : ℝ) ≤ i := by linarith
    have a2 : (i : ℝ) < l + 1 := by linarith
    have a1' : l ≤ i := by exact_mod_cast a1
    have a2' : i < l + 1 := by exact_mod_cast a2
    omega
  have hjt : j = t := by
    have a1 : (t : ℝ) ≤ j := by linarith
    have a2 : (j : ℝ) < t + 1 := by linarith
    have a1' : t ≤ j := by exact_mod_cast a1
    have a2' : j < t + 1 := by exact_mod_cast a2
    omega
  subst hil hjt
  have hx : x = 0 := by rw [ex]; ring
  have hy : y = 0 := by rw [ey]; ring
  rw [e, hx, hy]
  simp [Vertex.ofPt]

/-- **C22.** For every `uv` in the unit square the result is a point that satisfies every linear
inequality which all the vertices satisfy: it is in their convex hull, so in particular between the
smallest and largest vertex coordinates. -/
theorem C22_uv_hull (g : Grid) (gw gh : ℕ) (V : ℕ → ℕ → Pt) (hw : 2 ≤ gw) (hh : 2 ≤ gh)
    (h : HoldsGrid g gw gh fun i j => .ofPt (V i j)) (uv : Pt) (hu : UnitUV uv) :
    ∃ q : Pt, interpolate uv gw gh g = .ok (.ofPt q) ∧
      ∀ a b c : ℝ, (∀ i j, i < gw → j < gh → a * (V i j).x + b * (V i j).y ≤ c) →
        a * q.x + b * q.y ≤ c := by
  obtain ⟨l, t, r, b, x, y, ll, tl, rl, bl, ex, ey, x0, x1, y0, y1, _, _, e⟩ :=
    interpolate_eq hw hh h hu
  refine ⟨⟨_, _⟩, e, fun a' b' c hc => ?_⟩
  have e1 := mul_le_mul_of_nonneg_left (hc l t ll tl)
    (mul_nonneg (by linarith : 0 ≤ 1 - x) (by linarith : 0 ≤ 1 - y))
  have e2 := mul_le_mul_of_nonneg_left (hc l b ll bl) (mul_nonneg (by linarith : 0 ≤ 1 - x) y0)
  have e3 := mul_le_mul_of_nonneg_left (hc r t rl tl) (mul_nonneg x0 (by linarith : 0 ≤ 1 - y))
  have e4 := mul_le_mul_of_nonneg_left (hc r b rl bl) (mul_nonneg x0 y0)
  simp only
  nlinarith

theorem grid22 : HoldsGrid [.ofPt ⟨0, 0⟩, .ofPt ⟨10, 1⟩, .ofPt ⟨2, 7⟩, .ofPt ⟨12, 9⟩] 2 2
    fun i j => .ofPt (if j = 0 then (if i = 0 then ⟨0, 0⟩ else ⟨10, 1⟩)
      else (if i = 0 then ⟨2, 7⟩ else ⟨12, 9⟩)) := by
  refine ⟨rfl, fun i j hi hj => ?_⟩
  rcases (by omega : i = 0 ∨ i = 1) with rfl | rfl <;>
    rcases (by omega : j = 0 ∨ j = 1) with rfl | rfl <;> simp

example : UnitUV ⟨0.3, 0.9⟩ := by refine ⟨?_, ?_, ?_, ?_⟩ <;> norm_num

/-- **C23 (negation).** Below the unit square by more than one row, or left of / above it by more than
one cell, a read is out of bounds (or the conversion to an index is undefined): for every grid that
the animation itself can have built. -/
theorem C23_uv_out_of_bounds (g : Grid) (gw gh : ℕ) (hw : 2 ≤ gw) (hh : 2 ≤ gh)
    (hg : g.length = gw * gh) (uv : Pt)
    (h : (gh : ℝ) / (gh - 1) ≤ uv.y ∨ uv.x ≤ -1 / ((gw : ℝ) - 1) ∨ uv.y ≤ -1 / ((gh : ℝ) - 1)) :
    interpolate uv gw gh g = .ub := by
  have hp := pred_pos hw
  have hq := pred_pos hh
  unfold interpolate
  by_cases h1 : uv.x * pred gw ≤ -1
  · rw [toSize, if_pos h1]; rfl
  by_cases h2 : uv.y * pred gh ≤ -1
  · rw [toSize, if_neg h1, toSize, if_pos h2]; rfl
  rw [toSize, if_neg h1, toSize, if_neg h2]
  rw [pred_eq hw] at h1
  rw [pred_eq hh] at h2
  rcases h with h | h | h
  · rw [div_le_iff₀ hq] at h
    have ht : gh ≤ ⌊uv.y * pred gh⌋₊ := by
      rw [pred_eq hh]; exact Nat.le_floor h
    simp only [Outcome.bind]
    rw [if_neg (by omega)]
    have hr : read g (⌊uv.x * pred gw⌋₊ + ⌊uv.y * pred gh⌋₊ * gw) = .ub := by
      have : g.length ≤ ⌊uv.x * pred gw⌋₊ + ⌊uv.y * pred gh⌋₊ * gw := by
        rw [hg, mul_comm gw]
        exact le_trans (Nat.mul_le_mul_right gw ht) (Nat.le_add_left _ _)
      unfold MagicLamp.read
      rw [List.getElem?_eq_none this]
    rw [hr]
  · rw [le_div_iff₀ hp] at h; exact absurd h h1
  · rw [le_div_iff₀ hq] at h; exact absurd h h2

example : (3 : ℝ) / (3 - 1) ≤ 2 := by norm_num

/-- **C23.** Exactly which `uv` are safe for a grid the animation has built: not one cell or more left of or above the
unit square, not one row or more below it, and, right of it, only as long as the rest of the rows lasts. -/
theorem C23_uv_safe_iff (g : Grid) (gw gh : ℕ) (hw : 2 ≤ gw) (hh : 2 ≤ gh) (hg : g.length = gw * gh) (uv : Pt) :
    interpolate uv gw gh g ≠ .ub ↔
      -1 < uv.x * (gw - 1) ∧ -1 < uv.y * (gh - 1) ∧ uv.y * (gh - 1) < gh ∧
      uv.x * (gw - 1) < gw * max 1 (gh - 1 - ⌊uv.y * ((gh : ℝ) - 1)⌋₊ : ℕ) := by
  have rd : ∀ k, (k < g.length → ∃ v, read g k = .ok v) ∧ (¬ k < g.length → read g k = .ub) := by
    intro k
    unfold MagicLamp.read
    constructor
    · intro h
      rw [List.getElem?_eq_getElem h]
      exact ⟨_, rfl⟩
    · intro h
      rw [List.getElem?_eq_none (by omega)]
  unfold interpolate
  rw [pred_eq hw, pred_eq hh]
  by_cases h1 : uv.x * ((gw : ℝ) - 1) ≤ -1
  · rw [toSize, if_pos h1]
    simp only [Outcome.bind, ne_eq, not_true_eq_false, false_iff]
    intro h
    linarith [h.1]
  by_cases h2 : uv.y * ((gh : ℝ) - 1) ≤ -1
  · rw [toSize, if_neg h1, toSize, if_pos h2]
    simp only [Outcome.bind, ne_eq, not_true_eq_false, false_iff]
    intro h
    linarith [h.2.1]
  rw [toSize, if_neg h1, toSize, if_neg h2]
  have ft : uv.y * ((gh : ℝ) - 1) < gh ↔ ⌊uv.y * ((gh : ℝ) - 1)⌋₊ < gh := (Nat.floor_lt' (by omega)).symm
  have fl : ∀ m : ℕ, m ≠ 0 → (uv.x * ((gw : ℝ) - 1) < m ↔ ⌊uv.x * ((gw : ℝ) - 1)⌋₊ < m) :=
    fun m hm => (Nat.floor_lt' hm).symm
  have fl' := fl (gw * max 1 (gh - 1 - ⌊uv.y * ((gh : ℝ) - 1)⌋₊)) (by
    have : 1 ≤ max 1 (gh - 1 - ⌊uv.y * ((gh : ℝ) - 1)⌋₊) := le_max_left _ _
    have := Nat.mul_le_mul hw this
    omega)
  rw [Nat.cast_mul] at fl'
  rw [ft, fl']
  generalize ⌊uv.x * ((gw : ℝ) - 1)⌋₊ = l
  generalize ⌊uv.y * ((gh : ℝ) - 1)⌋₊ = t
  simp only [Outcome.bind]
  rw [if_neg (by omega)]
  push Not at h1 h2
  have all : (l + t * gw < g.length ∧ l + min (gh - 1) (t + 1) * gw < g.length ∧
      min (gw - 1) (l + 1) + t * gw < g.length ∧ min (gw - 1) (l + 1) + min (gh - 1) (t + 1) * gw < g.length) ↔
      t < gh ∧ l < gw * max 1 (gh - 1 - t) := by
    rw [hg]
    rcases Nat.lt_or_ge t gh with ht | ht
    · obtain ⟨k, rfl⟩ : ∃ k, gh = t + 1 + k := ⟨gh - (t + 1), by omega⟩
      have e1 : t + 1 + k - 1 = t + k := by omega
      have e2 : t + k - t = k := by omega
      rw [e1, e2]
      have e3 : gw * (t + 1 + k) = t * gw + gw + gw * k := by ring
      rw [e3]
      rcases Nat.eq_zero_or_pos k with rfl | hk
      · rw [min_eq_left (by omega : t + 0 ≤ t + 1), max_eq_left (by omega)]
        simp only [Nat.add_zero, Nat.mul_zero, Nat.mul_one]
        omega
      · have e4 : gw ≤ gw * k := Nat.le_mul_of_pos_right _ hk
        have e5 : (t + 1) * gw = t * gw + gw := by ring
        rw [min_eq_right (by omega : t + 1 ≤ t + k), max_eq_right (by omega), e5]
        omega
    · have : gw * gh ≤ t * gw := by
        rw [mul_comm gw]
        exact Nat.mul_le_mul_right _ ht
      omega
  have iff : t < gh ∧ l < gw * max 1 (gh - 1 - t) ↔ -1 < uv.x * ((gw : ℝ) - 1) ∧ -1 < uv.y * ((gh : ℝ) - 1) ∧ t < gh ∧
      l < gw * max 1 (gh - 1 - t) := ⟨fun h => ⟨h1, h2, h⟩, fun h => h.2.2⟩
  rw [← iff, ← all]
  by_cases a : l + t * gw < g.length
  · obtain ⟨_, ea⟩ := (rd _).1 a
    rw [ea]
    by_cases b : l + min (gh - 1) (t + 1) * gw < g.length
    · obtain ⟨_, eb⟩ := (rd _).1 b
      rw [eb]
      by_cases c : min (gw - 1) (l + 1) + t * gw < g.length
      · obtain ⟨_, ec⟩ := (rd _).1 c
        rw [ec]
        by_cases d : min (gw - 1) (l + 1) + min (gh - 1) (t + 1) * gw < g.length
        · obtain ⟨_, ed⟩ := (rd _).1 d
          rw [ed]
          simp [a, b, c, d]
        · rw [(rd _).2 d]
          simp [d]
      · rw [(rd _).2 c]
        simp [c]
    · rw [(rd _).2 b]
      simp [b]
  · rw [(rd _).2 a]
    simp [a]

/-- Just right of the unit square the reads are still inside a 2×2 grid. -/
example : -1 < (3 / 2 : ℝ) * ((2 : ℕ) - 1) ∧ (3 / 2 : ℝ) * ((2 : ℕ) - 1) < (2 : ℕ) * max 1 (2 - 1 - 0 : ℕ) := by
  norm_num

/-- **C23 (partial).** The read is safe for `uv` in the unit square.  Missing: the other `uv`, where
the claim is false. -/
theorem C23_uv_memory_safe_partial (g : Grid) (gw gh : ℕ) (hw : 2 ≤ gw) (hh : 2 ≤ gh)
    (hg : g.length = gw * gh) (uv : Pt) (hu : UnitUV uv) : interpolate uv gw gh g ≠ .ub := by
  obtain ⟨v, hv⟩ := C22_uv_in_bounds g gw gh hw hh hg.ge uv hu
  rw [hv]; simp

/-- **C24 (negation).** Any magic lamp that is given a larger resolution writes out of bounds in its
next Step. -/
theorem C24_larger_resolution_ub (p : Params) (s : Stepper) (gw gh : ℕ) (hw : 0 < gw) (hh : 0 < gh)
    (h : p.gw * p.gh < gw * gh) (ms : ℕ) :
    (MagicLamp.cls.run (MagicLamp.new p s).1 [.set (.gridResolution gw gh), .step ms]).out = .ub := by
  obtain ⟨_, _, g, hg, hl⟩ := lampOk_new p s
  show MagicLamp.render _ _ (MagicLamp.new p s).1.out = .ub
  rw [hg]
  exact moveGrid_ub _ _ _ hw hh (by rw [hl]; exact h)

/-- Every resolution set in the history has at most `n` vertices and is at least 1×1. -/
def ResolutionsFit (n : ℕ) (ops : List (AnimOp MagicLamp.Setter)) : Prop :=
  ∀ gw gh, AnimOp.set (MagicLamp.Setter.gridResolution gw gh) ∈ ops →
    0 < gw ∧ 0 < gh ∧ gw * gh ≤ n

/-- **C24 (partial).** As long as no resolution set has more vertices than the first one, no Step
ever accesses memory out of bounds, nor does Extremes, nor, with 2×2 vertices or more, DeformUVToModelSpace in the
unit square (C23).  Missing: larger resolutions, where the claim is false. -/
theorem C24_resolution_safe_partial (p : Params) (s : Stepper) (hw : 0 < p.gw) (hh : 0 < p.gh)
    (ops : List (AnimOp MagicLamp.Setter)) (hf : ResolutionsFit (p.gw * p.gh) ops) :
    let a := MagicLamp.cls.run (MagicLamp.new p s).1 ops
    ∃ g, a.out = .ok g ∧ g.length = p.gw * p.gh ∧ extremes a.params.gw a.params.gh g ≠ .ub ∧
      ∀ uv, UnitUV uv → 2 ≤ a.params.gw → 2 ≤ a.params.gh →
        interpolate uv a.params.gw a.params.gh g ≠ .ub := by
  have key : ∀ (ops : List (AnimOp MagicLamp.Setter)), ResolutionsFit (p.gw * p.gh) ops →
      ∀ a : Anim Params (Outcome Grid),
      (0 < a.params.gw ∧ 0 < a.params.gh ∧ a.params.gw * a.params.gh ≤ p.gw * p.gh ∧
        ∃ g, a.out = .ok g ∧ g.length = p.gw * p.gh) →
      (let b := MagicLamp.cls.run a ops
       0 < b.params.gw ∧ 0 < b.params.gh ∧ b.params.gw * b.params.gh ≤ p.gw * p.gh ∧
        ∃ g, b.out = .ok g ∧ g.length = p.gw * p.gh) := by
    intro ops
    induction ops with
    | nil => intro _ a ha; exact ha
    | cons o ops ih =>
      intro hf a ha
      refine ih (fun w h hm => hf w h (List.mem_cons_of_mem _ hm)) (MagicLamp.cls.exec a o) ?_
      obtain ⟨h1, h2, h3, g, h4, h5⟩ := ha
      cases o with
      | step ms =>
        obtain ⟨g', e, l, _⟩ := moveGrid_ok a.params
          (AnimClass.clampedProgress (a.stepper.value ms)) g (by rw [h5]; exact h3)
        refine ⟨h1, h2, h3, g', ?_, l.trans h5⟩
        show MagicLamp.render _ _ a.out = _
        rw [h4]; exact e
      | set s =>
        cases s with
        | gridResolution w h =>
          obtain ⟨q1, q2, q3⟩ := hf w h (List.mem_cons_self ..)
          exact ⟨q1, q2, q3, g, h4, h5⟩
        | _ => exact ⟨h1, h2, h3, g, h4, h5⟩
      | setStepper s => exact ⟨h1, h2, h3, g, h4, h5⟩
  intro a
  obtain ⟨_, _, g0, e0, l0⟩ := lampOk_new p s
  obtain ⟨h1, h2, h3, g, h4, h5⟩ := key ops hf (MagicLamp.new p s).1 ⟨hw, hh, le_rfl, g0, e0, l0⟩
  change 0 < a.params.gw at h1
  change 0 < a.params.gh at h2
  change a.params.gw * a.params.gh ≤ _ at h3
  refine ⟨g, h4, h5, ?_, fun uv hu w2 w3 => ?_⟩
  swap
  · obtain ⟨v, e⟩ := C22_uv_in_bounds g _ _ w2 w3 (by rw [h5]; exact h3) uv hu
    rw [e]
    simp
  have hmul : (a.params.gh - 1) * a.params.gw + a.params.gw = a.params.gw * a.params.gh := by
    rw [← Nat.succ_mul, Nat.succ_eq_add_one, Nat.sub_add_cancel h2, mul_comm]
  have hr : ∀ k, k < g.length → ∃ v, read g k = .ok v := by
    intro k hk
    exact ⟨g[k], by unfold MagicLamp.read; rw [List.getElem?_eq_getElem hk]⟩
  have hge : a.params.gw ≤ a.params.gw * a.params.gh := Nat.le_mul_of_pos_right _ h2
  obtain ⟨v0, e0⟩ := hr 0 (by omega)
  obtain ⟨v1, e1⟩ := hr (a.params.gw - 1) (by omega)
  obtain ⟨v2, e2⟩ := hr ((a.params.gh - 1) * a.params.gw) (by omega)
  obtain ⟨v3, e3⟩ := hr ((a.params.gh - 1) * a.params.gw + a.params.gw - 1) (by omega)
  rw [extremes, if_neg (by omega), e0, e1, e2, e3]
  simp [Outcome.bind]

example : ResolutionsFit (10 * 10) [.step 5, .set (.gridResolution 5 20), .step 7] := by
  intro w h hm
  simp at hm
  obtain ⟨rfl, rfl⟩ := hm
  norm_num

/-- **C25.** For every grid content `Extremes` is `DeformUVToModelSpace` at the four unit corners. -/
theorem C25_extremes_corners (g : Grid) (gw gh : ℕ) (V : ℕ → ℕ → Pt) (hw : 2 ≤ gw) (hh : 2 ≤ gh)
    (h : HoldsGrid g gw gh fun i j => .ofPt (V i j)) :
    ∃ tl tr bl br, extremes gw gh g = .ok (tl, tr, bl, br) ∧
      interpolate ⟨0, 0⟩ gw gh g = .ok tl ∧ interpolate ⟨1, 0⟩ gw gh g = .ok tr ∧
      interpolate ⟨0, 1⟩ gw gh g = .ok bl ∧ interpolate ⟨1, 1⟩ gw gh g = .ok br := by
  have hp := (pred_pos hw).ne'
  have hq := (pred_pos hh).ne'
  have ew : ((gw - 1 : ℕ) : ℝ) = (gw : ℝ) - 1 := by rw [Nat.cast_sub (by omega)]; norm_num
  have eh : ((gh - 1 : ℕ) : ℝ) = (gh : ℝ) - 1 := by rw [Nat.cast_sub (by omega)]; norm_num
  have c1 := C22_uv_lattice g gw gh V hw hh h 0 0 (by omega) (by omega)
  have c2 := C22_uv_lattice g gw gh V hw hh h (gw - 1) 0 (by omega) (by omega)
  have c3 := C22_uv_lattice g gw gh V hw hh h 0 (gh - 1) (by omega) (by omega)
  have c4 := C22_uv_lattice g gw gh V hw hh h (gw - 1) (gh - 1) (by omega) (by omega)
  rw [ew] at c2 c4
  rw [eh] at c3 c4
  rw [div_self hp] at c2 c4
  rw [div_self hq] at c3 c4
  simp only [Nat.cast_zero, zero_div] at c1 c2 c3
  refine ⟨_, _, _, _, ?_, c1, c2, c3, c4⟩
  have r1 := read_grid h (i := 0) (j := 0) (by omega) (by omega)
  have r2 := read_grid h (i := gw - 1) (j := 0) (by omega) (by omega)
  have r3 := read_grid h (i := 0) (j := gh - 1) (by omega) (by omega)
  have r4 := read_grid h (i := gw - 1) (j := gh - 1) (by omega) (by omega)
  simp only [Nat.zero_mul, Nat.add_zero, Nat.zero_add] at r1 r2 r3
  have e : gw - 1 + (gh - 1) * gw = (gh - 1) * gw + gw - 1 := by omega
  rw [e] at r4
  rw [extremes, if_neg (by omega), r1, r2, r3, r4]
  rfl

/-- The value a call writes to the source box. -/
def setsSource : MagicLamp.Setter → Option Box
  | .source v => some v
  | _ => none

/-- The value a call writes to the target box. -/
def setsTarget : MagicLamp.Setter → Option Box
  | .target v => some v
  | _ => none

/-- The value a call writes to the bend. -/
def setsBend : MagicLamp.Setter → Option ℝ
  | .bend v => some v
  | _ => none

/-- The value a call writes to the offset. -/
def setsOffset : MagicLamp.Setter → Option ℝ
  | .offset v => some v
  | _ => none

/-- The value a call writes to the stretch. -/
def setsStretch : MagicLamp.Setter → Option ℝ
  | .stretch v => some v
  | _ => none

/-- The value a call writes to the deformation speed. -/
def setsDeformSpeed : MagicLamp.Setter → Option ℝ
  | .deformSpeed v => some v
  | _ => none

/-- **C17.** The same for the magic lamp, as long as the resolution is not changed: after any history
the next Step shows what it would have shown had the object been constructed with the last values
set. -/
theorem C17_lamp (p : Params) (s : Stepper) (ops : List (AnimOp MagicLamp.Setter))
    (hk : KeepsResolution ops) (m : ℕ) :
    visible (MagicLamp.cls.step (MagicLamp.cls.run (MagicLamp.new p s).1 ops) m).1 =
    visible (MagicLamp.cls.step (MagicLamp.cls.run
      (MagicLamp.new { gw := p.gw, gh := p.gh
                       source := lastSet setsSource (settings ops) p.source
                       target := lastSet setsTarget (settings ops) p.target
                       bend := lastSet setsBend (settings ops) p.bend
                       offset := lastSet setsOffset (settings ops) p.offset
                       stretch := lastSet setsStretch (settings ops) p.stretch
                       deformSpeed := lastSet setsDeformSpeed (settings ops) p.deformSpeed } s).1
      (withoutSettings ops)) m).1 := by
  have key : ∀ (l : List MagicLamp.Setter), (∀ gw gh, MagicLamp.Setter.gridResolution gw gh ∉ l) → ∀ p : Params,
      l.foldl MagicLamp.applySetter p =
      { gw := p.gw, gh := p.gh
        source := lastSet setsSource l p.source
        target := lastSet setsTarget l p.target
        bend := lastSet setsBend l p.bend
        offset := lastSet setsOffset l p.offset
        stretch := lastSet setsStretch l p.stretch
        deformSpeed := lastSet setsDeformSpeed l p.deformSpeed } := by
    intro l
    induction l with
    | nil => intro _ p; rfl
    | cons x l ih =>
      intro hl p
      have hl' : ∀ gw gh, MagicLamp.Setter.gridResolution gw gh ∉ l := fun a b h => hl a b (List.mem_cons_of_mem _ h)
      cases x with
      | gridResolution a b => exact absurd (List.mem_cons_self ..) (hl a b)
      | _ =>
        rw [List.foldl_cons, ih hl']
        simp [lastSet, setsSource, setsTarget, setsBend, setsOffset, setsStretch, setsDeformSpeed,
          MagicLamp.applySetter, List.getLast?_cons]
  have hmem : ∀ (l : List (AnimOp MagicLamp.Setter)) x, x ∈ settings l → AnimOp.set x ∈ l := by
    intro l x
    induction l with
    | nil => simp [settings]
    | cons o l ih => cases o <;> simp [settings] <;> tauto
  rw [← key (settings ops) (fun a b h => hk a b (hmem ops _ h))]
  set p' := (settings ops).foldl MagicLamp.applySetter p with hp'
  have hk' : KeepsResolution (withoutSettings ops) := by
    intro w h hm
    have : ∀ l : List (AnimOp MagicLamp.Setter), ∀ x, AnimOp.set x ∉ withoutSettings l := by
      intro l x
      induction l with
      | nil => simp [withoutSettings]
      | cons o l ih => cases o <;> simp [withoutSettings, ih]
    exact this _ _ hm
  obtain ⟨h1, h2, h3⟩ := run_stepper_params MagicLamp.cls ops (MagicLamp.new p s).1
    (MagicLamp.new p' s).1 rfl
  obtain ⟨r, g, _, _, er, eo, ew, eh, hg⟩ := lamp_step p s ops hk m
  obtain ⟨r', g', _, _, er', eo', ew', eh', hg'⟩ := lamp_step p' s (withoutSettings ops) hk' m
  have e2 : (MagicLamp.cls.run (MagicLamp.new p s).1 ops).params = p' := h2
  have e3 : (MagicLamp.cls.run (MagicLamp.new p' s).1 (withoutSettings ops)).params = p' := h3
  have hprog : (MagicLamp.cls.step (MagicLamp.cls.run (MagicLamp.new p s).1 ops) m).1.progress =
      (MagicLamp.cls.step (MagicLamp.cls.run (MagicLamp.new p' s).1 (withoutSettings ops)) m).1.progress := by
    simp only [AnimClass.step, h1]
  have err : r = r' := by rw [er, er', XR.fin_inj] at hprog; exact hprog
  subst err
  have egw : p'.gw = p.gw := by rw [← ew, e2]
  have egh : p'.gh = p.gh := by rw [← eh, e2]
  have hgg : g = g' := by
    rw [e2] at hg
    rw [e3, egw, egh] at hg'
    apply List.ext_getElem?
    intro k
    by_cases hk2 : k < p.gw * p.gh
    · have hpos : 0 < p.gw := by
        rcases Nat.eq_zero_or_pos p.gw with h | h
        · rw [h] at hk2; simp at hk2
        · exact h
      have hjlt : k / p.gw < p.gh := by rw [Nat.div_lt_iff_lt_mul hpos, mul_comm]; exact hk2
      have q1 := hg.2 (k % p.gw) (k / p.gw) (Nat.mod_lt _ hpos) hjlt
      have q2 := hg'.2 (k % p.gw) (k / p.gw) (Nat.mod_lt _ hpos) hjlt
      rw [Nat.div_add_mod'] at q1 q2
      rw [q1, q2]
    · rw [List.getElem?_eq_none (by rw [hg.1]; omega), List.getElem?_eq_none (by rw [hg'.1]; omega)]
  simp only [visible]
  rw [eo, eo', hprog, hgg]

example : lastSet setsStretch (settings [AnimOp.set (MagicLamp.Setter.stretch 3), .step 7, .set (.bend 2)]) 1 = 3 := rfl

end

end Verif.Props
