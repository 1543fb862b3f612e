import Verif.Lemmas.LampUV
import Verif.Props.LampFloat

/-! # Reading the magic lamp in single precision (C101, C103) -/

namespace Verif.Props

open XR (fin)
open Spec MagicLamp

noncomputable section

variable (R : Rounding) (D : Rounding64) (sin sinf cosf : ℝ → ℝ)

local notation "MM" => Machine.ieee R D sin sinf cosf

/-- **C103.** With rounding, too, `DeformUVToModelSpace` reads only existing vertices for `uv` in the unit square, whatever
they hold: the rounded product never gets past the last column or row. -/
theorem C103_uv_in_bounds (g : Grid) (gw gh : ℕ) (hw : 1 ≤ gw ∧ gw < 2 ^ 53) (hh : 1 ≤ gh ∧ gh < 2 ^ 53)
    (hg : gw * gh ≤ g.length) (uv : Pt) (hu : UnitUV uv) : ∃ v, (MM).lampInterpolate uv gw gh g = .ok v := by
  have hidx : ∀ i j, i < gw → j < gh → j * gw + i < g.length := by
    intro i j hi hj
    have : (j + 1) * gw ≤ gh * gw := Nat.mul_le_mul_right _ hj
    rw [Nat.succ_mul] at this
    rw [mul_comm gw] at hg
    omega
  have h : ∀ i j, i < gw → j < gh → MagicLamp.read g (i + j * gw) = .ok ((g[j * gw + i]?).getD ⟨fin 0, fin 0⟩) := by
    intro i j hi hj
    unfold MagicLamp.read
    rw [add_comm i]
    simp [List.getElem?_eq_getElem (hidx i j hi hj)]
  obtain ⟨h0, h1, h2, h3⟩ := hu
  obtain ⟨l, el, ll, -⟩ := Machine.index_ok (R := R) (D := D) (sin := sin) (sinf := sinf) (cosf := cosf) hw.1 hw.2 h0 h1
  obtain ⟨t, et, tl, -⟩ := Machine.index_ok (R := R) (D := D) (sin := sin) (sinf := sinf) (cosf := cosf) hh.1 hh.2 h2 h3
  have rl : min (gw - 1) (l + 1) < gw := by omega
  have bl : min (gh - 1) (t + 1) < gh := by omega
  unfold Machine.lampInterpolate
  rw [el, et]
  simp only [Outcome.bind]
  rw [if_neg (by omega)]
  simp only [h _ _ ll tl, h _ _ ll bl, h _ _ rl tl, h _ _ rl bl]
  exact ⟨_, rfl⟩

example : ∃ v, (MM).lampInterpolate ⟨1, 1 / 3⟩ 10 10 (initializeGrid 10 10) = .ok v :=
  C103_uv_in_bounds R D sin sinf cosf _ 10 10 (by norm_num) (by norm_num) (by simp [initializeGrid]) ⟨1, 1 / 3⟩
    ⟨by norm_num, by norm_num, by norm_num, by norm_num⟩

/-- **C103.** With rounding, too, the surface between the vertices is the bilinear one, but for a small error: a millionth of
the size of the coordinates, and less than a millionth of the width of the surface on each axis, if `H` and `W` bound the
distance between neighbouring vertices in a row and in a column. -/
theorem C103_near_surface (g : Grid) (gw gh : ℕ) (V : ℕ → ℕ → Pt) (hw : 2 ≤ gw ∧ gw ≤ 2 ^ 16) (hh : 2 ≤ gh ∧ gh ≤ 2 ^ 16)
    (h : HoldsGrid g gw gh fun i j => .ofPt (V i j)) {B H W : ℝ} (hB : 1 ≤ B ∧ B ≤ 2 ^ 20)
    (size : ∀ i j, i < gw → j < gh → |(V i j).x| ≤ B ∧ |(V i j).y| ≤ B) (H0 : 0 ≤ H) (W0 : 0 ≤ W)
    (rows : ∀ i j, i + 1 < gw → j < gh → |(V (i + 1) j).x - (V i j).x| ≤ H ∧ |(V (i + 1) j).y - (V i j).y| ≤ H)
    (columns : ∀ i j, i < gw → j + 1 < gh → |(V i (j + 1)).x - (V i j).x| ≤ W ∧ |(V i (j + 1)).y - (V i j).y| ≤ W)
    (uv : Pt) (hu : UnitUV uv) :
    ∃ v, (MM).lampInterpolate uv gw gh g = .ok v ∧
      Close (B / 2 ^ 20 + (gw - 1) * H / 2 ^ 21 + (gh - 1) * W / 2 ^ 21) v (surface gw gh V uv) := by
  have hu' := hu
  obtain ⟨h0, h1, h2, h3⟩ := hu
  have nw : (1 : ℝ) ≤ (gw : ℝ) - 1 ∧ (gw : ℝ) - 1 ≤ 2 ^ 16 := by
    have a : (2 : ℝ) ≤ gw := by exact_mod_cast hw.1
    have b : (gw : ℝ) ≤ 2 ^ 16 := by exact_mod_cast hw.2
    constructor <;> linarith
  have nh : (1 : ℝ) ≤ (gh : ℝ) - 1 ∧ (gh : ℝ) - 1 ≤ 2 ^ 16 := by
    have a : (2 : ℝ) ≤ gh := by exact_mod_cast hh.1
    have b : (gh : ℝ) ≤ 2 ^ 16 := by exact_mod_cast hh.2
    constructor <;> linarith
  obtain ⟨l, el, ll, lx, lx'⟩ := Machine.index_ok (R := R) (D := D) (sin := sin) (sinf := sinf) (cosf := cosf) (n := gw) (by omega)
    (by omega) h0 h1
  obtain ⟨t, et, tl, ty, ty'⟩ := Machine.index_ok (R := R) (D := D) (sin := sin) (sinf := sinf) (cosf := cosf) (n := gh) (by omega)
    (by omega) h2 h3
  have ew : ((gw : ℝ) - 1) / 2 ^ 52 + 1 / 2 ^ 200 ≤ 1 / 64 := by
    have := nw.2
    norm_num at this ⊢
    linarith
  have eh : ((gh : ℝ) - 1) / 2 ^ 52 + 1 / 2 ^ 200 ≤ 1 / 64 := by
    have := nh.2
    norm_num at this ⊢
    linarith
  obtain ⟨x, hx, dx, x0, x1⟩ := Machine.unit_ok (R := R) (D := D) (sin := sin) (sinf := sinf) (cosf := cosf) hw.1 hw.2 h0 h1 ll
    (by linarith) lx'
  obtain ⟨y, hy, dy, y0, y1⟩ := Machine.unit_ok (R := R) (D := D) (sin := sin) (sinf := sinf) (cosf := cosf) hh.1 hh.2 h2 h3 tl
    (by linarith) ty'
  have rl : min (gw - 1) (l + 1) < gw := by omega
  have bl : min (gh - 1) (t + 1) < gh := by omega
  have a0 : 0 ≤ uv.x * ((gw : ℝ) - 1) := mul_nonneg h0 (by linarith)
  have b0 : 0 ≤ uv.y * ((gh : ℝ) - 1) := mul_nonneg h2 (by linarith)
  have fa : ⌊uv.x * ((gw : ℝ) - 1)⌋₊ < gw := by
    rw [Nat.floor_lt a0]
    nlinarith
  have fb : ⌊uv.y * ((gh : ℝ) - 1)⌋₊ < gh := by
    rw [Nat.floor_lt b0]
    nlinarith
  have key : ∀ c : ℕ → ℕ → ℝ, (∀ i j, i + 1 < gw → j < gh → |c (i + 1) j - c i j| ≤ H) →
      (∀ i j, i < gw → j + 1 < gh → |c i (j + 1) - c i j| ≤ W) →
      |lin2 c gw gh l t x y - ∑ j ∈ Finset.range gh, ∑ i ∈ Finset.range gw, share gw gh uv i j * c i j| ≤
        (gw - 1) * H / 2 ^ 21 + (gh - 1) * W / 2 ^ 21 := by
    intro c hH hW
    rw [surface_lin hw.1 hh.1 hu' c]
    refine (lin2_near (ux := ((gw : ℝ) - 1) / 2 ^ 52 + 1 / 2 ^ 200) (uy := ((gh : ℝ) - 1) / 2 ^ 52 + 1 / 2 ^ 200) hH H0 hW W0 ll tl a0 b0 fa fb
      (by have := nw.1; positivity) (by linarith) (by have := nh.1; positivity) (by linarith) (by linarith) lx' (by linarith) ty' dx dy x0 x1 y0 y1).trans ?_
    have k1 : 9 / 8 * H * (((gw : ℝ) - 1) / 2 ^ 22 + ((gw : ℝ) - 1) / 2 ^ 26 + 2 * (((gw : ℝ) - 1) / 2 ^ 52 + 1 / 2 ^ 200)) ≤
        (gw - 1) * H / 2 ^ 21 := by
      have : 9 / 8 * (((gw : ℝ) - 1) / 2 ^ 22 + ((gw : ℝ) - 1) / 2 ^ 26 + 2 * (((gw : ℝ) - 1) / 2 ^ 52 + 1 / 2 ^ 200)) ≤
          ((gw : ℝ) - 1) / 2 ^ 21 := by
        have := nw.1
        norm_num
        linarith
      have := mul_le_mul_of_nonneg_left this H0
      calc _ = H * (9 / 8 * (((gw : ℝ) - 1) / 2 ^ 22 + ((gw : ℝ) - 1) / 2 ^ 26 + 2 * (((gw : ℝ) - 1) / 2 ^ 52 + 1 / 2 ^ 200))) := by ring
        _ ≤ _ := this
        _ = _ := by ring
    have k2 : 9 / 8 * W * (((gh : ℝ) - 1) / 2 ^ 22 + ((gh : ℝ) - 1) / 2 ^ 26 + 2 * (((gh : ℝ) - 1) / 2 ^ 52 + 1 / 2 ^ 200)) ≤
        (gh - 1) * W / 2 ^ 21 := by
      have : 9 / 8 * (((gh : ℝ) - 1) / 2 ^ 22 + ((gh : ℝ) - 1) / 2 ^ 26 + 2 * (((gh : ℝ) - 1) / 2 ^ 52 + 1 / 2 ^ 200)) ≤
          ((gh : ℝ) - 1) / 2 ^ 21 := by
        have := nh.1
        norm_num
        linarith
      have := mul_le_mul_of_nonneg_left this W0
      calc _ = W * (9 / 8 * (((gh : ℝ) - 1) / 2 ^ 22 + ((gh : ℝ) - 1) / 2 ^ 26 + 2 * (((gh : ℝ) - 1) / 2 ^ 52 + 1 / 2 ^ 200))) := by ring
        _ ≤ _ := this
        _ = _ := by ring
    linarith
  obtain ⟨X, hX, eX⟩ := Machine.slide_near (R := R) (D := D) (sin := sin) (sinf := sinf) (cosf := cosf)
    (Machine.blend_near (size l t ll tl).1 (size l _ ll bl).1 hB.1 hB.2 y0 y1)
    (Machine.blend_near (size _ t rl tl).1 (size _ _ rl bl).1 hB.1 hB.2 y0 y1) hB.1 hB.2 x0 x1
  obtain ⟨Y, hY, eY⟩ := Machine.slide_near (R := R) (D := D) (sin := sin) (sinf := sinf) (cosf := cosf)
    (Machine.blend_near (size l t ll tl).2 (size _ t rl tl).2 hB.1 hB.2 x0 x1)
    (Machine.blend_near (size l _ ll bl).2 (size _ _ rl bl).2 hB.1 hB.2 x0 x1) hB.1 hB.2 y0 y1
  refine ⟨⟨fin X, fin Y⟩, ?_, X, Y, rfl, ?_, ?_⟩
  · unfold Machine.lampInterpolate
    rw [el, et]
    simp only [Outcome.bind]
    rw [if_neg (by omega)]
    simp only [read_grid h ll tl, read_grid h ll bl, read_grid h rl tl, read_grid h rl bl, hx, hy, Vertex.ofPt]
    rw [hX, hY]
  · have k := key (fun i j => (V i j).x) (fun i j hi hj => (rows i j hi hj).1) (fun i j hi hj => (columns i j hi hj).1)
    have e := abs_add_le (X - lin2 (fun i j => (V i j).x) gw gh l t x y)
      (lin2 (fun i j => (V i j).x) gw gh l t x y - (surface gw gh V uv).x)
    rw [sub_add_sub_cancel] at e
    have e' : |X - lin2 (fun i j => (V i j).x) gw gh l t x y| ≤ B / 2 ^ 20 := eX
    have k' : |lin2 (fun i j => (V i j).x) gw gh l t x y - (surface gw gh V uv).x| ≤ _ := k
    linarith
  · have k := key (fun i j => (V i j).y) (fun i j hi hj => (rows i j hi hj).2) (fun i j hi hj => (columns i j hi hj).2)
    have e := abs_add_le (Y - lin2 (fun i j => (V i j).y) gw gh l t x y)
      (lin2 (fun i j => (V i j).y) gw gh l t x y - (surface gw gh V uv).y)
    rw [sub_add_sub_cancel] at e
    have e' : |Y - lin2 (fun i j => (V i j).y) gw gh l t x y| ≤ B / 2 ^ 20 := by
      rw [lin2_swap]
      exact eY
    have k' : |lin2 (fun i j => (V i j).y) gw gh l t x y - (surface gw gh V uv).y| ≤ _ := k
    linarith

/-- Four vertices over a box of 400 by 300. -/
example : ∃ v, (MM).lampInterpolate ⟨1 / 2, 1 / 3⟩ 2 2
      [⟨fin 0, fin 0⟩, ⟨fin 400, fin 0⟩, ⟨fin 0, fin 300⟩, ⟨fin 400, fin 300⟩] = .ok v ∧
    Close (400 / 2 ^ 20 + ((2 : ℕ) - 1) * 400 / 2 ^ 21 + ((2 : ℕ) - 1) * 300 / 2 ^ 21) v
      (surface 2 2 (fun i j => ⟨400 * i, 300 * j⟩) ⟨1 / 2, 1 / 3⟩) := by
  refine C103_near_surface R D sin sinf cosf _ 2 2 _ (by norm_num) (by norm_num) ⟨rfl, ?_⟩ (by norm_num) ?_ (by norm_num) (by norm_num) ?_ ?_ _
    ⟨by norm_num, by norm_num, by norm_num, by norm_num⟩
  all_goals
    intro i j hi hj
    have : i = 0 ∨ i = 1 := by omega
    have : j = 0 ∨ j = 1 := by omega
    rcases ‹i = 0 ∨ i = 1› with rfl | rfl <;> rcases ‹j = 0 ∨ j = 1› with rfl | rfl <;> simp [Vertex.ofPt] <;> norm_num at *

/-! ## The finished lamp, point by point -/

theorem lin_line {n : ℕ} (hn : 2 ≤ n) {u lo d : ℝ} (h0 : 0 ≤ u) (h1 : u ≤ 1) :
    lin (fun i => lo + i * d / ((n : ℝ) - 1)) n ⌊u * ((n : ℝ) - 1)⌋₊ (u * (n - 1) - ⌊u * ((n : ℝ) - 1)⌋₊) = lo + u * d := by
  have hN := pred_pos hn
  have z0 : 0 ≤ u * ((n : ℝ) - 1) := mul_nonneg h0 hN.le
  have z1 : u * ((n : ℝ) - 1) ≤ n - 1 := by nlinarith
  set k := ⌊u * ((n : ℝ) - 1)⌋₊ with hk
  have k1 : (k : ℝ) ≤ u * (n - 1) := Nat.floor_le z0
  unfold lin
  by_cases h : k + 1 < n
  · rw [show min (n - 1) (k + 1) = k + 1 by omega]
    push_cast
    field_simp
    ring
  · have hkn : k < n := by
      rw [hk, Nat.floor_lt z0]
      linarith
    rw [show min (n - 1) (k + 1) = k by omega]
    have : k + 1 = n := by omega
    have e : (k : ℝ) + 1 = n := by exact_mod_cast this
    have eu : u * ((n : ℝ) - 1) = k := by linarith
    have : u * d = k * d / ((n : ℝ) - 1) := by
      rw [← eu]
      field_simp
    rw [this]
    ring

theorem lin2_close {c c' : ℕ → ℕ → ℝ} {gw gh l t : ℕ} {x y e : ℝ} (hc : ∀ i j, i < gw → j < gh → |c i j - c' i j| ≤ e)
    (hl : l < gw) (ht : t < gh) (x0 : 0 ≤ x) (x1 : x ≤ 1) (y0 : 0 ≤ y) (y1 : y ≤ 1) :
    |lin2 c gw gh l t x y - lin2 c' gw gh l t x y| ≤ e := by
  have rl : min (gw - 1) (l + 1) < gw := by omega
  have bl : min (gh - 1) (t + 1) < gh := by omega
  have p := abs_le.1 (hc _ _ hl ht)
  have q := abs_le.1 (hc _ _ hl bl)
  have r := abs_le.1 (hc _ _ rl ht)
  have s := abs_le.1 (hc _ _ rl bl)
  unfold lin2 lin
  set b := min (gh - 1) (t + 1)
  set a := min (gw - 1) (l + 1)
  have w1 : 0 ≤ (1 - y) * (1 - x) := mul_nonneg (by linarith) (by linarith)
  have w2 : 0 ≤ y * (1 - x) := mul_nonneg (by linarith) (by linarith)
  have w3 : 0 ≤ (1 - y) * x := mul_nonneg (by linarith) (by linarith)
  have w4 : 0 ≤ y * x := mul_nonneg (by linarith) (by linarith)
  rw [abs_le]
  constructor
  · nlinarith [mul_le_mul_of_nonneg_left p.1 w1, mul_le_mul_of_nonneg_left q.1 w2, mul_le_mul_of_nonneg_left r.1 w3,
      mul_le_mul_of_nonneg_left s.1 w4]
  · nlinarith [mul_le_mul_of_nonneg_left p.2 w1, mul_le_mul_of_nonneg_left q.2 w2, mul_le_mul_of_nonneg_left r.2 w3,
      mul_le_mul_of_nonneg_left s.2 w4]

/-- A surface close to the lattice over a box is close to the box. -/
theorem surface_lattice {gw gh : ℕ} (hw : 2 ≤ gw) (hh : 2 ≤ gh) {V : ℕ → ℕ → Pt} {b : Box} {e : ℝ}
    (hV : ∀ i j, i < gw → j < gh → |(V i j).x - (latticePoint b gw gh i j).x| ≤ e ∧ |(V i j).y - (latticePoint b gw gh i j).y| ≤ e)
    {uv : Pt} (hu : UnitUV uv) :
    |(surface gw gh V uv).x - (boxPoint b uv).x| ≤ e ∧ |(surface gw gh V uv).y - (boxPoint b uv).y| ≤ e := by
  have hu' := hu
  obtain ⟨h0, h1, h2, h3⟩ := hu
  have hN := pred_pos hw
  have hN' := pred_pos hh
  have a0 : 0 ≤ uv.x * ((gw : ℝ) - 1) := mul_nonneg h0 hN.le
  have b0 : 0 ≤ uv.y * ((gh : ℝ) - 1) := mul_nonneg h2 hN'.le
  have fa : ⌊uv.x * ((gw : ℝ) - 1)⌋₊ < gw := by
    rw [Nat.floor_lt a0]
    nlinarith
  have fb : ⌊uv.y * ((gh : ℝ) - 1)⌋₊ < gh := by
    rw [Nat.floor_lt b0]
    nlinarith
  have xa := Nat.floor_le a0
  have xb := Nat.lt_floor_add_one (uv.x * ((gw : ℝ) - 1))
  have ya := Nat.floor_le b0
  have yb := Nat.lt_floor_add_one (uv.y * ((gh : ℝ) - 1))
  constructor
  · have e1 : (surface gw gh V uv).x = _ := surface_lin hw hh hu' fun i j => (V i j).x
    have e2 : (boxPoint b uv).x = lin2 (fun i j => (latticePoint b gw gh i j).x) gw gh ⌊uv.x * ((gw : ℝ) - 1)⌋₊ ⌊uv.y * ((gh : ℝ) - 1)⌋₊
        (uv.x * (gw - 1) - ⌊uv.x * ((gw : ℝ) - 1)⌋₊) (uv.y * (gh - 1) - ⌊uv.y * ((gh : ℝ) - 1)⌋₊) := by
      rw [lin2_swap]
      simp only [latticeX]
      rw [lin_line hw h0 h1]
      unfold lin boxPoint
      ring
    rw [e1, e2]
    exact lin2_close (fun i j hi hj => (hV i j hi hj).1) fa fb (by linarith) (by linarith) (by linarith) (by linarith)
  · have e1 : (surface gw gh V uv).y = _ := surface_lin hw hh hu' fun i j => (V i j).y
    have e2 : (boxPoint b uv).y = lin2 (fun i j => (latticePoint b gw gh i j).y) gw gh ⌊uv.x * ((gw : ℝ) - 1)⌋₊ ⌊uv.y * ((gh : ℝ) - 1)⌋₊
        (uv.x * (gw - 1) - ⌊uv.x * ((gw : ℝ) - 1)⌋₊) (uv.y * (gh - 1) - ⌊uv.y * ((gh : ℝ) - 1)⌋₊) := by
      unfold lin2
      simp only [latticeY]
      rw [lin_line hh h2 h3]
      unfold lin boxPoint
      ring
    rw [e1, e2]
    exact lin2_close (fun i j hi hj => (hV i j hi hj).2) fa fb (by linarith) (by linarith) (by linarith) (by linarith)

variable {ex : ℝ → ℝ}

/-- **C101.** After the last Step of a lamp, `DeformUVToModelSpace` takes every point of the unit square to within 1/32 of its
place in the target box. -/
theorem C101_uv_ends_near_target (hex : GoodExp ex) (p : Params) (s : Stepper) (ops : List (AnimOp MagicLamp.Setter))
    (hk : KeepsResolution ops) (ms : ℕ) (hgw : p.gw ≤ 2 ^ 16) (hgh : p.gh ≤ 2 ^ 16) (uv : Pt) (hu : UnitUV uv) :
    let a := ((MM).lamp ex).run ((MM).lampNew ex p s).1 ops
    SensibleFloat a.params → (((MM).lamp ex).step a ms).1.progress = fin 1 →
      ∃ v, (((MM).lamp ex).step a ms).1.out.bind ((MM).lampInterpolate uv p.gw p.gh) = .ok v ∧
        Close (1 / 32) v (boxPoint a.params.target uv) := by
  intro a hs h
  obtain ⟨r, g', h0, h1, hr, hg', hw, hh, hv⟩ := lampFloat_step (MM) ex p s ops hk ms
  obtain ⟨g, hg, hlen, hnear⟩ := C101_ends_near_target R D sin sinf cosf hex p s ops hk ms hs h
  change a.params.gw = p.gw at hw
  change a.params.gh = p.gh at hh
  have w2 : 2 ≤ p.gw := by rw [← hw]; exact hs.gw.1
  have h2 : 2 ≤ p.gh := by rw [← hh]; exact hs.gh.1
  choose! v hv1 hv2 using hnear
  choose! X Y hXY hX hY using hv2
  set V : ℕ → ℕ → Pt := fun i j => ⟨X i j, Y i j⟩ with hV
  have hold : HoldsGrid g p.gw p.gh fun i j => .ofPt (V i j) :=
    ⟨hlen, fun i j hi hj => by rw [hv1 i j hi hj, hXY i j hi hj]; rfl⟩
  set T := a.params.target with hT
  have near : ∀ i j, i < p.gw → j < p.gh → |(V i j).x - (latticePoint T p.gw p.gh i j).x| ≤ 1 / 256 ∧
      |(V i j).y - (latticePoint T p.gw p.gh i j).y| ≤ 1 / 256 := fun i j hi hj => ⟨hX i j hi hj, hY i j hi hj⟩
  have nw := pred_pos w2
  have nh := pred_pos h2
  have left := abs_le.1 hs.target.left
  have right := abs_le.1 hs.target.right
  have top := abs_le.1 hs.target.top
  have bottom := abs_le.1 hs.target.bottom
  rw [← hT] at left right top bottom
  have inBox : ∀ {lo hi f : ℝ}, (-8192 ≤ lo ∧ lo ≤ 8192) → (-8192 ≤ hi ∧ hi ≤ 8192) → 0 ≤ f → f ≤ 1 → |lo + f * (hi - lo)| ≤ 8192 := by
    intro lo hi f a b f0 f1
    rw [abs_le]
    constructor <;> nlinarith
  have size : ∀ i j, i < p.gw → j < p.gh → |(V i j).x| ≤ 8193 ∧ |(V i j).y| ≤ 8193 := by
    intro i j hi hj
    obtain ⟨n1, n2⟩ := near i j hi hj
    obtain ⟨f0, f1⟩ := frac_mem w2 hi
    obtain ⟨k0, k1⟩ := frac_mem h2 hj
    have b1 : |(latticePoint T p.gw p.gh i j).x| ≤ 8192 := inBox left right f0 f1
    have b2 : |(latticePoint T p.gw p.gh i j).y| ≤ 8192 := inBox top bottom k0 k1
    have t1 := abs_add_le ((V i j).x - (latticePoint T p.gw p.gh i j).x) (latticePoint T p.gw p.gh i j).x
    have t2 := abs_add_le ((V i j).y - (latticePoint T p.gw p.gh i j).y) (latticePoint T p.gw p.gh i j).y
    rw [sub_add_cancel] at t1 t2
    constructor <;> linarith
  have tri : ∀ {u v U W d : ℝ}, |u - U| ≤ 1 / 256 → |v - W| ≤ 1 / 256 → |U - W| ≤ d → |u - v| ≤ d + 1 / 128 := by
    intro u v U W d q1 q2 q3
    rw [abs_le] at *
    constructor <;> linarith
  have wx : |T.br.x - T.tl.x| ≤ 16384 := by rw [abs_le]; constructor <;> linarith
  have wy : |T.br.y - T.tl.y| ≤ 16384 := by rw [abs_le]; constructor <;> linarith
  have stepX : ∀ i j : ℕ, |(latticePoint T p.gw p.gh (i + 1) j).x - (latticePoint T p.gw p.gh i j).x| ≤ 16384 / ((p.gw : ℝ) - 1) := by
    intro i j
    rw [latticeX, latticeX]
    push_cast
    rw [show T.tl.x + (i + 1) * (T.br.x - T.tl.x) / ((p.gw : ℝ) - 1) - (T.tl.x + i * (T.br.x - T.tl.x) / ((p.gw : ℝ) - 1)) =
      (T.br.x - T.tl.x) / ((p.gw : ℝ) - 1) by ring, abs_div, abs_of_pos nw]
    gcongr
  have stepY : ∀ i j : ℕ, |(latticePoint T p.gw p.gh i (j + 1)).y - (latticePoint T p.gw p.gh i j).y| ≤ 16384 / ((p.gh : ℝ) - 1) := by
    intro i j
    rw [latticeY, latticeY]
    push_cast
    rw [show T.tl.y + (j + 1) * (T.br.y - T.tl.y) / ((p.gh : ℝ) - 1) - (T.tl.y + j * (T.br.y - T.tl.y) / ((p.gh : ℝ) - 1)) =
      (T.br.y - T.tl.y) / ((p.gh : ℝ) - 1) by ring, abs_div, abs_of_pos nh]
    gcongr
  have pw : 0 ≤ 16384 / ((p.gw : ℝ) - 1) := by positivity
  have ph : 0 ≤ 16384 / ((p.gh : ℝ) - 1) := by positivity
  obtain ⟨z, hz, ⟨x, y, rfl, ex', ey'⟩⟩ := C103_near_surface R D sin sinf cosf g p.gw p.gh V ⟨w2, hgw⟩ ⟨h2, hgh⟩ hold (B := 8193)
    (H := 16384 / ((p.gw : ℝ) - 1) + 1 / 128) (W := 16384 / ((p.gh : ℝ) - 1) + 1 / 128) (by norm_num) size (by positivity) (by positivity)
    (fun i j hi hj => ⟨tri (near _ _ hi hj).1 (near i j (by omega) hj).1 (stepX i j),
      tri (near _ _ hi hj).2 (near i j (by omega) hj).2 (by rw [latticeY, latticeY, sub_self, abs_zero]; exact pw)⟩)
    (fun i j hi hj => ⟨tri (near _ _ hi hj).1 (near i j hi (by omega)).1 (by rw [latticeX, latticeX, sub_self, abs_zero]; exact ph),
      tri (near _ _ hi hj).2 (near i j hi (by omega)).2 (stepY i j)⟩)
    uv hu
  obtain ⟨sx, sy⟩ := surface_lattice w2 h2 near hu
  have bound : 8193 / 2 ^ 20 + ((p.gw : ℝ) - 1) * (16384 / ((p.gw : ℝ) - 1) + 1 / 128) / 2 ^ 21 +
      ((p.gh : ℝ) - 1) * (16384 / ((p.gh : ℝ) - 1) + 1 / 128) / 2 ^ 21 ≤ 1 / 32 - 1 / 256 := by
    rw [mul_add, mul_div_cancel₀ _ nw.ne', mul_add, mul_div_cancel₀ _ nh.ne']
    have a1 : (p.gw : ℝ) ≤ 65536 := by exact_mod_cast hgw
    have a2 : (p.gh : ℝ) ≤ 65536 := by exact_mod_cast hgh
    norm_num
    linarith
  rw [hg]
  refine ⟨_, hz, x, y, rfl, ?_, ?_⟩
  · have := abs_add_le (x - (surface p.gw p.gh V uv).x) ((surface p.gw p.gh V uv).x - (boxPoint T uv).x)
    rw [sub_add_sub_cancel] at this
    linarith
  · have := abs_add_le (y - (surface p.gw p.gh V uv).y) ((surface p.gw p.gh V uv).y - (boxPoint T uv).y)
    rw [sub_add_sub_cancel] at this
    linarith

example : ∃ v, (((MM).lamp Real.exp).step ((MM).lampNew Real.exp deskLamp (linear 100)).1 100).1.out.bind
      ((MM).lampInterpolate ⟨1 / 2, 1⟩ 10 10) = .ok v ∧ Close (1 / 32) v (boxPoint ⟨⟨100, 0⟩, ⟨150, 20⟩⟩ ⟨1 / 2, 1⟩) :=
  C101_uv_ends_near_target R D sin sinf cosf goodExp_exp deskLamp (linear 100) [] (by intro _ _ h; cases h) 100
    (by norm_num [deskLamp]) (by norm_num [deskLamp]) ⟨1 / 2, 1⟩ ⟨by norm_num, by norm_num, by norm_num, by norm_num⟩ deskLamp_sensible
    (lampFloat_end R D sin sinf cosf _)

end

end Verif.Props
