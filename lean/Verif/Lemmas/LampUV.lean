import Verif.Lemmas.LampVertex
import Verif.Props.LampShape

/-! Reading the grid of the rounded magic lamp. -/

namespace Verif.Props

open XR (fin)
open MagicLamp (pred Params Vertex)
open Spec

noncomputable section

/-! ## Interpolation in a neighbouring cell -/

/-- The value at `t` in the cell that starts at `l`, continued beyond the cell. -/
def lin (c : ℕ → ℝ) (n l : ℕ) (t : ℝ) : ℝ := c l * (1 - t) + c (min (n - 1) (l + 1)) * t

theorem step_le {c : ℕ → ℝ} {n : ℕ} {H : ℝ} (hH : ∀ k, k + 1 < n → |c (k + 1) - c k| ≤ H) (H0 : 0 ≤ H) {l : ℕ} (hl : l < n) :
    |c (min (n - 1) (l + 1)) - c l| ≤ H := by
  by_cases h : l + 1 < n
  · rw [min_eq_right (by omega)]
    exact hH l h
  · rw [show min (n - 1) (l + 1) = l by omega, sub_self, abs_zero]
    exact H0

theorem lin_lip {c : ℕ → ℝ} {n : ℕ} {H : ℝ} (hH : ∀ k, k + 1 < n → |c (k + 1) - c k| ≤ H) (H0 : 0 ≤ H) {l : ℕ} (hl : l < n)
    (t t' : ℝ) : |lin c n l t' - lin c n l t| ≤ H * |t' - t| := by
  unfold lin
  rw [show c l * (1 - t') + c (min (n - 1) (l + 1)) * t' - (c l * (1 - t) + c (min (n - 1) (l + 1)) * t) =
    (c (min (n - 1) (l + 1)) - c l) * (t' - t) by ring, abs_mul]
  exact mul_le_mul_of_nonneg_right (step_le hH H0 hl) (abs_nonneg _)

theorem lin_shift {c : ℕ → ℝ} {n : ℕ} {H : ℝ} (hH : ∀ k, k + 1 < n → |c (k + 1) - c k| ≤ H) (H0 : 0 ≤ H) {z e : ℝ} (h0 : 0 ≤ z)
    (e1 : e < 1) {l : ℕ} (hl : l < n) (hz1 : (l : ℝ) ≤ z + e) (hz2 : z < l + 1) :
    |lin c n l (z - l) - lin c n ⌊z⌋₊ (z - ⌊z⌋₊)| ≤ 2 * e * H ∨ e < 0 := by
  by_cases he : e < 0
  · exact Or.inr he
  rw [not_lt] at he
  left
  by_cases h : (l : ℝ) ≤ z
  · have : ⌊z⌋₊ = l := by
      rw [Nat.floor_eq_iff h0]
      exact ⟨h, hz2⟩
    rw [this, sub_self, abs_zero]
    positivity
  · rw [not_le] at h
    have hl0 : l ≠ 0 := by
      rintro rfl
      simp at h
      linarith
    obtain ⟨m, rfl⟩ := Nat.exists_eq_succ_of_ne_zero hl0
    push_cast at *
    have hm : ⌊z⌋₊ = m := by
      rw [Nat.floor_eq_iff h0]
      exact ⟨by linarith, h⟩
    rw [hm]
    have a := step_le hH H0 hl
    have b := hH m hl
    unfold lin
    rw [show min (n - 1) (m + 1) = m + 1 by omega]
    rw [show c (m + 1) * (1 - (z - (m + 1))) + c (min (n - 1) (m.succ + 1)) * (z - (m + 1)) -
      (c m * (1 - (z - m)) + c (m + 1) * (z - m)) =
      (z - (m + 1)) * (c (min (n - 1) (m.succ + 1)) - c m.succ) - (z - (m + 1)) * (c (m + 1) - c m) by
        rw [Nat.succ_eq_add_one]; ring]
    refine (abs_sub _ _).trans ?_
    rw [abs_mul, abs_mul, abs_of_neg (show z - (m + 1) < 0 by linarith)]
    have k : -(z - (m + 1)) ≤ e := by linarith
    have k0 : 0 ≤ -(z - (m + 1)) := by linarith
    have p1 := mul_le_mul k a (abs_nonneg _) he
    have p2 := mul_le_mul k b (abs_nonneg _) he
    linarith

/-- The same on both axes. -/
def lin2 (c : ℕ → ℕ → ℝ) (gw gh l t : ℕ) (x y : ℝ) : ℝ := lin (fun i => lin (c i) gh t y) gw l x

theorem lin2_swap (c : ℕ → ℕ → ℝ) (gw gh l t : ℕ) (x y : ℝ) :
    lin2 c gw gh l t x y = lin (fun j => lin (fun i => c i j) gw l x) gh t y := by
  unfold lin2 lin
  ring

theorem rows_le {c : ℕ → ℕ → ℝ} {gw gh t : ℕ} {H y : ℝ} (hH : ∀ i j, i + 1 < gw → j < gh → |c (i + 1) j - c i j| ≤ H) (H0 : 0 ≤ H)
    (ht : t < gh) (y0 : -1 / 16 ≤ y) (y1 : y ≤ 17 / 16) :
    ∀ k, k + 1 < gw → |lin (c (k + 1)) gh t y - lin (c k) gh t y| ≤ 9 / 8 * H := by
  intro k hk
  unfold lin
  have hb : min (gh - 1) (t + 1) < gh := by omega
  set b := min (gh - 1) (t + 1)
  have p := hH k t hk ht
  have q := hH k b hk hb
  rw [show c (k + 1) t * (1 - y) + c (k + 1) b * y - (c k t * (1 - y) + c k b * y) =
    (c (k + 1) t - c k t) * (1 - y) + (c (k + 1) b - c k b) * y by ring]
  refine (abs_add_le _ _).trans ?_
  rw [abs_mul, abs_mul]
  have s : |1 - y| + |y| ≤ 9 / 8 := by
    rcases abs_cases (1 - y) with ⟨h, _⟩ | ⟨h, _⟩ <;> rcases abs_cases y with ⟨h', _⟩ | ⟨h', _⟩ <;> rw [h, h'] <;> linarith
  have p' := mul_le_mul_of_nonneg_right p (abs_nonneg (1 - y))
  have q' := mul_le_mul_of_nonneg_right q (abs_nonneg y)
  nlinarith

/-- How far the value moves when the place in the cell is off, and when the neighbouring cell is used. -/
theorem lin2_near {c : ℕ → ℕ → ℝ} {gw gh l t : ℕ} {H W zx zy ux uy x y dx dy : ℝ}
    (hH : ∀ i j, i + 1 < gw → j < gh → |c (i + 1) j - c i j| ≤ H) (H0 : 0 ≤ H)
    (hW : ∀ i j, i < gw → j + 1 < gh → |c i (j + 1) - c i j| ≤ W) (W0 : 0 ≤ W)
    (hl : l < gw) (ht : t < gh) (zx0 : 0 ≤ zx) (zy0 : 0 ≤ zy) (zxw : ⌊zx⌋₊ < gw) (zyh : ⌊zy⌋₊ < gh)
    (ux0 : 0 ≤ ux) (ux1 : ux ≤ 1 / 16) (uy0 : 0 ≤ uy) (uy1 : uy ≤ 1 / 16)
    (lx : (l : ℝ) ≤ zx + ux) (lx' : zx < l + 1) (ty : (t : ℝ) ≤ zy + uy) (ty' : zy < t + 1)
    (hx : |x - (zx - l)| ≤ dx) (hy : |y - (zy - t)| ≤ dy)
    (x0 : -1 / 16 ≤ x) (x1 : x ≤ 17 / 16) (y0 : -1 / 16 ≤ y) (y1 : y ≤ 17 / 16) :
    |lin2 c gw gh l t x y - lin2 c gw gh ⌊zx⌋₊ ⌊zy⌋₊ (zx - ⌊zx⌋₊) (zy - ⌊zy⌋₊)| ≤
      9 / 8 * H * (dx + 2 * ux) + 9 / 8 * W * (dy + 2 * uy) := by
  have hW' : ∀ k, k + 1 < gh → ∀ i, i < gw → |(fun j i => c i j) (k + 1) i - (fun j i => c i j) k i| ≤ W :=
    fun k hk i hi => hW i k hi hk
  have fx0 : -1 / 16 ≤ zx - ⌊zx⌋₊ := by linarith [Nat.floor_le zx0]
  have fx1 : zx - ⌊zx⌋₊ ≤ 17 / 16 := by linarith [Nat.lt_floor_add_one zx]
  -- along x
  have s1 := lin_lip (c := fun i => lin (c i) gh t y) (rows_le hH H0 ht y0 y1) (by linarith) hl (zx - l) x
  have s2 := lin_shift (c := fun i => lin (c i) gh t y) (rows_le hH H0 ht y0 y1) (by linarith) zx0 (by linarith) hl lx lx'
  have s2 := s2.resolve_right (by linarith)
  -- along y
  have s3 := lin_lip (c := fun j => lin (fun i => c i j) gw ⌊zx⌋₊ (zx - ⌊zx⌋₊))
    (rows_le (c := fun j i => c i j) (gw := gh) (gh := gw) (t := ⌊zx⌋₊) (fun j i hj hi => hW i j hi hj) W0 zxw fx0 fx1) (by linarith) ht
    (zy - t) y
  have s4 := lin_shift (c := fun j => lin (fun i => c i j) gw ⌊zx⌋₊ (zx - ⌊zx⌋₊))
    (rows_le (c := fun j i => c i j) (gw := gh) (gh := gw) (t := ⌊zx⌋₊) (fun j i hj hi => hW i j hi hj) W0 zxw fx0 fx1) (by linarith) zy0
    (by linarith) ht ty ty'
  have s4 := s4.resolve_right (by linarith)
  rw [← lin2_swap, ← lin2_swap] at s3 s4
  change |lin2 c gw gh l t x y - lin2 c gw gh l t (zx - l) y| ≤ _ at s1
  change |lin2 c gw gh l t (zx - l) y - lin2 c gw gh ⌊zx⌋₊ t (zx - ⌊zx⌋₊) y| ≤ _ at s2
  have m1 : 9 / 8 * H * |x - (zx - l)| ≤ 9 / 8 * H * dx := mul_le_mul_of_nonneg_left hx (by linarith)
  have m2 : 9 / 8 * W * |y - (zy - t)| ≤ 9 / 8 * W * dy := mul_le_mul_of_nonneg_left hy (by linarith)
  have e1 := abs_add_le (lin2 c gw gh l t x y - lin2 c gw gh l t (zx - l) y)
    (lin2 c gw gh l t (zx - l) y - lin2 c gw gh ⌊zx⌋₊ t (zx - ⌊zx⌋₊) y)
  rw [sub_add_sub_cancel] at e1
  have e2 := abs_add_le (lin2 c gw gh ⌊zx⌋₊ t (zx - ⌊zx⌋₊) y - lin2 c gw gh ⌊zx⌋₊ t (zx - ⌊zx⌋₊) (zy - t))
    (lin2 c gw gh ⌊zx⌋₊ t (zx - ⌊zx⌋₊) (zy - t) - lin2 c gw gh ⌊zx⌋₊ ⌊zy⌋₊ (zx - ⌊zx⌋₊) (zy - ⌊zy⌋₊))
  rw [sub_add_sub_cancel] at e2
  have e3 := abs_add_le (lin2 c gw gh l t x y - lin2 c gw gh ⌊zx⌋₊ t (zx - ⌊zx⌋₊) y)
    (lin2 c gw gh ⌊zx⌋₊ t (zx - ⌊zx⌋₊) y - lin2 c gw gh ⌊zx⌋₊ ⌊zy⌋₊ (zx - ⌊zx⌋₊) (zy - ⌊zy⌋₊))
  rw [sub_add_sub_cancel] at e3
  linarith

/-- The surface in terms of the cell below `uv`. -/
theorem surface_lin {gw gh : ℕ} {uv : Pt} (hw : 2 ≤ gw) (hh : 2 ≤ gh) (hu : UnitUV uv) (c : ℕ → ℕ → ℝ) :
    ∑ j ∈ Finset.range gh, ∑ i ∈ Finset.range gw, share gw gh uv i j * c i j =
      lin2 c gw gh ⌊uv.x * ((gw : ℝ) - 1)⌋₊ ⌊uv.y * ((gh : ℝ) - 1)⌋₊ (uv.x * (gw - 1) - ⌊uv.x * ((gw : ℝ) - 1)⌋₊)
        (uv.y * (gh - 1) - ⌊uv.y * ((gh : ℝ) - 1)⌋₊) := by
  obtain ⟨u0, u1, v0, v1⟩ := hu
  have hp := MagicLamp.pred_pos hw
  have hq := MagicLamp.pred_pos hh
  have a0 : 0 ≤ uv.x * ((gw : ℝ) - 1) := by positivity
  have b0 : 0 ≤ uv.y * ((gh : ℝ) - 1) := by positivity
  have a1 : uv.x * ((gw : ℝ) - 1) ≤ gw - 1 := by nlinarith
  have b1 : uv.y * ((gh : ℝ) - 1) ≤ gh - 1 := by nlinarith
  rw [surface_sum (l := ⌊uv.x * ((gw : ℝ) - 1)⌋₊) (t := ⌊uv.y * ((gh : ℝ) - 1)⌋₊) c (by rw [Nat.floor_lt a0]; linarith)
    (by rw [Nat.floor_lt b0]; linarith) rfl rfl (by linarith [Nat.floor_le a0]) (by linarith [Nat.lt_floor_add_one (uv.x * ((gw : ℝ) - 1))])
    (by linarith [Nat.floor_le b0]) (by linarith [Nat.lt_floor_add_one (uv.y * ((gh : ℝ) - 1))]) rfl rfl a1 b1]
  unfold lin2 lin
  ring

end

end Verif.Props

namespace Verif.Machine

open XR (fin)
open MagicLamp (pred Params Vertex)

noncomputable section

variable {R : Rounding} {D : Rounding64} {sin sinf cosf : ℝ → ℝ}

local notation "MM" => Machine.ieee R D sin sinf cosf

/-! ## The cell and the place in it -/

theorem double_nat {n : ℕ} (h : n < 2 ^ 53) : Double n :=
  ⟨n, 0, by rw [abs_of_nonneg (Int.natCast_nonneg n)]; exact_mod_cast h, by norm_num, by simp⟩

/-- The cell that the code picks, for any resolution below 2^53. -/
theorem index_ok {n : ℕ} (hn : 1 ≤ n) (hn' : n < 2 ^ 53) {u : ℝ} (h0 : 0 ≤ u) (h1 : u ≤ 1) :
    ∃ k : ℕ, toSize ((MM).mulD (fin u) ((MM).d (fin (pred n)))) = .ok k ∧ k < n ∧
      (k : ℝ) ≤ u * (n - 1) + ((n : ℝ) - 1) / 2 ^ 52 + 1 / 2 ^ 200 ∧ u * (n - 1) < k + 1 := by
  have hp : pred n = ((n - 1 : ℕ) : ℝ) := by
    unfold MagicLamp.pred
    rw [if_neg (by omega), Nat.cast_sub hn, Nat.cast_one]
  have hc : ((n - 1 : ℕ) : ℝ) = (n : ℝ) - 1 := by rw [Nat.cast_sub hn, Nat.cast_one]
  have hN0 : (0 : ℝ) ≤ ((n - 1 : ℕ) : ℝ) := Nat.cast_nonneg _
  have hN53 : ((n - 1 : ℕ) : ℝ) ≤ 2 ^ 53 := by
    have : n - 1 ≤ 2 ^ 53 := by omega
    exact_mod_cast this
  have hd : Double ((n - 1 : ℕ) : ℝ) := double_nat (by omega)
  rw [hp, ← hc]
  set N : ℝ := ((n - 1 : ℕ) : ℝ) with hNdef
  have e1 : (MM).d (fin N) = fin N := by
    rw [ieee_d, (D.result_of_le (k := 53) (by norm_num) (by norm_num) (by rw [abs_of_nonneg hN0]; exact_mod_cast hN53)).1, D.exact hd]
  have z0 : 0 ≤ u * N := mul_nonneg h0 hN0
  have z1 : u * N ≤ N := by nlinarith
  have e2 : (MM).mulD (fin u) (fin N) = fin (D.rnd (u * N)) := by
    unfold mulD
    rw [XR.fin_mul, ieee_d, (D.result_of_le (k := 53) (by norm_num) (by norm_num)
      (by rw [abs_of_nonneg z0]; exact_mod_cast z1.trans hN53)).1]
  rw [e1, e2]
  have r0 : 0 ≤ D.rnd (u * N) := by
    rw [← D.exact double_zero]
    exact D.mono z0
  have r1 : D.rnd (u * N) ≤ N := (D.mono z1).trans_eq (D.exact hd)
  have er := D.error_rel (u * N)
  rw [abs_of_nonneg z0] at er
  have er' := (abs_le.1 er).2
  refine ⟨⌊D.rnd (u * N)⌋₊, ?_, ?_, ?_, ?_⟩
  · unfold toSize
    simp only
    rw [if_neg]
    rw [not_or]
    refine ⟨by linarith, ?_⟩
    rw [not_le]
    refine lt_of_le_of_lt (r1.trans hN53) (by norm_num)
  · have : ⌊D.rnd (u * N)⌋₊ ≤ n - 1 := by
      have := Nat.floor_le_floor r1
      rwa [hNdef, Nat.floor_natCast] at this
    omega
  · have a := Nat.floor_le r0
    have b : u * N / 2 ^ 53 ≤ N / 2 ^ 52 := by
      have := div_le_div_of_nonneg_right z1 (by norm_num : (0 : ℝ) ≤ 2 ^ 53)
      have e : N / 2 ^ 53 ≤ N / 2 ^ 52 := by gcongr; norm_num; norm_num
      exact this.trans e
    linarith
  · by_contra hcon
    rw [not_lt] at hcon
    have hk : ⌊D.rnd (u * N)⌋₊ + 1 < 2 ^ 53 := by
      have h2 : ((⌊D.rnd (u * N)⌋₊ : ℝ) + 1) ≤ N := hcon.trans z1
      have h3 : ⌊D.rnd (u * N)⌋₊ + 1 ≤ n - 1 := by
        have : ((⌊D.rnd (u * N)⌋₊ + 1 : ℕ) : ℝ) ≤ ((n - 1 : ℕ) : ℝ) := by push_cast; exact h2
        exact_mod_cast this
      omega
    have hdk := double_nat hk
    push_cast at hdk
    have := D.mono hcon
    rw [D.exact hdk] at this
    linarith [Nat.lt_floor_add_one (D.rnd (u * N))]

/-- The place in the cell. -/
theorem unit_ok {n : ℕ} (hn : 2 ≤ n) (hn' : n ≤ 2 ^ 16) {u : ℝ} {k : ℕ} (h0 : 0 ≤ u) (h1 : u ≤ 1) (hk : k < n)
    (hk1 : (k : ℝ) ≤ u * (n - 1) + 1 / 64) (hk2 : u * (n - 1) < k + 1) :
    ∃ t, (MM).cellUnit u n k = fin t ∧ |t - (u * (n - 1) - k)| ≤ ((n : ℝ) - 1) / 2 ^ 22 + ((n : ℝ) - 1) / 2 ^ 26 ∧
      -1 / 16 ≤ t ∧ t ≤ 17 / 16 := by
  unfold cellUnit
  simp only
  rw [size_nat (by omega), size_pred hn (by omega)]
  have hN := MagicLamp.pred_pos hn
  have hN1 : (1 : ℝ) ≤ (n : ℝ) - 1 := by
    have : (2 : ℝ) ≤ n := by exact_mod_cast hn
    linarith
  have hN16 : (n : ℝ) - 1 ≤ 2 ^ 16 := by
    have : (n : ℝ) ≤ 2 ^ 16 := by exact_mod_cast hn'
    linarith
  have hkN : (k : ℝ) ≤ (n : ℝ) - 1 := by
    have : (k : ℝ) + 1 ≤ n := by exact_mod_cast hk
    linarith
  have hk0 : (0 : ℝ) ≤ k := Nat.cast_nonneg k
  set N : ℝ := (n : ℝ) - 1 with hNdef
  clear_value N
  have oneA : Approx (fin 1) (1 : ℝ) 1 0 := Approx.const (by norm_num)
  have nc : Approx (fin N) N N 0 := Approx.const (by rw [abs_of_pos hN])
  have inv1 : 1 / N ≤ 1 := by rw [div_le_one hN]; exact hN1
  have inv0 : 0 < 1 / N := by positivity
  have inv16 : 1 / 2 ^ 16 ≤ 1 / N := one_div_le_one_div_of_le hN hN16
  -- the width of a cell
  have cw : Approx ((MM).div (fin 1) (fin N)) (1 / N) (1 / N) (1 / N / 2 ^ 24 + 1 / 2 ^ 150) := by
    have a := (oneA.div nc (m := N) (Q := 1 / N) (by rw [abs_of_pos hN]) hN (by rw [abs_of_pos inv0])).toFloat R
      (by norm_num; norm_num at inv1; linarith)
    refine a.weaken a.size ?_
    simp
  have cw' := cw
  obtain ⟨c, hc, -⟩ := cw'
  rw [hc] at cw ⊢
  have kc : Approx (fin (k : ℝ)) (k : ℝ) k 0 := Approx.const (by rw [abs_of_nonneg hk0])
  have kN1 : k / N ≤ 1 := by rw [div_le_one hN]; exact hkN
  have kN0 : 0 ≤ k / N := by positivity
  have ek : 1 / N * k = k / N := by ring
  have ms : Approx ((MM).mul (fin c) (fin k)) (k / N) 1 (2 / 2 ^ 24 + 1 / 2 ^ 40) := by
    have a := cw.mul kc
    rw [ek] at a
    have b : Approx _ _ 1 (1 / 2 ^ 24 + 1 / 2 ^ 100) := a.weaken (by rw [abs_of_nonneg kN0]; exact kN1) (by
      have e1 : 1 / N / 2 ^ 24 * (k : ℝ) = k / N / 2 ^ 24 := by ring
      have e2 : k / N / 2 ^ 24 ≤ 1 / 2 ^ 24 := by gcongr
      have e3 : 1 / 2 ^ 150 * (k : ℝ) ≤ 1 / 2 ^ 150 * 2 ^ 16 := by
        gcongr
        linarith
      rw [mul_zero, mul_zero, add_zero, add_zero, add_mul, e1]
      norm_num at e2 e3 ⊢
      linarith)
    have d := b.toFloat R (by norm_num)
    exact d.weaken d.size (by norm_num)
  have uA : Approx (fin u) u 1 0 := Approx.const (by rw [abs_of_nonneg h0]; exact h1)
  have sd : Approx ((MM).subD (fin u) ((MM).mul (fin c) (fin k))) (u - k / N) 2 (2 / 2 ^ 24 + 1 / 2 ^ 38) := by
    have a := (uA.sub ms).toDouble D (by norm_num)
    exact a.weaken (a.size.trans (by norm_num)) (by norm_num)
  have ex : (u - k / N) / (1 / N) = u * N - k := by
    field_simp
  have bt : |u * N - k| ≤ 1 := by
    rw [abs_le]
    constructor <;> linarith
  have dv : Approx ((MM).divD ((MM).subD (fin u) ((MM).mul (fin c) (fin k))) (fin c)) (u * N - k) 1
      (N * (3 / 2 ^ 24 + 1 / 2 ^ 30)) := by
    have g1 : 1 / N / 2 ^ 24 + 1 / 2 ^ 150 < 1 / N := by
      norm_num at inv16 ⊢
      linarith
    have a := sd.div cw (m := 1 / N) (Q := 1) (by rw [abs_of_pos inv0]) g1 (by rw [ex]; exact bt)
    rw [ex] at a
    have b : Approx _ _ 1 (N * (3 / 2 ^ 24 + 1 / 2 ^ 35)) := a.weaken a.size (by
      rw [div_le_iff₀ (by linarith)]
      have hi : N * (1 / N) = 1 := by field_simp
      have e1 : N * (3 / 2 ^ 24 + 1 / 2 ^ 35) * (1 / N - (1 / N / 2 ^ 24 + 1 / 2 ^ 150)) =
        (3 / 2 ^ 24 + 1 / 2 ^ 35) * (1 - 1 / 2 ^ 24) * (N * (1 / N)) - (3 / 2 ^ 24 + 1 / 2 ^ 35) / 2 ^ 150 * N := by ring
      rw [e1, hi]
      norm_num at inv1 ⊢
      norm_num at hN16
      linarith)
    have d := b.toDouble D (by norm_num; norm_num at hN16; linarith)
    refine d.weaken d.size ?_
    norm_num
    linarith
  have fl := dv.toFloat R (by norm_num; norm_num at hN16; linarith)
  obtain ⟨t, ht, ht1, -⟩ := fl
  have ht' : (MM).f ((MM).divD ((MM).subD (fin u) ((MM).mul (fin c) (fin k))) (fin c)) = fin t := ht
  have b1 : |t - (u * N - k)| ≤ N / 2 ^ 22 + N / 2 ^ 26 := by
    refine ht1.trans ?_
    norm_num
    linarith
  have b2 : N / 2 ^ 22 + N / 2 ^ 26 ≤ 1 / 32 := by
    norm_num at hN16 ⊢
    linarith
  have b3 := abs_le.1 (b1.trans b2)
  refine ⟨t, ht', b1, ?_, ?_⟩ <;> linarith [b3.1, b3.2]

theorem blend_near {a b t B : ℝ} (ha : |a| ≤ B) (hb : |b| ≤ B) (hB : 1 ≤ B) (hB' : B ≤ 2 ^ 20) (t0 : -1 / 16 ≤ t) (t1 : t ≤ 17 / 16) :
    Approx ((MM).blend (fin a) (fin b) (fin t)) (a * (1 - t) + b * t) (9 / 8 * B) (3 * B / 2 ^ 24) := by
  have oneA : Approx (fin 1) (1 : ℝ) 1 0 := Approx.const (by norm_num)
  have h1 : |1 - t| ≤ 17 / 16 := by rw [abs_le]; constructor <;> linarith
  have h2 : |t| ≤ 17 / 16 := by rw [abs_le]; constructor <;> linarith
  have tA : Approx (fin t) t (17 / 16) 0 := Approx.const h2
  have s : Approx ((MM).sub (fin 1) (fin t)) (1 - t) (17 / 16) (17 / 16 / 2 ^ 24 + 1 / 2 ^ 100) := by
    have q := ((oneA.sub tA).weaken h1 le_rfl).toFloat R (by norm_num)
    exact q.weaken q.size (by norm_num)
  have aA : Approx (fin a) a B 0 := Approx.const ha
  have bA : Approx (fin b) b B 0 := Approx.const hb
  norm_num at hB'
  have p := (aA.mul s).toDouble D (by norm_num; linarith)
  have q := (bA.mul tA).toDouble D (by norm_num; linarith)
  have size : |a * (1 - t) + b * t| ≤ 9 / 8 * B := by
    refine (abs_add_le _ _).trans ?_
    rw [abs_mul, abs_mul]
    have s : |1 - t| + |t| ≤ 9 / 8 := by
      rcases abs_cases (1 - t) with ⟨h, _⟩ | ⟨h, _⟩ <;> rcases abs_cases t with ⟨h', _⟩ | ⟨h', _⟩ <;> rw [h, h'] <;> linarith
    have p' := mul_le_mul_of_nonneg_right ha (abs_nonneg (1 - t))
    have q' := mul_le_mul_of_nonneg_right hb (abs_nonneg t)
    nlinarith
  have r := (((p.add q).weaken size le_rfl).toDouble D (by norm_num; linarith)).toFloat R (by norm_num; linarith)
  refine r.weaken r.size ?_
  norm_num
  linarith

theorem slide_near {u v : XR} {a b t B : ℝ} (ha : Approx u a (9 / 8 * B) (3 * B / 2 ^ 24)) (hb : Approx v b (9 / 8 * B) (3 * B / 2 ^ 24))
    (hB : 1 ≤ B) (hB' : B ≤ 2 ^ 20) (t0 : -1 / 16 ≤ t) (t1 : t ≤ 17 / 16) :
    ∃ z, (MM).slide u v (fin t) = fin z ∧ |z - (a * (1 - t) + b * t)| ≤ B / 2 ^ 20 := by
  have h2 : |t| ≤ 17 / 16 := by rw [abs_le]; constructor <;> linarith
  have tA : Approx (fin t) t (17 / 16) 0 := Approx.const h2
  norm_num at hB'
  have s := (hb.sub ha).toFloat R (by norm_num; linarith)
  have m := (s.mul tA).toFloat R (by norm_num; linarith)
  have size : |a + (b - a) * t| ≤ 9 / 8 * (9 / 8 * B) := by
    rw [show a + (b - a) * t = a * (1 - t) + b * t by ring]
    refine (abs_add_le _ _).trans ?_
    rw [abs_mul, abs_mul]
    have s : |1 - t| + |t| ≤ 9 / 8 := by
      rcases abs_cases (1 - t) with ⟨h, _⟩ | ⟨h, _⟩ <;> rcases abs_cases t with ⟨h', _⟩ | ⟨h', _⟩ <;> rw [h, h'] <;> linarith
    have p' := mul_le_mul_of_nonneg_right ha.size (abs_nonneg (1 - t))
    have q' := mul_le_mul_of_nonneg_right hb.size (abs_nonneg t)
    nlinarith
  have r := ((ha.add m).weaken size le_rfl).toFloat R (by norm_num; linarith)
  obtain ⟨z, hz, h, -⟩ := r
  refine ⟨z, hz, ?_⟩
  rw [show a * (1 - t) + b * t = a + (b - a) * t by ring]
  refine h.trans ?_
  norm_num
  linarith

end

end Verif.Machine
