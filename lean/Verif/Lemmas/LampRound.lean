import Verif.Lemmas.LampFloat
import Verif.Spec.LampFloat
import Mathlib.Analysis.Complex.ExponentialBounds

/-! Rounding errors of the parts of the magic lamp. -/

namespace Verif

open XR (fin)
open MagicLamp (pred sig)

noncomputable section

/-- The relative error of rounding to `double`, with an absolute part for numbers next to zero. -/
theorem Rounding64.error_rel (D : Rounding64) (x : ℝ) : |D.rnd x - x| ≤ |x| / 2 ^ 53 + 1 / 2 ^ 200 := by
  have tiny : (0 : ℝ) ≤ 1 / 2 ^ 200 := by positivity
  by_cases h : |x| ≤ 2 ^ (-146 : ℤ)
  · have := D.error (by norm_num) h
    have h0 : (0 : ℝ) ≤ |x| / 2 ^ 53 := by positivity
    have e : (2 : ℝ) ^ ((-146 : ℤ) - 54) = 1 / 2 ^ 200 := by norm_num
    rw [e] at this
    linarith
  · rw [not_le] at h
    have hx : 0 < |x| := lt_trans (by positivity) h
    obtain ⟨n, h1, h2⟩ := exists_mem_Ioc_zpow hx (by norm_num : (1 : ℝ) < 2)
    have hn : (-146 : ℤ) < n + 1 := (zpow_lt_zpow_iff_right₀ (by norm_num : (1 : ℝ) < 2)).1 (h.trans_le h2)
    have := D.error (by omega) h2
    have e : (2 : ℝ) ^ (n + 1 - 54) = 2 ^ n / 2 ^ 53 := by
      rw [show n + 1 - 54 = n - (53 : ℕ) by norm_num; ring, zpow_sub₀ (by norm_num), zpow_natCast]
    rw [e] at this
    have : (2 : ℝ) ^ n / 2 ^ 53 ≤ |x| / 2 ^ 53 := by gcongr
    linarith

namespace Approx

variable {u v : XR} {X Y B C e g : ℝ}

theorem err_nonneg (h : Approx v X B e) : 0 ≤ e := by
  obtain ⟨x, -, h1, -⟩ := h
  exact (abs_nonneg _).trans h1

theorem abs_fin {x : ℝ} (h : Approx (fin x) X B e) : |x| ≤ B + e := by
  obtain ⟨y, hy, h1, h2⟩ := h
  rw [XR.fin_inj] at hy
  subst hy
  have := abs_add_le (x - X) X
  rw [sub_add_cancel] at this
  linarith

theorem near {x : ℝ} (h : Approx (fin x) X B e) : |x - X| ≤ e := by
  obtain ⟨y, hy, h1, h2⟩ := h
  rw [XR.fin_inj] at hy
  subst hy
  exact h1

theorem toFloat (h : Approx v X B e) (R : Rounding) (hk : B + e ≤ 2 ^ 127) :
    Approx (R.result v) X B (e + (B + e) / 2 ^ 24 + 1 / 2 ^ 150) := by
  have h' := h
  obtain ⟨x, rfl, a, b⟩ := h
  have hx := h'.abs_fin
  refine ⟨R.rnd x, R.result_of_le (hx.trans hk), ?_, b⟩
  have h1 := R.error_rel x
  have h2 : |x| / 2 ^ 24 ≤ (B + e) / 2 ^ 24 := by gcongr
  have h3 := abs_add_le (R.rnd x - x) (x - X)
  rw [sub_add_sub_cancel] at h3
  linarith

theorem toDouble (h : Approx v X B e) (D : Rounding64) (hk : B + e ≤ 2 ^ 127) :
    Approx (D.result v) X B (e + (B + e) / 2 ^ 53 + 1 / 2 ^ 200) := by
  have h' := h
  obtain ⟨x, rfl, a, b⟩ := h
  have hx := h'.abs_fin
  refine ⟨D.rnd x, (D.result_of_le (k := 127) (by norm_num) (by norm_num) (by exact_mod_cast hx.trans hk)).1, ?_, b⟩
  have h1 := D.error_rel x
  have h2 : |x| / 2 ^ 53 ≤ (B + e) / 2 ^ 53 := by gcongr
  have h3 := abs_add_le (D.rnd x - x) (x - X)
  rw [sub_add_sub_cancel] at h3
  linarith

theorem div (h : Approx u X B e) (h' : Approx v Y C g) {m Q : ℝ} (hm : m ≤ |Y|) (hg : g < m) (hQ : |X / Y| ≤ Q) :
    Approx (u / v) (X / Y) Q ((e + Q * g) / (m - g)) := by
  have he := h.err_nonneg
  have hg0 := h'.err_nonneg
  obtain ⟨x, rfl, h1, h2⟩ := h
  obtain ⟨y, rfl, h3, h4⟩ := h'
  have hQ0 : 0 ≤ Q := (abs_nonneg _).trans hQ
  have hy : m - g ≤ |y| := by
    have := abs_sub_abs_le_abs_sub Y y
    rw [abs_sub_comm] at this
    linarith
  have hmg : 0 < m - g := by linarith
  have hy0 : y ≠ 0 := by
    rintro rfl
    rw [abs_zero] at hy
    linarith
  have hY0 : Y ≠ 0 := by
    rintro rfl
    rw [abs_zero] at hm
    linarith
  refine ⟨x / y, XR.fin_div x hy0, ?_, hQ⟩
  have e1 : x / y - X / Y = ((x - X) - X / Y * (y - Y)) / y := by
    field_simp
    ring
  rw [e1, abs_div]
  refine div_le_div₀ (by positivity) ?_ hmg hy
  refine (abs_sub _ _).trans ?_
  rw [abs_mul]
  have := mul_le_mul hQ h3 (abs_nonneg _) hQ0
  linarith

theorem min_one (h : Approx v X B e) (hB : |min X 1| ≤ C) : Approx (XR.stdMin v (fin 1)) (min X 1) C e := by
  obtain ⟨x, rfl, h1, h2⟩ := h
  refine ⟨min x 1, XR.stdMin_fin x 1, ?_, hB⟩
  refine le_trans ?_ h1
  have := abs_min_sub_min_le_max x 1 X 1
  rwa [sub_self, abs_zero, max_eq_left (abs_nonneg _)] at this

end Approx

namespace Machine

variable {R : Rounding} {D : Rounding64} {sin sinf cosf : ℝ → ℝ}

local notation "MM" => Machine.ieee R D sin sinf cosf

theorem ieee_f (v : XR) : (MM).f v = R.result v := rfl
theorem ieee_d (v : XR) : (MM).d v = D.result v := rfl

theorem size_nat {n : ℕ} (h : n ≤ 2 ^ 24) : (MM).size n = fin n := by
  refine R.result_single (single_nat h) ?_
  rw [abs_of_nonneg (Nat.cast_nonneg n)]
  have : (n : ℝ) ≤ 2 ^ 24 := by exact_mod_cast h
  refine lt_of_le_of_lt this ?_
  norm_num

theorem size_pred {n : ℕ} (h2 : 2 ≤ n) (h : n ≤ 2 ^ 24) : (MM).size (pred n) = fin ((n : ℝ) - 1) := by
  rw [MagicLamp.pred_eq h2]
  have e : (n : ℝ) - 1 = ((n - 1 : ℕ) : ℝ) := by
    rw [Nat.cast_sub (by omega), Nat.cast_one]
  rw [e]
  exact size_nat (by omega)

/-- The computed lattice. -/
theorem lattice_near {lo hi : ℝ} (h1 : |lo| ≤ 2 ^ 13) (h2 : |hi| ≤ 2 ^ 13) {k n : ℕ} (hn : 2 ≤ n) (hn' : n ≤ 2 ^ 24)
    (hk : k < n) :
    Approx ((MM).latticeCoord lo hi k n) (lo + k * (hi - lo) / (n - 1)) (2 ^ 13) (25 / 8192) := by
  unfold latticeCoord side
  rw [size_nat (by omega), size_pred hn hn']
  have hN := MagicLamp.pred_pos hn
  set N : ℝ := (n : ℝ) - 1 with hNdef
  have hkN : (k : ℝ) ≤ N := by
    have : (k : ℝ) + 1 ≤ n := by exact_mod_cast hk
    rw [hNdef]
    linarith
  have hk0 : (0 : ℝ) ≤ k := Nat.cast_nonneg k
  have hN24 : N ≤ 2 ^ 24 := by
    have : (n : ℝ) ≤ 2 ^ 24 := by exact_mod_cast hn'
    rw [hNdef]
    linarith
  have hN1 : 1 ≤ N := by
    have : (2 : ℝ) ≤ n := by exact_mod_cast hn
    rw [hNdef]
    linarith
  clear_value N
  have w : Approx ((MM).f ((MM).subD (fin hi) (fin lo))) (hi - lo) (2 ^ 14) (1 / 2 ^ 10 + 1 / 2 ^ 30) := by
    have a := (((Approx.const h2).sub (Approx.const h1)).toDouble D (by norm_num)).toFloat R (by norm_num)
    exact a.weaken (a.size.trans (by norm_num)) (by norm_num)
  have hW := w.size
  have q : Approx ((MM).mul (fin k) ((MM).f ((MM).subD (fin hi) (fin lo)))) (k * (hi - lo)) (k * 2 ^ 14)
      (k * (2 / 2 ^ 10 + 2 / 2 ^ 30) + 1 / 2 ^ 150) := by
    have kc : Approx (fin k) (k : ℝ) k 0 := Approx.const (by rw [abs_of_nonneg hk0])
    have a := (kc.mul w).toFloat R (by norm_num; nlinarith)
    refine a.weaken a.size ?_
    norm_num
    linarith
  have nc : Approx (fin N) N N 0 := Approx.const (by rw [abs_of_pos hN])
  have hQ : |(k : ℝ) * (hi - lo) / N| ≤ 2 ^ 14 := by
    rw [abs_div, abs_of_pos hN, div_le_iff₀ hN, abs_mul, abs_of_nonneg hk0]
    nlinarith [abs_nonneg (hi - lo)]
  have dv : Approx ((MM).div ((MM).mul (fin k) ((MM).f ((MM).subD (fin hi) (fin lo)))) (fin N))
      (k * (hi - lo) / N) (2 ^ 14) (3 / 2 ^ 10 + 1 / 2 ^ 20) := by
    have a := q.div nc (m := N) (by rw [abs_of_pos hN]) hN hQ
    have b : Approx _ _ _ (2 / 2 ^ 10 + 2 / 2 ^ 30 + 1 / 2 ^ 150) := a.weaken a.size (by
      rw [mul_zero, add_zero, sub_zero, div_le_iff₀ hN]
      nlinarith)
    have c := b.toFloat R (by norm_num)
    exact c.weaken c.size (by norm_num)
  have lc : Approx (fin lo) lo (2 ^ 13) 0 := Approx.const h1
  have s := (lc.add dv).toDouble D (by norm_num)
  refine s.weaken ?_ (by norm_num)
  have e : lo + k * (hi - lo) / N = (1 - k / N) * lo + k / N * hi := by
    field_simp
    ring
  rw [e]
  have t0 : 0 ≤ (k : ℝ) / N := by positivity
  have t1 : (k : ℝ) / N ≤ 1 := by rwa [div_le_one hN]
  rw [abs_le] at h1 h2 ⊢
  constructor
  · nlinarith
  · nlinarith

theorem lattice_first {lo hi : ℝ} (h1 : |lo| ≤ 2 ^ 13) (h2 : |hi| ≤ 2 ^ 13) (hd : Double lo) {n : ℕ} (hn : 2 ≤ n)
    (hn' : n ≤ 2 ^ 24) : (MM).latticeCoord lo hi 0 n = fin lo := by
  unfold latticeCoord side
  have hN := (MagicLamp.pred_pos hn).ne'
  rw [size_pred hn hn', size_nat (by omega)]
  have w : Approx ((MM).f ((MM).subD (fin hi) (fin lo))) (hi - lo) (2 ^ 14) (1 / 2 ^ 10 + 1 / 2 ^ 30) := by
    have a := (((Approx.const h2).sub (Approx.const h1)).toDouble D (by norm_num)).toFloat R (by norm_num)
    exact a.weaken (a.size.trans (by norm_num)) (by norm_num)
  obtain ⟨x, hx, -, -⟩ := w
  have z : (MM).f (fin 0) = fin 0 := R.result_single single_zero (by norm_num)
  rw [hx]
  unfold mul div addD
  rw [XR.fin_mul, Nat.cast_zero, zero_mul, z, XR.fin_div _ hN, zero_div, z, XR.fin_add, add_zero, ieee_d,
    (D.result_of_le (k := 13) (by norm_num) (by norm_num) (by exact_mod_cast h1)).1, D.exact hd]

/-! ## The sigmoid -/

theorem exp_lip (a b : ℝ) : |1 / (1 + Real.exp a) - 1 / (1 + Real.exp b)| ≤ |a - b| := by
  wlog h : a ≤ b generalizing a b
  · rw [abs_sub_comm, abs_sub_comm a b]
    exact this b a (le_of_lt (not_le.1 h))
  have ha := Real.exp_pos a
  have hb := Real.exp_pos b
  have hm := Real.exp_le_exp.2 h
  have key : Real.exp b - Real.exp a ≤ Real.exp b * (b - a) := by
    have e : Real.exp a = Real.exp b * Real.exp (a - b) := by
      rw [← Real.exp_add]
      congr 1
      ring
    have := Real.add_one_le_exp (a - b)
    rw [e]
    nlinarith
  have e : 1 / (1 + Real.exp a) - 1 / (1 + Real.exp b) = (Real.exp b - Real.exp a) / ((1 + Real.exp a) * (1 + Real.exp b)) := by
    field_simp
    ring
  rw [e, abs_of_nonneg (by apply div_nonneg <;> [linarith; positivity]), abs_sub_comm, abs_of_nonneg (by linarith),
    div_le_iff₀ (by positivity)]
  have h0 : 0 ≤ b - a := by linarith
  nlinarith [mul_nonneg h0 ha.le, mul_nonneg h0 hb.le, mul_nonneg (mul_nonneg h0 ha.le) hb.le]

theorem gap {b o : ℝ} (hb : 1 ≤ b) (h0 : 0 ≤ o) (h1 : o ≤ 1) : 1 / 5 ≤ sig 1 b o - sig 0 b o := by
  have m1 : sig 1 1 o ≤ sig 1 b o := by
    unfold sig
    apply one_div_le_one_div_of_le (by positivity)
    have : Real.exp (-b * (1 - o)) ≤ Real.exp (-1 * (1 - o)) := Real.exp_le_exp.2 (by nlinarith)
    linarith
  have m0 : sig 0 b o ≤ sig 0 1 o := by
    unfold sig
    apply one_div_le_one_div_of_le (by positivity)
    have : Real.exp (-1 * (0 - o)) ≤ Real.exp (-b * (0 - o)) := Real.exp_le_exp.2 (by nlinarith)
    linarith
  suffices 1 / 5 ≤ sig 1 1 o - sig 0 1 o by linarith
  unfold sig
  have e1 : Real.exp (-1 * (1 - o)) = Real.exp o / Real.exp 1 := by
    rw [← Real.exp_sub]
    congr 1
    ring
  have e0 : Real.exp (-1 * (0 - o)) = Real.exp o := by
    congr 1
    ring
  rw [e1, e0]
  have he : (2.7 : ℝ) < Real.exp 1 := by
    have := Real.exp_one_gt_d9
    linarith
  have t1 : 1 ≤ Real.exp o := Real.one_le_exp h0
  have t2 : Real.exp o ≤ Real.exp 1 := Real.exp_le_exp.2 h1
  generalize Real.exp o = t at *
  generalize Real.exp 1 = E at *
  have hE : 0 < E := by linarith
  have ht : 0 < t := by linarith
  have e : 1 / (1 + t / E) - 1 / (1 + t) = (E - 1) * t / ((E + t) * (1 + t)) := by
    field_simp
    ring
  rw [e, le_div_iff₀ (by positivity)]
  nlinarith [mul_nonneg (sub_nonneg.2 t1) (sub_nonneg.2 t2)]

/-- Sigmoids of numbers are numbers in the unit interval. -/
theorem sigmoid_unit {ex : ℝ → ℝ} (hex : ∀ x, 0 ≤ ex x) {x b o : ℝ} (hx : |x| ≤ 2 ^ 100) (hb : |b| ≤ 2 ^ 10) (ho : |o| ≤ 2 ^ 10) :
    ∃ s, (MM).sigmoid ex (fin x) b o = fin s ∧ 0 ≤ s ∧ s ≤ 1 := by
  have a := ((Approx.const hx).sub (Approx.const ho)).toFloat R (by norm_num)
  have nb : Approx (fin (-b)) (-b) (2 ^ 10) 0 := Approx.const (by rwa [abs_neg])
  have c := (nb.mul a).toFloat R (by norm_num)
  obtain ⟨y, hy, -, -⟩ := c
  have hy' : (MM).mul (-(fin b)) ((MM).sub (fin x) (fin o)) = fin y := hy
  unfold sigmoid
  rw [hy']
  have e0 : D.rnd 0 = 0 := D.exact double_zero
  have d1 : D.rnd 1 = 1 := by
    have := D.exact (double_pow (k := 0) (by norm_num))
    rwa [zpow_zero] at this
  have q1 : R.rnd 0 = 0 := R.exact single_zero
  have fin01 : ∀ z : ℝ, 0 ≤ z → z ≤ 1 → ∃ s, R.result (fin z) = fin s ∧ 0 ≤ s ∧ s ≤ 1 := fun z h0 h1 =>
    ⟨R.rnd z, R.result_of_le (by rw [abs_of_nonneg h0]; exact h1.trans (by norm_num)), R.nonneg h0, R.le_one h1⟩
  have store : ∀ z : ℝ, 0 ≤ z → D.result (fin z) = .pinf ∨ ∃ w, D.result (fin z) = fin w ∧ 0 ≤ w ∧ (1 ≤ z → 1 ≤ w) := by
    intro z hz
    change D.store z = _ ∨ ∃ w, D.store z = _ ∧ _
    unfold Rounding64.store
    by_cases h : |D.rnd z| < 2 ^ 1024
    · refine Or.inr ⟨D.rnd z, if_pos h, ?_, fun h1 => ?_⟩
      · rw [← e0]
        exact D.mono hz
      · rw [← d1]
        exact D.mono h1
    · rw [if_neg h]
      left
      rcases hz.eq_or_lt with rfl | hz
      · refine absurd ?_ h
        rw [e0, abs_zero]
        positivity
      · unfold XR.signed
        simp [hz]
  have inf : (MM).f ((MM).divD (fin 1) .pinf) = fin 0 := by
    unfold divD
    have : (fin 1 / XR.pinf : XR) = fin 0 := rfl
    rw [this, ieee_d, (D.result_of_le (k := 0) (by norm_num) (by norm_num) (by norm_num)).1, e0, ieee_f,
      R.result_single single_zero (by norm_num)]
  have addinf : (MM).addD (fin 1) .pinf = .pinf := rfl
  change ∃ s, (MM).f ((MM).divD (fin 1) ((MM).addD (fin 1) (D.result (fin (ex y))))) = fin s ∧ _
  rcases store (ex y) (hex y) with h | ⟨w, h, hw, -⟩
  · rw [h, addinf, inf]
    exact ⟨0, rfl, le_rfl, zero_le_one⟩
  · rw [h]
    change ∃ s, (MM).f ((MM).divD (fin 1) (D.result (fin (1 + w)))) = fin s ∧ _
    rcases store (1 + w) (by linarith) with h | ⟨t, h, -, ht⟩
    · rw [h, inf]
      exact ⟨0, rfl, le_rfl, zero_le_one⟩
    · rw [h]
      have ht := ht (by linarith)
      have ht0 : 0 < t := by linarith
      unfold divD
      rw [XR.fin_div _ ht0.ne']
      have u1 : 1 / t ≤ 1 := by rw [div_le_one ht0]; exact ht
      have u0 : 0 ≤ 1 / t := by positivity
      rw [ieee_d, (D.result_of_le (k := 0) (by norm_num) (by norm_num) (by rw [abs_of_nonneg u0]; simpa using u1)).1]
      refine fin01 _ ?_ ?_
      · rw [← e0]
        exact D.mono u0
      · exact (D.mono u1).trans_eq d1

/-- The computed sigmoid. -/
theorem sigmoid_near {ex : ℝ → ℝ} (hex : Spec.GoodExp ex) {v : XR} {X B e b o : ℝ} (hv : Approx v X B e) (hX0 : 0 ≤ X) (hX1 : X ≤ 1)
    (he : e ≤ 1 / 4) (hb0 : 0 ≤ b) (hb : b ≤ 20) (ho0 : 0 ≤ o) (ho : o ≤ 1) :
    Approx ((MM).sigmoid ex v b o) (sig X b o) 1 (20 * (1 + 1 / 2 ^ 22) * e + 1 / 2 ^ 17) := by
  have he0 := hv.err_nonneg
  have hXo : |X - o| ≤ 1 := by rw [abs_le]; constructor <;> linarith
  have oc : Approx (fin o) o 1 0 := Approx.const (by rw [abs_of_nonneg ho0]; exact ho)
  have a1 := hv.sub oc
  have a2 := (a1.weaken hXo le_rfl).toFloat R (by norm_num; linarith)
  have nb : Approx (fin (-b)) (-b) 20 0 := Approx.const (by rw [abs_neg, abs_of_nonneg hb0]; exact hb)
  have a3 := (nb.mul a2).toFloat R (by norm_num; linarith)
  have a4 : Approx ((MM).mul (-(fin b)) ((MM).sub v (fin o))) (-b * (X - o)) 20 (20 * (1 + 1 / 2 ^ 22) * e + 41 / 2 ^ 24) := by
    refine a3.weaken (a3.size.trans (by norm_num)) ?_
    norm_num
    linarith
  obtain ⟨y, hy, hy1, hy2⟩ := a4
  have hy32 : |y| ≤ 32 := by
    have := abs_add_le (y - -b * (X - o)) (-b * (X - o))
    rw [sub_add_cancel] at this
    have small : 20 * (1 + 1 / 2 ^ 22) * e + 41 / 2 ^ 24 ≤ 12 := by
      norm_num
      linarith
    linarith
  have hE := Real.exp_pos y
  have hEbig : Real.exp y ≤ 2 ^ 64 := by
    have h1 : Real.exp y ≤ Real.exp 32 := Real.exp_le_exp.2 (abs_le.1 hy32).2
    have h2 : Real.exp 32 = Real.exp 1 ^ 32 := by rw [← Real.exp_nat_mul]; norm_num
    have h3 : Real.exp 1 ≤ 4 := by linarith [Real.exp_one_lt_d9]
    have h4 : Real.exp 1 ^ 32 ≤ 4 ^ 32 := pow_le_pow_left₀ (Real.exp_pos 1).le h3 32
    norm_num at h4 ⊢
    linarith
  have n1 := hex.near y hy32
  have x0 := hex.nonneg y
  have x1 : ex y ≤ 2 ^ 65 := by
    have := (abs_le.1 n1).2
    norm_num at hEbig ⊢
    linarith
  unfold sigmoid
  rw [hy]
  change Approx ((MM).f ((MM).divD (fin 1) ((MM).addD (fin 1) (D.result (fin (ex y)))))) _ _ _
  obtain ⟨r1, -⟩ := D.result_of_le (k := 65) (x := ex y) (by norm_num) (by norm_num) (by rw [abs_of_nonneg x0]; exact_mod_cast x1)
  have r2 := D.error_rel (ex y)
  have r0 : 0 ≤ D.rnd (ex y) := by
    rw [← (D.exact double_zero)]
    exact D.mono x0
  rw [r1]
  set w := D.rnd (ex y) with hw
  clear_value w
  rw [abs_of_nonneg x0] at r2
  -- the denominator before rounding
  have w1 : |w - Real.exp y| ≤ Real.exp y * (1 / 10 ^ 6 + 1 / 2 ^ 51) + 1 / 2 ^ 200 := by
    have := abs_add_le (w - ex y) (ex y - Real.exp y)
    rw [sub_add_sub_cancel] at this
    have h3 := (abs_le.1 n1).2
    norm_num at *
    linarith
  have wbig : w ≤ 2 ^ 66 := by
    have := (abs_le.1 w1).2
    norm_num at *
    linarith
  have q1 : |1 / (1 + w) - 1 / (1 + Real.exp y)| ≤ 1 / 10 ^ 6 + 1 / 2 ^ 50 := by
    have e1 : 1 / (1 + w) - 1 / (1 + Real.exp y) = (Real.exp y - w) / ((1 + w) * (1 + Real.exp y)) := by
      field_simp
      ring
    rw [e1, abs_div, abs_of_pos (by positivity : 0 < (1 + w) * (1 + Real.exp y)), div_le_iff₀ (by positivity), abs_sub_comm]
    refine w1.trans ?_
    have k1 : 1 + Real.exp y ≤ (1 + w) * (1 + Real.exp y) := by nlinarith
    have k2 : (1 / 10 ^ 6 + 1 / 2 ^ 50) * (1 + Real.exp y) ≤ (1 / 10 ^ 6 + 1 / 2 ^ 50) * ((1 + w) * (1 + Real.exp y)) := by
      gcongr
    norm_num at *
    linarith
  have dw : Approx (fin w) w (2 ^ 66) 0 := Approx.const (by rw [abs_of_nonneg r0]; exact wbig)
  have oneA : Approx (fin 1) (1 : ℝ) 1 0 := Approx.const (by norm_num)
  -- the rounded denominator
  have hw1 : 0 ≤ 1 + w := by linarith
  have hs : |1 + w| ≤ 2 ^ 67 := by
    rw [abs_of_nonneg hw1]
    norm_num at *
    linarith
  obtain ⟨s1, -⟩ := D.result_of_le (k := 67) (x := 1 + w) (by norm_num) (by norm_num) (by exact_mod_cast hs)
  have s2 := D.error_rel (1 + w)
  rw [abs_of_nonneg hw1] at s2
  have s3 : 1 ≤ D.rnd (1 + w) := by
    have := D.exact (double_pow (k := 0) (by norm_num))
    rw [zpow_zero] at this
    rw [← this]
    exact D.mono (by linarith)
  have s1' : (MM).addD (fin 1) (fin w) = fin (D.rnd (1 + w)) := s1
  rw [s1']
  set t := D.rnd (1 + w) with ht
  clear_value t
  have ht0 : 0 < t := by linarith
  have q2 : |1 / t - 1 / (1 + w)| ≤ 1 / 2 ^ 52 := by
    have e1 : 1 / t - 1 / (1 + w) = ((1 + w) - t) / (t * (1 + w)) := by
      field_simp
    rw [e1, abs_div, abs_of_pos (by positivity : 0 < t * (1 + w)), div_le_iff₀ (by positivity), abs_sub_comm]
    refine s2.trans ?_
    have k1 : 1 + w ≤ t * (1 + w) := by nlinarith
    norm_num at *
    linarith
  have tA : Approx (fin (1 / t)) (sig X b o) 1 (20 * (1 + 1 / 2 ^ 22) * e + 41 / 2 ^ 24 + 1 / 10 ^ 6 + 1 / 2 ^ 50 + 1 / 2 ^ 52) := by
    refine ⟨_, rfl, ?_, ?_⟩
    · have l := exp_lip y (-b * (X - o))
      unfold sig
      have t1 := abs_add_le (1 / t - 1 / (1 + w)) (1 / (1 + w) - 1 / (1 + Real.exp y))
      rw [sub_add_sub_cancel] at t1
      have t2 := abs_add_le (1 / t - 1 / (1 + Real.exp y)) (1 / (1 + Real.exp y) - 1 / (1 + Real.exp (-b * (X - o))))
      rw [sub_add_sub_cancel] at t2
      linarith
    · unfold sig
      have p := Real.exp_pos (-b * (X - o))
      rw [abs_of_pos (by positivity), div_le_one (by positivity)]
      linarith
  have fA := (tA.toDouble D (by norm_num; linarith)).toFloat R (by norm_num; linarith)
  unfold divD
  rw [XR.fin_div _ ht0.ne']
  refine fA.weaken fA.size ?_
  norm_num
  linarith

/-! ## Sizes of the intermediate results -/

theorem f_ok {x : ℝ} (h : |x| ≤ 2 ^ 127) : (MM).f (fin x) = fin (R.rnd x) := R.result_of_le h

theorem f_zero : (MM).f (fin 0) = fin 0 := R.result_single single_zero (by norm_num)

theorem below_one {s : ℝ} (hs : Single s) (h : s < 1) : s ≤ 1 - 1 / 2 ^ 24 := by
  by_cases h2 : s < 1 / 2
  · norm_num
    linarith
  · rw [not_lt] at h2
    obtain ⟨j, hj⟩ := single_multiple hs (k := -24) (by rw [abs_of_nonneg (by linarith)]; norm_num; linarith)
    have e : (2 : ℝ) ^ (-24 : ℤ) = 1 / 2 ^ 24 := by norm_num
    rw [e] at hj
    have h3 : (j : ℝ) < 2 ^ 24 := by
      have : (j : ℝ) * (1 / 2 ^ 24) < 1 := by rw [← hj]; exact h
      norm_num at this ⊢
      linarith
    have h4 : j ≤ 2 ^ 24 - 1 := by
      have : j < 2 ^ 24 := by exact_mod_cast h3
      omega
    have h5 : (j : ℝ) ≤ 2 ^ 24 - 1 := by exact_mod_cast h4
    rw [hj]
    norm_num at h5 ⊢
    linarith

/-- The denominator of `yStretchFactor` and the factor itself. -/
theorem factor_ok {s : ℝ} (hs : Single s) (h0 : 0 ≤ s) (h1 : s < 1) {n j : ℕ} (hn : 2 ≤ n) (hn' : n ≤ 2 ^ 24) (hj : j < n) :
    ∃ r, (MM).div (fin 1) ((MM).sub (fin 1) ((MM).mul ((MM).div ((MM).size j) ((MM).size (pred n))) (fin s))) = fin r ∧
      1 ≤ r ∧ r ≤ 2 ^ 24 := by
  obtain ⟨f0, f1⟩ := MagicLamp.frac_mem hn hj
  have hN := MagicLamp.pred_pos hn
  rw [size_nat (by omega), size_pred hn hn']
  have big : (1 : ℝ) ≤ 2 ^ 127 := by norm_num
  unfold div sub mul
  rw [XR.fin_div _ hN.ne', f_ok (by rw [abs_of_nonneg f0]; linarith), XR.fin_mul]
  have g0 := R.nonneg f0
  have g1 := R.le_one f1
  have m0 : 0 ≤ R.rnd (j / ((n : ℝ) - 1)) * s := mul_nonneg g0 h0
  have m1 : R.rnd (j / ((n : ℝ) - 1)) * s ≤ s := by nlinarith
  rw [f_ok (by rw [abs_of_nonneg m0]; linarith), XR.fin_sub]
  have p0 := R.nonneg m0
  have p1 : R.rnd (R.rnd (j / ((n : ℝ) - 1)) * s) ≤ s := (R.mono m1).trans_eq (R.exact hs)
  generalize R.rnd (R.rnd (j / ((n : ℝ) - 1)) * s) = z at *
  have b := below_one hs h1
  have d0 : 1 / 2 ^ 24 ≤ 1 - z := by linarith
  have d0' : 0 ≤ 1 - z := by linarith
  rw [f_ok (by rw [abs_of_nonneg d0']; linarith)]
  have q0 : 1 / 2 ^ 24 ≤ R.rnd (1 - z) := by
    have e : (2 : ℝ) ^ (-24 : ℤ) = 1 / 2 ^ 24 := by norm_num
    have := R.exact (single_pow (k := -24) (by norm_num))
    rw [e] at this
    rw [← this]
    exact R.mono d0
  have q1 : R.rnd (1 - z) ≤ 1 := R.le_one (by linarith)
  generalize R.rnd (1 - z) = w at *
  have hw : 0 < w := lt_of_lt_of_le (by norm_num) q0
  rw [XR.fin_div _ hw.ne']
  have v1 : 1 ≤ 1 / w := by rw [le_div_iff₀ hw]; linarith
  have v2 : 1 / w ≤ 2 ^ 24 := by
    rw [div_le_iff₀ hw]
    norm_num at q0 ⊢
    linarith
  refine ⟨R.rnd (1 / w), f_ok ?_, R.one_le v1, ?_⟩
  · rw [abs_of_nonneg (by linarith)]
    refine v2.trans (by norm_num)
  · have e := R.exact (single_pow (k := 24) (by norm_num))
    rw [show (2 : ℝ) ^ (24 : ℤ) = 2 ^ 24 by norm_cast] at e
    exact (R.mono v2).trans_eq e

theorem stretch_ok {s : ℝ} (hs : Single s) (h0 : 0 ≤ s) (h1 : s < 1) {n j : ℕ} (hn : 2 ≤ n) (hn' : n ≤ 2 ^ 24) (hj : j < n)
    {q : ℝ} (hq0 : 0 ≤ q) (hq1 : q ≤ 1) :
    ∃ t, (MM).stretchProgress s n (fin q) j = fin t ∧ 0 ≤ t ∧ t ≤ 1 ∧ (q = 0 → t = 0) := by
  obtain ⟨r, hr, r1, r2⟩ := factor_ok (R := R) (D := D) (sin := sin) (sinf := sinf) (cosf := cosf) hs h0 h1 hn hn' hj
  unfold stretchProgress
  simp only
  rw [hr]
  unfold mul
  have m0 : 0 ≤ q * r := mul_nonneg hq0 (by linarith)
  rw [XR.fin_mul, f_ok (by rw [abs_of_nonneg m0]; norm_num at *; nlinarith), XR.stdMin_fin]
  refine ⟨_, rfl, le_min (R.nonneg m0) zero_le_one, min_le_right _ _, fun h => ?_⟩
  rw [h, zero_mul, R.exact single_zero]
  simp

theorem lattice_double {lo hi : ℝ} {k n : ℕ} {x : ℝ} (h : (MM).latticeCoord lo hi k n = fin x) : Double x := by
  unfold latticeCoord addD at h
  rw [ieee_d] at h
  cases hz : (fin lo + (MM).div ((MM).mul ((MM).size k) ((MM).side lo hi)) ((MM).size (pred n))) with
  | fin z =>
    rw [hz] at h
    change D.store z = fin x at h
    unfold Rounding64.store at h
    split_ifs at h with h1
    · rw [XR.fin_inj] at h
      rw [← h]
      exact D.double z
    · unfold XR.signed at h
      split_ifs at h
  | _ => rw [hz] at h; cases h

theorem Approx_bound {v : XR} {X B e : ℝ} (h : Approx v X B e) : ∃ x, v = fin x ∧ |x| ≤ B + e := by
  have h' := h
  obtain ⟨x, rfl, -, -⟩ := h
  exact ⟨x, rfl, h'.abs_fin⟩

end Machine

end

end Verif
