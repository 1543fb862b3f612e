import Verif.Model.MagicLamp
import Verif.Lemmas.Geometry

/-! Auxiliary facts about the magic lamp. -/

namespace Verif.MagicLamp

open XR (fin)

noncomputable section

/-! ## The write loops -/

theorem write_ok {g : Grid} {k : ℕ} (h : k < g.length) (v : Vertex) :
    write g k v = .ok (g.set k v) := by simp [write, h]

theorem moveRow_ok (p : Params) (r : XR) (j : ℕ) :
    ∀ (n i : ℕ) (g : Grid), j * p.gw + i + n ≤ g.length →
      ∃ g', moveRow p r j i n g = .ok g' ∧ g'.length = g.length ∧
        ∀ k, g'[k]? = if j * p.gw + i ≤ k ∧ k < j * p.gw + i + n
          then some (vertex p r (k - j * p.gw) j) else g[k]? := by
  intro n
  induction n with
  | zero =>
    intro i g _
    refine ⟨g, rfl, rfl, fun k => ?_⟩
    rw [if_neg]; omega
  | succ n ih =>
    intro i g h
    have hk : j * p.gw + i < g.length := by omega
    obtain ⟨g', h1, h2, h3⟩ := ih (i + 1) (g.set (j * p.gw + i) (vertex p r i j))
      (by rw [List.length_set]; omega)
    refine ⟨g', ?_, by rw [h2, List.length_set], fun k => ?_⟩
    · rw [moveRow, write_ok hk]; exact h1
    · rw [h3]
      by_cases hc : k = j * p.gw + i
      · subst hc
        rw [if_neg (by omega), if_pos (by omega), List.getElem?_set_self hk]
        simp
      · by_cases hd : j * p.gw + (i + 1) ≤ k ∧ k < j * p.gw + (i + 1) + n
        · rw [if_pos hd, if_pos (by omega)]
        · rw [if_neg hd, if_neg (by omega), List.getElem?_set_ne (by omega)]

theorem moveRows_ok (p : Params) (r : XR) :
    ∀ (n j : ℕ) (g : Grid), (j + n) * p.gw ≤ g.length →
      ∃ g', moveRows p r j n g = .ok g' ∧ g'.length = g.length ∧
        ∀ k, g'[k]? = if j * p.gw ≤ k ∧ k < (j + n) * p.gw
          then some (vertex p r (k % p.gw) (k / p.gw)) else g[k]? := by
  intro n
  induction n with
  | zero =>
    intro j g _
    refine ⟨g, rfl, rfl, fun k => ?_⟩
    rw [if_neg]; simp
  | succ n ih =>
    intro j g h
    have e : (j + (n + 1)) * p.gw = j * p.gw + p.gw + n * p.gw := by ring
    have e2 : (j + 1 + n) * p.gw = j * p.gw + p.gw + n * p.gw := by ring
    have e3 : (j + 1) * p.gw = j * p.gw + p.gw := by ring
    obtain ⟨g1, h1, h2, h3⟩ := moveRow_ok p r j p.gw 0 g (by omega)
    obtain ⟨g', h4, h5, h6⟩ := ih (j + 1) g1 (by omega)
    refine ⟨g', ?_, by omega, fun k => ?_⟩
    · rw [moveRows, h1]; exact h4
    · rw [h6, e, e2, e3]
      by_cases hc : j * p.gw + p.gw ≤ k ∧ k < j * p.gw + p.gw + n * p.gw
      · rw [if_pos hc, if_pos (by omega)]
      · rw [if_neg hc, h3]
        by_cases hd : j * p.gw + 0 ≤ k ∧ k < j * p.gw + 0 + p.gw
        · rw [if_pos hd, if_pos (by omega)]
          have hpos : 0 < p.gw := by omega
          have hq : k / p.gw = j := by
            apply Nat.div_eq_of_lt_le
            · omega
            · rw [Nat.succ_mul]; omega
          have hm : k % p.gw = k - j * p.gw := by
            have := Nat.div_add_mod k p.gw
            rw [hq, mul_comm] at this
            omega
          rw [hq, hm]
        · rw [if_neg hd, if_neg (by omega)]

/-- A complete pass over a large enough grid. -/
theorem moveGrid_ok (p : Params) (r : XR) (g : Grid) (h : p.gw * p.gh ≤ g.length) :
    ∃ g', moveGrid p r g = .ok g' ∧ g'.length = g.length ∧
      ∀ k, g'[k]? = if k < p.gw * p.gh
        then some (vertex p r (k % p.gw) (k / p.gw)) else g[k]? := by
  obtain ⟨g', h1, h2, h3⟩ := moveRows_ok p r p.gh 0 g (by rw [Nat.zero_add, mul_comm]; exact h)
  refine ⟨g', h1, h2, fun k => ?_⟩
  rw [h3, mul_comm p.gw]
  simp

theorem moveRow_ub (p : Params) (r : XR) (j : ℕ) :
    ∀ (n i : ℕ) (g : Grid), 0 < n → g.length < j * p.gw + i + n →
      moveRow p r j i n g = .ub := by
  intro n
  induction n with
  | zero => intro i g h; omega
  | succ n ih =>
    intro i g _ h
    rw [moveRow]
    by_cases hk : j * p.gw + i < g.length
    · rw [write_ok hk]
      exact ih (i + 1) _ (by omega) (by rw [List.length_set]; omega)
    · simp [write, hk, Outcome.bind]

theorem moveRows_ub (p : Params) (r : XR) (hw : 0 < p.gw) :
    ∀ (n j : ℕ) (g : Grid), 0 < n → g.length < (j + n) * p.gw →
      moveRows p r j n g = .ub := by
  intro n
  induction n with
  | zero => intro i g h; omega
  | succ n ih =>
    intro j g _ h
    have e : (j + (n + 1)) * p.gw = j * p.gw + p.gw + n * p.gw := by ring
    have e2 : (j + 1 + n) * p.gw = j * p.gw + p.gw + n * p.gw := by ring
    rw [moveRows]
    by_cases hk : j * p.gw + p.gw ≤ g.length
    · obtain ⟨g1, h1, h2, _⟩ := moveRow_ok p r j p.gw 0 g (by omega)
      rw [h1]
      refine ih (j + 1) g1 ?_ (by omega)
      rcases Nat.eq_zero_or_pos n with h0 | h0
      · subst h0; rw [e] at h; simp at h; omega
      · exact h0
    · rw [moveRow_ub p r j p.gw 0 g hw (by omega)]; rfl

/-- A pass over a grid that is too small writes out of bounds. -/
theorem moveGrid_ub (p : Params) (r : XR) (g : Grid) (hw : 0 < p.gw) (hh : 0 < p.gh)
    (h : g.length < p.gw * p.gh) : moveGrid p r g = .ub :=
  moveRows_ub p r hw p.gh 0 g hh (by rw [Nat.zero_add, mul_comm]; exact h)

/-! ## The vertex formula over the reals -/

/-- The logistic function. -/
def sig (x bend offset : ℝ) : ℝ := 1 / (1 + Real.exp (-bend * (x - offset)))

theorem sigmoid_fin (x bend offset : ℝ) : sigmoid (fin x) bend offset = fin (sig x bend offset) := by
  have : 1 + Real.exp (-bend * (x - offset)) ≠ 0 := by positivity
  simp only [sigmoid, sig, XR.fin_neg, XR.fin_sub, XR.fin_mul, XR.exp_fin, XR.fin_add,
    XR.fin_div _ this]

theorem sig_strictMono {bend : ℝ} (hb : 0 < bend) (offset : ℝ) {x y : ℝ} (h : x < y) :
    sig x bend offset < sig y bend offset := by
  unfold sig
  apply one_div_lt_one_div_of_lt (by positivity)
  have : Real.exp (-bend * (y - offset)) < Real.exp (-bend * (x - offset)) := by
    apply Real.exp_lt_exp.2; nlinarith
  linarith

theorem sig_mono {bend : ℝ} (hb : 0 < bend) (offset : ℝ) {x y : ℝ} (h : x ≤ y) :
    sig x bend offset ≤ sig y bend offset := by
  rcases h.eq_or_lt with h | h
  · rw [h]
  · exact (sig_strictMono hb offset h).le

/-- How far vertex row `t` still is from its target row. -/
def yFactor (p : Params) (r t : ℝ) : ℝ := min ((1 - r) * (1 / (1 - t * p.stretch))) 1

def srcY (p : Params) (j : ℕ) : ℝ :=
  p.source.tl.y + j * (p.source.br.y - p.source.tl.y) / (p.gh - 1)
def dstY (p : Params) (j : ℕ) : ℝ :=
  p.target.tl.y + j * (p.target.br.y - p.target.tl.y) / (p.gh - 1)
def srcX (p : Params) (i : ℕ) : ℝ :=
  p.source.tl.x + i * (p.source.br.x - p.source.tl.x) / (p.gw - 1)
def dstX (p : Params) (i : ℕ) : ℝ :=
  p.target.tl.x + i * (p.target.br.x - p.target.tl.x) / (p.gw - 1)

def outY (p : Params) (r : ℝ) (j : ℕ) : ℝ :=
  dstY p j + (srcY p j - dstY p j) * yFactor p r (j / (p.gh - 1))

def xProg (p : Params) (r : ℝ) (j : ℕ) : ℝ :=
  min (1 - (p.source.tl.y - outY p r j) / (p.source.tl.y - p.target.tl.y)) 1 *
    min ((1 - r) * p.deformSpeed) 1

def xFactor (p : Params) (r : ℝ) (j : ℕ) : ℝ :=
  (sig (xProg p r j) p.bend p.offset - sig 0 p.bend p.offset) /
    (sig 1 p.bend p.offset - sig 0 p.bend p.offset)

def outX (p : Params) (r : ℝ) (i j : ℕ) : ℝ :=
  dstX p i + (srcX p i - dstX p i) * xFactor p r j

theorem pred_eq {n : ℕ} (h : 2 ≤ n) : pred n = (n : ℝ) - 1 := by
  simp [pred]; omega

theorem pred_pos {n : ℕ} (h : 2 ≤ n) : 0 < (n : ℝ) - 1 := by
  have : (2 : ℝ) ≤ n := by exact_mod_cast h
  linarith

/-- Row fraction in the unit interval. -/
theorem frac_mem {n j : ℕ} (h : 2 ≤ n) (hj : j < n) :
    0 ≤ (j : ℝ) / (n - 1) ∧ (j : ℝ) / (n - 1) ≤ 1 := by
  have := pred_pos h
  have hj' : (j : ℝ) + 1 ≤ n := by exact_mod_cast hj
  constructor
  · positivity
  · rw [div_le_one this]; linarith

theorem stretch_pos {p : Params} {t : ℝ} (ht0 : 0 ≤ t) (ht1 : t ≤ 1) (hs1 : p.stretch < 1) :
    0 < 1 - t * p.stretch := by
  rcases le_total p.stretch 0 with h | h
  · nlinarith
  · nlinarith

/-- With non-degenerate parameters the code computes the real formula. -/
theorem vertex_fin (p : Params) (r : ℝ) {i j : ℕ} (hw : 2 ≤ p.gw) (hh : 2 ≤ p.gh)
    (hj : j < p.gh) (hs1 : p.stretch < 1) (hb : 0 < p.bend)
    (hy : p.source.tl.y ≠ p.target.tl.y) :
    vertex p (fin r) i j = ⟨fin (outX p r i j), fin (outY p r j)⟩ := by
  have h1 := (pred_pos hw).ne'
  have h2 := (pred_pos hh).ne'
  obtain ⟨f0, f1⟩ := frac_mem hh hj
  have h3 := (stretch_pos f0 f1 hs1).ne'
  have h4 : p.source.tl.y - p.target.tl.y ≠ 0 := sub_ne_zero.2 hy
  have h5 : sig 1 p.bend p.offset - sig 0 p.bend p.offset ≠ 0 :=
    (sub_pos.2 (sig_strictMono hb p.offset one_pos)).ne'
  simp only [vertex, pred_eq hw, pred_eq hh, XR.fin_mul, XR.fin_add, XR.fin_sub, XR.fin_div _ h1,
    XR.fin_div _ h2, XR.fin_div _ h3, XR.fin_div _ h4, XR.stdMin_fin, sigmoid_fin, XR.fin_div _ h5]
  rfl

end

end Verif.MagicLamp
