import Verif.Props.LampEnds
import Verif.Props.LampShape
import Verif.Spec.LampOrder

/-! Auxiliary facts about the order of the lines of a magic lamp. -/

namespace Verif.Props

open XR (fin)
open Spec MagicLamp

noncomputable section

/-- Piecewise linear between the values `c`. -/
def along (n : ℕ) (c : ℕ → ℝ) (v : ℝ) : ℝ := ∑ j ∈ Finset.range n, hat (v * (n - 1) - j) * c j

theorem along_eq {n : ℕ} (hn : 2 ≤ n) (c : ℕ → ℝ) {v : ℝ} (h1 : v ≤ 1) {t : ℕ} (ht : t < n)
    (h2 : 0 ≤ v * (n - 1) - t) (h3 : v * (n - 1) - t < 1) :
    along n c v = (1 - (v * (n - 1) - t)) * c t + (v * (n - 1) - t) * c (min (n - 1) (t + 1)) := by
  have hp := pred_pos hn
  exact hat_sum n t _ _ c ht h2 h3 rfl (by nlinarith)

theorem along_cell {n : ℕ} (hn : 2 ≤ n) {v : ℝ} (h0 : 0 ≤ v) (h1 : v ≤ 1) :
    ∃ t : ℕ, t < n ∧ 0 ≤ v * (n - 1) - t ∧ v * (n - 1) - t < 1 ∧ (t + 1 = n → v * (n - 1) - t = 0) := by
  obtain ⟨t, -, h⟩ := floor_cell hn h0 h1
  exact ⟨t, h⟩

theorem along_between {n : ℕ} (hn : 2 ≤ n) {c : ℕ → ℝ} {a b : ℝ} (hc : ∀ j < n, a ≤ c j ∧ c j ≤ b) {v : ℝ} (h0 : 0 ≤ v)
    (h1 : v ≤ 1) : a ≤ along n c v ∧ along n c v ≤ b := by
  obtain ⟨t, ht, h2, h3, -⟩ := along_cell hn h0 h1
  rw [along_eq hn c h1 ht h2 h3]
  obtain ⟨c1, c2⟩ := hc t ht
  obtain ⟨c3, c4⟩ := hc (min (n - 1) (t + 1)) (by omega)
  constructor <;> nlinarith

theorem along_const {n : ℕ} (hn : 2 ≤ n) (a : ℝ) {v : ℝ} (h0 : 0 ≤ v) (h1 : v ≤ 1) : along n (fun _ => a) v = a := by
  obtain ⟨h2, h3⟩ := along_between hn (c := fun _ => a) (fun _ _ => ⟨le_refl a, le_refl a⟩) h0 h1
  linarith

theorem along_zero {n : ℕ} (hn : 2 ≤ n) (c : ℕ → ℝ) : along n c 0 = c 0 := by
  rw [along_eq hn c zero_le_one (t := 0) (by omega) (by simp) (by simp)]
  simp

theorem along_one {n : ℕ} (hn : 2 ≤ n) (c : ℕ → ℝ) : along n c 1 = c (n - 1) := by
  have e : ((n - 1 : ℕ) : ℝ) = n - 1 := by rw [Nat.cast_sub (by omega)]; simp
  rw [along_eq hn c le_rfl (t := n - 1) (by omega) (by rw [e]; linarith) (by rw [e]; linarith), e]
  simp

theorem along_lt {n : ℕ} (hn : 2 ≤ n) {c : ℕ → ℝ} (hc : ∀ j, j + 1 < n → c j < c (j + 1)) {v v' : ℝ} (h0 : 0 ≤ v)
    (hv : v < v') (h1 : v' ≤ 1) : along n c v < along n c v' := by
  have hp := pred_pos hn
  obtain ⟨t, ht, h2, h3, h4⟩ := along_cell hn h0 (hv.le.trans h1)
  obtain ⟨t', ht', h2', h3', h4'⟩ := along_cell hn (h0.trans hv.le) h1
  rw [along_eq hn c (hv.le.trans h1) ht h2 h3, along_eq hn c h1 ht' h2' h3']
  have hvv : v * ((n : ℝ) - 1) < v' * (n - 1) := mul_lt_mul_of_pos_right hv hp
  have hmono : ∀ k j, j + k < n → c j ≤ c (j + k) := by
    intro k
    induction k with
    | zero => exact fun j _ => le_refl _
    | succ k ih => exact fun j hj => (ih j (by omega)).trans (hc (j + k) (by omega)).le
  have hle : c t' ≤ c (min (n - 1) (t' + 1)) := by
    have := hmono (min (n - 1) (t' + 1) - t') t' (by omega)
    rwa [show t' + (min (n - 1) (t' + 1) - t') = min (n - 1) (t' + 1) by omega] at this
  have htt : t ≤ t' := by
    by_contra hcon
    have : (t' : ℝ) + 1 ≤ t := by exact_mod_cast (by omega : t' + 1 ≤ t)
    linarith
  rcases Nat.eq_or_lt_of_le htt with rfl | hlt
  · have hlast : t + 1 < n := by
      by_contra hcon
      have := h4' (by omega)
      linarith
    have hb : min (n - 1) (t + 1) = t + 1 := by omega
    have := hc t hlast
    rw [hb]
    nlinarith
  · have hb : min (n - 1) (t + 1) = t + 1 := by omega
    have h5 := hc t (by omega)
    have h6 := hmono (t' - (t + 1)) (t + 1) (by omega)
    rw [show t + 1 + (t' - (t + 1)) = t' by omega] at h6
    rw [hb]
    nlinarith

/-- Left end of row `j`. -/
def rowLeft (p : Params) (r : ℝ) (j : ℕ) : ℝ := p.target.tl.x + (p.source.tl.x - p.target.tl.x) * xFactor p r j

/-- Length of row `j`. -/
def rowWidth (p : Params) (r : ℝ) (j : ℕ) : ℝ :=
  (p.target.br.x - p.target.tl.x) +
    ((p.source.br.x - p.source.tl.x) - (p.target.br.x - p.target.tl.x)) * xFactor p r j

theorem outX_row (p : Params) (r : ℝ) (i j : ℕ) :
    outX p r i j = rowLeft p r j + i * rowWidth p r j / (p.gw - 1) := by
  simp only [outX, dstX, srcX, rowLeft, rowWidth]
  ring

/-- What is shown after a step: level lines. -/
theorem lamp_lines {p : Params} (hs : Sensible p) {r : ℝ} {g : Grid} (hv : HoldsGrid g p.gw p.gh (vertex p (fin r)))
    {uv : Pt} (hu : UnitUV uv) :
    interpolate uv p.gw p.gh g = .ok (.ofPt ⟨along p.gh (rowLeft p r) uv.y + uv.x * along p.gh (rowWidth p r) uv.y,
      along p.gh (outY p r) uv.y⟩) := by
  have hv' : HoldsGrid g p.gw p.gh fun i j => .ofPt ⟨outX p r i j, outY p r j⟩ :=
    holdsGrid_congr hv fun i j _ hj => lamp_vertex hs r hj
  obtain ⟨l, t, rr, b, x, y, ll, tl, rl, bl, ex, ey, x0, x1, y0, y1, er, eb, e⟩ := interpolate_eq hs.gw hs.gh hv' hu
  rw [e]
  have hA : ∀ c, along p.gh c uv.y = (1 - y) * c t + y * c b := by
    intro c
    rw [along_eq hs.gh c hu.2.2.2 tl (by rw [← ey]; exact y0) (by rw [← ey]; exact y1), ← ey, ← eb]
  have hline : ∀ j, (1 - x) * outX p r l j + x * outX p r rr j = rowLeft p r j + uv.x * rowWidth p r j := by
    intro j
    rw [outX_row, outX_row, er]
    exact cell_line hs.gw ll hu.2.1 ex x0
  simp only [Vertex.ofPt, Outcome.ok.injEq, Vertex.mk.injEq, XR.fin_inj]
  rw [hA, hA, hA]
  constructor
  · linear_combination (1 - y) * hline t + y * hline b
  · ring

theorem yFactor_mono {p : Params} (hp : Sensible p) {r : ℝ} (h1 : r ≤ 1) {j : ℕ} (hj : j + 1 < p.gh) :
    yFactor p r (j / (p.gh - 1)) ≤ yFactor p r ((j + 1 : ℕ) / (p.gh - 1)) := by
  obtain ⟨f0, f1⟩ := frac_mem hp.gh (show j < p.gh by omega)
  obtain ⟨g0, g1⟩ := frac_mem hp.gh hj
  have hpp := pred_pos hp.gh
  have a1 := stretch_pos f0 f1 hp.stretch.2
  have a2 := stretch_pos g0 g1 hp.stretch.2
  have hs : 0 ≤ p.stretch := by linarith [hp.stretch.1]
  have hle : (j : ℝ) / (p.gh - 1) ≤ (j + 1 : ℕ) / (p.gh - 1) := by
    gcongr
    omega
  refine min_le_min (mul_le_mul_of_nonneg_left (one_div_le_one_div_of_le a2 ?_) (by linarith)) le_rfl
  nlinarith

/-- The rows are in order, if source and target are upright and the source is further down. -/
theorem outY_lt {p : Params} (hp : Sensible p) {r : ℝ} (h1 : r ≤ 1)
    (hS : p.source.tl.y < p.source.br.y) (hT : p.target.tl.y < p.target.br.y) (ht : p.target.tl.y < p.source.tl.y)
    (hb : p.target.br.y ≤ p.source.br.y) {j : ℕ} (hj : j + 1 < p.gh) : outY p r j < outY p r (j + 1) := by
  have hF := yFactor_mono hp h1 hj
  obtain ⟨a0, a1⟩ := yFactor_mem hp h1 (show j < p.gh by omega)
  have hpp := pred_pos hp.gh
  obtain ⟨f0, f1⟩ := frac_mem hp.gh hj
  have e : ∀ k : ℕ, outY p r k = (p.target.tl.y + (k / (p.gh - 1)) * (p.target.br.y - p.target.tl.y)) +
      ((p.source.tl.y + (k / (p.gh - 1)) * (p.source.br.y - p.source.tl.y)) -
      (p.target.tl.y + (k / (p.gh - 1)) * (p.target.br.y - p.target.tl.y))) * yFactor p r (k / (p.gh - 1)) := by
    intro k
    simp only [outY, dstY, srcY]
    ring
  rw [e j, e (j + 1)]
  have hle : (j : ℝ) / (p.gh - 1) < (j + 1 : ℕ) / (p.gh - 1) := by
    gcongr
    omega
  generalize yFactor p r (j / (p.gh - 1)) = F at *
  generalize yFactor p r ((j + 1 : ℕ) / (p.gh - 1)) = F' at *
  generalize (j : ℝ) / (p.gh - 1) = a at *
  generalize ((j + 1 : ℕ) : ℝ) / (p.gh - 1) = a' at *
  have hd : 0 ≤ (p.source.tl.y + a' * (p.source.br.y - p.source.tl.y)) -
      (p.target.tl.y + a' * (p.target.br.y - p.target.tl.y)) := by nlinarith
  have h2 : 0 ≤ (F' - F) * ((p.source.tl.y + a' * (p.source.br.y - p.source.tl.y)) -
      (p.target.tl.y + a' * (p.target.br.y - p.target.tl.y))) := mul_nonneg (by linarith) hd
  have h3 : 0 < (a' - a) * ((p.target.br.y - p.target.tl.y) * (1 - F) + (p.source.br.y - p.source.tl.y) * F) := by
    apply mul_pos (by linarith)
    rcases eq_or_lt_of_le a0 with h | h
    · rw [← h]
      nlinarith
    · nlinarith [mul_pos (sub_pos.2 hS) h]
  nlinarith

theorem xProg_mem {p : Params} (hs : Sensible p) {r : ℝ} (hr1 : r ≤ 1) (hup : Upright p.source)
    (hup' : Upright p.target) (habove : p.target.tl.y < p.source.tl.y) {j : ℕ} (hj : j < p.gh) :
    0 ≤ min (1 - (p.source.tl.y - outY p r j) / (p.source.tl.y - p.target.tl.y)) 1 ∧ 0 ≤ xProg p r j ∧ xProg p r j ≤ 1 := by
  have hfac := yFactor_mem hs hr1 hj
  have hpp := pred_pos hs.gh
  have hS : p.source.tl.y ≤ srcY p j := by
    have hu : 0 ≤ p.source.br.y - p.source.tl.y := sub_nonneg.2 hup
    have : 0 ≤ (j : ℝ) * (p.source.br.y - p.source.tl.y) / (p.gh - 1) := by positivity
    simp only [srcY]; linarith
  have hT : p.target.tl.y ≤ dstY p j := by
    have hu : 0 ≤ p.target.br.y - p.target.tl.y := sub_nonneg.2 hup'
    have : 0 ≤ (j : ℝ) * (p.target.br.y - p.target.tl.y) / (p.gh - 1) := by positivity
    simp only [dstY]; linarith
  have hY : p.target.tl.y ≤ outY p r j := by
    rw [outY]
    nlinarith [mul_nonneg hfac.1 (by linarith : 0 ≤ srcY p j - p.target.tl.y),
      mul_nonneg (by linarith [hfac.2] : 0 ≤ 1 - yFactor p r (j / (p.gh - 1)))
        (by linarith : 0 ≤ dstY p j - p.target.tl.y)]
  have hq0 : 0 ≤ min ((1 - r) * p.deformSpeed) 1 :=
    le_min (mul_nonneg (by linarith) (by linarith [hs.deformSpeed.1])) zero_le_one
  have hd0 : 0 ≤ min (1 - (p.source.tl.y - outY p r j) / (p.source.tl.y - p.target.tl.y)) 1 := by
    refine le_min ?_ zero_le_one
    rw [sub_nonneg, div_le_one (by linarith)]
    linarith
  exact ⟨hd0, mul_nonneg hd0 hq0, mul_le_one₀ (min_le_right _ _) hq0 (min_le_right _ _)⟩

theorem xFactor_mem {p : Params} (hs : Sensible p) {r : ℝ} (hr1 : r ≤ 1) (hup : Upright p.source)
    (hup' : Upright p.target) (habove : p.target.tl.y < p.source.tl.y) {j : ℕ} (hj : j < p.gh) :
    0 ≤ xFactor p r j ∧ xFactor p r j ≤ 1 := by
  have hb : 0 < p.bend := by linarith [hs.bend.1]
  obtain ⟨-, hD0, hD1⟩ := xProg_mem hs hr1 hup hup' habove hj
  have h0 : 0 < sig 1 p.bend p.offset - sig 0 p.bend p.offset := sub_pos.2 (sig_strictMono hb _ (by norm_num))
  refine ⟨div_nonneg (sub_nonneg.2 (sig_mono hb _ hD0)) h0.le, ?_⟩
  rw [xFactor, div_le_one h0]
  linarith [sig_mono hb p.offset hD1]

theorem yFactor_anti {p : Params} (hp : Sensible p) {r r' : ℝ} (h : r ≤ r') {j : ℕ} (hj : j < p.gh) :
    yFactor p r' (j / (p.gh - 1)) ≤ yFactor p r (j / (p.gh - 1)) := by
  obtain ⟨f0, f1⟩ := frac_mem hp.gh hj
  have a1 := stretch_pos f0 f1 hp.stretch.2
  exact min_le_min (mul_le_mul_of_nonneg_right (by linarith) (by positivity)) le_rfl

/-- The factors only shrink as the animation goes on. -/
theorem xFactor_anti {p : Params} (hs : Sensible p) {r r' : ℝ} (h : r ≤ r') (hr1 : r' ≤ 1) (hup : Upright p.source)
    (hup' : Upright p.target) (habove : p.target.tl.y < p.source.tl.y) (hb : p.target.br.y ≤ p.source.br.y) {j : ℕ}
    (hj : j < p.gh) : xFactor p r' j ≤ xFactor p r j := by
  have hbend : 0 < p.bend := by linarith [hs.bend.1]
  have h0 : 0 < sig 1 p.bend p.offset - sig 0 p.bend p.offset := sub_pos.2 (sig_strictMono hbend _ (by norm_num))
  have hY : outY p r' j ≤ outY p r j := by
    have hF := yFactor_anti hs h hj
    have hd : 0 ≤ srcY p j - dstY p j := by
      obtain ⟨f0, f1⟩ := frac_mem hs.gh hj
      have e : srcY p j - dstY p j = (p.source.tl.y + (j / (p.gh - 1)) * (p.source.br.y - p.source.tl.y)) -
        (p.target.tl.y + (j / (p.gh - 1)) * (p.target.br.y - p.target.tl.y)) := by
        simp only [srcY, dstY]
        ring
      rw [e]
      nlinarith
    rw [outY, outY]
    nlinarith
  have hP : xProg p r' j ≤ xProg p r j := by
    obtain ⟨d0, -, -⟩ := xProg_mem hs (h.trans hr1) hup hup' habove hj
    refine mul_le_mul (min_le_min ?_ le_rfl) (min_le_min ?_ le_rfl) ?_ d0
    · have : 0 < p.source.tl.y - p.target.tl.y := by linarith
      have : (p.source.tl.y - outY p r j) / (p.source.tl.y - p.target.tl.y) ≤
          (p.source.tl.y - outY p r' j) / (p.source.tl.y - p.target.tl.y) := by
        gcongr
      linarith
    · have : 0 ≤ p.deformSpeed := by linarith [hs.deformSpeed.1]
      nlinarith
    · exact le_min (mul_nonneg (by linarith) (by linarith [hs.deformSpeed.1])) zero_le_one
  rw [xFactor, xFactor]
  gcongr
  exact sig_mono hbend _ hP

end

end Verif.Props
