import Verif.Props.LampGrid
import Verif.Lemmas.Outcome

/-! # Magic lamp: exactly when the claims hold (C19, C21, C24) -/

namespace Verif.Props

open XR (fin)
open Spec MagicLamp

noncomputable section

/-! ## The start -/

theorem cast_pred {n : ℕ} (h : 1 ≤ n) : ((n - 1 : ℕ) : ℝ) = (n : ℝ) - 1 := by
  rw [Nat.cast_sub h, Nat.cast_one]

/-- Rows of a lamp at progress 0. -/
theorem lamp_zero {p : Params} (hs : Sensible p) {i j : ℕ} (hj : j < p.gh) :
    vertex p (fin 0) i j = ⟨fin (outX p 0 i j), fin (srcY p j)⟩ := by
  rw [lamp_vertex hs 0 hj, outY, yFactor_zero hs hj]
  congr 2
  ring

theorem xProg_zero {p : Params} (hs : Sensible p) {j : ℕ} (hj : j < p.gh) :
    xProg p 0 j = min (1 + j / (p.gh - 1) * ((p.source.br.y - p.source.tl.y) / (p.source.tl.y - p.target.tl.y))) 1 := by
  have h1 : min ((1 - 0) * p.deformSpeed) 1 = 1 := min_eq_right (by linarith [hs.deformSpeed.1])
  have hY : outY p 0 j = srcY p j := by
    rw [outY, yFactor_zero hs hj]
    ring
  rw [xProg, h1, hY, mul_one, srcY]
  congr 1
  ring

theorem xFactor_one {p : Params} (hs : Sensible p) {r : ℝ} {j : ℕ} (h : xProg p r j = 1) : xFactor p r j = 1 := by
  have h5 : sig 1 p.bend p.offset - sig 0 p.bend p.offset ≠ 0 :=
    (sub_pos.2 (sig_strictMono (by linarith [hs.bend.1]) _ one_pos)).ne'
  rw [xFactor, h, div_self h5]

theorem xFactor_lt {p : Params} (hs : Sensible p) {r : ℝ} {j : ℕ} (h : xProg p r j < 1) : xFactor p r j < 1 := by
  have hb : 0 < p.bend := by linarith [hs.bend.1]
  have h5 : 0 < sig 1 p.bend p.offset - sig 0 p.bend p.offset := sub_pos.2 (sig_strictMono hb _ one_pos)
  rw [xFactor, div_lt_one h5]
  linarith [sig_strictMono hb p.offset h]

/-- **C19.** Exactly when a magic lamp starts at its source. At progress 0 every vertex is at the height of the source
lattice. The grid is the whole source lattice exactly if the target is not on the side to which the source hangs down,
or the two boxes have the same left and right edges. -/
theorem C19_lamp_start_iff (p : Params) (s : Stepper) (ops : List (AnimOp MagicLamp.Setter)) (hk : KeepsResolution ops)
    (ms : ℕ) :
    let a := MagicLamp.cls.run (MagicLamp.new p s).1 ops
    Sensible a.params → (MagicLamp.cls.step a ms).1.progress = fin 0 →
      ∃ g, (MagicLamp.cls.step a ms).1.out = .ok g ∧
        (∀ i j, i < p.gw → j < p.gh → ∃ x, g[j * p.gw + i]? = some ⟨fin x, fin (latticePoint a.params.source p.gw p.gh i j).y⟩) ∧
        (IsLattice g p.gw p.gh a.params.source ↔
          0 ≤ (a.params.source.br.y - a.params.source.tl.y) * (a.params.source.tl.y - a.params.target.tl.y) ∨
          a.params.source.tl.x = a.params.target.tl.x ∧ a.params.source.br.x = a.params.target.br.x) := by
  intro a hs h
  obtain ⟨r, g, _, _, hr, hg, hw, hh, hv⟩ := lamp_step p s ops hk ms
  change a.params.gw = p.gw at hw
  change a.params.gh = p.gh at hh
  change HoldsGrid g p.gw p.gh (vertex a.params (fin r)) at hv
  rw [hr, XR.fin_inj] at h
  subst h
  have hlat : ∀ i j, Vertex.ofPt (latticePoint a.params.source p.gw p.gh i j) =
      ⟨fin (srcX a.params i), fin (srcY a.params j)⟩ := by
    intro i j
    simp only [Vertex.ofPt, latticeX, latticeY, srcX, srcY, hw, hh]
  have hlatY : ∀ i j, (latticePoint a.params.source p.gw p.gh i j).y = srcY a.params j := by
    intro i j
    rw [latticeY, srcY, hh]
  have hyd : a.params.source.tl.y - a.params.target.tl.y ≠ 0 := sub_ne_zero.2 hs.tops
  have hpw := pred_pos hs.gw
  have hph := pred_pos hs.gh
  refine ⟨g, hg, fun i j hi hj => ?_, ?_, ?_⟩
  · rw [hv.2 i j hi hj, lamp_zero hs (by rw [hh]; exact hj), hlatY]
    exact ⟨_, rfl⟩
  · intro hl
    by_contra hne
    rw [not_or, not_le] at hne
    obtain ⟨hneg, hx⟩ := hne
    have hj : a.params.gh - 1 < a.params.gh := by have := hs.gh; omega
    have hprog : xProg a.params 0 (a.params.gh - 1) < 1 := by
      rw [xProg_zero hs hj, cast_pred (by have := hs.gh; omega), div_self hph.ne', one_mul]
      refine min_lt_of_left_lt ?_
      have : (a.params.source.br.y - a.params.source.tl.y) / (a.params.source.tl.y - a.params.target.tl.y) < 0 := by
        rcases lt_or_gt_of_ne hyd with h0 | h0
        · exact div_neg_of_pos_of_neg (by nlinarith) h0
        · exact div_neg_of_neg_of_pos (by nlinarith) h0
      linarith
    have hF := xFactor_lt hs hprog
    have hsame : ∀ i, i < p.gw → srcX a.params i = dstX a.params i := by
      intro i hi
      have e1 := hv.2 i (a.params.gh - 1) hi (by rw [← hh]; exact hj)
      have e2 := hl.2 i (a.params.gh - 1) hi (by rw [← hh]; exact hj)
      simp only at e2
      rw [e1, lamp_zero hs hj, hlat] at e2
      simp only [Option.some.injEq, Vertex.mk.injEq, XR.fin_inj, and_true] at e2
      rw [outX] at e2
      have : (srcX a.params i - dstX a.params i) * (xFactor a.params 0 (a.params.gh - 1) - 1) = 0 := by linarith
      rcases mul_eq_zero.1 this with h0 | h0
      · linarith
      · linarith
    have h0 := hsame 0 (by rw [← hw]; have := hs.gw; omega)
    have h1 := hsame (p.gw - 1) (by rw [← hw]; have := hs.gw; omega)
    have e : ((p.gw - 1 : ℕ) : ℝ) = (a.params.gw : ℝ) - 1 := by
      rw [hw, cast_pred (by rw [← hw]; have := hs.gw; omega)]
    simp only [srcX, dstX, Nat.cast_zero, zero_mul, zero_div, add_zero] at h0
    simp only [srcX, dstX, e, mul_div_right_comm, div_self hpw.ne', one_mul] at h1
    exact hx ⟨h0, by linarith⟩
  · intro hc
    refine holdsGrid_congr hv fun i j hi hj => ?_
    have hj' : j < a.params.gh := by rw [hh]; exact hj
    rw [lamp_zero hs hj', hlat]
    congr 2
    rcases hc with hc | ⟨hx1, hx2⟩
    · have hprog : xProg a.params 0 j = 1 := by
        rw [xProg_zero hs hj']
        refine min_eq_right ?_
        have h1 : 0 ≤ (a.params.source.br.y - a.params.source.tl.y) /
            (a.params.source.tl.y - a.params.target.tl.y) := by
          rw [← mul_div_mul_right _ _ hyd]
          exact div_nonneg hc (mul_self_nonneg _)
        have h2 : (0 : ℝ) ≤ j / (a.params.gh - 1) := by positivity
        have := mul_nonneg h2 h1
        linarith
      rw [outX, xFactor_one hs hprog]
      ring
    · have : srcX a.params i = dstX a.params i := by rw [srcX, dstX, hx1, hx2]
      rw [outX, this]
      ring

example : Sensible ⟨⟨⟨0, 0⟩, ⟨400, 50⟩⟩, ⟨⟨100, 100⟩, ⟨150, 120⟩⟩, 10, 10, 10, 0.5, 0.45, 2.3⟩ ∧
    ¬ 0 ≤ ((50 : ℝ) - 0) * (0 - 100) := by
  refine ⟨?_, by norm_num⟩
  constructor <;> norm_num

/-! ## NaN -/

theorem vertex_one_high (p : Params) (r : XR) (hh : p.gh = 1) (i : ℕ) : (vertex p r i 0).y = .nan := by
  have h1 : fin p.target.tl.y + fin ((0:ℕ):ℝ) * fin (p.target.br.y - p.target.tl.y) / fin (pred p.gh) = .nan := by
    have : pred p.gh = 0 := by simp [pred, hh]
    rw [this, XR.fin_mul, XR.fin_div_zero]
    simp [XR.signed]
    rfl
  show fin p.target.tl.y + fin ((0:ℕ):ℝ) * fin (p.target.br.y - p.target.tl.y) / fin (pred p.gh) + _ = _
  rw [h1]
  rfl

/-- Stretch 1 before the end: the last row does not move. -/
theorem vertex_stretch_last (p : Params) {r : ℝ} (hr : r < 1) (hw : 2 ≤ p.gw) (hh : 2 ≤ p.gh) (hs : p.stretch = 1)
    (hb : 0 < p.bend) (hy : p.source.tl.y ≠ p.target.tl.y) (i : ℕ) : FiniteVertex (vertex p (fin r) i (p.gh - 1)) := by
  have h1 := (pred_pos hw).ne'
  have h2 := (pred_pos hh).ne'
  have e := cast_pred (show 1 ≤ p.gh by omega)
  have h4 : p.source.tl.y - p.target.tl.y ≠ 0 := sub_ne_zero.2 hy
  have h5 : sig 1 p.bend p.offset - sig 0 p.bend p.offset ≠ 0 :=
    (sub_pos.2 (sig_strictMono hb p.offset one_pos)).ne'
  have h6 : XR.signed 1 = .pinf := by simp [XR.signed]
  have h7 : fin (1 - r) * XR.pinf = .pinf := by
    show XR.signed (1 - r) = _
    simp [XR.signed, hr]
  have h8 : XR.stdMin .pinf (fin 1) = fin 1 := by simp [XR.stdMin, XR.lt]
  simp only [vertex, pred_eq hw, pred_eq hh, XR.fin_mul, XR.fin_add, XR.fin_sub, XR.fin_div _ h1,
    XR.fin_div _ h2, e, hs, div_self h2, mul_one, sub_self, XR.fin_div_zero, h6, h7, h8, XR.fin_div _ h4, XR.stdMin_fin,
    sigmoid_fin, XR.fin_div _ h5]
  exact ⟨trivial, trivial⟩

theorem vertex_finite_any (p : Params) {r : ℝ} {i j : ℕ} (hw : 2 ≤ p.gw) (hh : 2 ≤ p.gh) (hj : j < p.gh)
    (hs0 : 0 ≤ p.stretch) (hs : p.stretch ≤ 1) (hb : 0 < p.bend) (hy : p.source.tl.y ≠ p.target.tl.y) (hr1 : r ≤ 1)
    (hlast : ¬ (p.stretch = 1 ∧ r = 1)) : FiniteVertex (vertex p (fin r) i j) := by
  rcases hs.lt_or_eq with hs | hs
  · rw [vertex_fin p r hw hh hj hs hb hy]
    exact ⟨trivial, trivial⟩
  · have hr : r < 1 := lt_of_le_of_ne hr1 fun e => hlast ⟨hs, e⟩
    by_cases hl : j = p.gh - 1
    · rw [hl]
      exact vertex_stretch_last p hr hw hh hs hb hy i
    · have h1 := (pred_pos hw).ne'
      have h2 := (pred_pos hh).ne'
      have h3 : (1 : ℝ) - j / (p.gh - 1) ≠ 0 := by
        intro h0
        have : (j : ℝ) = p.gh - 1 := by
          rw [sub_eq_zero, eq_div_iff h2] at h0
          linarith
        rw [← cast_pred (show 1 ≤ p.gh by omega)] at this
        exact hl (by exact_mod_cast this)
      have h4 : p.source.tl.y - p.target.tl.y ≠ 0 := sub_ne_zero.2 hy
      have h5 : sig 1 p.bend p.offset - sig 0 p.bend p.offset ≠ 0 :=
        (sub_pos.2 (sig_strictMono hb p.offset one_pos)).ne'
      simp only [vertex, pred_eq hw, pred_eq hh, XR.fin_mul, XR.fin_add, XR.fin_sub, XR.fin_div _ h1,
        XR.fin_div _ h2, hs, mul_one, XR.fin_div _ h3, XR.fin_div _ h4, XR.stdMin_fin, sigmoid_fin, XR.fin_div _ h5]
      exact ⟨trivial, trivial⟩

/-- **C21.** Exactly when the magic lamp computes numbers only. With all parameters in the ranges of the GObject
properties, a Step leaves every vertex finite exactly if the grid is at least 2×2, the tops of source and target differ,
and the animation has not just finished with stretch 1. -/
theorem C21_lamp_finite_iff (p : Params) (s : Stepper) (ops : List (AnimOp MagicLamp.Setter)) (hk : KeepsResolution ops)
    (ms : ℕ) (hw : 1 ≤ p.gw) (hh : 1 ≤ p.gh) :
    let a := MagicLamp.cls.run (MagicLamp.new p s).1 ops
    LampInRange a.params →
      ∃ g, (MagicLamp.cls.step a ms).1.out = .ok g ∧
        ((∀ v ∈ g, FiniteVertex v) ↔ 2 ≤ p.gw ∧ 2 ≤ p.gh ∧ a.params.source.tl.y ≠ a.params.target.tl.y ∧
          ¬ (a.params.stretch = 1 ∧ (MagicLamp.cls.step a ms).1.progress = fin 1)) := by
  intro a hs
  obtain ⟨r, g, _, hr1, hr, hg, ew, eh, hv⟩ := lamp_step p s ops hk ms
  change a.params.gw = p.gw at ew
  change a.params.gh = p.gh at eh
  change HoldsGrid g p.gw p.gh (vertex a.params (fin r)) at hv
  have hb : 0 < a.params.bend := by linarith [hs.bend.1]
  refine ⟨g, hg, ?_, ?_⟩
  · intro hfin
    have hmem : ∀ i j, i < p.gw → j < p.gh → FiniteVertex (vertex a.params (fin r) i j) := fun i j hi hj =>
      hfin _ (List.mem_of_getElem? (hv.2 i j hi hj))
    have nanx : ∀ i j, (vertex a.params (fin r) i j).x = .nan → i < p.gw → j < p.gh → False := by
      intro i j h hi hj
      have := (hmem i j hi hj).1
      rw [h] at this
      exact this
    have nany : ∀ i j, (vertex a.params (fin r) i j).y = .nan → i < p.gw → j < p.gh → False := by
      intro i j h hi hj
      have := (hmem i j hi hj).2
      rw [h] at this
      exact this
    have h2w : 2 ≤ p.gw := by
      by_contra hlt
      have e1 : p.gw = 1 := by omega
      exact nanx 0 0 (vertex_one_wide _ _ (by rw [ew, e1]) 0) (by omega) (by omega)
    have h2h : 2 ≤ p.gh := by
      by_contra hlt
      have e1 : p.gh = 1 := by omega
      exact nany 0 0 (vertex_one_high _ _ (by rw [eh, e1]) 0) (by omega) (by omega)
    refine ⟨h2w, h2h, fun ht => ?_, fun ⟨hst, hp1⟩ => ?_⟩
    · exact nanx 0 0 (vertex_equal_tops _ _ (by rw [ew]; exact h2w) (by rw [eh]; exact h2h) ht 0) (by omega) (by omega)
    · rw [hr, XR.fin_inj] at hp1
      rw [hp1] at nany
      have := vertex_stretch_one a.params (by rw [ew]; exact h2w) (by rw [eh]; exact h2h) hst 0
      exact nany 0 (a.params.gh - 1) this (by omega) (by omega)
  · rintro ⟨h2w, h2h, ht, hlast⟩ v hmem
    obtain ⟨k, hk', hk2⟩ := List.mem_iff_getElem.1 hmem
    have hpos : 0 < p.gw := by omega
    have hjlt : k / p.gw < p.gh := by
      rw [Nat.div_lt_iff_lt_mul hpos, mul_comm, ← hv.1]; exact hk'
    have := hv.2 (k % p.gw) (k / p.gw) (Nat.mod_lt _ hpos) hjlt
    rw [Nat.div_add_mod', List.getElem?_eq_getElem hk', hk2, Option.some_inj] at this
    rw [this]
    refine vertex_finite_any _ (by rw [ew]; exact h2w) (by rw [eh]; exact h2h) (by rw [eh]; exact hjlt)
      (by linarith [hs.stretch.1]) hs.stretch.2 hb ht hr1 fun ⟨h1, h2⟩ => hlast ⟨h1, ?_⟩
    rw [hr, h2]

example : LampInRange ⟨⟨⟨0, 500⟩, ⟨400, 800⟩⟩, ⟨⟨100, 0⟩, ⟨150, 20⟩⟩, 10, 10, 10, 0.5, 1, 2.3⟩ := by
  constructor <;> norm_num

/-! ## Storage -/

/-- **C24.** Exactly when a history of calls writes out of bounds: some `Step` is made while the resolution has more
vertices than the one the magic lamp was made with. -/
theorem C24_steps_iff (p : Params) (s : Stepper) (ops : List (AnimOp MagicLamp.Setter)) :
    (MagicLamp.cls.run (MagicLamp.new p s).1 ops).out = .ub ↔
      StepsBeyond (p.gw * p.gh) (p.gw * p.gh) ops := by
  have damaged : ∀ (ops : List (AnimOp MagicLamp.Setter)) (a : Anim Params (Outcome Grid)), a.out = .ub →
      (MagicLamp.cls.run a ops).out = .ub := by
    intro ops
    induction ops with
    | nil => exact fun a h => h
    | cons o ops ih =>
      intro a h
      refine ih (MagicLamp.cls.exec a o) ?_
      cases o with
      | step ms =>
        show MagicLamp.render _ _ a.out = _
        rw [h]
        rfl
      | set s => exact h
      | setStepper s => exact h
  have key : ∀ (ops : List (AnimOp MagicLamp.Setter)) (a : Anim Params (Outcome Grid)) (g : Grid), a.out = .ok g →
      g.length = p.gw * p.gh →
      ((MagicLamp.cls.run a ops).out = .ub ↔ StepsBeyond (p.gw * p.gh) (a.params.gw * a.params.gh) ops) := by
    intro ops
    induction ops with
    | nil =>
      intro a g hg _
      show a.out = .ub ↔ False
      rw [hg]
      simp
    | cons o ops ih =>
      intro a g hg hl
      show (MagicLamp.cls.run (MagicLamp.cls.exec a o) ops).out = .ub ↔ _
      cases o with
      | step ms =>
        simp only [StepsBeyond]
        by_cases hc : p.gw * p.gh < a.params.gw * a.params.gh
        · have hw : 0 < a.params.gw := by
            rcases Nat.eq_zero_or_pos a.params.gw with h | h
            · rw [h, zero_mul] at hc
              omega
            · exact h
          have hh : 0 < a.params.gh := by
            rcases Nat.eq_zero_or_pos a.params.gh with h | h
            · rw [h, mul_zero] at hc
              omega
            · exact h
          refine ⟨fun _ => .inl hc, fun _ => damaged ops _ ?_⟩
          show MagicLamp.render _ _ a.out = _
          rw [hg]
          exact moveGrid_ub _ _ _ hw hh (by rw [hl]; exact hc)
        · obtain ⟨g', e, l, _⟩ := moveGrid_ok a.params (AnimClass.clampedProgress (a.stepper.value ms)) g
            (by rw [hl]; exact not_lt.1 hc)
          have ho : (MagicLamp.cls.exec a (.step ms)).out = .ok g' := by
            show MagicLamp.render _ _ a.out = _
            rw [hg]
            exact e
          rw [ih _ g' ho (l.trans hl)]
          exact ⟨.inr, fun h => h.resolve_left hc⟩
      | set s =>
        cases s <;> exact ih _ g hg hl
      | setStepper s => exact ih _ g hg hl
  obtain ⟨_, _, g, hg, hl⟩ := lampOk_new p s
  exact key ops _ g hg hl

/-- **C24.** Exactly when `Extremes` reads out of bounds: the resolution set last has more vertices than the one the magic
lamp was made with, or none at all, or a Step has already damaged the storage. -/
theorem C24_extremes_iff (p : Params) (s : Stepper) (ops : List (AnimOp MagicLamp.Setter)) :
    let a := MagicLamp.cls.run (MagicLamp.new p s).1 ops
    a.out.bind (extremes a.params.gw a.params.gh) = .ub ↔
      StepsBeyond (p.gw * p.gh) (p.gw * p.gh) ops ∨ a.params.gw = 0 ∨ a.params.gh = 0 ∨
        p.gw * p.gh < a.params.gw * a.params.gh := by
  intro a
  have hlen : ∀ (ops : List (AnimOp MagicLamp.Setter)) (a : Anim Params (Outcome Grid)),
      (a.out = .ub ∨ ∃ g, a.out = .ok g ∧ g.length = p.gw * p.gh) →
      (MagicLamp.cls.run a ops).out = .ub ∨ ∃ g, (MagicLamp.cls.run a ops).out = .ok g ∧ g.length = p.gw * p.gh := by
    intro ops
    induction ops with
    | nil => exact fun a h => h
    | cons o ops ih =>
      intro a h
      refine ih (MagicLamp.cls.exec a o) ?_
      cases o with
      | step ms =>
        show MagicLamp.render _ _ a.out = _ ∨ ∃ g, MagicLamp.render _ _ a.out = _ ∧ _
        rcases h with h | ⟨g, hg, hl⟩
        · left
          rw [h]
          rfl
        · rw [hg]
          by_cases hc : p.gw * p.gh < a.params.gw * a.params.gh
          · left
            have hw : 0 < a.params.gw := by
              rcases Nat.eq_zero_or_pos a.params.gw with h | h
              · rw [h, zero_mul] at hc
                omega
              · exact h
            have hh : 0 < a.params.gh := by
              rcases Nat.eq_zero_or_pos a.params.gh with h | h
              · rw [h, mul_zero] at hc
                omega
              · exact h
            exact moveGrid_ub _ _ _ hw hh (by rw [hl]; exact hc)
          · right
            obtain ⟨g', e, l, _⟩ := moveGrid_ok a.params (AnimClass.clampedProgress (a.stepper.value ms)) g
              (by rw [hl]; exact not_lt.1 hc)
            exact ⟨g', e, l.trans hl⟩
      | set s => exact h
      | setStepper s => exact h
  obtain ⟨_, _, g0, e0, l0⟩ := lampOk_new p s
  rw [← C24_steps_iff p s ops]
  rcases hlen ops (MagicLamp.new p s).1 (.inr ⟨g0, e0, l0⟩) with h | ⟨g, hg, hl⟩
  · change a.out = _ at h
    rw [h]
    exact ⟨fun _ => .inl rfl, fun _ => rfl⟩
  · change a.out = _ at hg
    rw [hg, Outcome.bind_ok]
    simp only [reduceCtorEq, false_or]
    by_cases h0 : a.params.gw = 0 ∨ a.params.gh = 0
    · refine ⟨fun _ => ?_, fun _ => ?_⟩
      · rcases h0 with h0 | h0
        · exact .inl h0
        · exact .inr (.inl h0)
      · rw [extremes, if_pos h0]
    · have hw : 0 < a.params.gw := Nat.pos_of_ne_zero fun h => h0 (.inl h)
      have hh : 0 < a.params.gh := Nat.pos_of_ne_zero fun h => h0 (.inr h)
      have hmul : (a.params.gh - 1) * a.params.gw + a.params.gw = a.params.gw * a.params.gh := by
        rw [← Nat.succ_mul, Nat.succ_eq_add_one, Nat.sub_add_cancel hh, mul_comm]
      have rd : ∀ k, k < g.length → ∃ v, read g k = .ok v := by
        intro k hk
        unfold MagicLamp.read
        rw [List.getElem?_eq_getElem hk]
        exact ⟨_, rfl⟩
      have hgw : a.params.gw ≤ a.params.gw * a.params.gh := Nat.le_mul_of_pos_right _ hh
      rw [extremes, if_neg h0]
      by_cases hc : p.gw * p.gh < a.params.gw * a.params.gh
      · refine ⟨fun _ => .inr (.inr hc), fun _ => ?_⟩
        have hbad : read g ((a.params.gh - 1) * a.params.gw + a.params.gw - 1) = .ub := by
          unfold MagicLamp.read
          rw [List.getElem?_eq_none (by omega)]
        have ub_or : ∀ k, (∃ v, read g k = .ok v) ∨ read g k = .ub := by
          intro k
          unfold MagicLamp.read
          cases g[k]? with
          | some v => exact .inl ⟨v, rfl⟩
          | none => exact .inr rfl
        rcases ub_or 0 with ⟨v1, h1⟩ | h1
        · rw [h1, Outcome.bind_ok]
          rcases ub_or (a.params.gw - 1) with ⟨v2, h2⟩ | h2
          · rw [h2, Outcome.bind_ok]
            rcases ub_or ((a.params.gh - 1) * a.params.gw) with ⟨v3, h3⟩ | h3
            · rw [h3, Outcome.bind_ok, hbad]
              rfl
            · rw [h3]
              rfl
          · rw [h2]
            rfl
        · rw [h1]
          rfl
      · refine ⟨fun h => ?_, fun h => ?_⟩
        · exfalso
          obtain ⟨v1, h1⟩ := rd 0 (by omega)
          obtain ⟨v2, h2⟩ := rd (a.params.gw - 1) (by omega)
          obtain ⟨v3, h3⟩ := rd ((a.params.gh - 1) * a.params.gw) (by omega)
          obtain ⟨v4, h4⟩ := rd ((a.params.gh - 1) * a.params.gw + a.params.gw - 1) (by omega)
          rw [h1, Outcome.bind_ok, h2, Outcome.bind_ok, h3, Outcome.bind_ok, h4, Outcome.bind_ok] at h
          cases h
        · rcases h with h | h | h
          · omega
          · omega
          · exact absurd h hc

/-- A larger resolution does harm only if a Step is made before it is made smaller again. -/
example : ¬ StepsBeyond 100 100 [.step 5, .set (.gridResolution 50 50), .set (.gridResolution 5 20), .step 7] ∧
    StepsBeyond 100 100 [.step 5, .set (.gridResolution 50 50), .step 7] := by
  simp [StepsBeyond]

end

end Verif.Props
