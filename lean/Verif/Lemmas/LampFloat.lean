import Verif.Model.LampFloat
import Verif.Lemmas.Lamp
import Verif.Lemmas.Approx

/-! Auxiliary facts about the rounded magic lamp. -/

namespace Verif.Machine

open XR (fin)
open MagicLamp (Vertex Grid Params pred)

noncomputable section

/-! ## Without rounding it is the magic lamp of `Model/MagicLamp.lean` -/

theorem exact_exp (x : XR) : Machine.exact.exp Real.exp x = XR.exp x := by cases x <;> rfl

theorem exact_sigmoid (x : XR) (b o : ℝ) : Machine.exact.sigmoid Real.exp x b o = MagicLamp.sigmoid x b o := by
  unfold sigmoid MagicLamp.sigmoid
  rw [exact_exp]
  rfl

theorem exact_lampVertex (p : Params) (progress : XR) (i j : ℕ) :
    Machine.exact.lampVertex Real.exp p progress i j = MagicLamp.vertex p progress i j := by
  unfold lampVertex deformation MagicLamp.vertex
  simp only [exact_sigmoid]
  rfl

theorem fillRow_eq (p : Params) (progress : XR) (j : ℕ) :
    ∀ n i g, fillRow p.gw (MagicLamp.vertex p progress) j i n g = MagicLamp.moveRow p progress j i n g := by
  intro n
  induction n with
  | zero => intro i g; rfl
  | succ n ih =>
    intro i g
    unfold fillRow MagicLamp.moveRow
    congr 1
    funext h
    exact ih _ _

theorem fillRows_eq (p : Params) (progress : XR) :
    ∀ n j g, fillRows p.gw (MagicLamp.vertex p progress) j n g = MagicLamp.moveRows p progress j n g := by
  intro n
  induction n with
  | zero => intro i g; rfl
  | succ n ih =>
    intro i g
    unfold fillRows MagicLamp.moveRows
    rw [fillRow_eq]
    congr 1
    funext h
    exact ih _ _

theorem exact_lamp : Machine.exact.lamp Real.exp = MagicLamp.cls := by
  unfold lamp MagicLamp.cls
  congr 1
  funext p progress old
  unfold lampRender MagicLamp.render
  congr 1
  funext g
  rw [show Machine.exact.lampVertex Real.exp p progress = MagicLamp.vertex p progress from
    funext fun i => funext fun j => exact_lampVertex p progress i j, fillRows_eq]
  rfl

theorem exact_toSize {r : ℝ} (h : r < 2 ^ 64) : toSize (fin r) = MagicLamp.toSize r := by
  unfold toSize MagicLamp.toSize
  by_cases h1 : r ≤ -1
  · simp [h1]
  · have : ¬ 2 ^ 64 ≤ r := not_le.2 h
    simp [h1, this]

theorem exact_interpolate (uv : Pt) (gw gh : ℕ) (g : Grid) (h1 : uv.x * pred gw < 2 ^ 64) (h2 : uv.y * pred gh < 2 ^ 64) :
    Machine.exact.lampInterpolate uv gw gh g = MagicLamp.interpolate uv gw gh g := by
  unfold lampInterpolate MagicLamp.interpolate
  rw [show Machine.exact.mulD (fin uv.x) (Machine.exact.d (fin (pred gw))) = fin (uv.x * pred gw) from rfl,
    show Machine.exact.mulD (fin uv.y) (Machine.exact.d (fin (pred gh))) = fin (uv.y * pred gh) from rfl,
    exact_toSize h1, exact_toSize h2]
  rfl

/-! ## The write loops -/

theorem fillRow_ok (gw : ℕ) (f : ℕ → ℕ → Vertex) (j : ℕ) :
    ∀ (n i : ℕ) (g : Grid), j * gw + i + n ≤ g.length →
      ∃ g', fillRow gw f j i n g = .ok g' ∧ g'.length = g.length ∧
        ∀ k, g'[k]? = if j * gw + i ≤ k ∧ k < j * gw + i + n then some (f (k - j * gw) j) else g[k]? := by
  intro n
  induction n with
  | zero =>
    intro i g _
    refine ⟨g, rfl, rfl, fun k => ?_⟩
    rw [if_neg]; omega
  | succ n ih =>
    intro i g h
    have hk : j * gw + i < g.length := by omega
    obtain ⟨g', h1, h2, h3⟩ := ih (i + 1) (g.set (j * gw + i) (f i j)) (by rw [List.length_set]; omega)
    refine ⟨g', ?_, by rw [h2, List.length_set], fun k => ?_⟩
    · rw [fillRow, MagicLamp.write_ok hk]; exact h1
    · rw [h3]
      by_cases hc : k = j * gw + i
      · subst hc
        rw [if_neg (by omega), if_pos (by omega), List.getElem?_set_self hk]
        simp
      · by_cases hd : j * gw + (i + 1) ≤ k ∧ k < j * gw + (i + 1) + n
        · rw [if_pos hd, if_pos (by omega)]
        · rw [if_neg hd, if_neg (by omega), List.getElem?_set_ne (by omega)]

theorem fillRows_ok (gw : ℕ) (f : ℕ → ℕ → Vertex) :
    ∀ (n j : ℕ) (g : Grid), (j + n) * gw ≤ g.length →
      ∃ g', fillRows gw f j n g = .ok g' ∧ g'.length = g.length ∧
        ∀ k, g'[k]? = if j * gw ≤ k ∧ k < (j + n) * gw then some (f (k % gw) (k / gw)) else g[k]? := by
  intro n
  induction n with
  | zero =>
    intro j g _
    refine ⟨g, rfl, rfl, fun k => ?_⟩
    rw [if_neg]; simp
  | succ n ih =>
    intro j g h
    have e : (j + (n + 1)) * gw = j * gw + gw + n * gw := by ring
    have e2 : (j + 1 + n) * gw = j * gw + gw + n * gw := by ring
    have e3 : (j + 1) * gw = j * gw + gw := by ring
    obtain ⟨g1, h1, h2, h3⟩ := fillRow_ok gw f j gw 0 g (by omega)
    obtain ⟨g', h4, h5, h6⟩ := ih (j + 1) g1 (by omega)
    refine ⟨g', ?_, by omega, fun k => ?_⟩
    · rw [fillRows, h1]; exact h4
    · rw [h6, e, e2, e3]
      by_cases hc : j * gw + gw ≤ k ∧ k < j * gw + gw + n * gw
      · rw [if_pos hc, if_pos (by omega)]
      · rw [if_neg hc, h3]
        by_cases hd : j * gw + 0 ≤ k ∧ k < j * gw + 0 + gw
        · rw [if_pos hd, if_pos (by omega)]
          have hq : k / gw = j := by
            apply Nat.div_eq_of_lt_le
            · omega
            · rw [Nat.succ_mul]; omega
          have hm : k % gw = k - j * gw := by
            have := Nat.div_add_mod k gw
            rw [hq, mul_comm] at this
            omega
          rw [hq, hm]
        · rw [if_neg hd, if_neg (by omega)]

/-- A complete pass over a grid of the right size. -/
theorem fill_holds (gw gh : ℕ) (f : ℕ → ℕ → Vertex) (g : Grid) (h : g.length = gw * gh) :
    ∃ g', fillRows gw f 0 gh g = .ok g' ∧ g'.length = gw * gh ∧
      ∀ i j, i < gw → j < gh → g'[j * gw + i]? = some (f i j) := by
  obtain ⟨g', h1, h2, h3⟩ := fillRows_ok gw f gh 0 g (by rw [Nat.zero_add, mul_comm, h])
  refine ⟨g', h1, by rw [h2, h], fun i j hi hj => ?_⟩
  have hb : j * gw + i < gh * gw := by nlinarith
  rw [h3, if_pos ⟨by omega, by rw [Nat.zero_add]; exact hb⟩]
  have hw : 0 < gw := by omega
  have e1 : (j * gw + i) % gw = i := by
    rw [mul_comm, Nat.mul_add_mod, Nat.mod_eq_of_lt hi]
  have e2 : (j * gw + i) / gw = j := by
    rw [mul_comm, Nat.mul_add_div hw, Nat.div_eq_of_lt hi, Nat.add_zero]
  rw [e1, e2]

end

end Verif.Machine
