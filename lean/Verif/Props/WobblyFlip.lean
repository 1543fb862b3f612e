import Verif.Lemmas.WobblyFlip
import Verif.Props.WobblyHang

/-! # A wobbly model treats rows and columns alike (C119) -/

namespace Verif.Props

open Wobbly Spec Outcome

noncomputable section

/-- **C119.** The same history with all coordinates exchanged, on a model made with its coordinates, width and height
exchanged, returns the same values and leads to the same model with rows and columns exchanged, or fails in the same way,
as long as what a grab or an insertion looks for there is only one of. -/
theorem C119_rows_and_columns (p : Pt) (w h : ℝ) (x : Settings) (b : ℕ) (ops : List Op)
    (hn : AllAlong NoTie (State.new p w h x b) ops) :
    Matches (fun r r' => r'.2 = r.2 ∧ Transposed r.1 r'.1) ((State.new p w h x b).run ops)
      ((State.new (swapXY p) h w x b).run (ops.map flipOp)) := by
  have h1 := run_flip (renumber_inj b) (fun _ => renumber_fix) ops (inv_new p w h x b) (flipped_new p w h x b) hn
  cases hx : (State.new p w h x b).run ops <;> rw [hx] at h1 <;>
    cases hy : (State.new (swapXY p) h w x b).run (ops.map flipOp) <;> rw [hy] at h1 <;>
    first
    | exact ⟨h1.1, transposed_of h1.2⟩
    | exact h1.elim
    | trivial

/-- **C119.** What `DeformTexcoords` and `Extremes` (top left, top right, bottom left, bottom right) return is exchanged
too. -/
theorem C119_reading {s s' : State} (h : Transposed s s') :
    (∀ u v, deformTexcoords s'.pos ⟨v, u⟩ = swapXY (deformTexcoords s.pos ⟨u, v⟩)) ∧
    extremes s'.pos = (swapXY (extremes s.pos).1, swapXY (extremes s.pos).2.2.1, swapXY (extremes s.pos).2.1,
      swapXY (extremes s.pos).2.2.2) :=
  ⟨fun u v => deform_flip (turned_iff.2 h.pos) ⟨u, v⟩, extremes_flip (turned_iff.2 h.pos)⟩

/-- A model of 300 by 600 pixels and one of 600 by 300. -/
example (x : Settings) (b : ℕ) : Transposed (State.new ⟨5, 7⟩ 300 600 x b) (State.new ⟨7, 5⟩ 600 300 x b) :=
  transposed_of (flipped_new ⟨5, 7⟩ 300 600 x b)

theorem euclid_sq_le {p q p' q' : Pt} (h : (p.x - q.x) ^ 2 + (p.y - q.y) ^ 2 ≤ (p'.x - q'.x) ^ 2 + (p'.y - q'.y) ^ 2) :
    euclid p q ≤ euclid p' q' := Real.sqrt_le_sqrt h

theorem sq_le_of_euclid {p q p' q' : Pt} (h : euclid p q ≤ euclid p' q') :
    (p.x - q.x) ^ 2 + (p.y - q.y) ^ 2 ≤ (p'.x - q'.x) ^ 2 + (p'.y - q'.y) ^ 2 :=
  (Real.sqrt_le_sqrt_iff (by positivity)).1 h

theorem wide_pos (x : Settings) (b : ℕ) (i : Idx) :
    (State.new ⟨0, 0⟩ 300 600 x b).pos i = ⟨col i * 100, row i * 200⟩ := by
  ext <;> simp [State.new, positionArray] <;> norm_num

/-- A model of 300 by 600 pixels that is grabbed near its corner, dragged, watched for a while, resized, moved and
released. -/
example (x : Settings) (b : ℕ) : AllAlong NoTie (State.new ⟨0, 0⟩ 300 600 x b)
    [.grab ⟨10, 20⟩, .moveAnchor 0 ⟨30, 5⟩, .step 16, .resize 200 100, .step 32, .moveTo ⟨7, 8⟩, .release 0, .step 16] := by
  have key : ∀ i, (∀ k, euclid ⟨10, 20⟩ ((State.new ⟨0, 0⟩ 300 600 x b).pos i) ≤
      euclid ⟨10, 20⟩ ((State.new ⟨0, 0⟩ 300 600 x b).pos k)) → i = 0 := by
    intro i h
    have h0 := sq_le_of_euclid (h 0)
    rw [wide_pos, wide_pos] at h0
    norm_num [show col 0 = 0 from rfl, show row 0 = 0 from rfl] at h0
    have hc : col i = 0 := by
      by_contra hne
      have : (1 : ℝ) ≤ col i := by exact_mod_cast Nat.one_le_iff_ne_zero.2 hne
      nlinarith [sq_nonneg ((20 : ℝ) - row i * 200)]
    have hr : row i = 0 := by
      by_contra hne
      have : (1 : ℝ) ≤ row i := by exact_mod_cast Nat.one_le_iff_ne_zero.2 hne
      nlinarith [sq_nonneg ((10 : ℝ) - col i * 100)]
    have hz : ∀ i : Idx, col i = 0 → row i = 0 → i = 0 := by decide
    exact hz i hc hr
  refine ⟨fun i j hi hj => (key i hi).trans (key j hj).symm, fun _ _ _ => ?_⟩
  exact ⟨trivial, fun _ _ _ => ⟨trivial, fun _ _ _ => ⟨trivial, fun _ _ _ => ⟨trivial, fun _ _ _ => ⟨trivial, fun _ _ _ =>
    ⟨trivial, fun _ _ _ => ⟨trivial, fun _ _ _ => trivial⟩⟩⟩⟩⟩⟩⟩

/-- An anchor put in next to the corner: only one spring is nearest. -/
example (x : Settings) (b : ℕ) : AllAlong NoTie (State.new ⟨0, 0⟩ 300 600 x b) [.insert ⟨10, 20⟩, .moveAnchor 0 ⟨3, 4⟩, .step 16] := by
  refine ⟨⟨?_, ?_, ?_, ?_⟩, fun _ _ _ => ⟨trivial, fun _ _ _ => ⟨trivial, fun _ _ _ => trivial⟩⟩⟩
  · have hmem : ∀ y ∈ (State.new ⟨0, 0⟩ 300 600 x b).springs, ∃ e ∈ baseEdges.zipIdx,
        y = ⟨b + e.2 + 1, .mesh e.1.1, .mesh e.1.2.1, if e.1.2.2 then ⟨0, 600 / (4 - 1)⟩ else ⟨300 / (4 - 1), 0⟩⟩ := by
      intro y hy
      simp only [State.new, baseSprings, List.mem_map] at hy
      obtain ⟨e, he, rfl⟩ := hy
      exact ⟨e, he, rfl⟩
    have h0 : (⟨b + 0 + 1, .mesh 0, .mesh 4, ⟨0, 600 / (4 - 1)⟩⟩ : Spring) ∈ (State.new ⟨0, 0⟩ 300 600 x b).springs := by
      simp only [State.new, baseSprings, List.mem_map]
      exact ⟨((0, 4, true), 0), by decide, rfl⟩
    have h1 : (⟨b + 1 + 1, .mesh 0, .mesh 1, ⟨300 / (4 - 1), 0⟩⟩ : Spring) ∈ (State.new ⟨0, 0⟩ 300 600 x b).springs := by
      simp only [State.new, baseSprings, List.mem_map]
      exact ⟨((0, 1, false), 1), by decide, rfl⟩
    have hed : ∀ e ∈ baseEdges.zipIdx, e.1.1 = 0 → e = ((0, 4, true), 0) ∨ e = ((0, 1, false), 1) := by decide
    have key : ∀ y ∈ (State.new ⟨0, 0⟩ 300 600 x b).springs, NearestSpring (State.new ⟨0, 0⟩ 300 600 x b) ⟨10, 20⟩ y →
        y = ⟨b + 1 + 1, .mesh 0, .mesh 1, ⟨300 / (4 - 1), 0⟩⟩ := by
      intro y hy hn
      obtain ⟨e, he, rfl⟩ := hmem y hy
      have k0 := sq_le_of_euclid (hn.1 _ h0)
      have k1 : ((State.new ⟨0, 0⟩ 300 600 x b).env.at_ (State.new ⟨0, 0⟩ 300 600 x b).pos (.mesh e.1.1)) = _ := wide_pos x b e.1.1
      have k2 : ((State.new ⟨0, 0⟩ 300 600 x b).env.at_ (State.new ⟨0, 0⟩ 300 600 x b).pos (.mesh 0)) = _ := wide_pos x b 0
      rw [k1, k2] at k0
      norm_num [show col 0 = 0 from rfl, show row 0 = 0 from rfl] at k0
      have hc : col e.1.1 = 0 := by
        by_contra hne
        have : (1 : ℝ) ≤ col e.1.1 := by exact_mod_cast Nat.one_le_iff_ne_zero.2 hne
        nlinarith [sq_nonneg ((row e.1.1 : ℝ) * 200 - 20)]
      have hr : row e.1.1 = 0 := by
        by_contra hne
        have : (1 : ℝ) ≤ row e.1.1 := by exact_mod_cast Nat.one_le_iff_ne_zero.2 hne
        nlinarith [sq_nonneg ((col e.1.1 : ℝ) * 100 - 10)]
      have hz : ∀ i : Idx, col i = 0 → row i = 0 → i = 0 := by decide
      rcases hed e he (hz _ hc hr) with rfl | rfl
      · exfalso
        have k3 := sq_le_of_euclid (hn.2 _ h1 rfl)
        have k4 : ((State.new ⟨0, 0⟩ 300 600 x b).env.at_ (State.new ⟨0, 0⟩ 300 600 x b).pos (.mesh 4)) = _ := wide_pos x b 4
        have k5 : ((State.new ⟨0, 0⟩ 300 600 x b).env.at_ (State.new ⟨0, 0⟩ 300 600 x b).pos (.mesh 1)) = _ := wide_pos x b 1
        simp only at k3
        rw [k4, k5] at k3
        norm_num [show col 1 = 1 from rfl, show row 1 = 0 from rfl, show col 4 = 0 from rfl, show row 4 = 1 from rfl] at k3
      · rfl
    exact fun y hy z hz hny hnz => (key y hy hny).trans (key z hz hnz).symm
  · exact new_injective (by norm_num) (by norm_num)
  · intro y hy
    obtain ⟨⟨i, hi⟩, j, hj⟩ := baseSprings_mesh hy
    have hrep : ∀ i, Representable ((State.new ⟨0, 0⟩ 300 600 x b).pos i) := by
      intro i
      rw [wide_pos]
      obtain ⟨l1, l2⟩ := lattice_bounds i
      refine rep_small ?_ ?_
      · simp only
        rw [abs_of_nonneg (by positivity)]
        linarith
      · simp only
        rw [abs_of_nonneg (by positivity)]
        linarith
    rw [hi, hj]
    exact ⟨hrep i, hrep j⟩
  · exact rep_small (by norm_num) (by norm_num)

/-- **C119 (negation).** Among equals the code takes the first row by row, which is not the first column by column. A square
model, and calls that are the same with coordinates exchanged: hold two points on the diagonal and pull them apart, then
grab half way between the two points beside the diagonal. The upper right one is taken, so the model is not its own
exchange. -/
theorem C119_ties (x : Settings) (b : ℕ) :
    ∃ ops s rs, ops.map flipOp = ops ∧ (State.new ⟨0, 0⟩ 300 300 x b).run ops = .ok (s, rs) ∧ ¬ Transposed s s := by
  have hpos : ∀ i, (State.new ⟨0, 0⟩ 300 300 x b).pos i = ⟨col i * 100, row i * 100⟩ := demo_pos
  obtain ⟨s2, rs2, e2, hH⟩ := hold_points ⟨0, 0⟩ (w := 300) (h := 300) x b (by norm_num) (by norm_num) demo_rep [0, 5]
  have hl : s2.live = [⟨0, .grab 0⟩, ⟨1, .grab 5⟩] := hH.live
  have hc : s2.count = 2 := hH.count
  have e3 := moveAnchor_grab_inactive (s := s2) (k := 0) (i := 0) (d := ⟨-100, -100⟩) (by omega) (by rw [hl]; rfl)
  set s3 : State := { s2 with pos := Function.update s2.pos 0 (s2.pos 0 + ⟨-100, -100⟩) } with hs3
  have e4 := moveAnchor_grab_inactive (s := s3) (k := 1) (i := 5) (d := ⟨50, 50⟩) (by show s2.count ≠ 1; omega)
    (by show s2.live.find? _ = _; rw [hl]; rfl)
  set s4 : State := { s3 with pos := Function.update s3.pos 5 (s3.pos 5 + ⟨50, 50⟩) } with hs4
  have p4 : ∀ i, i ≠ 0 → i ≠ 5 → s4.pos i = ⟨col i * 100, row i * 100⟩ := by
    intro i h0 h5
    show Function.update s3.pos 5 (s3.pos 5 + ⟨50, 50⟩) i = _
    rw [Function.update_of_ne h5]
    show Function.update s2.pos 0 (s2.pos 0 + ⟨-100, -100⟩) i = _
    rw [Function.update_of_ne h0, hH.pos]
    exact hpos i
  have p0 : s4.pos 0 = ⟨-100, -100⟩ := by
    show Function.update s3.pos 5 (s3.pos 5 + ⟨50, 50⟩) 0 = _
    rw [Function.update_of_ne (by decide)]
    show Function.update s2.pos 0 (s2.pos 0 + ⟨-100, -100⟩) 0 = _
    rw [Function.update_self, hH.pos, hpos]
    ext <;> norm_num [show col 0 = 0 from rfl, show row 0 = 0 from rfl]
  have p5 : s4.pos 5 = ⟨150, 150⟩ := by
    show Function.update s3.pos 5 (s3.pos 5 + ⟨50, 50⟩) 5 = _
    rw [Function.update_self]
    show Function.update s2.pos 0 (s2.pos 0 + ⟨-100, -100⟩) 5 + ⟨50, 50⟩ = _
    rw [Function.update_of_ne (by decide), hH.pos, hpos]
    ext <;> norm_num [show col 5 = 1 from rfl, show row 5 = 1 from rfl]
  have p1 : s4.pos 1 = ⟨100, 0⟩ := by
    rw [p4 1 (by decide) (by decide)]
    norm_num [show col 1 = 1 from rfl, show row 1 = 0 from rfl]
  have hmin : ∀ j, euclid ⟨50, 50⟩ (s4.pos 1) ≤ euclid ⟨50, 50⟩ (s4.pos j) := by
    intro j
    apply euclid_sq_le
    rw [p1]
    by_cases h0 : j = 0
    · rw [h0, p0]; norm_num
    by_cases h5 : j = 5
    · rw [h5, p5]; norm_num
    rw [p4 j h0 h5]
    have hn : ∀ n : ℕ, (2500 : ℝ) ≤ (50 - n * 100) ^ 2 := by
      intro n
      rcases Nat.eq_zero_or_pos n with rfl | hn
      · norm_num
      · have : (1 : ℝ) ≤ n := by exact_mod_cast hn
        nlinarith
    have h1 := hn (col j)
    have h2 := hn (row j)
    norm_num
    linarith
  have hi : closestIndex s4.pos ⟨50, 50⟩ = some 1 := by
    rcases closestIndex_spec s4.pos ⟨50, 50⟩ with ⟨-, h⟩ | ⟨i, h, hf1, hf2⟩
    · exfalso
      refine absurd (h 1) (not_le.2 (distance_lt_dblMax (rep_small ?_ ?_) (rep_small ?_ ?_)))
      · norm_num
      · norm_num
      · rw [p1]; norm_num
      · rw [p1]; norm_num
    · have h1 : ¬ 1 < i := fun hlt => absurd (hf2 1 hlt) (not_lt.2 (hmin i))
      have h0 : i ≠ 0 := by
        rintro rfl
        have := sq_le_of_euclid (hf1 1)
        rw [p0, p1] at this
        norm_num at this
      have : i = 1 := by
        revert h0 h1
        revert i
        intro i _ _ _ h1 h0
        have hv : i.val ≠ 0 := fun e => h0 (Fin.ext e)
        have hv' : ¬ 1 < i.val := h1
        exact Fin.ext (show i.val = 1 by omega)
      rw [h, this]
  have e5 : ∃ s5, s4.exec (.grab ⟨50, 50⟩) = .ok (s5, .handle s5.nextHid.pred) ∧
      s5.locks = Function.update s4.locks 1 (s4.locks 1 + 1) := by
    have hcount : s4.count = 2 := hc
    simp only [State.exec, State.grab, hi, State.activate, hcount]
    exact ⟨_, rfl, rfl⟩
  obtain ⟨s5, e5, hlk⟩ := e5
  refine ⟨_, s5, _, ?_, run_snoc (run_snoc (run_snoc e2 e3) e4) e5, ?_⟩
  · simp only [List.map_append, List.map_cons, List.map_nil, flipOp, hpos]
    rfl
  · intro hT
    have := hT.locks 0 1
    rw [hlk] at this
    change Function.update s4.locks 1 (s4.locks 1 + 1) 4 = Function.update s4.locks 1 (s4.locks 1 + 1) 1 at this
    rw [Function.update_self, Function.update_of_ne (by decide)] at this
    have h4 : s4.locks 4 = [0, 5].count (4 : Idx) := hH.locks 4
    have h1 : s4.locks 1 = [0, 5].count (1 : Idx) := hH.locks 1
    rw [h4, h1] at this
    revert this
    decide

end

end Verif.Props
