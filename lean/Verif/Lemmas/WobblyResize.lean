import Verif.Lemmas.WobblySettle
import Verif.Lemmas.WobblyMesh

/-! Resting models: stillness and resizing. -/

namespace Verif.Wobbly

open Spec Outcome

theorem noneInserted_nil {s : State} (h : s.live = []) : NoneInserted s := by
  intro a ha
  rw [h] at ha
  simp at ha

theorem restsAt_iff {p : Pt} {s : State} : RestsAt p s ↔ s.pos = positionArray p s.tile ∧ ∀ i, s.vel i = 0 := by
  have e : (⟨s.width / 3, s.height / 3⟩ : Pt) = s.tile := by
    unfold State.tile
    norm_num
  constructor
  · rintro ⟨h1, h2⟩
    exact ⟨by rw [isMeshLattice_iff, e] at h1; exact h1, h2⟩
  · rintro ⟨h1, h2⟩
    exact ⟨by rw [isMeshLattice_iff, e]; exact h1, h2⟩

theorem atRest_of {p : Pt} {s : State} (h : RestsAt p s) : AtRest s ∧ s.pos 0 = p := by
  obtain ⟨h1, h2⟩ := restsAt_iff.1 h
  have h0 : s.pos 0 = p := by rw [h1, positionArray_zero]
  exact ⟨⟨by rw [h0]; exact h1, h2⟩, h0⟩

theorem AtRest.restsAt {s : State} (h : AtRest s) : RestsAt (s.pos 0) s := restsAt_iff.2 ⟨h.pos, h.vel⟩

/-- Springs that are those of a fresh mesh are at their desired length on the lattice. -/
theorem dead_of_perm {b : ℕ} {s : State} (hp : s.springs.Perm (baseSprings s.tile b)) (hr : AtRest s) :
    ∀ x ∈ s.springs, InDeadZone (s.env.at_ s.pos) x := by
  intro x hx
  refine dead_of_zero ?_
  rw [hr.pos]
  exact base_deviation (hp.mem_iff.1 hx)

theorem fine_of_perm {b : ℕ} {s : State} (hp : s.springs.Perm (baseSprings s.tile b)) :
    ¬ dangling s.springs s.live := by
  rintro ⟨x, hx, h⟩
  obtain ⟨⟨i, hi⟩, j, hj⟩ := base_ends_mesh (hp.mem_iff.1 hx)
  rw [hi, hj] at h
  exact h ⟨trivial, trivial⟩

theorem quiet_of_rest {b : ℕ} {s : State} (hp : s.springs.Perm (baseSprings s.tile b)) (hr : AtRest s)
    (ht : s.active → s.targets = s.pos ∧ 0 < s.settings.maximumRange) : Quiet s :=
  ⟨dead_of_perm hp hr, hr.vel, fine_of_perm hp, ht⟩

/-- Steps on a quiet model. -/
theorem Quiet.steps {s : State} (h : Quiet s) {ts : List ℕ} {s' : State} {rs : List Res}
    (e : s.run (ts.map .step) = .ok (s', rs)) :
    s'.pos = s.pos ∧ s'.vel = s.vel ∧ Quiet s' ∧ ∀ (n : ℕ) (t : ℕ), ts[n]? = some t → t ≠ 0 → rs[n]? = some (.more False) := by
  induction ts generalizing s rs with
  | nil =>
    simp only [List.map_nil, State.run, Outcome.ok.injEq, Prod.mk.injEq] at e
    obtain ⟨rfl, rfl⟩ := e
    exact ⟨rfl, rfl, h, by simp⟩
  | cons t ts ih =>
    simp only [List.map_cons, State.run, State.exec] at e
    rw [h.step, bind_ok, bind_eq_ok] at e
    obtain ⟨⟨s1, r1⟩, h1, e⟩ := e
    simp only [Outcome.ok.injEq, Prod.mk.injEq] at e
    obtain ⟨rfl, rfl⟩ := e
    obtain ⟨g1, g2, g3, g4⟩ := ih (h.unequal _) h1
    refine ⟨g1, g2, g3, ?_⟩
    intro n t' hn ht'
    cases n with
    | zero =>
      simp only [List.getElem?_cons_zero, Option.some.injEq] at hn ⊢
      subst hn
      simp [ht']
    | succ n =>
      simp only [List.getElem?_cons_succ] at hn ⊢
      exact g4 n t' hn ht'

theorem Quiet.steps_ok {s : State} (h : Quiet s) (ts : List ℕ) : ∃ s' rs, s.run (ts.map .step) = .ok (s', rs) := by
  induction ts generalizing s with
  | nil => exact ⟨_, _, rfl⟩
  | cons t ts ih =>
    obtain ⟨s', rs, h'⟩ := ih (h.unequal (if t ≠ 0 then False else s.unequal))
    simp only [List.map_cons, State.run, State.exec]
    rw [h.step, bind_ok, h', bind_ok]
    exact ⟨_, _, rfl⟩

/-! ## Resizing at rest -/

theorem scale_one (x : Spring) : x.scaleLength ⟨1, 1⟩ = x := by
  cases x with
  | mk i a b d =>
    have : d.pscale ⟨1, 1⟩ = d := by ext <;> simp [Pt.pscale]
    simp [Spring.scaleLength, this]

theorem rescale_lattice (p t f : Pt) (i : Idx) :
    rescale f p (positionArray p t i) = positionArray p (t.pscale f) i := by
  ext <;> simp [rescale, positionArray, Pt.pscale] <;> ring

theorem AtRest.targetPosition {s : State} (hr : AtRest s) (hc : ¬ s.active) :
    s.targetPosition = .ok (s.spend, s.pos 0) := by
  unfold State.targetPosition
  rw [if_neg hc, hr.target, bind_ok]

theorem resized_tile {s : State} {w h : ℝ} (o : Pt) (hw : s.width ≠ 0) (hh : s.height ≠ 0) :
    (resized s w h o).tile = s.tile.pscale ⟨w / s.width, h / s.height⟩ := by
  ext <;> simp only [resized, State.tile, Pt.pscale] <;> field_simp

/-- Resizing a resting model without anchors. -/
theorem resize_rest {s : State} (hr : AtRest s) (hc : ¬ s.active) (hw : 0 < s.width) (hh : 0 < s.height) {w h : ℝ}
    (h1 : 0 < w) (h2 : 0 < h) :
    ∃ s', s.exec (.resize w h) = .ok (s', .none) ∧ AtRest s' ∧ s'.pos 0 = s.pos 0 ∧ s'.width = w ∧ s'.height = h ∧
      s'.count = s.count ∧ s'.vel = s.vel ∧ s'.settings = s.settings ∧ s'.live.length = s.live.length ∧
      s'.springs = s.springs.map fun x => x.scaleLength ⟨w / s.width, h / s.height⟩ := by
  have e0 : s.exec (.resize w h) = s.resize w h := rfl
  rw [e0]
  unfold State.resize
  simp only
  rw [if_neg (by simp [h1, h2]), if_neg (by simp [hw.ne', hh.ne'])]
  split_ifs with h3
  · rw [Pt.equals_iff, Pt.ext_iff] at h3
    simp only at h3
    rw [div_eq_one_iff_eq hw.ne', div_eq_one_iff_eq hh.ne'] at h3
    obtain ⟨rfl, rfl⟩ := h3
    refine ⟨s, rfl, hr, rfl, rfl, rfl, rfl, rfl, rfl, rfl, ?_⟩
    rw [div_self hw.ne', div_self hh.ne']
    simp only [scale_one, List.map_id']
  · rw [hr.targetPosition hc, bind_ok]
    refine ⟨resized s.spend w h (s.pos 0), rfl, ?_, ?_, rfl, rfl, rfl, rfl, rfl, ?_, rfl⟩
    · constructor
      · have ht := resized_tile (s := s.spend) (w := w) (h := h) (s.pos 0) hw.ne' hh.ne'
        have hp : ∀ i, (resized s.spend w h (s.pos 0)).pos i =
            positionArray (s.pos 0) (s.tile.pscale ⟨w / s.width, h / s.height⟩) i := by
          intro i
          have := rescale_lattice (s.pos 0) s.tile ⟨w / s.width, h / s.height⟩ i
          rw [← hr.pos] at this
          exact this
        funext i
        rw [ht, hp 0, positionArray_zero, hp]
        rfl
      · exact hr.vel
    · show rescale _ (s.pos 0) (s.pos 0) = s.pos 0
      ext <;> simp [rescale, Pt.pscale]
    · simp [resized, State.spend]

/-- Chains of resizes of a resting model. -/
theorem resizes_rest {s : State} (hr : AtRest s) (hc : ¬ s.active) (hw : 0 < s.width) (hh : 0 < s.height)
    {sizes : List (ℝ × ℝ)} (hz : ∀ z ∈ sizes, 0 < z.1 ∧ 0 < z.2) :
    ∃ s' rs, s.run (sizes.map fun z => .resize z.1 z.2) = .ok (s', rs) ∧ AtRest s' ∧ s'.pos 0 = s.pos 0 ∧
      0 < s'.width ∧ 0 < s'.height ∧ s'.count = s.count ∧ s'.vel = s.vel ∧ s'.settings = s.settings ∧
      s'.live.length = s.live.length ∧
      s'.springs = s.springs.map fun x => x.scaleLength ⟨s'.width / s.width, s'.height / s.height⟩ := by
  induction sizes generalizing s with
  | nil =>
    refine ⟨s, [], rfl, hr, rfl, hw, hh, rfl, rfl, rfl, rfl, ?_⟩
    rw [div_self hw.ne', div_self hh.ne']
    simp only [scale_one, List.map_id']
  | cons z sizes ih =>
    obtain ⟨h1, h2⟩ := hz z (by simp)
    obtain ⟨s1, e1, r1, p1, w1, t1, c1, v1, x1, l1, g1⟩ := resize_rest hr hc hw hh h1 h2
    obtain ⟨s2, rs, e2, r2, p2, w2, t2, c2, v2, x2, l2, g2⟩ := @ih s1 r1 (by unfold State.active; rw [c1]; exact hc)
      (by rw [w1]; exact h1) (by rw [t1]; exact h2) (fun z hz' => hz z (List.mem_cons_of_mem _ hz'))
    refine ⟨s2, .none :: rs, ?_, r2, p2.trans p1, w2, t2, c2.trans c1, v2.trans v1, x2.trans x1, l2.trans l1, ?_⟩
    · simp only [List.map_cons, State.run, e1, bind_ok, e2]
    · rw [g2, g1, List.map_map]
      refine List.map_congr_left fun x _ => ?_
      simp only [Function.comp, Spring.scaleLength, Spring.mk.injEq, true_and, w1, t1]
      have := h1.ne'
      have := h2.ne'
      have := hw.ne'
      have := hh.ne'
      ext <;> simp only [Pt.pscale] <;> field_simp

end Verif.Wobbly
