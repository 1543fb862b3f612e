import Verif.Props.WobblyAnchors

/-! # Wobbly: models in which `InsertAnchor` is defined, and in which it is not (C51) -/

namespace Verif.Props

open Wobbly Spec Outcome Classical

noncomputable section

/-- The hypotheses of `C51_insert_defined` hold in a new model. -/
example : demo.run [] = .ok (demo, []) ∧ demo.exec (.step 16) ≠ .ub ∧
    (∀ y ∈ demo.springs, Representable (demo.env.at_ demo.pos y.a) ∧ Representable (demo.env.at_ demo.pos y.b)) ∧
    Representable ⟨50, 50⟩ := by
  refine ⟨rfl, (C49_no_dangling_partial (ops := []) rfl trivial).2 16, fun y hy => ?_, rep_small (by norm_num [abs_of_pos]) (by norm_num [abs_of_pos])⟩
  obtain ⟨⟨i, ha⟩, j, hb⟩ := base_ends_mesh (t := ⟨300 / (4 - 1), 300 / (4 - 1)⟩) (b := 0) hy
  rw [ha, hb]
  exact ⟨demo_rep i, demo_rep j⟩

/-- Those of `C51_insert_undefined` after two insertions in one place, of which the first is released. -/
example : ∃ s rs, demo.run [.insert ⟨50, 50⟩, .insert ⟨50, 50⟩, .release 0] = .ok (s, rs) ∧ s.exec (.step 16) = .ub :=
  C49_use_after_free _ _ _ _ _ _ demo_rep (rep_small (by norm_num [abs_of_pos]) (by norm_num [abs_of_pos])) (by
    intro i h
    have := demo_pos i
    unfold demo at this
    rw [this] at h
    have hx := congrArg Pt.x h
    simp only at hx
    have h1 : (col i : ℝ) * 2 = 1 := by linarith
    have h2 : col i * 2 = 1 := by exact_mod_cast h1
    omega)

end

end Verif.Props
