import Verif.Lemmas.GVisit

/-! # Dragging an `AnimationWobblyModel` in double precision (C135) -/

namespace Verif.Props

open Wobbly Spec Outcome GWobbly Classical

noncomputable section

variable (R : Rounding64) {rd : ℝ → ℝ} {g : GState} {o : Spot} {n : ℕ}

/-- **C135.** In double precision, with coordinates and sizes of a screen and numbers in the declared ranges: a program makes a
model with `animation_wobbly_model_new`, moves and resizes it by function or by property, sets its numbers by property, grabs
it or inserts anchors into it, drags these, and releases or drops them once `animation_wobbly_model_step` has answered false
(not resizing while an inserted anchor is there); it may also go on using anchors it has let go of. Then every call returns.
Whenever it holds no anchor the model lies where all moves together have it, to within 2^-18 pixels for each call that moved, dragged
or resized and once more, and steps answer false and change nothing. -/
theorem C135_glib_in_doubles (H : GHandled R.rnd g o n) (hn : n < 65536) :
    GDependable R.rnd g o n ∧ GAttachable R.rnd g o n := by
  obtain ⟨t, s, I⟩ := ghandled_idle (R := R) (Or.inl rfl) H hn
  exact ⟨I.dependable (R := R) (Or.inl rfl), I.attachable (R := R) (Or.inl rfl)⟩

/-- **C135, overflow.** Nothing overflows: the same holds if the arithmetic yields whatever it likes once a result exceeds
2^500. -/
theorem C135_glib_no_overflow (hr : ∀ x, |x| ≤ 2 ^ 500 → rd x = R.rnd x) (H : GHandled rd g o n) (hn : n < 65536) :
    GDependable rd g o n ∧ GAttachable rd g o n := by
  obtain ⟨t, s, I⟩ := ghandled_idle (R := R) (Or.inr hr) H hn
  exact ⟨I.dependable (R := R) (Or.inr hr), I.attachable (R := R) (Or.inr hr)⟩

/-- The hypotheses can be met: a model that nobody holds is grabbed anywhere, dragged by a sixteenth of a pixel, comes to rest
at once and is let go of. -/
theorem gnudge (H : GHandled R.rnd g o n) (hn : n < 4096) {q d : Pt} (qx : |q.x| ≤ 32768)
    (qy : |q.y| ≤ 32768) (dx : |d.x| ≤ 1 / 16) (dy : |d.y| ≤ 1 / 16) (on : (o.held (.drag d)).OnScreen) {last : GOp}
    (lets : LetsGo g.anchors.length last) : ∃ g', GHandled R.rnd g' (o.held (.drag d)) (n + 1) := by
  obtain ⟨t, s, I⟩ := ghandled_idle (R := R) (Or.inl rfl) H (by omega)
  obtain ⟨f1, f2, f3, f4⟩ := I.fresh
  obtain ⟨s1, s2, s3, s4, e1, e2, e3, e4, stays⟩ := I.quiet.nudge R (range_mild I.range).r1 hn qx qy dx dy on
  rw [f3] at e1 e2 e4
  rw [f4] at lets
  obtain ⟨g1, k1, S1⟩ := I.stands.one (rd := R.rnd) (op := .grab q) I.stands.alive rfl I.stands.alive rfl e1
  have asks : List.Forall₂ (AsksHeld t.made) [HeldOp.drag d] [.anchorMoveBy t.made d] := .cons (.drag d) .nil
  obtain ⟨g2, rs, k2, S2⟩ := S1.dragged asks (Nat.lt_succ_self _) f1 f2 e2
  obtain ⟨g3, k3, S3⟩ := S2.asked (rd := R.rnd) (.step 16) e3
  obtain ⟨g4, k4, S4⟩ := S3.let_go lets (Nat.lt_succ_self _) f1 f2 e4
  exact ⟨g4, H.visit qx qy k1 stays asks k2 (t := 16) (by norm_num) k3 lets k4⟩

/-- An anchor is inserted, nothing is dragged, and the anchor is dropped again. -/
theorem gattach (H : GHandled R.rnd g o n) (hn : n < 65536) {q : Pt} (inside : o.Covers q) :
    ∃ g', GHandled R.rnd g' o n := by
  obtain ⟨t, s, I⟩ := ghandled_idle (R := R) (Or.inl rfl) H hn
  obtain ⟨g1, k1, -, calm, drag⟩ := (C135_glib_in_doubles R H hn).2 q inside
  have stays : o.StaysHeld [] := fun k => by simpa [Spot.heldAll] using I.quiet.on
  obtain ⟨g2, rs, k2, -, h2⟩ := drag [] [] stays .nil hn
  obtain ⟨rfl, -⟩ := Prod.mk.inj (Outcome.ok.inj k2)
  obtain ⟨g3, more, k3, h3⟩ := h2 16 (by norm_num)
  obtain ⟨g3', k3'⟩ := calm 16 (by norm_num)
  rw [k3] at k3'
  obtain ⟨rfl, em⟩ := Prod.mk.inj (Outcome.ok.inj k3')
  have hm := GRes.more.inj em
  subst hm
  obtain ⟨-, -, h4⟩ := h3 not_false
  obtain ⟨g4, k4, -⟩ := h4 (.anchorUnref g.anchors.length) (Or.inr rfl)
  exact ⟨g4, .attach H inside k1 stays (fun w h hh => by cases hh) .nil k2 (t := 16) (by norm_num) k3 (Or.inr rfl) k4⟩

/-- A model is made, grabbed, nudged, its friction set, an anchor inserted and dropped, and the model moved by property. -/
example : ∃ g, GHandled R.rnd g ⟨⟨10, 20⟩, (300 : ℕ), (200 : ℕ)⟩ 2 := by
  have ok : ∀ (a c : ℝ), |a| ≤ 1000 → |c| ≤ 1000 → Spot.OnScreen ⟨⟨a, c⟩, (300 : ℕ), (200 : ℕ)⟩ := by
    intro a c ha hc
    exact ⟨by show |a| ≤ _; linarith, by show |c| ≤ _; linarith, by norm_num, by norm_num, double_nat (by omega), by norm_num, by norm_num,
      double_nat (by omega)⟩
  have H0 : GHandled R.rnd _ ⟨⟨0, 0⟩, (300 : ℕ), (200 : ℕ)⟩ 0 :=
    .new (k := 8) (f := 3) (m := 500) (b := 0) (by unfold Spec.InRange; norm_num) (ok 0 0 (by norm_num) (by norm_num))
      (GWobbly.Rounded.new_ok _ _ _ _ _ _)
  obtain ⟨g1, H1⟩ := gnudge R H0 (by norm_num) (q := ⟨150, 90⟩) (d := ⟨1 / 16, 0⟩) (by norm_num [abs_le]) (by norm_num [abs_le])
    (by norm_num [abs_le]) (by norm_num) (ok (0 + 1 / 16) (0 + 0) (by norm_num [abs_le]) (by norm_num)) (Or.inl rfl)
  obtain ⟨g2, k2, -⟩ := (C135_glib_in_doubles R H1 (by norm_num)).1.numbers (.propFriction 5) ⟨5, Or.inr (Or.inl rfl)⟩
  have H2 := H1.number ⟨5, Or.inr (Or.inl rfl)⟩ k2
  obtain ⟨g3, H3⟩ := gattach R H2 (by norm_num) (q := ⟨10, 10⟩) ⟨⟨by norm_num [Spot.held], by norm_num [Spot.held]⟩,
    by norm_num [Spot.held], by norm_num [Spot.held]⟩
  have on : (Spot.after (Spot.held ⟨⟨0, 0⟩, (300 : ℕ), (200 : ℕ)⟩ (.drag ⟨1 / 16, 0⟩)) (.moveTo ⟨10, 20⟩)).OnScreen :=
    ok 10 20 (by norm_num [abs_le]) (by norm_num [abs_le])
  obtain ⟨g4, k4⟩ := (C135_glib_in_doubles R H3 (by norm_num)).1.calls _ _ (.position ⟨10, 20⟩) on (by decide)
  exact ⟨g4, H3.call (.position ⟨10, 20⟩) on k4⟩

end

end Verif.Props
