import Verif.Props.GDrawn
import Verif.Props.WobblyPaced

/-! # The picture of a model that is dragged stays near its rectangle (C149) -/

namespace Verif.Props

open Wobbly Wobbly.Rounded Spec Outcome Classical

noncomputable section

variable (R : Rounding64) (L : Extended)

/-- **C149.** As in C113: in double precision, on a screen, with settings in the declared ranges, a model is moved, resized and
stepped, then grabbed, dragged, moved, resized and stepped. After every `Step` of some length `DeformTexcoords` takes each place of
the texture to within `range + V / 2 + 3` pixels of its place in the rectangle that the calls add up to, in each coordinate, where
`V = 4 k (range + 1) / friction`; and once that `Step` answers false to within 2^-18 pixels per call that moved, dragged or resized,
and twice more. Whatever the arithmetic yields beyond 2^500, the same holds. -/
theorem C149_picture {r : ℝ → ℝ} (hr : ∀ x, |x| ≤ 2 ^ 500 → r x = R.rnd x)
    {p : Pt} {w h : ℝ} {x : Settings} {b : ℕ} {before : List FreeOp} {g : Pt} (hb : Spot.Stays ⟨p, w, h⟩ before)
    (gx : |g.x| ≤ 32768) (gy : |g.y| ≤ 32768) (hn : edits before < 65536)
    (k1 : 1 / 10 ≤ x.springConstant) (k2 : x.springConstant ≤ 10) (f1 : 1 / 10 ≤ x.friction) (f2 : x.friction ≤ 10)
    (x1 : 1 ≤ x.maximumRange) (x2 : x.maximumRange ≤ 1000) :
    let o := Spot.afterAll ⟨p, w, h⟩ before
    let V := 4 * x.springConstant * (x.maximumRange + 1) / x.friction
    ∃ a s, run r (Rounded.new r p w h x b) (before.map FreeOp.call ++ [.grab g]) = .ok (s, before.map calm ++ [.handle a]) ∧
      ∀ held, o.StaysHeld held → edits before + heldEdits held < 65536 →
        ∃ s' rs, run r s (held.map (HeldOp.call a)) = .ok (s', rs) ∧
          ∀ t, t ≠ 0 → ∃ s'' more, exec r s' (.step t) = .ok (s'', .more more) ∧
            ∀ uv : Pt, 0 ≤ uv.x ∧ uv.x ≤ 1 → 0 ≤ uv.y ∧ uv.y ≤ 1 →
              Near (x.maximumRange + V / 2 + 3) (deformTexcoords r L.rnd s''.pos uv) ((o.heldAll held).spread uv) ∧
              (¬ more → Near ((edits before + heldEdits held + 2) / 262144) (deformTexcoords r L.rnd s''.pos uv)
                ((o.heldAll held).spread uv)) := by
  intro o V
  obtain ⟨i, a, s, e, -, H⟩ := C113_speed_in_doubles R hr (b := b) hb gx gy hn k1 k2 f1 f2 x1 x2
  refine ⟨a, s, e, fun held on hn' => ?_⟩
  obtain ⟨s', rs, e', -, -, H'⟩ := H held on hn'
  refine ⟨s', rs, e', fun t ht => ?_⟩
  obtain ⟨s'', more, e'', rest, far⟩ := H' t
  refine ⟨s'', more, e'', fun uv hu hv => ?_⟩
  have ho : (o.heldAll held).OnScreen := by simpa using on held.length
  have hV : V ≤ 400400 := by
    have f0 : 0 < x.friction := by linarith
    show 4 * x.springConstant * (x.maximumRange + 1) / x.friction ≤ 400400
    rw [div_le_iff₀ f0]
    have := mul_le_mul (mul_le_mul_of_nonneg_left k2 (by norm_num : (0 : ℝ) ≤ 4)) (by linarith : x.maximumRange + 1 ≤ 1001)
      (by linarith) (by norm_num)
    linarith
  have hd : x.maximumRange + V / 2 + 2 ≤ 262144 := by linarith
  obtain ⟨hm, hq⟩ := near_rectangle R L (m := s''.pos) ho hd (far ht)
  rw [deform_agrees hr (fun k => ⟨(hm k).1.trans (by norm_num), (hm k).2.trans (by norm_num)⟩) hu hv]
  refine ⟨?_, fun hmore => ?_⟩
  · obtain ⟨q1, q2⟩ := hq uv hu hv
    exact ⟨q1.trans (by linarith), q2.trans (by linarith)⟩
  · have hn2 : (edits before : ℝ) + heldEdits held + 1 ≤ 65536 := by exact_mod_cast hn'
    have := (near_rectangle R L (m := s''.pos) ho (by linarith) (rest hmore)).2 uv hu hv
    rwa [show 1 / 262144 + ((edits before : ℝ) + heldEdits held + 1) / 262144 = (edits before + heldEdits held + 2) / 262144 by ring] at this

/-- With a spring constant of 1, a friction of 10 and a range of one pixel, the picture of a model of 300 by 200 that was moved
and resized, and is grabbed and dragged about, stays within five pixels of its rectangle. -/
example (b : ℕ) : ∃ (before : List FreeOp) (held : List HeldOp), before ≠ [] ∧ held.length = 6 ∧
    let o := Spot.afterAll ⟨0, 300, 200⟩ before
    ∃ a s s' s'' rs more, run R.rnd (Rounded.new R.rnd 0 300 200 ⟨1, 10, 1⟩ b) (before.map FreeOp.call ++ [.grab ⟨150, 90⟩]) =
        .ok (s, before.map calm ++ [.handle a]) ∧
      run R.rnd s (held.map (HeldOp.call a)) = .ok (s', rs) ∧ exec R.rnd s' (.step 16) = .ok (s'', .more more) ∧
      ∀ uv : Pt, 0 ≤ uv.x ∧ uv.x ≤ 1 → 0 ≤ uv.y ∧ uv.y ≤ 1 →
        Near 5 (deformTexcoords R.rnd L.rnd s''.pos uv) ((o.heldAll held).spread uv) := by
  obtain ⟨before, held, h1, h2, h3, h4, h5⟩ := drag_met
  refine ⟨before, held, h1, h2, ?_⟩
  obtain ⟨a, s, e, H⟩ := C149_picture R L (fun _ _ => rfl) (x := ⟨1, 10, 1⟩) (b := b) (g := ⟨150, 90⟩) h3 (by norm_num [abs_le])
    (by norm_num [abs_le]) (by omega) (by norm_num) (by norm_num) (by norm_num) (by norm_num) (by norm_num) (by norm_num)
  obtain ⟨s', rs, e', H'⟩ := H held h4 h5
  obtain ⟨s'', more, e'', H''⟩ := H' 16 (by norm_num)
  refine ⟨a, s, s', s'', rs, more, e, e', e'', fun uv hu hv => ?_⟩
  obtain ⟨q1, q2⟩ := (H'' uv hu hv).1
  norm_num at q1 q2
  exact ⟨q1.trans (by norm_num), q2.trans (by norm_num)⟩

end

end Verif.Props
