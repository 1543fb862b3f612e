import Verif.Lemmas.WobblyDrag
import Verif.Props.WobblyDouble

/-! # Dragging a model in double precision (C109) -/

namespace Verif.Props

open Wobbly Wobbly.Rounded Spec Outcome Classical

noncomputable section

variable (R : Rounding64) {p : Pt} {w h : ℝ} {x : Settings} {b : ℕ}

theorem held_run {i : Idx} {a : ℕ} {o : Spot} {s : State} {v : ℝ} {held : List HeldOp} (H : Held i a o.place v s)
    (ew : s.width = o.width) (eh : s.height = o.height) (hr : o.StaysHeld held) (hn : v + heldEdits held ≤ 65536) :
    ∃ s' rs, run R.rnd s (held.map (HeldOp.call a)) = .ok (s', rs) ∧
      Held i a (o.heldAll held).place (v + heldEdits held) s' ∧
      s'.width = (o.heldAll held).width ∧ s'.height = (o.heldAll held).height := by
  induction held generalizing o s v with
  | nil => exact ⟨s, [], rfl, by simpa [heldEdits, Spot.heldAll] using H, ew, eh⟩
  | cons op ops ih =>
    have hr' : (o.held op).StaysHeld ops := fun n => hr (n + 1)
    have hon : (o.held op).OnScreen := by simpa [Spot.heldAll] using hr' 0
    have key : ∀ (s1 : State) (y : Res) (v1 : ℝ), exec R.rnd s (op.call a) = .ok (s1, y) → Held i a (o.held op).place v1 s1 →
        s1.width = (o.held op).width → s1.height = (o.held op).height → v1 + heldEdits ops = v + heldEdits (op :: ops) →
        ∃ s' rs, run R.rnd s ((op :: ops).map (HeldOp.call a)) = .ok (s', rs) ∧
          Held i a (o.heldAll (op :: ops)).place (v + heldEdits (op :: ops)) s' ∧
          s'.width = (o.heldAll (op :: ops)).width ∧ s'.height = (o.heldAll (op :: ops)).height := by
      intro s1 y v1 e1 r1 w1 h1 ev
      obtain ⟨s', rs, e, r2, w2, h2⟩ := ih r1 w1 h1 hr' (by rw [ev]; exact hn)
      refine ⟨s', y :: rs, ?_, ?_, w2, h2⟩
      · simp only [List.map_cons, run, e1, bind_ok, e]
      · rw [← ev]
        exact r2
    have one : heldEdits (op :: ops) = heldEdits ops + 1 → v + 1 ≤ 65536 := by
      intro e
      rw [e] at hn
      push_cast at hn
      have : (0 : ℝ) ≤ heldEdits ops := by positivity
      linarith
    have more : heldEdits (op :: ops) = heldEdits ops + 1 → v + 1 + heldEdits ops = v + heldEdits (op :: ops) := by
      intro e
      rw [e]
      push_cast
      ring
    cases op with
    | drag d =>
      have e1 : heldEdits (.drag d :: ops) = heldEdits ops + 1 := by simp [heldEdits]
      obtain ⟨s1, e, r1, a1, a2⟩ := H.drag R d (one e1) hon.placeX hon.placeY
      exact key s1 _ (v + 1) e r1 (a1.trans ew) (a2.trans eh) (more e1)
    | model op =>
      cases op with
      | step t =>
        obtain ⟨s1, m, e, r1, a1, a2, -⟩ := H.step (R := R) t
        exact key s1 _ v e r1 (a1.trans ew) (a2.trans eh) (by simp [heldEdits])
      | moveBy d =>
        have e1 : heldEdits (.model (.moveBy d) :: ops) = heldEdits ops + 1 := by simp [heldEdits]
        exact key _ _ (v + 1) rfl (H.moveBy R d (one e1) hon.placeX hon.placeY) ew eh (more e1)
      | moveTo q =>
        have e1 : heldEdits (.model (.moveTo q) :: ops) = heldEdits ops + 1 := by simp [heldEdits]
        obtain ⟨s1, e, r1, a1, a2⟩ := H.moveTo R q (one e1) hon.placeX hon.placeY
        exact key s1 _ (v + 1) e r1 (a1.trans ew) (a2.trans eh) (more e1)
      | resize w' h' =>
        have e1 : heldEdits (.model (.resize w' h') :: ops) = heldEdits ops + 1 := by simp [heldEdits]
        obtain ⟨s1, e, r1, a1, a2⟩ := H.resize R (w := w') (hh := h') (one e1) hon.widthMin hon.widthMax
          hon.widthDouble hon.heightMin hon.heightMax hon.heightDouble
        exact key s1 _ (v + 1) e r1 a1 a2 (more e1)

/-- **C109.** In double precision, with coordinates and sizes of a screen and a maximum range of at least one pixel: a
model that was only moved and resized before is grabbed at a point `g`. The grab takes the point of the lattice nearest
to `g`, to within a pixel. Then, whatever the program drags, moves, resizes and steps while it holds that one anchor,
every call returns, the grabbed point is where the lattice has it after all these moves, to within 2^-18 pixels per
call made, and whenever `Step` answers false so is every point of the mesh. -/
theorem C109_drag_in_doubles {before : List FreeOp} {g : Pt} (hb : Spot.Stays ⟨p, w, h⟩ before)
    (gx : |g.x| ≤ 32768) (gy : |g.y| ≤ 32768) (hx : 1 ≤ x.maximumRange) (hn : edits before < 65536) :
    let o := Spot.afterAll ⟨p, w, h⟩ before
    ∃ i a s, run R.rnd (Rounded.new R.rnd p w h x b) (before.map FreeOp.call ++ [.grab g]) =
        .ok (s, before.map calm ++ [.handle a]) ∧
      (∀ j, euclid g (o.point i) ≤ euclid g (o.point j) + 1) ∧
      ∀ held, o.StaysHeld held → edits before + heldEdits held < 65536 →
        ∃ s' rs, run R.rnd s (held.map (HeldOp.call a)) = .ok (s', rs) ∧
          Near ((edits before + heldEdits held + 1) / 262144) (s'.pos i) ((o.heldAll held).point i) ∧
          ∀ t, ∃ s'' more, exec R.rnd s' (.step t) = .ok (s'', .more more) ∧
            (¬ more → ∀ j, Near ((edits before + heldEdits held + 1) / 262144) (s''.pos j) ((o.heldAll held).point j)) := by
  intro o
  have h0 : Spot.OnScreen ⟨p, w, h⟩ := by simpa [Spot.afterAll] using hb 0
  have hon : o.OnScreen := by simpa using hb before.length
  have rest := new_resting R x b h0.placeX h0.placeY h0.widthMin h0.widthMax h0.widthDouble h0.heightMin h0.heightMax
    h0.heightDouble
  have hn' : (edits before : ℝ) + 1 ≤ 65536 := by exact_mod_cast hn
  obtain ⟨f, e, r, ew, eh⟩ := rest_run R (o := ⟨p, w, h⟩) rest rfl rfl hb (by linarith)
  have hset : f.settings = x := run_settings R.rnd e
  rcases model_free R.rnd p w h x b before with ⟨s0, ys, e1, e2, na⟩ | ⟨-, e2⟩ | ⟨-, e2⟩ | ⟨-, e2⟩
  swap
  · rw [e] at e2; cases e2
  swap
  · rw [e] at e2; cases e2
  swap
  · rw [e] at e2; cases e2
  rw [e] at e2
  obtain ⟨rfl, rfl⟩ := Prod.mk.inj (Outcome.ok.inj e2)
  obtain ⟨i, s, eg, H, sw, sh, -, hnear⟩ := grab_resting R (x := o) (p := g) na r ew eh hon gx gy
    (by
      show 1 ≤ (part s0).settings.maximumRange
      rw [hset]
      exact hx)
  refine ⟨i, s0.nextHid, s, ?_, hnear, ?_⟩
  · rw [Rounded.run_append, e1]
    simp only [bind_ok, run, exec, eg]
  · intro held hs hc
    have hc' : (edits before : ℝ) + heldEdits held + 1 ≤ 65536 := by exact_mod_cast hc
    obtain ⟨s', rs, er, H', sw', sh'⟩ := held_run R H (sw.trans ew) (sh.trans eh) hs (by linarith)
    have ev : (1 : ℝ) + edits before + heldEdits held = edits before + heldEdits held + 1 := by ring
    rw [ev] at H'
    refine ⟨s', rs, er, H'.pointed sw' sh', fun t => ?_⟩
    obtain ⟨s'', m, es, H'', w2, h2, -, hm⟩ := H'.step (R := R) t
    refine ⟨s'', m, es, fun hf j => ?_⟩
    rw [hm hf]
    exact H'.aimed sw' sh' j

/-- A model of 300 by 200 is moved, grabbed, dragged twice with steps in between, resized and dragged again. -/
theorem drag_met : ∃ (before : List FreeOp) (held : List HeldOp), before ≠ [] ∧ held.length = 6 ∧
    Spot.Stays ⟨0, 300, 200⟩ before ∧ (Spot.afterAll ⟨0, 300, 200⟩ before).StaysHeld held ∧
    edits before + heldEdits held < 65536 := by
  have d : ∀ n : ℕ, n ≤ 1000 → Double n := fun n hn => double_nat (by omega)
  have ok : ∀ (a c : ℝ) (m n : ℕ), |a| ≤ 1000 → |c| ≤ 1000 → 1 ≤ m → m ≤ 1000 → 1 ≤ n → n ≤ 1000 →
      Spot.OnScreen ⟨⟨a, c⟩, m, n⟩ := by
    intro a c m n ha hc m1 m2 n1 n2
    have m1' : (1 : ℝ) ≤ m := by exact_mod_cast m1
    have m2' : (m : ℝ) ≤ 1000 := by exact_mod_cast m2
    have n1' : (1 : ℝ) ≤ n := by exact_mod_cast n1
    have n2' : (n : ℝ) ≤ 1000 := by exact_mod_cast n2
    exact ⟨by show |a| ≤ _; linarith, by show |c| ≤ _; linarith, m1', by show (m : ℝ) ≤ _; linarith, d m m2, n1',
      by show (n : ℝ) ≤ _; linarith, d n n2⟩
  refine ⟨[.moveBy ⟨10, 20⟩], [.drag ⟨5, 1⟩, .model (.step 16), .drag ⟨-7, 100⟩, .model (.step 33),
    .model (.resize 100 50), .drag ⟨1 / 3, 0⟩], by simp, rfl, ?_, ?_, by decide⟩
  · intro n
    rcases n with _ | n
    · have := ok 0 0 300 200 (by norm_num) (by norm_num) (by norm_num) (by norm_num) (by norm_num) (by norm_num)
      norm_num at this
      exact this
    · have := ok 10 20 300 200 (by norm_num) (by norm_num) (by norm_num) (by norm_num) (by norm_num) (by norm_num)
      norm_num at this
      simpa [Spot.afterAll, Spot.after] using this
  · intro n
    have s0 := ok 10 20 300 200 (by norm_num) (by norm_num) (by norm_num) (by norm_num) (by norm_num) (by norm_num)
    have s1 := ok (10 + 5) (20 + 1) 300 200 (by norm_num) (by norm_num) (by norm_num) (by norm_num) (by norm_num) (by norm_num)
    have s2 := ok (10 + 5 + -7) (20 + 1 + 100) 300 200 (by norm_num) (by norm_num) (by norm_num) (by norm_num) (by norm_num) (by norm_num)
    have s3 := ok (10 + 5 + -7) (20 + 1 + 100) 100 50 (by norm_num) (by norm_num) (by norm_num) (by norm_num) (by norm_num) (by norm_num)
    have s4 := ok (10 + 5 + -7 + 1 / 3) (20 + 1 + 100 + 0) 100 50 (by norm_num [abs_le]) (by norm_num) (by norm_num) (by norm_num) (by norm_num) (by norm_num)
    rcases n with _ | _ | _ | _ | _ | _ | n
    all_goals
      simp only [List.take_zero, List.take_succ_cons, List.take_nil, Spot.heldAll, Spot.afterAll, List.foldl_cons, List.foldl_nil, Spot.held,
        Spot.after, Pt.zero_x, Pt.zero_y, zero_add]
      norm_num at s0 s1 s2 s3 s4 ⊢
      assumption

/-- The hypotheses of C109 can be met. -/
example : ∃ (before : List FreeOp) (held : List HeldOp), before ≠ [] ∧ held.length = 6 ∧
    Spot.Stays ⟨0, 300, 200⟩ before ∧ (Spot.afterAll ⟨0, 300, 200⟩ before).StaysHeld held ∧
    edits before + heldEdits held < 65536 := drag_met

end

end Verif.Props
