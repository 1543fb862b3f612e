import Verif.Lemmas.WobblyRoomyRest
import Verif.Props.WobblyDrag

/-! # How fast and how far a held model moves in double precision, without overflow (C113) -/

namespace Verif.Props

open Wobbly Wobbly.Rounded Spec Outcome Classical

noncomputable section

variable (R : Rounding64) {p : Pt} {w h : ℝ} {x : Settings} {b : ℕ}

/-- The calls before the grab. -/
theorem rest_agree {r : ℝ → ℝ} (hr : Agrees R r) {o : Spot} {f : Free} {v : ℝ} {ops : List FreeOp} (hs : Resting o.place v f)
    (M : Mild f.settings) (hj : Joined f.springs) (ew : f.width = o.width) (eh : f.height = o.height) (ho : o.Stays ops)
    (hn : v + edits ops ≤ 65536) : f.run r ops = f.run R.rnd ops := by
  induction ops generalizing o f v with
  | nil => rfl
  | cons op ops ih =>
    have ho' : (o.after op).Stays ops := fun n => ho (n + 1)
    have hon : (o.after op).OnScreen := by simpa [Spot.afterAll] using ho' 0
    have ed : (edits (op :: ops) : ℝ) = edits [op] + edits ops := by
      unfold edits
      rw [← List.singleton_append, List.filter_append, List.length_append]
      push_cast
      rfl
    rw [ed] at hn
    have h0 : (0 : ℝ) ≤ edits ops := by positivity
    have ho1 : o.Stays [op] := by
      intro n
      rcases n with _ | n
      · exact ho 0
      · simpa [Spot.afterAll] using ho 1
    obtain ⟨f1, e1, r1, w1, h1⟩ := rest_run R (ops := [op]) hs ew eh ho1 (by linarith)
    simp only [Free.run, bind_eq_ok, Outcome.ok.injEq, Prod.mk.injEq] at e1
    obtain ⟨a, ea, b, eb, e2, -⟩ := e1
    rw [← eb] at e2
    simp only at e2
    have es := exec_settings R.rnd ea
    have ej := exec_joined R.rnd hj ea
    simp only [Free.run]
    rw [hs.ag_exec hr M hj hon, ea]
    simp only [bind_ok]
    rw [ih (o := o.after op) (v := v + edits [op]) ?_ (by rw [es]; exact M) ej ?_ ?_ ho' (by linarith)]
    · rw [e2]; simpa [Spot.afterAll] using r1
    · rw [e2]; simpa [Spot.afterAll] using w1
    · rw [e2]; simpa [Spot.afterAll] using h1

/-- **C113.** As in C109, and the spring constant and friction lie between 0.1 and 10 and the maximum range between 1 and
1000 pixels. The arithmetic `r` rounds to the nearest double as long as the result is at most 2^500, and yields whatever
it likes beyond that. Then all that C109 says holds: nothing that is computed overflows. Moreover no point of the mesh
ever moves faster than `V = 4 k (range + 1) / friction` in a coordinate, and after every `Step` of some length each point
is within `range + V / 2 + 2` of its place in the lattice in each coordinate. -/
theorem C113_speed_in_doubles {r : ℝ → ℝ} (hr : ∀ x, |x| ≤ 2 ^ 500 → r x = R.rnd x)
    {before : List FreeOp} {g : Pt} (hb : Spot.Stays ⟨p, w, h⟩ before)
    (gx : |g.x| ≤ 32768) (gy : |g.y| ≤ 32768) (hn : edits before < 65536)
    (k1 : 1 / 10 ≤ x.springConstant) (k2 : x.springConstant ≤ 10) (f1 : 1 / 10 ≤ x.friction) (f2 : x.friction ≤ 10)
    (x1 : 1 ≤ x.maximumRange) (x2 : x.maximumRange ≤ 1000) :
    let o := Spot.afterAll ⟨p, w, h⟩ before
    let V := 4 * x.springConstant * (x.maximumRange + 1) / x.friction
    ∃ i a s, run r (Rounded.new r p w h x b) (before.map FreeOp.call ++ [.grab g]) = .ok (s, before.map calm ++ [.handle a]) ∧
      (∀ j, euclid g (o.point i) ≤ euclid g (o.point j) + 1) ∧
      ∀ held, o.StaysHeld held → edits before + heldEdits held < 65536 →
        ∃ s' rs, run r s (held.map (HeldOp.call a)) = .ok (s', rs) ∧
          Near ((edits before + heldEdits held + 1) / 262144) (s'.pos i) ((o.heldAll held).point i) ∧
          (∀ j, Near V (s'.vel j) 0) ∧
          ∀ t, ∃ s'' more, exec r s' (.step t) = .ok (s'', .more more) ∧
            (¬ more → ∀ j, Near ((edits before + heldEdits held + 1) / 262144) (s''.pos j) ((o.heldAll held).point j)) ∧
            (t ≠ 0 → ∀ j, Near (x.maximumRange + V / 2 + 2) (s''.pos j) ((o.heldAll held).point j)) := by
  intro o V
  have M : Mild x := ⟨k1, k2, f1, f2, x1, x2⟩
  have h0 : Spot.OnScreen ⟨p, w, h⟩ := by simpa [Spot.afterAll] using hb 0
  have hon : o.OnScreen := by simpa using hb before.length
  have rest := new_resting R x b h0.placeX h0.placeY h0.widthMin h0.widthMax h0.widthDouble h0.heightMin h0.heightMax
    h0.heightDouble
  have hn' : (edits before : ℝ) + 1 ≤ 65536 := by exact_mod_cast hn
  obtain ⟨f, e, rf, ew, eh⟩ := rest_run R (o := ⟨p, w, h⟩) rest rfl rfl hb (by linarith)
  have hset : f.settings = x := run_settings R.rnd e
  have hjoin : Joined f.springs := run_joined R.rnd (joined_base _ _) e
  have en : Rounded.new r p w h x b = Rounded.new R.rnd p w h x b := ag_new hr h0 x b
  have er : (Free.new R.rnd p w h x b).run r before = .ok (f, before.map calm) :=
    (rest_agree R hr (o := ⟨p, w, h⟩) rest M (joined_base _ _) rfl rfl hb (by linarith)).trans e
  have sr := run_free r (new_free R.rnd p w h x b) before
  rw [new_part, er] at sr
  rcases sr with ⟨s0, ys, e1, e2, na⟩ | ⟨-, e2⟩ | ⟨-, e2⟩ | ⟨-, e2⟩
  swap
  · cases e2
  swap
  · cases e2
  swap
  · cases e2
  obtain ⟨rfl, rfl⟩ := Prod.mk.inj (Outcome.ok.inj e2)
  have hset' : s0.settings = x := hset
  obtain ⟨i, s, eg, H, sw, sh, ep, hnear⟩ := grab_resting R (x := o) (p := g) na rf ew eh hon gx gy (by rw [hset']; exact x1)
  obtain ⟨g1, g2, g3⟩ := grab_same R.rnd eg
  have hs : s.settings = x := g3.trans hset'
  have P : Paced i s0.nextHid o.place (1 + edits before) s := by
    refine ⟨H, by rw [hs]; exact M, ?_, by rw [g1]; exact hjoin, fun j => ?_⟩
    · rw [g1, sw, sh]
      exact rf.springs
    · have ev : s0.vel j = 0 := rf.vel j
      rw [g2, ev]
      simp only [Near, sub_self, abs_zero]
      exact ⟨by rw [hs]; exact M.limit_le.1, by rw [hs]; exact M.limit_le.1⟩
  have Q : Roomy i s0.nextHid o.place (1 + edits before) s := by
    have room : ∀ {W q t : ℝ}, Sane W (1 + edits before) → |q| ≤ 2 ^ 17 → |t| ≤ 70000 →
        |q - t| ≤ W * (1 + edits before) * 1048576 := by
      intro W q t hs hq ht
      have h1 := hs.prod
      have h2 := hs.one
      norm_num at hq
      rw [abs_le] at hq ht ⊢
      constructor <;> linarith
    refine ⟨P, fun j => ?_, fun j => ?_⟩
    · rw [ep]
      exact room H.sw (rf.small j).1 (H.targets_le 0).1
    · rw [ep]
      exact room H.sh (rf.small j).2 (H.targets_le 0).2
  refine ⟨i, s0.nextHid, s, ?_, hnear, ?_⟩
  · rw [Rounded.run_append, en, e1]
    simp only [bind_ok, run, exec, ag_grab hr na rf (by rw [hset']; exact M) gx gy, eg]
  · intro held hh hc
    have hc' : (edits before : ℝ) + heldEdits held + 1 ≤ 65536 := by exact_mod_cast hc
    obtain ⟨s', rs, er, -, Q', es, sw', sh'⟩ := roomy_run hr Q (sw.trans ew) (sh.trans eh) hh (by linarith)
    have ev : (1 : ℝ) + edits before + heldEdits held = edits before + heldEdits held + 1 := by ring
    rw [ev] at Q'
    have hV : limit s'.settings = V := by rw [es, hs]; rfl
    refine ⟨s', rs, er, Q'.paced.held.pointed sw' sh', fun j => ?_, fun t => ?_⟩
    · rw [← hV]
      exact Q'.paced.vel j
    obtain ⟨s'', m, e2, Q'', -, w2, h2, -, hm, hp⟩ := Q'.step R t
    refine ⟨s'', m, (Q'.ag_step hr t).trans e2, fun hf j => ?_, fun ht j => ?_⟩
    · rw [hm hf]
      exact Q'.paced.held.aimed sw' sh' j
    · have a := hp ht j
      rw [hV, es, hs] at a
      have c := Q'.paced.held.aimed sw' sh' j
      have d : ((edits before : ℝ) + heldEdits held + 1) / 262144 ≤ 1 := by linarith
      obtain ⟨a1, a2⟩ := a
      obtain ⟨c1, c2⟩ := c
      rw [abs_le] at a1 a2 c1 c2
      constructor <;> rw [abs_le] <;> constructor <;> linarith

/-- The hypotheses can be met: the settings a model has by default, and an arithmetic that makes everything beyond 2^500
zero. -/
example : ∃ (x : Settings) (r : ℝ → ℝ) (before : List FreeOp) (held : List HeldOp), before ≠ [] ∧ held.length = 6 ∧
    Spot.Stays ⟨0, 300, 200⟩ before ∧ (Spot.afterAll ⟨0, 300, 200⟩ before).StaysHeld held ∧
    edits before + heldEdits held < 65536 ∧ (∀ y, |y| ≤ 2 ^ 500 → r y = R.rnd y) ∧ (∀ y, 2 ^ 500 < |y| → r y = 0) ∧
    1 / 10 ≤ x.springConstant ∧ x.springConstant ≤ 10 ∧ 1 / 10 ≤ x.friction ∧ x.friction ≤ 10 ∧ 1 ≤ x.maximumRange ∧
    x.maximumRange ≤ 1000 := by
  obtain ⟨before, held, h1, h2, h3, h4, h5⟩ := drag_met
  refine ⟨⟨8, 3, 500⟩, fun y => if |y| ≤ 2 ^ 500 then R.rnd y else 0, before, held, h1, h2, h3, h4, h5,
    fun y hy => if_pos hy, fun y hy => if_neg (not_le.2 hy), ?_⟩
  norm_num

end

end Verif.Props
