import Verif.Spec.Rest
import Verif.Lemmas.WobblyDoubleRest

/-! # Wobbly models without anchors in double precision (C96, C97) -/

namespace Verif.Props

open Wobbly Wobbly.Rounded Spec Outcome Classical

noncomputable section

variable (R : Rounding64) {p : Pt} {w h : ℝ} {x : Settings} {b : ℕ} {ops : List FreeOp}

theorem rest_run {o : Spot} {s : Free} {v : ℝ} (hs : Resting o.place v s) (ew : s.width = o.width) (eh : s.height = o.height)
    (hr : o.Stays ops) (hn : v + edits ops ≤ 65536) :
    ∃ s', s.run R.rnd ops = .ok (s', ops.map calm) ∧ Resting (o.afterAll ops).place (v + edits ops) s' ∧
      s'.width = (o.afterAll ops).width ∧ s'.height = (o.afterAll ops).height := by
  induction ops generalizing o s v with
  | nil => exact ⟨s, rfl, by simpa [edits, Spot.afterAll] using hs, ew, eh⟩
  | cons op ops ih =>
    have hr' : (o.after op).Stays ops := fun n => hr (n + 1)
    have hon : (o.after op).OnScreen := by simpa [Spot.afterAll] using hr' 0
    have key : ∀ (s1 : Free) (v1 : ℝ), s.exec R.rnd op = .ok (s1, calm op) → Resting (o.after op).place v1 s1 →
        s1.width = (o.after op).width → s1.height = (o.after op).height → v1 + edits ops = v + edits (op :: ops) →
        ∃ s', s.run R.rnd (op :: ops) = .ok (s', (op :: ops).map calm) ∧
          Resting (o.afterAll (op :: ops)).place (v + edits (op :: ops)) s' ∧
          s'.width = (o.afterAll (op :: ops)).width ∧ s'.height = (o.afterAll (op :: ops)).height := by
      intro s1 v1 e1 r1 w1 h1 ev
      obtain ⟨s', e, r2, w2, h2⟩ := ih r1 w1 h1 hr' (by rw [ev]; exact hn)
      refine ⟨s', ?_, ?_, w2, h2⟩
      · simp only [Free.run, e1, bind_ok, e, List.map_cons]
      · rw [← ev]
        exact r2
    have one : edits (op :: ops) = edits ops + 1 → v + 1 ≤ 65536 := by
      intro e
      rw [e] at hn
      push_cast at hn
      have : (0 : ℝ) ≤ edits ops := by positivity
      linarith
    cases op with
    | step t =>
      refine key s v ?_ hs ew eh ?_
      · simp only [Free.exec, hs.step, calm]
      · simp [edits]
    | moveBy d =>
      have e1 : edits (.moveBy d :: ops) = edits ops + 1 := by simp [edits]
      refine key (s.moveBy R.rnd d) (v + 1) rfl (hs.moveBy R (one e1) hon.placeX hon.placeY) ew eh ?_
      rw [e1]
      push_cast
      ring
    | moveTo q =>
      have e1 : edits (.moveTo q :: ops) = edits ops + 1 := by simp [edits]
      obtain ⟨s1, e, a, c, r1⟩ := hs.moveTo R (p := q) (one e1) hon.placeX hon.placeY
      refine key s1 (v + 1) e r1 (a.trans ew) (c.trans eh) ?_
      rw [e1]
      push_cast
      ring
    | resize w' h' =>
      have e1 : edits (.resize w' h' :: ops) = edits ops + 1 := by simp [edits]
      obtain ⟨s1, e, a, c, r1⟩ := hs.resize R (w := w') (hh := h') (one e1) hon.widthMin hon.widthMax
        hon.widthDouble hon.heightMin hon.heightMax hon.heightDouble
      refine key s1 (v + 1) e r1 a c ?_
      rw [e1]
      push_cast
      ring

theorem resting_close {o : Spot} {s : Free} {v : ℝ} (hs : Resting o.place v s) (ew : s.width = o.width)
    (eh : s.height = o.height) : o.Close s.pos (v / 262144) := by
  intro i
  have a := hs.cx.bounds col_grid hs.sw i
  have c := hs.cy.bounds row_grid hs.sh i
  rw [ew] at a
  rw [eh] at c
  simp only [col] at a
  simp only [row] at c
  have h1 : o.width * v ≤ 32768 * v := mul_le_mul_of_nonneg_right (by linarith) (by linarith)
  have h2 : o.height * v ≤ 32768 * v := mul_le_mul_of_nonneg_right (by linarith) (by linarith)
  rw [abs_le, abs_le]
  refine ⟨⟨?_, ?_⟩, ?_, ?_⟩ <;> linarith

/-- **C96.** In double precision, with coordinates and sizes of a screen, a model that is only moved and resized
(fewer than 65536 times) stays the lattice of its size at its place: every call returns, every `Step` answers false
and changes nothing, and each coordinate is off by at most 2^-18 pixels per call made, the constructor included. -/
theorem C96_rest_in_doubles (hr : Spot.Stays ⟨p, w, h⟩ ops) (hn : edits ops < 65536) :
    ∃ s, (Free.new R.rnd p w h x b).run R.rnd ops = .ok (s, ops.map calm) ∧
      (Spot.afterAll ⟨p, w, h⟩ ops).Close s.pos ((edits ops + 1) / 262144) ∧
      ∀ t, s.exec R.rnd (.step t) = .ok (s, .more False) := by
  have h0 : Spot.OnScreen ⟨p, w, h⟩ := by simpa [Spot.afterAll] using hr 0
  have rest := new_resting R x b h0.placeX h0.placeY h0.widthMin h0.widthMax h0.widthDouble h0.heightMin h0.heightMax
    h0.heightDouble
  have hn' : (edits ops : ℝ) + 1 ≤ 65536 := by exact_mod_cast hn
  obtain ⟨s, e, r, ew, eh⟩ := rest_run R (o := ⟨p, w, h⟩) rest rfl rfl hr (by linarith)
  refine ⟨s, e, ?_, fun t => ?_⟩
  · rw [add_comm]
    exact resting_close r ew eh
  · simp only [Free.exec, r.step]

/-- Far from the origin the doubles are far apart. -/
theorem far_round {a : ℝ} (h0 : 0 ≤ a) (h9 : a ≤ 10) : R.rnd (a + 2 ^ 60) = 2 ^ 60 := by
  have hd : Double (2 ^ 60 : ℝ) := ⟨1, 60, by norm_num, by norm_num, by norm_num⟩
  have h1 := R.nearest (a + 2 ^ 60) _ hd
  have e1 : |(2 : ℝ) ^ 60 - (a + 2 ^ 60)| = a := by
    rw [abs_sub_comm, add_sub_cancel_right, abs_of_nonneg h0]
  rw [e1, abs_le] at h1
  obtain ⟨j, hj⟩ := double_multiple (R.double (a + 2 ^ 60)) (k := 7) (by
    rw [abs_of_nonneg (by norm_num at h1 ⊢; linarith)]
    norm_num at h1 ⊢
    linarith)
  rw [hj] at h1 ⊢
  norm_num at h1 ⊢
  have j1 : (j : ℝ) < 9007199254740993 := by linarith
  have j2 : (9007199254740991 : ℝ) < j := by linarith
  have j3 : j < 9007199254740993 := by exact_mod_cast j1
  have j4 : 9007199254740991 < j := by exact_mod_cast j2
  have : j = 9007199254740992 := by omega
  rw [this]
  norm_num

theorem nine_x (i : Idx) : ((Free.new R.rnd 0 9 9 x b).moveBy R.rnd ⟨2 ^ 60, 0⟩ |>.pos i).x = 2 ^ 60 := by
  have h3 : Double 3 := by exact_mod_cast double_nat (n := 3) (by norm_num)
  have hc : Double ((col i : ℝ) * 3) := by
    have : col i ≤ 3 := by unfold col; omega
    exact_mod_cast double_nat (n := col i * 3) (by omega)
  have hl : (col i : ℝ) ≤ 3 := col_grid.le i
  have hg : (0 : ℝ) ≤ col i := col_grid.nonneg i
  simp only [Free.moveBy, Free.new, Rounded.positionArray, add, Pt.zero_x, zero_add]
  rw [show (9 : ℝ) / 3 = 3 by norm_num, R.exact h3, R.exact hc, R.exact hc]
  exact far_round R (by linarith) (by linarith)

/-- **C96.** Beyond the range of a screen this fails: a resting model of side 9 that is moved by 2^60 loses its
width, and the next `Step` answers true. -/
theorem C96_far_away :
    ∃ s s' more, (Free.new R.rnd 0 9 9 x b).run R.rnd [.moveBy ⟨2 ^ 60, 0⟩] = .ok (s, [.none]) ∧
      (∀ i j, (s.pos i).x = (s.pos j).x) ∧ s.exec R.rnd (.step 16) = .ok (s', .more more) ∧ more := by
  refine ⟨_, _, _, rfl, fun i j => by rw [nine_x, nine_x], rfl, ?_⟩
  right
  by_contra hc
  have hcount : stepCount 16 ≠ 0 := stepCount_pos (by norm_num)
  obtain ⟨-, -, hl⟩ := integrate_quiet R hcount (fun _ => ⟨R.double _, R.double _⟩) hc
  have h3 : Double 3 := by exact_mod_cast double_nat (n := 3) (by norm_num)
  have hm : (⟨b + 1 + 1, .mesh 0, .mesh 1, ⟨R.rnd (9 / 3), 0⟩⟩ : Spring) ∈
      baseSprings ⟨R.rnd (9 / 3), R.rnd (9 / 3)⟩ b := by
    simp only [baseSprings, List.mem_map]
    exact ⟨((0, 1, false), 1), by decide, rfl⟩
  have := (hl _ hm).1
  simp only [Rounded.deltaA, Rounded.deltaFromDesired, resetIfCloseToZero, scale, meshAt, Pt.ext_iff] at this
  have := this.1
  rw [nine_x, nine_x, sub_self, rnd_zero, show (9 : ℝ) / 3 = 3 by norm_num, R.exact h3, zero_add,
    R.exact (x := 3 * -1) ⟨-3, 0, by norm_num, by norm_num, by norm_num⟩,
    R.exact (x := 3 * -1) ⟨-3, 0, by norm_num, by norm_num, by norm_num⟩,
    R.exact (x := 1 / 2 * (3 * -1)) ⟨-3, -1, by norm_num, by norm_num, by norm_num⟩] at this
  unfold clip at this
  rw [if_neg (by norm_num [abs_of_neg])] at this
  norm_num at this

/-- Calls that stay on a screen. -/
def screenOps : List FreeOp := [.moveBy ⟨1 / 10, -20⟩, .step 100, .resize 640 480, .moveTo ⟨-5, 1 / 3⟩, .step 7]

theorem screenOps_stays : Spot.Stays ⟨⟨10, 20⟩, 300, 200⟩ screenOps := by
  have d : ∀ n : ℕ, n ≤ 1000 → Double (n : ℝ) := fun n hn => double_nat (by omega)
  have d3 : Double 300 := by exact_mod_cast d 300 (by norm_num)
  have d2 : Double 200 := by exact_mod_cast d 200 (by norm_num)
  have d6 : Double 640 := by exact_mod_cast d 640 (by norm_num)
  have d4 : Double 480 := by exact_mod_cast d 480 (by norm_num)
  intro n
  rcases n with _ | _ | _ | _ | _ | n <;> refine ⟨?_, ?_, ?_, ?_, ?_, ?_, ?_, ?_⟩ <;>
    first
    | (simp [screenOps, Spot.afterAll, Spot.after, d2, d3, d4, d6]; done)
    | (simp only [screenOps, Spot.afterAll, Spot.after, List.take, List.foldl]; rw [abs_le]; constructor <;> norm_num)
    | (simp [screenOps, Spot.afterAll, Spot.after]; norm_num)

example : Spot.Stays ⟨⟨10, 20⟩, 300, 200⟩ screenOps ∧ edits screenOps = 3 := ⟨screenOps_stays, by simp [edits, screenOps]⟩

/-- **C97.** In double precision, whatever was called before and with whatever arguments: once a `Step` over a time
that is not zero answers false, it left every point where it was, and every later `Step` answers false and changes
nothing. -/
theorem C97_settled_in_doubles {s s' : Free} {rs : List Res} {t : ℕ}
    (e : (Free.new R.rnd p w h x b).run R.rnd ops = .ok (s, rs)) (ht : t ≠ 0)
    (hs : s.exec R.rnd (.step t) = .ok (s', .more False)) :
    s'.pos = s.pos ∧ ∀ t', s'.exec R.rnd (.step t') = .ok (s', .more False) := by
  have hd : Doubles s.pos := run_doubles R (fun _ => ⟨R.double _, R.double _⟩) e
  simp only [Free.exec, Outcome.ok.injEq] at hs ⊢
  exact step_false R hd ht hs

example : ∃ s rs s', (Free.new someRounding64.rnd ⟨10, 20⟩ 300 200 x b).run someRounding64.rnd screenOps = .ok (s, rs) ∧
    s.exec someRounding64.rnd (.step 16) = .ok (s', .more False) := by
  obtain ⟨s, e, -, h⟩ := C96_rest_in_doubles someRounding64 (x := x) (b := b) screenOps_stays (by simp [edits, screenOps])
  exact ⟨s, _, s, e, h 16⟩

end

end Verif.Props
