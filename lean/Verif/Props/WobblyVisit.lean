import Verif.Lemmas.WobblyVisit
import Verif.Props.WobblyPaced

/-! # Dragging a model again and again in double precision (C115) -/

namespace Verif.Props

open Wobbly Wobbly.Rounded Spec Outcome Classical

noncomputable section

variable (R : Rounding64) {x : Settings} {r : ℝ → ℝ} {s : State} {o : Spot} {n : ℕ}

/-- Nobody holds the model, and it is at rest at the spot. -/
structure Quiet (x : Settings) (s : State) (o : Spot) (n : ℕ) : Prop where
  free : NoAnchor s
  rest : Resting o.place (1 + n) (part s)
  width : s.width = o.width
  height : s.height = o.height
  settings : s.settings = x
  on : o.OnScreen
  joined : Joined s.springs

/-- The arithmetic is that of doubles, with or without overflow. -/
def Sound (x : Settings) (r : ℝ → ℝ) : Prop := r = R.rnd ∨ Agrees R r ∧ Mild x

variable {R}

theorem Quiet.exec_agree (hr : Sound R x r) (Q : Quiet x s o n) {op : FreeOp} (ho : (o.after op).OnScreen) :
    (part s).exec r op = (part s).exec R.rnd op := by
  rcases hr with rfl | ⟨ha, M⟩
  · rfl
  · exact Q.rest.ag_exec ha (by rw [show (part s).settings = x from Q.settings]; exact M) Q.joined ho

theorem Quiet.call (hr : Sound R x r) (Q : Quiet x s o n) {op : FreeOp} (ho : (o.after op).OnScreen)
    (hn : n + edits [op] < 65536) : ∃ s', exec r s op.call = .ok (s', calm op) ∧ Quiet x s' (o.after op) (n + edits [op]) := by
  have stays : o.Stays [op] := by
    intro k
    rcases k with _ | k
    · exact Q.on
    · simpa [Spot.afterAll] using ho
  have hn' : (n : ℝ) + edits [op] + 1 ≤ 65536 := by exact_mod_cast hn
  obtain ⟨f, e, r1, w1, h1⟩ := rest_run R (ops := [op]) Q.rest Q.width Q.height stays (by linarith)
  simp only [Free.run, bind_eq_ok, Outcome.ok.injEq, Prod.mk.injEq, List.map_cons, List.map_nil, List.cons.injEq] at e
  obtain ⟨a, ea, c, ec, e2, e3⟩ := e
  rw [← ec] at e2
  simp only at e2
  rw [← e2] at r1 w1 h1
  have ea' : (part s).exec r op = .ok a := (Q.exec_agree hr ho).trans ea
  rcases exec_free r Q.free op with ⟨s1, y, e4, e5, na⟩ | ⟨-, e5⟩ | ⟨-, e5⟩ | ⟨-, e5⟩
  swap
  · rw [ea'] at e5; cases e5
  swap
  · rw [ea'] at e5; cases e5
  swap
  · rw [ea'] at e5; cases e5
  rw [ea'] at e5
  obtain rfl := Outcome.ok.inj e5
  simp only at e3 r1 w1 h1
  refine ⟨s1, by rw [e4, e3.1], na, ?_, ?_, ?_, ?_, ho, ?_⟩
  · have : (1 : ℝ) + ((n + edits [op] : ℕ) : ℝ) = 1 + n + edits [op] := by push_cast; ring
    rw [this]
    simpa [Spot.afterAll] using r1
  · exact w1
  · exact h1
  · exact (exec_settings R.rnd ea).trans Q.settings
  · exact exec_joined R.rnd (f := part s) Q.joined ea

theorem step_same {s' : State} {t : ℕ} {y : Res} (e : Rounded.step r s t = .ok (s', y)) (ep : part s' = part s) : s' = s := by
  have e1 := congrArg Free.pos ep
  have e2 := congrArg Free.vel ep
  have e3 := congrArg Free.unequal ep
  simp only [part] at e1 e2 e3
  unfold Rounded.step at e
  by_cases hd : stepCount t ≠ 0 ∧ dangling s.springs s.live
  · rw [if_pos hd] at e
    cases e
  rw [if_neg hd, bind_eq_ok] at e
  obtain ⟨a, -, e⟩ := e
  simp only [Outcome.ok.injEq, Prod.mk.injEq] at e
  obtain ⟨e, -⟩ := e
  rw [← e] at e1 e2 e3
  simp only at e1 e2 e3
  rw [← e]
  have key : ∀ (m u : Mesh) (c : Prop), m = s.pos → u = s.vel → c = s.unequal →
      ({ s with pos := m, vel := u, unequal := c } : State) = s := by
    rintro m u c rfl rfl rfl
    rfl
  exact key _ _ _ e1 e2 e3

theorem Quiet.still (hr : Sound R x r) (Q : Quiet x s o n) : Still r s := by
  intro t
  have e := Q.exec_agree hr (op := .step t) Q.on
  simp only [Free.exec] at e
  rw [Q.rest.step] at e
  rcases exec_free r Q.free (.step t) with ⟨s1, y, e4, e5, na⟩ | ⟨-, e5⟩ | ⟨-, e5⟩ | ⟨-, e5⟩
  · simp only [Free.exec] at e5
    rw [e] at e5
    obtain ⟨e6, rfl⟩ := Prod.mk.inj (Outcome.ok.inj e5)
    have e4' : Rounded.step r s t = .ok (s1, .more False) := e4
    rw [step_same e4' e6.symm] at e4
    exact e4
  all_goals
    simp only [Free.exec] at e5
    cases e5

theorem Quiet.close (Q : Quiet x s o n) (j : Idx) : Near ((n + 1) / 262144) (s.pos j) (o.point j) := by
  have := Q.rest.near (f := part s) Q.width Q.height j
  rw [add_comm (n : ℝ) 1]
  exact this

/-- A held model; with room for everything if overflow matters. -/
theorem Quiet.grab (hr : Sound R x r) (hx : 1 ≤ x.maximumRange) (Q : Quiet x s o n) {g : Pt} (gx : |g.x| ≤ 32768) (gy : |g.y| ≤ 32768) :
    ∃ i s', exec r s (.grab g) = .ok (s', .handle s.nextHid) ∧ Kept x i s.nextHid o.place (1 + n) s' ∧
      (r = R.rnd ∨ Agrees R r ∧ Roomy i s.nextHid o.place (1 + n) s') ∧
      s'.width = o.width ∧ s'.height = o.height ∧ ∀ j, euclid g (o.point i) ≤ euclid g (o.point j) + 1 := by
  obtain ⟨i, s', e, K, sw, sh, ep, hj⟩ := grab_kept R Q.free Q.rest Q.width Q.height Q.on gx gy
    (by rw [Q.settings]; exact hx) Q.joined
  rw [Q.settings] at K
  rcases hr with rfl | ⟨ha, M⟩
  · exact ⟨i, s', e, K, Or.inl rfl, sw.trans Q.width, sh.trans Q.height, hj⟩
  refine ⟨i, s', ?_, K, Or.inr ⟨ha, ?_⟩, sw.trans Q.width, sh.trans Q.height, hj⟩
  · exact (ag_grab ha Q.free Q.rest (by rw [Q.settings]; exact M) gx gy).trans e
  have H := K.held
  have rest := Q.rest
  have P : Paced i s.nextHid o.place (1 + n) s' := by
    refine ⟨H, by rw [K.settings]; exact M, K.fits, K.joined, fun j => ?_⟩
    have ev : s.vel j = 0 := rest.vel j
    rw [(grab_same R.rnd e).2.1, ev]
    simp only [Near, sub_self, abs_zero]
    exact ⟨by rw [K.settings]; exact M.limit_le.1, by rw [K.settings]; exact M.limit_le.1⟩
  have room : ∀ {W q t : ℝ}, Sane W (1 + n) → |q| ≤ 2 ^ 17 → |t| ≤ 70000 → |q - t| ≤ W * (1 + n) * 1048576 := by
    intro W q t hs hq ht
    have h1 := hs.prod
    have h2 := hs.one
    norm_num at hq
    rw [abs_le] at hq ht ⊢
    constructor <;> linarith
  refine ⟨P, fun j => ?_, fun j => ?_⟩
  · rw [ep]
    exact room H.sw (rest.small j).1 (H.targets_le 0).1
  · rw [ep]
    exact room H.sh (rest.small j).2 (H.targets_le 0).2

/-- What happens while the model is held. -/
theorem kept_drag {i : Idx} {a : ℕ} {held : List HeldOp} (K : Kept x i a o.place (1 + n) s)
    (hr : r = R.rnd ∨ Agrees R r ∧ Roomy i a o.place (1 + n) s) (ew : s.width = o.width) (eh : s.height = o.height)
    (hs : o.StaysHeld held) (hn : n + heldEdits held < 65536) :
    ∃ s' rs, run r s (held.map (HeldOp.call a)) = .ok (s', rs) ∧
      Kept x i a (o.heldAll held).place (1 + (n + heldEdits held : ℕ)) s' ∧
      s'.width = (o.heldAll held).width ∧ s'.height = (o.heldAll held).height ∧
      (r = R.rnd ∨ Agrees R r ∧ Roomy i a (o.heldAll held).place (1 + (n + heldEdits held : ℕ)) s') := by
  have hn' : (1 : ℝ) + n + heldEdits held ≤ 65536 := by
    have : ((n + heldEdits held + 1 : ℕ) : ℝ) ≤ (65536 : ℕ) := by exact_mod_cast hn
    push_cast at this
    linarith
  have ev : (1 : ℝ) + (n + heldEdits held : ℕ) = 1 + n + heldEdits held := by push_cast; ring
  rw [ev]
  obtain ⟨s', rs, e, K', sw, sh⟩ := kept_run R K ew eh hs hn'
  rcases hr with rfl | ⟨ha, P⟩
  · exact ⟨s', rs, e, K', sw, sh, Or.inl rfl⟩
  · obtain ⟨s2, rs2, e2, e3, P', -⟩ := roomy_run ha P ew eh hs hn'
    rw [e] at e3
    obtain ⟨rfl, rfl⟩ := Prod.mk.inj (Outcome.ok.inj e3)
    exact ⟨_, _, e2, K', sw, sh, Or.inr ⟨ha, P'⟩⟩

theorem kept_step {i : Idx} {a : ℕ} {p : Pt} {v : ℝ} (K : Kept x i a p v s) (hr : r = R.rnd ∨ Agrees R r ∧ Roomy i a p v s) {t : ℕ}
    (ht : t ≠ 0) :
    ∃ s' more, exec r s (.step t) = .ok (s', .more more) ∧ s'.width = s.width ∧ s'.height = s.height ∧
      (¬ more → Parked x i a p v s' ∧ Still r s') := by
  obtain ⟨s', more, e, -, sw, sh, -, hp⟩ := K.step (R := R) t
  rcases hr with rfl | ⟨ha, P⟩
  · exact ⟨s', more, e, sw, sh, fun hm => ⟨hp hm ht, fun t' => (hp hm ht).step t'⟩⟩
  · obtain ⟨s2, m2, e2, P', -⟩ := P.step R t
    rw [e] at e2
    obtain ⟨rfl, -⟩ := Prod.mk.inj (Outcome.ok.inj e2)
    exact ⟨_, more, (P.ag_step ha t).trans e, sw, sh, fun hm =>
      ⟨hp hm ht, fun t' => (P'.ag_step ha t').trans ((hp hm ht).step t')⟩⟩

theorem parked_quiet {i : Idx} {a : ℕ} (P : Parked x i a o.place (1 + n) s) (ew : s.width = o.width) (eh : s.height = o.height)
    (on : o.OnScreen) : ∃ s', exec r s (.release a) = .ok (s', .none) ∧ s'.pos = s.pos ∧ Quiet x s' o n := by
  obtain ⟨s', e, na, ep, epos⟩ := P.release r
  have es : s'.settings = s.settings := congrArg Free.settings ep
  have ej : s'.springs = s.springs := congrArg Free.springs ep
  have e1 : s'.width = s.width := congrArg Free.width ep
  have e2 : s'.height = s.height := congrArg Free.height ep
  exact ⟨s', e, epos, na, by rw [ep]; exact P.resting, e1.trans ew, e2.trans eh, es.trans P.kept.settings, on,
    by rw [ej]; exact P.kept.joined⟩

theorem stays_last {held : List HeldOp} (h : o.StaysHeld held) : (o.heldAll held).OnScreen := by simpa using h held.length

theorem Quiet.dependable (hr : Sound R x r) (hx : 1 ≤ x.maximumRange) (Q : Quiet x s o n) : Dependable r s o n where
  close := Q.close
  still := Q.still hr
  calls op ho hn := by
    obtain ⟨s', e, -⟩ := Q.call hr ho hn
    exact ⟨s', e⟩
  grabs g gx gy := by
    obtain ⟨i, s1, e1, K, hr1, w1, h1, hj⟩ := Q.grab hr hx gx gy
    refine ⟨i, s.nextHid, s1, e1, hj, fun held hs hn => ?_⟩
    obtain ⟨s2, rs, e2, K2, w2, h2, hr2⟩ := kept_drag K hr1 w1 h1 hs hn
    have ev : ((n : ℝ) + heldEdits held + 1) = 1 + (n + heldEdits held : ℕ) := by push_cast; ring
    refine ⟨s2, rs, e2, by rw [ev]; exact K2.held.pointed w2 h2, fun t ht => ?_⟩
    obtain ⟨s3, more, e3, w3, h3, hm⟩ := kept_step K2 hr2 ht
    refine ⟨s3, more, e3, fun hf => ?_⟩
    obtain ⟨P, still⟩ := hm hf
    obtain ⟨s4, e4, ep, Q4⟩ := parked_quiet (r := r) P (w3.trans w2) (h3.trans h2) (stays_last hs)
    refine ⟨fun j => ?_, still, s4, e4, ep, Q4.still hr⟩
    have := Q4.close j
    rw [ep] at this
    push_cast at this
    exact this

theorem peaceful_quiet (hr : Sound R x r) (hx : 1 ≤ x.maximumRange) (H : Peaceful r x s o n) (hn : n < 65536) : Quiet x s o n := by
  induction H with
  | @new p w h b on =>
    have en : Rounded.new r p w h x b = Rounded.new R.rnd p w h x b := by
      rcases hr with rfl | ⟨ha, -⟩
      · rfl
      · exact ag_new ha on x b
    rw [en]
    refine ⟨new_free R.rnd p w h x b, ?_, rfl, rfl, rfl, on, joined_base _ _⟩
    rw [new_part, Nat.cast_zero, add_zero]
    exact new_resting R x b on.placeX on.placeY on.widthMin on.widthMax on.widthDouble on.heightMin on.heightMax on.heightDouble
  | elsewhere before ran ih =>
    obtain ⟨rfl, -⟩ := Prod.mk.inj (Outcome.ok.inj ran)
    obtain ⟨h1, h2, h3, h4, h5, h6, h7⟩ := ih hn
    exact ⟨⟨h1.live, h1.count, h1.locks, h1.ends⟩, ⟨h2.ox, h2.oy, h2.sw, h2.sh, h2.dw, h2.dh, h2.cx, h2.cy, h2.vel, h2.doubles,
      h2.unequal, h2.springs⟩, h3, h4, h5, h6, h7⟩
  | call before on ran ih =>
    obtain ⟨s', e, Q⟩ := (ih (by omega)).call hr on hn
    rw [e] at ran
    obtain ⟨rfl, -⟩ := Prod.mk.inj (Outcome.ok.inj ran)
    exact Q
  | visit before gx gy grabbed on dragged some rested released ih =>
    have Q := ih (by omega)
    obtain ⟨i, s1, e1, K, hr1, w1, h1, hj⟩ := Q.grab hr hx gx gy
    rw [e1] at grabbed
    obtain ⟨rfl, ea⟩ := Prod.mk.inj (Outcome.ok.inj grabbed)
    cases ea
    obtain ⟨s2, rs, e2, K2, w2, h2, hr2⟩ := kept_drag K hr1 w1 h1 on hn
    rw [e2] at dragged
    obtain ⟨rfl, -⟩ := Prod.mk.inj (Outcome.ok.inj dragged)
    obtain ⟨s3, more, e3, w3, h3, hm⟩ := kept_step K2 hr2 some
    rw [e3] at rested
    obtain ⟨rfl, em⟩ := Prod.mk.inj (Outcome.ok.inj rested)
    obtain ⟨P, -⟩ := hm (by
      rw [Res.more.inj em]
      exact not_false)
    obtain ⟨s4, e4, -, Q4⟩ := parked_quiet (r := r) P (w3.trans w2) (h3.trans h2) (stays_last on)
    rw [e4] at released
    obtain ⟨rfl, -⟩ := Prod.mk.inj (Outcome.ok.inj released)
    exact Q4

variable (R)

/-- **C115.** In double precision, with coordinates and sizes of a screen and a maximum range of at least one pixel: a
program moves and resizes a model, takes hold of it, drags it, and lets go when `Step` has answered false; and all this
again and again. Then every call returns. Whenever nobody holds the model it lies where all moves together have it, to
within 2^-18 pixels for each of fewer than 65536 calls that move, drag or resize, and `Step` answers false and changes
nothing. Once `Step` answers false while the model is held, it does so from then on. -/
theorem C115_again_in_doubles (hx : 1 ≤ x.maximumRange) (H : Peaceful R.rnd x s o n) (hn : n < 65536) :
    Dependable R.rnd s o n :=
  (peaceful_quiet (R := R) (Or.inl rfl) hx H hn).dependable (Or.inl rfl) hx

/-- **C115, overflow.** With spring constant and friction between 0.1 and 10 and a maximum range of at most 1000 pixels the
same holds if the arithmetic yields whatever it likes once a result exceeds 2^500. -/
theorem C115_no_overflow (hr : ∀ x, |x| ≤ 2 ^ 500 → r x = R.rnd x)
    (k1 : 1 / 10 ≤ x.springConstant) (k2 : x.springConstant ≤ 10) (f1 : 1 / 10 ≤ x.friction) (f2 : x.friction ≤ 10)
    (x1 : 1 ≤ x.maximumRange) (x2 : x.maximumRange ≤ 1000) (H : Peaceful r x s o n) (hn : n < 65536) : Dependable r s o n :=
  (peaceful_quiet (R := R) (Or.inr ⟨hr, k1, k2, f1, f2, x1, x2⟩) x1 H hn).dependable (Or.inr ⟨hr, k1, k2, f1, f2, x1, x2⟩) x1

/-- A model that nobody holds is grabbed anywhere, dragged by a sixteenth of a pixel, and comes to rest at once. -/
theorem Quiet.nudge (hx : 1 ≤ x.maximumRange) (Q : Quiet x s o n) (hn : n < 4096) {g d : Pt} (gx : |g.x| ≤ 32768)
    (gy : |g.y| ≤ 32768) (dx : |d.x| ≤ 1 / 16) (dy : |d.y| ≤ 1 / 16) (on : (o.held (.drag d)).OnScreen) :
    ∃ s1 s2 s3 s4, exec R.rnd s (.grab g) = .ok (s1, .handle s.nextHid) ∧
      run R.rnd s1 ([HeldOp.drag d].map (HeldOp.call s.nextHid)) = .ok (s2, [.none]) ∧
      exec R.rnd s2 (.step 16) = .ok (s3, .more False) ∧ exec R.rnd s3 (.release s.nextHid) = .ok (s4, .none) ∧
      o.StaysHeld [.drag d] := by
  obtain ⟨i, s1, e1, K, -, w1, h1, -⟩ := Q.grab (R := R) (Or.inl rfl) hx gx gy
  have hv : (1 : ℝ) + n ≤ 4096 := by exact_mod_cast (by omega : 1 + n ≤ 4096)
  obtain ⟨s2, e2, K2, w2, h2, ep, ev⟩ := K.drag R d (by linarith) on.placeX on.placeY
  have es := (grab_same R.rnd e1).2.1
  have e0 : s1.pos = s.pos := by
    obtain ⟨i', s1', e1', -, -, -, ep', -⟩ := grab_kept R Q.free Q.rest Q.width Q.height Q.on gx gy
      (by rw [Q.settings]; exact hx) Q.joined
    have : exec R.rnd s (.grab g) = .ok (s1', .handle s.nextHid) := e1'
    rw [this] at e1
    rw [← (Prod.mk.inj (Outcome.ok.inj e1)).1]
    exact ep'
  have near : ∀ j, Near (3 / 16) (s2.pos j) (s2.targets j) := by
    intro j
    have c := K2.held.aimed (x := o.held (.drag d)) (w2.trans w1) (h2.trans h1) j
    have small : (1 + n + 1 : ℝ) / 262144 ≤ 1 / 32 := by linarith
    have small' : ((n : ℝ) + 1) / 262144 ≤ 1 / 64 := by linarith
    obtain ⟨c1, c2⟩ := c
    rw [abs_le] at c1 c2
    by_cases hj : j = i
    · subst hj
      obtain ⟨q1, q2⟩ := K2.held.pointed (x := o.held (.drag d)) (w2.trans w1) (h2.trans h1)
      rw [abs_le] at q1 q2
      constructor <;> rw [abs_le] <;> constructor <;> linarith
    · have q := Q.close j
      have e3 : s2.pos j = s.pos j := by rw [ep, Function.update_of_ne hj, e0]
      rw [e3]
      obtain ⟨q1, q2⟩ := q
      simp only [Spot.point, Spot.held] at q1 q2 c1 c2
      rw [abs_le] at q1 q2 dx dy
      constructor <;> rw [abs_le] <;> constructor <;> linarith
  have dbl : Doubles s2.pos := by
    intro j
    rw [ep]
    by_cases hj : j = i
    · subst hj
      rw [Function.update_self]
      exact ⟨R.double _, R.double _⟩
    · rw [Function.update_of_ne hj, e0]
      exact Q.rest.doubles j
  have hvel : ∀ j, s2.vel j = 0 := by
    intro j
    rw [ev, es]
    exact Q.rest.vel j
  obtain ⟨s3, e3, P, w3, h3⟩ := K2.calm (R := R) near dbl hvel (t := 16) (by norm_num)
  obtain ⟨s4, e4, -⟩ := P.release R.rnd
  have ran : run R.rnd s1 ([HeldOp.drag d].map (HeldOp.call s.nextHid)) = .ok (s2, [.none]) := by
    simp only [List.map_cons, List.map_nil, HeldOp.call, run, exec, e2, bind_ok]
  refine ⟨s1, s2, s3, s4, e1, ran, e3, e4, fun k => ?_⟩
  rcases k with _ | k
  · exact Q.on
  · simpa [Spot.heldAll] using on

/-- The hypotheses can be met: a model that nobody holds is grabbed anywhere, dragged by a sixteenth of a pixel, and comes
to rest at once. -/
theorem nudge_visit (hx : 1 ≤ x.maximumRange) (H : Peaceful R.rnd x s o n) (hn : n < 4096) {g d : Pt} (gx : |g.x| ≤ 32768)
    (gy : |g.y| ≤ 32768) (dx : |d.x| ≤ 1 / 16) (dy : |d.y| ≤ 1 / 16) (on : (o.held (.drag d)).OnScreen) :
    ∃ s', Peaceful R.rnd x s' (o.held (.drag d)) (n + 1) := by
  have Q := peaceful_quiet (R := R) (Or.inl rfl) hx H (by omega)
  obtain ⟨s1, s2, s3, s4, e1, ran, e3, e4, stays⟩ := Q.nudge R hx hn gx gy dx dy on
  exact ⟨s4, H.visit gx gy e1 (held := [.drag d]) stays ran (t := 16) (by norm_num) e3 e4⟩

/-- Two visits in a row, with a move and a resize in between. -/
example (hx : 1 ≤ x.maximumRange) : ∃ s, Peaceful R.rnd x s ⟨⟨10 + 1 / 16 - 1 / 32, 20⟩, 100, 50⟩ 4 := by
  have ok : ∀ (a c : ℝ) (m n : ℕ), |a| ≤ 1000 → |c| ≤ 1000 → 1 ≤ m → m ≤ 1000 → 1 ≤ n → n ≤ 1000 →
      Spot.OnScreen ⟨⟨a, c⟩, m, n⟩ := by
    intro a c m n ha hc m1 m2 n1 n2
    have m1' : (1 : ℝ) ≤ m := by exact_mod_cast m1
    have m2' : (m : ℝ) ≤ 1000 := by exact_mod_cast m2
    have n1' : (1 : ℝ) ≤ n := by exact_mod_cast n1
    have n2' : (n : ℝ) ≤ 1000 := by exact_mod_cast n2
    exact ⟨by show |a| ≤ _; linarith, by show |c| ≤ _; linarith, m1', by show (m : ℝ) ≤ _; linarith, double_nat (by omega), n1',
      by show (n : ℝ) ≤ _; linarith, double_nat (by omega)⟩
  have o0 := ok 0 0 300 200 (by norm_num) (by norm_num) (by norm_num) (by norm_num) (by norm_num) (by norm_num)
  have H0 : Peaceful R.rnd x (Rounded.new R.rnd ⟨0, 0⟩ (300 : ℕ) (200 : ℕ) x 0) ⟨⟨0, 0⟩, (300 : ℕ), (200 : ℕ)⟩ 0 := .new o0
  have call : ∀ {s : State} {o : Spot} {n : ℕ} (op : FreeOp), Peaceful R.rnd x s o n → (o.after op).OnScreen →
      n + edits [op] < 65536 → ∃ s', Peaceful R.rnd x s' (o.after op) (n + edits [op]) := by
    intro s o n op H on hn
    obtain ⟨s', e⟩ := (C115_again_in_doubles R hx H (by omega)).calls op on hn
    exact ⟨s', H.call on e⟩
  obtain ⟨s1, H1⟩ := call (.moveBy ⟨10, 20⟩) H0
    (ok (0 + 10) (0 + 20) 300 200 (by norm_num) (by norm_num) (by norm_num) (by norm_num) (by norm_num) (by norm_num)) (by decide)
  obtain ⟨s2, H2⟩ := nudge_visit R hx H1 (by decide) (g := ⟨150, 90⟩) (d := ⟨1 / 16, 0⟩) (by norm_num [abs_le]) (by norm_num [abs_le])
    (by norm_num [abs_le]) (by norm_num)
    (ok (0 + 10 + 1 / 16) (0 + 20 + 0) 300 200 (by norm_num [abs_le]) (by norm_num) (by norm_num) (by norm_num) (by norm_num) (by norm_num))
  obtain ⟨s3, H3⟩ := call (.resize (100 : ℕ) (50 : ℕ)) H2
    (ok (0 + 10 + 1 / 16) (0 + 20 + 0) 100 50 (by norm_num [abs_le]) (by norm_num) (by norm_num) (by norm_num) (by norm_num) (by norm_num))
    (by decide)
  obtain ⟨s4, H4⟩ := nudge_visit R hx H3 (by decide) (g := ⟨0, 0⟩) (d := ⟨-(1 / 32), 0⟩) (by norm_num) (by norm_num)
    (by norm_num [abs_le]) (by norm_num)
    (ok (0 + 10 + 1 / 16 + -(1 / 32)) (0 + 20 + 0 + 0) 100 50 (by norm_num [abs_le]) (by norm_num) (by norm_num) (by norm_num)
      (by norm_num) (by norm_num))
  refine ⟨s4, ?_⟩
  convert H4 using 1
  · simp only [Spot.held, Spot.after]
    norm_num
  · rfl

end

end Verif.Props
