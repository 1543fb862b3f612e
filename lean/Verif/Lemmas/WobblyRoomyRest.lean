import Verif.Lemmas.WobblyRoomy

/-! # Nothing overflows before a model is held, nor when it is grabbed -/

namespace Verif.Wobbly.Rounded

noncomputable section

open Classical Outcome Spec

variable {R : Rounding64} {r : ℝ → ℝ} {o : Pt} {v : ℝ} {f : Free}

/-! ## Resting models -/

theorem Resting.small (H : Resting o v f) (j : Idx) : Small 17 (f.pos j) := by
  have a := H.cx.bounds col_grid H.sw j
  have b := H.cy.bounds row_grid H.sh j
  have c := abs_le.1 H.ox
  have d := abs_le.1 H.oy
  constructor <;> rw [abs_le] <;> norm_num <;> constructor <;> linarith

theorem Resting.ag_spring (hr : Agrees R r) (H : Resting o v f) (M : Mild f.settings) {l : List Spring} (hl : Joined l)
    (hf : ∀ y ∈ l, Fits f.width f.height v y) :
    springStep r f.settings.springConstant f.settings.friction l ⟨f.pos, f.vel⟩ = (⟨f.pos, f.vel⟩, False) ∧
    springStep R.rnd f.settings.springConstant f.settings.friction l ⟨f.pos, f.vel⟩ = (⟨f.pos, f.vel⟩, False) := by
  obtain ⟨e1, e2⟩ := step_slack R (k := f.settings.springConstant) (friction := f.settings.friction) (q := ⟨f.pos, f.vel⟩)
    H.doubles H.vel fun y hy => H.slack (hf y hy)
  have E : springStep R.rnd f.settings.springConstant f.settings.friction l ⟨f.pos, f.vel⟩ = (⟨f.pos, f.vel⟩, False) :=
    Prod.ext e1 (eq_false e2)
  refine ⟨?_, E⟩
  let e : Env := ⟨f.settings.springConstant, f.settings.friction, fun _ => 0, l, fun _ => 0⟩
  have s1 := springRound_free r (e := e) (fun _ => rfl) (fun _ => rfl) ⟨f.pos, f.vel⟩
  have s2 := springRound_free R.rnd (e := e) (fun _ => rfl) (fun _ => rfl) ⟨f.pos, f.vel⟩
  have sm : ∀ j, Small 52 (f.pos j) := fun j => (H.small j).up (by omega)
  have := ag_springRound hr (e := e) (q := ⟨f.pos, f.vel⟩) (n := 52) M.k_pow M.f_pow (fun y hy => by
    obtain ⟨a, c, ha, hc, -⟩ := hf y hy
    refine ⟨?_, ?_, fits_small H.sw H.sh (hf y hy)⟩
    · rw [ha]
      exact sm a
    · rw [hc]
      exact sm c) hl.length sm (fun j => by
        show Small 52 (f.vel j)
        rw [H.vel j]
        simp [Small])
  rw [s1, s2] at this
  exact this.trans E

theorem loop_still {g : Phys → Phys × Prop} {q : Phys} (h : g q = (q, False)) : loop g q = .ok (q.pos 0) := by
  have hx : ∃ n, ¬ (g ((fun q => (g q).1)^[n] q)).2 := ⟨0, by
    show ¬ (g q).2
    rw [h]
    exact id⟩
  have h0 : Nat.find hx = 0 := (Nat.find_eq_zero hx).2 (by
    show ¬ (g q).2
    rw [h]
    exact id)
  unfold loop
  rw [dif_pos hx, h0]
  show Outcome.ok ((g q).1.pos 0) = _
  rw [h]

theorem tile_small (hr : Agrees R r) (sw : Sane f.width v) (sh : Sane f.height v) : f.tile r = f.tile R.rnd ∧ Small 17 (f.tile R.rnd) := by
  have key : ∀ {W : ℝ}, Sane W v → |W / 3| ≤ 2 ^ 17 := by
    intro W hs
    rw [abs_of_nonneg (by linarith [hs.one])]
    norm_num
    linarith [hs.big]
  obtain ⟨a1, a2⟩ := ag hr (key sw)
  obtain ⟨b1, b2⟩ := ag hr (key sh)
  unfold Free.tile
  rw [a1, b1]
  exact ⟨rfl, a2, b2⟩

theorem Resting.ag_settle (hr : Agrees R r) (H : Resting o v f) (M : Mild f.settings) :
    settle r f.settings.springConstant f.settings.friction (baseSprings (f.tile r) f.lastId) ⟨f.pos, f.vel⟩ = .ok (f.pos 0) := by
  rw [free_loop, (tile_small hr H.sw H.sh).1]
  exact loop_still (H.ag_spring hr M (joined_base _ _) fun y hy => base_fits R H.sw H.sh _ y hy).1

theorem Resting.ag_target (hr : Agrees R r) (H : Resting o v f) (M : Mild f.settings) :
    f.targetPosition r = f.targetPosition R.rnd := by
  rw [H.target]
  unfold Free.targetPosition
  rw [H.ag_settle hr M]
  rfl

theorem Resting.ag_integrate (hr : Agrees R r) (H : Resting o v f) (M : Mild f.settings) (hj : Joined f.springs) (n : ℕ) :
    f.integrate r n ⟨f.pos, f.vel⟩ = f.integrate R.rnd n ⟨f.pos, f.vel⟩ := by
  obtain ⟨e1, e2⟩ := H.ag_spring hr M hj H.springs
  induction n with
  | zero => rfl
  | succ n ih =>
    simp only [Free.integrate, e1, e2]
    rw [ih]

theorem Resting.ag_add (hr : Agrees R r) (H : Resting o v f) {d : Pt} (hd : Small 18 d) (j : Idx) :
    add r (f.pos j) d = add R.rnd (f.pos j) d := (Rounded.ag_add hr ((H.small j).up (by omega : 17 ≤ 18)) hd).1

/-- A call on a resting model. -/
theorem Resting.ag_exec (hr : Agrees R r) {x : Spot} (H : Resting x.place v f) (M : Mild f.settings) (hj : Joined f.springs)
    {op : FreeOp} (ho : (x.after op).OnScreen) : f.exec r op = f.exec R.rnd op := by
  cases op with
  | step t =>
    unfold Free.exec Free.step
    simp only [H.ag_integrate hr M hj]
  | moveBy d =>
    have sd := small_move H.ox H.oy ho.placeX ho.placeY
    unfold Free.exec Free.moveBy
    simp only [fun j => H.ag_add hr sd j]
  | moveTo p =>
    obtain ⟨a1, a2⟩ := ag_sub hr (small_screen ho.placeX ho.placeY) (H.small 0)
    have e : ∀ j, add r (f.pos j) (sub R.rnd p (f.pos 0)) = add R.rnd (f.pos j) (sub R.rnd p (f.pos 0)) :=
      fun j => H.ag_add hr a2 j
    simp only [Free.exec, Free.moveTo]
    rw [H.ag_target hr M, H.target]
    simp only [bind_ok, Free.moveBy]
    have a1' : sub r p (f.pos 0) = sub R.rnd p (f.pos 0) := a1
    rw [a1']
    simp only [e]
  | resize w hh =>
    obtain ⟨a1, a2⟩ := ag_ratio hr H.sw ⟨ho.widthMin, ho.widthMax, H.sw.first, H.sw.calls⟩
    obtain ⟨b1, b2⟩ := ag_ratio hr H.sh ⟨ho.heightMin, ho.heightMax, H.sw.first, H.sw.calls⟩
    simp only [Spot.after] at a1 a2 b1 b2
    have hf : Small 15 ⟨R.rnd (w / f.width), R.rnd (hh / f.height)⟩ := ⟨a2, b2⟩
    have ps : ∀ j, Small 52 (f.pos j) := fun j => (H.small j).up (by omega)
    have c1 := fun j => ag_rescale hr hf (ps 0) (ps j)
    have c4 : f.springs.map (fun x => { x with desired := pscale r x.desired ⟨R.rnd (w / f.width), R.rnd (hh / f.height)⟩ }) =
        f.springs.map (fun x => { x with desired := pscale R.rnd x.desired ⟨R.rnd (w / f.width), R.rnd (hh / f.height)⟩ }) :=
      List.map_congr_left fun y hy => by rw [(ag_pscale hr (fits_small H.sw H.sh (H.springs y hy)) hf).1]
    simp only [Free.exec, Free.resize]
    rw [H.ag_target hr M, H.target]
    simp only [bind_ok, a1, b1, c1, c4]

theorem ag_new (hr : Agrees R r) {x : Spot} (ho : x.OnScreen) (y : Settings) (b : ℕ) :
    Rounded.new r x.place x.width x.height y b = Rounded.new R.rnd x.place x.width x.height y b := by
  have key : ∀ {W : ℝ}, 1 ≤ W → W ≤ 32768 → |W / (4 - 1)| ≤ 2 ^ 17 := by
    intro W h1 h2
    rw [abs_of_nonneg (by linarith)]
    norm_num
    linarith
  obtain ⟨a1, a2⟩ := ag hr (key ho.widthMin ho.widthMax)
  obtain ⟨b1, b2⟩ := ag hr (key ho.heightMin ho.heightMax)
  have := ag_positionArray hr (small_screen ho.placeX ho.placeY)
    (t := ⟨R.rnd (x.width / (4 - 1)), R.rnd (x.height / (4 - 1))⟩) ⟨a2, b2⟩
  unfold Rounded.new
  simp only [a1, b1, this]

/-- The first anchor of a resting model. -/
theorem ag_activate (hr : Agrees R r) {s : State} (hn : NoAnchor s) (H : Resting o v (part s)) (M : Mild s.settings) :
    activate r { s with unequal := True } = activate R.rnd { s with unequal := True } := by
  have ht : tile r s = tile R.rnd s := by
    rw [tile_free, tile_free]
    exact (tile_small hr H.sw H.sh).1
  have hs : targetByFullIntegration r s = targetByFullIntegration R.rnd s := by
    rw [rest_target r hn, rest_target R.rnd hn]
    exact (H.ag_settle hr M).trans (settle_slack R (q := ⟨s.pos, s.vel⟩) H.doubles H.vel
      fun y hy => H.slack (base_fits R H.sw H.sh _ y hy)).symm
  have h0 : targetByFullIntegration R.rnd s = .ok (s.pos 0) := by
    rw [rest_target R.rnd hn]
    exact settle_slack R (q := ⟨s.pos, s.vel⟩) H.doubles H.vel fun y hy => H.slack (base_fits R H.sw H.sh _ y hy)
  have hp : positionArray r (s.pos 0) (tile R.rnd s) = positionArray R.rnd (s.pos 0) (tile R.rnd s) := by
    refine ag_positionArray hr (H.small (f := part s) 0) ?_
    rw [tile_free]
    exact (tile_small hr H.sw H.sh).2
  have e : ∀ g, activate g { s with unequal := True } =
      if s.count + 1 = 1 then (targetByFullIntegration g s).bind fun p =>
        .ok { State.spend { s with unequal := True, count := s.count + 1 } with targets := positionArray g p (tile g s) }
      else .ok { s with unequal := True, count := s.count + 1 } := fun g => rfl
  rw [e r, e R.rnd, hs, h0, ht]
  simp only [bind_ok, hp]

/-- Grabbing a resting model. -/
theorem ag_grab (hr : Agrees R r) {s : State} {p : Pt} (hn : NoAnchor s) (H : Resting o v (part s)) (M : Mild s.settings)
    (px : |p.x| ≤ 32768) (py : |p.y| ≤ 32768) : grab r s p = grab R.rnd s p := by
  have D : ∀ j, distance r p (s.pos j) = distance R.rnd p (s.pos j) := fun j =>
    (ag_distance hr (small_screen px py) (H.small (f := part s) j)).1
  have hc : closestIndex r s.pos p = closestIndex R.rnd s.pos p := by
    have : closestStep r s.pos p = closestStep R.rnd s.pos p := by
      funext acc j
      unfold closestStep
      rw [D]
    unfold closestIndex
    rw [this]
  unfold grab
  rw [hc, ag_activate hr hn H M]

end

end Verif.Wobbly.Rounded
