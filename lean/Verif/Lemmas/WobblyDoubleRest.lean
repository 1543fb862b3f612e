import Verif.Lemmas.WobblyDoubleBounds
import Verif.Lemmas.WobblySettle

/-! # Resting and settled models in double precision -/

namespace Verif.Wobbly.Rounded

noncomputable section

open Classical Outcome

variable (R : Rounding64)

/-! ## Runs of rounds -/

theorem integrate_slack {s : Free} (hd : Doubles s.pos) (hv : ∀ i, s.vel i = 0)
    (hl : ∀ y ∈ s.springs, Slack R y (meshAt s.pos)) (n : ℕ) :
    (s.integrate R.rnd n ⟨s.pos, s.vel⟩).1 = ⟨s.pos, s.vel⟩ ∧ ¬ (s.integrate R.rnd n ⟨s.pos, s.vel⟩).2 := by
  induction n with
  | zero => exact ⟨rfl, fun h => h⟩
  | succ n ih =>
    obtain ⟨e, hm⟩ := step_slack R (k := s.settings.springConstant) (friction := s.settings.friction) (q := ⟨s.pos, s.vel⟩)
      hd hv hl
    simp only [Free.integrate]
    rw [e]
    exact ⟨ih.1, fun h => h.elim hm ih.2⟩

theorem step_still {s : Free} (hd : Doubles s.pos) (hv : ∀ i, s.vel i = 0)
    (hl : ∀ y ∈ s.springs, Slack R y (meshAt s.pos)) (hu : ¬ s.unequal) (t : ℕ) :
    s.step R.rnd t = (s, .more False) := by
  obtain ⟨e, hm⟩ := integrate_slack R hd hv hl (stepCount t)
  have hf : ((if t ≠ 0 then False else s.unequal) ∨ (s.integrate R.rnd (stepCount t) ⟨s.pos, s.vel⟩).2) = False := by
    refine propext ⟨fun h => ?_, False.elim⟩
    rcases h with h | h
    · split_ifs at h
      exact hu h
    · exact hm h
  have hu' : s.unequal = False := propext ⟨hu, False.elim⟩
  unfold Free.step
  simp only [hf, e]
  rw [← hu']

theorem springStep_doubles (k friction : ℝ) (l : List Spring) (q : Phys) : Doubles (springStep R.rnd k friction l q).1.pos :=
  fun _ => ⟨R.double _, R.double _⟩

theorem integrate_doubles (s : Free) (n : ℕ) {q : Phys} (h : Doubles q.pos) : Doubles (s.integrate R.rnd n q).1.pos := by
  induction n generalizing q with
  | zero => exact h
  | succ n ih => exact ih (springStep_doubles R _ _ _ _)

theorem integrate_quiet {s : Free} {n : ℕ} {q : Phys} (hn : n ≠ 0) (h : Doubles q.pos) (hm : ¬ (s.integrate R.rnd n q).2) :
    (s.integrate R.rnd n q).1.pos = q.pos ∧ (∀ i, (s.integrate R.rnd n q).1.vel i = 0) ∧
      ∀ y ∈ s.springs, Slack R y (meshAt q.pos) := by
  obtain ⟨n, rfl⟩ := Nat.exists_eq_succ_of_ne_zero hn
  simp only [Free.integrate, not_or] at hm ⊢
  obtain ⟨e, hv, hl⟩ := step_quiet R h hm.1
  set a := (springStep R.rnd s.settings.springConstant s.settings.friction s.springs q).1 with ha
  have := integrate_slack R (s := { s with pos := a.pos, vel := a.vel }) (by rw [e]; exact h) hv (by rw [e]; exact hl) n
  have e2 : ∀ m p, Free.integrate R.rnd { s with pos := a.pos, vel := a.vel } m p = s.integrate R.rnd m p := by
    intro m
    induction m with
    | zero => intro p; rfl
    | succ m ih => intro p; simp only [Free.integrate, ih]
  rw [e2] at this
  rw [show (⟨a.pos, a.vel⟩ : Phys) = a from rfl] at this
  rw [this.1]
  exact ⟨e, hv, hl⟩

theorem step_false {s s' : Free} {t : ℕ} (h : Doubles s.pos) (ht : t ≠ 0) (e : s.step R.rnd t = (s', .more False)) :
    s'.pos = s.pos ∧ ∀ t', s'.step R.rnd t' = (s', .more False) := by
  unfold Free.step at e
  obtain ⟨e1, e2⟩ := Prod.mk.inj e
  have hm : ((if t ≠ 0 then False else s.unequal) ∨ (s.integrate R.rnd (stepCount t) ⟨s.pos, s.vel⟩).2) = False := by
    simpa using e2
  have hq : ¬ (s.integrate R.rnd (stepCount t) ⟨s.pos, s.vel⟩).2 := fun hc => by
    rw [← hm]
    exact Or.inr hc
  obtain ⟨h1, h2, h3⟩ := integrate_quiet R (stepCount_pos ht) h hq
  subst e1
  refine ⟨h1, fun t' => step_still R ?_ h2 ?_ ?_ t'⟩
  · show Doubles (s.integrate R.rnd (stepCount t) ⟨s.pos, s.vel⟩).1.pos
    rw [h1]
    exact h
  · show ∀ y ∈ s.springs, Slack R y (meshAt (s.integrate R.rnd (stepCount t) ⟨s.pos, s.vel⟩).1.pos)
    rw [h1]
    exact h3
  · intro hc
    exact (hm ▸ hc : False)

theorem settle_slack {k friction : ℝ} {l : List Spring} {q : Phys} (hd : Doubles q.pos) (hv : ∀ i, q.vel i = 0)
    (hl : ∀ y ∈ l, Slack R y (meshAt q.pos)) : settle R.rnd k friction l q = .ok (q.pos 0) := by
  obtain ⟨e, hm⟩ := step_slack R (k := k) (friction := friction) hd hv hl
  have hx : ∃ n, ¬ (springStep R.rnd k friction l ((fun q => (springStep R.rnd k friction l q).1)^[n] q)).2 := ⟨0, hm⟩
  have h0 : Nat.find hx = 0 := (Nat.find_eq_zero hx).2 hm
  unfold settle
  simp only [dif_pos hx, h0]
  simp [e]

/-- All positions are doubles, whatever is called. -/
theorem exec_doubles {s s' : Free} {op : FreeOp} {x : Res} (h : Doubles s.pos) (e : s.exec R.rnd op = .ok (s', x)) :
    Doubles s'.pos := by
  cases op with
  | step t =>
    simp only [Free.exec, Free.step, Outcome.ok.injEq, Prod.mk.injEq] at e
    obtain ⟨rfl, -⟩ := e
    exact integrate_doubles R s _ h
  | moveBy d =>
    simp only [Free.exec, Outcome.ok.injEq, Prod.mk.injEq] at e
    obtain ⟨rfl, -⟩ := e
    exact fun _ => ⟨R.double _, R.double _⟩
  | moveTo p =>
    simp only [Free.exec, Free.moveTo, bind_eq_ok, Outcome.ok.injEq, Prod.mk.injEq] at e
    obtain ⟨a, -, rfl, -⟩ := e
    exact fun _ => ⟨R.double _, R.double _⟩
  | resize w hh =>
    simp only [Free.exec, Free.resize] at e
    split_ifs at e
    · simp only [Outcome.ok.injEq, Prod.mk.injEq] at e
      obtain ⟨rfl, -⟩ := e
      exact h
    · simp only [bind_eq_ok, Outcome.ok.injEq, Prod.mk.injEq] at e
      obtain ⟨a, -, rfl, -⟩ := e
      exact fun _ => ⟨R.double _, R.double _⟩

theorem run_doubles {s s' : Free} {ops : List FreeOp} {rs : List Res} (h : Doubles s.pos)
    (e : s.run R.rnd ops = .ok (s', rs)) : Doubles s'.pos := by
  induction ops generalizing s rs with
  | nil =>
    simp only [Free.run, Outcome.ok.injEq, Prod.mk.injEq] at e
    obtain ⟨rfl, -⟩ := e
    exact h
  | cons op ops ih =>
    simp only [Free.run, bind_eq_ok, Outcome.ok.injEq, Prod.mk.injEq] at e
    obtain ⟨a, ha, b, hb, rfl, -⟩ := e
    exact ih (exec_doubles R h ha) hb

/-! ## Models at rest -/

theorem col_grid : Grid fun i => (col i : ℝ) :=
  ⟨by simp [col], fun i => by positivity, fun i => by
    have : col i ≤ 3 := by unfold col; omega
    exact_mod_cast this⟩

theorem row_grid : Grid fun i => (row i : ℝ) :=
  ⟨by simp [row], fun i => by positivity, fun i => by
    have : row i ≤ 3 := by unfold row; omega
    exact_mod_cast this⟩

/-- A spring is close to what the size asks for. -/
def Fits (w h v : ℝ) (y : Spring) : Prop := ∃ i j : Idx, y.a = .mesh i ∧ y.b = .mesh j ∧
  Len w v (((col j : ℝ) - col i) / 3) y.desired.x ∧ Len h v (((row j : ℝ) - row i) / 3) y.desired.y

set_option maxRecDepth 8000 in
theorem edges_unit : ∀ e ∈ baseEdges, (e.2.2 = true → col e.2.1 = col e.1 ∧ row e.2.1 = row e.1 + 1) ∧
    (e.2.2 = false → col e.2.1 = col e.1 + 1 ∧ row e.2.1 = row e.1) := by
  decide

theorem base_fits {w h v : ℝ} (hw : Sane w v) (hh : Sane h v) (b : ℕ) :
    ∀ y ∈ baseSprings ⟨R.rnd (w / 3), R.rnd (h / 3)⟩ b, Fits w h v y := by
  intro y hy
  simp only [baseSprings, List.mem_map] at hy
  obtain ⟨e, he, rfl⟩ := hy
  obtain ⟨u1, u2⟩ := edges_unit e.1 (List.fst_mem_of_mem_zipIdx he)
  refine ⟨e.1.1, e.1.2.1, rfl, rfl, ?_⟩
  cases hb : e.1.2.2 with
  | true =>
    obtain ⟨c, r⟩ := u1 hb
    rw [c, r, sub_self, zero_div, Nat.cast_add, Nat.cast_one, add_sub_cancel_left]
    exact ⟨len_zero hw, len_tile R hh⟩
  | false =>
    obtain ⟨c, r⟩ := u2 hb
    rw [c, r, sub_self, zero_div, Nat.cast_add, Nat.cast_one, add_sub_cancel_left]
    exact ⟨len_tile R hw, len_zero hh⟩

/-- The model is close to the lattice at `o`. -/
structure Resting (o : Pt) (v : ℝ) (s : Free) : Prop where
  ox : |o.x| ≤ 32768
  oy : |o.y| ≤ 32768
  sw : Sane s.width v
  sh : Sane s.height v
  dw : Double s.width
  dh : Double s.height
  cx : Coord s.width o.x v (fun i => (col i : ℝ)) fun i => (s.pos i).x
  cy : Coord s.height o.y v (fun i => (row i : ℝ)) fun i => (s.pos i).y
  vel : ∀ i, s.vel i = 0
  doubles : Doubles s.pos
  unequal : ¬ s.unequal
  springs : ∀ y ∈ s.springs, Fits s.width s.height v y

variable {R}

theorem Resting.slack {o : Pt} {v : ℝ} {s : Free} (h : Resting o v s) {y : Spring} (hy : Fits s.width s.height v y) :
    Slack R y (meshAt s.pos) := by
  obtain ⟨i, j, ha, hb, lx, ly⟩ := hy
  have x := dead R h.cx col_grid h.sw (i := i) (j := j) rfl lx
  have z := dead R h.cy row_grid h.sh (i := i) (j := j) rfl ly
  unfold Slack deltaA deltaB
  rw [ha, hb]
  simp only [meshAt, deltaFromDesired, resetIfCloseToZero, scale]
  exact ⟨Pt.ext x.1 z.1, Pt.ext x.2 z.2⟩

theorem Resting.step {o : Pt} {v : ℝ} {s : Free} (h : Resting o v s) (t : ℕ) : s.step R.rnd t = (s, .more False) :=
  step_still R h.doubles h.vel (fun _ hy => h.slack (h.springs _ hy)) h.unequal t

theorem Resting.target {o : Pt} {v : ℝ} {s : Free} (h : Resting o v s) :
    s.targetPosition R.rnd = .ok ({ s with lastId := s.lastId + springCount }, s.pos 0) := by
  unfold Free.targetPosition Free.tile
  rw [settle_slack R (q := ⟨s.pos, s.vel⟩) h.doubles h.vel fun y hy => h.slack (base_fits R h.sw h.sh _ y hy)]
  rfl

variable (R)

theorem sane_next {W v : ℝ} (h : Sane W v) (hv : v + 1 ≤ 65536) : Sane W (v + 1) :=
  ⟨h.one, h.big, by linarith [h.first], hv⟩

theorem fits_next {w h v : ℝ} (hw : 1 ≤ w) (hh : 1 ≤ h) {y : Spring} (hy : Fits w h v y) : Fits w h (v + 1) y := by
  obtain ⟨i, j, ha, hb, lx, ly⟩ := hy
  exact ⟨i, j, ha, hb, len_mono lx hw, len_mono ly hh⟩

theorem Coord.next {W o v : ℝ} {g u : Idx → ℝ} (h : Coord W o v g u) (hW : 1 ≤ W) : Coord W o (v + 1) g u := by
  refine ⟨fun i => (h.near i).trans ?_, h.origin.trans (by linarith)⟩
  rw [mul_add]
  linarith

theorem Resting.next {o : Pt} {v : ℝ} {s : Free} (h : Resting o v s) (hv : v + 1 ≤ 65536) : Resting o (v + 1) s where
  ox := h.ox
  oy := h.oy
  sw := sane_next h.sw hv
  sh := sane_next h.sh hv
  dw := h.dw
  dh := h.dh
  cx := h.cx.next h.sw.one
  cy := h.cy.next h.sh.one
  vel := h.vel
  doubles := h.doubles
  unequal := h.unequal
  springs := fun y hy => fits_next h.sw.one h.sh.one (h.springs y hy)

theorem Resting.moveBy {o d : Pt} {v : ℝ} {s : Free} (h : Resting o v s) (hv : v + 1 ≤ 65536)
    (hx : |o.x + d.x| ≤ 32768) (hy : |o.y + d.y| ≤ 32768) :
    Resting ⟨o.x + d.x, o.y + d.y⟩ (v + 1) (s.moveBy R.rnd d) where
  ox := hx
  oy := hy
  sw := sane_next h.sw hv
  sh := sane_next h.sh hv
  dw := h.dw
  dh := h.dh
  cx := coord_move R h.cx col_grid h.sw hx
  cy := coord_move R h.cy row_grid h.sh hy
  vel := h.vel
  doubles := fun _ => ⟨R.double _, R.double _⟩
  unequal := h.unequal
  springs := fun y hy => fits_next h.sw.one h.sh.one (h.springs y hy)

theorem Resting.moveTo {o p : Pt} {v : ℝ} {s : Free} (h : Resting o v s) (hv : v + 1 ≤ 65536)
    (hx : |p.x| ≤ 32768) (hy : |p.y| ≤ 32768) :
    ∃ s', s.moveTo R.rnd p = .ok (s', .none) ∧ s'.width = s.width ∧ s'.height = s.height ∧ Resting p (v + 1) s' := by
  unfold Free.moveTo
  rw [h.target]
  refine ⟨_, rfl, rfl, rfl, ?_⟩
  exact {
    ox := hx
    oy := hy
    sw := sane_next h.sw hv
    sh := sane_next h.sh hv
    dw := h.dw
    dh := h.dh
    cx := coord_moveTo R h.cx col_grid h.sw h.ox hx
    cy := coord_moveTo R h.cy row_grid h.sh h.oy hy
    vel := h.vel
    doubles := fun _ => ⟨R.double _, R.double _⟩
    unequal := h.unequal
    springs := fun y hy => fits_next h.sw.one h.sh.one (h.springs y hy) }

theorem Resting.resize {o : Pt} {v w hh : ℝ} {s : Free} (h : Resting o v s) (hv : v + 1 ≤ 65536)
    (w1 : 1 ≤ w) (w2 : w ≤ 32768) (dw : Double w) (h1 : 1 ≤ hh) (h2 : hh ≤ 32768) (dh : Double hh) :
    ∃ s', s.resize R.rnd w hh = .ok (s', .none) ∧ s'.width = w ∧ s'.height = hh ∧ Resting o (v + 1) s' := by
  have W0 : 0 < s.width := by linarith [h.sw.one]
  have H0 : 0 < s.height := by linarith [h.sh.one]
  have sw' : Sane w v := ⟨w1, w2, h.sw.first, h.sw.calls⟩
  have sh' : Sane hh v := ⟨h1, h2, h.sw.first, h.sw.calls⟩
  unfold Free.resize
  rw [if_neg (by push Not; constructor <;> linarith), if_neg (by push Not; constructor <;> linarith)]
  by_cases he : Pt.equals ⟨R.rnd (w / s.width), R.rnd (hh / s.height)⟩ ⟨1, 1⟩
  · simp only [if_pos he]
    have ew : w = s.width := R.div_eq_one dw h.dw (by linarith) W0 he.2
    have eh : hh = s.height := R.div_eq_one dh h.dh (by linarith) H0 he.1
    exact ⟨s, rfl, ew.symm, eh.symm, h.next hv⟩
  · simp only [if_neg he, h.target]
    refine ⟨_, rfl, rfl, rfl, ?_⟩
    exact {
      ox := h.ox
      oy := h.oy
      sw := sane_next sw' hv
      sh := sane_next sh' hv
      dw := dw
      dh := dh
      cx := coord_resize R h.cx col_grid h.sw sw' h.ox (h.doubles 0).1
      cy := coord_resize R h.cy row_grid h.sh sh' h.oy (h.doubles 0).2
      vel := h.vel
      doubles := fun _ => ⟨R.double _, R.double _⟩
      unequal := h.unequal
      springs := by
        intro y hy
        simp only [List.mem_map] at hy
        obtain ⟨z, hz, rfl⟩ := hy
        obtain ⟨i, j, ha, hb, lx, ly⟩ := h.springs z hz
        refine ⟨i, j, ha, hb, len_resize R lx ?_ h.sw sw', len_resize R ly ?_ h.sh sh'⟩
        · have := col_grid.nonneg i
          have := col_grid.nonneg j
          have := col_grid.le i
          have := col_grid.le j
          rw [abs_le]
          constructor <;> linarith
        · have := row_grid.nonneg i
          have := row_grid.nonneg j
          have := row_grid.le i
          have := row_grid.le j
          rw [abs_le]
          constructor <;> linarith }

theorem new_resting {p : Pt} {w h : ℝ} (x : Settings) (b : ℕ) (px : |p.x| ≤ 32768) (py : |p.y| ≤ 32768)
    (w1 : 1 ≤ w) (w2 : w ≤ 32768) (dw : Double w) (h1 : 1 ≤ h) (h2 : h ≤ 32768) (dh : Double h) :
    Resting p 1 (Free.new R.rnd p w h x b) where
  ox := px
  oy := py
  sw := ⟨w1, w2, le_rfl, by norm_num⟩
  sh := ⟨h1, h2, le_rfl, by norm_num⟩
  dw := dw
  dh := dh
  cx := coord_new R col_grid ⟨w1, w2, le_rfl, by norm_num⟩ px
  cy := coord_new R row_grid ⟨h1, h2, le_rfl, by norm_num⟩ py
  vel := fun _ => rfl
  doubles := fun _ => ⟨R.double _, R.double _⟩
  unequal := fun h => h
  springs := base_fits R ⟨w1, w2, le_rfl, by norm_num⟩ ⟨h1, h2, le_rfl, by norm_num⟩ b

end

end Verif.Wobbly.Rounded
