import Verif.Lemmas.WobblyVisit
import Verif.Lemmas.WobblyBookSlow
import Verif.Spec.Attach

/-! # A model with one inserted anchor in double precision -/

namespace Verif.Wobbly.Rounded

noncomputable section

open Classical Outcome Spec

variable {R : Rounding64} {x : Settings} {h : ℕ} {st : Spring} {o c : Pt} {v : ℝ} {s : State}

/-! ## The anchor beside the lattice -/

theorem pinned_grid {b : ℝ} (hb : 0 ≤ b ∧ b ≤ 3) : Grid (pin 0 b) where
  zero := pin_zero _ _
  nonneg j := by
    unfold pin
    split_ifs
    · exact le_rfl
    · exact hb.1
  le j := by
    unfold pin
    split_ifs
    · norm_num
    · exact hb.2

/-- The first point, the anchor and one more point. -/
def tri (a b d : ℝ) : Idx → ℝ := fun k => if k = 0 then a else if k = 1 then b else d

theorem tri_zero (a b d : ℝ) : tri a b d 0 = a := if_pos rfl

theorem tri_one (a b d : ℝ) : tri a b d 1 = b := rfl

theorem tri_two (a b d : ℝ) : tri a b d 2 = d := rfl

theorem tri_grid {g : Idx → ℝ} (hg : Grid g) {b : ℝ} (hb : 0 ≤ b ∧ b ≤ 3) (j : Idx) : Grid (tri 0 b (g j)) where
  zero := tri_zero _ _ _
  nonneg k := by
    unfold tri
    split_ifs
    · exact le_rfl
    · exact hb.1
    · exact hg.nonneg j
  le k := by
    unfold tri
    split_ifs
    · norm_num
    · exact hb.2
    · exact hg.le j

theorem Coord.tri {W o v b p : ℝ} {g u : Idx → ℝ} (hc : Coord W o v g u) (hs : Sane W v)
    (hp : Coord W o v (Rounded.pin 0 b) (Rounded.pin (u 0) p)) (j : Idx) :
    Coord W o v (Rounded.tri 0 b (g j)) (Rounded.tri (u 0) p (u j)) := by
  have h1 := hp.near 1
  rw [pin_zero] at h1
  unfold Rounded.pin at h1
  rw [if_neg (by decide), if_neg (by decide)] at h1
  refine ⟨fun k => ?_, by rw [tri_zero]; exact hc.origin⟩
  rw [tri_zero]
  unfold Rounded.tri
  split_ifs
  · have := hs.prod
    have := hs.one
    rw [sub_self, zero_mul, sub_zero, abs_zero]
    exact div_nonneg (by linarith) (by norm_num)
  · exact h1
  · exact hc.near j

/-! ## A model with one inserted anchor -/

/-- A spring that fits the lattice, or joins the anchor at `c` to a point of the lattice. -/
def Fitted (h : ℕ) (c : Pt) (w hh v : ℝ) (y : Spring) : Prop := Fits w hh v y ∨
  (y.a = .anchor h ∧ ∃ j : Idx, y.b = .mesh j ∧
    Len w v (((col j : ℝ) - c.x) / 3) y.desired.x ∧ Len hh v (((row j : ℝ) - c.y) / 3) y.desired.y)

theorem fitted_next {w hh : ℝ} (hw : 1 ≤ w) (hh1 : 1 ≤ hh) {y : Spring} (hy : Fitted h c w hh v y) : Fitted h c w hh (v + 1) y := by
  rcases hy with hy | ⟨ha, j, hb, lx, ly⟩
  · exact Or.inl (fits_next hw hh1 hy)
  · exact Or.inr ⟨ha, j, hb, len_mono lx hw, len_mono ly hh1⟩

/-- A model whose only anchor `h` was inserted at `c` on the lattice in place of the spring `st`. -/
structure Hung (x : Settings) (h : ℕ) (st : Spring) (o c : Pt) (v : ℝ) (s : State) : Prop where
  ox : |o.x| ≤ 32768
  oy : |o.y| ≤ 32768
  sw : Sane s.width v
  sh : Sane s.height v
  dw : Double s.width
  dh : Double s.height
  tx : Coord s.width o.x v (fun i => (col i : ℝ)) fun i => (s.targets i).x
  ty : Coord s.height o.y v (fun i => (row i : ℝ)) fun i => (s.targets i).y
  targets : Doubles s.targets
  count : s.count = 1
  live : ∃ p f g, s.live = [⟨h, .ins p st f g⟩] ∧ Coord s.width o.x v (pin 0 c.x) (pin (s.targets 0).x p.x) ∧
    Coord s.height o.y v (pin 0 c.y) (pin (s.targets 0).y p.y)
  cx : 0 ≤ c.x ∧ c.x ≤ 3
  cy : 0 ≤ c.y ∧ c.y ≤ 3
  fits : ∀ y ∈ s.springs, Fitted h c s.width s.height v y
  locks : ∀ i, s.locks i = 0
  settings : s.settings = x
  range : 1 ≤ x.maximumRange

/-- It lies on its targets and does not move. -/
structure Settled (x : Settings) (h : ℕ) (st : Spring) (o c : Pt) (v : ℝ) (s : State) : Prop where
  hung : Hung x h st o c v s
  pos : s.pos = s.targets
  vel : ∀ j, s.vel j = 0
  unequal : ¬ s.unequal

theorem anchor_found (p : Pt) (st : Spring) (f g : ℕ) : anchorData [⟨h, .ins p st f g⟩] h = some p := by
  simp [anchorData]

theorem Hung.sound (H : Hung x h st o c v s) : ¬ dangling s.springs s.live := by
  obtain ⟨p, f, g, hl, -⟩ := H.live
  rintro ⟨y, hy, hn⟩
  rcases H.fits y hy with ⟨i, j, ha, hb, -⟩ | ⟨ha, j, hb, -⟩
  · rw [ha, hb] at hn
    exact hn ⟨trivial, trivial⟩
  · rw [ha, hb, hl] at hn
    exact hn ⟨by simp only [Node.alive, anchor_found]; rfl, trivial⟩

theorem Hung.slack (H : Hung x h st o c v s) (hp : ∀ j, Near (3 / 16) (s.pos j) (s.targets j)) :
    ∀ y ∈ s.springs, Slack R y (s.env.at_ s.pos) := by
  have zero : ∀ {c : ℝ}, |c| ≤ 3 / 16 + 1 / 4 → clip (1 / 2) c = 0 := fun hc => if_pos (by linarith)
  obtain ⟨p, f, g, hl, px, py⟩ := H.live
  intro y hy
  rcases H.fits y hy with ⟨i, j, ha, hb, lx, ly⟩ | ⟨ha, j, hb, lx, ly⟩
  · have X := pull_coord R H.tx col_grid H.sw (i := i) (j := j) rfl lx (ρ := 3 / 16) (by norm_num)
      (u := fun j => (s.pos j).x) fun j => (hp j).1
    have Y := pull_coord R H.ty row_grid H.sh (i := i) (j := j) rfl ly (ρ := 3 / 16) (by norm_num)
      (u := fun j => (s.pos j).y) fun j => (hp j).2
    unfold Slack deltaA deltaB
    rw [ha, hb]
    simp only [scale, deltaFromDesired, resetIfCloseToZero, Env.at_]
    exact ⟨Pt.ext (zero X.1) (zero Y.1), Pt.ext (zero X.2) (zero Y.2)⟩
  · have ea : s.env.apos h = p := by
      show apos s.live h = p
      rw [hl, apos, anchor_found]
      rfl
    have near : ∀ {a q d e : ℝ}, |e - d| ≤ 3 / 16 → ∀ k, |tri a q e k - tri a q d k| ≤ 3 / 16 := by
      intro a q d e hd k
      unfold tri
      split_ifs
      · norm_num
      · norm_num
      · exact hd
    have X := pull_coord R (H.tx.tri H.sw px j) (tri_grid col_grid H.cx j) H.sw (i := 1) (j := 2) rfl lx (ρ := 3 / 16) (by norm_num)
      (near (hp j).1)
    have Y := pull_coord R (H.ty.tri H.sh py j) (tri_grid row_grid H.cy j) H.sh (i := 1) (j := 2) rfl ly (ρ := 3 / 16) (by norm_num)
      (near (hp j).2)
    simp only [tri_one, tri_two] at X Y
    unfold Slack deltaA deltaB
    rw [ha, hb]
    simp only [scale, deltaFromDesired, resetIfCloseToZero, Env.at_, ea]
    exact ⟨Pt.ext (zero X.1) (zero Y.1), Pt.ext (zero X.2) (zero Y.2)⟩

/-! ## Steps -/

theorem constrain_returns {d : ℝ} (hd : 0 < d) (t m : Mesh) : ∃ y, constrain R.rnd d t m = .ok y := by
  unfold constrain
  rw [if_neg (by
    rintro ⟨j, h1, h2⟩
    rw [h2] at h1
    exact h1 hd)]
  exact ⟨_, rfl⟩

theorem rounds_return (hr : 0 < s.settings.maximumRange) (n : ℕ) (q : Phys) : ∃ y, rounds R.rnd s n q = .ok y := by
  induction n generalizing q with
  | zero => exact ⟨_, rfl⟩
  | succ n ih =>
    have : ∃ y, Rounded.round R.rnd s q = .ok y := by
      unfold Rounded.round
      split_ifs
      · obtain ⟨z, hz⟩ := constrain_returns (R := R) hr s.targets q.pos
        rw [hz]
        exact ⟨_, rfl⟩
      · exact ⟨_, rfl⟩
    obtain ⟨y, e1⟩ := this
    obtain ⟨z, e2⟩ := ih y.1
    simp only [rounds, e1, e2, bind_ok]
    exact ⟨_, rfl⟩

theorem Hung.step (H : Hung x h st o c v s) (t : ℕ) :
    ∃ s' more, Rounded.step R.rnd s t = .ok (s', .more more) ∧ Hung x h st o c v s' ∧ s'.width = s.width ∧
      s'.height = s.height ∧ (¬ more → t ≠ 0 → Settled x h st o c v s') := by
  obtain ⟨a, ea⟩ := rounds_return (R := R) (s := s) (by rw [H.settings]; linarith [H.range]) (stepCount t) ⟨s.pos, s.vel⟩
  unfold Rounded.step
  rw [if_neg fun hc => H.sound hc.2, ea]
  refine ⟨_, _, rfl, { H with }, rfl, rfl, fun hm ht => ⟨{ H with }, if_pos ⟨hm, H.count⟩, ?_, hm⟩⟩
  rw [not_or] at hm
  exact rounds_quiet (stepCount_pos ht) ea hm.2

theorem Hung.calm (H : Hung x h st o c v s) (hp : ∀ j, Near (3 / 16) (s.pos j) (s.targets j)) (hd : Doubles s.pos)
    (hv : ∀ j, s.vel j = 0) {t : ℕ} (ht : t ≠ 0) :
    ∃ s', Rounded.step R.rnd s t = .ok (s', .more False) ∧ Settled x h st o c v s' := by
  obtain ⟨s', more, e, -, -, -, hm⟩ := H.step (R := R) t
  obtain ⟨b, er, hb⟩ := quiet_rounds (R := R) H.count (by rw [H.settings]; exact H.range) hp (H.slack hp) hd hv (stepCount t)
  have hf : more = False := by
    have e' := e
    unfold Rounded.step at e'
    rw [if_neg fun hc => H.sound hc.2, er] at e'
    simp only [bind_ok, Outcome.ok.injEq, Prod.mk.injEq, Res.more.injEq] at e'
    rw [← e'.2, if_pos ht]
    exact propext ⟨fun h => h.elim id hb, False.elim⟩
  subst hf
  exact ⟨s', e, hm not_false ht⟩

theorem Settled.step (S : Settled x h st o c v s) (t : ℕ) : Rounded.step R.rnd s t = .ok (s, .more False) :=
  parked_step S.hung.sound S.hung.count (by rw [S.hung.settings]; exact S.hung.range) S.pos
    (S.hung.slack fun j => by rw [S.pos]; norm_num [Near]) (by rw [S.pos]; exact S.hung.targets) S.vel S.unequal t

/-! ## The other calls -/

variable (R)

theorem Hung.drag (H : Hung x h st o c v s) (d : Pt) (hv : v + 1 ≤ 65536) (hx : |o.x + d.x| ≤ 32768) (hy : |o.y + d.y| ≤ 32768) :
    ∃ s', moveAnchor R.rnd s h d = .ok (s', .none) ∧ Hung x h st ⟨o.x + d.x, o.y + d.y⟩ c (v + 1) s' ∧
      s'.width = s.width ∧ s'.height = s.height ∧ s'.pos = s.pos ∧ s'.vel = s.vel := by
  obtain ⟨p, f, g, hl, px, py⟩ := H.live
  unfold moveAnchor
  rw [hl]
  simp only [List.find?_cons_of_pos, decide_true, if_pos (show s.active from H.count)]
  refine ⟨_, rfl, ?_, rfl, rfl, rfl, rfl⟩
  have qx := coord_move R px (pinned_grid H.cx) H.sw hx
  have qy := coord_move R py (pinned_grid H.cy) H.sh hy
  rw [pin_map fun z => R.rnd (z + d.x)] at qx
  rw [pin_map fun z => R.rnd (z + d.y)] at qy
  exact {
    ox := hx
    oy := hy
    sw := sane_next H.sw hv
    sh := sane_next H.sh hv
    dw := H.dw
    dh := H.dh
    tx := coord_move R H.tx col_grid H.sw hx
    ty := coord_move R H.ty row_grid H.sh hy
    targets := fun _ => ⟨R.double _, R.double _⟩
    count := H.count
    live := ⟨add R.rnd p d, f, g, by simp [shift], qx, qy⟩
    cx := H.cx
    cy := H.cy
    fits := fun y hy => fitted_next H.sw.one H.sh.one (H.fits y hy)
    locks := H.locks
    settings := H.settings
    range := H.range }

theorem Hung.moveBy (H : Hung x h st o c v s) (d : Pt) (hv : v + 1 ≤ 65536) (hx : |o.x + d.x| ≤ 32768) (hy : |o.y + d.y| ≤ 32768) :
    Hung x h st ⟨o.x + d.x, o.y + d.y⟩ c (v + 1) (moveBy R.rnd s d) := by
  obtain ⟨p, f, g, hl, px, py⟩ := H.live
  have qx := coord_move R px (pinned_grid H.cx) H.sw hx
  have qy := coord_move R py (pinned_grid H.cy) H.sh hy
  rw [pin_map fun z => R.rnd (z + d.x)] at qx
  rw [pin_map fun z => R.rnd (z + d.y)] at qy
  exact {
    ox := hx
    oy := hy
    sw := sane_next H.sw hv
    sh := sane_next H.sh hv
    dw := H.dw
    dh := H.dh
    tx := coord_move R H.tx col_grid H.sw hx
    ty := coord_move R H.ty row_grid H.sh hy
    targets := fun _ => ⟨R.double _, R.double _⟩
    count := H.count
    live := ⟨add R.rnd p d, f, g, by simp [Rounded.moveBy, hl, shift], qx, qy⟩
    cx := H.cx
    cy := H.cy
    fits := fun y hy => fitted_next H.sw.one H.sh.one (H.fits y hy)
    locks := H.locks
    settings := H.settings
    range := H.range }

theorem Hung.target (H : Hung x h st o c v s) : targetPosition R.rnd s = .ok (s, s.targets 0) := by
  unfold targetPosition
  rw [if_pos (show s.active from H.count)]

theorem Hung.moveTo (H : Hung x h st o c v s) (q : Pt) (hv : v + 1 ≤ 65536) (hx : |q.x| ≤ 32768) (hy : |q.y| ≤ 32768) :
    ∃ s', moveTo R.rnd s q = .ok (s', .none) ∧ Hung x h st q c (v + 1) s' ∧ s'.width = s.width ∧ s'.height = s.height := by
  obtain ⟨p, f, g, hl, px, py⟩ := H.live
  unfold Rounded.moveTo
  rw [H.target]
  refine ⟨_, rfl, ?_, rfl, rfl⟩
  have qx := coord_moveTo R px (pinned_grid H.cx) H.sw H.ox hx
  have qy := coord_moveTo R py (pinned_grid H.cy) H.sh H.oy hy
  rw [pin_zero, pin_map fun z => R.rnd (z + R.rnd (q.x - (s.targets 0).x))] at qx
  rw [pin_zero, pin_map fun z => R.rnd (z + R.rnd (q.y - (s.targets 0).y))] at qy
  exact {
    ox := hx
    oy := hy
    sw := sane_next H.sw hv
    sh := sane_next H.sh hv
    dw := H.dw
    dh := H.dh
    tx := coord_moveTo R H.tx col_grid H.sw H.ox hx
    ty := coord_moveTo R H.ty row_grid H.sh H.oy hy
    targets := fun _ => ⟨R.double _, R.double _⟩
    count := H.count
    live := ⟨add R.rnd p (sub R.rnd q (s.targets 0)), f, g, by simp [Rounded.moveBy, hl, shift], qx, qy⟩
    cx := H.cx
    cy := H.cy
    fits := fun y hy => fitted_next H.sw.one H.sh.one (H.fits y hy)
    locks := H.locks
    settings := H.settings
    range := H.range }

theorem Hung.next (H : Hung x h st o c v s) (hv : v + 1 ≤ 65536) : Hung x h st o c (v + 1) s := by
  obtain ⟨p, f, g, hl, px, py⟩ := H.live
  exact { H with
    sw := sane_next H.sw hv
    sh := sane_next H.sh hv
    tx := H.tx.next H.sw.one
    ty := H.ty.next H.sh.one
    live := ⟨p, f, g, hl, px.next H.sw.one, py.next H.sh.one⟩
    fits := fun y hy => fitted_next H.sw.one H.sh.one (H.fits y hy) }

theorem fitted_resize {W Hh w hh : ℝ} (sW : Sane W v) (sH : Sane Hh v) (sw : Sane w v) (sh : Sane hh v)
    (hx : 0 ≤ c.x ∧ c.x ≤ 3) (hy : 0 ≤ c.y ∧ c.y ≤ 3) {y : Spring} (hf : Fitted h c W Hh v y) :
    Fitted h c w hh (v + 1) { y with desired := pscale R.rnd y.desired ⟨R.rnd (w / W), R.rnd (hh / Hh)⟩ } := by
  rcases hf with hf | ⟨ha, j, hb, lx, ly⟩
  · exact Or.inl (fits_resize R sW sH sw sh hf)
  · refine Or.inr ⟨ha, j, hb, len_resize R lx ?_ sW sw, len_resize R ly ?_ sH sh⟩
    · have := col_grid.nonneg j
      have := col_grid.le j
      rw [abs_le]
      constructor <;> linarith
    · have := row_grid.nonneg j
      have := row_grid.le j
      rw [abs_le]
      constructor <;> linarith

theorem Hung.resize (H : Hung x h st o c v s) {w hh : ℝ} (hv : v + 1 ≤ 65536)
    (w1 : 1 ≤ w) (w2 : w ≤ 32768) (dw : Double w) (h1 : 1 ≤ hh) (h2 : hh ≤ 32768) (dh : Double hh) :
    ∃ s', resize R.rnd s w hh = .ok (s', .none) ∧ Hung x h st o c (v + 1) s' ∧ s'.width = w ∧ s'.height = hh := by
  obtain ⟨p, f, g, hl, px, py⟩ := H.live
  have W0 : 0 < s.width := by linarith [H.sw.one]
  have H0 : 0 < s.height := by linarith [H.sh.one]
  have sw' : Sane w v := ⟨w1, w2, H.sw.first, H.sw.calls⟩
  have sh' : Sane hh v := ⟨h1, h2, H.sw.first, H.sw.calls⟩
  unfold Rounded.resize
  rw [if_neg (by push Not; constructor <;> linarith), if_neg (by push Not; constructor <;> linarith)]
  by_cases he : Pt.equals ⟨R.rnd (w / s.width), R.rnd (hh / s.height)⟩ ⟨1, 1⟩
  · simp only [if_pos he]
    have ew : w = s.width := R.div_eq_one dw H.dw (by linarith) W0 he.2
    have eh : hh = s.height := R.div_eq_one dh H.dh (by linarith) H0 he.1
    exact ⟨s, rfl, H.next hv, ew.symm, eh.symm⟩
  · simp only [if_neg he, H.target]
    refine ⟨_, rfl, ?_, rfl, rfl⟩
    have qx := coord_resize R px (pinned_grid H.cx) H.sw sw' H.ox (by rw [pin_zero]; exact (H.targets 0).1)
    have qy := coord_resize R py (pinned_grid H.cy) H.sh sh' H.oy (by rw [pin_zero]; exact (H.targets 0).2)
    rw [pin_zero, pin_map fun z => R.rnd (R.rnd (R.rnd (z - (s.targets 0).x) * R.rnd (w / s.width)) + (s.targets 0).x)] at qx
    rw [pin_zero, pin_map fun z => R.rnd (R.rnd (R.rnd (z - (s.targets 0).y) * R.rnd (hh / s.height)) + (s.targets 0).y)] at qy
    exact {
      ox := H.ox
      oy := H.oy
      sw := sane_next sw' hv
      sh := sane_next sh' hv
      dw := dw
      dh := dh
      tx := coord_resize R H.tx col_grid H.sw sw' H.ox (H.targets 0).1
      ty := coord_resize R H.ty row_grid H.sh sh' H.oy (H.targets 0).2
      targets := fun _ => ⟨R.double _, R.double _⟩
      count := H.count
      live := ⟨Free.rescale R.rnd ⟨R.rnd (w / s.width), R.rnd (hh / s.height)⟩ (s.targets 0) p, f, g,
        by simp [hl, scaleKind], qx, qy⟩
      cx := H.cx
      cy := H.cy
      fits := by
        intro y hy
        obtain ⟨z, hz, rfl⟩ := List.mem_map.1 hy
        exact fitted_resize R H.sw H.sh sw' sh' H.cx H.cy (H.fits z hz)
      locks := H.locks
      settings := H.settings
      range := H.range }

theorem Hung.aimed {z : Spot} (H : Hung x h st z.place c v s) (ew : s.width = z.width) (eh : s.height = z.height) (j : Idx) :
    Near (v / 262144) (s.targets j) (z.point j) := by
  have e1 := sane_err H.sw
  have e2 := sane_err H.sh
  have a := abs_le.1 (H.tx.near j)
  have c := abs_le.1 (H.ty.near j)
  have ao := abs_le.1 H.tx.origin
  have co := abs_le.1 H.ty.origin
  rw [ew] at a e1
  rw [eh] at c e2
  simp only [col] at a
  simp only [row] at c
  unfold Near Spot.point
  rw [abs_le, abs_le]
  refine ⟨⟨?_, ?_⟩, ?_, ?_⟩ <;> simp only <;> linarith

/-- Whatever is done while the anchor is there. -/
theorem hung_run {a : ℕ} {o : Spot} {s : State} {v : ℝ} {held : List HeldOp} (K : Hung x a st o.place c v s)
    (ew : s.width = o.width) (eh : s.height = o.height) (hr : o.StaysHeld held) (hn : v + heldEdits held ≤ 65536) :
    ∃ s' rs, run R.rnd s (held.map (HeldOp.call a)) = .ok (s', rs) ∧
      Hung x a st (o.heldAll held).place c (v + heldEdits held) s' ∧
      s'.width = (o.heldAll held).width ∧ s'.height = (o.heldAll held).height := by
  induction held generalizing o s v with
  | nil => exact ⟨s, [], rfl, by simpa [heldEdits, Spot.heldAll] using K, ew, eh⟩
  | cons op ops ih =>
    have hr' : (o.held op).StaysHeld ops := fun n => hr (n + 1)
    have hon : (o.held op).OnScreen := by simpa [Spot.heldAll] using hr' 0
    have key : ∀ (s1 : State) (y : Res) (v1 : ℝ), exec R.rnd s (op.call a) = .ok (s1, y) → Hung x a st (o.held op).place c v1 s1 →
        s1.width = (o.held op).width → s1.height = (o.held op).height → v1 + heldEdits ops = v + heldEdits (op :: ops) →
        ∃ s' rs, run R.rnd s ((op :: ops).map (HeldOp.call a)) = .ok (s', rs) ∧
          Hung x a st (o.heldAll (op :: ops)).place c (v + heldEdits (op :: ops)) s' ∧
          s'.width = (o.heldAll (op :: ops)).width ∧ s'.height = (o.heldAll (op :: ops)).height := by
      intro s1 y v1 e1 r1 w1 h1 ev
      obtain ⟨s', rs, e, r2, w2, h2⟩ := ih r1 w1 h1 hr' (by rw [ev]; exact hn)
      refine ⟨s', y :: rs, ?_, ?_, w2, h2⟩
      · simp only [List.map_cons, run, e1, bind_ok, e]
      · rw [← ev]
        exact r2
    have one : heldEdits (op :: ops) = heldEdits ops + 1 → v + 1 ≤ 65536 := by
      intro e
      rw [e] at hn
      push_cast at hn
      have : (0 : ℝ) ≤ heldEdits ops := by positivity
      linarith
    have more : heldEdits (op :: ops) = heldEdits ops + 1 → v + 1 + heldEdits ops = v + heldEdits (op :: ops) := by
      intro e
      rw [e]
      push_cast
      ring
    cases op with
    | drag d =>
      have e1 : heldEdits (.drag d :: ops) = heldEdits ops + 1 := by simp [heldEdits]
      obtain ⟨s1, e, r1, a1, a2, -⟩ := K.drag R d (one e1) hon.placeX hon.placeY
      exact key s1 _ (v + 1) e r1 (a1.trans ew) (a2.trans eh) (more e1)
    | model op =>
      cases op with
      | step t =>
        obtain ⟨s1, m, e, r1, a1, a2, -⟩ := K.step (R := R) t
        exact key s1 _ v e r1 (a1.trans ew) (a2.trans eh) (by simp [heldEdits])
      | moveBy d =>
        have e1 : heldEdits (.model (.moveBy d) :: ops) = heldEdits ops + 1 := by simp [heldEdits]
        exact key _ _ (v + 1) rfl (K.moveBy R d (one e1) hon.placeX hon.placeY) ew eh (more e1)
      | moveTo q =>
        have e1 : heldEdits (.model (.moveTo q) :: ops) = heldEdits ops + 1 := by simp [heldEdits]
        obtain ⟨s1, e, r1, a1, a2⟩ := K.moveTo R q (one e1) hon.placeX hon.placeY
        exact key s1 _ (v + 1) e r1 (a1.trans ew) (a2.trans eh) (more e1)
      | resize w' h' =>
        have e1 : heldEdits (.model (.resize w' h') :: ops) = heldEdits ops + 1 := by simp [heldEdits]
        obtain ⟨s1, e, r1, a1, a2⟩ := K.resize R (w := w') (hh := h') (one e1) hon.widthMin hon.widthMax
          hon.widthDouble hon.heightMin hon.heightMax hon.heightDouble
        exact key s1 _ (v + 1) e r1 a1 a2 (more e1)

/-! ## Insertion into a resting model -/

theorem targets_near {W o t : ℝ} {g : Idx → ℝ} (hg : Grid g) (hs : Sane W v) (ho : |o| ≤ 32768) (ht : |t - o| ≤ v / 137438953472)
    (i : Idx) : |R.rnd (t + R.rnd (g i * R.rnd (W / 3))) - (t + g i * (W / 3))| ≤ 5 / 137438953472 := by
  have h2 := hs.calls
  have tb : |t - o| ≤ 1 := ht.trans (by linarith)
  obtain ⟨w1, w2⟩ := abs_le.1 tb
  obtain ⟨o1, o2⟩ := abs_le.1 ho
  obtain ⟨t1, t2⟩ := err R (x := W / 3) (by linarith [hs.one]) (by linarith [hs.big])
  obtain ⟨c1, c2⟩ := hg.cell hs.one i
  have g1 := hg.nonneg i
  have g2 := hg.le i
  have b := hs.big
  have m1 : g i * R.rnd (W / 3) - g i * (W / 3) ≤ 3 / 137438953472 := by
    rw [← mul_sub]
    calc _ ≤ g i * (1 / 137438953472) := mul_le_mul_of_nonneg_left t1 g1
      _ ≤ _ := by linarith
  have m2 : -(3 / 137438953472) ≤ g i * R.rnd (W / 3) - g i * (W / 3) := by
    rw [← mul_sub]
    calc _ ≤ g i * (-(1 / 137438953472)) := by linarith
      _ ≤ _ := mul_le_mul_of_nonneg_left t2 g1
  obtain ⟨a1, a2⟩ := err R (x := g i * R.rnd (W / 3)) (by linarith) (by linarith)
  obtain ⟨b1, b2⟩ := err R (x := t + R.rnd (g i * R.rnd (W / 3))) (by linarith) (by linarith)
  rw [abs_le]
  constructor <;> linarith

/-- The length of a spring from the anchor. -/
theorem len_anchor {W o t k q : ℝ} {g : Idx → ℝ} (hg : Grid g) (hs : Sane W v) (ho : |o| ≤ 32768) (ht : |t - o| ≤ v / 137438953472)
    (hk : 0 ≤ k ∧ k ≤ 3) (hq : q = o + k * (W / 3)) (i : Idx) :
    Len W v ((g i - k) / 3) (R.rnd (R.rnd (t + R.rnd (g i * R.rnd (W / 3))) - q)) := by
  have e := abs_le.1 (targets_near R hg hs ho ht i)
  obtain ⟨c1, c2⟩ := hg.cell hs.one i
  have k1 : 0 ≤ k * (W / 3) := mul_nonneg hk.1 (by linarith [hs.one])
  have k2 : k * (W / 3) ≤ W := by
    have := hs.one
    nlinarith [hk.2]
  have p := hs.prod
  have b := hs.big
  have v1 := hs.calls
  have v0 := hs.first
  have w1 := hs.one
  rw [abs_le] at ho ht
  obtain ⟨r1, r2⟩ := err R (x := R.rnd (t + R.rnd (g i * R.rnd (W / 3))) - q) (by linarith) (by linarith)
  unfold Len
  have ec : (g i - k) / 3 * W = g i * (W / 3) - k * (W / 3) := by ring
  rw [ec, abs_le]
  constructor <;> linarith

/-- Different points of a lattice are at different places. -/
theorem lattice_inj {z : Pt} {f : Free} (H : Resting z v f) {i j : Idx} (e : f.pos i = f.pos j) : i = j := by
  have key : ∀ {W o : ℝ} {g u : Idx → ℝ} {m n : ℕ}, Coord W o v g u → Sane W v → g i = m → g j = n → u i = u j → m = n := by
    intro W o g u m n hc hs em en hu
    have a := abs_le.1 (hc.near i)
    have b := abs_le.1 (hc.near j)
    have w1 := hs.one
    have vc := hs.calls
    have hp : W * v ≤ W * 65536 := mul_le_mul_of_nonneg_left vc (by linarith)
    rw [em, hu] at a
    rw [en] at b
    by_contra hne
    rcases Nat.lt_or_gt_of_ne hne with hlt | hlt
    · have : (m : ℝ) + 1 ≤ n := by exact_mod_cast hlt
      have := mul_le_mul_of_nonneg_right this (by linarith : 0 ≤ W / 3)
      rw [add_mul] at this
      linarith
    · have : (n : ℝ) + 1 ≤ m := by exact_mod_cast hlt
      have := mul_le_mul_of_nonneg_right this (by linarith : 0 ≤ W / 3)
      rw [add_mul] at this
      linarith
  have hc : col i = col j := key H.cx H.sw rfl rfl (by rw [e])
  have hr : row i = row j := key H.cy H.sh rfl rfl (by rw [e])
  unfold col at hc
  unfold row at hr
  ext
  omega

theorem activate_resting {z : Pt} (hn : NoAnchor s) (H : Resting z v (part s)) :
    activate R.rnd { s with unequal := True } =
      .ok { s with
        unequal := True
        count := s.count + 1
        lastId := s.lastId + springCount
        targets := positionArray R.rnd (s.pos 0) (tile R.rnd s) } := by
  have hrest : targetByFullIntegration R.rnd { s with unequal := True, count := s.count + 1 } = .ok (s.pos 0) := by
    have : targetByFullIntegration R.rnd { s with unequal := True, count := s.count + 1 } = targetByFullIntegration R.rnd s := rfl
    rw [this, rest_target R.rnd hn]
    exact settle_slack R (q := ⟨s.pos, s.vel⟩) H.doubles H.vel fun y hy => H.slack (base_fits R H.sw H.sh _ y hy)
  unfold activate
  rw [if_pos (by show s.count + 1 = 1; rw [hn.count])]
  unfold recalc
  rw [hrest]
  rfl

theorem insert_resting {z : Spot} {q : Pt} (hn : NoAnchor s) (H : Resting z.place v (part s)) (ew : s.width = z.width)
    (eh : s.height = z.height) (hz : z.OnScreen) (hq : z.Covers q) (hr : 1 ≤ s.settings.maximumRange) (hj : Joined s.springs) :
    ∃ st c s', Rounded.insert R.rnd s q = .ok (s', .handle s.nextHid) ∧ Hung s.settings s.nextHid st z.place c v s' ∧
      Fits s.width s.height v st ∧ s'.width = s.width ∧ s'.height = s.height ∧ s'.pos = s.pos ∧ s'.vel = s.vel ∧
      ∀ j, Near (3 / 16) (s'.pos j) (s'.targets j) := by
  have near : ∀ j, Near (v / 262144) (s.pos j) (z.point j) := fun j => H.near (f := part s) ew eh j
  have v0 := H.sw.first
  have v1 := H.sw.calls
  obtain ⟨⟨q1, q2⟩, q3, q4⟩ := hq
  have dx : ∀ j, |(s.pos j).x - q.x| ≤ 262144 ∧ |(s.pos j).y - q.y| ≤ 262144 := by
    intro j
    obtain ⟨n1, n2⟩ := near j
    obtain ⟨p1, p2⟩ := point_screen hz j
    have a := hz.placeX
    have b := hz.placeY
    have w1 := hz.widthMax
    have w2 := hz.heightMax
    rw [abs_le] at n1 n2 p1 p2 a b
    rw [abs_le, abs_le]
    refine ⟨⟨?_, ?_⟩, ?_, ?_⟩ <;> linarith
  have hlen := hj.length
  obtain ⟨y0, hy0⟩ := List.exists_mem_of_length_pos (by omega : 0 < s.springs.length)
  obtain ⟨f, hf, -⟩ := found_nearest (r := R.rnd) (at_ := s.env.at_ s.pos) (p := q) (l := s.springs) ⟨y0, hy0, by
    obtain ⟨⟨i, hi⟩, -⟩ := hn.ends y0 hy0
    rw [hi]
    exact screen_distance R (dx i).1 (dx i).2⟩
  have hfm := found_mem _ _ _ _ hf
  obtain ⟨i, j, ha, hb, fx, fy⟩ := H.springs f hfm
  have hd : ¬ dangling s.springs s.live := by
    rintro ⟨y, hy, hna⟩
    obtain ⟨⟨i, hi⟩, j, hj⟩ := hn.ends y hy
    rw [hi, hj] at hna
    exact hna ⟨trivial, trivial⟩
  set T := positionArray R.rnd (s.pos 0) (tile R.rnd s) with hT
  have look : ∀ i, lookupTarget s.pos T (s.pos i) = .ok (T i) := by
    intro i
    obtain ⟨i', hi', e⟩ := lookup_mesh s.pos T i
    rw [e, lattice_inj (f := part s) H hi']
  set s1 : State := { s with unequal := True, count := s.count + 1, lastId := s.lastId + springCount, targets := T } with hs1
  have pref : ∀ i, s1.preferred (s1.env.at_ s1.pos (.mesh i)) = .ok (T i) := by
    intro i
    unfold State.preferred
    rw [if_pos (by show s.count + 1 = 1; rw [hn.count])]
    exact look i
  have hins : insertSprings R.rnd s1 q = .ok (install R.rnd s1 q f (T i) (T j)) := by
    unfold insertSprings
    rw [if_neg (show ¬ dangling s1.springs s1.live from hd)]
    have hf' : findSpringToSplit R.rnd (s1.env.at_ s1.pos) q s1.springs = some f := hf
    simp only [hf', ha, hb, pref, bind_ok]
  have t3 : tile R.rnd s = ⟨R.rnd (s.width / 3), R.rnd (s.height / 3)⟩ := by
    unfold tile
    norm_num
  have c0 : (((col 0 : ℕ) : ℝ)) = 0 := col_grid.zero
  have r0 : (((row 0 : ℕ) : ℝ)) = 0 := row_grid.zero
  have T0 : T 0 = s.pos 0 := by
    rw [hT]
    unfold positionArray add
    rw [t3]
    simp only [c0, r0, zero_mul, rnd_zero, add_zero]
    exact Pt.ext (R.exact (H.doubles 0).1) (R.exact (H.doubles 0).2)
  have W1 : 1 ≤ s.width := H.sw.one
  have H1 : 1 ≤ s.height := H.sh.one
  have frac : ∀ {W a b : ℝ}, 1 ≤ W → a ≤ b → b ≤ a + W → (0 ≤ (b - a) * 3 / W ∧ (b - a) * 3 / W ≤ 3) ∧
      b = a + (b - a) * 3 / W * (W / 3) := by
    intro W a b hW h1 h2
    have W0 : 0 < W := by linarith
    refine ⟨⟨div_nonneg (by linarith) W0.le, ?_⟩, by field_simp; ring⟩
    rw [div_le_iff₀ W0]
    linarith
  obtain ⟨gx, ex⟩ := frac W1 q1 (by rw [ew]; exact q2)
  obtain ⟨gy, ey⟩ := frac H1 q3 (by rw [eh]; exact q4)
  have pinned : ∀ {W o t k b : ℝ}, Sane W v → |t - o| ≤ v / 137438953472 → b = o + k * (W / 3) →
      Coord W o v (pin 0 k) (pin t b) := by
    intro W o t k b hs ht hb
    have p := hs.prod
    have w1 := hs.one
    refine ⟨fun m => ?_, by rw [pin_zero]; exact ht⟩
    rw [pin_zero]
    unfold pin
    split_ifs
    · rw [sub_self, zero_mul, sub_zero, abs_zero]
      exact div_nonneg (by linarith) (by norm_num)
    · rw [hb]
      rw [abs_le] at ht ⊢
      constructor <;> linarith
  refine ⟨f, ⟨(q.x - z.place.x) * 3 / s.width, (q.y - z.place.y) * 3 / s.height⟩, install R.rnd s1 q f (T i) (T j), ?_, ?_,
    ⟨i, j, ha, hb, fx, fy⟩, rfl, rfl, rfl, rfl, fun k => ?_⟩
  rotate_left 2
  · have close : ∀ {W o t p : ℝ} {g : Idx → ℝ}, Grid g → Sane W v → |o| ≤ 32768 → |t - o| ≤ v / 137438953472 →
        |p - t - g k * (W / 3)| ≤ W * v / 17179869184 → |p - R.rnd (t + R.rnd (g k * R.rnd (W / 3)))| ≤ 3 / 16 := by
      intro W o t p g hg hs ho ht hp
      have e := abs_le.1 (targets_near R hg hs ho ht k)
      have vc := hs.calls
      have hb := hs.big
      have w1 := hs.one
      have hm : W * v ≤ 32768 * 65536 := mul_le_mul hb vc (by linarith) (by norm_num)
      rw [abs_le] at hp ⊢
      constructor <;> linarith
    refine ⟨?_, ?_⟩
    · show |(s.pos k).x - (positionArray R.rnd (s.pos 0) (tile R.rnd s) k).x| ≤ _
      rw [t3]
      exact close col_grid H.sw H.ox H.cx.origin (H.cx.near k)
    · show |(s.pos k).y - (positionArray R.rnd (s.pos 0) (tile R.rnd s) k).y| ≤ _
      rw [t3]
      exact close row_grid H.sh H.oy H.cy.origin (H.cy.near k)
  · unfold Rounded.insert
    rw [activate_resting R hn H, bind_ok]
    show (insertSprings R.rnd s1 q).bind _ = _
    rw [hins]
    rfl
  · exact {
      ox := H.ox
      oy := H.oy
      sw := H.sw
      sh := H.sh
      dw := H.dw
      dh := H.dh
      tx := by
        have := coord_targets R col_grid H.sw H.ox H.cx.origin (H.doubles 0).1
        show Coord s.width z.place.x v _ fun i => (positionArray R.rnd (s.pos 0) (tile R.rnd s) i).x
        rw [t3]
        exact this
      ty := by
        have := coord_targets R row_grid H.sh H.oy H.cy.origin (H.doubles 0).2
        show Coord s.height z.place.y v _ fun i => (positionArray R.rnd (s.pos 0) (tile R.rnd s) i).y
        rw [t3]
        exact this
      targets := fun _ => ⟨R.double _, R.double _⟩
      count := by show s.count + 1 = 1; rw [hn.count]
      live := by
        refine ⟨q, s1.lastId + 1, s1.lastId + 2, ?_, ?_, ?_⟩
        · show s.live ++ [_] = _
          rw [hn.live]
          rfl
        · show Coord s.width z.place.x v _ (pin (T 0).x q.x)
          rw [T0]
          exact pinned H.sw H.cx.origin ex
        · show Coord s.height z.place.y v _ (pin (T 0).y q.y)
          rw [T0]
          exact pinned H.sh H.cy.origin ey
      cx := gx
      cy := gy
      fits := by
        have new : ∀ (i : Idx) (n : ℕ), Fitted s.nextHid ⟨(q.x - z.place.x) * 3 / s.width, (q.y - z.place.y) * 3 / s.height⟩
            s.width s.height v ⟨n, .anchor s.nextHid, .mesh i, sub R.rnd (T i) q⟩ := by
          intro i n
          refine Or.inr ⟨rfl, i, rfl, ?_, ?_⟩
          · have := len_anchor R col_grid H.sw H.ox H.cx.origin gx ex i
            show Len s.width v _ (R.rnd ((positionArray R.rnd (s.pos 0) (tile R.rnd s) i).x - q.x))
            rw [t3]
            exact this
          · have := len_anchor R row_grid H.sh H.oy H.cy.origin gy ey i
            show Len s.height v _ (R.rnd ((positionArray R.rnd (s.pos 0) (tile R.rnd s) i).y - q.y))
            rw [t3]
            exact this
        intro y hy
        rcases List.mem_append.1 hy with hy | hy
        · exact Or.inl (H.springs y (List.mem_of_mem_filter hy))
        · simp only [ha, hb, List.mem_cons, List.not_mem_nil, or_false] at hy
          rcases hy with rfl | rfl
          · exact new i _
          · exact new j _
      locks := hn.locks
      settings := rfl
      range := hr }

/-! ## Release -/

variable {R}

theorem tracked_subset (s : State) (id : ℕ) : ∀ y ∈ (s.removeTracked id).springs, y ∈ s.springs := by
  intro y hy
  unfold State.removeTracked at hy
  split_ifs at hy
  · exact List.mem_of_mem_filter hy
  · exact hy

theorem replace_subset (s : State) (st : Spring) : ∀ y ∈ (s.replace st).springs, y ∈ s.springs ∨ y = st := by
  intro y hy
  unfold State.replace at hy
  split_ifs at hy
  · exact Or.inl hy
  · rcases List.mem_append.1 hy with hy | hy
    · exact Or.inl hy
    · exact Or.inr (List.mem_singleton.1 hy)

theorem book_joined {b : ℕ} (B : Book b s) (hn : NoneInserted s) : Joined s.springs := by
  have hp : (s.springs.map fun x => (x.id, x.a, x.b)).Perm (baseEnds b) := ends_perm (s := flat s) B.inv hn
  have h1 := hp.map Prod.snd
  rw [List.map_map] at h1
  have h2 : (baseEnds b).map Prod.snd = (Wobbly.baseSprings 0 b).map fun y => (y.a, y.b) := by
    simp [baseEnds, Function.comp_def]
  rw [h2] at h1
  exact h1.trans (joined_base 0 b)

theorem Hung.release {b : ℕ} {r : ℝ → ℝ} (H : Hung x h st o c v s) (B : Book b s) :
    ∃ s', exec r s (.release h) = .ok (s', .none) ∧ NoAnchor s' ∧ Joined s'.springs ∧ s'.pos = s.pos ∧ s'.vel = s.vel ∧
      s'.unequal = s.unequal ∧ s'.width = s.width ∧ s'.height = s.height ∧ s'.settings = s.settings ∧
      ∀ y ∈ s'.springs, y = st ∨ Fits s.width s.height v y := by
  obtain ⟨p, f, g, hl, -, -⟩ := H.live
  set s0 : State := { s with live := s.live.filter fun b => b.hid ≠ h } with hs0
  set s1 : State := ((s0.removeTracked g).removeTracked f).replace st with hs1
  have fields : s1 = { s0 with springs := s1.springs, pending := s1.pending } := by
    rw [hs1, removeTracked_eq, removeTracked_eq, replace_eq]
  have e1 : exec r s (.release h) = .ok ({ s1 with count := s1.count - 1 }, .none) := by
    have hc : s1.count = 1 := by rw [fields]; exact H.count
    simp only [exec]
    unfold Rounded.release
    have hfind : s.live.find? (fun a => decide (a.hid = h)) = some ⟨h, .ins p st f g⟩ := by
      rw [hl]
      simp
    rw [hfind]
    simp only [State.releaseKind, bind_ok]
    unfold Rounded.deactivate
    rw [if_neg (by show ¬ s1.count = 0; rw [hc]; norm_num)]
    dsimp only
    rw [if_neg (by show ¬ s1.count - 1 = 1; rw [hc]; norm_num)]
    rfl
  have B' := exec_book B e1
  have l0 : s0.live = [] := by
    rw [hs0]
    show s.live.filter _ = []
    rw [hl]
    simp
  have l1 : s1.live = [] := by
    rw [fields]
    exact l0
  have none : NoneInserted { s1 with count := s1.count - 1 } := by
    intro a ha
    have ha' : a ∈ s1.live := ha
    rw [l1] at ha'
    cases ha'
  have ends := (B'.mesh none).2.2
  refine ⟨_, e1, ⟨l1, ?_, ?_, ends⟩, book_joined B' none, ?_, ?_, ?_, ?_, ?_, ?_, fun y hy => ?_⟩
  · show s1.count - 1 = 0
    rw [fields]
    show s.count - 1 = 0
    rw [H.count]
  · intro i
    show s1.locks i = 0
    rw [fields]
    exact H.locks i
  · show s1.pos = _
    rw [fields]
  · show s1.vel = _
    rw [fields]
  · show s1.unequal = _
    rw [fields]
  · show s1.width = _
    rw [fields]
  · show s1.height = _
    rw [fields]
  · show s1.settings = _
    rw [fields]
  · rcases replace_subset _ _ y hy with hy' | rfl
    · have hm : y ∈ s.springs := tracked_subset s0 g y (tracked_subset _ f y hy')
      rcases H.fits y hm with hf | ⟨ha, -⟩
      · exact Or.inr hf
      · obtain ⟨⟨i, hi⟩, -⟩ := ends y hy
        rw [ha] at hi
        cases hi
    · exact Or.inl rfl

theorem fits_mono {w hh v v' : ℝ} (hw : 1 ≤ w) (hh1 : 1 ≤ hh) (hv : v ≤ v') {y : Spring} (hy : Fits w hh v y) : Fits w hh v' y := by
  obtain ⟨i, j, ha, hb, lx, ly⟩ := hy
  have key : ∀ {W c d : ℝ}, 1 ≤ W → Len W v c d → Len W v' c d := by
    intro W c d hW hl
    refine hl.trans ?_
    have := mul_le_mul_of_nonneg_left hv (by linarith : 0 ≤ W)
    linarith
  exact ⟨i, j, ha, hb, key hw lx, key hh1 ly⟩

theorem Settled.resting (S : Settled x h st o c v s) {s' : State} (ep : s'.pos = s.pos) (ev : s'.vel = s.vel)
    (eu : s'.unequal = s.unequal) (ew : s'.width = s.width) (eh : s'.height = s.height)
    (hf : ∀ y ∈ s'.springs, Fits s.width s.height v y) : Resting o v (part s') :=
  have H := S.hung
  { ox := H.ox
    oy := H.oy
    sw := by show Sane s'.width v; rw [ew]; exact H.sw
    sh := by show Sane s'.height v; rw [eh]; exact H.sh
    dw := by show Double s'.width; rw [ew]; exact H.dw
    dh := by show Double s'.height; rw [eh]; exact H.dh
    cx := by
      show Coord s'.width o.x v _ fun i => (s'.pos i).x
      rw [ep, ew, S.pos]
      exact H.tx
    cy := by
      show Coord s'.height o.y v _ fun i => (s'.pos i).y
      rw [ep, eh, S.pos]
      exact H.ty
    vel := by show ∀ i, s'.vel i = 0; rw [ev]; exact S.vel
    doubles := by
      show Doubles s'.pos
      rw [ep, S.pos]
      exact H.targets
    unequal := by show ¬ s'.unequal; rw [eu]; exact S.unequal
    springs := by
      show ∀ y ∈ s'.springs, Fits s'.width s'.height v y
      rw [ew, eh]
      exact hf }

end

end Verif.Wobbly.Rounded
