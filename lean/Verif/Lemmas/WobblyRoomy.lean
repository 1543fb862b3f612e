import Verif.Lemmas.WobblyAgree

/-!
# Nothing overflows while a model is held

The calls made with `r` are the calls made with `R`, where `r` rounds like `R` up to `2 ^ 500`.
-/

namespace Verif.Wobbly.Rounded

noncomputable section

open Classical Outcome Spec

variable {R : Rounding64} {r : ℝ → ℝ}

/-! ## Rounds -/

theorem ag_springRound (hr : Agrees R r) {e : Env} {q : Phys} {n : ℕ} (hk : |e.k| ≤ 2 ^ 4) (hf : |e.friction| ≤ 2 ^ 4)
    (hs : ∀ y ∈ e.springs, Fair n (e.at_ q.pos) y) (hl : e.springs.length = 24) (hp : ∀ j, Small n (q.pos j))
    (hv : ∀ j, Small n (q.vel j)) (hn : n ≤ 300 := by omega) :
    springRound r e q = springRound R.rnd e q := by
  obtain ⟨f1, f2⟩ := ag_forces hr hs hk (by omega)
  have E : ∀ j, eulerIntegrate r 1 e.friction mass (q.pos j) (q.vel j)
      ((calculateForces R.rnd e.k (e.at_ q.pos) e.springs).1 (.mesh j)) =
      eulerIntegrate R.rnd 1 e.friction mass (q.pos j) (q.vel j)
      ((calculateForces R.rnd e.k (e.at_ q.pos) e.springs).1 (.mesh j)) := fun j =>
    ag_euler hr (n := n + 6 + 2 * e.springs.length) hf ((hp j).up (by omega)) ((hv j).up (by omega)) (f2 _) (by omega)
  unfold springRound anchoredIntegration
  dsimp only
  rw [f1]
  simp only [E]

theorem ag_constrainPoint (hr : Agrees R r) {d : ℝ} {t m : Pt} {n : ℕ} (d1 : 1 ≤ d) (d2 : d ≤ 2 ^ 10) (ht : Small n t)
    (hm : Small n m) (hd : ¬ distance R.rnd t m < d) (hn : n ≤ 200 := by omega) :
    constrainPoint r d t m = constrainPoint R.rnd d t m := by
  obtain ⟨e1, e2⟩ := ag_distance hr ht hm
  have g1 : 1 ≤ distance R.rnd t m := d1.trans (not_lt.1 hd)
  obtain ⟨x1, x2⟩ := ag hr (pow_sub_le ht.1 hm.1)
  obtain ⟨y1, y2⟩ := ag hr (pow_sub_le ht.2 hm.2)
  obtain ⟨a1, a2⟩ := ag hr (pow_div_le x2 g1)
  obtain ⟨b1, b2⟩ := ag hr (pow_div_le y2 g1)
  have hmin : |min d (distance R.rnd t m)| ≤ 2 ^ 10 := by
    rw [min_eq_left (not_lt.1 hd), abs_of_pos (by linarith)]
    exact d2
  obtain ⟨c1, c2⟩ := ag hr (pow_mul_le hmin a2)
  obtain ⟨k1, k2⟩ := ag hr (pow_mul_le hmin b2)
  have sm : Small (10 + (n + 1)) (⟨R.rnd (min d (distance R.rnd t m) * R.rnd (R.rnd (t.x - m.x) / distance R.rnd t m)),
      R.rnd (min d (distance R.rnd t m) * R.rnd (R.rnd (t.y - m.y) / distance R.rnd t m))⟩ : Pt) := ⟨c2, k2⟩
  unfold constrainPoint
  dsimp only
  rw [e1, x1, y1, a1, b1, c1, k1]
  exact (ag_sub hr (ht.up (by omega)) sm).1

theorem ag_constrain (hr : Agrees R r) {d : ℝ} {t m : Mesh} {n : ℕ} (d1 : 1 ≤ d) (d2 : d ≤ 2 ^ 10) (ht : ∀ j, Small n (t j))
    (hm : ∀ j, Small n (m j)) (hn : n ≤ 200 := by omega) : constrain r d t m = constrain R.rnd d t m := by
  have D : ∀ j, distance r (t j) (m j) = distance R.rnd (t j) (m j) := fun j => (ag_distance hr (ht j) (hm j)).1
  unfold constrain
  simp only [D]
  congr 3
  funext j
  split_ifs with hc
  · rfl
  · exact ag_constrainPoint hr d1 d2 (ht j) (hm j) hc

/-- A held model whose points are not too far from its place. -/
structure Roomy (i : Idx) (h : ℕ) (o : Pt) (v : ℝ) (s : State) : Prop where
  paced : Paced i h o v s
  x : ∀ j, |(s.pos j).x - (s.targets 0).x| ≤ s.width * v * 1048576
  y : ∀ j, |(s.pos j).y - (s.targets 0).y| ≤ s.height * v * 1048576

variable {i : Idx} {h : ℕ} {o : Pt} {v : ℝ} {s : State}

theorem Joined.length {l : List Spring} (h : Joined l) : l.length = 24 := by
  have := h.length_eq
  rw [List.length_map, List.length_map] at this
  exact this.trans rfl

theorem Mild.k_pow {x : Settings} (H : Mild x) : |x.springConstant| ≤ 2 ^ 4 := by
  rw [abs_of_pos (by linarith [H.k1])]
  linarith [H.k2]

theorem Mild.f_pow {x : Settings} (H : Mild x) : |x.friction| ≤ 2 ^ 4 := by
  rw [abs_of_pos (by linarith [H.f1])]
  linarith [H.f2]

theorem Sane.room {W v : ℝ} (hs : Sane W v) : 0 ≤ W * v ∧ W * v ≤ 2147483648 := by
  have h1 := hs.one
  have h2 := hs.first
  have h3 := hs.big
  have h4 := hs.calls
  refine ⟨mul_nonneg (by linarith) (by linarith), ?_⟩
  calc _ ≤ (32768 : ℝ) * 65536 := mul_le_mul h3 h4 (by linarith) (by norm_num)
    _ = _ := by norm_num

theorem Held.targets_small (H : Held i h o v s) (j : Idx) : Small 17 (s.targets j) := by
  obtain ⟨h1, h2⟩ := H.targets_le j
  exact ⟨by norm_num; linarith, by norm_num; linarith⟩

theorem Roomy.small (P : Roomy i h o v s) (j : Idx) : Small 52 (s.pos j) := by
  obtain ⟨t1, t2⟩ := P.paced.held.targets_le 0
  have key : ∀ {W p t : ℝ}, Sane W v → |t| ≤ 70000 → |p - t| ≤ W * v * 1048576 → |p| ≤ 2 ^ 52 := by
    intro W p t hs ht hp
    have := hs.room
    rw [abs_le] at ht hp ⊢
    norm_num
    constructor <;> linarith
  exact ⟨key P.paced.held.sw t1 (P.x j), key P.paced.held.sh t2 (P.y j)⟩

theorem fits_small {W H v : ℝ} {y : Spring} (sw : Sane W v) (sh : Sane H v) (hy : Fits W H v y) : Small 52 y.desired := by
  obtain ⟨a, c, -, -, lx, ly⟩ := hy
  have key : ∀ {W x d : ℝ}, Sane W v → |x| ≤ 1 → Len W v x d → |d| ≤ 2 ^ 52 := by
    intro W x d hs hx hd
    have := hs.room
    have b := hs.big
    have hxW : |x * W| ≤ 32768 := by
      rw [abs_mul, abs_of_pos (by linarith [hs.one] : 0 < W)]
      calc _ ≤ 1 * W := mul_le_mul_of_nonneg_right hx (by linarith [hs.one])
        _ ≤ _ := by linarith
    unfold Len at hd
    rw [abs_le] at hd hxW ⊢
    norm_num
    constructor <;> linarith
  have third : ∀ {g : Idx → ℝ}, Grid g → |(g c - g a) / 3| ≤ 1 := by
    intro g hg
    have := hg.nonneg a
    have := hg.nonneg c
    have := hg.le a
    have := hg.le c
    rw [abs_le]
    constructor <;> linarith
  exact ⟨key sw (third col_grid) lx, key sh (third row_grid) ly⟩

theorem Paced.velocity (P : Paced i h o v s) {q : Phys} (hq : ∀ j, Near (limit s.settings) (q.vel j) 0) (j : Idx) :
    Small 52 (q.vel j) := by
  obtain ⟨l0, l1⟩ := P.mild.limit_le
  obtain ⟨a, b⟩ := hq j
  simp only [Pt.zero_x, Pt.zero_y, sub_zero] at a b
  exact ⟨by norm_num; linarith, by norm_num; linarith⟩

theorem Paced.ag_round (hr : Agrees R r) (P : Paced i h o v s) {q : Phys} (hq : ∀ j, Near (limit s.settings) (q.vel j) 0)
    (hp : ∀ j, Small 52 (q.pos j)) : Rounded.round r s q = Rounded.round R.rnd s q := by
  have M := P.mild
  unfold Rounded.round
  rw [if_pos (show s.active from P.held.count), if_pos (show s.active from P.held.count),
    ag_constrain hr (n := 52) M.r1 (by linarith [M.r2]) (fun j => (P.held.targets_small j).up (by omega)) hp]
  obtain ⟨m, b, e, hm⟩ := constrain_range R (d := s.settings.maximumRange) (t := s.targets) (m := q.pos) M.r1 M.r2
    P.held.targets_le
  rw [e]
  have sm : ∀ j, Small 52 (m j) := by
    intro j
    obtain ⟨t1, t2⟩ := P.held.targets_le j
    obtain ⟨m1, m2⟩ := hm j
    have := M.r2
    rw [abs_le] at t1 t2 m1 m2
    constructor <;> rw [abs_le] <;> norm_num <;> constructor <;> linarith
  simp only [bind_ok]
  rw [ag_springRound hr (e := s.env) (q := ⟨m, q.vel⟩) (n := 52) M.k_pow M.f_pow ?_ P.joined.length sm (P.velocity hq)]
  intro y hy
  obtain ⟨a, c, ha, hc, -⟩ := P.fits y hy
  refine ⟨?_, ?_, fits_small P.held.sw P.held.sh (P.fits y hy)⟩
  · rw [ha]
    exact sm a
  · rw [hc]
    exact sm c

theorem Paced.near_small (P : Paced i h o v s) {q : Pt} {j : Idx}
    (hq : Near (s.settings.maximumRange + limit s.settings / 2 + 1) q (s.targets j)) : Small 52 q := by
  obtain ⟨t1, t2⟩ := P.held.targets_le j
  obtain ⟨m1, m2⟩ := hq
  have := P.mild.r2
  have := P.mild.limit_le
  rw [abs_le] at t1 t2 m1 m2
  constructor <;> rw [abs_le] <;> norm_num <;> constructor <;> linarith

theorem Paced.ag_rounds (hr : Agrees R r) (P : Paced i h o v s) (n : ℕ) {q : Phys}
    (hq : ∀ j, Near (limit s.settings) (q.vel j) 0) (hp : ∀ j, Small 52 (q.pos j)) :
    Rounded.rounds r s n q = Rounded.rounds R.rnd s n q := by
  induction n generalizing q with
  | zero => rfl
  | succ n ih =>
    obtain ⟨q1, b1, e1, v1, p1⟩ := P.round (R := R) hq
    simp only [Rounded.rounds]
    rw [P.ag_round hr hq hp, e1]
    simp only [bind_ok]
    rw [ih v1 fun j => P.near_small (p1 j)]

theorem Roomy.ag_step (hr : Agrees R r) (P : Roomy i h o v s) (t : ℕ) : step r s t = step R.rnd s t := by
  unfold Rounded.step
  rw [P.paced.ag_rounds hr _ P.paced.vel P.small]

/-! ## Room -/

theorem err52 (R : Rounding64) {x : ℝ} (h : |x| ≤ 2 ^ 52) : |R.rnd x - x| ≤ 1 / 4 := by
  have := R.error (x := x) (k := 52) (by norm_num) (by exact_mod_cast h)
  norm_num at this
  norm_num
  exact this

/-- Both ends of a stretch are moved. -/
theorem shift_room (R : Rounding64) {W v p t d : ℝ} (hs : Sane W v) (hp : |p - t| ≤ W * v * 1048576) (ht : |t| ≤ 70000)
    (hd : |d| ≤ 2 ^ 18) : |R.rnd (p + d) - R.rnd (t + d)| ≤ W * (v + 1) * 1048576 := by
  have := hs.room
  have w1 := hs.one
  rw [abs_le] at hp ht hd
  norm_num at hd
  have e1 := abs_le.1 (err52 R (x := p + d) (by rw [abs_le]; norm_num; constructor <;> linarith))
  have e2 := abs_le.1 (err52 R (x := t + d) (by rw [abs_le]; norm_num; constructor <;> linarith))
  rw [abs_le, mul_add]
  constructor <;> linarith

/-- One end of a stretch is moved. -/
theorem leave_room (R : Rounding64) {W v p t d : ℝ} (hs : Sane W v) (hp : |p - t| ≤ W * v * 1048576) (ht : |t| ≤ 70000)
    (hd : |d| ≤ 2 ^ 18) : |p - R.rnd (t + d)| ≤ W * (v + 1) * 1048576 := by
  have := hs.room
  have w1 := hs.one
  rw [abs_le] at hp ht hd
  norm_num at hd
  have e2 := abs_le.1 (err52 R (x := t + d) (by rw [abs_le]; norm_num; constructor <;> linarith))
  rw [abs_le, mul_add]
  constructor <;> linarith

theorem ratio (R : Rounding64) {W w v : ℝ} (hs : Sane W v) (hs' : Sane w v) :
    0 ≤ R.rnd (w / W) ∧ R.rnd (w / W) ≤ w / W + 1 / 274877906944 ∧ |w / W| ≤ 2 ^ 15 := by
  have W1 := hs.one
  have w1 := hs'.one
  have w2 := hs'.big
  have q0 : 0 ≤ w / W := div_nonneg (by linarith) (by linarith)
  have q1 : w / W ≤ 32768 := (div_le_self (by linarith) W1).trans w2
  have q2 : |w / W| ≤ 2 ^ 15 := by rw [abs_of_nonneg q0]; norm_num; exact q1
  have e := abs_le.1 (R.error (x := w / W) (k := 15) (by norm_num) (by exact_mod_cast q2))
  norm_num at e
  refine ⟨R.nonneg q0, ?_, q2⟩
  norm_num
  linarith

theorem resize_room (R : Rounding64) {W w v p t : ℝ} (hs : Sane W v) (hs' : Sane w v) (hp : |p - t| ≤ W * v * 1048576)
    (ht : |t| ≤ 70000) (hd : Double t) :
    |R.rnd (R.rnd (R.rnd (p - t) * R.rnd (w / W)) + t) - R.rnd (R.rnd (R.rnd (t - t) * R.rnd (w / W)) + t)| ≤
      w * (v + 1) * 1048576 := by
  have e0 : R.rnd (R.rnd (R.rnd (t - t) * R.rnd (w / W)) + t) = t := by
    rw [sub_self, rnd_zero, zero_mul, rnd_zero, zero_add, R.exact hd]
  rw [e0]
  have r1 := hs.room
  have r2 := hs'.room
  have W1 := hs.one
  have W2 := hs.big
  have w1 := hs'.one
  have w2 := hs'.big
  have v1 := hs.first
  have v2 := hs.calls
  obtain ⟨f0, f1, -⟩ := ratio R hs hs'
  have e1 := abs_le.1 (err52 R (x := p - t) (by norm_num; linarith))
  have hD : |R.rnd (p - t)| ≤ W * v * 1048576 + 1 := by
    rw [abs_le] at hp ⊢
    constructor <;> linarith
  have hm : |R.rnd (p - t) * R.rnd (w / W)| ≤ w * v * 1048576 + w + 32768 := by
    rw [abs_mul, abs_of_nonneg f0]
    have q : W * (w / W) = w := mul_div_cancel₀ _ (by linarith)
    have q' : w / W ≤ w := div_le_self (by linarith) W1
    calc _ ≤ (W * v * 1048576 + 1) * (w / W + 1 / 274877906944) := mul_le_mul hD f1 f0 (by linarith)
      _ = W * (w / W) * v * 1048576 + w / W + (W * v * 1048576 + 1) / 274877906944 := by ring
      _ ≤ _ := by rw [q]; linarith
  have e2 := abs_le.1 (err52 R (x := R.rnd (p - t) * R.rnd (w / W)) (hm.trans (by norm_num; linarith)))
  rw [abs_le] at hm ht
  have e3 := abs_le.1 (err52 R (x := R.rnd (R.rnd (p - t) * R.rnd (w / W)) + t)
    (by rw [abs_le]; norm_num; constructor <;> linarith))
  rw [abs_le, mul_add]
  constructor <;> linarith

/-! ## Calls -/

theorem Roomy.step (R : Rounding64) (P : Roomy i h o v s) (t : ℕ) :
    ∃ s' more, step R.rnd s t = .ok (s', .more more) ∧ Roomy i h o v s' ∧ s'.settings = s.settings ∧ s'.width = s.width ∧
      s'.height = s.height ∧ s'.targets = s.targets ∧ (¬ more → s'.pos = s.targets) ∧
      (t ≠ 0 → ∀ j, Near (s.settings.maximumRange + limit s.settings / 2 + 1) (s'.pos j) (s.targets j)) := by
  obtain ⟨s', more, e, P', es, ew, eh, et, hp⟩ := P.paced.step (R := R) t
  obtain ⟨s2, more2, e2, -, -, -, -, hm⟩ := P.paced.held.step (R := R) t
  rw [e] at e2
  obtain ⟨rfl, h2⟩ := Prod.mk.inj (Outcome.ok.inj e2)
  obtain rfl := Res.more.inj h2
  have key : (∀ j, Near (s.settings.maximumRange + limit s.settings / 2 + 1) (s'.pos j) (s.targets j)) ∨ s'.pos = s.pos := by
    by_cases ht : t = 0
    · subst ht
      have c0 : stepCount 0 = 0 := by simp [stepCount]
      unfold Rounded.step at e
      rw [c0] at e
      simp only [Rounded.rounds, ne_eq, not_true_eq_false, false_and, if_false, bind_ok, Outcome.ok.injEq, Prod.mk.injEq] at e
      by_cases hc : ¬ more
      · left
        intro j
        rw [hm hc]
        have := P.paced.mild.r1
        have := P.paced.mild.limit_le
        simp only [Near, sub_self, abs_zero]
        constructor <;> linarith
      · right
        have hu : s.unequal ∨ False := by
          have := Res.more.inj e.2
          rw [this]
          exact not_not.1 hc
        rw [← e.1]
        simp [hu]
    · exact Or.inl (hp ht)
  have room : ∀ {W c : ℝ} {g t : Idx → ℝ} {p : ℝ} {j : Idx}, Coord W c v g t → Grid g → Sane W v →
      |p - t j| ≤ s.settings.maximumRange + limit s.settings / 2 + 1 → |p - t 0| ≤ W * v * 1048576 := by
    intro W c g t p j hc hg hs hp
    have b := hc.bounds hg hs j
    have := P.paced.mild.r2
    have := P.paced.mild.limit_le
    rw [abs_le] at hp ⊢
    constructor <;> linarith
  refine ⟨s', more, e, ⟨P', ?_, ?_⟩, es, ew, eh, et, hm, hp⟩
  · intro j
    rw [et, ew]
    rcases key with hk | hk
    · exact room P.paced.held.tx col_grid P.paced.held.sw (hk j).1
    · rw [hk]
      exact P.x j
  · intro j
    rw [et, eh]
    rcases key with hk | hk
    · exact room P.paced.held.ty row_grid P.paced.held.sh (hk j).2
    · rw [hk]
      exact P.y j

theorem small_move {o d : Pt} (ox : |o.x| ≤ 32768) (oy : |o.y| ≤ 32768) (hx : |o.x + d.x| ≤ 32768) (hy : |o.y + d.y| ≤ 32768) :
    Small 18 d := by
  rw [abs_le] at ox oy hx hy
  constructor <;> rw [abs_le] <;> norm_num <;> constructor <;> linarith

theorem Roomy.ag_add (hr : Agrees R r) (P : Roomy i h o v s) {d : Pt} (hd : Small 18 d) (j : Idx) :
    add r (s.pos j) d = add R.rnd (s.pos j) d ∧ add r (s.targets j) d = add R.rnd (s.targets j) d :=
  ⟨(Rounded.ag_add hr (P.small j) (hd.up (by omega))).1,
    (Rounded.ag_add hr ((P.paced.held.targets_small j).up (by omega : 17 ≤ 18)) hd).1⟩

theorem Roomy.drag (R : Rounding64) (P : Roomy i h o v s) (d : Pt) (hv : v + 1 ≤ 65536) (hx : |o.x + d.x| ≤ 32768)
    (hy : |o.y + d.y| ≤ 32768) :
    ∃ s', moveAnchor R.rnd s h d = .ok (s', .none) ∧ Roomy i h ⟨o.x + d.x, o.y + d.y⟩ (v + 1) s' ∧
      s'.settings = s.settings ∧ s'.width = s.width ∧ s'.height = s.height := by
  obtain ⟨s', e, P', es, ew, eh⟩ := P.paced.drag R d hv hx hy
  have H := P.paced.held
  have sd := small_move H.ox H.oy hx hy
  obtain ⟨t1, t2⟩ := H.targets_le 0
  have e' := e
  unfold moveAnchor at e'
  rw [H.live] at e'
  simp only [List.find?_cons_of_pos, decide_true, if_pos (show s.active from H.count), Outcome.ok.injEq, Prod.mk.injEq] at e'
  obtain ⟨rfl, -⟩ := e'
  refine ⟨_, e, ⟨P', fun j => ?_, fun j => ?_⟩, es, ew, eh⟩
  · by_cases hj : j = i
    · subst hj
      simp only [Function.update_self]
      exact shift_room R H.sw (P.x j) t1 sd.1
    · simp only [Function.update_of_ne hj]
      exact leave_room R H.sw (P.x j) t1 sd.1
  · by_cases hj : j = i
    · subst hj
      simp only [Function.update_self]
      exact shift_room R H.sh (P.y j) t2 sd.2
    · simp only [Function.update_of_ne hj]
      exact leave_room R H.sh (P.y j) t2 sd.2

theorem Roomy.ag_drag (hr : Agrees R r) (P : Roomy i h o v s) {d : Pt} (hd : Small 18 d) :
    moveAnchor r s h d = moveAnchor R.rnd s h d := by
  have a1 := fun j => (P.ag_add hr hd j).1
  have a2 := fun j => (P.ag_add hr hd j).2
  unfold moveAnchor
  rw [P.paced.held.live]
  simp only [List.find?_cons_of_pos, decide_true, a1, a2]

theorem Roomy.ag_moveBy (hr : Agrees R r) (P : Roomy i h o v s) {d : Pt} (hd : Small 18 d) :
    moveBy r s d = moveBy R.rnd s d := by
  have a1 := fun j => (P.ag_add hr hd j).1
  have a2 := fun j => (P.ag_add hr hd j).2
  unfold moveBy
  rw [P.paced.held.live]
  simp only [a1, a2, List.map_cons, List.map_nil, shift]

theorem Roomy.shifted (R : Rounding64) (P : Roomy i h o v s) {o' d : Pt} (hd : Small 18 d)
    (P' : Paced i h o' (v + 1) (moveBy R.rnd s d)) : Roomy i h o' (v + 1) (moveBy R.rnd s d) := by
  have H := P.paced.held
  obtain ⟨t1, t2⟩ := H.targets_le 0
  exact ⟨P', fun j => shift_room R H.sw (P.x j) t1 hd.1, fun j => shift_room R H.sh (P.y j) t2 hd.2⟩

theorem Roomy.moveBy (R : Rounding64) (P : Roomy i h o v s) (d : Pt) (hv : v + 1 ≤ 65536) (hx : |o.x + d.x| ≤ 32768)
    (hy : |o.y + d.y| ≤ 32768) : Roomy i h ⟨o.x + d.x, o.y + d.y⟩ (v + 1) (moveBy R.rnd s d) :=
  P.shifted R (small_move P.paced.held.ox P.paced.held.oy hx hy)
    (P.paced.later (P.paced.held.moveBy R d hv hx hy) rfl rfl rfl rfl rfl)

theorem small_screen {p : Pt} (hx : |p.x| ≤ 32768) (hy : |p.y| ≤ 32768) : Small 17 p :=
  ⟨hx.trans (by norm_num), hy.trans (by norm_num)⟩

theorem Roomy.ag_moveTo (hr : Agrees R r) (P : Roomy i h o v s) {p : Pt} (hx : |p.x| ≤ 32768) (hy : |p.y| ≤ 32768) :
    moveTo r s p = moveTo R.rnd s p := by
  obtain ⟨a1, a2⟩ := ag_sub hr (small_screen hx hy) (P.paced.held.targets_small 0)
  have et : ∀ r, targetPosition r s = .ok (s, s.targets 0) := by
    intro r
    unfold targetPosition
    rw [if_pos (show s.active from P.paced.held.count)]
  unfold moveTo
  simp only [et, bind_ok, a1, P.ag_moveBy hr a2]

theorem Roomy.moveTo (hr : Agrees R r) (P : Roomy i h o v s) (p : Pt) (hv : v + 1 ≤ 65536) (hx : |p.x| ≤ 32768)
    (hy : |p.y| ≤ 32768) :
    ∃ s', moveTo R.rnd s p = .ok (s', .none) ∧ Roomy i h p (v + 1) s' ∧ s'.settings = s.settings ∧ s'.width = s.width ∧
      s'.height = s.height := by
  obtain ⟨s', e, P', es, ew, eh⟩ := P.paced.moveTo R p hv hx hy
  have a2 := (ag_sub hr (small_screen hx hy) (P.paced.held.targets_small 0)).2
  have e' := e
  unfold Rounded.moveTo at e'
  rw [P.paced.held.target] at e'
  simp only [bind_ok, Outcome.ok.injEq, Prod.mk.injEq] at e'
  obtain ⟨rfl, -⟩ := e'
  exact ⟨_, e, P.shifted R a2 P', es, ew, eh⟩

theorem ag_rescale (hr : Agrees R r) {f c p : Pt} (hf : Small 15 f) (hc : Small 52 c) (hp : Small 52 p) :
    Free.rescale r f c p = Free.rescale R.rnd f c p := by
  obtain ⟨a1, a2⟩ := ag_sub hr hp hc
  obtain ⟨b1, b2⟩ := ag_pscale hr a2 hf
  unfold Free.rescale
  rw [a1, b1]
  exact (ag_add hr b2 (hc.up (by omega))).1

theorem ag_ratio (hr : Agrees R r) {W w v : ℝ} (hs : Sane W v) (hs' : Sane w v) :
    r (w / W) = R.rnd (w / W) ∧ |R.rnd (w / W)| ≤ 2 ^ 15 := ag hr (ratio R hs hs').2.2

theorem Roomy.ag_resize (hr : Agrees R r) (P : Roomy i h o v s) {w hh : ℝ} (w1 : 1 ≤ w) (w2 : w ≤ 32768) (h1 : 1 ≤ hh)
    (h2 : hh ≤ 32768) : resize r s w hh = resize R.rnd s w hh := by
  have H := P.paced.held
  obtain ⟨a1, a2⟩ := ag_ratio hr H.sw ⟨w1, w2, H.sw.first, H.sw.calls⟩
  obtain ⟨b1, b2⟩ := ag_ratio hr H.sh ⟨h1, h2, H.sw.first, H.sw.calls⟩
  have hf : Small 15 ⟨R.rnd (w / s.width), R.rnd (hh / s.height)⟩ := ⟨a2, b2⟩
  have ts : ∀ j, Small 52 (s.targets j) := fun j => (H.targets_small j).up (by omega)
  have et : ∀ r, targetPosition r s = .ok (s, s.targets 0) := by
    intro r
    unfold targetPosition
    rw [if_pos (show s.active from H.count)]
  have c1 := fun j => ag_rescale hr hf (ts 0) (P.small j)
  have c2 := fun j => ag_rescale hr hf (ts 0) (ts j)
  have c3 : ∀ r, s.live.map (fun b => (⟨b.hid, scaleKind r ⟨R.rnd (w / s.width), R.rnd (hh / s.height)⟩ (s.targets 0) b.kind⟩ :
      Live)) = s.live := by
    intro r
    rw [H.live]
    rfl
  have c4 : s.springs.map (fun x => { x with desired := pscale r x.desired ⟨R.rnd (w / s.width), R.rnd (hh / s.height)⟩ }) =
      s.springs.map (fun x => { x with desired := pscale R.rnd x.desired ⟨R.rnd (w / s.width), R.rnd (hh / s.height)⟩ }) :=
    List.map_congr_left fun y hy => by rw [(ag_pscale hr (fits_small H.sw H.sh (P.paced.fits y hy)) hf).1]
  unfold Rounded.resize
  simp only [et, bind_ok, a1, b1, c1, c2, c3, c4]

theorem Roomy.resize (R : Rounding64) (P : Roomy i h o v s) {w hh : ℝ} (hv : v + 1 ≤ 65536)
    (w1 : 1 ≤ w) (w2 : w ≤ 32768) (dw : Double w) (h1 : 1 ≤ hh) (h2 : hh ≤ 32768) (dh : Double hh) :
    ∃ s', resize R.rnd s w hh = .ok (s', .none) ∧ Roomy i h o (v + 1) s' ∧ s'.settings = s.settings ∧ s'.width = w ∧
      s'.height = hh := by
  obtain ⟨s', e, P', es, ew, eh⟩ := P.paced.resize R (w := w) (hh := hh) hv w1 w2 dw h1 h2 dh
  have H := P.paced.held
  obtain ⟨t1, t2⟩ := H.targets_le 0
  have sw' : Sane w v := ⟨w1, w2, H.sw.first, H.sw.calls⟩
  have sh' : Sane hh v := ⟨h1, h2, H.sw.first, H.sw.calls⟩
  have e' := e
  unfold Rounded.resize at e'
  rw [if_neg (by push Not; constructor <;> linarith),
    if_neg (by push Not; constructor <;> linarith [H.sw.one, H.sh.one])] at e'
  by_cases he : Pt.equals ⟨R.rnd (w / s.width), R.rnd (hh / s.height)⟩ ⟨1, 1⟩
  · simp only [if_pos he, Outcome.ok.injEq, Prod.mk.injEq] at e'
    obtain ⟨rfl, -⟩ := e'
    refine ⟨s, e, ⟨P', fun j => (P.x j).trans ?_, fun j => (P.y j).trans ?_⟩, es, ew, eh⟩
    · rw [mul_add]; linarith [H.sw.one]
    · rw [mul_add]; linarith [H.sh.one]
  · simp only [if_neg he, H.target, bind_ok, Outcome.ok.injEq, Prod.mk.injEq] at e'
    obtain ⟨rfl, -⟩ := e'
    exact ⟨_, e, ⟨P', fun j => resize_room R H.sw sw' (P.x j) t1 H.doubles.1,
      fun j => resize_room R H.sh sh' (P.y j) t2 H.doubles.2⟩, es, ew, eh⟩

/-- Whatever is done while the model is held. -/
theorem roomy_run (hr : Agrees R r) {i : Idx} {a : ℕ} {o : Spot} {s : State} {v : ℝ} {held : List HeldOp}
    (P : Roomy i a o.place v s) (ew : s.width = o.width) (eh : s.height = o.height) (hs : o.StaysHeld held)
    (hn : v + heldEdits held ≤ 65536) :
    ∃ s' rs, run r s (held.map (HeldOp.call a)) = .ok (s', rs) ∧
      run R.rnd s (held.map (HeldOp.call a)) = .ok (s', rs) ∧
      Roomy i a (o.heldAll held).place (v + heldEdits held) s' ∧ s'.settings = s.settings ∧
      s'.width = (o.heldAll held).width ∧ s'.height = (o.heldAll held).height := by
  induction held generalizing o s v with
  | nil => exact ⟨s, [], rfl, rfl, by simpa [heldEdits, Spot.heldAll] using P, rfl, ew, eh⟩
  | cons op ops ih =>
    have hr' : (o.held op).StaysHeld ops := fun n => hs (n + 1)
    have hon : (o.held op).OnScreen := by simpa [Spot.heldAll] using hr' 0
    have key : ∀ (s1 : State) (y : Res) (v1 : ℝ), exec r s (op.call a) = exec R.rnd s (op.call a) →
        exec R.rnd s (op.call a) = .ok (s1, y) → Roomy i a (o.held op).place v1 s1 →
        s1.settings = s.settings →
        s1.width = (o.held op).width → s1.height = (o.held op).height → v1 + heldEdits ops = v + heldEdits (op :: ops) →
        ∃ s' rs, run r s ((op :: ops).map (HeldOp.call a)) = .ok (s', rs) ∧
          run R.rnd s ((op :: ops).map (HeldOp.call a)) = .ok (s', rs) ∧
          Roomy i a (o.heldAll (op :: ops)).place (v + heldEdits (op :: ops)) s' ∧ s'.settings = s.settings ∧
          s'.width = (o.heldAll (op :: ops)).width ∧ s'.height = (o.heldAll (op :: ops)).height := by
      intro s1 y v1 e0 e1 r1 es w1 h1 ev
      obtain ⟨s', rs, e, e', r2, es', w2, h2⟩ := ih r1 w1 h1 hr' (by rw [ev]; exact hn)
      refine ⟨s', y :: rs, ?_, ?_, ?_, es'.trans es, w2, h2⟩
      · simp only [List.map_cons, run, e0, e1, bind_ok, e]
      · simp only [List.map_cons, run, e1, bind_ok, e']
      · rw [← ev]
        exact r2
    have one : heldEdits (op :: ops) = heldEdits ops + 1 → v + 1 ≤ 65536 := by
      intro e
      rw [e] at hn
      push_cast at hn
      have : (0 : ℝ) ≤ heldEdits ops := by positivity
      linarith
    have more : heldEdits (op :: ops) = heldEdits ops + 1 → v + 1 + heldEdits ops = v + heldEdits (op :: ops) := by
      intro e
      rw [e]
      push_cast
      ring
    have H := P.paced.held
    cases op with
    | drag d =>
      have e1 : heldEdits (.drag d :: ops) = heldEdits ops + 1 := by simp [heldEdits]
      obtain ⟨s1, e, r1, es, a1, a2⟩ := P.drag R d (one e1) hon.placeX hon.placeY
      exact key s1 _ (v + 1) (P.ag_drag hr (small_move H.ox H.oy hon.placeX hon.placeY)) e r1 es (a1.trans ew) (a2.trans eh)
        (more e1)
    | model op =>
      cases op with
      | step t =>
        obtain ⟨s1, m, e, r1, es, a1, a2, -⟩ := P.step R t
        exact key s1 _ v (P.ag_step hr t) e r1 es (a1.trans ew) (a2.trans eh) (by simp [heldEdits])
      | moveBy d =>
        have e1 : heldEdits (.model (.moveBy d) :: ops) = heldEdits ops + 1 := by simp [heldEdits]
        refine key _ _ (v + 1) ?_ rfl (P.moveBy R d (one e1) hon.placeX hon.placeY) rfl ew eh (more e1)
        simp only [HeldOp.call, exec, P.ag_moveBy hr (small_move H.ox H.oy hon.placeX hon.placeY)]
      | moveTo q =>
        have e1 : heldEdits (.model (.moveTo q) :: ops) = heldEdits ops + 1 := by simp [heldEdits]
        obtain ⟨s1, e, r1, es, a1, a2⟩ := P.moveTo hr q (one e1) hon.placeX hon.placeY
        exact key s1 _ (v + 1) (P.ag_moveTo hr hon.placeX hon.placeY) e r1 es (a1.trans ew) (a2.trans eh) (more e1)
      | resize w' h' =>
        have e1 : heldEdits (.model (.resize w' h') :: ops) = heldEdits ops + 1 := by simp [heldEdits]
        obtain ⟨s1, e, r1, es, a1, a2⟩ := P.resize R (w := w') (hh := h') (one e1) hon.widthMin hon.widthMax
          hon.widthDouble hon.heightMin hon.heightMax hon.heightDouble
        exact key s1 _ (v + 1) (P.ag_resize hr hon.widthMin hon.widthMax hon.heightMin hon.heightMax) e r1 es a1 a2 (more e1)

end

end Verif.Wobbly.Rounded
