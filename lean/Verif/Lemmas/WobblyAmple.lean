import Verif.Lemmas.WobblyAttach
import Verif.Lemmas.WobblyHaul

/-! # Nothing overflows while a model has one inserted anchor -/

namespace Verif.Wobbly.Rounded

noncomputable section

open Classical Outcome Spec

variable {R : Rounding64} {r : ℝ → ℝ} {x : Settings} {h : ℕ} {st : Spring} {o c : Pt} {v : ℝ} {s : State}

/-! ## Sizes -/

theorem Coord.screen {W o v : ℝ} {g t : Idx → ℝ} (hc : Coord W o v g t) (hg : Grid g) (hs : Sane W v) (ho : |o| ≤ 32768) (j : Idx) :
    |t j| ≤ 70000 := by
  have b := hc.bounds hg hs j
  rw [abs_le] at ho ⊢
  constructor <;> linarith

theorem Hung.targets_le (H : Hung x h st o c v s) (j : Idx) : |(s.targets j).x| ≤ 70000 ∧ |(s.targets j).y| ≤ 70000 :=
  ⟨H.tx.screen col_grid H.sw H.ox j, H.ty.screen row_grid H.sh H.oy j⟩

theorem Hung.targets_small (H : Hung x h st o c v s) (j : Idx) : Small 17 (s.targets j) := by
  obtain ⟨h1, h2⟩ := H.targets_le j
  exact ⟨by norm_num; linarith, by norm_num; linarith⟩

theorem pin_one (a b : ℝ) : pin a b 1 = b := rfl

theorem anchor_small {p : Pt} (H : Hung x h st o c v s) (px : Coord s.width o.x v (pin 0 c.x) (pin (s.targets 0).x p.x))
    (py : Coord s.height o.y v (pin 0 c.y) (pin (s.targets 0).y p.y)) : Small 17 p := by
  have a := px.screen (pinned_grid H.cx) H.sw H.ox 1
  have b := py.screen (pinned_grid H.cy) H.sh H.oy 1
  rw [pin_one] at a b
  exact ⟨by norm_num; linarith, by norm_num; linarith⟩

theorem Hung.apos_small (H : Hung x h st o c v s) (k : ℕ) : Small 17 (apos s.live k) := by
  obtain ⟨p, f, g, hl, px, py⟩ := H.live
  rw [hl]
  by_cases hk : k = h
  · subst hk
    unfold apos
    rw [anchor_found]
    exact anchor_small H px py
  · have : apos [⟨h, .ins p st f g⟩] k = 0 := by
      simp [apos, anchorData, Ne.symm hk]
    rw [this]
    simp [Small]

theorem fitted_small {W H v : ℝ} {y : Spring} (cx : 0 ≤ c.x ∧ c.x ≤ 3) (cy : 0 ≤ c.y ∧ c.y ≤ 3) (sw : Sane W v) (sh : Sane H v)
    (hy : Fitted h c W H v y) : Small 17 y.desired := by
  have key : ∀ {W x d : ℝ}, Sane W v → |x| ≤ 1 → Len W v x d → |d| ≤ 2 ^ 17 := by
    intro W x d hs hx hd
    have := hs.room
    have b := hs.big
    have hxW : |x * W| ≤ 32768 := by
      rw [abs_mul, abs_of_pos (by linarith [hs.one] : 0 < W)]
      calc _ ≤ 1 * W := mul_le_mul_of_nonneg_right hx (by linarith [hs.one])
        _ ≤ _ := by linarith
    unfold Len at hd
    rw [abs_le] at hd hxW ⊢
    norm_num
    constructor <;> linarith
  have third : ∀ {a b : ℝ}, 0 ≤ a ∧ a ≤ 3 → 0 ≤ b ∧ b ≤ 3 → |(a - b) / 3| ≤ 1 := by
    intro a b ha hb
    rw [abs_le]
    constructor <;> linarith
  have cc := fun j => (⟨col_grid.nonneg j, col_grid.le j⟩ : (0 : ℝ) ≤ (col j : ℝ) ∧ (col j : ℝ) ≤ 3)
  have rr := fun j => (⟨row_grid.nonneg j, row_grid.le j⟩ : (0 : ℝ) ≤ (row j : ℝ) ∧ (row j : ℝ) ≤ 3)
  rcases hy with ⟨a, d, -, -, lx, ly⟩ | ⟨-, j, -, lx, ly⟩
  · exact ⟨key sw (third (cc d) (cc a)) lx, key sh (third (rr d) (rr a)) ly⟩
  · exact ⟨key sw (third (cc j) cx) lx, key sh (third (rr j) cy) ly⟩

/-- A model with one inserted anchor and with room for everything. -/
structure Ample (x : Settings) (h : ℕ) (st : Spring) (o c : Pt) (v : ℝ) (s : State) : Prop where
  hung : Hung x h st o c v s
  mild : Mild x
  vel : ∀ j, Small 29 (s.vel j)
  x : ∀ j, |(s.pos j).x - (s.targets 0).x| ≤ s.width * v * 4294967296
  y : ∀ j, |(s.pos j).y - (s.targets 0).y| ≤ s.height * v * 4294967296
  degree : ∀ i, (s.springs.map (endsAt i)).sum ≤ 4
  length : s.springs.length ≤ 64

theorem Ample.small (A : Ample x h st o c v s) (j : Idx) : Small 64 (s.pos j) := by
  obtain ⟨t1, t2⟩ := A.hung.targets_le 0
  have key : ∀ {W p t : ℝ}, Sane W v → |t| ≤ 70000 → |p - t| ≤ W * v * 4294967296 → |p| ≤ 2 ^ 64 := by
    intro W p t hs ht hp
    have := hs.room
    rw [abs_le] at ht hp ⊢
    norm_num
    constructor <;> linarith
  exact ⟨key A.hung.sw t1 (A.x j), key A.hung.sh t2 (A.y j)⟩

/-! ## Steps -/

theorem within_pow {n : ℕ} {M : ℝ} (hM : 2 ^ n ≤ M) {p : Pt} (hp : Small n p) : Within M p := ⟨hp.1.trans hM, hp.2.trans hM⟩

theorem Ample.rounds (hr : Agrees R r) (A : Ample x h st o c v s) (n : ℕ) :
    Rounded.rounds r s n ⟨s.pos, s.vel⟩ = Rounded.rounds R.rnd s n ⟨s.pos, s.vel⟩ ∧
      ∃ q m, Rounded.rounds R.rnd s n ⟨s.pos, s.vel⟩ = .ok (q, m) ∧ (n = 0 → q.pos = s.pos) ∧
        (n ≠ 0 → ∀ i, Small 29 (q.pos i)) ∧ ∀ i, Small 29 (q.vel i) := by
  have H := A.hung
  have M := A.mild
  rw [← H.settings] at M
  have ha : s.active := H.count
  have p12 : (2 : ℝ) ^ 12 * 2 ^ 17 = 2 ^ 29 := by norm_num
  have ht : ∀ i, Within ((2 : ℝ) ^ 17) (s.targets i) := H.targets_small
  have hap : ∀ k, Within ((2 : ℝ) ^ 17) (apos s.live k) := H.apos_small
  have hdes : ∀ z ∈ s.springs, Within ((2 : ℝ) ^ 17) z.desired := fun z hz => fitted_small H.cx H.cy H.sw H.sh (H.fits z hz)
  have hk : 0 ≤ s.settings.springConstant := by linarith [M.k1]
  have hr3 : s.settings.maximumRange ≤ 2 ^ 17 := M.r2.trans (by norm_num)
  have hM' : (2 : ℝ) ^ 17 ≤ 2 ^ 180 := pow_le_pow_right₀ (by norm_num) (by omega)
  have hv : ∀ i, Within (2 ^ 12 * (2 : ℝ) ^ 17) (s.vel i) := fun i => by rw [p12]; exact A.vel i
  rcases n with _ | n
  · exact ⟨rfl, _, False, rfl, fun _ => rfl, fun h => absurd rfl h, A.vel⟩
  have F : Fine R.rnd (2 ^ 45 * 2 ^ 17) := (agrees_self R).fine (by norm_num) (pow_le_pow_right₀ (by norm_num) (by omega))
  obtain ⟨m', b, e1, e2⟩ := haul_constrain (R := R) (m := s.pos) M.r1 hr3 ht
  have e3 : constrain r s.settings.maximumRange s.targets s.pos = .ok (m', b) := by
    rw [ag_constrain hr (n := 64) M.r1 (M.r2.trans (by norm_num)) (fun j => (H.targets_small j).up (by omega)) A.small, e1]
  have e4 : springRound r s.env ⟨m', s.vel⟩ = springRound R.rnd s.env ⟨m', s.vel⟩ :=
    spring_agrees hr (M := 2 ^ 17) (pow_le_pow_right₀ (by norm_num) (by omega)) (e := s.env) A.length hk M.k2
      (by linarith [show (1 : ℝ) / 10 ≤ s.env.friction from M.f1]) M.f2 hdes hap (fun i => (e2 i).mono (by norm_num))
      fun i => (hv i).mono (by norm_num)
  have e5 := haul_spring (M := 2 ^ 17) (by norm_num) F (e := s.env) (q := ⟨m', s.vel⟩) A.degree hk M.k2 M.f1 M.f2 hdes hap e2 hv
  have a1 : round r s ⟨s.pos, s.vel⟩ =
      .ok ((springRound R.rnd s.env ⟨m', s.vel⟩).1, b ∨ (springRound R.rnd s.env ⟨m', s.vel⟩).2) := by
    unfold round
    rw [if_pos ha]
    dsimp only
    rw [e3, bind_ok]
    dsimp only
    rw [e4]
  have a2 : round R.rnd s ⟨s.pos, s.vel⟩ =
      .ok ((springRound R.rnd s.env ⟨m', s.vel⟩).1, b ∨ (springRound R.rnd s.env ⟨m', s.vel⟩).2) := by
    unfold round
    rw [if_pos ha]
    dsimp only
    rw [e1, bind_ok]
  obtain ⟨b1, q', m, b2, b3, b4⟩ := haul_rounds hr (M := 2 ^ 17) (by norm_num) hM' ha A.degree A.length hk M.k2 M.f1 M.f2 M.r1 M.r2
    hr3 hdes hap ht n (springRound R.rnd s.env ⟨m', s.vel⟩).1 (fun i => (e5 i).1) fun i => (e5 i).2
  simp only [Rounded.rounds, a1, a2, bind_ok, b1, b2]
  rw [p12] at b3 b4
  exact ⟨trivial, _, _, rfl, fun h => absurd h (Nat.succ_ne_zero n), fun _ => b3, b4⟩

theorem Ample.ag_step (hr : Agrees R r) (A : Ample x h st o c v s) (t : ℕ) : Rounded.step r s t = Rounded.step R.rnd s t := by
  unfold Rounded.step
  rw [(A.rounds hr _).1]

/-- Points on the screen have room. -/
theorem near_room {W v p t : ℝ} (hs : Sane W v) (hp : |p| ≤ 2 ^ 29) (ht : |t| ≤ 70000) : |p - t| ≤ W * v * 4294967296 := by
  have h1 := hs.prod
  have h2 := hs.one
  have h3 : (1 : ℝ) ≤ W * v := one_le_mul_of_one_le_of_one_le hs.one hs.first
  norm_num at hp
  rw [abs_le] at hp ht ⊢
  constructor <;> linarith

theorem Ample.step (A : Ample x h st o c v s) (t : ℕ) :
    ∃ s' more, Rounded.step R.rnd s t = .ok (s', .more more) ∧ Ample x h st o c v s' ∧ s'.width = s.width ∧
      s'.height = s.height ∧ (¬ more → t ≠ 0 → Settled x h st o c v s') := by
  obtain ⟨s', more, e, H', ew, eh, hm⟩ := A.hung.step (R := R) t
  refine ⟨s', more, e, ?_, ew, eh, hm⟩
  obtain ⟨-, q, m, e1, q0, q1, q2⟩ := A.rounds (agrees_self R) (stepCount t)
  unfold Rounded.step at e
  rw [if_neg fun hc => A.hung.sound hc.2, e1] at e
  simp only [bind_ok, Outcome.ok.injEq, Prod.mk.injEq] at e
  obtain ⟨rfl, -⟩ := e
  obtain ⟨t1, t2⟩ := A.hung.targets_le 0
  have key : ∀ (P : Prop) [Decidable P] j, |((if P then s.targets else q.pos) j).x - (s.targets 0).x| ≤ s.width * v * 4294967296 ∧
      |((if P then s.targets else q.pos) j).y - (s.targets 0).y| ≤ s.height * v * 4294967296 := by
    intro P _ j
    by_cases hP : P
    · have hj := (A.hung.targets_small j).up (by omega : 17 ≤ 29)
      rw [if_pos hP]
      exact ⟨near_room A.hung.sw hj.1 t1, near_room A.hung.sh hj.2 t2⟩
    · rw [if_neg hP]
      by_cases hn : stepCount t = 0
      · rw [q0 hn]
        exact ⟨A.x j, A.y j⟩
      · exact ⟨near_room A.hung.sw (q1 hn j).1 t1, near_room A.hung.sh (q1 hn j).2 t2⟩
  exact ⟨H', A.mild, q2, fun j => (key _ j).1, fun j => (key _ j).2, A.degree, A.length⟩

/-! ## Room -/

theorem err64 (R : Rounding64) {x : ℝ} (h : |x| ≤ 2 ^ 64) : |R.rnd x - x| ≤ 1024 := by
  have := R.error (x := x) (k := 64) (by norm_num) (by exact_mod_cast h)
  norm_num at this
  exact this

theorem shift_ample (R : Rounding64) {W v p t d : ℝ} (hs : Sane W v) (hp : |p - t| ≤ W * v * 4294967296) (ht : |t| ≤ 70000)
    (hd : |d| ≤ 2 ^ 18) : |R.rnd (p + d) - R.rnd (t + d)| ≤ W * (v + 1) * 4294967296 := by
  have := hs.room
  have w1 := hs.one
  rw [abs_le] at hp ht hd
  norm_num at hd
  have e1 := abs_le.1 (err64 R (x := p + d) (by rw [abs_le]; norm_num; constructor <;> linarith))
  have e2 := abs_le.1 (err64 R (x := t + d) (by rw [abs_le]; norm_num; constructor <;> linarith))
  rw [abs_le, mul_add]
  constructor <;> linarith

theorem leave_ample (R : Rounding64) {W v p t d : ℝ} (hs : Sane W v) (hp : |p - t| ≤ W * v * 4294967296) (ht : |t| ≤ 70000)
    (hd : |d| ≤ 2 ^ 18) : |p - R.rnd (t + d)| ≤ W * (v + 1) * 4294967296 := by
  have := hs.room
  have w1 := hs.one
  rw [abs_le] at hp ht hd
  norm_num at hd
  have e2 := abs_le.1 (err64 R (x := t + d) (by rw [abs_le]; norm_num; constructor <;> linarith))
  rw [abs_le, mul_add]
  constructor <;> linarith

theorem resize_ample (R : Rounding64) {W w v p t : ℝ} (hs : Sane W v) (hs' : Sane w v) (hp : |p - t| ≤ W * v * 4294967296)
    (ht : |t| ≤ 70000) (hd : Double t) :
    |R.rnd (R.rnd (R.rnd (p - t) * R.rnd (w / W)) + t) - R.rnd (R.rnd (R.rnd (t - t) * R.rnd (w / W)) + t)| ≤
      w * (v + 1) * 4294967296 := by
  have e0 : R.rnd (R.rnd (R.rnd (t - t) * R.rnd (w / W)) + t) = t := by
    rw [sub_self, rnd_zero, zero_mul, rnd_zero, zero_add, R.exact hd]
  rw [e0]
  have r1 := hs.room
  have r2 := hs'.room
  have W1 := hs.one
  have W2 := hs.big
  have w1 := hs'.one
  have w2 := hs'.big
  have v1 := hs.first
  have v2 := hs.calls
  obtain ⟨f0, f1, -⟩ := ratio R hs hs'
  have e1 := abs_le.1 (err64 R (x := p - t) (by norm_num; linarith))
  have hD : |R.rnd (p - t)| ≤ W * v * 4294967296 + 1024 := by
    rw [abs_le] at hp ⊢
    constructor <;> linarith
  have hm : |R.rnd (p - t) * R.rnd (w / W)| ≤ w * v * 4294967296 + 1024 * w + 33554433 := by
    rw [abs_mul, abs_of_nonneg f0]
    have q : W * (w / W) = w := mul_div_cancel₀ _ (by linarith)
    have q' : w / W ≤ w := div_le_self (by linarith) W1
    calc _ ≤ (W * v * 4294967296 + 1024) * (w / W + 1 / 274877906944) := mul_le_mul hD f1 f0 (by linarith)
      _ = W * (w / W) * v * 4294967296 + 1024 * (w / W) + (W * v * 4294967296 + 1024) / 274877906944 := by ring
      _ ≤ _ := by rw [q]; linarith
  have e2 := abs_le.1 (err64 R (x := R.rnd (p - t) * R.rnd (w / W)) (hm.trans (by norm_num; linarith)))
  rw [abs_le] at hm ht
  have e3 := abs_le.1 (err64 R (x := R.rnd (R.rnd (p - t) * R.rnd (w / W)) + t)
    (by rw [abs_le]; norm_num; constructor <;> linarith))
  rw [abs_le, mul_add]
  constructor <;> linarith

/-! ## The other calls -/

theorem Ample.ag_add (hr : Agrees R r) (A : Ample x h st o c v s) {d : Pt} (hd : Small 18 d) (j : Idx) :
    add r (s.pos j) d = add R.rnd (s.pos j) d ∧ add r (s.targets j) d = add R.rnd (s.targets j) d :=
  ⟨(Rounded.ag_add hr (A.small j) (hd.up (by omega))).1,
    (Rounded.ag_add hr ((A.hung.targets_small j).up (by omega : 17 ≤ 18)) hd).1⟩

theorem ag_shift (hr : Agrees R r) {p d : Pt} (hp : Small 17 p) (hd : Small 18 d) (f g : ℕ) :
    shift r d (.ins p st f g) = shift R.rnd d (.ins p st f g) := by
  simp only [shift, (Rounded.ag_add hr (hp.up (by omega : 17 ≤ 18)) hd).1]

theorem Ample.ag_drag (hr : Agrees R r) (A : Ample x h st o c v s) {d : Pt} (hd : Small 18 d) :
    moveAnchor r s h d = moveAnchor R.rnd s h d := by
  have a2 := fun j => (A.ag_add hr hd j).2
  obtain ⟨p, f, g, hl, px, py⟩ := A.hung.live
  have a3 := ag_shift hr (st := st) (anchor_small A.hung px py) hd f g
  unfold moveAnchor
  rw [hl]
  simp only [List.find?_cons_of_pos, decide_true, a2, List.map_cons, List.map_nil, if_true, a3]

theorem Ample.drag (R : Rounding64) (A : Ample x h st o c v s) (d : Pt) (hv : v + 1 ≤ 65536) (hx : |o.x + d.x| ≤ 32768)
    (hy : |o.y + d.y| ≤ 32768) :
    ∃ s', moveAnchor R.rnd s h d = .ok (s', .none) ∧ Ample x h st ⟨o.x + d.x, o.y + d.y⟩ c (v + 1) s' ∧
      s'.width = s.width ∧ s'.height = s.height := by
  obtain ⟨s', e, H', ew, eh, -⟩ := A.hung.drag R d hv hx hy
  have H := A.hung
  have sd := small_move H.ox H.oy hx hy
  obtain ⟨t1, t2⟩ := H.targets_le 0
  have e' := e
  obtain ⟨p, f, g, hl, px, py⟩ := H.live
  unfold moveAnchor at e'
  rw [hl] at e'
  simp only [List.find?_cons_of_pos, decide_true, if_pos (show s.active from H.count), Outcome.ok.injEq, Prod.mk.injEq] at e'
  obtain ⟨rfl, -⟩ := e'
  exact ⟨_, e, ⟨H', A.mild, A.vel, fun j => leave_ample R H.sw (A.x j) t1 sd.1, fun j => leave_ample R H.sh (A.y j) t2 sd.2,
    A.degree, A.length⟩, ew, eh⟩

theorem Ample.ag_moveBy (hr : Agrees R r) (A : Ample x h st o c v s) {d : Pt} (hd : Small 18 d) :
    Rounded.moveBy r s d = Rounded.moveBy R.rnd s d := by
  have a1 := fun j => (A.ag_add hr hd j).1
  have a2 := fun j => (A.ag_add hr hd j).2
  obtain ⟨p, f, g, hl, px, py⟩ := A.hung.live
  have a3 := ag_shift hr (st := st) (anchor_small A.hung px py) hd f g
  unfold Rounded.moveBy
  rw [hl]
  simp only [a1, a2, List.map_cons, List.map_nil, a3]

theorem Ample.shifted (R : Rounding64) (A : Ample x h st o c v s) {o' d : Pt} (hd : Small 18 d)
    (H' : Hung x h st o' c (v + 1) (Rounded.moveBy R.rnd s d)) : Ample x h st o' c (v + 1) (Rounded.moveBy R.rnd s d) := by
  have H := A.hung
  obtain ⟨t1, t2⟩ := H.targets_le 0
  exact ⟨H', A.mild, A.vel, fun j => shift_ample R H.sw (A.x j) t1 hd.1, fun j => shift_ample R H.sh (A.y j) t2 hd.2, A.degree,
    A.length⟩

theorem Ample.moveBy (R : Rounding64) (A : Ample x h st o c v s) (d : Pt) (hv : v + 1 ≤ 65536) (hx : |o.x + d.x| ≤ 32768)
    (hy : |o.y + d.y| ≤ 32768) : Ample x h st ⟨o.x + d.x, o.y + d.y⟩ c (v + 1) (Rounded.moveBy R.rnd s d) :=
  A.shifted R (small_move A.hung.ox A.hung.oy hx hy) (A.hung.moveBy R d hv hx hy)

theorem Ample.ag_moveTo (hr : Agrees R r) (A : Ample x h st o c v s) {p : Pt} (hx : |p.x| ≤ 32768) (hy : |p.y| ≤ 32768) :
    Rounded.moveTo r s p = Rounded.moveTo R.rnd s p := by
  obtain ⟨a1, a2⟩ := ag_sub hr (small_screen hx hy) (A.hung.targets_small 0)
  have et : ∀ r, targetPosition r s = .ok (s, s.targets 0) := by
    intro r
    unfold targetPosition
    rw [if_pos (show s.active from A.hung.count)]
  unfold Rounded.moveTo
  simp only [et, bind_ok, a1, A.ag_moveBy hr a2]

theorem Ample.moveTo (R : Rounding64) (A : Ample x h st o c v s) (p : Pt) (hv : v + 1 ≤ 65536) (hx : |p.x| ≤ 32768)
    (hy : |p.y| ≤ 32768) :
    ∃ s', Rounded.moveTo R.rnd s p = .ok (s', .none) ∧ Ample x h st p c (v + 1) s' ∧ s'.width = s.width ∧ s'.height = s.height := by
  obtain ⟨s', e, H', ew, eh⟩ := A.hung.moveTo R p hv hx hy
  have a2 := (ag_sub (agrees_self R) (small_screen hx hy) (A.hung.targets_small 0)).2
  have e' := e
  unfold Rounded.moveTo at e'
  rw [A.hung.target] at e'
  simp only [bind_ok, Outcome.ok.injEq, Prod.mk.injEq] at e'
  obtain ⟨rfl, -⟩ := e'
  exact ⟨_, e, A.shifted R a2 H', ew, eh⟩

theorem ag_rescale64 (hr : Agrees R r) {f c p : Pt} (hf : Small 15 f) (hc : Small 64 c) (hp : Small 64 p) :
    Free.rescale r f c p = Free.rescale R.rnd f c p := by
  obtain ⟨a1, a2⟩ := ag_sub hr hp hc
  obtain ⟨b1, b2⟩ := ag_pscale hr a2 hf
  unfold Free.rescale
  rw [a1, b1]
  exact (Rounded.ag_add hr b2 (hc.up (by omega))).1

theorem Ample.ag_resize (hr : Agrees R r) (A : Ample x h st o c v s) {w hh : ℝ} (w1 : 1 ≤ w) (w2 : w ≤ 32768) (h1 : 1 ≤ hh)
    (h2 : hh ≤ 32768) : Rounded.resize r s w hh = Rounded.resize R.rnd s w hh := by
  have H := A.hung
  obtain ⟨a1, a2⟩ := ag_ratio hr H.sw ⟨w1, w2, H.sw.first, H.sw.calls⟩
  obtain ⟨b1, b2⟩ := ag_ratio hr H.sh ⟨h1, h2, H.sw.first, H.sw.calls⟩
  have hf : Small 15 ⟨R.rnd (w / s.width), R.rnd (hh / s.height)⟩ := ⟨a2, b2⟩
  have ts : ∀ j, Small 64 (s.targets j) := fun j => (H.targets_small j).up (by omega)
  have et : ∀ r, targetPosition r s = .ok (s, s.targets 0) := by
    intro r
    unfold targetPosition
    rw [if_pos (show s.active from H.count)]
  have c1 := fun j => ag_rescale64 hr hf (ts 0) (A.small j)
  have c2 := fun j => ag_rescale64 hr hf (ts 0) (ts j)
  have c3 : s.live.map (fun b => (⟨b.hid, scaleKind r ⟨R.rnd (w / s.width), R.rnd (hh / s.height)⟩ (s.targets 0) b.kind⟩ :
      Live)) = s.live.map (fun b => (⟨b.hid, scaleKind R.rnd ⟨R.rnd (w / s.width), R.rnd (hh / s.height)⟩ (s.targets 0) b.kind⟩ :
      Live)) := by
    obtain ⟨p, f, g, hl, px, py⟩ := H.live
    rw [hl]
    simp only [List.map_cons, List.map_nil, scaleKind,
      ag_rescale64 hr hf (ts 0) ((anchor_small H px py).up (by omega : 17 ≤ 64))]
  have c4 : s.springs.map (fun x => { x with desired := pscale r x.desired ⟨R.rnd (w / s.width), R.rnd (hh / s.height)⟩ }) =
      s.springs.map (fun x => { x with desired := pscale R.rnd x.desired ⟨R.rnd (w / s.width), R.rnd (hh / s.height)⟩ }) :=
    List.map_congr_left fun y hy => by rw [(ag_pscale hr (fitted_small H.cx H.cy H.sw H.sh (H.fits y hy)) hf).1]
  unfold Rounded.resize
  simp only [et, bind_ok, a1, b1, c1, c2, c3, c4]

theorem Ample.resize (R : Rounding64) (A : Ample x h st o c v s) {w hh : ℝ} (hv : v + 1 ≤ 65536)
    (w1 : 1 ≤ w) (w2 : w ≤ 32768) (dw : Double w) (h1 : 1 ≤ hh) (h2 : hh ≤ 32768) (dh : Double hh) :
    ∃ s', Rounded.resize R.rnd s w hh = .ok (s', .none) ∧ Ample x h st o c (v + 1) s' ∧ s'.width = w ∧ s'.height = hh := by
  obtain ⟨s', e, H', ew, eh⟩ := A.hung.resize R (w := w) (hh := hh) hv w1 w2 dw h1 h2 dh
  have H := A.hung
  obtain ⟨t1, t2⟩ := H.targets_le 0
  have sw' : Sane w v := ⟨w1, w2, H.sw.first, H.sw.calls⟩
  have sh' : Sane hh v := ⟨h1, h2, H.sw.first, H.sw.calls⟩
  have e' := e
  unfold Rounded.resize at e'
  rw [if_neg (by push Not; constructor <;> linarith),
    if_neg (by push Not; constructor <;> linarith [H.sw.one, H.sh.one])] at e'
  by_cases he : Pt.equals ⟨R.rnd (w / s.width), R.rnd (hh / s.height)⟩ ⟨1, 1⟩
  · simp only [if_pos he, Outcome.ok.injEq, Prod.mk.injEq] at e'
    obtain ⟨rfl, -⟩ := e'
    refine ⟨s, e, ⟨H', A.mild, A.vel, fun j => (A.x j).trans ?_, fun j => (A.y j).trans ?_, A.degree, A.length⟩, ew, eh⟩
    · rw [mul_add]; linarith [H.sw.one]
    · rw [mul_add]; linarith [H.sh.one]
  · simp only [if_neg he, H.target, bind_ok, Outcome.ok.injEq, Prod.mk.injEq] at e'
    obtain ⟨rfl, -⟩ := e'
    refine ⟨_, e, ⟨H', A.mild, A.vel, fun j => resize_ample R H.sw sw' (A.x j) t1 (H.targets 0).1,
      fun j => resize_ample R H.sh sh' (A.y j) t2 (H.targets 0).2, fun i => ?_, ?_⟩, ew, eh⟩
    · have : (s.springs.map fun x => ({ x with
          desired := pscale R.rnd x.desired ⟨R.rnd (w / s.width), R.rnd (hh / s.height)⟩ } : Spring)).map (endsAt i) =
          s.springs.map (endsAt i) := by
        rw [List.map_map]
        rfl
      dsimp only
      rw [this]
      exact A.degree i
    · simpa using A.length

/-- Whatever is done while the anchor is there. -/
theorem ample_run (hr : Agrees R r) {a : ℕ} {o : Spot} {s : State} {v : ℝ} {held : List HeldOp}
    (A : Ample x a st o.place c v s) (ew : s.width = o.width) (eh : s.height = o.height) (hs : o.StaysHeld held)
    (hn : v + heldEdits held ≤ 65536) :
    ∃ s' rs, run r s (held.map (HeldOp.call a)) = .ok (s', rs) ∧
      run R.rnd s (held.map (HeldOp.call a)) = .ok (s', rs) ∧
      Ample x a st (o.heldAll held).place c (v + heldEdits held) s' ∧
      s'.width = (o.heldAll held).width ∧ s'.height = (o.heldAll held).height := by
  induction held generalizing o s v with
  | nil => exact ⟨s, [], rfl, rfl, by simpa [heldEdits, Spot.heldAll] using A, ew, eh⟩
  | cons op ops ih =>
    have hr' : (o.held op).StaysHeld ops := fun n => hs (n + 1)
    have hon : (o.held op).OnScreen := by simpa [Spot.heldAll] using hr' 0
    have key : ∀ (s1 : State) (y : Res) (v1 : ℝ), exec r s (op.call a) = exec R.rnd s (op.call a) →
        exec R.rnd s (op.call a) = .ok (s1, y) → Ample x a st (o.held op).place c v1 s1 →
        s1.width = (o.held op).width → s1.height = (o.held op).height → v1 + heldEdits ops = v + heldEdits (op :: ops) →
        ∃ s' rs, run r s ((op :: ops).map (HeldOp.call a)) = .ok (s', rs) ∧
          run R.rnd s ((op :: ops).map (HeldOp.call a)) = .ok (s', rs) ∧
          Ample x a st (o.heldAll (op :: ops)).place c (v + heldEdits (op :: ops)) s' ∧
          s'.width = (o.heldAll (op :: ops)).width ∧ s'.height = (o.heldAll (op :: ops)).height := by
      intro s1 y v1 e0 e1 r1 w1 h1 ev
      obtain ⟨s', rs, e, e', r2, w2, h2⟩ := ih r1 w1 h1 hr' (by rw [ev]; exact hn)
      refine ⟨s', y :: rs, ?_, ?_, ?_, w2, h2⟩
      · simp only [List.map_cons, run, e0, e1, bind_ok, e]
      · simp only [List.map_cons, run, e1, bind_ok, e']
      · rw [← ev]
        exact r2
    have one : heldEdits (op :: ops) = heldEdits ops + 1 → v + 1 ≤ 65536 := by
      intro e
      rw [e] at hn
      push_cast at hn
      have : (0 : ℝ) ≤ heldEdits ops := by positivity
      linarith
    have more : heldEdits (op :: ops) = heldEdits ops + 1 → v + 1 + heldEdits ops = v + heldEdits (op :: ops) := by
      intro e
      rw [e]
      push_cast
      ring
    have H := A.hung
    cases op with
    | drag d =>
      have e1 : heldEdits (.drag d :: ops) = heldEdits ops + 1 := by simp [heldEdits]
      obtain ⟨s1, e, r1, a1, a2⟩ := A.drag R d (one e1) hon.placeX hon.placeY
      exact key s1 _ (v + 1) (A.ag_drag hr (small_move H.ox H.oy hon.placeX hon.placeY)) e r1 (a1.trans ew) (a2.trans eh)
        (more e1)
    | model op =>
      cases op with
      | step t =>
        obtain ⟨s1, m, e, r1, a1, a2, -⟩ := A.step (R := R) t
        exact key s1 _ v (A.ag_step hr t) e r1 (a1.trans ew) (a2.trans eh) (by simp [heldEdits])
      | moveBy d =>
        have e1 : heldEdits (.model (.moveBy d) :: ops) = heldEdits ops + 1 := by simp [heldEdits]
        refine key _ _ (v + 1) ?_ rfl (A.moveBy R d (one e1) hon.placeX hon.placeY) ew eh (more e1)
        simp only [HeldOp.call, exec, A.ag_moveBy hr (small_move H.ox H.oy hon.placeX hon.placeY)]
      | moveTo q =>
        have e1 : heldEdits (.model (.moveTo q) :: ops) = heldEdits ops + 1 := by simp [heldEdits]
        obtain ⟨s1, e, r1, a1, a2⟩ := A.moveTo R q (one e1) hon.placeX hon.placeY
        exact key s1 _ (v + 1) (A.ag_moveTo hr hon.placeX hon.placeY) e r1 (a1.trans ew) (a2.trans eh) (more e1)
      | resize w' h' =>
        have e1 : heldEdits (.model (.resize w' h') :: ops) = heldEdits ops + 1 := by simp [heldEdits]
        obtain ⟨s1, e, r1, a1, a2⟩ := A.resize R (w := w') (hh := h') (one e1) hon.widthMin hon.widthMax
          hon.widthDouble hon.heightMin hon.heightMax hon.heightDouble
        exact key s1 _ (v + 1) (A.ag_resize hr hon.widthMin hon.widthMax hon.heightMin hon.heightMax) e r1 a1 a2 (more e1)

/-! ## Insertion into a resting model -/

theorem degree_filter (f : Spring → ℕ) (P : Spring → Bool) (l : List Spring) {y : Spring} (hy : y ∈ l) (hP : P y = false) :
    ((l.filter P).map f).sum + f y ≤ (l.map f).sum := by
  induction l with
  | nil => cases hy
  | cons z l ih =>
    have le : ((l.filter P).map f).sum ≤ (l.map f).sum := by
      clear ih hy
      induction l with
      | nil => simp
      | cons z l ih =>
        by_cases hz : P z
        · simp only [List.filter_cons, hz, if_true, List.map_cons, List.sum_cons]
          omega
        · simp only [List.filter_cons, hz, if_false, List.map_cons, List.sum_cons, Bool.false_eq_true]
          omega
    rcases List.mem_cons.1 hy with rfl | hy
    · simp only [List.filter_cons, hP, if_false, List.map_cons, List.sum_cons, Bool.false_eq_true]
      omega
    · have := ih hy
      by_cases hz : P z
      · simp only [List.filter_cons, hz, if_true, List.map_cons, List.sum_cons]
        omega
      · simp only [List.filter_cons, hz, if_false, List.map_cons, List.sum_cons, Bool.false_eq_true]
        omega

theorem install_degree {l : List Spring} {f : Spring} (hf : f ∈ l) (n m k : ℕ) (p q : Pt) (i : Idx) :
    ((removeId l f.id ++ ([⟨n, .anchor k, f.a, p⟩, ⟨m, .anchor k, f.b, q⟩] : List Spring)).map (endsAt i)).sum ≤ (l.map (endsAt i)).sum := by
  have h := degree_filter (endsAt i) (fun s => decide (s.id ≠ f.id)) l hf (by simp)
  have e : endsAt i f = endsAt i ⟨n, .anchor k, f.a, p⟩ + endsAt i ⟨m, .anchor k, f.b, q⟩ := by simp [endsAt]
  rw [List.map_append, List.sum_append]
  simp only [List.map_cons, List.map_nil, List.sum_cons, List.sum_nil, add_zero]
  rw [← e]
  exact h

theorem ag_find (hr : Agrees R r) {at_ : Node → Pt} {p : Pt} (ha : ∀ n, Small 17 (at_ n)) (hp : Small 17 p) (l : List Spring) :
    findSpringToSplit r at_ p l = findSpringToSplit R.rnd at_ p l := by
  have D : ∀ n, distance r (at_ n) p = distance R.rnd (at_ n) p := fun n => (ag_distance hr (ha n) hp).1
  have : splitStep r at_ p = splitStep R.rnd at_ p := by
    funext acc y
    unfold splitStep
    simp only [D]
  unfold findSpringToSplit
  rw [this]

theorem covers_small {z : Spot} {q : Pt} (hz : z.OnScreen) (hq : z.Covers q) : Small 17 q := by
  obtain ⟨⟨q1, q2⟩, q3, q4⟩ := hq
  have a := abs_le.1 hz.placeX
  have b := abs_le.1 hz.placeY
  have w1 := hz.widthMax
  have w2 := hz.heightMax
  refine ⟨?_, ?_⟩ <;> rw [abs_le] <;> norm_num <;> constructor <;> linarith

theorem insert_ample (hr : Agrees R r) {z : Spot} {q : Pt} {st : Spring} {s' : State} (hn : NoAnchor s) (H : Resting z.place v (part s))
    (hz : z.OnScreen) (hq : z.Covers q) (M : Mild s.settings) (hj : Joined s.springs)
    (e : Rounded.insert R.rnd s q = .ok (s', .handle s.nextHid)) (K : Hung s.settings s.nextHid st z.place c v s') :
    Rounded.insert r s q = .ok (s', .handle s.nextHid) ∧ Ample s.settings s.nextHid st z.place c v s' := by
  have ps : ∀ j, Small 17 (s.pos j) := fun j => H.small (f := part s) j
  have sq := covers_small hz hq
  set T := positionArray R.rnd (s.pos 0) (tile R.rnd s) with hT
  set s1 : State := { s with unequal := True, count := s.count + 1, lastId := s.lastId + springCount, targets := T } with hs1
  have act : activate R.rnd { s with unequal := True } = .ok s1 := activate_resting R hn H
  have act' : activate r { s with unequal := True } = .ok s1 := (ag_activate hr hn H M).trans act
  have e' := e
  unfold Rounded.insert at e'
  rw [act, bind_ok, bind_eq_ok] at e'
  obtain ⟨s2, e2, e3⟩ := e'
  obtain ⟨rfl, -⟩ := Prod.mk.inj (Outcome.ok.inj e3)
  have hat : ∀ n, Small 17 (s1.env.at_ s1.pos n) := by
    intro n
    cases n with
    | mesh i => exact ps i
    | anchor k =>
      show Small 17 (apos s.live k)
      rw [hn.live]
      simp [apos, anchorData, Small]
  have hfind := ag_find hr hat sq s1.springs
  have e2' := e2
  unfold insertSprings at e2
  have hd : ¬ dangling s1.springs s1.live := by
    intro hd
    rw [if_pos hd] at e2
    cases e2
  rw [if_neg hd] at e2
  cases hF : findSpringToSplit R.rnd (s1.env.at_ s1.pos) q s1.springs with
  | none =>
    rw [hF] at e2
    cases e2
  | some f =>
    rw [hF] at e2
    simp only [bind_eq_ok] at e2
    obtain ⟨d1, p1, d2, p2, e4⟩ := e2
    have hm : f ∈ s.springs := found_mem _ _ _ _ hF
    obtain ⟨⟨i, ha⟩, j, hb⟩ := hn.ends f hm
    have pref : ∀ {i d}, s1.preferred (s1.env.at_ s1.pos (.mesh i)) = .ok d → Small 17 d := by
      intro i d hd
      unfold State.preferred at hd
      rw [if_pos (by show s.count + 1 = 1; rw [hn.count])] at hd
      obtain ⟨i', -, ei⟩ := lookup_mesh s.pos T i
      have hd' : lookupTarget s.pos T (s.pos i) = .ok d := hd
      rw [ei] at hd'
      obtain rfl := Outcome.ok.inj hd'
      have := K.targets_small i'
      rw [← Outcome.ok.inj e4] at this
      exact this
    have g1 : Small 17 d1 := by
      rw [ha] at p1
      exact pref p1
    have g2 : Small 17 d2 := by
      rw [hb] at p2
      exact pref p2
    have hi : install r s1 q f d1 d2 = install R.rnd s1 q f d1 d2 := by
      unfold install
      rw [(ag_sub hr g1 sq).1, (ag_sub hr g2 sq).1]
    have ins : insertSprings r s1 q = .ok s2 := by
      unfold insertSprings
      rw [if_neg hd, hfind, hF]
      simp only [p1, p2, bind_ok, hi]
      exact e4
    have es := Outcome.ok.inj e4
    have t0 := K.targets_le 0
    refine ⟨?_, K, M, fun k => ?_, fun k => ?_, fun k => ?_, fun k => ?_, ?_⟩
    · unfold Rounded.insert
      rw [act', bind_ok, ins, bind_ok]
    · have : s2.vel k = 0 := by
        rw [← es]
        exact H.vel k
      rw [this]
      simp [Small]
    · have : s2.pos k = s.pos k := by rw [← es]; rfl
      rw [this]
      exact near_room K.sw ((ps k).up (by omega : 17 ≤ 29)).1 t0.1
    · have : s2.pos k = s.pos k := by rw [← es]; rfl
      rw [this]
      exact near_room K.sh ((ps k).up (by omega : 17 ≤ 29)).2 t0.2
    · rw [← es]
      exact (install_degree hm _ _ _ _ _ k).trans (joined_degree hj k)
    · rw [← es]
      show (removeId s.springs f.id ++ [_, _]).length ≤ 64
      have h1 : (removeId s.springs f.id).length ≤ s.springs.length := List.length_filter_le _ _
      have h2 := hj.length
      rw [List.length_append]
      simp only [List.length_cons, List.length_nil]
      omega

end

end Verif.Wobbly.Rounded
