import Verif.Lemmas.WobblyRounded
import Verif.Lemmas.WobblyDoubleRest
import Verif.Lemmas.WobblyDemo
import Verif.Spec.Drag

/-! # Dragging a model in double precision -/

namespace Verif.Wobbly.Rounded

noncomputable section

open Classical Outcome Spec

variable (R : Rounding64)

/-! ## Distances -/

theorem rnd_le {x y : ℝ} (h : x ≤ y) (hy : Double y) : R.rnd x ≤ y := by
  have := R.mono h
  rwa [R.exact hy] at this

theorem le_rnd {x y : ℝ} (h : x ≤ y) (hx : Double x) : x ≤ R.rnd y := by
  have := R.mono h
  rwa [R.exact hx] at this

theorem double_neg {x : ℝ} (h : Double x) : Double (-x) := by
  obtain ⟨m, e, hm, he, rfl⟩ := h
  exact ⟨-m, e, by rwa [abs_neg], he, by push_cast; ring⟩

theorem rnd_abs {x y : ℝ} (h : |x| ≤ y) (hy : Double y) : |R.rnd x| ≤ y := by
  obtain ⟨h1, h2⟩ := abs_le.1 h
  exact abs_le.2 ⟨le_rnd R h1 (double_neg hy), rnd_le R h2 hy⟩

/-- A computed distance of two points that are at most `a` apart in each coordinate. -/
theorem distance_le {p q : Pt} {a b : ℝ} (ha : 0 ≤ a) (hb : 0 ≤ b) (da : Double a) (daa : Double (a * a))
    (daa2 : Double (a * a + a * a)) (db : Double b) (hab : a * a + a * a ≤ b * b)
    (hx : |p.x - q.x| ≤ a) (hy : |p.y - q.y| ≤ a) : distance R.rnd p q ≤ b := by
  unfold distance
  have h1 := rnd_abs R hx da
  have h2 := rnd_abs R hy da
  have key : ∀ c : ℝ, |c| ≤ a → R.rnd (c * c) ≤ a * a := fun c hc =>
    rnd_le R (by rw [← abs_mul_abs_self c]; exact mul_le_mul hc hc (abs_nonneg _) ha) daa
  have h3 : R.rnd (0 + R.rnd (R.rnd (p.y - q.y) * R.rnd (p.y - q.y))) ≤ a * a := by
    rw [zero_add]
    exact rnd_le R (key _ h2) daa
  refine rnd_le R (Real.sqrt_le_iff.2 ⟨hb, ?_⟩) db
  rw [sq]
  exact (rnd_le R (add_le_add h3 (key _ h1)) daa2).trans hab

theorem near_distance {p q : Pt} (hx : |p.x - q.x| ≤ 1 / 2) (hy : |p.y - q.y| ≤ 1 / 2) : distance R.rnd p q < 1 := by
  have := distance_le R (p := p) (q := q) (a := 1 / 2) (b := 3 / 4) (by norm_num) (by norm_num)
    ⟨1, -1, by norm_num, by norm_num, by norm_num⟩ ⟨1, -2, by norm_num, by norm_num, by norm_num⟩
    ⟨1, -1, by norm_num, by norm_num, by norm_num⟩ ⟨3, -2, by norm_num, by norm_num, by norm_num⟩ (by norm_num) hx hy
  linarith

theorem screen_distance {p q : Pt} (hx : |p.x - q.x| ≤ 262144) (hy : |p.y - q.y| ≤ 262144) :
    distance R.rnd p q < dblMax := by
  have := distance_le R (p := p) (q := q) (a := 262144) (b := 524288) (by norm_num) (by norm_num)
    ⟨1, 18, by norm_num, by norm_num, by norm_num⟩ ⟨1, 36, by norm_num, by norm_num, by norm_num⟩
    ⟨1, 37, by norm_num, by norm_num, by norm_num⟩ ⟨1, 19, by norm_num, by norm_num, by norm_num⟩ (by norm_num) hx hy
  have := dblMax_big
  linarith

theorem sqrt_close {a b e : ℝ} (ha : 0 ≤ a) (he : 0 ≤ e) (h1 : a ≤ b + e * e) : Real.sqrt a ≤ Real.sqrt b + e := by
  refine Real.sqrt_le_iff.2 ⟨by positivity, ?_⟩
  rcases le_or_gt 0 b with hb | hb
  · have := Real.sq_sqrt hb
    have := mul_nonneg (Real.sqrt_nonneg b) he
    nlinarith
  · rw [Real.sqrt_eq_zero_of_nonpos hb.le]
    nlinarith

theorem square_err {c : ℝ} (hc : |c| ≤ 262144) : |R.rnd (R.rnd c * R.rnd c) - c * c| ≤ 3 / 262144 ∧
    |R.rnd (R.rnd c * R.rnd c)| ≤ 68719476736 := by
  have h1 : |R.rnd c| ≤ 262144 := rnd_abs R hc ⟨1, 18, by norm_num, by norm_num, by norm_num⟩
  have h2 : |R.rnd c * R.rnd c| ≤ 68719476736 := by
    rw [abs_mul]
    calc _ ≤ (262144 : ℝ) * 262144 := mul_le_mul h1 h1 (abs_nonneg _) (by norm_num)
      _ = _ := by norm_num
  have e1 := R.error (x := c) (k := 18) (by norm_num) (hc.trans (by norm_num))
  have e2 := R.error (x := R.rnd c * R.rnd c) (k := 36) (by norm_num) (h2.trans (by norm_num))
  have e3 : |R.rnd c * R.rnd c - c * c| ≤ 1 / 68719476736 * 524288 := by
    rw [show R.rnd c * R.rnd c - c * c = (R.rnd c - c) * (R.rnd c + c) by ring, abs_mul]
    refine mul_le_mul (e1.trans (by norm_num)) ((abs_add_le _ _).trans (by linarith)) (abs_nonneg _) (by norm_num)
  refine ⟨?_, rnd_abs R h2 ⟨1, 36, by norm_num, by norm_num, by norm_num⟩⟩
  rw [abs_le] at e2 e3 ⊢
  norm_num at e2 e3 ⊢
  constructor <;> linarith

/-- A computed distance is close to the distance. -/
theorem distance_err {p q : Pt} (hx : |p.x - q.x| ≤ 262144) (hy : |p.y - q.y| ≤ 262144) :
    |distance R.rnd p q - euclid p q| ≤ 1 / 64 := by
  obtain ⟨x1, x2⟩ := square_err R hx
  obtain ⟨y1, y2⟩ := square_err R hy
  have ez : R.rnd (0 + R.rnd (R.rnd (p.y - q.y) * R.rnd (p.y - q.y))) = R.rnd (R.rnd (p.y - q.y) * R.rnd (p.y - q.y)) := by
    rw [zero_add, R.exact (R.double _)]
  unfold distance euclid
  rw [ez]
  have px : 0 ≤ R.rnd (R.rnd (p.x - q.x) * R.rnd (p.x - q.x)) := R.nonneg (mul_self_nonneg _)
  have py : 0 ≤ R.rnd (R.rnd (p.y - q.y) * R.rnd (p.y - q.y)) := R.nonneg (mul_self_nonneg _)
  generalize R.rnd (R.rnd (p.x - q.x) * R.rnd (p.x - q.x)) = X at *
  generalize R.rnd (R.rnd (p.y - q.y) * R.rnd (p.y - q.y)) = Y at *
  rw [abs_of_nonneg px] at x2
  rw [abs_of_nonneg py] at y2
  have e1 := R.error (x := Y + X) (k := 37) (by norm_num) (by rw [abs_of_nonneg (by linarith)]; norm_num; linarith)
  have p3 : 0 ≤ R.rnd (Y + X) := R.nonneg (by linarith)
  have s3 : R.rnd (Y + X) ≤ 137438953472 := rnd_le R (by linarith) ⟨1, 37, by norm_num, by norm_num, by norm_num⟩
  generalize R.rnd (Y + X) = S at *
  have t1 : Real.sqrt S ≤ 524288 := Real.sqrt_le_iff.2 ⟨by norm_num, by linarith⟩
  have e2 := R.error (x := Real.sqrt S) (k := 19) (by norm_num)
    (by rw [abs_of_nonneg (Real.sqrt_nonneg _)]; norm_num; linarith)
  have u1 := sqrt_close (a := S) (b := (p.x - q.x) ^ 2 + (p.y - q.y) ^ 2) (e := 1 / 128) p3 (by norm_num) (by
    rw [abs_le] at e1 x1 y1
    norm_num at e1 ⊢
    nlinarith)
  have u2 := sqrt_close (a := (p.x - q.x) ^ 2 + (p.y - q.y) ^ 2) (b := S) (e := 1 / 128) (by positivity) (by norm_num) (by
    rw [abs_le] at e1 x1 y1
    norm_num at e1 ⊢
    nlinarith)
  rw [abs_le] at e2 ⊢
  norm_num at e2
  constructor <;> linarith

theorem euclid_shift {p q q' : Pt} {t : ℝ} (ht : 0 ≤ t) (h : Near t q q') : euclid p q ≤ euclid p q' + 3 / 2 * t := by
  obtain ⟨h1, h2⟩ := h
  have hq : euclid q q' ≤ 3 / 2 * t := by
    unfold euclid
    refine Real.sqrt_le_iff.2 ⟨by positivity, ?_⟩
    have a := sq_le_sq' (abs_le.1 h1).1 (abs_le.1 h1).2
    have b := sq_le_sq' (abs_le.1 h2).1 (abs_le.1 h2).2
    nlinarith
  have tri : euclid p q ≤ euclid p q' + euclid q q' := by
    unfold euclid at *
    set a := p.x - q'.x
    set b := p.y - q'.y
    set c := q.x - q'.x
    set d := q.y - q'.y
    have e1 : p.x - q.x = a - c := by simp only [a, c]; ring
    have e2 : p.y - q.y = b - d := by simp only [b, d]; ring
    rw [e1, e2]
    refine Real.sqrt_le_iff.2 ⟨by positivity, ?_⟩
    have s1 := Real.sq_sqrt (show 0 ≤ a ^ 2 + b ^ 2 by positivity)
    have s2 := Real.sq_sqrt (show 0 ≤ c ^ 2 + d ^ 2 by positivity)
    have cs : -(a * c + b * d) ≤ Real.sqrt (a ^ 2 + b ^ 2) * Real.sqrt (c ^ 2 + d ^ 2) := by
      rw [← Real.sqrt_mul (by positivity)]
      refine Real.le_sqrt_of_sq_le ?_
      nlinarith [sq_nonneg (a * d - b * c)]
    nlinarith
  linarith

/-! ## The nearest point -/

theorem closest_fold (m : Mesh) (p : Pt) (l : List Idx) :
    (l.foldl (closestStep R.rnd m p) (none, dblMax) = (none, dblMax) ∧ ∀ j ∈ l, dblMax ≤ distance R.rnd p (m j)) ∨
    ∃ i, l.foldl (closestStep R.rnd m p) (none, dblMax) = (some i, distance R.rnd p (m i)) ∧
      distance R.rnd p (m i) < dblMax ∧ ∀ j ∈ l, distance R.rnd p (m i) ≤ distance R.rnd p (m j) := by
  induction l using List.reverseRecOn with
  | nil => left; simp
  | append_singleton l a ih =>
    rw [List.foldl_append]
    rcases ih with ⟨h1, h2⟩ | ⟨i, h1, h2, h3⟩
    · rw [h1]
      by_cases ha : distance R.rnd p (m a) < dblMax
      · right
        refine ⟨a, by simp [closestStep, ha], ha, ?_⟩
        intro j hj
        rcases List.mem_append.1 hj with hj | hj
        · exact ha.le.trans (h2 j hj)
        · simp only [List.mem_singleton] at hj
          subst hj
          exact le_refl _
      · left
        refine ⟨by simp [closestStep, ha], ?_⟩
        intro j hj
        rcases List.mem_append.1 hj with hj | hj
        · exact h2 j hj
        · simp only [List.mem_singleton] at hj
          subst hj
          exact not_lt.1 ha
    · right
      rw [h1]
      by_cases ha : distance R.rnd p (m a) < distance R.rnd p (m i)
      · refine ⟨a, by simp [closestStep, ha], ha.trans h2, ?_⟩
        intro j hj
        rcases List.mem_append.1 hj with hj | hj
        · exact ha.le.trans (h3 j hj)
        · simp only [List.mem_singleton] at hj
          subst hj
          exact le_refl _
      · refine ⟨i, by simp [closestStep, ha], h2, ?_⟩
        intro j hj
        rcases List.mem_append.1 hj with hj | hj
        · exact h3 j hj
        · simp only [List.mem_singleton] at hj
          subst hj
          exact not_lt.1 ha

theorem closest_some {m : Mesh} {p : Pt} (h : distance R.rnd p (m 0) < dblMax) :
    ∃ i, closestIndex R.rnd m p = some i ∧ ∀ j, distance R.rnd p (m i) ≤ distance R.rnd p (m j) := by
  rcases closest_fold R m p (List.finRange 16) with ⟨-, h2⟩ | ⟨i, h1, -, h3⟩
  · exact absurd h (not_lt.2 (h2 0 (by simp)))
  · exact ⟨i, by unfold closestIndex; rw [h1], fun j => h3 j (by simp)⟩

/-! ## One point beside the lattice -/

/-- The first point and one other. -/
def pin (a b : ℝ) : Idx → ℝ := fun j => if j = 0 then a else b

theorem pin_map (f : ℝ → ℝ) (a b : ℝ) : (fun j => f (pin a b j)) = pin (f a) (f b) := by
  funext j
  unfold pin
  split_ifs <;> rfl

theorem pin_zero (a b : ℝ) : pin a b 0 = a := if_pos rfl

theorem pin_grid {g : Idx → ℝ} (hg : Grid g) (i : Idx) : Grid (pin 0 (g i)) where
  zero := pin_zero _ _
  nonneg j := by
    unfold pin
    split_ifs
    · exact le_rfl
    · exact hg.nonneg i
  le j := by
    unfold pin
    split_ifs
    · norm_num
    · exact hg.le i

theorem Coord.pin {W o v : ℝ} {g u : Idx → ℝ} (h : Coord W o v g u) (hs : Sane W v) (i : Idx) :
    Coord W o v (pin 0 (g i)) (pin (u 0) (u i)) := by
  refine ⟨fun j => ?_, by rw [pin_zero]; exact h.origin⟩
  rw [pin_zero]
  unfold Rounded.pin
  split_ifs
  · have := hs.prod
    have := hs.one
    rw [sub_self, zero_mul, sub_zero, abs_zero]
    exact div_nonneg (by linarith) (by norm_num)
  · exact h.near i

theorem Coord.pinned {W o v a b : ℝ} {g : Idx → ℝ} {i : Idx} (h : Coord W o v (Rounded.pin 0 (g i)) (Rounded.pin a b)) :
    |b - a - g i * (W / 3)| ≤ W * v / 17179869184 := by
  have := h.near 1
  rw [pin_zero] at this
  unfold Rounded.pin at this
  rwa [if_neg (by decide), if_neg (by decide)] at this

/-! ## A model held at one point -/

/-- A model held at point `i` by anchor `h`: its targets are close to the lattice at `o`, and so is point `i`. -/
structure Held (i : Idx) (h : ℕ) (o : Pt) (v : ℝ) (s : State) : Prop where
  ox : |o.x| ≤ 32768
  oy : |o.y| ≤ 32768
  sw : Sane s.width v
  sh : Sane s.height v
  dw : Double s.width
  dh : Double s.height
  tx : Coord s.width o.x v (fun i => (col i : ℝ)) fun i => (s.targets i).x
  ty : Coord s.height o.y v (fun i => (row i : ℝ)) fun i => (s.targets i).y
  px : Coord s.width o.x v (pin 0 (col i : ℝ)) (pin (s.targets 0).x (s.pos i).x)
  py : Coord s.height o.y v (pin 0 (row i : ℝ)) (pin (s.targets 0).y (s.pos i).y)
  doubles : Double (s.targets 0).x ∧ Double (s.targets 0).y
  count : s.count = 1
  locked : s.locks i > 0
  live : s.live = [⟨h, .grab i⟩]
  ends : ∀ y ∈ s.springs, (∃ i, y.a = .mesh i) ∧ ∃ j, y.b = .mesh j
  range : 1 ≤ s.settings.maximumRange

variable {R} {i : Idx} {h : ℕ} {o : Pt} {v : ℝ} {s : State}

theorem Held.sound (H : Held i h o v s) : ¬ dangling s.springs s.live := by
  rintro ⟨y, hy, hn⟩
  obtain ⟨⟨i, hi⟩, j, hj⟩ := H.ends y hy
  rw [hi, hj] at hn
  exact hn ⟨trivial, trivial⟩

theorem pair_close {W v a b t c g : ℝ} (hs : Sane W v) (h1 : |b - a - g * (W / 3)| ≤ W * v / 17179869184)
    (h2 : |t - a - g * (W / 3)| ≤ W * v / 17179869184) (hc : c = t - b) : |c| ≤ 1 / 2 := by
  have := hs.prod
  rw [abs_le] at h1 h2 ⊢
  rw [hc]
  constructor <;> linarith

theorem Held.near (H : Held i h o v s) : distance R.rnd (s.targets i) (s.pos i) < s.settings.maximumRange :=
  lt_of_lt_of_le (near_distance R (pair_close H.sw (Coord.pinned (g := fun i => (col i : ℝ)) (i := i) H.px) (H.tx.near i) rfl)
    (pair_close H.sh (Coord.pinned (g := fun i => (row i : ℝ)) (i := i) H.py) (H.ty.near i) rfl)) H.range

theorem constrain_keep {x : ℝ} {t m : Mesh} (hx : 0 < x) (hi : distance R.rnd (t i) (m i) < x) :
    ∃ m' b, constrain R.rnd x t m = .ok (m', b) ∧ m' i = m i := by
  unfold constrain
  rw [if_neg (by
    rintro ⟨j, h1, h2⟩
    rw [h2] at h1
    exact h1 hx)]
  exact ⟨_, _, rfl, if_pos hi⟩

theorem Held.round (H : Held i h o v s) {q : Phys} (hq : q.pos i = s.pos i) :
    ∃ q' b, round R.rnd s q = .ok (q', b) ∧ q'.pos i = s.pos i := by
  unfold Rounded.round
  rw [if_pos (show s.active from H.count)]
  obtain ⟨m', b, e, hm⟩ := constrain_keep (R := R) (i := i) (x := s.settings.maximumRange) (t := s.targets) (m := q.pos)
    (by linarith [H.range]) (by rw [hq]; exact H.near)
  rw [e]
  refine ⟨_, _, rfl, ?_⟩
  exact (if_pos H.locked).trans (hm.trans hq)

theorem Held.rounds (H : Held i h o v s) (n : ℕ) {q : Phys} (hq : q.pos i = s.pos i) :
    ∃ q' b, rounds R.rnd s n q = .ok (q', b) ∧ q'.pos i = s.pos i := by
  induction n generalizing q with
  | zero => exact ⟨q, _, rfl, hq⟩
  | succ n ih =>
    obtain ⟨q1, b1, e1, h1⟩ := H.round (R := R) hq
    obtain ⟨q2, b2, e2, h2⟩ := ih h1
    simp only [Rounded.rounds, e1, e2, bind_ok]
    exact ⟨_, _, rfl, h2⟩

/-- `Step` returns and keeps the model held; when it answers false the mesh is on the targets. -/
theorem Held.step (H : Held i h o v s) (t : ℕ) :
    ∃ s' more, step R.rnd s t = .ok (s', .more more) ∧ Held i h o v s' ∧ s'.width = s.width ∧ s'.height = s.height ∧
      s'.targets = s.targets ∧ (¬ more → s'.pos = s.targets) := by
  obtain ⟨q, b, e, hq⟩ := H.rounds (R := R) (stepCount t) (q := ⟨s.pos, s.vel⟩) rfl
  unfold Rounded.step
  rw [if_neg fun hc => H.sound hc.2, e]
  refine ⟨_, _, rfl, ?_, rfl, rfl, rfl, fun hm => if_pos ⟨hm, H.count⟩⟩
  have key : ∀ m : Mesh, m = s.targets ∨ m i = s.pos i →
      Coord s.width o.x v (pin 0 (col i : ℝ)) (pin (s.targets 0).x (m i).x) ∧
      Coord s.height o.y v (pin 0 (row i : ℝ)) (pin (s.targets 0).y (m i).y) := by
    rintro m (rfl | hm)
    · exact ⟨H.tx.pin H.sw i, H.ty.pin H.sh i⟩
    · rw [hm]
      exact ⟨H.px, H.py⟩
  have := key (if ¬ ((if t ≠ 0 then False else s.unequal) ∨ b) ∧ s.active then s.targets else q.pos) (by
    by_cases hc : ¬ ((if t ≠ 0 then False else s.unequal) ∨ b) ∧ s.active
    · rw [if_pos hc]
      exact Or.inl rfl
    · rw [if_neg hc]
      exact Or.inr hq)
  exact { H with px := this.1, py := this.2 }

variable (R)

theorem Held.drag (H : Held i h o v s) (d : Pt) (hv : v + 1 ≤ 65536) (hx : |o.x + d.x| ≤ 32768) (hy : |o.y + d.y| ≤ 32768) :
    ∃ s', moveAnchor R.rnd s h d = .ok (s', .none) ∧ Held i h ⟨o.x + d.x, o.y + d.y⟩ (v + 1) s' ∧
      s'.width = s.width ∧ s'.height = s.height := by
  unfold moveAnchor
  rw [H.live]
  simp only [List.find?_cons_of_pos, decide_true, if_pos (show s.active from H.count)]
  refine ⟨_, rfl, ?_, rfl, rfl⟩
  have px := coord_move R H.px (pin_grid col_grid i) H.sw hx
  have py := coord_move R H.py (pin_grid row_grid i) H.sh hy
  rw [pin_map fun z => R.rnd (z + d.x)] at px
  rw [pin_map fun z => R.rnd (z + d.y)] at py
  exact {
    ox := hx
    oy := hy
    sw := sane_next H.sw hv
    sh := sane_next H.sh hv
    dw := H.dw
    dh := H.dh
    tx := coord_move R H.tx col_grid H.sw hx
    ty := coord_move R H.ty row_grid H.sh hy
    px := by simpa [add] using px
    py := by simpa [add] using py
    doubles := ⟨R.double _, R.double _⟩
    count := H.count
    locked := H.locked
    live := rfl
    ends := H.ends
    range := H.range }

theorem Held.moveBy (H : Held i h o v s) (d : Pt) (hv : v + 1 ≤ 65536) (hx : |o.x + d.x| ≤ 32768) (hy : |o.y + d.y| ≤ 32768) :
    Held i h ⟨o.x + d.x, o.y + d.y⟩ (v + 1) (moveBy R.rnd s d) := by
  have px := coord_move R H.px (pin_grid col_grid i) H.sw hx
  have py := coord_move R H.py (pin_grid row_grid i) H.sh hy
  rw [pin_map fun z => R.rnd (z + d.x)] at px
  rw [pin_map fun z => R.rnd (z + d.y)] at py
  exact {
    ox := hx
    oy := hy
    sw := sane_next H.sw hv
    sh := sane_next H.sh hv
    dw := H.dw
    dh := H.dh
    tx := coord_move R H.tx col_grid H.sw hx
    ty := coord_move R H.ty row_grid H.sh hy
    px := px
    py := py
    doubles := ⟨R.double _, R.double _⟩
    count := H.count
    locked := H.locked
    live := by simp [Rounded.moveBy, H.live, shift]
    ends := H.ends
    range := H.range }

theorem Held.target (H : Held i h o v s) : targetPosition R.rnd s = .ok (s, s.targets 0) := by
  unfold targetPosition
  rw [if_pos (show s.active from H.count)]

theorem Held.moveTo (H : Held i h o v s) (p : Pt) (hv : v + 1 ≤ 65536) (hx : |p.x| ≤ 32768) (hy : |p.y| ≤ 32768) :
    ∃ s', moveTo R.rnd s p = .ok (s', .none) ∧ Held i h p (v + 1) s' ∧ s'.width = s.width ∧ s'.height = s.height := by
  unfold Rounded.moveTo
  rw [H.target]
  refine ⟨_, rfl, ?_, rfl, rfl⟩
  have px := coord_moveTo R H.px (pin_grid col_grid i) H.sw H.ox hx
  have py := coord_moveTo R H.py (pin_grid row_grid i) H.sh H.oy hy
  rw [pin_zero, pin_map fun z => R.rnd (z + R.rnd (p.x - (s.targets 0).x))] at px
  rw [pin_zero, pin_map fun z => R.rnd (z + R.rnd (p.y - (s.targets 0).y))] at py
  exact {
    ox := hx
    oy := hy
    sw := sane_next H.sw hv
    sh := sane_next H.sh hv
    dw := H.dw
    dh := H.dh
    tx := coord_moveTo R H.tx col_grid H.sw H.ox hx
    ty := coord_moveTo R H.ty row_grid H.sh H.oy hy
    px := px
    py := py
    doubles := ⟨R.double _, R.double _⟩
    count := H.count
    locked := H.locked
    live := by simp [Rounded.moveBy, H.live, shift]
    ends := H.ends
    range := H.range }

theorem Held.next (H : Held i h o v s) (hv : v + 1 ≤ 65536) : Held i h o (v + 1) s :=
  { H with
    sw := sane_next H.sw hv
    sh := sane_next H.sh hv
    tx := H.tx.next H.sw.one
    ty := H.ty.next H.sh.one
    px := H.px.next H.sw.one
    py := H.py.next H.sh.one }

theorem Held.resize (H : Held i h o v s) {w hh : ℝ} (hv : v + 1 ≤ 65536)
    (w1 : 1 ≤ w) (w2 : w ≤ 32768) (dw : Double w) (h1 : 1 ≤ hh) (h2 : hh ≤ 32768) (dh : Double hh) :
    ∃ s', resize R.rnd s w hh = .ok (s', .none) ∧ Held i h o (v + 1) s' ∧ s'.width = w ∧ s'.height = hh := by
  have W0 : 0 < s.width := by linarith [H.sw.one]
  have H0 : 0 < s.height := by linarith [H.sh.one]
  have sw' : Sane w v := ⟨w1, w2, H.sw.first, H.sw.calls⟩
  have sh' : Sane hh v := ⟨h1, h2, H.sw.first, H.sw.calls⟩
  unfold Rounded.resize
  rw [if_neg (by push Not; constructor <;> linarith), if_neg (by push Not; constructor <;> linarith)]
  by_cases he : Pt.equals ⟨R.rnd (w / s.width), R.rnd (hh / s.height)⟩ ⟨1, 1⟩
  · simp only [if_pos he]
    have ew : w = s.width := R.div_eq_one dw H.dw (by linarith) W0 he.2
    have eh : hh = s.height := R.div_eq_one dh H.dh (by linarith) H0 he.1
    exact ⟨s, rfl, H.next hv, ew.symm, eh.symm⟩
  · simp only [if_neg he, H.target]
    refine ⟨_, rfl, ?_, rfl, rfl⟩
    have px := coord_resize R H.px (pin_grid col_grid i) H.sw sw' H.ox (by rw [pin_zero]; exact H.doubles.1)
    have py := coord_resize R H.py (pin_grid row_grid i) H.sh sh' H.oy (by rw [pin_zero]; exact H.doubles.2)
    rw [pin_zero, pin_map fun z => R.rnd (R.rnd (R.rnd (z - (s.targets 0).x) * R.rnd (w / s.width)) + (s.targets 0).x)] at px
    rw [pin_zero, pin_map fun z => R.rnd (R.rnd (R.rnd (z - (s.targets 0).y) * R.rnd (hh / s.height)) + (s.targets 0).y)] at py
    exact {
      ox := H.ox
      oy := H.oy
      sw := sane_next sw' hv
      sh := sane_next sh' hv
      dw := dw
      dh := dh
      tx := coord_resize R H.tx col_grid H.sw sw' H.ox H.doubles.1
      ty := coord_resize R H.ty row_grid H.sh sh' H.oy H.doubles.2
      px := px
      py := py
      doubles := ⟨R.double _, R.double _⟩
      count := H.count
      locked := H.locked
      live := by simp [H.live, scaleKind]
      ends := by
        intro y hy
        simp only [List.mem_map] at hy
        obtain ⟨z, hz, rfl⟩ := hy
        exact H.ends z hz
      range := H.range }

/-! ## Grabbing a resting model -/

theorem sane_err {W v : ℝ} (hs : Sane W v) : W * v / 17179869184 + v / 137438953472 ≤ v / 262144 := by
  have h1 := hs.big
  have h2 := hs.first
  have : W * v ≤ 32768 * v := mul_le_mul_of_nonneg_right h1 (by linarith)
  linarith

theorem Resting.near {x : Spot} {f : Free} (H : Resting x.place v f) (ew : f.width = x.width) (eh : f.height = x.height)
    (j : Idx) : Near (v / 262144) (f.pos j) (x.point j) := by
  have e1 := sane_err H.sw
  have e2 := sane_err H.sh
  have a := abs_le.1 (H.cx.near j)
  have c := abs_le.1 (H.cy.near j)
  have ao := abs_le.1 H.cx.origin
  have co := abs_le.1 H.cy.origin
  rw [ew] at a e1
  rw [eh] at c e2
  simp only [col] at a
  simp only [row] at c
  unfold Near Spot.point
  rw [abs_le, abs_le]
  refine ⟨⟨?_, ?_⟩, ?_, ?_⟩ <;> simp only <;> linarith

theorem Held.pointed {x : Spot} (H : Held i h x.place v s) (ew : s.width = x.width) (eh : s.height = x.height) :
    Near (v / 262144) (s.pos i) (x.point i) := by
  have e1 := sane_err H.sw
  have e2 := sane_err H.sh
  have a := abs_le.1 (Coord.pinned (g := fun i => (col i : ℝ)) (i := i) H.px)
  have c := abs_le.1 (Coord.pinned (g := fun i => (row i : ℝ)) (i := i) H.py)
  have ao := abs_le.1 H.tx.origin
  have co := abs_le.1 H.ty.origin
  rw [ew] at a e1
  rw [eh] at c e2
  simp only [col] at a
  simp only [row] at c
  unfold Near Spot.point
  rw [abs_le, abs_le]
  refine ⟨⟨?_, ?_⟩, ?_, ?_⟩ <;> simp only <;> linarith

theorem Held.aimed {x : Spot} (H : Held i h x.place v s) (ew : s.width = x.width) (eh : s.height = x.height) (j : Idx) :
    Near (v / 262144) (s.targets j) (x.point j) := by
  have e1 := sane_err H.sw
  have e2 := sane_err H.sh
  have a := abs_le.1 (H.tx.near j)
  have c := abs_le.1 (H.ty.near j)
  have ao := abs_le.1 H.tx.origin
  have co := abs_le.1 H.ty.origin
  rw [ew] at a e1
  rw [eh] at c e2
  simp only [col] at a
  simp only [row] at c
  unfold Near Spot.point
  rw [abs_le, abs_le]
  refine ⟨⟨?_, ?_⟩, ?_, ?_⟩ <;> simp only <;> linarith

theorem point_screen {x : Spot} (hx : x.OnScreen) (j : Idx) : |(x.point j).x| ≤ 65536 ∧ |(x.point j).y| ≤ 65536 := by
  have a := abs_le.1 hx.placeX
  have b := abs_le.1 hx.placeY
  have c := col_grid.cell hx.widthMin j
  have d := row_grid.cell hx.heightMin j
  have e := hx.widthMax
  have f := hx.heightMax
  simp only [col] at c
  simp only [row] at d
  unfold Spot.point
  rw [abs_le, abs_le]
  refine ⟨⟨?_, ?_⟩, ?_, ?_⟩ <;> simp only <;> linarith

theorem coord_targets {W v o t : ℝ} {g : Idx → ℝ} (hg : Grid g) (hs : Sane W v) (ho : |o| ≤ 32768)
    (ht : |t - o| ≤ v / 137438953472) (hd : Double t) :
    Coord W o v g fun i => R.rnd (t + R.rnd (g i * R.rnd (W / 3))) := by
  have h1 := hs.first
  have h2 := hs.calls
  have h3 := hs.prod
  have e0 : R.rnd (t + R.rnd (g 0 * R.rnd (W / 3))) = t := by
    rw [hg.zero, zero_mul, rnd_zero, add_zero, R.exact hd]
  have s1 : Sane W 1 := ⟨hs.one, hs.big, le_rfl, by norm_num⟩
  have tb : |t - o| ≤ 1 := ht.trans (by linarith)
  obtain ⟨w1, w2⟩ := abs_le.1 tb
  obtain ⟨o1, o2⟩ := abs_le.1 ho
  obtain ⟨t1, t2⟩ := err R (x := W / 3) (by linarith [hs.one]) (by linarith [hs.big])
  refine ⟨fun i => ?_, by simp only [e0]; exact ht⟩
  simp only [e0]
  obtain ⟨c1, c2⟩ := hg.cell hs.one i
  have g1 := hg.nonneg i
  have g2 := hg.le i
  have b := hs.big
  have m1 : g i * R.rnd (W / 3) - g i * (W / 3) ≤ 3 / 137438953472 := by
    rw [← mul_sub]
    calc _ ≤ g i * (1 / 137438953472) := mul_le_mul_of_nonneg_left t1 g1
      _ ≤ _ := by linarith
  have m2 : -(3 / 137438953472) ≤ g i * R.rnd (W / 3) - g i * (W / 3) := by
    rw [← mul_sub]
    calc _ ≤ g i * (-(1 / 137438953472)) := by linarith
      _ ≤ _ := mul_le_mul_of_nonneg_left t2 g1
  obtain ⟨a1, a2⟩ := err R (x := g i * R.rnd (W / 3)) (by linarith) (by linarith)
  obtain ⟨b1, b2⟩ := err R (x := t + R.rnd (g i * R.rnd (W / 3))) (by linarith) (by linarith)
  have := hs.one
  rw [abs_le]
  constructor <;> linarith

theorem grab_resting {x : Spot} {p : Pt} (hn : NoAnchor s) (H : Resting x.place v (part s)) (ew : s.width = x.width)
    (eh : s.height = x.height) (hx : x.OnScreen) (px : |p.x| ≤ 32768) (py : |p.y| ≤ 32768)
    (hr : 1 ≤ s.settings.maximumRange) :
    ∃ i s', grab R.rnd s p = .ok (s', .handle s.nextHid) ∧ Held i s.nextHid x.place v s' ∧ s'.width = s.width ∧
      s'.height = s.height ∧ s'.pos = s.pos ∧ ∀ j, euclid p (x.point i) ≤ euclid p (x.point j) + 1 := by
  have near : ∀ j, Near (v / 262144) (s.pos j) (x.point j) := fun j => H.near (f := part s) ew eh j
  have v0 := H.sw.first
  have v1 := H.sw.calls
  have dx : ∀ j, |p.x - (s.pos j).x| ≤ 262144 ∧ |p.y - (s.pos j).y| ≤ 262144 := by
    intro j
    obtain ⟨n1, n2⟩ := near j
    obtain ⟨q1, q2⟩ := point_screen hx j
    rw [abs_le] at n1 n2 q1 q2 px py
    rw [abs_le, abs_le]
    refine ⟨⟨?_, ?_⟩, ?_, ?_⟩ <;> linarith
  obtain ⟨i, ei, hi⟩ := closest_some R (screen_distance R (dx 0).1 (dx 0).2)
  have hrest : targetByFullIntegration R.rnd { s with unequal := True, count := s.count + 1 } = .ok (s.pos 0) := by
    have : targetByFullIntegration R.rnd { s with unequal := True, count := s.count + 1 } = targetByFullIntegration R.rnd s := rfl
    rw [this, rest_target R.rnd hn]
    exact settle_slack R (q := ⟨s.pos, s.vel⟩) H.doubles H.vel fun y hy => H.slack (base_fits R H.sw H.sh _ y hy)
  have hact : activate R.rnd { s with unequal := True } =
      .ok { s with
        unequal := True
        count := s.count + 1
        lastId := s.lastId + springCount
        targets := positionArray R.rnd (s.pos 0) (tile R.rnd s) } := by
    unfold activate
    rw [if_pos (by show s.count + 1 = 1; rw [hn.count])]
    unfold recalc
    rw [hrest]
    rfl
  unfold grab
  rw [ei]
  simp only [hact, bind_ok]
  refine ⟨i, _, rfl, ?_, rfl, rfl, rfl, fun j => ?_⟩
  · have t3 : tile R.rnd s = ⟨R.rnd (s.width / 3), R.rnd (s.height / 3)⟩ := by
      unfold tile
      norm_num
    have e0 : ∀ (g : Idx → ℝ) (u t : ℝ), g 0 = 0 → Double u → R.rnd (u + R.rnd (g 0 * t)) = u := by
      intro g u t h0 hu
      rw [h0, zero_mul, rnd_zero, add_zero, R.exact hu]
    have c0 : (((col 0 : ℕ) : ℝ)) = 0 := col_grid.zero
    have r0 : (((row 0 : ℕ) : ℝ)) = 0 := row_grid.zero
    have p0 : positionArray R.rnd (s.pos 0) (tile R.rnd s) 0 = s.pos 0 := by
      unfold positionArray add
      rw [t3]
      simp only [c0, r0, zero_mul, rnd_zero, add_zero]
      exact Pt.ext (R.exact (H.doubles 0).1) (R.exact (H.doubles 0).2)
    exact {
      ox := H.ox
      oy := H.oy
      sw := H.sw
      sh := H.sh
      dw := H.dw
      dh := H.dh
      tx := by
        have := coord_targets R col_grid H.sw H.ox H.cx.origin (H.doubles 0).1
        show Coord s.width x.place.x v _ fun i => (positionArray R.rnd (s.pos 0) (tile R.rnd s) i).x
        rw [t3]
        exact this
      ty := by
        have := coord_targets R row_grid H.sh H.oy H.cy.origin (H.doubles 0).2
        show Coord s.height x.place.y v _ fun i => (positionArray R.rnd (s.pos 0) (tile R.rnd s) i).y
        rw [t3]
        exact this
      px := by
        show Coord s.width x.place.x v _ (pin (positionArray R.rnd (s.pos 0) (tile R.rnd s) 0).x (s.pos i).x)
        rw [p0]
        exact H.cx.pin H.sw i
      py := by
        show Coord s.height x.place.y v _ (pin (positionArray R.rnd (s.pos 0) (tile R.rnd s) 0).y (s.pos i).y)
        rw [p0]
        exact H.cy.pin H.sh i
      doubles := ⟨R.double _, R.double _⟩
      count := by show s.count + 1 = 1; rw [hn.count]
      locked := by simp [State.lock]
      live := by
        show s.live ++ [_] = _
        rw [hn.live]
        rfl
      ends := hn.ends
      range := hr }
  · have a := abs_le.1 (distance_err R (dx i).1 (dx i).2)
    have b := abs_le.1 (distance_err R (dx j).1 (dx j).2)
    have c := hi j
    have hv : (0 : ℝ) ≤ v / 262144 := by positivity
    have d := euclid_shift (p := p) hv (near j)
    have e := euclid_shift (p := p) (q := x.point i) (q' := s.pos i) hv (by
      obtain ⟨n1, n2⟩ := near i
      exact ⟨by rw [abs_sub_comm]; exact n1, by rw [abs_sub_comm]; exact n2⟩)
    linarith

theorem run_append (r : ℝ → ℝ) (s : State) (a b : List Op) :
    run r s (a ++ b) = (run r s a).bind fun x => (run r x.1 b).bind fun y => .ok (y.1, x.2 ++ y.2) := by
  induction a generalizing s with
  | nil =>
    simp only [List.nil_append, run, bind_ok]
    cases run r s b <;> rfl
  | cons op a ih =>
    simp only [List.cons_append, run]
    cases exec r s op with
    | ok x =>
      simp only [bind_ok, ih]
      cases run r x.1 a with
      | ok y =>
        simp only [bind_ok]
        cases run r y.1 b <;> rfl
      | _ => rfl
    | _ => rfl

theorem exec_settings (r : ℝ → ℝ) {f f' : Free} {op : FreeOp} {y : Res} (e : f.exec r op = .ok (f', y)) :
    f'.settings = f.settings := by
  cases op with
  | step t =>
    simp only [Free.exec, Free.step, Outcome.ok.injEq, Prod.mk.injEq] at e
    obtain ⟨rfl, -⟩ := e
    rfl
  | moveBy d =>
    simp only [Free.exec, Outcome.ok.injEq, Prod.mk.injEq] at e
    obtain ⟨rfl, -⟩ := e
    rfl
  | moveTo p =>
    simp only [Free.exec, Free.moveTo, Free.targetPosition, bind_eq_ok, Outcome.ok.injEq, Prod.mk.injEq] at e
    obtain ⟨a, ⟨q, -, rfl⟩, rfl, -⟩ := e
    rfl
  | resize w hh =>
    simp only [Free.exec, Free.resize] at e
    split_ifs at e
    · simp only [Outcome.ok.injEq, Prod.mk.injEq] at e
      obtain ⟨rfl, -⟩ := e
      rfl
    · simp only [Free.targetPosition, bind_eq_ok, Outcome.ok.injEq, Prod.mk.injEq] at e
      obtain ⟨a, ⟨q, -, rfl⟩, rfl, -⟩ := e
      rfl

theorem run_settings (r : ℝ → ℝ) {f f' : Free} {ops : List FreeOp} {ys : List Res} (e : f.run r ops = .ok (f', ys)) :
    f'.settings = f.settings := by
  induction ops generalizing f ys with
  | nil =>
    simp only [Free.run, Outcome.ok.injEq, Prod.mk.injEq] at e
    obtain ⟨rfl, -⟩ := e
    rfl
  | cons op ops ih =>
    simp only [Free.run, bind_eq_ok, Outcome.ok.injEq, Prod.mk.injEq] at e
    obtain ⟨a, ha, b, hb, rfl, -⟩ := e
    exact (ih hb).trans (exec_settings r ha)

end

end Verif.Wobbly.Rounded
