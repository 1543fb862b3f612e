import Verif.Lemmas.WobblyBookSlow
import Verif.Lemmas.LampRound

/-! Distances as `double` arithmetic computes them, and what is chosen by them. -/

namespace Verif.Wobbly.Rounded

open Wobbly Spec Outcome Classical

noncomputable section

variable {r : ℝ → ℝ}

/-! ### The choice, whatever the rounding -/

theorem first_fold (m : Mesh) (p : Pt) (l : List Idx) (hl : l.Pairwise (· < ·)) :
    (l.foldl (closestStep r m p) (none, dblMax) = (none, dblMax) ∧ ∀ j ∈ l, dblMax ≤ distance r p (m j)) ∨
    ∃ i ∈ l, l.foldl (closestStep r m p) (none, dblMax) = (some i, distance r p (m i)) ∧
      distance r p (m i) < dblMax ∧
      (∀ j ∈ l, distance r p (m i) ≤ distance r p (m j)) ∧
      ∀ j ∈ l, j < i → distance r p (m i) < distance r p (m j) := by
  induction l using List.reverseRecOn with
  | nil => left; simp
  | append_singleton l a ih =>
    rw [List.pairwise_append] at hl
    obtain ⟨hl1, -, hl2⟩ := hl
    rw [List.foldl_append]
    rcases ih hl1 with ⟨h1, h2⟩ | ⟨i, hi, h1, h2, h3, h4⟩
    · rw [h1]
      by_cases ha : distance r p (m a) < dblMax
      · right
        refine ⟨a, by simp, by simp [closestStep, ha], ha, ?_, ?_⟩
        · intro j hj
          rcases List.mem_append.1 hj with hj | hj
          · exact ha.le.trans (h2 j hj)
          · simp only [List.mem_singleton] at hj
            subst hj
            exact le_refl _
        · intro j hj hja
          rcases List.mem_append.1 hj with hj | hj
          · exact ha.trans_le (h2 j hj)
          · simp only [List.mem_singleton] at hj
            exact absurd (hj ▸ hja) (lt_irrefl _)
      · left
        refine ⟨by simp [closestStep, ha], ?_⟩
        intro j hj
        rcases List.mem_append.1 hj with hj | hj
        · exact h2 j hj
        · simp only [List.mem_singleton] at hj
          subst hj
          exact not_lt.1 ha
    · right
      rw [h1]
      by_cases ha : distance r p (m a) < distance r p (m i)
      · refine ⟨a, by simp, by simp [closestStep, ha], ha.trans h2, ?_, ?_⟩
        · intro j hj
          rcases List.mem_append.1 hj with hj | hj
          · exact ha.le.trans (h3 j hj)
          · simp only [List.mem_singleton] at hj
            subst hj
            exact le_refl _
        · intro j hj hja
          rcases List.mem_append.1 hj with hj | hj
          · exact ha.trans_le (h3 j hj)
          · simp only [List.mem_singleton] at hj
            exact absurd (hj ▸ hja) (lt_irrefl _)
      · refine ⟨i, by simp [hi], by simp [closestStep, ha], h2, ?_, ?_⟩
        · intro j hj
          rcases List.mem_append.1 hj with hj | hj
          · exact h3 j hj
          · simp only [List.mem_singleton] at hj
            subst hj
            exact not_lt.1 ha
        · intro j hj hja
          rcases List.mem_append.1 hj with hj | hj
          · exact h4 j hj hja
          · simp only [List.mem_singleton] at hj
            subst hj
            exact absurd (hl2 i hi j (by simp)) (not_lt.2 hja.le)

theorem split_both (at_ : Node → Pt) (p : Pt) (l : List Spring) (hne : l ≠ [])
    (h1 : ∀ s ∈ l, distance r (at_ s.a) p < dblMax) (h2 : ∀ s ∈ l, distance r (at_ s.b) p < dblMax) :
    ∃ f ∈ l, l.foldl (splitStep r at_ p) ⟨none, dblMax, dblMax⟩ =
        ⟨some f, distance r (at_ f.a) p, distance r (at_ f.b) p⟩ ∧
      (∀ s ∈ l, distance r (at_ f.a) p ≤ distance r (at_ s.a) p) ∧
      ∀ s ∈ l, distance r (at_ s.a) p = distance r (at_ f.a) p →
        distance r (at_ f.b) p ≤ distance r (at_ s.b) p := by
  induction l using List.reverseRecOn with
  | nil => exact absurd rfl hne
  | append_singleton l a ih =>
    rw [List.foldl_append]
    have ha1 := h1 a (by simp)
    have ha2 := h2 a (by simp)
    by_cases hl : l = []
    · subst hl
      refine ⟨a, by simp, ?_, ?_, ?_⟩
      · simp [splitStep, ha1, ha2]
      · simp
      · simp
    · obtain ⟨f, hf, e, m1, m2⟩ := ih hl (fun s hs => h1 s (by simp [hs])) (fun s hs => h2 s (by simp [hs]))
      rw [e]
      simp only [List.foldl_cons, List.foldl_nil]
      rcases lt_trichotomy (distance r (at_ a.a) p) (distance r (at_ f.a) p) with hlt | heq | hgt
      · refine ⟨a, by simp, ?_, ?_, ?_⟩
        · simp [splitStep, hlt, ha2]
        · intro s hs
          rcases List.mem_append.1 hs with hs | hs
          · exact hlt.le.trans (m1 s hs)
          · rw [List.mem_singleton.1 hs]
        · intro s hs hsa
          rcases List.mem_append.1 hs with hs | hs
          · have := m1 s hs
            linarith
          · rw [List.mem_singleton.1 hs]
      · by_cases hb : distance r (at_ a.b) p < distance r (at_ f.b) p
        · refine ⟨a, by simp, ?_, ?_, ?_⟩
          · simp [splitStep, heq, hb]
          · intro s hs
            rcases List.mem_append.1 hs with hs | hs
            · exact heq.le.trans (m1 s hs)
            · rw [List.mem_singleton.1 hs]
          · intro s hs hsa
            rcases List.mem_append.1 hs with hs | hs
            · exact hb.le.trans (m2 s hs (hsa.trans heq))
            · rw [List.mem_singleton.1 hs]
        · refine ⟨f, by simp [hf], ?_, ?_, ?_⟩
          · simp [splitStep, heq, hb]
          · intro s hs
            rcases List.mem_append.1 hs with hs | hs
            · exact m1 s hs
            · rw [List.mem_singleton.1 hs, heq]
          · intro s hs hsa
            rcases List.mem_append.1 hs with hs | hs
            · exact m2 s hs hsa
            · rw [List.mem_singleton.1 hs]
              exact not_lt.1 hb
      · refine ⟨f, by simp [hf], ?_, ?_, ?_⟩
        · simp [splitStep, not_lt.2 hgt.le, hgt.ne']
        · intro s hs
          rcases List.mem_append.1 hs with hs | hs
          · exact m1 s hs
          · rw [List.mem_singleton.1 hs]
            exact hgt.le
        · intro s hs hsa
          rcases List.mem_append.1 hs with hs | hs
          · exact m2 s hs hsa
          · rw [List.mem_singleton.1 hs] at hsa ⊢
            exact absurd hsa hgt.ne'

/-! ### The distance -/

variable (R : Rounding64)

theorem square_bound {d a b η : ℝ} (h0 : 0 ≤ η) (hη : η ≤ 1 / 2 ^ 160) (h1 : |a - d| ≤ |d| / 2 ^ 53 + η)
    (h2 : |b - a * a| ≤ a * a / 2 ^ 53 + η) : |b - d ^ 2| ≤ d ^ 2 / 2 ^ 51 + 8 * η := by
  have hd := abs_nonneg d
  have e2 : |a * a - d ^ 2| ≤ (|d| / 2 ^ 53 + η) * (|d| * (2 + 1 / 2 ^ 53) + η) := by
    have : a * a - d ^ 2 = (a - d) * ((a - d) + 2 * d) := by ring
    rw [this, abs_mul]
    refine mul_le_mul h1 ?_ (abs_nonneg _) (by positivity)
    have := abs_add_le (a - d) (2 * d)
    rw [abs_mul, abs_of_pos (by norm_num : (0 : ℝ) < 2)] at this
    linarith
  have e3 : a * a ≤ d ^ 2 + |a * a - d ^ 2| := by linarith [le_abs_self (a * a - d ^ 2)]
  have e4 := abs_add_le (b - a * a) (a * a - d ^ 2)
  rw [sub_add_sub_cancel] at e4
  have hs : d ^ 2 = |d| ^ 2 := (sq_abs d).symm
  have hηη : η * η ≤ 1 / 2 ^ 160 * η := mul_le_mul_of_nonneg_right hη h0
  rw [hs] at e2 e3 e4 ⊢
  generalize |d| = D at *
  have hm : D * η ≤ D ^ 2 / 2 ^ 60 + η := by
    have := sq_nonneg (D / 2 ^ 30 - 2 ^ 29 * η)
    have e : (D / 2 ^ 30 - 2 ^ 29 * η) ^ 2 = D ^ 2 / 2 ^ 60 - D * η + 2 ^ 58 * (η * η) := by ring
    rw [e] at this
    norm_num at *
    linarith
  have hq : 0 ≤ D ^ 2 := sq_nonneg _
  have key : (D / 2 ^ 53 + η) * (D * (2 + 1 / 2 ^ 53) + η) =
      D ^ 2 * ((2 + 1 / 2 ^ 53) / 2 ^ 53) + D * η * (2 + 2 / 2 ^ 53) + η * η := by ring
  rw [key] at e2
  generalize D ^ 2 = S at *
  generalize D * η = z at *
  generalize η * η = y at *
  generalize |a * a - S| = A at *
  norm_num at *
  linarith

theorem square_near (d : ℝ) :
    |R.rnd (R.rnd d * R.rnd d) - d ^ 2| ≤ d ^ 2 / 2 ^ 51 + 1 / 2 ^ 197 := by
  have h1 := R.error_rel d
  have h2 := R.error_rel (R.rnd d * R.rnd d)
  rw [abs_mul_self] at h2
  have := square_bound (by positivity) (by norm_num) h1 h2
  norm_num at this ⊢
  linarith

theorem squares_near (x y : ℝ) :
    |R.rnd (R.rnd (0 + R.rnd (R.rnd y * R.rnd y)) + R.rnd (R.rnd x * R.rnd x)) - (x ^ 2 + y ^ 2)| ≤
      (x ^ 2 + y ^ 2) / 2 ^ 50 + 1 / 2 ^ 195 := by
  rw [zero_add, R.exact (R.double _)]
  have h1 := square_near R x
  have h2 := square_near R y
  have h3 := R.error_rel (R.rnd (R.rnd y * R.rnd y) + R.rnd (R.rnd x * R.rnd x))
  set a := R.rnd (R.rnd x * R.rnd x)
  set b := R.rnd (R.rnd y * R.rnd y)
  have h4 : |b + a| ≤ |a - x ^ 2| + |b - y ^ 2| + (x ^ 2 + y ^ 2) := by
    have t1 := abs_add_le (b - y ^ 2 + (a - x ^ 2)) (x ^ 2 + y ^ 2)
    have t2 := abs_add_le (b - y ^ 2) (a - x ^ 2)
    rw [abs_of_nonneg (by positivity : 0 ≤ x ^ 2 + y ^ 2)] at t1
    rw [show b - y ^ 2 + (a - x ^ 2) + (x ^ 2 + y ^ 2) = b + a by ring] at t1
    linarith
  have h5 := abs_add_le (R.rnd (b + a) - (b + a)) (b - y ^ 2 + (a - x ^ 2))
  have h6 := abs_add_le (b - y ^ 2) (a - x ^ 2)
  rw [show R.rnd (b + a) - (b + a) + (b - y ^ 2 + (a - x ^ 2)) = R.rnd (b + a) - (x ^ 2 + y ^ 2) by ring] at h5
  have hx : 0 ≤ x ^ 2 := sq_nonneg _
  have hy : 0 ≤ y ^ 2 := sq_nonneg _
  generalize |a - x ^ 2| = A at *
  generalize |b - y ^ 2| = B at *
  norm_num at *
  linarith

theorem euclid_eq (p q : Pt) : euclid p q = Real.sqrt ((p.x - q.x) ^ 2 + (p.y - q.y) ^ 2) := rfl

/-- The computed distance is the distance up to a relative error of `2 ^ -50`, unless both are tiny. -/
theorem distance_near (p q : Pt) :
    distance R.rnd p q ≤ euclid p q * (1 + 1 / 2 ^ 50) + 1 / 2 ^ 95 ∧
    euclid p q ≤ distance R.rnd p q * (1 + 1 / 2 ^ 49) + 1 / 2 ^ 95 := by
  have h := abs_le.1 (squares_near R (p.x - q.x) (p.y - q.y))
  unfold distance
  rw [euclid_eq]
  set T := R.rnd (R.rnd (0 + R.rnd (R.rnd (p.y - q.y) * R.rnd (p.y - q.y))) + R.rnd (R.rnd (p.x - q.x) * R.rnd (p.x - q.x)))
  set S := (p.x - q.x) ^ 2 + (p.y - q.y) ^ 2
  have hS : 0 ≤ S := by positivity
  have hrnd := abs_le.1 (R.error_rel (Real.sqrt T))
  rw [abs_of_nonneg (Real.sqrt_nonneg T)] at hrnd
  have s0 := Real.sqrt_nonneg S
  have t0 := Real.sqrt_nonneg T
  have hs := Real.sq_sqrt hS
  have up : Real.sqrt T ≤ Real.sqrt S * (1 + 1 / 2 ^ 51) + 1 / 2 ^ 97 := by
    rw [Real.sqrt_le_left (by positivity)]
    have : (Real.sqrt S * (1 + 1 / 2 ^ 51) + 1 / 2 ^ 97) ^ 2 =
      Real.sqrt S ^ 2 * (1 + 1 / 2 ^ 51) ^ 2 + Real.sqrt S * ((1 + 1 / 2 ^ 51) * 2 / 2 ^ 97) + 1 / 2 ^ 194 := by ring
    rw [this, hs]
    have h0 : 0 ≤ Real.sqrt S * ((1 + 1 / 2 ^ 51) * 2 / 2 ^ 97) := by positivity
    generalize Real.sqrt S * ((1 + 1 / 2 ^ 51) * 2 / 2 ^ 97) = z at *
    norm_num at *
    linarith
  have low : Real.sqrt S ≤ Real.sqrt T * (1 + 1 / 2 ^ 50) + 1 / 2 ^ 97 := by
    rw [Real.sqrt_le_left (by positivity)]
    have : (Real.sqrt T * (1 + 1 / 2 ^ 50) + 1 / 2 ^ 97) ^ 2 =
      Real.sqrt T ^ 2 * (1 + 1 / 2 ^ 50) ^ 2 + Real.sqrt T * ((1 + 1 / 2 ^ 50) * 2 / 2 ^ 97) + 1 / 2 ^ 194 := by ring
    rw [this]
    have hT : T ≤ Real.sqrt T ^ 2 := by
      rcases le_total 0 T with h0 | h0
      · rw [Real.sq_sqrt h0]
      · exact h0.trans (sq_nonneg _)
    have h0 : 0 ≤ Real.sqrt T * ((1 + 1 / 2 ^ 50) * 2 / 2 ^ 97) := by positivity
    have h1 : 0 ≤ Real.sqrt T ^ 2 := sq_nonneg _
    generalize Real.sqrt T * ((1 + 1 / 2 ^ 50) * 2 / 2 ^ 97) = z at *
    generalize Real.sqrt T ^ 2 = y at *
    norm_num at *
    linarith
  constructor
  · norm_num at *
    linarith
  · norm_num at *
    linarith

/-- What the code finds nearer is nearer, up to a small error. -/
theorem nearer {p q p' q' : Pt} (h : distance R.rnd p q ≤ distance R.rnd p' q') :
    euclid p q ≤ euclid p' q' * (1 + 1 / 2 ^ 48) + 1 / 2 ^ 90 := by
  have h1 := (distance_near R p q).2
  have h2 := (distance_near R p' q').1
  have h3 : 0 ≤ euclid p' q' := Real.sqrt_nonneg _
  norm_num at *
  linarith

/-- Coordinates far from overflow have distances far from overflow. -/
theorem far_distance {p q : Pt} (h1 : |p.x| ≤ 2 ^ 500) (h2 : |p.y| ≤ 2 ^ 500) (h3 : |q.x| ≤ 2 ^ 500) (h4 : |q.y| ≤ 2 ^ 500) :
    distance R.rnd p q < dblMax := by
  have h := (distance_near R p q).1
  have hle : euclid p q ≤ |p.x - q.x| + |p.y - q.y| := by
    rw [euclid_eq, Real.sqrt_le_left (by positivity)]
    have := mul_nonneg (abs_nonneg (p.x - q.x)) (abs_nonneg (p.y - q.y))
    have e1 := sq_abs (p.x - q.x)
    have e2 := sq_abs (p.y - q.y)
    nlinarith
  have t1 := abs_sub p.x q.x
  have t2 := abs_sub p.y q.y
  have hm : (2 : ℝ) ^ 503 ≤ dblMax := by
    unfold dblMax
    have : (2 : ℝ) ^ 503 ≤ 2 ^ 971 := pow_le_pow_right₀ (by norm_num) (by norm_num)
    have h2 : (1 : ℝ) * 2 ^ 971 ≤ (2 ^ 53 - 1) * 2 ^ 971 := mul_le_mul_of_nonneg_right (by norm_num) (by positivity)
    rw [one_mul] at h2
    exact this.trans h2
  have hp : (2 : ℝ) ^ 503 = 2 ^ 500 * 2 ^ 3 := by rw [← pow_add]
  have h1' : (1 : ℝ) ≤ 2 ^ 500 := one_le_pow₀ (by norm_num)
  rw [hp] at hm
  generalize (2 : ℝ) ^ 500 = X at *
  clear hp
  norm_num at h hm
  linarith

/-! ### Insertion -/

variable {s : State}

theorem activate_returns (s : State) : (∃ z, activate r s = .ok z) ∨ activate r s = .diverges := by
  unfold activate
  simp only
  split_ifs
  · exact recalc_returns _
  · exact .inl ⟨_, rfl⟩

/-- What an insertion does, with the spring it finds. -/
theorem insert_found {s' : State} {p : Pt} {y : Res} (h : exec r s (.insert p) = .ok (s', y)) :
    ∃ t n found d1 d2, ¬ dangling s.springs s.live ∧ findSpringToSplit r (s.env.at_ s.pos) p s.springs = some found ∧
      (preInsert s t n).preferred (s.env.at_ s.pos found.a) = .ok d1 ∧
      (preInsert s t n).preferred (s.env.at_ s.pos found.b) = .ok d2 ∧
      s' = install r (preInsert s t n) p found d1 d2 ∧ y = .handle s.nextHid := by
  simp only [exec, insert] at h
  rw [bind_eq_ok] at h
  obtain ⟨s1, h1, h⟩ := h
  obtain ⟨t, n, hn, rfl⟩ := activate_fields h1
  rw [bind_eq_ok] at h
  obtain ⟨s2, h2, h⟩ := h
  unfold insertSprings at h2
  split_ifs at h2 with hd
  split at h2
  · simp at h2
  · rename_i found hf
    rw [bind_eq_ok] at h2
    obtain ⟨d1, e1, h2⟩ := h2
    rw [bind_eq_ok] at h2
    obtain ⟨d2, e2, h2⟩ := h2
    simp only [Outcome.ok.injEq, Prod.mk.injEq] at h h2
    obtain ⟨rfl, rfl⟩ := h
    exact ⟨t, n, found, d1, d2, hd, hf, e1, e2, h2.symm, rfl⟩

/-- The lengths of the new springs can be looked up. -/
theorem Book.preferred {b : ℕ} (B : Book b s) {found : Spring} (hf : found ∈ s.springs) (t : Mesh) (n : ℕ) {e : Node}
    (he : e = found.a ∨ e = found.b) : ∃ d, (preInsert s t n).preferred (s.env.at_ s.pos e) = .ok d := by
  unfold State.preferred
  split_ifs with hact
  · have hc : s.count = 0 := by
      have : s.count + 1 = 1 := hact
      omega
    have hlen : s.count = s.live.length := B.inv.count
    have hlive : s.live = [] := List.eq_nil_of_length_eq_zero (by omega)
    obtain ⟨-, -, hall⟩ := B.mesh (fun a ha => by rw [hlive] at ha; simp at ha)
    obtain ⟨h1, h2⟩ := hall found hf
    have : ∃ j, e = .mesh j := by
      rcases he with rfl | rfl
      · exact h1
      · exact h2
    obtain ⟨j, rfl⟩ := this
    obtain ⟨j', -, h3⟩ := lookup_mesh s.pos t j
    exact ⟨_, h3⟩
  · exact ⟨_, rfl⟩

theorem Book.insert_cases {b : ℕ} (B : Book b s) (q : Pt) :
    (∃ y, exec r s (.insert q) = .ok y) ∨ exec r s (.insert q) = .diverges ∨
      exec r s (.insert q) = .ub ∧ (dangling s.springs s.live ∨ findSpringToSplit r (s.env.at_ s.pos) q s.springs = none) := by
  simp only [exec, insert]
  rcases activate_returns (r := r) { s with unequal := True } with ⟨z, hz⟩ | hz
  · obtain ⟨t, n, hn, rfl⟩ := activate_fields hz
    rw [hz, bind_ok]
    unfold insertSprings
    simp only
    by_cases hd : dangling s.springs s.live
    · rw [if_pos hd]
      exact .inr (.inr ⟨rfl, .inl hd⟩)
    · rw [if_neg hd]
      cases hf : findSpringToSplit r (s.env.at_ s.pos) q s.springs with
      | none =>
        have hf' : findSpringToSplit r (State.env { s with unequal := True, count := s.count + 1, targets := t, lastId := n }
          |>.at_ s.pos) q s.springs = none := hf
        rw [hf']
        exact .inr (.inr ⟨rfl, .inr rfl⟩)
      | some found =>
        have hf' : findSpringToSplit r (State.env { s with unequal := True, count := s.count + 1, targets := t, lastId := n }
          |>.at_ s.pos) q s.springs = some found := hf
        obtain ⟨d1, h1⟩ := B.preferred (found_mem _ _ _ _ hf) t n (.inl rfl)
        obtain ⟨d2, h2⟩ := B.preferred (found_mem _ _ _ _ hf) t n (.inr rfl)
        have h1' : State.preferred { s with unequal := True, count := s.count + 1, targets := t, lastId := n }
            (State.env { s with unequal := True, count := s.count + 1, targets := t, lastId := n } |>.at_ s.pos found.a) = .ok d1 := h1
        have h2' : State.preferred { s with unequal := True, count := s.count + 1, targets := t, lastId := n }
            (State.env { s with unequal := True, count := s.count + 1, targets := t, lastId := n } |>.at_ s.pos found.b) = .ok d2 := h2
        rw [hf']
        simp only
        rw [h1', bind_ok, h2', bind_ok, bind_ok]
        exact .inl ⟨_, rfl⟩
  · rw [hz]
    exact .inr (.inl rfl)

/-- There is always a spring to split. -/
theorem Book.springs_ne {b : ℕ} (B : Book b s) : s.springs ≠ [] := by
  intro h
  exact inv_springs_ne B.inv (by simp [flat, h])

end

end Verif.Wobbly.Rounded
