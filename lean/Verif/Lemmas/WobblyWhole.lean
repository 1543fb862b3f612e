import Verif.Lemmas.WobblySlowDouble

/-! Whole pixels: with a spring constant of 8 the forces in double precision are exact. -/

namespace Verif.Wobbly.Rounded

noncomputable section

open Classical Outcome Spec

variable (R : Rounding64)

/-- A whole number of at most `n`. -/
def Whole (n x : ℝ) : Prop := (∃ m : ℤ, x = m) ∧ |x| ≤ n

theorem whole_int {n : ℝ} {m : ℤ} (h : |(m : ℝ)| ≤ n) : Whole n m := ⟨⟨m, rfl⟩, h⟩

theorem Whole.sub {n k x y : ℝ} (hx : Whole n x) (hy : Whole k y) : Whole (n + k) (x - y) := by
  obtain ⟨⟨a, rfl⟩, ha⟩ := hx
  obtain ⟨⟨b, rfl⟩, hb⟩ := hy
  exact ⟨⟨a - b, by push_cast; ring⟩, (abs_sub _ _).trans (add_le_add ha hb)⟩

theorem Whole.add {n k x y : ℝ} (hx : Whole n x) (hy : Whole k y) : Whole (n + k) (x + y) := by
  obtain ⟨⟨a, rfl⟩, ha⟩ := hx
  obtain ⟨⟨b, rfl⟩, hb⟩ := hy
  exact ⟨⟨a + b, by push_cast; ring⟩, (abs_add_le _ _).trans (add_le_add ha hb)⟩

theorem Whole.neg {n x : ℝ} (hx : Whole n x) : Whole n (x * -1) := by
  obtain ⟨⟨a, rfl⟩, ha⟩ := hx
  exact ⟨⟨-a, by push_cast; ring⟩, by rw [mul_neg_one, abs_neg]; exact ha⟩

theorem Whole.mono {n k x : ℝ} (hx : Whole n x) (h : n ≤ k) : Whole k x := ⟨hx.1, hx.2.trans h⟩

/-- Halves of whole numbers are not rounded. -/
theorem rnd_halves {m : ℤ} (h : |(m : ℝ)| ≤ 2 ^ 53) : R.rnd (m / 2) = m / 2 := by
  have := double_mul (m := m) (e := -1) (by exact_mod_cast h) (by norm_num)
  apply R.exact
  rwa [zpow_neg_one, ← div_eq_mul_inv] at this

theorem Whole.exact {x : ℝ} (h : Whole (2 ^ 52) x) : R.rnd x = x := by
  obtain ⟨⟨m, rfl⟩, hm⟩ := h
  have := rnd_halves R (m := 2 * m) (by
    push_cast
    rw [abs_mul, abs_of_pos (by norm_num : (0 : ℝ) < 2)]
    norm_num at hm ⊢
    linarith)
  push_cast at this
  rwa [mul_div_cancel_left₀ _ (by norm_num : (2 : ℝ) ≠ 0)] at this

/-- What one end of a spring contributes to one coordinate. -/
theorem whole_delta {u v d : ℝ} (hu : Whole (2 ^ 20) u) (hv : Whole (2 ^ 20) v) (hd : Whole (2 ^ 20) d) :
    R.rnd (1 / 2 * R.rnd (R.rnd (u - v) + d)) = 1 / 2 * (u - v + d) ∧
      ∀ c, (c = 0 ∨ c = 1 / 2 * (u - v + d)) → R.rnd (c * 8) = c * 8 ∧ Whole (2 ^ 24) (c * 8) := by
  have h1 : Whole (2 ^ 21) (u - v) := (hu.sub hv).mono (by norm_num)
  have h2 : Whole (2 ^ 22) (u - v + d) := (h1.add hd).mono (by norm_num)
  rw [(h1.mono (by norm_num)).exact R, (h2.mono (by norm_num)).exact R]
  obtain ⟨⟨m, hm⟩, hb⟩ := h2
  refine ⟨?_, ?_⟩
  · rw [hm] at hb ⊢
    rw [one_div_mul_eq_div]
    refine rnd_halves R (hb.trans ?_)
    norm_num
  · have key : ∀ c, (c = 0 ∨ c = 1 / 2 * (u - v + d)) → Whole (2 ^ 24) (c * 8) := by
      rintro c (rfl | rfl)
      · exact ⟨⟨0, by simp⟩, by norm_num⟩
      · rw [hm] at hb ⊢
        refine ⟨⟨4 * m, by push_cast; ring⟩, ?_⟩
        rw [abs_le] at hb ⊢
        norm_num at hb ⊢
        constructor <;> linarith [hb.1, hb.2]
    exact fun c hc => ⟨((key c hc).mono (by norm_num)).exact R, key c hc⟩

/-- Both coordinates are whole numbers of at most `n`. -/
def WholePt (n : ℝ) (p : Pt) : Prop := Whole n p.x ∧ Whole n p.y

theorem reset_cases (p : Pt) : ((resetIfCloseToZero p (1 / 2)).x = 0 ∨ (resetIfCloseToZero p (1 / 2)).x = p.x) ∧
    ((resetIfCloseToZero p (1 / 2)).y = 0 ∨ (resetIfCloseToZero p (1 / 2)).y = p.y) := by
  unfold resetIfCloseToZero clip
  constructor
  · dsimp only
    split_ifs
    · exact Or.inl rfl
    · exact Or.inr rfl
  · dsimp only
    split_ifs
    · exact Or.inl rfl
    · exact Or.inr rfl

theorem whole_force {y : Spring} {at_ : Node → Pt} (ha : WholePt (2 ^ 20) (at_ y.a)) (hb : WholePt (2 ^ 20) (at_ y.b))
    (hd : WholePt (2 ^ 20) y.desired) :
    scale R.rnd (deltaA R.rnd y at_) 8 = scale id (deltaA id y at_) 8 ∧
    scale R.rnd (deltaB R.rnd y at_) 8 = scale id (deltaB id y at_) 8 ∧
    WholePt (2 ^ 24) (scale id (deltaA id y at_) 8) ∧ WholePt (2 ^ 24) (scale id (deltaB id y at_) 8) := by
  have hn : scale R.rnd y.desired (-1) = scale id y.desired (-1) := by
    unfold scale
    rw [(hd.1.neg.mono (by norm_num)).exact R, (hd.2.neg.mono (by norm_num)).exact R]
    rfl
  have dA : deltaA R.rnd y at_ = deltaA id y at_ := by
    unfold deltaA
    rw [hn]
    unfold deltaFromDesired
    have hx : Whole (2 ^ 20) (scale id y.desired (-1)).x := hd.1.neg
    have hy : Whole (2 ^ 20) (scale id y.desired (-1)).y := hd.2.neg
    rw [(whole_delta R hb.1 ha.1 hx).1, (whole_delta R hb.2 ha.2 hy).1]
    rfl
  have dB : deltaB R.rnd y at_ = deltaB id y at_ := by
    unfold deltaB deltaFromDesired
    rw [(whole_delta R ha.1 hb.1 hd.1).1, (whole_delta R ha.2 hb.2 hd.2).1]
    rfl
  obtain ⟨a1, a2⟩ := reset_cases (deltaFromDesired id (at_ y.a) (at_ y.b) (scale id y.desired (-1)))
  obtain ⟨b1, b2⟩ := reset_cases (deltaFromDesired id (at_ y.b) (at_ y.a) y.desired)
  have hx : Whole (2 ^ 20) (scale id y.desired (-1)).x := hd.1.neg
  have hy : Whole (2 ^ 20) (scale id y.desired (-1)).y := hd.2.neg
  have k1 := (whole_delta R hb.1 ha.1 hx).2 (deltaA id y at_).x a1
  have k2 := (whole_delta R hb.2 ha.2 hy).2 (deltaA id y at_).y a2
  have k3 := (whole_delta R ha.1 hb.1 hd.1).2 (deltaB id y at_).x b1
  have k4 := (whole_delta R ha.2 hb.2 hd.2).2 (deltaB id y at_).y b2
  rw [dA, dB]
  refine ⟨?_, ?_, ⟨k1.2, k2.2⟩, ⟨k3.2, k4.2⟩⟩
  · unfold scale
    rw [k1.1, k2.1]
    rfl
  · unfold scale
    rw [k3.1, k4.1]
    rfl

theorem addForce_whole {f : Node → Pt} {v : Pt} {n : ℝ} (hf : ∀ m, WholePt n (f m)) (hv : WholePt (2 ^ 24) v)
    (hn : n + 2 ^ 24 ≤ 2 ^ 52) (m : Node) :
    addForce R.rnd f m v = addForce id f m v ∧ ∀ k, WholePt (n + 2 ^ 24) (addForce id f m v k) := by
  have key : ∀ k, WholePt (n + 2 ^ 24) (f k + v) := fun k => ⟨(hf k).1.add hv.1, (hf k).2.add hv.2⟩
  constructor
  · funext k
    unfold addForce
    split_ifs
    · unfold add
      have := key k
      rw [show R.rnd ((f k).x + v.x) = (f k).x + v.x from (this.1.mono hn).exact R,
        show R.rnd ((f k).y + v.y) = (f k).y + v.y from (this.2.mono hn).exact R]
      rfl
    · rfl
  · intro k
    unfold addForce
    split_ifs
    · exact key k
    · exact ⟨(hf k).1.mono (by norm_num), (hf k).2.mono (by norm_num)⟩

theorem fold_whole {at_ : Node → Pt} : ∀ (l : List Spring) (n : ℝ) (g g' : (Node → Pt) × Prop),
    (∀ y ∈ l, WholePt (2 ^ 20) (at_ y.a) ∧ WholePt (2 ^ 20) (at_ y.b) ∧ WholePt (2 ^ 20) y.desired) →
    g.1 = g'.1 → (∀ m, WholePt n (g'.1 m)) → n + l.length * 2 ^ 25 ≤ 2 ^ 52 →
    (l.foldl (fun acc s => let f := applyForces R.rnd s 8 at_ acc.1; (f.1, acc.2 ∨ f.2)) g).1 =
      (l.foldl (fun acc s => let f := applyForces id s 8 at_ acc.1; (f.1, acc.2 ∨ f.2)) g').1
  | [], _, _, _, _, h, _, _ => h
  | y :: l, n, g, g', hl, hg, hw, hn => by
    have hlen : (0 : ℝ) ≤ l.length := Nat.cast_nonneg _
    rw [List.length_cons] at hn
    push_cast at hn
    obtain ⟨ya, yb, yd⟩ := hl y (by simp)
    obtain ⟨f1, f2, w1, w2⟩ := whole_force R ya yb yd
    obtain ⟨a1, a2⟩ := addForce_whole R hw w1 (by norm_num at hn ⊢; linarith) y.a
    obtain ⟨c1, c2⟩ := addForce_whole R a2 w2 (by norm_num at hn ⊢; linarith) y.b
    refine fold_whole l (n + 2 ^ 24 + 2 ^ 24) _ _ (fun z hz => hl z (by simp [hz])) ?_ c2 (by norm_num at hn ⊢; linarith)
    show addForce R.rnd (addForce R.rnd g.1 y.a (scale R.rnd (deltaA R.rnd y at_) 8)) y.b
        (scale R.rnd (deltaB R.rnd y at_) 8) = _
    rw [f1, f2, hg, a1, c1]
    rfl

theorem forces_whole {at_ : Node → Pt} {l : List Spring} (hl : l.length ≤ 1000)
    (h : ∀ y ∈ l, WholePt (2 ^ 20) (at_ y.a) ∧ WholePt (2 ^ 20) (at_ y.b) ∧ WholePt (2 ^ 20) y.desired) :
    (calculateForces R.rnd 8 at_ l).1 = (Wobbly.calculateForces 8 at_ l).1 := by
  rw [← calculateForces_id]
  refine fold_whole R l 0 _ _ h rfl (fun m => ⟨⟨⟨0, by simp⟩, by simp⟩, ⟨⟨0, by simp⟩, by simp⟩⟩) ?_
  have : (l.length : ℝ) ≤ 1000 := by exact_mod_cast hl
  norm_num
  linarith

/-- Whole points that differ are at least a pixel apart. -/
theorem distance_whole {p q : Pt} (hx : Whole (2 ^ 20) (p.x - q.x)) (hy : Whole (2 ^ 20) (p.y - q.y)) :
    (p = q → distance R.rnd p q = 0) ∧ (p ≠ q → 1 ≤ distance R.rnd p q) := by
  have sq : ∀ x : ℝ, Whole (2 ^ 20) x → R.rnd (R.rnd x * R.rnd x) = x * x ∧ Whole (2 ^ 40) (x * x) := by
    intro x hx
    have hw : Whole (2 ^ 40) (x * x) := by
      obtain ⟨⟨m, rfl⟩, hm⟩ := hx
      refine ⟨⟨m * m, by push_cast; ring⟩, ?_⟩
      rw [abs_mul]
      have := mul_le_mul hm hm (abs_nonneg _) (by norm_num)
      norm_num at this ⊢
      exact this
    rw [(hx.mono (by norm_num)).exact R]
    exact ⟨(hw.mono (by norm_num)).exact R, hw⟩
  obtain ⟨x1, x2⟩ := sq _ hx
  obtain ⟨y1, y2⟩ := sq _ hy
  unfold distance
  rw [x1, y1, zero_add, (y2.mono (by norm_num)).exact R, ((y2.add x2).mono (by norm_num)).exact R]
  constructor
  · rintro rfl
    simp [rnd_zero]
  · intro hne
    have one : ∀ x : ℝ, Whole (2 ^ 20) x → x ≠ 0 → 1 ≤ x * x := by
      rintro _ ⟨⟨m, rfl⟩, -⟩ h0
      have hm : m ≠ 0 := by
        rintro rfl
        simp at h0
      have : 0 < m * m := mul_self_pos.2 hm
      exact_mod_cast this
    refine R.one_le ?_
    rw [Real.one_le_sqrt]
    by_cases h0 : p.x - q.x = 0
    · have h1 : p.y - q.y ≠ 0 := fun h1 => hne (Pt.ext (sub_eq_zero.1 h0) (sub_eq_zero.1 h1))
      have := one _ hy h1
      nlinarith [mul_self_nonneg (p.x - q.x)]
    · have := one _ hx h0
      nlinarith [mul_self_nonneg (p.y - q.y)]

/-- A whole point of a mesh of different whole points is its own closest one. -/
theorem closest_whole {m : Mesh} {i : Idx} (hw : ∀ j, Whole (2 ^ 20) ((m i).x - (m j).x) ∧ Whole (2 ^ 20) ((m i).y - (m j).y))
    (hd : ∀ j, m j = m i → j = i) (h0 : distance R.rnd (m i) (m 0) < dblMax) : closestIndex R.rnd m (m i) = some i := by
  obtain ⟨k, hk, hm⟩ := closest_some R h0
  have h1 := hm i
  rw [(distance_whole R (hw i).1 (hw i).2).1 rfl] at h1
  have : k = i := by
    apply hd
    by_contra hne
    have := (distance_whole R (hw k).1 (hw k).2).2 (fun h => hne h.symm)
    linarith
  rw [hk, this]

end

end Verif.Wobbly.Rounded
