import Verif.Props.BezierDouble
import Verif.Props.GVisit
import Verif.Spec.GDrawn

/-! # An `AnimationWobblyModel` is drawn where it was told to be (C148) -/

namespace Verif.Props

open Wobbly Spec Outcome GWobbly Classical

noncomputable section

section agree

open Wobbly.Rounded

variable {R : Rounding64} {L : Extended} {r : ℝ → ℝ} (hr : Agrees R r)

include hr

theorem coeff_agrees {t : ℝ} (h0 : 0 ≤ t) (h1 : t ≤ 1) (n : ℕ) :
    Rounded.bezierCoeff r t n = Rounded.bezierCoeff R.rnd t n ∧ |Rounded.bezierCoeff R.rnd t n| ≤ 2 ^ 10 := by
  obtain ⟨e1, b1⟩ := ag hr (x := 1 - t) (n := 0) (by rw [abs_le]; constructor <;> linarith)
  obtain ⟨e2, b2⟩ := ag hr (x := 3 * t) (n := 2) (by rw [abs_le]; constructor <;> linarith)
  have bt : |t| ≤ 2 ^ 0 := by rw [abs_le]; constructor <;> linarith
  obtain ⟨e3, b3⟩ := ag hr (pow_mul_le bt bt)
  obtain ⟨e4, b4⟩ := ag hr (pow_mul_le b1 b1)
  obtain ⟨e5, b5⟩ := ag hr (pow_mul_le b4 b1)
  obtain ⟨e6, b6⟩ := ag hr (pow_mul_le b2 b4)
  obtain ⟨e7, b7⟩ := ag hr (pow_mul_le (n := 2) (x := 3) (by norm_num [abs_of_pos]) b3)
  obtain ⟨e8, b8⟩ := ag hr (pow_mul_le b7 b1)
  obtain ⟨e9, b9⟩ := ag hr (pow_mul_le b3 bt)
  match n with
  | 0 => simp only [Rounded.bezierCoeff, e1, e4, e5]; exact ⟨trivial, pow_up b5 (by omega)⟩
  | 1 => simp only [Rounded.bezierCoeff, e1, e2, e4, e6]; exact ⟨trivial, pow_up b6 (by omega)⟩
  | 2 => simp only [Rounded.bezierCoeff, e1, e3, e7, e8]; exact ⟨trivial, pow_up b8 (by omega)⟩
  | n + 3 => simp only [Rounded.bezierCoeff, e3, e9]; exact ⟨trivial, pow_up b9 (by omega)⟩

omit hr in
theorem extended_le {x : ℝ} {n : ℕ} (h : |x| ≤ 2 ^ n) : |L.rnd x| ≤ 2 ^ (n + 2) := by
  have e := L.error x
  have t := abs_sub_abs_le_abs_sub (L.rnd x) x
  have one : (1 : ℝ) ≤ 2 ^ n := one_le_pow₀ (by norm_num)
  have k : (1 : ℝ) / 2 ^ 200 ≤ 1 := by
    rw [div_le_one (by positivity)]
    exact one_le_pow₀ (by norm_num)
  have k2 : |x| / 2 ^ 53 ≤ |x| := div_le_self (abs_nonneg _) (one_le_pow₀ (by norm_num))
  rw [pow_add]
  linarith

theorem accumulate_agrees {x cu cv m : ℝ} {n : ℕ} (hx : |x| ≤ 2 ^ n) (hn : 43 ≤ n) (hn' : n ≤ 400) (hu : |cu| ≤ 2 ^ 10)
    (hv : |cv| ≤ 2 ^ 10) (hm : |m| ≤ 2 ^ 19) :
    accumulate r L.rnd x cu cv m = accumulate R.rnd L.rnd x cu cv m ∧ |accumulate R.rnd L.rnd x cu cv m| ≤ 2 ^ (n + 3) := by
  have b1 := extended_le (L := L) (pow_mul_le hu hv)
  have b2 := extended_le (L := L) (pow_mul_le b1 hm)
  have b3 := extended_le (L := L) (pow_add_le hx (pow_up b2 (by omega : _ ≤ n)))
  exact ag hr b3

theorem loop_agrees {cu cv cu' cv' m : Idx → ℝ} (hu : ∀ i, cu' i = cu i ∧ |cu i| ≤ 2 ^ 10) (hv : ∀ i, cv' i = cv i ∧ |cv i| ≤ 2 ^ 10)
    (hm : ∀ i, |m i| ≤ 2 ^ 19) (l : List Idx) : ∀ (x : ℝ) (n : ℕ), |x| ≤ 2 ^ n → 43 ≤ n → n + 3 * l.length ≤ 400 →
      l.foldl (fun acc i => accumulate r L.rnd acc (cu' i) (cv' i) (m i)) x =
      l.foldl (fun acc i => accumulate R.rnd L.rnd acc (cu i) (cv i) (m i)) x := by
  induction l with
  | nil => intros; rfl
  | cons i l ih =>
    intro x n hx hn hl
    rw [List.length_cons] at hl
    obtain ⟨e, b⟩ := accumulate_agrees (L := L) hr hx hn (by omega) (hu i).2 (hv i).2 (hm i)
    rw [List.foldl_cons, List.foldl_cons, (hu i).1, (hv i).1, e]
    exact ih _ _ b (by omega) (by omega)

theorem deform_agrees {m : Mesh} {uv : Pt} (hm : ∀ k, |(m k).x| ≤ 2 ^ 19 ∧ |(m k).y| ≤ 2 ^ 19)
    (hu : 0 ≤ uv.x ∧ uv.x ≤ 1) (hv : 0 ≤ uv.y ∧ uv.y ≤ 1) :
    Rounded.deformTexcoords r L.rnd m uv = Rounded.deformTexcoords R.rnd L.rnd m uv := by
  have cu := fun i : Idx => coeff_agrees hr hu.1 hu.2 (row i)
  have cv := fun i : Idx => coeff_agrees hr hv.1 hv.2 (col i)
  have h1 := loop_agrees (L := L) hr cu cv (fun k => (hm k).1) (List.finRange 16) 0 43 (by simp) le_rfl (by simp)
  have h2 := loop_agrees (L := L) hr cu cv (fun k => (hm k).2) (List.finRange 16) 0 43 (by simp) le_rfl (by simp)
  have sp := fun q : ℝ → ℝ => loop_split
    (fun acc i => accumulate q L.rnd acc (Rounded.bezierCoeff q uv.x (row i)) (Rounded.bezierCoeff q uv.y (col i)) (m i).x)
    (fun acc i => accumulate q L.rnd acc (Rounded.bezierCoeff q uv.x (row i)) (Rounded.bezierCoeff q uv.y (col i)) (m i).y)
    (List.finRange 16) ⟨0, 0⟩
  unfold Rounded.deformTexcoords
  rw [sp r, sp R.rnd]
  simp only at h1 h2 ⊢
  rw [h1, h2]

end agree

variable {R : Rounding64} {L : Extended} {rd : ℝ → ℝ} {g : GState} {o : Spot} {n : ℕ}

theorem lowest {f P : Idx → ℝ} {c d l : ℝ} {i : Idx} (near : ∀ j, |f j - P j| ≤ d) (hl : |l - f i| ≤ 1 / 2) (least : ∀ j, f i ≤ f j)
    (at_ : ∃ j, P j = c) (above : ∀ j, c ≤ P j) : |l - c| ≤ 1 / 2 + d := by
  obtain ⟨j, rfl⟩ := at_
  have h1 := abs_le.1 (near i)
  have h2 := abs_le.1 (near j)
  have h3 := abs_le.1 hl
  have h4 := least j
  have h5 := above i
  rw [abs_le]
  constructor <;> linarith

theorem highest {f P : Idx → ℝ} {c d l : ℝ} {i : Idx} (near : ∀ j, |f j - P j| ≤ d) (hl : |l - f i| ≤ 1 / 2) (most : ∀ j, f j ≤ f i)
    (at_ : ∃ j, P j = c) (below : ∀ j, P j ≤ c) : |l - c| ≤ 1 / 2 + d := by
  obtain ⟨j, rfl⟩ := at_
  have h1 := abs_le.1 (near i)
  have h2 := abs_le.1 (near j)
  have h3 := abs_le.1 hl
  have h4 := most j
  have h5 := below i
  rw [abs_le]
  constructor <;> linarith

/-- What is read of a mesh that is close to the lattice at a spot on the screen. -/
theorem drawn_of_close (hr : ∀ x, |x| ≤ 2 ^ 500 → rd x = R.rnd x) (on : o.OnScreen) {d : ℝ} (hd : d ≤ 1 / 4) (h : GClose d g o) :
    DrawnAt rd L.rnd (1 / 262144 + d) g o ∧ FramedAt (1 / 2 + d) g o := by
  obtain ⟨s, hm, hs⟩ := h
  obtain ⟨hb, hq⟩ := near_rectangle R L (m := s.pos) on (by linarith) hs
  have big : ∀ k, |(s.pos k).x| ≤ 2 ^ 19 ∧ |(s.pos k).y| ≤ 2 ^ 19 := fun k =>
    ⟨(hb k).1.trans (by norm_num), (hb k).2.trans (by norm_num)⟩
  refine ⟨fun uv old hu hv => ?_, fun old => ?_⟩
  · refine ⟨Rounded.deformTexcoords rd L.rnd s.pos uv, by simp only [GRead.Rounded.deformTexcoords, hm], ?_⟩
    rw [deform_agrees hr big hu hv]
    exact hq uv hu hv
  · have m19 : (2 : ℝ) ^ 19 ≤ maxDouble := by
      unfold maxDouble
      have h : (1 : ℝ) ≤ 2 ^ 971 := one_le_pow₀ (by norm_num)
      generalize (2 : ℝ) ^ 971 = y at h
      norm_num
      linarith
    obtain ⟨l, r, t, b, e, ⟨i1, ⟨⟨zl, el⟩, l1⟩, l2⟩, ⟨i2, ⟨⟨zr, er⟩, r1⟩, r2⟩, ⟨i3, ⟨⟨zt, et⟩, t1⟩, t2⟩, ⟨i4, ⟨⟨zb, eb⟩, b1⟩, b2⟩⟩ :=
      C57_extremes s.pos fun k => ⟨(big k).1.trans m19, (big k).2.trans m19⟩
    have w0 : 0 ≤ o.width / 3 := by linarith [on.widthMin]
    have h0 : 0 ≤ o.height / 3 := by linarith [on.heightMin]
    have c0 : ∀ k : Idx, (0 : ℝ) ≤ (k.val % 4 : ℕ) ∧ ((k.val % 4 : ℕ) : ℝ) ≤ 3 := fun k =>
      ⟨Nat.cast_nonneg _, by exact_mod_cast (by omega : k.val % 4 ≤ 3)⟩
    have r0 : ∀ k : Idx, (0 : ℝ) ≤ (k.val / 4 : ℕ) ∧ ((k.val / 4 : ℕ) : ℝ) ≤ 3 := fun k =>
      ⟨Nat.cast_nonneg _, by exact_mod_cast (by omega : k.val / 4 ≤ 3)⟩
    have kl := lowest (fun k => (hs k).1) l1 l2 (c := o.place.x) ⟨0, by simp [Spot.point]⟩ fun k => by
      have := mul_nonneg (c0 k).1 w0
      simp only [Spot.point]
      linarith
    have kt := lowest (fun k => (hs k).2) t1 t2 (c := o.place.y) ⟨0, by simp [Spot.point]⟩ fun k => by
      have := mul_nonneg (r0 k).1 h0
      simp only [Spot.point]
      linarith
    have kr := highest (fun k => (hs k).1) r1 r2 (c := o.place.x + o.width) ⟨3, by simp [Spot.point]; ring⟩ fun k => by
      have := mul_le_mul_of_nonneg_right (c0 k).2 w0
      simp only [Spot.point]
      linarith
    have kb := highest (fun k => (hs k).2) b1 b2 (c := o.place.y + o.height) ⟨12, by simp [Spot.point]; ring⟩ fun k => by
      have := mul_le_mul_of_nonneg_right (r0 k).2 h0
      simp only [Spot.point]
      linarith
    refine ⟨_, _, _, _, by simp only [GRead.queryExtremes, hm, e, Option.map_some]; rfl, ?_, ?_, ?_, ?_, zl, zr, zt, zb, ?_⟩
    · simpa [Near, Spot.spread] using And.intro kl kt
    · simpa [Near, Spot.spread] using And.intro kr kt
    · simpa [Near, Spot.spread] using And.intro kl kb
    · simpa [Near, Spot.spread] using And.intro kr kb
    · rw [el, er, et, eb]
      exact ⟨rfl, rfl, rfl, rfl⟩

/-- **C148.** A program makes an `AnimationWobblyModel` and drags it about as in C135. Whenever it holds no anchor, the texture is
drawn on the rectangle that it asked for: each place is off by at most 2^-18 pixels per call that moved, dragged or resized, and
twice that; the extremes are the corners of the rectangle to within half a pixel and that. Nothing overflows: whatever the
arithmetic yields beyond 2^500, also while reading, the same holds. -/
theorem C148_drawn (hr : ∀ x, |x| ≤ 2 ^ 500 → rd x = R.rnd x) (H : GHandled rd g o n) (hn : n < 65536) :
    DrawnAt rd L.rnd ((n + 2) / 262144) g o ∧ FramedAt (1 / 2 + (n + 1) / 262144) g o := by
  obtain ⟨t, s, I⟩ := ghandled_idle (R := R) (Or.inr hr) H hn
  have hn' : (n : ℝ) + 1 ≤ 65536 := by exact_mod_cast hn
  have := drawn_of_close (L := L) hr I.quiet.on (by linarith) (I.dependable (R := R) (Or.inr hr)).close
  rwa [show 1 / 262144 + ((n : ℝ) + 1) / 262144 = (n + 2) / 262144 by ring] at this

/-- **C148.** The same holds while the program has an anchor, grabbed anywhere or inserted into the rectangle, once a step of some
length has answered false. -/
theorem C148_drawn_held (hr : ∀ x, |x| ≤ 2 ^ 500 → rd x = R.rnd x) (H : GHandled rd g o n) {q : Pt} {first : GOp}
    (gets : (first = .grab q ∧ |q.x| ≤ 32768 ∧ |q.y| ≤ 32768) ∨ (first = .insert q ∧ o.Covers q))
    {g1 g2 g3 : GState} {a t : ℕ} (got : GWobbly.Rounded.exec rd g first = .ok (g1, .anchor a))
    {held : List HeldOp} {ops : List GOp} {rs : List GRes} (on : o.StaysHeld held) (asks : List.Forall₂ (AsksHeld a) held ops)
    (hn : n + heldEdits held < 65536) (dragged : GWobbly.Rounded.run rd g1 ops = .ok (g2, rs)) (ht : t ≠ 0)
    (rested : GWobbly.Rounded.exec rd g2 (.step t) = .ok (g3, .more False)) :
    DrawnAt rd L.rnd ((n + heldEdits held + 2) / 262144) g3 (o.heldAll held) ∧
    FramedAt (1 / 2 + (n + heldEdits held + 1) / 262144) g3 (o.heldAll held) := by
  obtain ⟨D, A⟩ := C135_glib_no_overflow R hr H (by omega)
  have hn' : (n : ℝ) + heldEdits held + 1 ≤ 65536 := by exact_mod_cast hn
  have onAll : (o.heldAll held).OnScreen := by simpa using on held.length
  have close : GClose ((n + heldEdits held + 1) / 262144) g3 (o.heldAll held) := by
    rcases gets with ⟨rfl, qx, qy⟩ | ⟨rfl, hq⟩
    · obtain ⟨k1, e1, -, i, -, G⟩ := D.grabs q qx qy
      rw [got, Outcome.ok.injEq, Prod.mk.injEq, GRes.anchor.injEq] at e1
      obtain ⟨rfl, rfl⟩ := e1
      obtain ⟨k2, ks, e2, -, G2⟩ := G held ops on asks hn
      rw [dragged, Outcome.ok.injEq, Prod.mk.injEq] at e2
      obtain ⟨rfl, rfl⟩ := e2
      obtain ⟨k3, more, e3, G3⟩ := G2 t ht
      rw [rested, Outcome.ok.injEq, Prod.mk.injEq, GRes.more.injEq] at e3
      obtain ⟨rfl, rfl⟩ := e3
      exact (G3 not_false).1
    · obtain ⟨k1, e1, -, -, G⟩ := A q hq
      rw [got, Outcome.ok.injEq, Prod.mk.injEq, GRes.anchor.injEq] at e1
      obtain ⟨rfl, rfl⟩ := e1
      obtain ⟨k2, ks, e2, -, G2⟩ := G held ops on asks hn
      rw [dragged, Outcome.ok.injEq, Prod.mk.injEq] at e2
      obtain ⟨rfl, rfl⟩ := e2
      obtain ⟨k3, more, e3, G3⟩ := G2 t ht
      rw [rested, Outcome.ok.injEq, Prod.mk.injEq, GRes.more.injEq] at e3
      obtain ⟨rfl, rfl⟩ := e3
      exact (G3 not_false).1
  have := drawn_of_close (L := L) hr onAll (by linarith) close
  rwa [show 1 / 262144 + ((n : ℝ) + heldEdits held + 1) / 262144 = (n + heldEdits held + 2) / 262144 by ring] at this

/-- A new model of 300 by 200 at (10, 20), with an anchor inserted at (60, 70) and stepped: the middle of the texture is
drawn at (160, 120). -/
example (R : Rounding64) (L : Extended) : ∃ g g1 g2, GHandled R.rnd g ⟨⟨10, 20⟩, (300 : ℕ), (200 : ℕ)⟩ 0 ∧
    GWobbly.Rounded.exec R.rnd g (.insert ⟨60, 70⟩) = .ok (g1, .anchor 0) ∧
    GWobbly.Rounded.exec R.rnd g1 (.step 16) = .ok (g2, .more False) ∧
    ∃ q, GRead.Rounded.deformTexcoords R.rnd L.rnd g2 ⟨1 / 2, 1 / 2⟩ (some ⟨0, 0⟩) = .ok (some q) ∧ Near (1 / 131072) q ⟨160, 120⟩ := by
  have on : Spot.OnScreen ⟨⟨10, 20⟩, (300 : ℕ), (200 : ℕ)⟩ := ⟨by norm_num [abs_le], by norm_num [abs_le], by norm_num, by norm_num,
    double_nat (by omega), by norm_num, by norm_num, double_nat (by omega)⟩
  have H0 : GHandled R.rnd _ ⟨⟨10, 20⟩, (300 : ℕ), (200 : ℕ)⟩ 0 :=
    .new (k := 8) (f := 3) (m := 500) (b := 0) (by unfold Spec.InRange; norm_num) on (GWobbly.Rounded.new_ok _ _ _ _ _ _)
  have inside : Spot.Covers ⟨⟨10, 20⟩, (300 : ℕ), (200 : ℕ)⟩ ⟨60, 70⟩ := ⟨⟨by norm_num, by norm_num⟩, by norm_num, by norm_num⟩
  obtain ⟨g1, e1, -, calm, -⟩ := (C135_glib_in_doubles R H0 (by norm_num)).2 ⟨60, 70⟩ inside
  obtain ⟨g2, e2⟩ := calm 16 (by norm_num)
  have h := (C148_drawn_held (L := L) (fun _ _ => rfl) H0 (Or.inr ⟨rfl, inside⟩) e1 (held := []) (ops := []) (rs := [])
    (fun k => by simpa [Spot.heldAll] using on) .nil (by simp [heldEdits]) rfl (t := 16) (by norm_num) e2).1
  obtain ⟨q, hq, near⟩ := h ⟨1 / 2, 1 / 2⟩ ⟨0, 0⟩ (by norm_num) (by norm_num)
  refine ⟨_, g1, g2, H0, e1, e2, q, hq, ?_⟩
  norm_num [Near, Spot.spread, Spot.heldAll, heldEdits] at near ⊢
  exact near

end

end Verif.Props
