import Verif.Spec.OnTime
import Verif.Props.FrameRate
import Verif.Props.Rounding
import Verif.Props.GlideAccuracy
import Verif.Props.LampRows

/-! # What a computed animation shows is what is due at the time (C123) -/

namespace Verif.Props

open XR (fin)
open Spec

noncomputable section

section
variable {P O S : Type}

theorem deltas_length (ops : List (AnimOp S)) : (deltas ops).length = frames ops := by
  induction ops with
  | nil => rfl
  | cons o ops ih => cases o <;> simp [deltas, frames, ih]

theorem deltas_mem {ops : List (AnimOp S)} {m : ℕ} (h : m ∈ deltas ops) : AnimOp.step m ∈ ops := by
  induction ops with
  | nil => cases h
  | cons o ops ih =>
    cases o with
    | step ms =>
      rcases List.mem_cons.1 h with rfl | h
      · exact List.mem_cons_self
      · exact List.mem_cons_of_mem _ (ih h)
    | set x => exact List.mem_cons_of_mem _ (ih h)
    | setStepper s => exact List.mem_cons_of_mem _ (ih h)

/-- Setters do not matter for the progress. -/
theorem progress_deltas (K : AnimClass P O S) (p : P) (o : O) (s : Stepper) (ops : List (AnimOp S)) (hk : KeepsStepper ops)
    (m : ℕ) : (K.step (K.run (K.new p o s).1 ops) m).1.progress =
      (K.run (K.new p o s).1 (steps (deltas ops ++ [m]))).progress := by
  have : steps (S := S) (deltas ops ++ [m]) = steps (deltas ops) ++ [.step m] := by simp [steps]
  rw [this, run_append]
  show clamp ((K.run (K.new p o s).1 ops).stepper.value m) (fin 0) (fin 1) =
    clamp ((K.run (K.new p o s).1 (steps (deltas ops))).stepper.value m) (fin 0) (fin 1)
  rw [run_advance K ops hk, run_steps_stepper]

/-- The progress is near what is due. -/
theorem progress_due (R : Rounding) (K : AnimClass P O S) (p : P) (o : O) {L : ℝ} (hL : 0 < L) {s : Stepper} {t : ℝ}
    (ops : List (AnimOp S)) (hk : KeepsStepper ops) (m : ℕ) (hf : ShortFrames (ops ++ [.step m]))
    (hd : DueAt R L s (elapsed ops + m) t) :
    0 ≤ t ∧ t ≤ 1 ∧ ∃ x : ℝ, (K.step (K.run (K.new p o s).1 ops) m).1.progress = fin x ∧
      |x - t| ≤ (frames ops + 2) / 2 ^ 24 := by
  have hsum : (deltas ops ++ [m]).sum = elapsed ops + m := by rw [List.sum_append, deltas_sum]; simp
  have hlen : (deltas ops ++ [m]).length = frames ops + 1 := by rw [List.length_append, deltas_length]; rfl
  have hall : ∀ k ∈ deltas ops ++ [m], k ≤ 2 ^ 24 := fun k h => by
    rcases List.mem_append.1 h with h | h
    · exact hf k (List.mem_append_left _ (deltas_mem h))
    · rw [List.mem_singleton] at h
      exact hf k (List.mem_append_right _ (by rw [h]; exact List.mem_singleton_self _))
  have hpos : (0 : ℝ) ≤ ((elapsed ops + m : ℕ) : ℝ) / L := by positivity
  rw [progress_deltas K p o s ops hk m]
  rcases hd with ⟨rfl, rfl⟩ | ⟨rfl, rfl⟩
  · refine ⟨le_min zero_le_one hpos, min_le_left _ _, ?_⟩
    obtain ⟨x, e, h⟩ := C88_accurate R K p o hL _ hall
    refine ⟨x, e, ?_⟩
    rw [hsum, hlen] at h
    refine h.trans (div_le_div_of_nonneg_right ?_ (by norm_num))
    push_cast
    linarith
  · refine ⟨le_max_left _ _, max_le zero_le_one (by linarith), ?_⟩
    obtain ⟨x, e, h⟩ := C88_reverse_accurate R K p o hL _ hall
    refine ⟨x, e, ?_⟩
    rw [hsum, hlen] at h
    refine h.trans (div_le_div_of_nonneg_right ?_ (by norm_num))
    push_cast
    linarith

end

variable (R : Rounding) (D : Rounding64) (sin sinf cosf : ℝ → ℝ)

local notation "MM" => Machine.ieee R D sin sinf cosf

/-! ## Zoom -/

theorem lerp_move {c a b a' b' r t e : ℝ} (hc : |c| ≤ 1) (ha : |a| ≤ 8192) (hb : |b| ≤ 8192) (ha' : |a'| ≤ 8192)
    (hb' : |b'| ≤ 8192) (h : |r - t| ≤ e) :
    |lerp c (lerp r a a') (lerp r b b') - lerp c (lerp t a a') (lerp t b b')| ≤ 49152 * e := by
  have he : lerp c (lerp r a a') (lerp r b b') - lerp c (lerp t a a') (lerp t b b') =
      ((1 - c) * (a' - a) + c * (b' - b)) * (r - t) := by
    unfold lerp
    ring
  have h1 : |a' - a| ≤ 16384 := (abs_sub _ _).trans (by linarith)
  have h2 : |b' - b| ≤ 16384 := (abs_sub _ _).trans (by linarith)
  have h3 : |1 - c| ≤ 2 := (abs_sub _ _).trans (by rw [abs_one]; linarith)
  have h4 : |(1 - c) * (a' - a) + c * (b' - b)| ≤ 49152 := by
    refine (abs_add_le _ _).trans ?_
    rw [abs_mul, abs_mul]
    have k1 := mul_le_mul h3 h1 (abs_nonneg _) (by norm_num)
    have k2 := mul_le_mul hc h2 (abs_nonneg _) (by norm_num)
    linarith
  rw [he, abs_mul]
  exact mul_le_mul h4 h (abs_nonneg _) (by norm_num)

theorem add_error {x y z a b : ℝ} (h : |x - y| ≤ a) (h' : |y - z| ≤ b) : |x - z| ≤ a + b :=
  (abs_sub_le x y z).trans (add_le_add h h')

/-- **C123.** After a Step of a Zoom every corner is where it is due at the time, up to a 32nd of a pixel and three 1024ths
for every frame. -/
theorem C123_zoom {L : ℝ} (hL : 0 < L) {s : Stepper} (f0 t0 : Box) (ops : List (AnimOp Zoom.Setter)) (hk : KeepsStepper ops)
    (m : ℕ) (hm : ShortFrames (ops ++ [.step m])) {t : ℝ} (hd : DueAt R L s (elapsed ops + m) t) (f b : Box)
    (hp : ((MM).zoom.run ((MM).zoomNew f0 t0 s).1 ops).params = ⟨Machine.ofBox f, Machine.ofBox b⟩)
    (hf : OnScreen f) (hb : OnScreen b) (hs : 1 ≤ |b.br.x - b.tl.x| ∧ 1 ≤ |b.br.y - b.tl.y|)
    (corners : Fin 4 → Pt) (i : Fin 4)
    (hc : |(corners i).x| ≤ |b.br.x - b.tl.x| ∧ |(corners i).y| ≤ |b.br.y - b.tl.y|) :
    ∃ x y : ℝ, (MM).extremes ((MM).zoom.step ((MM).zoom.run ((MM).zoomNew f0 t0 s).1 ops) m).1 corners i =
        ⟨fin x, fin y, fin 0, fin 1⟩ ∧
      |x - (between t f b (corners i)).x| ≤ 1 / 32 + 3 / 1024 * (frames ops + 2) ∧
      |y - (between t f b (corners i)).y| ≤ 1 / 32 + 3 / 1024 * (frames ops + 2) := by
  obtain ⟨r, x, y, er, ee, ex, ey⟩ := C100_zoom R D sin sinf cosf _ f b hp m hf hb hs corners i hc
  obtain ⟨-, -, r', er', hr⟩ := progress_due R (MM).zoom _ Machine.ident hL ops hk m hm hd
  have e : r = r' := by
    have h : fin r = fin r' := er.symm.trans er'
    rwa [XR.fin_inj] at h
  subst e
  have c1 : |(corners i).x / (b.br.x - b.tl.x)| ≤ 1 := by
    rw [abs_div, div_le_one (by linarith [hs.1])]
    exact hc.1
  have c2 : |(corners i).y / (b.br.y - b.tl.y)| ≤ 1 := by
    rw [abs_div, div_le_one (by linarith [hs.2])]
    exact hc.2
  have k1 := lerp_move c1 hf.1 hf.2.2.1 hb.1 hb.2.2.1 hr
  have k2 := lerp_move c2 hf.2.1 hf.2.2.2 hb.2.1 hb.2.2.2 hr
  refine ⟨x, y, ee, (add_error ex (b := 3 / 1024 * (frames ops + 2)) ?_), (add_error ey (b := 3 / 1024 * (frames ops + 2)) ?_)⟩
  · unfold between
    rw [sub_sub_sub_cancel_right]
    refine k1.trans (le_of_eq ?_)
    ring
  · unfold between
    rw [sub_sub_sub_cancel_right]
    refine k2.trans (le_of_eq ?_)
    ring

/-- The source box of a Zoom made with `f` after a history: the box set last, or `f` when none was set. -/
def sourceBox (f : Box) (ops : List (AnimOp Zoom.Setter)) : Box :=
  ops.foldl (fun c op => match op with
    | .set (.frm b) => b
    | _ => c) f

/-- The four coordinates of a box as the code holds them are those given, unless an edge is doubled. -/
theorem ensure_wide {b : Box} (hx : b.br.x ≠ b.tl.x) (hy : b.br.y ≠ b.tl.y) :
    (MM).ensureNonZeroArea (Machine.ofBox b) = Machine.ofBox b := by
  simp only [Machine.ensureNonZeroArea, Machine.ofBox, Machine.widen, XR.fin_inj, if_neg hx, if_neg hy]

theorem zoom_params (ops : List (AnimOp Zoom.Setter)) : ∀ (f b : Box) (a : Anim Machine.ZoomParams Mat32),
    a.params = ⟨Machine.ofBox f, Machine.ofBox b⟩ →
    ((MM).zoom.run a ops).params = ⟨Machine.ofBox (sourceBox f ops), Machine.ofBox b⟩ := by
  induction ops with
  | nil => exact fun f b a h => h
  | cons op ops ih =>
    intro f b a h
    cases op with
    | step ms => exact ih f b _ h
    | setStepper s => exact ih f b _ h
    | set s =>
      cases s with
      | frm c =>
        refine ih c b _ ?_
        show Machine.zoomSetter a.params (.frm c) = _
        rw [h]
        rfl

/-- **C123.** The same in terms of the boxes the caller gave: a Zoom made with the boxes `f0` and `t0`, neither of them flat,
whose source box may have been set again since. -/
theorem C123_zoom_given {L : ℝ} (hL : 0 < L) {s : Stepper} (f0 t0 : Box) (ops : List (AnimOp Zoom.Setter)) (hk : KeepsStepper ops)
    (m : ℕ) (hm : ShortFrames (ops ++ [.step m])) {t : ℝ} (hd : DueAt R L s (elapsed ops + m) t)
    (hw : f0.br.x ≠ f0.tl.x ∧ f0.br.y ≠ f0.tl.y)
    (hf : OnScreen (sourceBox f0 ops)) (hb : OnScreen t0) (hs : 1 ≤ |t0.br.x - t0.tl.x| ∧ 1 ≤ |t0.br.y - t0.tl.y|)
    (corners : Fin 4 → Pt) (i : Fin 4)
    (hc : |(corners i).x| ≤ |t0.br.x - t0.tl.x| ∧ |(corners i).y| ≤ |t0.br.y - t0.tl.y|) :
    ∃ x y : ℝ, (MM).extremes ((MM).zoom.step ((MM).zoom.run ((MM).zoomNew f0 t0 s).1 ops) m).1 corners i =
        ⟨fin x, fin y, fin 0, fin 1⟩ ∧
      |x - (between t (sourceBox f0 ops) t0 (corners i)).x| ≤ 1 / 32 + 3 / 1024 * (frames ops + 2) ∧
      |y - (between t (sourceBox f0 ops) t0 (corners i)).y| ≤ 1 / 32 + 3 / 1024 * (frames ops + 2) := by
  have ne : ∀ {x y : ℝ}, 1 ≤ |x - y| → x ≠ y := by
    rintro x y h rfl
    rw [sub_self, abs_zero] at h
    linarith
  refine C123_zoom R D sin sinf cosf hL f0 t0 ops hk m hm hd _ _ ?_ hf hb hs corners i hc
  refine zoom_params R D sin sinf cosf ops f0 t0 _ ?_
  show Machine.ZoomParams.mk _ _ = _
  rw [ensure_wide R D sin sinf cosf hw.1 hw.2, ensure_wide R D sin sinf cosf (ne hs.1) (ne hs.2)]

/-! ## Bounce -/

theorem size_move {p : Bounce.Params} (hi0 : 0 ≤ p.initialScale) (hi2 : p.initialScale ≤ 2) (hm0 : 0 ≤ p.maximumScale)
    (hm2 : p.maximumScale ≤ 2) {r t e : ℝ} (h0 : 0 ≤ t) (h1 : t ≤ 1) (h : |r - t| ≤ e) :
    |bounceSize p r - bounceSize p t| ≤ (3 + 6.3 * p.nBounce) * e := by
  have he : bounceSize p r - bounceSize p t = (1 - p.initialScale) * (r - t) +
      (p.maximumScale - p.initialScale) * ((1 - t) * (Real.sin (r * Real.pi * p.nBounce) - Real.sin (t * Real.pi * p.nBounce)) -
        (r - t) * Real.sin (r * Real.pi * p.nBounce)) := by
    unfold bounceSize lerp
    ring
  have k1 : |1 - p.initialScale| ≤ 1 := abs_le.2 ⟨by linarith, by linarith⟩
  have k2 : |p.maximumScale - p.initialScale| ≤ 2 := abs_le.2 ⟨by linarith, by linarith⟩
  have k3 : |1 - t| ≤ 1 := abs_le.2 ⟨by linarith, by linarith⟩
  have hn : (0 : ℝ) ≤ p.nBounce := Nat.cast_nonneg _
  have he0 : 0 ≤ e := (abs_nonneg _).trans h
  have k4 : |Real.sin (r * Real.pi * p.nBounce) - Real.sin (t * Real.pi * p.nBounce)| ≤ 3.15 * p.nBounce * e := by
    refine (Real.abs_sin_sub_sin_le _ _).trans ?_
    rw [← sub_mul, ← sub_mul, abs_mul, abs_mul, abs_of_pos Real.pi_pos, abs_of_nonneg hn]
    have hpi := Real.pi_lt_d2
    have a1 := mul_le_mul h hpi.le Real.pi_pos.le he0
    have a2 := mul_le_mul_of_nonneg_right a1 hn
    linarith
  have k5 := Real.abs_sin_le_one (r * Real.pi * p.nBounce)
  have k6 : |(1 - t) * (Real.sin (r * Real.pi * p.nBounce) - Real.sin (t * Real.pi * p.nBounce)) -
        (r - t) * Real.sin (r * Real.pi * p.nBounce)| ≤ 3.15 * p.nBounce * e + e := by
    refine (abs_sub _ _).trans ?_
    rw [abs_mul, abs_mul]
    have a1 := mul_le_mul k3 k4 (abs_nonneg _) zero_le_one
    have a2 := mul_le_mul h k5 (abs_nonneg _) he0
    linarith
  rw [he]
  refine (abs_add_le _ _).trans ?_
  rw [abs_mul, abs_mul]
  have a1 := mul_le_mul k1 h (abs_nonneg _) zero_le_one
  have a2 := mul_le_mul k2 k6 (abs_nonneg _) (by norm_num)
  linarith

theorem half_le {lo hi : ℝ} (h : |lo| ≤ 8192) (h' : |hi| ≤ 8192) : |(hi - lo) / 2| ≤ 8192 := by
  rw [abs_div, abs_of_pos (by norm_num : (0 : ℝ) < 2)]
  linarith [abs_sub hi lo]

theorem scaled_move {c q S S' N e : ℝ} (hc : |c| ≤ 8192) (hq : |q| ≤ 16384) (h : |S - S'| ≤ (3 + 6.3 * N) * (e / 2 ^ 24))
    (hN : 0 ≤ N) (he : 0 ≤ e) : |c + S * (q - c) - (c + S' * (q - c))| ≤ (N + 1) / 100 * e := by
  rw [show c + S * (q - c) - (c + S' * (q - c)) = (S - S') * (q - c) by ring, abs_mul]
  have h1 : |q - c| ≤ 24576 := (abs_sub _ _).trans (by linarith)
  have h2 := mul_le_mul h h1 (abs_nonneg _) ((abs_nonneg _).trans h)
  have h3 := mul_nonneg hN he
  norm_num at *
  linarith

/-- **C123.** After a Step of a Bounce every corner is where it is due at the time, up to a 16th of a pixel and a hundredth
for every frame and every bounce. -/
theorem C123_bounce (hsin : ∀ x, |x| ≤ 2 ^ 20 → |sin x - Real.sin x| ≤ 1 / 2 ^ 30) {L : ℝ} (hL : 0 < L) {s : Stepper}
    (p0 : Bounce.Params) (ops : List (AnimOp Bounce.Setter)) (hk : KeepsStepper ops)
    (m : ℕ) (hm : ShortFrames (ops ++ [.step m])) {t : ℝ} (hd : DueAt R L s (elapsed ops + m) t) (p : Bounce.Params)
    (hp : ((MM).bounce.run ((MM).bounceNew p0 s).1 ops).params = p)
    (hi : 0 ≤ p.initialScale ∧ p.initialScale ≤ 2) (hmx : 0 ≤ p.maximumScale ∧ p.maximumScale ≤ 2) (hn : p.nBounce ≤ 1000)
    (hb : OnScreen p.target) (corners : Fin 4 → Pt) (i : Fin 4) (hc : |(corners i).x| ≤ 16384 ∧ |(corners i).y| ≤ 16384) :
    ∃ x y : ℝ, (MM).extremes ((MM).bounce.step ((MM).bounce.run ((MM).bounceNew p0 s).1 ops) m).1 corners i =
        ⟨fin x, fin y, fin 0, fin 1⟩ ∧
      |x - (scaledAbout p.target (bounceSize p t) (corners i)).x| ≤ 1 / 16 + ((p.nBounce : ℝ) + 1) / 100 * (frames ops + 2) ∧
      |y - (scaledAbout p.target (bounceSize p t) (corners i)).y| ≤ 1 / 16 + ((p.nBounce : ℝ) + 1) / 100 * (frames ops + 2) := by
  subst hp
  obtain ⟨r, S, x, y, er, rfl, ee, ex, ey⟩ := C99_bounce R D sin sinf cosf hsin _ m hi.1 hi.2 hmx.1 hmx.2 hn hb corners i hc
  obtain ⟨t0, t1, r', er', hr⟩ := progress_due R (MM).bounce p0 Machine.ident hL ops hk m hm hd
  have e : r = r' := by
    have h : fin r = fin r' := er.symm.trans er'
    rwa [XR.fin_inj] at h
  subst e
  have k := size_move hi.1 hi.2 hmx.1 hmx.2 t0 t1 hr
  have hN : (0 : ℝ) ≤ (((MM).bounce.run ((MM).bounceNew p0 s).1 ops).params.nBounce : ℝ) := Nat.cast_nonneg _
  have he : (0 : ℝ) ≤ (frames ops : ℝ) + 2 := by positivity
  exact ⟨x, y, ee, add_error ex (scaled_move (half_le hb.1 hb.2.2.1) hc.1 k hN he),
    add_error ey (scaled_move (half_le hb.2.1 hb.2.2.2) hc.2 k hN he)⟩

/-! ## Glide -/

theorem cos_move {u v d : ℝ} (h : |u - v| ≤ d) : |Real.cos u - Real.cos v| ≤ d := (Real.abs_cos_sub_cos_le u v).trans h

theorem sin_move {u v d : ℝ} (h : |u - v| ≤ d) : |Real.sin u - Real.sin v| ≤ d := (Real.abs_sin_sub_sin_le u v).trans h

/-- How far the turned point moves when the angles change by at most `d`. -/
theorem turned_move {X Y Z A A' B B' d : ℝ} (hX : |X| ≤ 32768) (hY : |Y| ≤ 32768) (hZ : |Z| ≤ 1) (hA : |A - A'| ≤ d)
    (hB : |B - B'| ≤ d) :
    |X * Real.cos B + Z * Real.sin B - (X * Real.cos B' + Z * Real.sin B')| ≤ 98306 * d ∧
    |Y * Real.cos A - (Z * Real.cos B - X * Real.sin B) * Real.sin A -
      (Y * Real.cos A' - (Z * Real.cos B' - X * Real.sin B') * Real.sin A')| ≤ 98306 * d ∧
    |Y * Real.sin A + (Z * Real.cos B - X * Real.sin B) * Real.cos A -
      (Y * Real.sin A' + (Z * Real.cos B' - X * Real.sin B') * Real.cos A')| ≤ 98306 * d := by
  have hd : 0 ≤ d := (abs_nonneg _).trans hA
  have cA := cos_move hA
  have sA := sin_move hA
  have cB := cos_move hB
  have sB := sin_move hB
  have m := fun {a b x y : ℝ} (h : |a| ≤ x) (h' : |b| ≤ y) => by
    have := mul_le_mul h h' (abs_nonneg _) ((abs_nonneg _).trans h)
    rw [← abs_mul] at this
    exact this
  have zB : |Z * Real.cos B - X * Real.sin B| ≤ 32769 := by
    refine (abs_sub _ _).trans ?_
    have a1 := m hZ (Real.abs_cos_le_one B)
    have a2 := m hX (Real.abs_sin_le_one B)
    linarith
  have dz : |Z * Real.cos B - X * Real.sin B - (Z * Real.cos B' - X * Real.sin B')| ≤ 32769 * d := by
    rw [show Z * Real.cos B - X * Real.sin B - (Z * Real.cos B' - X * Real.sin B') =
      Z * (Real.cos B - Real.cos B') - X * (Real.sin B - Real.sin B') by ring]
    refine (abs_sub _ _).trans ?_
    have a1 := m hZ cB
    have a2 := m hX sB
    linarith
  refine ⟨?_, ?_, ?_⟩
  · rw [show X * Real.cos B + Z * Real.sin B - (X * Real.cos B' + Z * Real.sin B') =
      X * (Real.cos B - Real.cos B') + Z * (Real.sin B - Real.sin B') by ring]
    refine (abs_add_le _ _).trans ?_
    have a1 := m hX cB
    have a2 := m hZ sB
    linarith
  · rw [show Y * Real.cos A - (Z * Real.cos B - X * Real.sin B) * Real.sin A -
      (Y * Real.cos A' - (Z * Real.cos B' - X * Real.sin B') * Real.sin A') =
      Y * (Real.cos A - Real.cos A') - (Z * Real.cos B - X * Real.sin B) * (Real.sin A - Real.sin A') -
      (Z * Real.cos B - X * Real.sin B - (Z * Real.cos B' - X * Real.sin B')) * Real.sin A' by ring]
    refine (abs_sub _ _).trans ?_
    have a0 := abs_sub (Y * (Real.cos A - Real.cos A')) ((Z * Real.cos B - X * Real.sin B) * (Real.sin A - Real.sin A'))
    have a1 := m hY cA
    have a2 := m zB sA
    have a3 := m dz (Real.abs_sin_le_one A')
    linarith
  · rw [show Y * Real.sin A + (Z * Real.cos B - X * Real.sin B) * Real.cos A -
      (Y * Real.sin A' + (Z * Real.cos B' - X * Real.sin B') * Real.cos A') =
      Y * (Real.sin A - Real.sin A') + (Z * Real.cos B - X * Real.sin B) * (Real.cos A - Real.cos A') +
      (Z * Real.cos B - X * Real.sin B - (Z * Real.cos B' - X * Real.sin B')) * Real.cos A' by ring]
    refine (abs_add_le _ _).trans ?_
    have a0 := abs_add_le (Y * (Real.sin A - Real.sin A')) ((Z * Real.cos B - X * Real.sin B) * (Real.cos A - Real.cos A'))
    have a1 := m hY sA
    have a2 := m zB cA
    have a3 := m dz (Real.abs_cos_le_one A')
    linarith

theorem angle_move {deg r t e : ℝ} (h0 : -360 ≤ deg) (h1 : deg ≤ 360) (h : |r - t| ≤ e) :
    |radians deg * (1 - r) - radians deg * (1 - t)| ≤ 6.2832 * e := by
  rw [show radians deg * (1 - r) - radians deg * (1 - t) = radians deg * (t - r) by ring, abs_mul, abs_sub_comm t r]
  have hd : |deg| ≤ 360 := abs_le.2 ⟨h0, h1⟩
  have hs : |radians deg| ≤ 6.2832 := by
    unfold radians
    have pi2 := Real.pi_lt_d4
    rw [abs_div, abs_mul, abs_of_pos Real.pi_pos, abs_of_pos (by norm_num : (0 : ℝ) < 180), div_le_iff₀ (by norm_num)]
    nlinarith [abs_nonneg deg]
  exact mul_le_mul hs h (abs_nonneg _) (by norm_num)

theorem axis_place {lo hi u q : ℝ} (hlo : |lo| ≤ 8192) (hhi : |hi| ≤ 8192) (h0 : 0 ≤ u) (h1 : u ≤ 1) (hq : |q| ≤ 16384) :
    |q + -((hi - lo) * u)| ≤ 32768 := by
  refine (abs_add_le _ _).trans ?_
  rw [abs_neg, abs_mul, abs_of_nonneg h0]
  have a1 : |hi - lo| ≤ 16384 := (abs_sub _ _).trans (by linarith)
  have a2 := mul_le_mul a1 h1 h0 (by norm_num)
  linarith

/-- **C123.** After a Step of a Glide every corner is where it is due at the time, up to an eighth of a pixel and a 25th
for every frame, in depth as well. -/
theorem C123_glide (hlib : ∀ x, |x| ≤ 8 → |sinf x - Real.sin x| ≤ 1 / 2 ^ 23 ∧ |cosf x - Real.cos x| ≤ 1 / 2 ^ 23)
    {L : ℝ} (hL : 0 < L) {s : Stepper} (p0 : Glide.Params) (ops : List (AnimOp Glide.Setter)) (hk : KeepsStepper ops)
    (m : ℕ) (hm : ShortFrames (ops ++ [.step m])) {t : ℝ} (hd : DueAt R L s (elapsed ops + m) t) (p : Glide.Params)
    (hp : ((MM).glide.run ((MM).glideNew p0 s).1 ops).params = p) (hg : GlideDeclared p) (hb : OnScreen p.target)
    (corners : Fin 4 → Pt) (i : Fin 4) (hc : |(corners i).x| ≤ 16384 ∧ |(corners i).y| ≤ 16384) :
    ∃ x y z : ℝ, (MM).extremes ((MM).glide.step ((MM).glide.run ((MM).glideNew p0 s).1 ops) m).1 corners i =
        ⟨fin x, fin y, fin z, fin 1⟩ ∧
      |x - (glided p t (corners i)).x| ≤ 1 / 8 + 1 / 25 * (frames ops + 2) ∧
      |y - (glided p t (corners i)).y| ≤ 1 / 8 + 1 / 25 * (frames ops + 2) ∧
      |z - (glided p t (corners i)).z| ≤ 1 / 8 + 1 / 25 * (frames ops + 2) := by
  obtain ⟨r, x, y, z, er, ee, ex, ey, ez⟩ := C108_glide R D sin sinf cosf hlib _ m (hp ▸ hg) (hp ▸ hb) corners i hc
  obtain ⟨t0, t1, r', er', hr⟩ := progress_due R (MM).glide p0 Machine.ident hL ops hk m hm hd
  have e : r = r' := by
    have h : fin r = fin r' := er.symm.trans er'
    rwa [XR.fin_inj] at h
  subst e
  rw [hp] at ex ey ez
  obtain ⟨⟨d0, d1⟩, ⟨xa0, xa1⟩, ⟨ya0, ya1⟩, ⟨xu0, xu1⟩, ⟨yu0, yu1⟩, hw⟩ := hg
  have hw' : (1 : ℝ) ≤ p.screenWidth := by exact_mod_cast hw
  have hZ : |(-1 / p.screenWidth + 0 : ℝ)| ≤ 1 := by
    rw [add_zero, abs_div, abs_neg, abs_one, abs_of_pos (by linarith), div_le_iff₀ (by linarith)]
    linarith
  obtain ⟨k1, k2, k3⟩ := turned_move (axis_place hb.1 hb.2.2.1 xu0 xu1 hc.1) (axis_place hb.2.1 hb.2.2.2 yu0 yu1 hc.2) hZ
    (angle_move xa0 xa1 hr) (angle_move ya0 ya1 hr)
  have he : (0 : ℝ) ≤ (frames ops : ℝ) + 2 := by positivity
  have hdist : |(-p.initialDistance * (1 - r)) - (-p.initialDistance * (1 - t))| ≤ 1 * (((frames ops : ℝ) + 2) / 2 ^ 24) := by
    rw [show (-p.initialDistance * (1 - r)) - (-p.initialDistance * (1 - t)) = p.initialDistance * (r - t) by ring, abs_mul]
    exact mul_le_mul (abs_le.2 ⟨d0, d1⟩) hr (abs_nonneg _) zero_le_one
  refine ⟨x, y, z, ee, add_error ex ?_, add_error ey ?_, add_error ez ?_⟩
  · simp only [glided, Spot3.shift, Spot3.turnVertical, Spot3.turnHorizontal]
    rw [add_sub_add_right_eq_sub]
    refine k1.trans ?_
    norm_num
    linarith
  · simp only [glided, Spot3.shift, Spot3.turnVertical, Spot3.turnHorizontal]
    rw [add_sub_add_right_eq_sub]
    refine k2.trans ?_
    norm_num
    linarith
  · simp only [glided, Spot3.shift, Spot3.turnVertical, Spot3.turnHorizontal]
    rw [add_sub_add_comm]
    refine (abs_add_le _ _).trans ((add_le_add k3 hdist).trans ?_)
    norm_num
    linarith

/-! ## Magic lamp -/

theorem min_move {a b c d : ℝ} (h : |a - b| ≤ d) : |min a c - min b c| ≤ d :=
  (abs_min_sub_min_le_max a c b c).trans (by rw [sub_self, abs_zero]; exact max_le h ((abs_nonneg _).trans h))

theorem box_between {u v w : ℝ} (h0 : 0 ≤ u) (h1 : u ≤ 1) (hv : |v| ≤ 8192) (hw : |w| ≤ 8192) : |v + u * (w - v)| ≤ 8192 := by
  rw [abs_le] at *
  constructor <;> nlinarith

/-- **C123.** After a Step of a magic lamp every row is at the height that is due at the time, up to the error of C104 and a
1024th of a pixel for every frame, divided by what the stretch lacks of 1. -/
theorem C123_lamp_rows (ex : ℝ → ℝ) {L : ℝ} (hL : 0 < L) {s : Stepper} (p0 : MagicLamp.Params)
    (ops : List (AnimOp MagicLamp.Setter)) (hk : KeepsStepper ops) (hres : KeepsResolution ops)
    (m : ℕ) (hm : ShortFrames (ops ++ [.step m])) {t : ℝ} (hd : DueAt R L s (elapsed ops + m) t) (p : MagicLamp.Params)
    (hp : (((MM).lamp ex).run ((MM).lampNew ex p0 s).1 ops).params = p) (hgh : 2 ≤ p.gh ∧ p.gh ≤ 2 ^ 20)
    (hsrc : OnDesktop p.source) (htgt : OnDesktop p.target)
    (hst : Single p.stretch ∧ 0.2 ≤ p.stretch ∧ p.stretch < 1) :
    ∃ g, (((MM).lamp ex).step (((MM).lamp ex).run ((MM).lampNew ex p0 s).1 ops) m).1.out = .ok g ∧
      ∀ i j, i < p.gw → j < p.gh → ∃ v y, g[j * p.gw + i]? = some v ∧ v.y = fin y ∧
        |y - rowHeight p t j| ≤ ((p.gh : ℝ) - 1) / 256 + 1 / 64 + 1 / (1024 * (1 - p.stretch)) * (frames ops + 2) := by
  obtain ⟨r0, g0, -, -, -, -, hw, hh, -⟩ := lampFloat_step (MM) ex p0 s ops hres m
  rw [hp] at hw hh
  obtain ⟨r, g, er, -, -, eg, hv⟩ := C104_row_heights R D sin sinf cosf ex p0 s ops hres m (hh ▸ hgh) (hp ▸ hsrc) (hp ▸ htgt) (hp ▸ hst)
  rw [hp] at hv
  obtain ⟨t0, t1, r', er', hr⟩ := progress_due R ((MM).lamp ex) p0 (.ok (MagicLamp.initializeGrid p0.gw p0.gh)) hL ops hk m hm hd
  have e : r = r' := by
    have h : fin r = fin r' := er.symm.trans er'
    rwa [XR.fin_inj] at h
  subst e
  refine ⟨g, eg, fun i j hi hj => ?_⟩
  obtain ⟨v, y, ev, ey, h⟩ := hv i j (hw ▸ hi) (hh ▸ hj)
  rw [← hw] at ev
  rw [← hh] at h
  refine ⟨v, y, ev, ey, add_error h ?_⟩
  have hg1 : (0 : ℝ) < (p.gh : ℝ) - 1 := by
    have : (2 : ℝ) ≤ p.gh := by exact_mod_cast hgh.1
    linarith
  have hu0 : (0 : ℝ) ≤ j / ((p.gh : ℝ) - 1) := by positivity
  have hu1 : (j : ℝ) / ((p.gh : ℝ) - 1) ≤ 1 := by
    rw [div_le_one hg1]
    have : ((j + 1 : ℕ) : ℝ) ≤ p.gh := by exact_mod_cast hj
    push_cast at this
    linarith
  have hs1 : 0 < 1 - p.stretch := by linarith [hst.2.2]
  have hden : 1 - p.stretch ≤ 1 - j / ((p.gh : ℝ) - 1) * p.stretch := by nlinarith [hst.2.1]
  have hden0 : 0 < 1 - j / ((p.gh : ℝ) - 1) * p.stretch := hs1.trans_le hden
  have he : (0 : ℝ) ≤ (frames ops : ℝ) + 2 := by positivity
  have hfrac : |(1 - r) / (1 - j / ((p.gh : ℝ) - 1) * p.stretch) - (1 - t) / (1 - j / ((p.gh : ℝ) - 1) * p.stretch)| ≤
      ((frames ops : ℝ) + 2) / 2 ^ 24 / (1 - p.stretch) := by
    rw [← sub_div, abs_div, abs_of_pos hden0, show 1 - r - (1 - t) = t - r by ring, abs_sub_comm]
    exact div_le_div₀ (by positivity) hr hs1 hden
  have hmin := min_move (c := 1) hfrac
  unfold rowHeight
  have hT : |(latticePoint p.target p.gw p.gh 0 j).y| ≤ 8192 := box_between hu0 hu1 htgt.top htgt.bottom
  have hS : |(latticePoint p.source p.gw p.gh 0 j).y| ≤ 8192 := box_between hu0 hu1 hsrc.top hsrc.bottom
  have hTS : |(latticePoint p.source p.gw p.gh 0 j).y - (latticePoint p.target p.gw p.gh 0 j).y| ≤ 16384 :=
    (abs_sub _ _).trans (by linarith)
  generalize (latticePoint p.target p.gw p.gh 0 j).y = T at *
  generalize (latticePoint p.source p.gw p.gh 0 j).y = S at *
  generalize min ((1 - r) / (1 - j / ((p.gh : ℝ) - 1) * p.stretch)) 1 = A at *
  generalize min ((1 - t) / (1 - j / ((p.gh : ℝ) - 1) * p.stretch)) 1 = B at *
  rw [show lerp A T S - lerp B T S = (A - B) * (S - T) by unfold lerp; ring, abs_mul]
  refine (mul_le_mul hmin hTS (abs_nonneg _) ((abs_nonneg _).trans hmin)).trans (le_of_eq ?_)
  field_simp
  norm_num

/-! ## Two frame rates -/

theorem two_errors {x x' z e e' : ℝ} (h : |x - z| ≤ e) (h' : |x' - z| ≤ e') : |x - x'| ≤ e + e' :=
  add_error h (by rwa [abs_sub_comm])

/-- **C123.** Two Zooms with copies of one stepper and the same boxes, brought to the same time in different frames, show every
corner at nearly the same place. -/
theorem C123_zoom_frame_rate {L : ℝ} (hL : 0 < L) {s : Stepper} (hs : s = linear32 R L ∨ s = reverse32 R (linear32 R L))
    (f0 t0 f0' t0' : Box) (ops ops' : List (AnimOp Zoom.Setter)) (hk : KeepsStepper ops) (hk' : KeepsStepper ops')
    (m m' : ℕ) (hm : ShortFrames (ops ++ [.step m])) (hm' : ShortFrames (ops' ++ [.step m']))
    (ht : elapsed ops + m = elapsed ops' + m') (f b : Box)
    (hp : ((MM).zoom.run ((MM).zoomNew f0 t0 s).1 ops).params = ⟨Machine.ofBox f, Machine.ofBox b⟩)
    (hp' : ((MM).zoom.run ((MM).zoomNew f0' t0' s).1 ops').params = ⟨Machine.ofBox f, Machine.ofBox b⟩)
    (hf : OnScreen f) (hb : OnScreen b) (hw : 1 ≤ |b.br.x - b.tl.x| ∧ 1 ≤ |b.br.y - b.tl.y|)
    (corners : Fin 4 → Pt) (i : Fin 4)
    (hc : |(corners i).x| ≤ |b.br.x - b.tl.x| ∧ |(corners i).y| ≤ |b.br.y - b.tl.y|) :
    ∃ x y x' y' : ℝ,
      (MM).extremes ((MM).zoom.step ((MM).zoom.run ((MM).zoomNew f0 t0 s).1 ops) m).1 corners i = ⟨fin x, fin y, fin 0, fin 1⟩ ∧
      (MM).extremes ((MM).zoom.step ((MM).zoom.run ((MM).zoomNew f0' t0' s).1 ops') m').1 corners i =
        ⟨fin x', fin y', fin 0, fin 1⟩ ∧
      |x - x'| ≤ 1 / 16 + 3 / 1024 * (frames ops + frames ops' + 4) ∧
      |y - y'| ≤ 1 / 16 + 3 / 1024 * (frames ops + frames ops' + 4) := by
  obtain ⟨t, hd⟩ : ∃ t, DueAt R L s (elapsed ops + m) t := by
    rcases hs with rfl | rfl
    · exact ⟨_, Or.inl ⟨rfl, rfl⟩⟩
    · exact ⟨_, Or.inr ⟨rfl, rfl⟩⟩
  obtain ⟨x, y, e, hx, hy⟩ := C123_zoom R D sin sinf cosf hL f0 t0 ops hk m hm hd f b hp hf hb hw corners i hc
  obtain ⟨x', y', e', hx', hy'⟩ := C123_zoom R D sin sinf cosf hL f0' t0' ops' hk' m' hm' (ht ▸ hd) f b hp' hf hb hw corners i hc
  exact ⟨x, y, x', y', e, e', (two_errors hx hx').trans (by linarith), (two_errors hy hy').trans (by linarith)⟩

/-- **C123.** The same for two Bounces with the same parameters. -/
theorem C123_bounce_frame_rate (hsin : ∀ x, |x| ≤ 2 ^ 20 → |sin x - Real.sin x| ≤ 1 / 2 ^ 30) {L : ℝ} (hL : 0 < L) {s : Stepper}
    (hs : s = linear32 R L ∨ s = reverse32 R (linear32 R L)) (p0 p0' : Bounce.Params) (ops ops' : List (AnimOp Bounce.Setter))
    (hk : KeepsStepper ops) (hk' : KeepsStepper ops') (m m' : ℕ) (hm : ShortFrames (ops ++ [.step m]))
    (hm' : ShortFrames (ops' ++ [.step m'])) (ht : elapsed ops + m = elapsed ops' + m') (p : Bounce.Params)
    (hp : ((MM).bounce.run ((MM).bounceNew p0 s).1 ops).params = p)
    (hp' : ((MM).bounce.run ((MM).bounceNew p0' s).1 ops').params = p)
    (hi : 0 ≤ p.initialScale ∧ p.initialScale ≤ 2) (hmx : 0 ≤ p.maximumScale ∧ p.maximumScale ≤ 2) (hn : p.nBounce ≤ 1000)
    (hb : OnScreen p.target) (corners : Fin 4 → Pt) (i : Fin 4) (hc : |(corners i).x| ≤ 16384 ∧ |(corners i).y| ≤ 16384) :
    ∃ x y x' y' : ℝ,
      (MM).extremes ((MM).bounce.step ((MM).bounce.run ((MM).bounceNew p0 s).1 ops) m).1 corners i =
        ⟨fin x, fin y, fin 0, fin 1⟩ ∧
      (MM).extremes ((MM).bounce.step ((MM).bounce.run ((MM).bounceNew p0' s).1 ops') m').1 corners i =
        ⟨fin x', fin y', fin 0, fin 1⟩ ∧
      |x - x'| ≤ 1 / 8 + ((p.nBounce : ℝ) + 1) / 100 * (frames ops + frames ops' + 4) ∧
      |y - y'| ≤ 1 / 8 + ((p.nBounce : ℝ) + 1) / 100 * (frames ops + frames ops' + 4) := by
  obtain ⟨t, hd⟩ : ∃ t, DueAt R L s (elapsed ops + m) t := by
    rcases hs with rfl | rfl
    · exact ⟨_, Or.inl ⟨rfl, rfl⟩⟩
    · exact ⟨_, Or.inr ⟨rfl, rfl⟩⟩
  obtain ⟨x, y, e, hx, hy⟩ := C123_bounce R D sin sinf cosf hsin hL p0 ops hk m hm hd p hp hi hmx hn hb corners i hc
  obtain ⟨x', y', e', hx', hy'⟩ := C123_bounce R D sin sinf cosf hsin hL p0' ops' hk' m' hm' (ht ▸ hd) p hp' hi hmx hn hb corners i hc
  exact ⟨x, y, x', y', e, e', (two_errors hx hx').trans (le_of_eq (by ring)), (two_errors hy hy').trans (le_of_eq (by ring))⟩

/-- **C123.** The same for two Glides with the same parameters. -/
theorem C123_glide_frame_rate
    (hlib : ∀ x, |x| ≤ 8 → |sinf x - Real.sin x| ≤ 1 / 2 ^ 23 ∧ |cosf x - Real.cos x| ≤ 1 / 2 ^ 23) {L : ℝ} (hL : 0 < L)
    {s : Stepper} (hs : s = linear32 R L ∨ s = reverse32 R (linear32 R L)) (p0 p0' : Glide.Params)
    (ops ops' : List (AnimOp Glide.Setter)) (hk : KeepsStepper ops) (hk' : KeepsStepper ops') (m m' : ℕ)
    (hm : ShortFrames (ops ++ [.step m])) (hm' : ShortFrames (ops' ++ [.step m']))
    (ht : elapsed ops + m = elapsed ops' + m') (p : Glide.Params)
    (hp : ((MM).glide.run ((MM).glideNew p0 s).1 ops).params = p)
    (hp' : ((MM).glide.run ((MM).glideNew p0' s).1 ops').params = p) (hg : GlideDeclared p) (hb : OnScreen p.target)
    (corners : Fin 4 → Pt) (i : Fin 4) (hc : |(corners i).x| ≤ 16384 ∧ |(corners i).y| ≤ 16384) :
    ∃ x y z x' y' z' : ℝ,
      (MM).extremes ((MM).glide.step ((MM).glide.run ((MM).glideNew p0 s).1 ops) m).1 corners i =
        ⟨fin x, fin y, fin z, fin 1⟩ ∧
      (MM).extremes ((MM).glide.step ((MM).glide.run ((MM).glideNew p0' s).1 ops') m').1 corners i =
        ⟨fin x', fin y', fin z', fin 1⟩ ∧
      |x - x'| ≤ 1 / 4 + 1 / 25 * (frames ops + frames ops' + 4) ∧
      |y - y'| ≤ 1 / 4 + 1 / 25 * (frames ops + frames ops' + 4) ∧
      |z - z'| ≤ 1 / 4 + 1 / 25 * (frames ops + frames ops' + 4) := by
  obtain ⟨t, hd⟩ : ∃ t, DueAt R L s (elapsed ops + m) t := by
    rcases hs with rfl | rfl
    · exact ⟨_, Or.inl ⟨rfl, rfl⟩⟩
    · exact ⟨_, Or.inr ⟨rfl, rfl⟩⟩
  obtain ⟨x, y, z, e, hx, hy, hz⟩ := C123_glide R D sin sinf cosf hlib hL p0 ops hk m hm hd p hp hg hb corners i hc
  obtain ⟨x', y', z', e', hx', hy', hz'⟩ :=
    C123_glide R D sin sinf cosf hlib hL p0' ops' hk' m' hm' (ht ▸ hd) p hp' hg hb corners i hc
  exact ⟨x, y, z, x', y', z', e, e', (two_errors hx hx').trans (by linarith), (two_errors hy hy').trans (by linarith),
    (two_errors hz hz').trans (by linarith)⟩

/-- Half way through a Zoom of 320 ms, after ten frames of 16 ms, the lower right corner is within a tenth of a pixel of
(310, 205), half way between (20, 10) and (600, 400), less the place of the target. -/
example (corners : Fin 4 → Pt) (hc : corners 3 = ⟨500, 350⟩) : ∃ x y : ℝ, (MM).extremes ((MM).zoom.step ((MM).zoom.run ((MM).zoomNew ⟨⟨0, 0⟩, ⟨20, 10⟩⟩ ⟨⟨100, 50⟩, ⟨600, 400⟩⟩
      (linear32 R 320)).1 (steps (List.replicate 9 16))) 16).1 corners 3 =
        ⟨fin x, fin y, fin 0, fin 1⟩ ∧ |x - (310 - 100)| ≤ 1 / 10 ∧ |y - (205 - 50)| ≤ 1 / 10 := by
  obtain ⟨x, y, e, hx, hy⟩ := C123_zoom R D sin sinf cosf (L := 320) (by norm_num) (s := linear32 R 320) ⟨⟨0, 0⟩, ⟨20, 10⟩⟩
    ⟨⟨100, 50⟩, ⟨600, 400⟩⟩ (steps (List.replicate 9 16)) (by intro s h; simp [steps] at h) 16
    (by intro k h; simp [steps] at h; omega) (t := 1 / 2)
    (Or.inl ⟨rfl, by norm_num [elapsed, steps, List.replicate]⟩) ⟨⟨0, 0⟩, ⟨20, 10⟩⟩ ⟨⟨100, 50⟩, ⟨600, 400⟩⟩
    (by
      show Machine.ZoomParams.mk ((MM).ensureNonZeroArea _) ((MM).ensureNonZeroArea _) = _
      norm_num [Machine.ensureNonZeroArea, Machine.ofBox, Machine.widen])
    (by norm_num [OnScreen, abs_le]) (by norm_num [OnScreen, abs_le]) (by norm_num [le_abs])
    corners 3 (by rw [hc]; norm_num [abs_of_pos])
  rw [hc] at hx hy
  refine ⟨x, y, e, ?_, ?_⟩
  · norm_num [between, lerp, frames, steps, List.replicate] at hx ⊢
    linarith
  · norm_num [between, lerp, frames, steps, List.replicate] at hy ⊢
    linarith

/-- The same Zoom whose source box is replaced on the way by the box from (20, 30) to (40, 50). -/
example (corners : Fin 4 → Pt) (hc : corners 3 = ⟨500, 350⟩) : ∃ x y : ℝ, (MM).extremes ((MM).zoom.step ((MM).zoom.run ((MM).zoomNew ⟨⟨0, 0⟩, ⟨20, 10⟩⟩ ⟨⟨100, 50⟩, ⟨600, 400⟩⟩
      (linear32 R 320)).1 [.step 100, .set (.frm ⟨⟨20, 30⟩, ⟨40, 50⟩⟩)]) 60).1 corners 3 =
        ⟨fin x, fin y, fin 0, fin 1⟩ ∧ |x - (320 - 100)| ≤ 1 / 10 ∧ |y - (225 - 50)| ≤ 1 / 10 := by
  obtain ⟨x, y, e, hx, hy⟩ := C123_zoom_given R D sin sinf cosf (L := 320) (by norm_num) (s := linear32 R 320) ⟨⟨0, 0⟩, ⟨20, 10⟩⟩
    ⟨⟨100, 50⟩, ⟨600, 400⟩⟩ [.step 100, .set (.frm ⟨⟨20, 30⟩, ⟨40, 50⟩⟩)] (by intro s h; simp at h) 60
    (by intro k h; simp at h; omega) (t := 1 / 2)
    (Or.inl ⟨rfl, by norm_num [elapsed]⟩) (by norm_num)
    (by norm_num [OnScreen, abs_le, sourceBox]) (by norm_num [OnScreen, abs_le]) (by norm_num [le_abs])
    corners 3 (by rw [hc]; norm_num [abs_of_pos])
  rw [hc] at hx hy
  refine ⟨x, y, e, ?_, ?_⟩
  · norm_num [between, lerp, frames, sourceBox] at hx ⊢
    linarith
  · norm_num [between, lerp, frames, sourceBox] at hy ⊢
    linarith

/-- Two ways to cut 320 ms into frames. -/
example : elapsed (S := Zoom.Setter) (steps (List.replicate 9 16)) + 16 = elapsed (S := Zoom.Setter) (steps [33, 33, 33, 33]) + 28 ∧
    ShortFrames (S := Zoom.Setter) (steps [33, 33, 33, 33] ++ [.step 28]) := by
  refine ⟨by norm_num [elapsed, steps, List.replicate], fun k h => ?_⟩
  simp [steps] at h
  omega

/-- A third of the way back, two thirds are due. -/
example : DueAt R 300 (reverse32 R (linear32 R 300)) 100 (2 / 3) := Or.inr ⟨rfl, by norm_num⟩

/-- In the middle of a lamp of 100 ms, after two frames, every row is within an eighth of a pixel of where it is due. -/
example (ex : ℝ → ℝ) : ∃ g,
    (((MM).lamp ex).step (((MM).lamp ex).run ((MM).lampNew ex deskLamp (linear32 R 100)).1 [.step 20]) 30).1.out = .ok g ∧
    ∀ i j, i < 10 → j < 10 → ∃ v y, g[j * 10 + i]? = some v ∧ v.y = fin y ∧ |y - rowHeight deskLamp (1 / 2) j| ≤ 1 / 8 := by
  obtain ⟨g, e, h⟩ := C123_lamp_rows R D sin sinf cosf ex (L := 100) (by norm_num) (s := linear32 R 100) deskLamp [.step 20]
    (by intro s h; simp at h) (by intro _ _ h; simp at h) 30 (by intro k h; simp at h; omega) (t := 1 / 2)
    (Or.inl ⟨rfl, by norm_num [elapsed]⟩) deskLamp rfl (by norm_num [deskLamp]) deskLamp_sensible.source
    deskLamp_sensible.target deskLamp_sensible.stretch
  refine ⟨g, e, fun i j hi hj => ?_⟩
  obtain ⟨v, y, e1, e2, e3⟩ := h i j hi hj
  refine ⟨v, y, e1, e2, e3.trans ?_⟩
  norm_num [deskLamp, frames]

end

end Verif.Props
