import Verif.Lemmas.XR
import Verif.Spec.Animation
import Verif.Model.Bounce

/-! # Progress, steppers (C01-C07) -/

namespace Verif.Props

open XR (fin)
open Spec

noncomputable section

variable {P O S : Type}

theorem clamp_inUnit (v : XR) : InUnit (clamp v (fin 0) (fin 1)) := by
  cases v with
  | nan => exact ⟨0, XR.clamp_nan, le_rfl, zero_le_one⟩
  | ninf => exact ⟨0, XR.clamp_ninf, le_rfl, zero_le_one⟩
  | pinf => exact ⟨1, XR.clamp_pinf, zero_le_one, le_rfl⟩
  | fin r => exact ⟨_, XR.clamp_fin r, le_min zero_le_one (le_max_left _ _), min_le_left _ _⟩

/-- **C01.** Whatever the stepper does, once an animation has been stepped its progress is a number
in `[0,1]`, and stays one, whatever other calls are made. -/
theorem C01_progress_in_unit (K : AnimClass P O S) (a : Anim P O) (ops : List (AnimOp S))
    (h : HasStep ops) : InUnit (K.run a ops).progress := by
  have key : ∀ (ops : List (AnimOp S)) (a : Anim P O),
      (InUnit a.progress ∨ HasStep ops) → InUnit (K.run a ops).progress := by
    intro ops
    induction ops with
    | nil =>
      rintro a (h | ⟨ms, h⟩)
      · exact h
      · cases h
    | cons op ops ih =>
      rintro a h
      apply ih (K.exec a op)
      cases op with
      | step ms => exact Or.inl (clamp_inUnit _)
      | set s =>
        rcases h with h | ⟨ms, h⟩
        · exact Or.inl h
        · right; rcases List.mem_cons.1 h with h | h
          · cases h
          · exact ⟨ms, h⟩
      | setStepper s =>
        rcases h with h | ⟨ms, h⟩
        · exact Or.inl h
        · right; rcases List.mem_cons.1 h with h | h
          · cases h
          · exact ⟨ms, h⟩
  exact key ops a (Or.inr h)

/-- A stepper returning NaN, then an infinity. -/
def wildStepper : Stepper := ⟨Bool, false, fun b _ => (if b then .pinf else .nan, true)⟩

example : HasStep (S := Bounce.Setter) [.nBounce 2 |> .set, .step 16] := ⟨16, by simp⟩
example (p : Bounce.Params) :
    InUnit (Bounce.cls.run (Bounce.new p wildStepper).1 [.step 16]).progress :=
  C01_progress_in_unit _ _ _ ⟨16, by simp⟩

/-- What `clamp` computes. -/
theorem clamp_limited (v : XR) : clamp v (fin 0) (fin 1) = fin (limited v) := by
  cases v with
  | nan => exact XR.clamp_nan
  | ninf => exact XR.clamp_ninf
  | pinf => exact XR.clamp_pinf
  | fin r =>
    rw [XR.clamp_fin]
    simp only [limited]
    split_ifs with h1 h2
    · rw [max_eq_left h1.le, min_eq_right (by norm_num)]
    · rw [max_eq_right (not_lt.1 h1), min_eq_left h2.le]
    · rw [max_eq_right (not_lt.1 h1), min_eq_right (not_lt.1 h2)]

/-- **C01.** The progress after a `Step` is what the stepper answered to this `Step`, limited to 0 and 1; NaN counts
as 0. -/
theorem C01_progress_follows_stepper (K : AnimClass P O S) (a : Anim P O) (ms : ℕ) :
    (K.step a ms).1.progress = fin (limited (a.stepper.value ms)) ∧ (K.step a ms).1.stepper = a.stepper.after ms :=
  ⟨clamp_limited _, rfl⟩

/-- A stepper that goes below zero on the way. -/
example : limited (fin (-3)) = 0 ∧ limited (fin (1 / 2)) = 1 / 2 := by
  constructor <;> norm_num [limited]

/-- **C02.** `Step` returns true exactly when the progress it leaves is strictly between 0 and 1. -/
theorem C02_step_result (K : AnimClass P O S) (a : Anim P O) (ms : ℕ) :
    (K.step a ms).2 ↔ ∃ r : ℝ, (K.step a ms).1.progress = fin r ∧ 0 < r ∧ r < 1 := by
  obtain ⟨r, hr, h0, h1⟩ := clamp_inUnit (a.stepper.value ms)
  have hp : (K.step a ms).1.progress = fin r := hr
  have h2 : (K.step a ms).2 ↔ (fin r ≠ fin 0 ∧ fin r ≠ fin 1) := by
    rw [← hr]; exact Iff.rfl
  rw [h2, hp]
  simp only [ne_eq, XR.fin_inj]
  constructor
  · rintro ⟨a, b⟩
    exact ⟨r, rfl, lt_of_le_of_ne h0 (Ne.symm a), lt_of_le_of_ne h1 b⟩
  · rintro ⟨r', e, a, b⟩
    subst e
    exact ⟨a.ne', b.ne⟩

theorem outputs_linearFrom {L : ℝ} (hL : L ≠ 0) (ms : List ℕ) : ∀ (c : ℝ) (k : ℕ), k < ms.length →
    (outputs (linearFrom (fin c) L) ms)[k]? = some (fin (c + ((ms.take (k + 1)).sum : ℕ) / L)) := by
  induction ms with
  | nil => intro c k hk; simp at hk
  | cons m ms ih =>
    intro c k hk
    have e : ((linearFrom (fin c) L).invoke m).2 = linearFrom (fin (c + m / L)) L := by
      show ({ state := _, .. } : Stepper) = _
      simp only [linearFrom, XR.fin_div _ hL, XR.fin_add]
    cases k with
    | zero => simp [outputs, Stepper.invoke, linearFrom, XR.fin_div _ hL]
    | succ k =>
      have := ih (c + m / L) k (by simpa using hk)
      simp only [outputs, List.getElem?_cons_succ, e, this, List.take_succ_cons, List.sum_cons]
      push_cast
      congr 2
      ring

/-- **C03.** The value returned by the `k`-th call of a linear stepper is the total time so far
divided by the length. -/
theorem C03_linear_total {L : ℝ} (hL : 0 < L) (ms : List ℕ) (k : ℕ) (hk : k < ms.length) :
    (outputs (linear L) ms)[k]? = some (fin (((ms.take (k + 1)).sum : ℕ) / L)) := by
  simpa [linear] using outputs_linearFrom hL.ne' ms 0 k hk

theorem advance_linearFrom {L : ℝ} (hL : L ≠ 0) (ms : List ℕ) : ∀ c : ℝ,
    advance (linearFrom (fin c) L) ms = linearFrom (fin (c + (ms.sum : ℕ) / L)) L := by
  induction ms with
  | nil => intro c; simp [advance]
  | cons m ms ih =>
    intro c
    have e : ((linearFrom (fin c) L).invoke m).2 = linearFrom (fin (c + m / L)) L := by
      show ({ state := _, .. } : Stepper) = _
      simp only [linearFrom, XR.fin_div _ hL, XR.fin_add]
    simp only [advance, e, ih, List.sum_cons]
    push_cast
    congr 2
    ring

/-- **C03.** Splitting, merging or reordering the time deltas does not matter: after the same total
time, a linear stepper behaves the same for ever. -/
theorem C03_linear_batching {L : ℝ} (hL : 0 < L) (ms ms' rest : List ℕ) (h : ms.sum = ms'.sum) :
    outputs (advance (linear L) ms) rest = outputs (advance (linear L) ms') rest := by
  simp only [linear, advance_linearFrom hL.ne', h]

/-- **C03.** The values of a linear stepper never decrease. -/
theorem C03_linear_monotone {L : ℝ} (hL : 0 < L) (ms : List ℕ) (i j : ℕ) (hij : i ≤ j)
    (hj : j < ms.length) :
    ∃ a b : ℝ, (outputs (linear L) ms)[i]? = some (fin a) ∧
      (outputs (linear L) ms)[j]? = some (fin b) ∧ 0 ≤ a ∧ a ≤ b := by
  refine ⟨_, _, C03_linear_total hL ms i (hij.trans_lt hj), C03_linear_total hL ms j hj, ?_, ?_⟩
  · positivity
  · apply div_le_div_of_nonneg_right _ hL.le
    have : (ms.take (i + 1)).sum ≤ (ms.take (j + 1)).sum := by
      have hsub : (ms.take (i + 1)).Sublist (ms.take (j + 1)) := by
        have : ms.take (i + 1) = (ms.take (j + 1)).take (i + 1) := by
          rw [List.take_take]; congr 1; omega
        rw [this]; exact List.take_sublist _ _
      exact hsub.sum_le_sum (by simp)
    exact_mod_cast this

example : (outputs (linear 100) [16, 20, 64])[2]? = some (fin 1) := by
  rw [C03_linear_total (by norm_num) _ _ (by simp)]; norm_num
example : outputs (advance (linear 100) [16, 4]) [1] = outputs (advance (linear 100) [20]) [1] :=
  C03_linear_batching (by norm_num) _ _ _ (by simp)

theorem run_append (K : AnimClass P O S) (a : Anim P O) (x y : List (AnimOp S)) :
    K.run a (x ++ y) = K.run (K.run a x) y := by
  simp [AnimClass.run, List.foldl_append]

theorem run_steps_stepper (K : AnimClass P O S) (ms : List ℕ) : ∀ a : Anim P O,
    (K.run a (steps ms)).stepper = advance a.stepper ms := by
  induction ms with
  | nil => intro a; rfl
  | cons m ms ih =>
    intro a
    show (K.run (K.exec a (.step m)) (steps ms)).stepper = _
    rw [ih]; rfl

theorem linear_step_progress (K : AnimClass P O S) (p : P) (o : O) {L : ℝ} (hL : 0 < L)
    (pre ms : List ℕ) (m : ℕ) :
    (K.step (K.run (K.new p o (advance (linear L) pre)).1 (steps ms)) m).1.progress =
      fin (min 1 (((pre.sum + ms.sum + m : ℕ) : ℝ) / L)) := by
  have e : (K.run (K.new p o (advance (linear L) pre)).1 (steps ms)).stepper =
      advance (linear L) (pre ++ 0 :: ms) := by
    rw [run_steps_stepper]
    have : ∀ (x y : List ℕ) (s : Stepper), advance s (x ++ y) = advance (advance s x) y := by
      intro x
      induction x with
      | nil => intro y s; rfl
      | cons a x ih => intro y s; exact ih y _
    rw [this]; rfl
  show clamp ((K.run (K.new p o _).1 (steps ms)).stepper.value m) (fin 0) (fin 1) = _
  rw [e, linear, advance_linearFrom hL.ne']
  have : (linearFrom (fin (0 + ((pre ++ 0 :: ms).sum : ℕ) / L)) L).value m =
      fin (((pre.sum + ms.sum + m : ℕ) : ℝ) / L) := by
    simp only [Stepper.value, Stepper.invoke, linearFrom, XR.fin_div _ hL.ne', XR.fin_add,
      List.sum_append, List.sum_cons]
    push_cast
    congr 1
    ring
  rw [this, XR.clamp_fin]
  congr 2
  exact max_eq_right (by positivity)

/-- **C04.** An animation created with a fresh linear stepper of length `L` and then stepped has
progress `min 1 (total / L)`. -/
theorem C04_linear_progress (K : AnimClass P O S) (p : P) (o : O) {L : ℝ} (hL : 0 < L)
    (ms : List ℕ) (m : ℕ) :
    (K.step (K.run (K.new p o (linear L)).1 (steps ms)) m).1.progress =
      fin (min 1 (((ms.sum + m : ℕ) : ℝ) / L)) := by
  simpa [advance] using linear_step_progress K p o hL [] ms m

/-- **C04.** It reports completion (returns false at progress 1) exactly when the total time has
reached `L`; before that, once time has passed, it asks for more frames. -/
theorem C04_linear_completion (K : AnimClass P O S) (p : P) (o : O) {L : ℝ} (hL : 0 < L)
    (ms : List ℕ) (m : ℕ) :
    let r := K.step (K.run (K.new p o (linear L)).1 (steps ms)) m
    ((¬ r.2 ∧ r.1.progress = fin 1) ↔ L ≤ ((ms.sum + m : ℕ) : ℝ)) ∧
    (r.2 ↔ 0 < ms.sum + m ∧ ((ms.sum + m : ℕ) : ℝ) < L) := by
  intro r
  have hp : r.1.progress = fin (min 1 (((ms.sum + m : ℕ) : ℝ) / L)) := C04_linear_progress K p o hL ms m
  have h2 := C02_step_result K (K.run (K.new p o (linear L)).1 (steps ms)) m
  have h3 : r.2 ↔ 0 < ms.sum + m ∧ ((ms.sum + m : ℕ) : ℝ) < L := by
    refine h2.trans ?_
    show (∃ q, r.1.progress = fin q ∧ _) ↔ _
    rw [hp]
    constructor
    · rintro ⟨q, e, h0, h1⟩
      rw [XR.fin_inj] at e
      subst e
      have h1' : ((ms.sum + m : ℕ) : ℝ) / L < 1 := by
        rcases min_lt_iff.1 h1 with h | h
        · exact absurd h (lt_irrefl _)
        · exact h
      rw [lt_min_iff] at h0
      have := (div_pos_iff_of_pos_right hL).1 h0.2
      exact ⟨by exact_mod_cast this, (div_lt_one hL).1 h1'⟩
    · rintro ⟨a, b⟩
      have b' := (div_lt_one hL).2 b
      refine ⟨_, by rw [min_eq_right b'.le], div_pos (by exact_mod_cast a) hL, b'⟩
  refine ⟨?_, h3⟩
  rw [h3, hp, XR.fin_inj]
  constructor
  · rintro ⟨_, h⟩
    have := min_eq_left_iff.1 h
    exact (one_le_div hL).1 this
  · intro h
    exact ⟨fun h' => absurd h'.2 (not_lt.2 h), min_eq_left ((one_le_div hL).2 h)⟩

/-- **C04.** Once finished it stays finished. -/
theorem C04_linear_stays_finished (K : AnimClass P O S) (p : P) (o : O) {L : ℝ} (hL : 0 < L)
    (ms more : List ℕ) (m m' : ℕ)
    (h : (K.step (K.run (K.new p o (linear L)).1 (steps ms)) m).1.progress = fin 1) :
    ¬ (K.step (K.run (K.new p o (linear L)).1 (steps (ms ++ m :: more))) m').2 ∧
    (K.step (K.run (K.new p o (linear L)).1 (steps (ms ++ m :: more))) m').1.progress = fin 1 := by
  refine (C04_linear_completion K p o hL (ms ++ m :: more) m').1.2 ?_
  rw [C04_linear_progress K p o hL, XR.fin_inj] at h
  have h := (one_le_div hL).1 (min_eq_left_iff.1 h)
  refine h.trans ?_
  simp only [List.sum_append, List.sum_cons]
  exact_mod_cast (by omega)

example (p : Bounce.Params) :
    ¬ (Bounce.cls.step (Bounce.cls.run (Bounce.new p (linear 100)).1 (steps [60])) 40).2 :=
  ((C04_linear_completion Bounce.cls p _ (by norm_num : (0:ℝ) < 100) [60] 40).1.2 (by norm_num)).1

/-- **C05.** `Reverse (s)` returns one minus what `s` returns to the same calls. -/
theorem C05_reverse_outputs (s : Stepper) (ms : List ℕ) :
    outputs (reverse s) ms = (outputs s ms).map (fun v => fin 1 - v) := by
  have : ∀ (ms : List ℕ) (st : s.σ), outputs { reverse s with state := st } ms =
      (outputs { s with state := st } ms).map (fun v => fin 1 - v) := by
    intro ms
    induction ms with
    | nil => intro st; rfl
    | cons m ms ih =>
      intro st
      simp only [outputs, List.map_cons]
      congr 1
      exact ih _
  exact this ms s.state

/-- **C05.** Reversing twice gives the original values. -/
theorem C05_reverse_reverse (s : Stepper) (ms : List ℕ) :
    outputs (reverse (reverse s)) ms = outputs s ms := by
  rw [C05_reverse_outputs, C05_reverse_outputs, List.map_map]
  conv_rhs => rw [← List.map_id (outputs s ms)]
  apply List.map_congr_left
  intro v _
  cases v with
  | nan => rfl
  | ninf => rfl
  | pinf => rfl
  | fin r => simp

/-- **C05.** As long as the stepper returns numbers, the progress of an animation driven by
`Reverse (s)` and of one driven by `s` add up to 1 after every `Step`. -/
theorem C05_reverse_progress (K : AnimClass P O S) (p p' : P) (o o' : O) (s : Stepper)
    (ms : List ℕ) (m : ℕ) (h : XR.nan ∉ outputs s (0 :: ms ++ [m])) :
    (K.step (K.run (K.new p o (reverse s)).1 (steps ms)) m).1.progress +
      (K.step (K.run (K.new p' o' s).1 (steps ms)) m).1.progress = fin 1 := by
  have adv : ∀ (ms : List ℕ) (st : s.σ), advance { reverse s with state := st } ms =
      reverse (advance { s with state := st } ms) := by
    intro ms
    induction ms with
    | nil => intro st; rfl
    | cons m ms ih => intro st; exact ih _
  have e1 : (K.run (K.new p o (reverse s)).1 (steps ms)).stepper = reverse (advance s (0 :: ms)) := by
    rw [run_steps_stepper]; exact adv (0 :: ms) s.state
  have e2 : (K.run (K.new p' o' s).1 (steps ms)).stepper = advance s (0 :: ms) := by
    rw [run_steps_stepper]; rfl
  have hv : (advance s (0 :: ms)).value m ∈ outputs s (0 :: ms ++ [m]) := by
    have : ∀ (l : List ℕ) (s : Stepper), (advance s l).value m ∈ outputs s (l ++ [m]) := by
      intro l
      induction l with
      | nil => intro s; simp [outputs, advance, Stepper.value]
      | cons a l ih => intro s; exact List.mem_cons_of_mem _ (ih _)
    exact this _ _
  show clamp ((K.run (K.new p o (reverse s)).1 (steps ms)).stepper.value m) (fin 0) (fin 1) +
    clamp ((K.run (K.new p' o' s).1 (steps ms)).stepper.value m) (fin 0) (fin 1) = _
  rw [e1, e2]
  have hr : (reverse (advance s (0 :: ms))).value m = fin 1 - (advance s (0 :: ms)).value m := rfl
  rw [hr]
  generalize (advance s (0 :: ms)).value m = v at hv
  cases v with
  | nan => exact absurd hv h
  | ninf =>
    have : fin 1 - XR.ninf = XR.pinf := rfl
    rw [this, XR.clamp_pinf, XR.clamp_ninf]; simp
  | pinf =>
    have : fin 1 - XR.pinf = XR.ninf := rfl
    rw [this, XR.clamp_pinf, XR.clamp_ninf]; simp
  | fin r =>
    rw [XR.fin_sub, XR.clamp_fin, XR.clamp_fin, XR.fin_add, XR.fin_inj]
    rcases le_total r 0 with h | h
    · rw [max_eq_left h, max_eq_right (by linarith), min_eq_left (by linarith), min_eq_right (by linarith)]
      ring
    · rcases le_total r 1 with h' | h'
      · rw [max_eq_right h, max_eq_right (by linarith), min_eq_right (by linarith), min_eq_right h']
        ring
      · rw [max_eq_right h, max_eq_left (by linarith), min_eq_right (by linarith), min_eq_left h']
        ring

example : XR.nan ∉ outputs (linear 100) (0 :: [30] ++ [20]) := by
  simp [outputs, Stepper.invoke, linear, linearFrom, XR.fin_div]

end

end Verif.Props
