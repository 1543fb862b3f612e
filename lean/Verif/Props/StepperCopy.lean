import Verif.Props.Progress

/-! # Sharing steppers between animations (C06), progress at construction (C07) -/

namespace Verif.Props

open XR (fin)
open Spec

noncomputable section

variable {P O S : Type}

/-- A user's program: one stepper variable and the animations made so far. -/
structure World (P O : Type) where
  mine : Stepper
  anims : List (Anim P O)

/-- What the program does next. -/
inductive WorldOp (P O S : Type) where
  /-- call the stepper variable directly -/
  | call (ms : ℕ)
  /-- construct an animation from the stepper variable -/
  | create (p : P) (o : O)
  /-- hand the stepper variable to the `i`-th animation with `SetStepper` -/
  | give (i : ℕ)
  /-- operate on the `i`-th animation -/
  | on (i : ℕ) (op : AnimOp S)

/-- Effect of one program step.  An operation on an animation that does not exist does nothing. -/
def World.exec (K : AnimClass P O S) (w : World P O) : WorldOp P O S → World P O
  | .call ms => { w with mine := (w.mine.invoke ms).2 }
  | .create p o => ⟨(K.new p o w.mine).2, w.anims ++ [(K.new p o w.mine).1]⟩
  | .give i => { w with anims := w.anims.modify i (fun a => K.exec a (.setStepper w.mine)) }
  | .on i op => { w with anims := w.anims.modify i (fun a => K.exec a op) }

/-- The calls that reach the stepper variable itself: direct calls, and the `stepper (0)` made by
each constructor. -/
def callsToMine : List (WorldOp P O S) → List ℕ
  | [] => []
  | .call ms :: l => ms :: callsToMine l
  | .create _ _ :: l => 0 :: callsToMine l
  | .give _ :: l => callsToMine l
  | .on _ _ :: l => callsToMine l

/-- The operations addressed to animation `i`, when the stepper variable is `mine` at the beginning: a stepper
handed over counts with what it was at that time. -/
def opsOn (i : ℕ) (mine : Stepper) : List (WorldOp P O S) → List (AnimOp S)
  | [] => []
  | .call ms :: l => opsOn i (advance mine [ms]) l
  | .create _ _ :: l => opsOn i (advance mine [0]) l
  | .give k :: l => if k = i then .setStepper mine :: opsOn i mine l else opsOn i mine l
  | .on k op :: l => if k = i then op :: opsOn i mine l else opsOn i mine l

/-- **C06.** In any interleaving, an existing animation ends up exactly where its own operations
alone would have taken it, and the user's stepper exactly where the calls made to it alone would
have: nobody else's stepping is visible. -/
theorem C06_copies_independent (K : AnimClass P O S) (ops : List (WorldOp P O S)) :
    ∀ w : World P O,
    (ops.foldl (World.exec K) w).mine = advance w.mine (callsToMine ops) ∧
    ∀ (i : ℕ) (a : Anim P O), w.anims[i]? = some a →
      (ops.foldl (World.exec K) w).anims[i]? = some (K.run a (opsOn i w.mine ops)) := by
  induction ops with
  | nil => intro w; exact ⟨rfl, fun i a h => h⟩
  | cons op ops ih =>
    intro w
    obtain ⟨h1, h2⟩ := ih (World.exec K w op)
    cases op with
    | call ms => exact ⟨h1, fun i a h => h2 i a h⟩
    | create p o =>
      refine ⟨h1, fun i a h => h2 i a ?_⟩
      obtain ⟨hi, _⟩ := List.getElem?_eq_some_iff.1 h
      show (w.anims ++ _)[i]? = _
      rw [List.getElem?_append_left hi, h]
    | give k =>
      refine ⟨h1, fun i a h => ?_⟩
      by_cases hk : k = i
      · subst hk
        have : (World.exec K w (.give k)).anims[k]? = some (K.exec a (.setStepper w.mine)) := by
          simp [World.exec, h]
        simpa [opsOn, AnimClass.run, World.exec] using h2 k _ this
      · have : (World.exec K w (.give k)).anims[i]? = some a := by
          simp [World.exec, hk, h]
        simpa [opsOn, hk, World.exec] using h2 i a this
    | on k op =>
      refine ⟨h1, fun i a h => ?_⟩
      by_cases hk : k = i
      · subst hk
        have : (World.exec K w (.on k op)).anims[k]? = some (K.exec a op) := by
          simp [World.exec, h]
        simpa [opsOn, AnimClass.run, World.exec] using h2 k _ this
      · have : (World.exec K w (.on k op)).anims[i]? = some a := by
          simp [World.exec, hk, h]
        simpa [opsOn, hk, World.exec] using h2 i a this

/-- **C06.** An animation takes over the progress its stepper had reached: made from a linear stepper
already advanced by `pre`, it counts that time too. -/
theorem C06_copy_keeps_progress (K : AnimClass P O S) (p : P) (o : O) {L : ℝ} (hL : 0 < L)
    (pre ms : List ℕ) (m : ℕ) :
    (K.step (K.run (K.new p o (advance (linear L) pre)).1 (steps ms)) m).1.progress =
      fin (min 1 (((pre.sum + ms.sum + m : ℕ) : ℝ) / L)) :=
  linear_step_progress K p o hL pre ms m

/-- **C06.** The same when the stepper is handed to an animation that exists, whatever has happened to the
animation before. -/
theorem C06_given_keeps_progress (K : AnimClass P O S) (a : Anim P O) {L : ℝ} (hL : 0 < L)
    (pre ms : List ℕ) (m : ℕ) :
    (K.step (K.run a (.setStepper (advance (linear L) pre) :: steps ms)) m).1.progress =
      fin (min 1 (((pre.sum + ms.sum + m : ℕ) : ℝ) / L)) := by
  have app : ∀ (x y : List ℕ) (s : Stepper), advance s (x ++ y) = advance (advance s x) y := by
    intro x
    induction x with
    | nil => intro y s; rfl
    | cons a x ih => intro y s; exact ih y _
  have e : (K.run a (.setStepper (advance (linear L) pre) :: steps ms)).stepper =
      advance (linear L) (pre ++ ms) := by
    show (K.run (AnimClass.setStepper a (advance (linear L) pre)) (steps ms)).stepper = _
    rw [run_steps_stepper, app]
    rfl
  show clamp ((K.run a _).stepper.value m) (fin 0) (fin 1) = _
  rw [e, linear, advance_linearFrom hL.ne']
  have : (linearFrom (fin (0 + ((pre ++ ms).sum : ℕ) / L)) L).value m =
      fin (((pre.sum + ms.sum + m : ℕ) : ℝ) / L) := by
    simp only [Stepper.value, Stepper.invoke, linearFrom, XR.fin_div _ hL.ne', XR.fin_add, List.sum_append]
    push_cast
    congr 1
    ring
  rw [this, XR.clamp_fin]
  congr 2
  exact max_eq_right (by positivity)

example : opsOn (P := Unit) (O := Unit) (S := Unit) 1 (linear 10)
    [.on 0 (.step 3), .call 5, .give 1, .on 1 (.step 7)] = [.setStepper (advance (linear 10) [5]), .step 7] := rfl

/-- **C07 (negation).** Right after construction the progress need not be in `[0,1]`: a linear
stepper that has been called before is not clamped. -/
theorem C07_constructor_not_clamped (K : AnimClass P O S) (p : P) (o : O) :
    ∃ (L : ℝ) (pre : List ℕ), 0 < L ∧
      ¬ InUnit (K.new p o (advance (linear L) pre)).1.progress := by
  refine ⟨100, [250], by norm_num, ?_⟩
  rintro ⟨r, h, _, h1⟩
  have e : (K.new p o (advance (linear 100) [250])).1.progress = fin 2.5 := by
    show (advance (linear 100) [250]).value 0 = _
    rw [linear, advance_linearFrom (by norm_num)]
    simp only [Stepper.value, Stepper.invoke, linearFrom]
    rw [XR.fin_div _ (by norm_num), XR.fin_add, XR.fin_inj]
    norm_num
  rw [e, XR.fin_inj] at h
  linarith

/-- **C07 (partial).** With a fresh linear stepper the initial progress is 0 and with a reversed one
it is 1.  Missing: the general claim, which is false. -/
theorem C07_initial_progress_partial (K : AnimClass P O S) (p : P) (o : O) {L : ℝ} (hL : 0 < L) :
    (K.new p o (linear L)).1.progress = fin 0 ∧
    (K.new p o (reverse (linear L))).1.progress = fin 1 ∧
    InUnit (K.new p o (linear L)).1.progress ∧
    InUnit (K.new p o (reverse (linear L))).1.progress := by
  have h0 : (linear L).value 0 = fin 0 := by
    simp [Stepper.value, Stepper.invoke, linear, linearFrom, XR.fin_div _ hL.ne']
  have a : (K.new p o (linear L)).1.progress = fin 0 := h0
  have b : (K.new p o (reverse (linear L))).1.progress = fin 1 := by
    show fin 1 - (linear L).value 0 = _
    rw [h0]; simp
  exact ⟨a, b, ⟨0, a, le_rfl, zero_le_one⟩, ⟨1, b, zero_le_one, le_rfl⟩⟩

/-- **C07 (partial).** A linear stepper that has been called for `pre` in total before, or one reversed, gives an
initial progress in `[0,1]` exactly when that total is no more than its length. -/
theorem C07_linear_iff_partial (K : AnimClass P O S) (p : P) (o : O) {L : ℝ} (hL : 0 < L) (pre : List ℕ) :
    (InUnit (K.new p o (advance (linear L) pre)).1.progress ↔ (pre.sum : ℝ) ≤ L) ∧
    (InUnit (K.new p o (reverse (advance (linear L) pre))).1.progress ↔ (pre.sum : ℝ) ≤ L) := by
  have h0 : (advance (linear L) pre).value 0 = fin (pre.sum / L) := by
    rw [linear, advance_linearFrom hL.ne']
    simp [Stepper.value, Stepper.invoke, linearFrom, XR.fin_div _ hL.ne']
  have nn : 0 ≤ (pre.sum : ℝ) / L := by positivity
  have key : (pre.sum : ℝ) / L ≤ 1 ↔ (pre.sum : ℝ) ≤ L := div_le_one hL
  constructor
  · show InUnit ((advance (linear L) pre).value 0) ↔ _
    rw [h0, ← key]
    constructor
    · rintro ⟨r, h, _, h1⟩
      rw [XR.fin_inj] at h
      rw [h]
      exact h1
    · exact fun h => ⟨_, rfl, nn, h⟩
  · show InUnit (fin 1 - (advance (linear L) pre).value 0) ↔ _
    rw [h0, XR.fin_sub, ← key]
    constructor
    · rintro ⟨r, h, h1, _⟩
      rw [XR.fin_inj] at h
      linarith
    · exact fun h => ⟨_, rfl, by linarith, by linarith⟩

example : (([40, 60] : List ℕ).sum : ℝ) ≤ 100 := by norm_num

/-- **C07 (negation).** A linear stepper of length 0 makes the initial progress NaN. -/
theorem C07_zero_length_is_nan (K : AnimClass P O S) (p : P) (o : O) :
    (K.new p o (linear 0)).1.progress = XR.nan := by
  show (linear 0).value 0 = _
  simp only [Stepper.value, Stepper.invoke, linear, linearFrom, Nat.cast_zero, XR.fin_div_zero]
  have : XR.signed 0 = XR.nan := by simp [XR.signed]
  rw [this]; rfl

/-- **C04.** The length has to be positive: an animation with a linear stepper of length 0 never shows its end. Every `Step`
answers that it is over, while the progress is 0. -/
theorem C04_zero_length (K : AnimClass P O S) (p : P) (o : O) (ms : List ℕ) (m : ℕ) :
    let r := K.step (K.run (K.new p o (linear 0)).1 (steps ms)) m
    ¬ r.2 ∧ r.1.progress = XR.fin 0 := by
  have stuck : ∀ l : List ℕ, advance (linearFrom XR.nan 0) l = linearFrom XR.nan 0 := by
    intro l
    induction l with
    | nil => rfl
    | cons a l ih => exact ih
  have first : advance (linear 0) (0 :: ms) = linearFrom XR.nan 0 := by
    have : (linear 0).after 0 = linearFrom XR.nan 0 := by
      simp only [Stepper.after, Stepper.invoke, linear, linearFrom, Nat.cast_zero, XR.fin_div_zero]
      have : XR.signed 0 = XR.nan := by simp [XR.signed]
      rw [this]; rfl
    show advance ((linear 0).after 0) ms = _
    rw [this, stuck]
  have e : (K.run (K.new p o (linear 0)).1 (steps ms)).stepper = linearFrom XR.nan 0 := by
    rw [run_steps_stepper]
    exact first
  have hp : (K.step (K.run (K.new p o (linear 0)).1 (steps ms)) m).1.progress = XR.fin 0 := by
    show clamp ((K.run (K.new p o (linear 0)).1 (steps ms)).stepper.value m) (XR.fin 0) (XR.fin 1) = _
    rw [e]
    have : (linearFrom XR.nan 0).value m = XR.nan := rfl
    rw [this]
    simp only [clamp, XR.fmax, XR.fmin, XR.lt]
    norm_num
  exact ⟨fun h => h.1 hp, hp⟩

/-- **C05.** The stepper has to return numbers: when it returns NaN, both animations are at 0. -/
theorem C05_nan (K : AnimClass P O S) (p p' : P) (o o' : O) (s : Stepper) (ms : List ℕ) (m : ℕ)
    (h : (outputs s (0 :: ms ++ [m])).getLast? = some XR.nan) :
    (K.step (K.run (K.new p o (reverse s)).1 (steps ms)) m).1.progress = XR.fin 0 ∧
    (K.step (K.run (K.new p' o' s).1 (steps ms)) m).1.progress = XR.fin 0 := by
  have adv : ∀ (ms : List ℕ) (s : Stepper), advance (reverse s) ms = reverse (advance s ms) := by
    intro ms
    induction ms with
    | nil => intro s; rfl
    | cons m ms ih => intro s; exact ih (s.after m)
  have last : ∀ (l : List ℕ) (s : Stepper), (outputs s (l ++ [m])).getLast? = some ((advance s l).value m) := by
    intro l
    induction l with
    | nil => intro s; rfl
    | cons a l ih =>
      intro s
      have := ih (s.after a)
      show ((s.invoke a).1 :: outputs (s.after a) (l ++ [m])).getLast? = some ((advance (s.after a) l).value m)
      rw [List.getLast?_cons, this]
      rfl
  have e1 : (K.run (K.new p o (reverse s)).1 (steps ms)).stepper = reverse (advance s (0 :: ms)) := by
    rw [run_steps_stepper]; exact adv (0 :: ms) s
  have e2 : (K.run (K.new p' o' s).1 (steps ms)).stepper = advance s (0 :: ms) := by
    rw [run_steps_stepper]; rfl
  have hv : (advance s (0 :: ms)).value m = XR.nan := by
    have := last (0 :: ms) s
    rw [h] at this
    exact (Option.some.inj this).symm
  have hr : (reverse (advance s (0 :: ms))).value m = XR.nan := by
    have : (reverse (advance s (0 :: ms))).value m = XR.fin 1 - (advance s (0 :: ms)).value m := rfl
    rw [this, hv]
    rfl
  have hc : clamp XR.nan (XR.fin 0) (XR.fin 1) = XR.fin 0 := by
    simp only [clamp, XR.fmax, XR.fmin, XR.lt]
    norm_num
  constructor
  · show clamp ((K.run (K.new p o (reverse s)).1 (steps ms)).stepper.value m) (XR.fin 0) (XR.fin 1) = _
    rw [e1, hr, hc]
  · show clamp ((K.run (K.new p' o' s).1 (steps ms)).stepper.value m) (XR.fin 0) (XR.fin 1) = _
    rw [e2, hv, hc]

example : (outputs (linear 0) (0 :: [30] ++ [20])).getLast? = some XR.nan := by
  have : XR.signed 0 = XR.nan := by simp [XR.signed]
  simp [outputs, Stepper.invoke, linear, linearFrom, XR.fin_div_zero, this]
  rfl

end

end Verif.Props
