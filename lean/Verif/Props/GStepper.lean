import Verif.Lemmas.GStepperCount
import Verif.Props.Progress

/-!
# Properties of GObject steppers: C61, C70 to C73, C105

All theorems hold for every animation class `N` with initial output `out`.
-/

namespace Verif.Props

open Spec GStep XR

noncomputable section

variable {P O S : Type} (N : AnimClass P O S) (out : O)

theorem grun_append (a b : List (GStep.Op P S)) : ∀ {w w' : World P O} {rs : List Res},
    GStep.run N out w (a ++ b) = .ok (w', rs) ↔ ∃ w1 r1 r2, GStep.run N out w a = .ok (w1, r1) ∧
      GStep.run N out w1 b = .ok (w', r2) ∧ rs = r1 ++ r2 := by
  induction a with
  | nil =>
    intro w w' rs
    constructor
    · intro h; exact ⟨w, [], rs, rfl, h, rfl⟩
    · rintro ⟨w1, r1, r2, h1, h2, rfl⟩; cases h1; exact h2
  | cons op a ih =>
    intro w w' rs
    rw [List.cons_append, run_cons]
    constructor
    · rintro ⟨w1, r, rs', h1, h2, rfl⟩
      obtain ⟨w2, r1, r2, h3, h4, rfl⟩ := ih.1 h2
      exact ⟨w2, r :: r1, r2, (run_cons N out).2 ⟨w1, r, r1, h1, h3, rfl⟩, h4, rfl⟩
    · rintro ⟨w1, r1, r2, h1, h2, rfl⟩
      obtain ⟨w2, r, rs', h3, h4, rfl⟩ := (run_cons N out).1 h1
      exact ⟨w2, r, rs' ++ r2, h3, ih.2 ⟨w1, rs', r2, h4, h2, rfl⟩, rfl⟩

/-! ## C61: getting an animation's stepper -/

/-- **C61 (violated).** Whatever happened before, getting the stepper of an animation and dropping the
reference again is undefined behaviour. -/
theorem C61_get_and_drop (w : World P O) (j : ℕ) (hj : w.holdsAnim j) :
    GStep.run N out w [.getStepper j, .unref (.wrapper w.wrappers.length)] = .ub := by
  obtain ⟨a, e, hc⟩ := hj
  have hh : World.holds { w with wrappers := w.wrappers ++ [⟨1, 0, j⟩] } (.wrapper w.wrappers.length) :=
    ⟨⟨1, 0, j⟩, by simp, by simp⟩
  simp only [GStep.run, exec, e, hc, if_false, Outcome.bind_ok, hh, if_true]
  rw [drop_wrapper (h := ⟨1, 0, j⟩) _ true (by simp)]
  simp [decW]

example (p : P) : ∃ w rs, GStep.run N out (World.empty P O) [.newAnim p none] = .ok (w, rs) ∧
    w.holdsAnim 0 :=
  ⟨_, _, rfl, ⟨1, madeAnim N out p (linear 300)⟩, rfl, by simp⟩

/-- **C61 (violated).** Stepping a stepper got from an animation that is gone is undefined behaviour. -/
theorem C61_outlives (w : World P O) (j ms : ℕ) {a : AnimObj P O} (e : w.anims[j]? = some a)
    (hc : a.client = 1) :
    GStep.run N out w [.getStepper j, .unrefAnim j, .step (.wrapper w.wrappers.length) ms] = .ub := by
  have hl := lt_of_getElem? e
  have hh : World.holds ({ w with wrappers := w.wrappers ++ [⟨1, 0, j⟩], anims := w.anims.set j { a with client := 0 } } : World P O)
      (.wrapper w.wrappers.length) :=
    ⟨⟨1, 0, j⟩, by simp, by simp⟩
  simp only [GStep.run, exec, e, hc, Outcome.bind_ok, one_ne_zero, if_false, Nat.sub_self]
  rw [if_pos hh]
  simp [World.read, hl]

example (p : P) : ∃ w rs, GStep.run N out (World.empty P O) [.newAnim p none] = .ok (w, rs) ∧
    ∃ a, w.anims[0]? = some a ∧ a.client = 1 :=
  ⟨_, _, rfl, ⟨1, madeAnim N out p (linear 300)⟩, rfl, rfl⟩

/-- **C61 (partial).** A program that never drops a stepper it got from an animation, and keeps the
animations it asked for their stepper, has defined behaviour throughout. -/
theorem C61_careful_partial (ops : List (GStep.Op P S)) (h : Careful ops) :
    ∃ w rs, GStep.run N out (World.empty P O) ops = .ok (w, rs) :=
  run_safe N out (G := fun j => GStep.Op.getStepper j ∈ ops) ops h.wrappers
    (fun j h1 h2 => h.anims j h2 h1) (fun _ h => h) _ (empty_safe _)

/-- A program that gets a stepper, steps it, reverses it and lets go of everything else. -/
def carefulProgram (p : P) : List (GStep.Op P S) :=
  [.newLinear 200, .newAnim p (some (.holder 0)), .unref (.holder 0), .getStepper 0, .step (.wrapper 0) 10,
    .newReverse (some (.wrapper 0)), .newAnim p (some (.holder 1)), .unref (.holder 1), .stepAnim 0 5,
    .unrefAnim 1]

example (p : P) : Careful (carefulProgram p : List (GStep.Op P S)) :=
  ⟨by simp [carefulProgram], by simp [carefulProgram]⟩

/-! ## C70: steppers are copied -/

/-- **C70.** Giving a stepper to an animation copies it: whatever is done later with the stepper object, or
with other objects, the animation's stepper stays the copy made then. -/
theorem C70_given (w : World P O) (i j : ℕ) {h : GStep.Holder} {a : AnimObj P O}
    (eh : w.holders[i]? = some h) (hh : h.client ≠ 0) (ea : w.anims[j]? = some a) (ha : a.client ≠ 0)
    (hu : Unobserved w j) (ops : List (GStep.Op P S)) (ho : ∀ op ∈ ops, ¬ ActsOn j op)
    {w' : World P O} {rs : List Res}
    (e : GStep.run N out w (.setStepper j (.holder i) :: ops) = .ok (w', rs)) :
    ∃ a', w'.anims[j]? = some a' ∧ a'.native = { a.native with stepper := h.cell } := by
  obtain ⟨w1, r, rs', h1, h2, rfl⟩ := (run_cons N out).1 e
  have hr : w.read (.holder i) = .ok h.cell := by
    simp only [World.read, eh]; rw [if_neg (by omega)]
  have hne : ¬ (a.client = 0 ∨ ¬ w.holds (.holder i)) := by
    simp only [not_or, not_not]; exact ⟨ha, h, eh, hh⟩
  simp only [exec, ea, hr, if_neg hne, Outcome.bind_ok] at h1
  cases h1
  have hu' : Unobserved ({ w with anims := w.anims.set j { a with native := AnimClass.setStepper a.native h.cell } } : World P O) j := hu
  exact run_anim N out ops ho (a := { a with native := AnimClass.setStepper a.native h.cell })
    (by simp [lt_of_getElem? ea]) hu' h2

/-- **C70.** The same for a stepper given at construction. -/
theorem C70_constructed (w : World P O) (i : ℕ) (p : P) {h : GStep.Holder}
    (eh : w.holders[i]? = some h) (hh : h.client ≠ 0) (hu : Unobserved w w.anims.length)
    (ops : List (GStep.Op P S)) (ho : ∀ op ∈ ops, ¬ ActsOn w.anims.length op)
    {w' : World P O} {rs : List Res}
    (e : GStep.run N out w (.newAnim p (some (.holder i)) :: ops) = .ok (w', rs)) :
    ∃ a', w'.anims[w.anims.length]? = some a' ∧ a'.native.stepper = h.cell := by
  obtain ⟨w1, r, rs', h1, h2, rfl⟩ := (run_cons N out).1 e
  have hr : w.read (.holder i) = .ok h.cell := by
    simp only [World.read, eh]; rw [if_neg (by omega)]
  have hl : w.holds (.holder i) := ⟨h, eh, hh⟩
  simp only [exec, hr, if_pos hl, Outcome.bind_ok] at h1
  cases h1
  have hu' : Unobserved ({ w with anims := w.anims ++ [⟨1, madeAnim N out p h.cell⟩] } : World P O)
      w.anims.length := hu
  obtain ⟨a', e1, e2⟩ := run_anim N out ops ho (a := ⟨1, madeAnim N out p h.cell⟩) (by simp) hu' h2
  exact ⟨a', e1, by rw [e2]; rfl⟩

/-- **C70.** Conversely a stepper object is only advanced by stepping that object: animations and reverse
steppers made from it never touch it. -/
theorem C70_untouched (w : World P O) (i : ℕ) {h : GStep.Holder} (eh : w.holders[i]? = some h)
    (hh : h.client ≠ 0) (ops : List (GStep.Op P S)) (h1 : .unref (.holder i) ∉ ops)
    (h2 : ∀ ms, .step (.holder i) ms ∉ ops) {w' : World P O} {rs : List Res}
    (e : GStep.run N out w ops = .ok (w', rs)) :
    ∃ h', w'.holders[i]? = some h' ∧ h'.cell = h.cell := by
  obtain ⟨h', e1, -, e2⟩ := run_holder N out ops h1 eh hh e
  refine ⟨h', e1, ?_⟩
  have : stepTimes (.holder i) ops = [] := by
    clear e h1 e2
    induction ops with
    | nil => rfl
    | cons op ops ih =>
      rw [stepTimes_cons, ih (fun ms hm => h2 ms (List.mem_cons_of_mem _ hm)), List.append_nil]
      cases op with
      | step r ms =>
        simp only [ownTime]
        rw [if_neg]
        rintro rfl
        exact h2 ms (by simp)
      | _ => rfl
  rw [e2, this]; rfl

/-- A program that gives a stepper to an animation and then goes on using it. -/
def sharing (p : P) : List (GStep.Op P S) :=
  [.newLinear 100, .newAnim p none, .step (.holder 0) 10]

example (p : P) : ∃ w rs h a, GStep.run N out (World.empty P O) (sharing p) = .ok (w, rs) ∧
    w.holders[0]? = some h ∧ h.client ≠ 0 ∧ w.anims[0]? = some a ∧ a.client ≠ 0 ∧ Unobserved w 0 ∧
    Unobserved w 1 := by
  have hh : World.holds ({ holders := [⟨1, 0, linear (100 : ℕ), none⟩], wrappers := [], anims := [⟨1, madeAnim N out p (linear 300)⟩] } : World P O) (.holder 0) :=
    ⟨_, rfl, by simp⟩
  have hr : GStep.run N out (World.empty P O) (sharing p) = .ok
      (⟨[⟨1, 0, (linear (100 : ℕ)).after 10, none⟩], [], [⟨1, madeAnim N out p (linear 300)⟩]⟩,
        [.stepper (.holder 0), .anim 0, .value ((linear (100 : ℕ)).value 10)]) := by
    simp only [sharing, GStep.run, exec, World.empty, List.nil_append, Outcome.bind_ok]
    rw [if_pos hh]
    rfl
  exact ⟨_, _, _, _, hr, rfl, by simp, rfl, by simp, by simp [Unobserved], by simp [Unobserved]⟩

/-! ## C71: what GObject steppers return -/

/-- The value returned by stepping a stepper made by a constructor, after any history in which the program
keeps it: that of its own stepper, advanced by its own steps only. -/
theorem step_value (w : World P O) (i ms : ℕ) {h : GStep.Holder} (eh : w.holders[i]? = some h)
    (hh : h.client ≠ 0) (ops : List (GStep.Op P S)) (h1 : .unref (.holder i) ∉ ops)
    {w' : World P O} {rs : List Res}
    (e : GStep.run N out w (ops ++ [.step (.holder i) ms]) = .ok (w', rs)) :
    rs.getLast? = some (.value ((advance h.cell (stepTimes (.holder i) ops)).value ms)) := by
  obtain ⟨w1, r1, r2, e1, e2, rfl⟩ := (grun_append N out _ _).1 e
  obtain ⟨h', f1, f2, f3⟩ := run_holder N out ops h1 eh hh e1
  have hl : w1.holds (.holder i) := ⟨h', f1, f2⟩
  have hr : w1.read (.holder i) = .ok h'.cell := by
    simp only [World.read, f1]; rw [if_neg (by omega)]
  simp only [GStep.run, exec, if_pos hl, hr, Outcome.bind_ok, Outcome.ok.injEq, Prod.mk.injEq] at e2
  rw [← e2.2, f3]
  simp

/-- **C71.** A linear stepper of positive length returns the share of its length that its own steps have
used up so far, whatever else the program does in between. -/
theorem C71_linear_partial (w : World P O) {L : ℕ} (hL : 0 < L) (ops : List (GStep.Op P S)) (ms : ℕ)
    (h1 : .unref (.holder w.holders.length) ∉ ops) {w' : World P O} {rs : List Res}
    (e : GStep.run N out w (.newLinear L :: (ops ++ [.step (.holder w.holders.length) ms])) = .ok (w', rs)) :
    rs.getLast? =
      some (.value (fin ((((stepTimes (.holder w.holders.length) ops).sum + ms : ℕ) : ℝ) / L))) := by
  have hL' : (L : ℝ) ≠ 0 := by positivity
  obtain ⟨w1, r, rs', e1, e2, rfl⟩ := (run_cons N out).1 e
  cases e1
  have := step_value N out _ w.holders.length ms (h := ⟨1, 0, linear L, none⟩) (by simp) (by simp)
    ops h1 e2
  rw [List.getLast?_cons, this, Option.getD_some, linear, advance_linearFrom hL']
  simp only [linearFrom, Stepper.value, Stepper.invoke, XR.fin_div _ hL', XR.fin_add]
  congr 3
  push_cast
  ring

/-- **C71.** A reverse stepper returns 1 minus what its base would have returned, had the reverse stepper's
own steps been made on the base at the time the reverse stepper was made. -/
theorem C71_reverse (w : World P O) (b : ℕ) {h : GStep.Holder} (eh : w.holders[b]? = some h)
    (hh : h.client ≠ 0) (ops : List (GStep.Op P S)) (ms : ℕ)
    (h1 : .unref (.holder w.holders.length) ∉ ops) {w' : World P O} {rs : List Res}
    (e : GStep.run N out w (.newReverse (some (.holder b)) ::
      (ops ++ [.step (.holder w.holders.length) ms])) = .ok (w', rs)) :
    rs.getLast? = some (.value (fin 1 -
      (advance h.cell (stepTimes (.holder w.holders.length) ops)).value ms)) := by
  obtain ⟨w1, r, rs', e1, e2, rfl⟩ := (run_cons N out).1 e
  have hl : w.holds (.holder b) := ⟨h, eh, hh⟩
  have hr : w.read (.holder b) = .ok h.cell := by
    simp only [World.read, eh]; rw [if_neg (by omega)]
  simp only [exec, if_pos hl, hr, Outcome.bind_ok] at e1
  cases e1
  have hlen : (w.addInner (.holder b)).holders.length = w.holders.length := length_addInner _ _
  have := step_value N out _ w.holders.length ms (h := ⟨1, 0, reverse h.cell, some (.holder b)⟩)
    (by simp [← hlen]) (by simp) ops h1 e2
  rw [List.getLast?_cons, this, Option.getD_some]
  congr 2
  generalize stepTimes (.holder w.holders.length) ops = l
  have adv : ∀ (l : List ℕ) (s : Stepper), (advance (reverse s) l).value ms = fin 1 - (advance s l).value ms := by
    intro l
    induction l with
    | nil => intro s; rfl
    | cons m l ih => intro s; exact ih (s.after m)
  exact adv l h.cell

/-- **C71.** In particular the reverse of a linear stepper that has been stepped for `before` milliseconds
counts down from what is left. -/
theorem C71_reverse_linear_partial (w : World P O) {L : ℕ} (hL : 0 < L) (pre ops : List (GStep.Op P S))
    (ms : ℕ) (h0 : .unref (.holder w.holders.length) ∉ pre) {w1 w2 : World P O} {rs1 rs2 : List Res}
    (e1 : GStep.run N out w (.newLinear L :: pre) = .ok (w1, rs1))
    (h1 : .unref (.holder w1.holders.length) ∉ ops)
    (e2 : GStep.run N out w1 (.newReverse (some (.holder w.holders.length)) ::
      (ops ++ [.step (.holder w1.holders.length) ms])) = .ok (w2, rs2)) :
    rs2.getLast? = some (.value (fin (1 - (((stepTimes (.holder w.holders.length) pre).sum +
      (stepTimes (.holder w1.holders.length) ops).sum + ms : ℕ) : ℝ) / L))) := by
  have hL' : (L : ℝ) ≠ 0 := by positivity
  obtain ⟨w3, r, rs', f1, f2, rfl⟩ := (run_cons N out).1 e1
  cases f1
  obtain ⟨h, g1, g2, g3⟩ := run_holder N out pre h0 (h := ⟨1, 0, linear L, none⟩) (by simp) (by simp) f2
  rw [C71_reverse N out w1 _ g1 g2 ops ms h1 e2, g3, linear, advance_linearFrom hL', advance_linearFrom hL']
  simp only [linearFrom, Stepper.value, Stepper.invoke, XR.fin_div _ hL', XR.fin_add, XR.fin_sub]
  congr 3
  push_cast
  ring

/-- **C71.** A reverse stepper made without a base counts down from 1 over 300 milliseconds. -/
theorem C71_reverse_default (w : World P O) (ops : List (GStep.Op P S)) (ms : ℕ)
    (h1 : .unref (.holder w.holders.length) ∉ ops) {w' : World P O} {rs : List Res}
    (e : GStep.run N out w (.newReverse none :: (ops ++ [.step (.holder w.holders.length) ms])) = .ok (w', rs)) :
    rs.getLast? =
      some (.value (fin (1 - (((stepTimes (.holder w.holders.length) ops).sum + ms : ℕ) : ℝ) / 300))) := by
  have h300 : (300 : ℝ) ≠ 0 := by norm_num
  obtain ⟨w1, r, rs', e1, e2, rfl⟩ := (run_cons N out).1 e
  cases e1
  have := step_value N out _ w.holders.length ms (h := ⟨1, 0, reverse (linear 300), none⟩) (by simp) (by simp)
    ops h1 e2
  rw [List.getLast?_cons, this, Option.getD_some]
  have adv : ∀ (l : List ℕ) (s : Stepper), (advance (reverse s) l).value ms = fin 1 - (advance s l).value ms := by
    intro l
    induction l with
    | nil => intro s; rfl
    | cons m l ih => intro s; exact ih (s.after m)
  rw [adv, linear, advance_linearFrom h300]
  simp only [linearFrom, Stepper.value, Stepper.invoke, XR.fin_div _ h300, XR.fin_add, XR.fin_sub]
  congr 3
  push_cast
  ring

example (w : World P O) : ∃ w' rs, GStep.run N out w [.newReverse none, .step (.holder w.holders.length) 75] =
    .ok (w', rs) ∧ rs.getLast? = some (.value (fin (3 / 4))) := by
  have hh : World.holds ({ w with holders := w.holders ++ [⟨1, 0, reverse (linear 300), none⟩] } : World P O)
      (.holder w.holders.length) := ⟨⟨1, 0, reverse (linear 300), none⟩, by simp, by simp⟩
  have hr : World.read ({ w with holders := w.holders ++ [⟨1, 0, reverse (linear 300), none⟩] } : World P O)
      (.holder w.holders.length) = .ok (reverse (linear 300)) := by simp [World.read]
  have e : ∃ w' rs, GStep.run N out w [.newReverse none, .step (.holder w.holders.length) 75] = .ok (w', rs) := by
    simp only [GStep.run, exec, Outcome.bind_ok]
    rw [if_pos hh, hr]
    exact ⟨_, _, rfl⟩
  obtain ⟨w', rs, e⟩ := e
  refine ⟨w', rs, e, ?_⟩
  rw [C71_reverse_default N out w [] 75 (by simp) e]
  norm_num [stepTimes]

/-- **C71 (violated).** A linear stepper of length 0 is made although the declared minimum is 1, and its
first step of 0 ms returns NaN. -/
theorem C71_zero_length (w : World P O) :
    ∃ w' r, GStep.run N out w [.newLinear 0, .step (.holder w.holders.length) 0] =
      .ok (w', [r, .value XR.nan]) := by
  have hh : World.holds ({ w with holders := w.holders ++ [⟨1, 0, linear ((0 : ℕ) : ℝ), none⟩] } : World P O)
      (.holder w.holders.length) := ⟨⟨1, 0, linear ((0 : ℕ) : ℝ), none⟩, by simp, by simp⟩
  refine ⟨World.write { w with holders := w.holders ++ [⟨1, 0, linear ((0 : ℕ) : ℝ), none⟩] }
    (.holder w.holders.length) ((linear ((0 : ℕ) : ℝ)).after 0), .stepper (.holder w.holders.length), ?_⟩
  simp only [GStep.run, exec, Outcome.bind_ok]
  rw [if_pos hh]
  have hr : World.read ({ w with holders := w.holders ++ [⟨1, 0, linear ((0 : ℕ) : ℝ), none⟩] } : World P O)
      (.holder w.holders.length) = .ok (linear ((0 : ℕ) : ℝ)) := by simp [World.read]
  rw [hr]
  have hv : (linear ((0 : ℕ) : ℝ)).value 0 = XR.nan := by
    show fin 0 + fin ((0 : ℕ) : ℝ) / fin ((0 : ℕ) : ℝ) = XR.nan
    have : (fin ((0 : ℕ) : ℝ) / fin ((0 : ℕ) : ℝ) : XR) = XR.nan := by
      show XR.div _ _ = _
      simp [XR.div, XR.signed]
    rw [this]; rfl
  simp only [Outcome.bind_ok, hv]

example (p : P) : ∃ w rs, GStep.run N out (World.empty P O)
    ([.newLinear 100, .newAnim p (some (.holder 0)), .stepAnim 0 70, .step (.holder 0) 10,
      .newReverse (some (.holder 0)), .step (.holder 1) 20]) = .ok (w, rs) :=
  C61_careful_partial N out _ ⟨by simp, by simp⟩

/-! ## C72: lifetimes -/

/-- **C72.** After any program, a stepper made by a constructor has been freed exactly when the program holds
no reference on it and no stepper that still exists is based on it. -/
theorem C72_freed_iff (ops : List (GStep.Op P S)) {w : World P O} {rs : List Res}
    (e : GStep.run N out (World.empty P O) ops = .ok (w, rs)) (i : ℕ) {h : GStep.Holder}
    (eh : w.holders[i]? = some h) :
    Freed h ↔ h.client = 0 ∧
      ∀ (i' : ℕ) (h' : GStep.Holder), w.holders[i']? = some h' → ¬ Freed h' → h'.base ≠ some (.holder i) := by
  obtain ⟨-, hc⟩ := run_counted N out ops empty_shape empty_owed e
  have h0 := hc (.holder i)
  simp only [innerOf, eh, Option.elim, reduceCtorEq, if_false, add_zero] at h0
  constructor
  · rintro ⟨h1, h2⟩
    refine ⟨h1, fun i' h' e' hf hb => ?_⟩
    rw [h2, eq_comm, liveOn, List.countP_eq_zero] at h0
    have := h0 h' (List.mem_of_getElem? e')
    simp only [decide_eq_true_eq] at this
    exact this ⟨fun hz => hf ⟨by omega, by omega⟩, hb⟩
  · rintro ⟨h1, h2⟩
    refine ⟨h1, ?_⟩
    rw [h0, liveOn, List.countP_eq_zero]
    intro x hx
    obtain ⟨i', e'⟩ := List.getElem?_of_mem hx
    simp only [decide_eq_true_eq]
    rintro ⟨hl, hb⟩
    exact h2 i' x e' (fun hf => hl (by rw [hf.1, hf.2])) hb

/-- **C72.** No stepper leaks: when the program has dropped all its references on steppers made by a
constructor, all of them have been freed. -/
theorem C72_no_leak (ops : List (GStep.Op P S)) {w : World P O} {rs : List Res}
    (e : GStep.run N out (World.empty P O) ops = .ok (w, rs)) (hl : LetGo w) (i : ℕ) {h : GStep.Holder}
    (eh : w.holders[i]? = some h) : Freed h := by
  obtain ⟨hs, -⟩ := run_counted N out ops empty_shape empty_owed e
  have key : ∀ n i (h : GStep.Holder), w.holders[i]? = some h → w.holders.length - i ≤ n → Freed h := by
    intro n
    induction n with
    | zero => intro i h eh hn; have := lt_of_getElem? eh; omega
    | succ n ih =>
      intro i h eh hn
      rw [C72_freed_iff N out ops e i eh]
      refine ⟨hl i h eh, fun i' h' e' hf hb => hf ?_⟩
      have hlt : i < i' := hs i' h' _ e' hb
      have := lt_of_getElem? e'
      exact ih i' h' e' (by omega)
  exact key _ i h eh le_rfl

/-- **C72.** A stepper the program holds a reference on is not freed. -/
theorem C72_held (ops : List (GStep.Op P S)) {w w' : World P O} {rs' : List Res} (i : ℕ)
    {h : GStep.Holder} (eh : w.holders[i]? = some h) (hh : h.client ≠ 0)
    (h1 : .unref (.holder i) ∉ ops) (e : GStep.run N out w ops = .ok (w', rs')) :
    ∃ h', w'.holders[i]? = some h' ∧ ¬ Freed h' := by
  obtain ⟨h', e1, e2, -⟩ := run_holder N out ops h1 eh hh e
  exact ⟨h', e1, fun hf => e2 hf.1⟩

/-- A program that makes a chain of reverse steppers and drops them oldest first. -/
def chain : List (GStep.Op P S) :=
  [.newLinear 50, .newReverse (some (.holder 0)), .newReverse (some (.holder 1)), .unref (.holder 0),
    .unref (.holder 1), .unref (.holder 2)]

example : ∃ w rs, GStep.run N out (World.empty P O) chain = .ok (w, rs) :=
  C61_careful_partial N out _ ⟨by simp [chain], by simp [chain]⟩

/-! ## C73: a stepper got from an animation is the animation's own -/

/-- **C73.** A stepper got from an animation is a view of the animation's own: stepping it returns what the
animation's stepper returns and moves it on, without changing the animation's progress or output; the next
step of the animation continues from there. -/
theorem C73_view (w : World P O) (j m m' : ℕ) {a : AnimObj P O} (e : w.anims[j]? = some a)
    (hc : a.client ≠ 0) :
    ∃ w' a', GStep.run N out w [.getStepper j, .step (.wrapper w.wrappers.length) m] =
        .ok (w', [.stepper (.wrapper w.wrappers.length), .value (a.native.stepper.value m)]) ∧
      w'.anims[j]? = some a' ∧ a'.client = a.client ∧
      a'.native = { a.native with stepper := a.native.stepper.after m } ∧
      ∃ w'' a'' b, GStep.run N out w' [.stepAnim j m'] = .ok (w'', [.running b]) ∧
        w''.anims[j]? = some a'' ∧
        a''.native.progress = fin (limited ((a.native.stepper.after m).value m')) ∧
        (b ↔ a''.native.progress ≠ fin 0 ∧ a''.native.progress ≠ fin 1) := by
  have hl := lt_of_getElem? e
  have hh : World.holds ({ w with wrappers := w.wrappers ++ [⟨1, 0, j⟩] } : World P O)
      (.wrapper w.wrappers.length) := ⟨⟨1, 0, j⟩, by simp, by simp⟩
  have hr : World.read ({ w with wrappers := w.wrappers ++ [⟨1, 0, j⟩] } : World P O)
      (.wrapper w.wrappers.length) = .ok a.native.stepper := by
    simp [World.read, e, hc]
  have e' : (w.anims.modify j fun a_1 => { a_1 with native := { a_1.native with stepper := a.native.stepper.after m } })[j]? =
      some { a with native := { a.native with stepper := a.native.stepper.after m } } := by
    rw [List.getElem?_modify_eq, e]; rfl
  refine ⟨{ w with wrappers := w.wrappers ++ [⟨1, 0, j⟩], anims := w.anims.modify j fun a_1 => { a_1 with native := { a_1.native with stepper := a.native.stepper.after m } } },
    { a with native := { a.native with stepper := a.native.stepper.after m } }, ?_, e', rfl, rfl, ?_⟩
  · simp only [GStep.run, exec, e, hc, if_false, Outcome.bind_ok, if_pos hh, hr]
    simp [World.write]
  · have hx : ∀ (v : World P O) (b : AnimObj P O), v.anims[j]? = some b → b.client ≠ 0 →
        ∃ w'' a'' p, GStep.run N out v [.stepAnim j m'] = .ok (w'', [.running p]) ∧
          w''.anims[j]? = some a'' ∧
          a''.native.progress = fin (limited (b.native.stepper.value m')) ∧
          (p ↔ a''.native.progress ≠ fin 0 ∧ a''.native.progress ≠ fin 1) := by
      intro v b eb hb
      refine ⟨{ v with anims := v.anims.set j { b with native := (N.step b.native m').1 } },
        { b with native := (N.step b.native m').1 }, (N.step b.native m').2, ?_, ?_, clamp_limited _, Iff.rfl⟩
      · simp only [GStep.run, exec, eb, hb, if_false, Outcome.bind_ok]
      · simp [lt_of_getElem? eb]
    exact hx _ { a with native := { a.native with stepper := a.native.stepper.after m } } e' hc

example (p : P) : ∃ w rs a, GStep.run N out (World.empty P O) [.newAnim p none, .stepAnim 0 5] = .ok (w, rs) ∧
    w.anims[0]? = some a ∧ a.client ≠ 0 :=
  ⟨_, _, ⟨1, _⟩, rfl, rfl, by simp⟩

/-! ## C105: how long an animation runs -/

/-- Stepping an animation that has a linear stepper of its own, after any history in which the program only steps it
and sets its properties. -/
theorem linear_runs (w : World P O) {j : ℕ} {a : AnimObj P O} (ea : w.anims[j]? = some a) (hc : a.client ≠ 0)
    {L : ℝ} (hL : 0 < L) (es : a.native.stepper = linear L) (hu : Unobserved w j) (ops : List (GStep.Op P S))
    (ho : ∀ op ∈ ops, ¬ MeddlesWith j op) (ms : ℕ) {w' : World P O} {rs : List Res}
    (e : GStep.run N out w (ops ++ [.stepAnim j ms]) = .ok (w', rs)) {t : ℕ} (ht : t = (animTimes j ops).sum + ms) :
    ∃ a' b, w'.anims[j]? = some a' ∧ a'.native.progress = fin (min (t / L) 1) ∧ rs.getLast? = some (.running b) ∧
      (b ↔ 0 < t ∧ (t : ℝ) < L) := by
  obtain ⟨w1, r1, r2, e1, e2, rfl⟩ := (grun_append N out _ _).1 e
  obtain ⟨a1, f1, f2, f3⟩ := run_times N out ops ho ea hc hu e1
  have hv : a1.native.stepper.value ms = fin (t / L) := by
    rw [f3, es, linear, advance_linearFrom hL.ne']
    simp only [linearFrom, Stepper.value, Stepper.invoke, XR.fin_div _ hL.ne', XR.fin_add, ht]
    congr 1
    push_cast
    ring
  have hp : AnimClass.clampedProgress (a1.native.stepper.value ms) = fin (min (t / L) 1) := by
    rw [hv]
    unfold AnimClass.clampedProgress
    rw [clamp_fin, max_eq_right (by positivity), min_comm]
  simp only [GStep.run, exec, f1, if_neg f2, Outcome.bind_ok, Outcome.ok.injEq, Prod.mk.injEq] at e2
  obtain ⟨rfl, rfl⟩ := e2
  refine ⟨_, _, by simp [lt_of_getElem? f1]; rfl, ?_, by simp; rfl, ?_⟩
  · simp only [AnimClass.step]
    exact hp
  · simp only [AnimClass.step]
    rw [hp]
    simp only [ne_eq, XR.fin.injEq]
    rcases Nat.eq_zero_or_pos t with h0 | h0
    · simp [h0]
    · have h1 : 0 < (t : ℝ) / L := by positivity
      have h2 : min ((t : ℝ) / L) 1 ≠ 0 := ne_of_gt (lt_min h1 one_pos)
      simp only [h2, not_false_eq_true, true_and, h0, min_eq_right_iff, not_le, div_lt_one hL]

/-- **C105.** An animation made without a stepper runs for 300 milliseconds: once it has been stepped by `t` milliseconds
in total its progress is `t / 300`, at most 1, and `step` has answered whether `t` is strictly between 0 and 300. In between the
program may set properties and do anything with other objects. -/
theorem C105_default (w : World P O) (p : P) (hu : Unobserved w w.anims.length) (ops : List (GStep.Op P S))
    (ho : ∀ op ∈ ops, ¬ MeddlesWith w.anims.length op) (ms : ℕ) {w' : World P O} {rs : List Res}
    (e : GStep.run N out w (.newAnim p none :: (ops ++ [.stepAnim w.anims.length ms])) = .ok (w', rs)) {t : ℕ}
    (ht : t = (animTimes w.anims.length ops).sum + ms) :
    ∃ a' b, w'.anims[w.anims.length]? = some a' ∧ a'.native.progress = fin (min (t / 300) 1) ∧
      rs.getLast? = some (.running b) ∧ (b ↔ 0 < t ∧ t < 300) := by
  obtain ⟨w1, r, rs', h1, h2, rfl⟩ := (run_cons N out).1 e
  cases h1
  obtain ⟨a', b, g1, g2, g3, g4⟩ := linear_runs N out ({ w with anims := w.anims ++ [⟨1, madeAnim N out p (linear 300)⟩] } : World P O)
    (j := w.anims.length) (a := ⟨1, madeAnim N out p (linear 300)⟩) (by simp) one_ne_zero (L := 300) (by norm_num) rfl hu ops ho ms
    h2 ht
  refine ⟨a', b, g1, g2, by rw [List.getLast?_cons, g3]; rfl, g4.trans ?_⟩
  rw [show (300 : ℝ) = ((300 : ℕ) : ℝ) by norm_num, Nat.cast_lt]

/-- **C105.** An animation made with a linear stepper of `L` milliseconds runs for `L` milliseconds, whatever the program
does meanwhile with that stepper and with other objects. -/
theorem C105_linear (w : World P O) (p : P) (hu : Unobserved w w.anims.length) {L : ℕ} (hL : 0 < L)
    (ops : List (GStep.Op P S)) (ho : ∀ op ∈ ops, ¬ MeddlesWith w.anims.length op) (ms : ℕ) {w' : World P O}
    {rs : List Res}
    (e : GStep.run N out w (.newLinear L :: .newAnim p (some (.holder w.holders.length)) ::
      (ops ++ [.stepAnim w.anims.length ms])) = .ok (w', rs)) {t : ℕ} (ht : t = (animTimes w.anims.length ops).sum + ms) :
    ∃ a' b, w'.anims[w.anims.length]? = some a' ∧ a'.native.progress = fin (min (t / L) 1) ∧
      rs.getLast? = some (.running b) ∧ (b ↔ 0 < t ∧ t < L) := by
  obtain ⟨w1, r, rs', h1, h2, rfl⟩ := (run_cons N out).1 e
  cases h1
  obtain ⟨w2, r', rs2, h3, h4, rfl⟩ := (run_cons N out).1 h2
  have hh : World.holds ({ w with holders := w.holders ++ [⟨1, 0, linear L, none⟩] } : World P O) (.holder w.holders.length) :=
    ⟨⟨1, 0, linear L, none⟩, by simp, by simp⟩
  have hr : World.read ({ w with holders := w.holders ++ [⟨1, 0, linear L, none⟩] } : World P O) (.holder w.holders.length) =
      .ok (linear L) := by simp [World.read]
  simp only [exec, if_pos hh, hr, Outcome.bind_ok] at h3
  cases h3
  obtain ⟨a', b, g1, g2, g3, g4⟩ := linear_runs N out (World.mk (w.holders ++ [⟨1, 0, linear L, none⟩]) w.wrappers
    (w.anims ++ [⟨1, madeAnim N out p (linear L)⟩]))
    (j := w.anims.length) (a := ⟨1, madeAnim N out p (linear L)⟩) (by simp) one_ne_zero (L := L) (by positivity) rfl hu ops ho ms
    h4 ht
  refine ⟨a', b, g1, g2, by rw [List.getLast?_cons, List.getLast?_cons, g3]; rfl, g4.trans ?_⟩
  rw [Nat.cast_lt]

/-- **C105.** In every program the condition on wrappers holds: a stepper got from an animation belongs to an animation that
was made before. -/
theorem C105_unobserved {ops : List (GStep.Op P S)} {w : World P O} {rs : List Res}
    (e : GStep.run N out (World.empty P O) ops = .ok (w, rs)) : Unobserved w w.anims.length :=
  fun k v hv => (run_looks N out ops (fun k v hv => by simp [World.empty] at hv) e k v hv).ne

example (p : P) : ∃ w' rs, GStep.run N out (World.empty P O) [.newAnim p none, .stepAnim 0 100, .newLinear 50, .stepAnim 0 150] =
    .ok (w', rs) ∧ (∀ op ∈ ([.stepAnim 0 100, .newLinear 50] : List (GStep.Op P S)), ¬ MeddlesWith 0 op) ∧
    (animTimes 0 ([.stepAnim 0 100, .newLinear 50] : List (GStep.Op P S))).sum + 150 = 250 :=
  ⟨_, _, rfl, by simp [MeddlesWith], by simp [animTimes]⟩

end

end Verif.Props
