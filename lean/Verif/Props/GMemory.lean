import Verif.Lemmas.GMemory

/-! # C132 and C133: boxed values are copies, and who has to give back what -/

namespace Verif.Props

open Spec GMem

/-- **C132** Whatever a program did with what it owns, every further call it may make returns, and returns what its account
says. -/
theorem C132_boxed_values_are_copies (w : World) (l : Ledger) (h : Accounted w l) (op : Op) (may : l.Allows op) :
    ∃ w' y, exec w op = .ok (w', y) ∧ l.Expects op y := by
  obtain ⟨L, S, T⟩ := tally_of h
  obtain ⟨w', y, e, x, _⟩ := goes T may
  exact ⟨w', y, e, x⟩

/-- **C132** A property that can be read is what the program last told the object, in a structure of its own. -/
theorem C132_read_back (w : World) (l : Ledger) (h : Accounted w l) (j k : ℕ) (f : Feature) (known : l.Knows j k f)
    (readable : f.readable) :
    ∃ w1 a v, exec w (.get j k) = .ok (w1, .block a) ∧ l.mine a = none ∧ l.believes j k = some v ∧
      exec w1 (.look f.kind a) = .ok (w1, .value v) := by
  obtain ⟨L, S, T⟩ := tally_of h
  obtain ⟨w1, y, e, x, L', S', T'⟩ := goes T (op := .get j k) ⟨f, known⟩
  have x' := x f known
  rw [if_pos readable] at x'
  obtain ⟨a, rfl, n⟩ := x'
  obtain ⟨t, h1, h2, h3⟩ := id known
  obtain ⟨o, eo, ao, rfl⟩ := T.alive h1 h2
  obtain ⟨v, ev, kv⟩ := kind_at (T.kinds o (List.mem_of_getElem? eo)) h3
  have b := believes_eq T eo ev
  refine ⟨w1, a, v, e, n, b, ?_⟩
  have at1 : (l.after (.get j k) (.block a)).mine a = some v := by
    show Function.update l.mine a (l.believes j k) a = some v
    rw [Function.update_self, b]
  unfold exec
  dsimp only
  rw [← kv, Heap.read_ok (T'.mine_at at1).2]
  rfl

/-- A program fills a box, makes a zoom from there, and overwrites the box: the zoom still starts where it was told. -/
theorem box_reused : ∃ w l a j, Accounted w l ∧ l.mine a = some (.box (.fin 5) (.fin 6) (.fin 7) (.fin 8)) ∧
    l.Knows j 0 ⟨.box, some wholeBox, true, true⟩ ∧ l.believes j 0 = some (.box (.fin 1) (.fin 2) (.fin 3) (.fin 4)) := by
  have m1 : Ledger.empty.Allows (.make (.box (.fin 1) (.fin 2) (.fin 3) (.fin 4))) := trivial
  obtain ⟨w1, y1, e1, a, rfl, ha⟩ := C132_boxed_values_are_copies _ _ .start _ m1
  have A1 := Accounted.call .start m1 e1
  set l1 := Ledger.empty.after (.make (.box (.fin 1) (.fin 2) (.fin 3) (.fin 4))) (.block a) with h1
  have b1 : l1.mine a = some (.box (.fin 1) (.fin 2) (.fin 3) (.fin 4)) := Function.update_self ..
  have m2 : l1.Allows (.new .zoom [some a, none] none) := by
    refine ⟨.cons ⟨_, b1, rfl⟩ (.cons ?_ .nil), by simp⟩
    simp [Ledger.Passes]
  obtain ⟨w2, y2, e2, j, rfl, hj⟩ := C132_boxed_values_are_copies _ _ A1 _ m2
  have A2 := A1.call m2 e2
  set l2 := l1.after (.new .zoom [some a, none] none) (.object j) with h2
  have t2 : l2.things j = some ⟨.zoom, 1, [l1.mine a, some wholeBox]⟩ := Function.update_self ..
  have m3 : l2.Allows (.put a (.box (.fin 5) (.fin 6) (.fin 7) (.fin 8))) := ⟨_, b1, rfl⟩
  obtain ⟨w3, y3, e3, _⟩ := C132_boxed_values_are_copies _ _ A2 _ m3
  refine ⟨w3, _, a, j, A2.call m3 e3, Function.update_self .., ⟨_, t2, by simp, rfl⟩, ?_⟩
  show (l2.things j).bind _ = _
  rw [t2, b1]
  rfl

/-- The hypotheses of C132 can be met: the property is read after the box was overwritten. -/
example : ∃ w l j w1 a, Accounted w l ∧ exec w (.get j 0) = .ok (w1, .block a) ∧
    exec w1 (.look .box a) = .ok (w1, .value (.box (.fin 1) (.fin 2) (.fin 3) (.fin 4))) := by
  obtain ⟨w, l, a, j, A, _, K, B⟩ := box_reused
  obtain ⟨w1, b, v, e1, _, e2, e3⟩ := C132_read_back w l A j 0 _ K rfl
  rw [B] at e2
  cases e2
  exact ⟨w, l, j, w1, b, A, e1, e3⟩

/-- **C133** What is in use is what the program owns, besides one structure for each magic lamp made without a resolution and
a reference on one stepper for each animation made without a stepper. -/
theorem C133_in_use (w : World) (l : Ledger) (h : Accounted w l) :
    ∃ L S : Finset ℕ, L.card = l.unresolved ∧ S.card = l.unstepped ∧ (∀ a ∈ L, l.mine a = none) ∧
      (∀ a, InUse w a ↔ l.mine a ≠ none ∨ a ∈ L) ∧
      (∀ r, references w r = l.owned r + if r ∈ S then 1 else 0) ∧
      ∀ j, (w.objects[j]?).map Obj.refs = (l.things j).map Thing.refs := by
  obtain ⟨L, S, T⟩ := tally_of h
  have use : ∀ a, InUse w a ↔ w.heap.at a ≠ none := by
    intro a
    constructor
    · rintro ⟨v, hv⟩
      unfold Heap.at
      rw [hv]
      simp
    · intro g
      obtain ⟨v, hv⟩ := Option.ne_none_iff_exists'.mp g
      exact ⟨v, Heap.get_of_at hv⟩
  refine ⟨L, S, T.cardL, T.cardS, fun a ha => (T.lost a ha).1, ?_, T.steppers, ?_⟩
  · intro a
    rw [use]
    by_cases c : a ∈ L
    · exact ⟨fun _ => .inr c, fun _ => (T.lost a c).2⟩
    · rw [T.blocks a c]
      exact ⟨.inl, fun g => g.resolve_right c⟩
  · intro j
    rw [← T.things j]
    cases w.objects[j]? <;> rfl

/-- **C133, in part** A program that always passed steppers and resolutions and gave everything back leaves nothing behind.
That it is so for every program that gave everything back is false: `C133_not_returned`. -/
theorem C133_returned_partial (w : World) (l : Ledger) (h : Accounted w l) (settled : l.Settled) (s : l.unstepped = 0)
    (r : l.unresolved = 0) : NothingLeft w := by
  obtain ⟨L, S, cL, cS, _, use, refs, objs⟩ := C133_in_use w l h
  rw [r, Finset.card_eq_zero] at cL
  rw [s, Finset.card_eq_zero] at cS
  subst cL cS
  refine ⟨fun a => ?_, fun q => ?_, fun o ho => ?_⟩
  · rw [use, settled.1 a]
    simp
  · rw [refs, settled.2.1 q]
    simp
  · obtain ⟨j, hj⟩ := List.mem_iff_getElem?.mp ho
    have := objs j
    rw [hj] at this
    cases e : l.things j with
    | none => rw [e] at this; cases this
    | some t =>
      rw [e] at this
      simp only [Option.map_some, Option.some.injEq] at this
      rw [this]
      exact settled.2.2 j t e

/-- **C133** A program that gave everything back leaves a stepper for each animation made without one, and a structure for
each magic lamp made without a resolution. -/
theorem C133_left_over (w : World) (l : Ledger) (h : Accounted w l) (settled : l.Settled) :
    ∃ L S : Finset ℕ, L.card = l.unresolved ∧ S.card = l.unstepped ∧ (∀ a, InUse w a ↔ a ∈ L) ∧
      ∀ r, references w r = if r ∈ S then 1 else 0 := by
  obtain ⟨L, S, cL, cS, _, use, refs, _⟩ := C133_in_use w l h
  refine ⟨L, S, cL, cS, fun a => ?_, fun r => ?_⟩
  · rw [use, settled.1 a]
    simp
  · rw [refs, settled.2.1 r, Nat.zero_add]

/-- A program makes a magic lamp with nothing but default values and drops it. -/
theorem lamp_dropped : ∃ w l, Accounted w l ∧ l.Settled ∧ l.unstepped = 1 ∧ l.unresolved = 1 := by
  have m1 : Ledger.empty.Allows (.new .lamp [none, none, none] none) := by
    refine ⟨.cons ?_ (.cons ?_ (.cons ?_ .nil)), by simp⟩ <;> simp [Ledger.Passes]
  obtain ⟨w1, y1, e1, j, rfl, hj⟩ := C132_boxed_values_are_copies _ _ .start _ m1
  have A1 := Accounted.call .start m1 e1
  set l1 := Ledger.empty.after (.new .lamp [none, none, none] none) (.object j) with h1
  have t1 : ∃ t, l1.things j = some t ∧ t.refs = 1 := ⟨_, Function.update_self .., rfl⟩
  obtain ⟨t, ht, rt⟩ := t1
  have m2 : l1.Allows (.unref j) := ⟨t, ht, by omega⟩
  obtain ⟨w2, y2, e2, _⟩ := C132_boxed_values_are_copies _ _ A1 _ m2
  refine ⟨w2, _, A1.call m2 e2, ⟨fun _ => rfl, fun _ => rfl, fun i u hu => ?_⟩, rfl, rfl⟩
  have hu' : Function.update l1.things j ((l1.things j).map fun t => { t with refs := t.refs - 1 }) i = some u := hu
  by_cases c : i = j
  · subst c
    rw [Function.update_self, ht] at hu'
    simp only [Option.map_some, Option.some.injEq] at hu'
    rw [← hu']
    simp [rt]
  · rw [Function.update_of_ne c] at hu'
    have : l1.things i = none := Function.update_of_ne c _ _
    rw [this] at hu'
    cases hu'

/-- **C133** It is false that a program which gave everything back leaves nothing behind: a structure and a stepper may
remain. -/
theorem C133_not_returned : ∃ w l, Accounted w l ∧ l.Settled ∧ (∃ a, InUse w a) ∧ ∃ r, references w r ≠ 0 := by
  obtain ⟨w, l, A, s, u1, u2⟩ := lamp_dropped
  obtain ⟨L, S, cL, cS, use, refs⟩ := C133_left_over w l A s
  rw [u2, Finset.card_eq_one] at cL
  rw [u1, Finset.card_eq_one] at cS
  obtain ⟨a, rfl⟩ := cL
  obtain ⟨r, rfl⟩ := cS
  exact ⟨w, l, A, s, ⟨a, (use a).mpr (by simp)⟩, r, by rw [refs]; simp⟩

/-- The hypotheses of `C133_returned_partial` can be met: a bounce is made with a stepper and both are dropped. -/
example : ∃ w l, Accounted w l ∧ l.Settled ∧ l.unstepped = 0 ∧ l.unresolved = 0 ∧ w.objects ≠ [] ∧ w.steppers ≠ [] := by
  have m1 : Ledger.empty.Allows .newStepper := trivial
  have A1 := Accounted.call (w' := ⟨[], [1], []⟩) (y := .stepper 0) .start m1 rfl
  have m2 : (Ledger.empty.after .newStepper (.stepper 0)).Allows (.new .bounce [none] (some 0)) := by
    refine ⟨.cons (by simp [Ledger.Passes]) .nil, ?_⟩
    rintro r ⟨⟩
    exact ⟨by simp [Ledger.after], by simp⟩
  set l1 := Ledger.empty.after .newStepper (.stepper 0)
  have A2 := A1.call (w' := ⟨[], [1], [⟨.bounce, 1, [wholeBox]⟩]⟩) (y := .object 0) m2 rfl
  have m3 : (l1.after (.new .bounce [none] (some 0)) (.object 0)).Allows (.unref 0) := ⟨⟨.bounce, 1, [some wholeBox]⟩, rfl, by simp⟩
  have A3 := A2.call (w' := ⟨[], [1], [⟨.bounce, 0, [wholeBox]⟩]⟩) (y := .none) m3 rfl
  have m4 : ((l1.after (.new .bounce [none] (some 0)) (.object 0)).after (.unref 0) .none).Allows (.unrefStepper 0) := by
    show Function.update (fun _ => 0) 0 1 0 ≠ 0
    simp
  have A4 := A3.call (w' := ⟨[], [0], [⟨.bounce, 0, [wholeBox]⟩]⟩) (y := .none) m4 rfl
  refine ⟨_, _, A4, ⟨fun _ => rfl, fun r => ?_, fun j t h => ?_⟩, rfl, rfl, by simp, by simp⟩
  · by_cases c : r = 0
    · subst c
      rfl
    · show Function.update (Function.update (fun _ => 0) 0 1) 0 0 r = 0
      simp [Function.update_of_ne c]
  · by_cases c : j = 0
    · subst c
      have h' : some (⟨.bounce, 0, [some wholeBox]⟩ : Thing) = some t := h
      cases h'
      rfl
    · have h' : Function.update (Function.update (fun _ => none) 0 _) 0 _ j = some t := h
      rw [Function.update_of_ne c, Function.update_of_ne c] at h'
      cases h'

end Verif.Props
