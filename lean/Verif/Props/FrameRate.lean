import Verif.Spec.FrameRate
import Verif.Props.LampGrid

/-! # What an animation shows does not depend on the frame rate (C117) -/

namespace Verif.Props

open XR (fin)
open Spec MagicLamp

noncomputable section

/-- **C117.** A linear stepper goes by the total time alone. -/
theorem C117_linear {L : ℝ} (hL : 0 < L) : Timed (linear L) := by
  intro ms ms' m m' h
  have key : ∀ (ms : List ℕ) (m : ℕ),
      (advance (linear L) ms).value m = fin (((ms.sum + m : ℕ) : ℝ) / L) := by
    intro ms m
    rw [linear, advance_linearFrom hL.ne']
    show fin (0 + ((ms.sum : ℕ) : ℝ) / L) + fin m / fin L = _
    rw [XR.fin_div _ hL.ne', XR.fin_add, zero_add, ← add_div, Nat.cast_add]
  rw [key, key, h]

theorem advance_reverse (ms : List ℕ) : ∀ s : Stepper,
    advance (reverse s) ms = reverse (advance s ms) := by
  induction ms with
  | nil => intro s; rfl
  | cons m ms ih => intro s; exact ih (s.invoke m).2

/-- **C117.** Reversing a stepper that goes by the total time gives one that does; so do reversals of
reversals. -/
theorem C117_reverse {s : Stepper} (h : Timed s) : Timed (reverse s) := by
  intro ms ms' m m' e
  rw [advance_reverse, advance_reverse]
  show fin 1 - (advance s ms).value m = fin 1 - (advance s ms').value m'
  rw [h ms ms' m m' e]

/-- The deltas of the `Step`s of a history. -/
def deltas {S : Type} : List (AnimOp S) → List ℕ
  | [] => []
  | .step ms :: ops => ms :: deltas ops
  | _ :: ops => deltas ops

theorem deltas_sum {S : Type} (ops : List (AnimOp S)) : (deltas ops).sum = elapsed ops := by
  induction ops with
  | nil => rfl
  | cons o ops ih => cases o <;> simp [deltas, elapsed, ih]

theorem run_advance {P O S : Type} (K : AnimClass P O S) (ops : List (AnimOp S))
    (hk : KeepsStepper ops) : ∀ a : Anim P O,
    (K.run a ops).stepper = advance a.stepper (deltas ops) := by
  induction ops with
  | nil => intro a; rfl
  | cons o ops ih =>
    intro a
    have hk' : KeepsStepper ops := fun s hm => hk s (List.mem_cons_of_mem _ hm)
    cases o with
    | step ms => exact ih hk' _
    | set x => exact ih hk' _
    | setStepper s => exact absurd (List.mem_cons_self ..) (hk s)

/-- The next answer of the stepper is the same in both histories. -/
theorem same_value {P O S : Type} (K : AnimClass P O S) {s : Stepper} (hs : Timed s) (p p' : P)
    (o o' : O) (ops ops' : List (AnimOp S)) (hk : KeepsStepper ops) (hk' : KeepsStepper ops')
    (m m' : ℕ) (ht : elapsed ops + m = elapsed ops' + m') :
    (K.run (K.new p o s).1 ops).stepper.value m = (K.run (K.new p' o' s).1 ops').stepper.value m' := by
  rw [run_advance K ops hk, run_advance K ops' hk']
  have e := hs (0 :: deltas ops) (0 :: deltas ops') m m'
    (by rw [List.sum_cons, List.sum_cons, deltas_sum, deltas_sum, zero_add, zero_add]; exact ht)
  exact e

/-- For a class whose output does not depend on the output before. -/
theorem same_frame {P O S : Type} (K : AnimClass P O S)
    (hK : ∀ p r o o', K.render p r o = K.render p r o') {s : Stepper} (hs : Timed s) (p p' : P)
    (o o' : O) (ops ops' : List (AnimOp S)) (hk : KeepsStepper ops) (hk' : KeepsStepper ops')
    (hp : (K.run (K.new p o s).1 ops).params = (K.run (K.new p' o' s).1 ops').params)
    (m m' : ℕ) (ht : elapsed ops + m = elapsed ops' + m') :
    visible (K.step (K.run (K.new p o s).1 ops) m).1 =
      visible (K.step (K.run (K.new p' o' s).1 ops') m').1 ∧
    ((K.step (K.run (K.new p o s).1 ops) m).2 ↔ (K.step (K.run (K.new p' o' s).1 ops') m').2) := by
  have e := same_value K hs p p' o o' ops ops' hk hk' m m' ht
  simp only [visible, AnimClass.step, e, hp]
  exact ⟨by rw [hK], trivial⟩

/-- **C117.** Two bounces driven by copies of one timed stepper, whose properties read the same before
a `Step` that brings both to the same total time, show the same and answer the same. -/
theorem C117_bounce {s : Stepper} (hs : Timed s) (p p' : Bounce.Params)
    (ops ops' : List (AnimOp Bounce.Setter)) (hk : KeepsStepper ops) (hk' : KeepsStepper ops')
    (hp : (Bounce.cls.run (Bounce.new p s).1 ops).params =
      (Bounce.cls.run (Bounce.new p' s).1 ops').params)
    (m m' : ℕ) (ht : elapsed ops + m = elapsed ops' + m') :
    visible (Bounce.cls.step (Bounce.cls.run (Bounce.new p s).1 ops) m).1 =
      visible (Bounce.cls.step (Bounce.cls.run (Bounce.new p' s).1 ops') m').1 ∧
    ((Bounce.cls.step (Bounce.cls.run (Bounce.new p s).1 ops) m).2 ↔
      (Bounce.cls.step (Bounce.cls.run (Bounce.new p' s).1 ops') m').2) :=
  same_frame Bounce.cls (fun _ _ _ _ => rfl) hs p p' _ _ ops ops' hk hk' hp m m' ht

/-- **C117.** The same for glides. -/
theorem C117_glide {s : Stepper} (hs : Timed s) (p p' : Glide.Params)
    (ops ops' : List (AnimOp Glide.Setter)) (hk : KeepsStepper ops) (hk' : KeepsStepper ops')
    (hp : (Glide.cls.run (Glide.new p s).1 ops).params =
      (Glide.cls.run (Glide.new p' s).1 ops').params)
    (m m' : ℕ) (ht : elapsed ops + m = elapsed ops' + m') :
    visible (Glide.cls.step (Glide.cls.run (Glide.new p s).1 ops) m).1 =
      visible (Glide.cls.step (Glide.cls.run (Glide.new p' s).1 ops') m').1 ∧
    ((Glide.cls.step (Glide.cls.run (Glide.new p s).1 ops) m).2 ↔
      (Glide.cls.step (Glide.cls.run (Glide.new p' s).1 ops') m').2) :=
  same_frame Glide.cls (fun _ _ _ _ => rfl) hs p p' _ _ ops ops' hk hk' hp m m' ht

/-- **C117.** The same for zooms. -/
theorem C117_zoom {s : Stepper} (hs : Timed s) (f t f' t' : Box)
    (ops ops' : List (AnimOp Zoom.Setter)) (hk : KeepsStepper ops) (hk' : KeepsStepper ops')
    (hp : (Zoom.cls.run (Zoom.new f t s).1 ops).params =
      (Zoom.cls.run (Zoom.new f' t' s).1 ops').params)
    (m m' : ℕ) (ht : elapsed ops + m = elapsed ops' + m') :
    visible (Zoom.cls.step (Zoom.cls.run (Zoom.new f t s).1 ops) m).1 =
      visible (Zoom.cls.step (Zoom.cls.run (Zoom.new f' t' s).1 ops') m').1 ∧
    ((Zoom.cls.step (Zoom.cls.run (Zoom.new f t s).1 ops) m).2 ↔
      (Zoom.cls.step (Zoom.cls.run (Zoom.new f' t' s).1 ops') m').2) :=
  same_frame Zoom.cls (fun _ _ _ _ => rfl) hs _ _ _ _ ops ops' hk hk' hp m m' ht

/-- **C117.** The same for magic lamps whose grid resolution is never set after construction. -/
theorem C117_lamp {s : Stepper} (hs : Timed s) (p p' : MagicLamp.Params)
    (ops ops' : List (AnimOp MagicLamp.Setter)) (hk : KeepsStepper ops) (hk' : KeepsStepper ops')
    (hr : KeepsResolution ops) (hr' : KeepsResolution ops')
    (hp : (MagicLamp.cls.run (MagicLamp.new p s).1 ops).params =
      (MagicLamp.cls.run (MagicLamp.new p' s).1 ops').params)
    (m m' : ℕ) (ht : elapsed ops + m = elapsed ops' + m') :
    visible (MagicLamp.cls.step (MagicLamp.cls.run (MagicLamp.new p s).1 ops) m).1 =
      visible (MagicLamp.cls.step (MagicLamp.cls.run (MagicLamp.new p' s).1 ops') m').1 ∧
    ((MagicLamp.cls.step (MagicLamp.cls.run (MagicLamp.new p s).1 ops) m).2 ↔
      (MagicLamp.cls.step (MagicLamp.cls.run (MagicLamp.new p' s).1 ops') m').2) := by
  have e : (MagicLamp.cls.run (MagicLamp.new p s).1 ops).stepper.value m =
      (MagicLamp.cls.run (MagicLamp.new p' s).1 ops').stepper.value m' :=
    same_value MagicLamp.cls hs p p' _ _ ops ops' hk hk' m m' ht
  obtain ⟨r, g, _, _, er, eo, ew, eh, hg⟩ := lamp_step p s ops hr m
  obtain ⟨r', g', _, _, er', eo', ew', eh', hg'⟩ := lamp_step p' s ops' hr' m'
  have hprog : (MagicLamp.cls.step (MagicLamp.cls.run (MagicLamp.new p s).1 ops) m).1.progress =
      (MagicLamp.cls.step (MagicLamp.cls.run (MagicLamp.new p' s).1 ops') m').1.progress := by
    simp only [AnimClass.step, e]
  have err : r = r' := by rw [er, er', XR.fin_inj] at hprog; exact hprog
  subst err
  have egw : p'.gw = p.gw := by rw [← ew, ← ew', hp]
  have egh : p'.gh = p.gh := by rw [← eh, ← eh', hp]
  have hgg : g = g' := by
    rw [hp] at hg
    rw [egw, egh] at hg'
    apply List.ext_getElem?
    intro k
    by_cases hk2 : k < p.gw * p.gh
    · have hpos : 0 < p.gw := by
        rcases Nat.eq_zero_or_pos p.gw with h | h
        · rw [h] at hk2; simp at hk2
        · exact h
      have hjlt : k / p.gw < p.gh := by rw [Nat.div_lt_iff_lt_mul hpos, mul_comm]; exact hk2
      have q1 := hg.2 (k % p.gw) (k / p.gw) (Nat.mod_lt _ hpos) hjlt
      have q2 := hg'.2 (k % p.gw) (k / p.gw) (Nat.mod_lt _ hpos) hjlt
      rw [Nat.div_add_mod'] at q1 q2
      rw [q1, q2]
    · rw [List.getElem?_eq_none (by rw [hg.1]; omega), List.getElem?_eq_none (by rw [hg'.1]; omega)]
  refine ⟨?_, ?_⟩
  · simp only [visible]
    rw [eo, eo', hprog, hgg]
  · simp only [AnimClass.step, e]

/-- A stepper that goes a tenth further at each call, whatever the delta. -/
def perCall : Stepper where
  σ := ℝ
  state := 0
  call := fun c _ => (fin (c + 1 / 10), c + 1 / 10)

/-- **C117.** The condition on the stepper is needed: with a stepper that counts calls, one frame of
32 ms and two of 16 ms show different things, for every bounce. -/
theorem C117_needs_timed (p : Bounce.Params) :
    (Bounce.cls.step (Bounce.cls.run (Bounce.new p perCall).1 [.step 16]) 16).1.progress ≠
      (Bounce.cls.step (Bounce.cls.run (Bounce.new p perCall).1 []) 32).1.progress := by
  have h1 : (Bounce.cls.run (Bounce.new p perCall).1 [.step 16]).stepper.value 16 =
      fin (0 + 1 / 10 + 1 / 10 + 1 / 10) := rfl
  have h2 : (Bounce.cls.run (Bounce.new p perCall).1 []).stepper.value 32 =
      fin (0 + 1 / 10 + 1 / 10) := rfl
  simp only [AnimClass.step, h1, h2, AnimClass.clampedProgress, clamp_limited]
  norm_num [limited, XR.fin_inj]

/-- Two frames of 16 ms with a setter between them, and one frame of 32 ms after that setter. -/
example (p : Bounce.Params) :
    visible (Bounce.cls.step (Bounce.cls.run (Bounce.new p (reverse (linear 300))).1
      [.step 16, .set (.nBounce 3)]) 16).1 =
    visible (Bounce.cls.step (Bounce.cls.run (Bounce.new p (reverse (linear 300))).1
      [.set (.nBounce 3)]) 32).1 := by
  have hs : Timed (reverse (linear 300)) := C117_reverse (C117_linear (by norm_num))
  exact (C117_bounce hs p p [.step 16, .set (.nBounce 3)] [.set (.nBounce 3)]
    (by intro s h; simp at h) (by intro s h; simp at h) rfl 16 32 rfl).1

example (p : MagicLamp.Params) :
    visible (MagicLamp.cls.step (MagicLamp.cls.run (MagicLamp.new p (linear 300)).1
      [.step 16, .set (.stretch 3)]) 16).1 =
    visible (MagicLamp.cls.step (MagicLamp.cls.run (MagicLamp.new p (linear 300)).1
      [.set (.stretch 3)]) 32).1 := by
  have hs : Timed (linear 300) := C117_linear (by norm_num)
  exact (C117_lamp hs p p [.step 16, .set (.stretch 3)] [.set (.stretch 3)]
    (by intro s h; simp at h) (by intro s h; simp at h) (by intro w v h; simp at h)
    (by intro w v h; simp at h) rfl 16 32 rfl).1

end

end Verif.Props
