import Verif.Model.WobblyRounded
import Verif.Spec.Drag

/-!
# A program that lets go of a model only when it has come to rest

Such a program moves and resizes the model, takes hold of it, drags it about, steps until `Step` answers false and only
then releases the anchor; and all this again and again.
-/

namespace Verif.Spec

noncomputable section

open Wobbly Wobbly.Rounded

/-- The states such a program can bring a model to while it holds no anchor, with the spot where the model ought to be
and the number of calls so far that moved, dragged or resized. -/
inductive Peaceful (r : ℝ → ℝ) (x : Settings) : State → Spot → ℕ → Prop
  | new {p : Pt} {w h : ℝ} {b : ℕ} (on : Spot.OnScreen ⟨p, w, h⟩) : Peaceful r x (Rounded.new r p w h x b) ⟨p, w, h⟩ 0
  | elsewhere {s s' : State} {o : Spot} {n k : ℕ} {y : Res} (before : Peaceful r x s o n)
      (ran : exec r s (.elsewhere k) = .ok (s', y)) : Peaceful r x s' o n
  | call {s s' : State} {o : Spot} {n : ℕ} {op : FreeOp} {y : Res} (before : Peaceful r x s o n)
      (on : (o.after op).OnScreen) (ran : exec r s op.call = .ok (s', y)) : Peaceful r x s' (o.after op) (n + edits [op])
  | visit {s s1 s2 s3 s4 : State} {o : Spot} {n a t : ℕ} {g : Pt} {held : List HeldOp} {rs : List Res} {y : Res}
      (before : Peaceful r x s o n) (gx : |g.x| ≤ 32768) (gy : |g.y| ≤ 32768)
      (grabbed : exec r s (.grab g) = .ok (s1, .handle a))
      (on : o.StaysHeld held) (dragged : run r s1 (held.map (HeldOp.call a)) = .ok (s2, rs))
      (some : t ≠ 0) (rested : exec r s2 (.step t) = .ok (s3, .more False))
      (released : exec r s3 (.release a) = .ok (s4, y)) : Peaceful r x s4 (o.heldAll held) (n + heldEdits held)

/-- `Step` answers false and does nothing. -/
def Still (r : ℝ → ℝ) (s : State) : Prop := ∀ t, exec r s (.step t) = .ok (s, .more False)

/-- What the program may count on in such a state. -/
structure Dependable (r : ℝ → ℝ) (s : State) (o : Spot) (n : ℕ) : Prop where
  /-- The mesh is the lattice at the spot, to within 2^-18 pixels per call. -/
  close : ∀ j, Near ((n + 1) / 262144) (s.pos j) (o.point j)
  still : Still r s
  /-- The calls return and `Step` answers false. -/
  calls : ∀ op : FreeOp, (o.after op).OnScreen → n + edits [op] < 65536 → ∃ s', exec r s op.call = .ok (s', calm op)
  /-- A grab returns and takes the nearest point, to within a pixel. Every call made while the model is held returns and
  the grabbed point is where it ought to be. Once `Step` answers false every point is, and further steps do nothing;
  the release returns, moves nothing, and steps still do nothing. -/
  grabs : ∀ g : Pt, |g.x| ≤ 32768 → |g.y| ≤ 32768 → ∃ i a s1, exec r s (.grab g) = .ok (s1, .handle a) ∧
    (∀ j, euclid g (o.point i) ≤ euclid g (o.point j) + 1) ∧
    ∀ held, o.StaysHeld held → n + heldEdits held < 65536 →
      ∃ s2 rs, run r s1 (held.map (HeldOp.call a)) = .ok (s2, rs) ∧
        Near ((n + heldEdits held + 1) / 262144) (s2.pos i) ((o.heldAll held).point i) ∧
        ∀ t, t ≠ 0 → ∃ s3 more, exec r s2 (.step t) = .ok (s3, .more more) ∧
          (¬ more → (∀ j, Near ((n + heldEdits held + 1) / 262144) (s3.pos j) ((o.heldAll held).point j)) ∧ Still r s3 ∧
            ∃ s4, exec r s3 (.release a) = .ok (s4, .none) ∧ s4.pos = s3.pos ∧ Still r s4)

end

end Verif.Spec
