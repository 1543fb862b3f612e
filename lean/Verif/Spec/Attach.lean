import Verif.Spec.Visit

/-!
# A program that also drags a model by anchors inserted into it

It does all that the programs of `Spec/Visit.lean` do. Besides, it inserts an anchor somewhere into the model, drags that,
steps until `Step` answers false, and releases it.
-/

namespace Verif.Spec

noncomputable section

open Wobbly Wobbly.Rounded

/-- The point lies in the rectangle of the model. -/
def Spot.Covers (o : Spot) (g : Pt) : Prop :=
  (o.place.x ≤ g.x ∧ g.x ≤ o.place.x + o.width) ∧ o.place.y ≤ g.y ∧ g.y ≤ o.place.y + o.height

/-- None of the calls is `ResizeModel`. -/
def NoResize (held : List HeldOp) : Prop := ∀ w h, HeldOp.model (.resize w h) ∉ held

/-- The states such a program can bring a model to while it holds no anchor, with the spot where the model ought to be
and the number of calls so far that moved, dragged or resized. -/
inductive Handled (r : ℝ → ℝ) (x : Settings) : State → Spot → ℕ → Prop
  | new {p : Pt} {w h : ℝ} {b : ℕ} (on : Spot.OnScreen ⟨p, w, h⟩) : Handled r x (Rounded.new r p w h x b) ⟨p, w, h⟩ 0
  | elsewhere {s s' : State} {o : Spot} {n k : ℕ} {y : Res} (before : Handled r x s o n)
      (ran : exec r s (.elsewhere k) = .ok (s', y)) : Handled r x s' o n
  | call {s s' : State} {o : Spot} {n : ℕ} {op : FreeOp} {y : Res} (before : Handled r x s o n)
      (on : (o.after op).OnScreen) (ran : exec r s op.call = .ok (s', y)) : Handled r x s' (o.after op) (n + edits [op])
  | visit {s s1 s2 s3 s4 : State} {o : Spot} {n a t : ℕ} {g : Pt} {held : List HeldOp} {rs : List Res} {y : Res}
      (before : Handled r x s o n) (gx : |g.x| ≤ 32768) (gy : |g.y| ≤ 32768)
      (grabbed : exec r s (.grab g) = .ok (s1, .handle a))
      (on : o.StaysHeld held) (dragged : run r s1 (held.map (HeldOp.call a)) = .ok (s2, rs))
      (some : t ≠ 0) (rested : exec r s2 (.step t) = .ok (s3, .more False))
      (released : exec r s3 (.release a) = .ok (s4, y)) : Handled r x s4 (o.heldAll held) (n + heldEdits held)
  | attach {s s1 s2 s3 s4 : State} {o : Spot} {n a t : ℕ} {g : Pt} {held : List HeldOp} {rs : List Res} {y : Res}
      (before : Handled r x s o n) (inside : o.Covers g)
      (inserted : exec r s (.insert g) = .ok (s1, .handle a))
      (on : o.StaysHeld held) (kept : NoResize held) (dragged : run r s1 (held.map (HeldOp.call a)) = .ok (s2, rs))
      (some : t ≠ 0) (rested : exec r s2 (.step t) = .ok (s3, .more False))
      (released : exec r s3 (.release a) = .ok (s4, y)) : Handled r x s4 (o.heldAll held) (n + heldEdits held)

/-- An anchor is inserted into a model that lies at a spot. -/
structure Attachable (r : ℝ → ℝ) (s : State) (o : Spot) (n : ℕ) (g : Pt) (a : ℕ) (s1 : State) : Prop where
  /-- The insertion returns and moves nothing, and `Step` answers false until something is moved. -/
  inserted : exec r s (.insert g) = .ok (s1, .handle a)
  unmoved : s1.pos = s.pos
  calm : ∀ t, t ≠ 0 → ∃ s2, exec r s1 (.step t) = .ok (s2, .more False)
  /-- Every call made while the anchor is there returns. Once `Step` answers false every point is where it ought to be and
  further steps do nothing; the release returns and moves nothing, and steps still do nothing unless the model was resized
  meanwhile. -/
  dragged : ∀ held, o.StaysHeld held → n + heldEdits held < 65536 →
    ∃ s2 rs, run r s1 (held.map (HeldOp.call a)) = .ok (s2, rs) ∧
      ∀ t, t ≠ 0 → ∃ s3 more, exec r s2 (.step t) = .ok (s3, .more more) ∧
        (¬ more → (∀ j, Near ((n + heldEdits held + 1) / 262144) (s3.pos j) ((o.heldAll held).point j)) ∧ Still r s3 ∧
          ∃ s4, exec r s3 (.release a) = .ok (s4, .none) ∧ s4.pos = s3.pos ∧ (NoResize held → Still r s4))

end

end Verif.Spec
