import Verif.Model.GWobblyRounded
import Verif.Spec.GWobbly
import Verif.Spec.Attach

/-!
# A program that drags an `AnimationWobblyModel` about

The programs of `Spec/Visit.lean` and `Spec/Attach.lean`, written with the GObject functions: the model comes from
`animation_wobbly_model_new`, anchors are objects, and an anchor is let go of by releasing it or by dropping the object.
Besides, such a program may set properties of the model, and go on using anchors it has let go of.
-/

namespace Verif.Spec

noncomputable section

open Wobbly Wobbly.Rounded GWobbly

/-- Ways to ask for a step, a move or a resize: by function or by property. -/
inductive Asks : FreeOp → GOp → Prop
  | step (t : ℕ) : Asks (.step t) (.step t)
  | moveBy (d : Pt) : Asks (.moveBy d) (.moveBy d)
  | moveTo (p : Pt) : Asks (.moveTo p) (.moveTo p)
  | position (p : Pt) : Asks (.moveTo p) (.propPosition (some p))
  | resize (w h : ℝ) : Asks (.resize w h) (.resize ⟨w, h⟩)
  | size (w h : ℝ) : Asks (.resize w h) (.propSize (some ⟨w, h⟩))

/-- The same while the program has anchor `a`, which it may move. -/
inductive AsksHeld (a : ℕ) : HeldOp → GOp → Prop
  | drag (d : Pt) : AsksHeld a (.drag d) (.anchorMoveBy a d)
  | model {op : FreeOp} {gop : GOp} (asks : Asks op gop) : AsksHeld a (.model op) gop

/-- Letting go of anchor `a`. -/
def LetsGo (a : ℕ) (op : GOp) : Prop := op = .anchorRelease a ∨ op = .anchorUnref a

/-- Some use of anchor `a`. -/
def UsesAnchor (a : ℕ) (op : GOp) : Prop := (∃ d, op = .anchorMoveBy a d) ∨ LetsGo a op

/-- Setting one of the numbers. -/
def SetsNumber (op : GOp) : Prop := ∃ v, op = .propSpringK v ∨ op = .propFriction v ∨ op = .propMovementRange v

/-- What a call returns when all is calm. -/
def gcalm : FreeOp → GRes
  | .step _ => .more False
  | _ => .none

/-- The states such a program can bring a model to while it holds no anchor, with the spot where the model ought to be
and the number of calls so far that moved, dragged or resized. -/
inductive GHandled (rd : ℝ → ℝ) : GState → Spot → ℕ → Prop
  | new {p : Pt} {w h k f m : ℝ} {b : ℕ} {g : GState} (range : InRange ⟨k, f, m⟩) (on : Spot.OnScreen ⟨p, w, h⟩)
      (made : GWobbly.Rounded.modelNew rd p ⟨w, h⟩ k f m b = .ok g) : GHandled rd g ⟨p, w, h⟩ 0
  | elsewhere {g g' : GState} {o : Spot} {n k : ℕ} {y : GRes} (before : GHandled rd g o n)
      (ran : GWobbly.Rounded.exec rd g (.elsewhere k) = .ok (g', y)) : GHandled rd g' o n
  | number {g g' : GState} {o : Spot} {n : ℕ} {op : GOp} {y : GRes} (before : GHandled rd g o n) (sets : SetsNumber op)
      (ran : GWobbly.Rounded.exec rd g op = .ok (g', y)) : GHandled rd g' o n
  | stray {g g' : GState} {o : Spot} {n a : ℕ} {op : GOp} {y : GRes} (before : GHandled rd g o n) (uses : UsesAnchor a op)
      (ran : GWobbly.Rounded.exec rd g op = .ok (g', y)) : GHandled rd g' o n
  | call {g g' : GState} {o : Spot} {n : ℕ} {op : FreeOp} {gop : GOp} {y : GRes} (before : GHandled rd g o n)
      (asks : Asks op gop) (on : (o.after op).OnScreen) (ran : GWobbly.Rounded.exec rd g gop = .ok (g', y)) :
      GHandled rd g' (o.after op) (n + edits [op])
  | visit {g g1 g2 g3 g4 : GState} {o : Spot} {n a t : ℕ} {q : Pt} {held : List HeldOp} {ops : List GOp} {last : GOp}
      {rs : List GRes} {y : GRes} (before : GHandled rd g o n) (qx : |q.x| ≤ 32768) (qy : |q.y| ≤ 32768)
      (grabbed : GWobbly.Rounded.exec rd g (.grab q) = .ok (g1, .anchor a)) (on : o.StaysHeld held)
      (asks : List.Forall₂ (AsksHeld a) held ops) (dragged : GWobbly.Rounded.run rd g1 ops = .ok (g2, rs)) (some : t ≠ 0)
      (rested : GWobbly.Rounded.exec rd g2 (.step t) = .ok (g3, .more False)) (lets : LetsGo a last)
      (released : GWobbly.Rounded.exec rd g3 last = .ok (g4, y)) :
      GHandled rd g4 (o.heldAll held) (n + heldEdits held)
  | attach {g g1 g2 g3 g4 : GState} {o : Spot} {n a t : ℕ} {q : Pt} {held : List HeldOp} {ops : List GOp} {last : GOp}
      {rs : List GRes} {y : GRes} (before : GHandled rd g o n) (inside : o.Covers q)
      (inserted : GWobbly.Rounded.exec rd g (.insert q) = .ok (g1, .anchor a)) (on : o.StaysHeld held) (kept : NoResize held)
      (asks : List.Forall₂ (AsksHeld a) held ops) (dragged : GWobbly.Rounded.run rd g1 ops = .ok (g2, rs)) (some : t ≠ 0)
      (rested : GWobbly.Rounded.exec rd g2 (.step t) = .ok (g3, .more False)) (lets : LetsGo a last)
      (released : GWobbly.Rounded.exec rd g3 last = .ok (g4, y)) :
      GHandled rd g4 (o.heldAll held) (n + heldEdits held)

/-- The mesh is the lattice at the spot, up to `d`. -/
def GClose (d : ℝ) (g : GState) (o : Spot) : Prop := ∃ s, g.model = some s ∧ ∀ j, Near d (s.pos j) (o.point j)

/-- `animation_wobbly_model_step` answers false and does nothing. -/
def GStill (rd : ℝ → ℝ) (g : GState) : Prop :=
  ∀ t, ∃ g', GWobbly.Rounded.exec rd g (.step t) = .ok (g', .more False) ∧ g'.model = g.model

/-- Every point of the mesh is where it was. -/
def GUnmoved (g g' : GState) : Prop := ∃ s s', g.model = some s ∧ g'.model = some s' ∧ s'.pos = s.pos

/-- Point `i` of the mesh is where it is in the lattice at the spot, up to `d`. -/
def GPoint (d : ℝ) (i : Idx) (g : GState) (o : Spot) : Prop := ∃ s, g.model = some s ∧ Near d (s.pos i) (o.point i)

/-- What the program may count on once it has anchor `a`. `along` is to hold after all calls made while it has it, and
`still` tells when steps are to do nothing after it has let go. -/
def GDraggable (rd : ℝ → ℝ) (o : Spot) (n a : ℕ) (g : GState) (along : List HeldOp → GState → Prop)
    (still : List HeldOp → Prop) : Prop :=
  ∀ held ops, o.StaysHeld held → List.Forall₂ (AsksHeld a) held ops → n + heldEdits held < 65536 →
    ∃ g2 rs, GWobbly.Rounded.run rd g ops = .ok (g2, rs) ∧ along held g2 ∧
      ∀ t, t ≠ 0 → ∃ g3 more, GWobbly.Rounded.exec rd g2 (.step t) = .ok (g3, .more more) ∧
        (¬ more → GClose ((n + heldEdits held + 1) / 262144) g3 (o.heldAll held) ∧ GStill rd g3 ∧
          ∀ last, LetsGo a last → ∃ g4, GWobbly.Rounded.exec rd g3 last = .ok (g4, .none) ∧ GUnmoved g3 g4 ∧
            (still held → GStill rd g4))

/-- What the program may count on in such a state. -/
structure GDependable (rd : ℝ → ℝ) (g : GState) (o : Spot) (n : ℕ) : Prop where
  /-- The mesh is the lattice at the spot, to within 2^-18 pixels per call. -/
  close : GClose ((n + 1) / 262144) g o
  still : GStill rd g
  /-- The calls return and a step answers false. -/
  calls : ∀ op gop, Asks op gop → (o.after op).OnScreen → n + edits [op] < 65536 →
    ∃ g', GWobbly.Rounded.exec rd g gop = .ok (g', gcalm op)
  /-- Setting a number returns, and the steps still do nothing. -/
  numbers : ∀ op, SetsNumber op → ∃ g', GWobbly.Rounded.exec rd g op = .ok (g', .none) ∧ GUnmoved g g' ∧ GStill rd g'
  /-- A grab returns the next anchor object and holds the nearest point, to within a pixel. Every call made while the model
  is held returns, and that point is where it ought to be. Once a step answers false every point is where it ought to be, and further steps do nothing; letting go
  returns, moves nothing, and steps still do nothing. -/
  grabs : ∀ q : Pt, |q.x| ≤ 32768 → |q.y| ≤ 32768 → ∃ g1, GWobbly.Rounded.exec rd g (.grab q) = .ok (g1, .anchor g.anchors.length) ∧
    GUnmoved g g1 ∧ ∃ i, (∀ j, euclid q (o.point i) ≤ euclid q (o.point j) + 1) ∧
      GDraggable rd o n g.anchors.length g1
        (fun held g2 => GPoint ((n + heldEdits held + 1) / 262144) i g2 (o.heldAll held)) fun _ => True

/-- Insertions do as well. They move nothing, and steps answer false until something is moved. After letting go steps do
nothing unless the model was resized meanwhile. -/
def GAttachable (rd : ℝ → ℝ) (g : GState) (o : Spot) (n : ℕ) : Prop :=
  ∀ q, o.Covers q → ∃ g1, GWobbly.Rounded.exec rd g (.insert q) = .ok (g1, .anchor g.anchors.length) ∧ GUnmoved g g1 ∧
    (∀ t, t ≠ 0 → ∃ g2, GWobbly.Rounded.exec rd g1 (.step t) = .ok (g2, .more False)) ∧
    GDraggable rd o n g.anchors.length g1 (fun _ _ => True) NoResize

end

end Verif.Spec
