import Verif.Model.Wobbly

/-!
# Specification vocabulary for the wobbly model

Small definitions used to state the properties.
-/

namespace Verif.Spec

noncomputable section

open Wobbly

/-- Euclidean distance. -/
def euclid (p q : Pt) : ℝ := Real.sqrt ((p.x - q.x) ^ 2 + (p.y - q.y) ^ 2)

/-- Among the mesh points, number `i` is a closest one to `p`, and no point before it in the array is
as close. -/
def IsFirstNearest (m : Mesh) (p : Pt) (i : Idx) : Prop :=
  (∀ j, euclid p (m i) ≤ euclid p (m j)) ∧ ∀ j, j < i → euclid p (m i) < euclid p (m j)

/-- How far a spring is from its desired length, seen from its first end. -/
def deviation (at_ : Node → Pt) (s : Spring) : Pt :=
  ⟨(at_ s.b).x - (at_ s.a).x - s.desired.x, (at_ s.b).y - (at_ s.a).y - s.desired.y⟩

/-- The spring is less than one pixel from its desired length in both directions. -/
def InDeadZone (at_ : Node → Pt) (s : Spring) : Prop :=
  |(deviation at_ s).x| < 1 ∧ |(deviation at_ s).y| < 1

/-- Ideal spring law with a dead zone of one pixel: pull towards the desired length. -/
def pull (k dev : ℝ) : ℝ := open Classical in if |dev| < 1 then 0 else k / 2 * dev

/-- The regular lattice: columns `tx` apart, rows `ty` apart, starting at `p`; point number `4 r + c`
is in row `r`, column `c`. -/
def IsMeshLattice (m : Mesh) (p : Pt) (tx ty : ℝ) : Prop :=
  ∀ r c : Fin 4, m ⟨4 * r.val + c.val, by omega⟩ = ⟨p.x + c.val * tx, p.y + r.val * ty⟩

/-- Both coordinates at least 0.1 in magnitude or zero. -/
def ClippedVelocity (v : Pt) : Prop := (v.x = 0 ∨ 1 / 10 ≤ |v.x|) ∧ (v.y = 0 ∨ 1 / 10 ≤ |v.y|)

/-- `q` is on the segment from `a` to `b`. -/
def OnSegment (a b q : Pt) : Prop :=
  ∃ t : ℝ, 0 ≤ t ∧ t ≤ 1 ∧ q.x = a.x + t * (b.x - a.x) ∧ q.y = a.y + t * (b.y - a.y)

/-- `q` is a convex combination of the mesh points. -/
def InHull (m : Mesh) (q : Pt) : Prop :=
  ∃ w : Idx → ℝ, (∀ i, 0 ≤ w i) ∧ ∑ i, w i = 1 ∧ q.x = ∑ i, w i * (m i).x ∧ q.y = ∑ i, w i * (m i).y

/-- `r` is `x` rounded to a nearest integer. -/
def RoundsTo (x r : ℝ) : Prop := (∃ z : ℤ, r = z) ∧ |r - x| ≤ 1 / 2

/-- The largest finite `double`. -/
def maxDouble : ℝ := (2 ^ 53 - 1) * 2 ^ 971

/-- Coordinates are small enough for a `double` and for distances between them. -/
def Representable (p : Pt) : Prop := |p.x| ≤ maxDouble / 4 ∧ |p.y| ≤ maxDouble / 4

/-! ## Histories -/

/-- The anchors the program owns after some calls: the handles returned by `GrabAnchor` and
`InsertAnchor`, in order, without those released. -/
def owned : List ℕ → List Op → List Res → List ℕ
  | own, .release h :: ops, _ :: rs => owned (own.filter (· ≠ h)) ops rs
  | own, .grab _ :: ops, .handle h :: rs => owned (own ++ [h]) ops rs
  | own, .insert _ :: ops, .handle h :: rs => owned (own ++ [h]) ops rs
  | own, _ :: ops, _ :: rs => owned own ops rs
  | own, _, _ => own

/-- Every call of the history is made in a state in which `P` allows it. -/
def AllAlong (P : State → Op → Prop) : State → List Op → Prop
  | _, [] => True
  | s, op :: ops => P s op ∧ ∀ s' r, s.exec op = .ok (s', r) → AllAlong P s' ops

/-- The anchor was made by `InsertAnchor`. -/
def IsInserted (a : Live) : Prop := ∃ p st f g, a.kind = .ins p st f g

/-- Nothing inserted is live. -/
def NoneInserted (s : State) : Prop := ∀ a ∈ s.live, ¬ IsInserted a

/-- The model is not resized while an inserted anchor is live. -/
def ResizeAllowed (s : State) : Op → Prop
  | .resize _ _ => NoneInserted s
  | _ => True

open Classical in
/-- By how much a history scales the desired length of spring `n`, horizontally and vertically: by new size over old size for
every resize that finds the spring in the mesh, by nothing for one that comes while an anchor has taken it out. -/
noncomputable def grown (n : ℕ) : State → List Op → Pt
  | _, [] => ⟨1, 1⟩
  | s, op :: ops => match s.exec op with
    | .ok (s', _) => match op with
      | .resize w h => if ∃ y ∈ s.springs, y.id = n
          then ⟨w / s.width * (grown n s' ops).x, h / s.height * (grown n s' ops).y⟩ else grown n s' ops
      | _ => grown n s' ops
    | _ => ⟨1, 1⟩

/-- Inserted anchors are released in the reverse of the order in which they were made. -/
def ReleaseLatestFirst (s : State) : Op → Prop
  | .release h => ∀ a ∈ s.live, a.hid = h → IsInserted a → ∀ c ∈ s.live, IsInserted c → c.hid ≤ h
  | _ => True

/-- Number of live grabs of mesh point `i`. -/
def heldBy (s : State) (i : Idx) : ℕ :=
  s.live.countP fun a => match a.kind with
    | .grab j => j = i
    | .ins _ _ _ _ => false

/-- The spring was put in by anchor `a`. -/
def PutInBy (a : Live) (x : Spring) : Prop :=
  ∃ p st f g, a.kind = .ins p st f g ∧ (x.id = f ∨ x.id = g)

/-- The spring was taken out by anchor `a`, which sits on it. -/
def TakenOutBy (a : Live) (x : Spring) : Prop := ∃ p f g, a.kind = .ins p x f g

/-- The springs that live anchors have taken out, one for every inserted anchor. -/
def takenOut (l : List Live) : List Spring :=
  l.flatMap fun a => match a.kind with
    | .grab _ => []
    | .ins _ x _ _ => [x]

/-- All springs of the model: those in the mesh and those that live anchors have taken out. -/
def allSprings (s : State) : List Spring := s.springs ++ takenOut s.live

/-- No anchor is released while another one sits on one of its springs. -/
def ReleaseNotUnder (s : State) : Op → Prop
  | .release h => ∀ a ∈ s.live, a.hid = h → ∀ c ∈ s.live, ∀ x, TakenOutBy c x → ¬ PutInBy a x
  | _ => True

/-- The same call with its absolute position, if it has one, shifted by `d`. -/
def shiftOp (d : Pt) : Op → Op
  | .grab p => .grab (p + d)
  | .insert p => .insert (p + d)
  | .moveTo p => .moveTo (p + d)
  | op => op

/-- Everything that has a position is at distance `d` from where it is in `s`; all else is the same. -/
structure ShiftedBy (d : Pt) (s s' : State) : Prop where
  pos : ∀ i, s'.pos i = s.pos i + d
  targets : ∀ i, s'.targets i = s.targets i + d
  anchors : ∀ h, anchorData s'.live h = (anchorData s.live h).map (· + d)
  held : ∀ i, heldBy s' i = heldBy s i
  vel : s'.vel = s.vel
  springs : s'.springs = s.springs
  locks : s'.locks = s.locks
  count : s'.count = s.count
  settings : s'.settings = s.settings
  size : s'.width = s.width ∧ s'.height = s.height

/-- Both calls return and the results are related, or both fail to in the same way. -/
def Matches {α β : Type} (R : α → β → Prop) : Outcome α → Outcome β → Prop
  | .ok a, .ok b => R a b
  | .diverges, .diverges => True
  | .throws, .throws => True
  | .ub, .ub => True
  | .nonfinite, .nonfinite => True
  | _, _ => False

/-- The mesh is the regular lattice for the model's size with its top left at `p`, and nothing moves. -/
structure RestsAt (p : Pt) (s : State) : Prop where
  lattice : IsMeshLattice s.pos p (s.width / 3) (s.height / 3)
  still : ∀ i, s.vel i = 0

/-- What is pending after some calls: the answer of the last `Step`, or yes if an anchor was made since;
`f` is what was pending before. -/
def pendingFlag : Prop → List Op → List Res → Prop
  | _, .step _ :: ops, .more m :: rs => pendingFlag m ops rs
  | _, .grab _ :: ops, _ :: rs => pendingFlag True ops rs
  | _, .insert _ :: ops, _ :: rs => pendingFlag True ops rs
  | f, _ :: ops, _ :: rs => pendingFlag f ops rs
  | f, _, _ => f

/-- The two models agree in one coordinate `c`: of mesh points, velocities, inserted anchors and desired
spring lengths. Which nodes the springs join, which points are pinned, spring constant and friction are the
same too. -/
structure AgreeIn (c : Pt → ℝ) (s s' : State) : Prop where
  pos : ∀ i, c (s'.pos i) = c (s.pos i)
  vel : ∀ i, c (s'.vel i) = c (s.vel i)
  anchors : ∀ h, (anchorData s'.live h).map c = (anchorData s.live h).map c
  springs : List.Forall₂ (fun y y' : Spring => y'.a = y.a ∧ y'.b = y.b ∧ c y'.desired = c y.desired) s.springs s'.springs
  locks : s'.locks = s.locks
  springConstant : s'.settings.springConstant = s.settings.springConstant
  friction : s'.settings.friction = s.settings.friction

/-- The call makes or releases no anchor. -/
def KeepsAnchors : Op → Prop
  | .grab _ | .insert _ | .release _ => False
  | _ => True

/-- `MoveModelTo` never returns, whatever the position, and neither does `ResizeModel` to any other size. -/
def SettlingHangs (s : State) : Prop :=
  (∀ q, s.exec (.moveTo q) = .diverges) ∧
  ∀ w h, 0 < w → 0 < h → ¬ (w = s.width ∧ h = s.height) → s.exec (.resize w h) = .diverges

/-- However often `Step` is called with non-zero times, it always answers that something moves. -/
def NeverSettles (s : State) : Prop :=
  ∀ ts : List ℕ, (∀ t ∈ ts, t ≠ 0) → ∃ s', s.run (ts.map .step) = .ok (s', ts.map fun _ => .more True)

end

end Verif.Spec
