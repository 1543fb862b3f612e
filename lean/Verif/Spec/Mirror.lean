import Verif.Spec.Wobbly

/-! # A wobbly model seen in a mirror -/

namespace Verif.Spec

noncomputable section

open Wobbly

/-- The point seen in a mirror: left and right exchanged if `fx`, above and below exchanged if `fy`. A point with
coordinate `c / 2` stays where it is. -/
def mirrorPt (fx fy : Bool) (c p : Pt) : Pt := ⟨if fx then c.x - p.x else p.x, if fy then c.y - p.y else p.y⟩

/-- The movement seen in the mirror. -/
def mirrorVec (fx fy : Bool) (d : Pt) : Pt := ⟨if fx then -d.x else d.x, if fy then -d.y else d.y⟩

/-- The place in the mesh where point `i` is seen in the mirror. -/
def mirrorPlace (fx fy : Bool) (i : Fin 16) : Fin 16 :=
  ⟨4 * (if fy then 3 - i.val / 4 else i.val / 4) + (if fx then 3 - i.val % 4 else i.val % 4), by split_ifs <;> omega⟩

/-- The top left corner of the image of a window of `w` by `h` pixels that has its own top left corner at `p`. -/
def mirrorCorner (fx fy : Bool) (c : Pt) (w h : ℝ) (p : Pt) : Pt :=
  ⟨if fx then c.x - (p.x + w) else p.x, if fy then c.y - (p.y + h) else p.y⟩

/-- The same call seen in the mirror. -/
def mirrorOp (fx fy : Bool) (c : Pt) (w h : ℝ) : Op → Op
  | .grab q => .grab (mirrorPt fx fy c q)
  | .insert q => .insert (mirrorPt fx fy c q)
  | .moveAnchor k d => .moveAnchor k (mirrorVec fx fy d)
  | .moveBy d => .moveBy (mirrorVec fx fy d)
  | .moveTo p => .moveTo (mirrorCorner fx fy c w h p)
  | op => op

/-- The same calls seen in the mirror, made on a model of `w` by `h` pixels. A window that grows or shrinks keeps its top
left corner, and so does the image; for that the mirror moves on by half of what is gained in size. -/
def mirrorOps (fx fy : Bool) (c : Pt) (w h : ℝ) : List Op → List Op
  | [] => []
  | .resize w' h' :: ops => .resize w' h' :: mirrorOps fx fy ⟨c.x + (w' - w), c.y + (h' - h)⟩ w' h' ops
  | op :: ops => mirrorOp fx fy c w h op :: mirrorOps fx fy c w h ops

/-- The second model is the first seen in the mirror. -/
structure Mirrored (fx fy : Bool) (c : Pt) (s s' : State) : Prop where
  pos : ∀ i, s'.pos (mirrorPlace fx fy i) = mirrorPt fx fy c (s.pos i)
  vel : ∀ i, s'.vel (mirrorPlace fx fy i) = mirrorVec fx fy (s.vel i)
  targets : ∀ i, s'.targets (mirrorPlace fx fy i) = mirrorPt fx fy c (s.targets i)
  held : ∀ i, heldBy s' (mirrorPlace fx fy i) = heldBy s i
  locks : ∀ i, s'.locks (mirrorPlace fx fy i) = s.locks i
  count : s'.count = s.count
  settings : s'.settings = s.settings
  size : s'.width = s.width ∧ s'.height = s.height

/-- Left to itself the model would come to rest with its points at the places `m`: the springs are relaxed until nothing
changes any more. -/
def RestsIn (s : State) (m : Mesh) : Prop :=
  ∃ (n : ℕ) (q : ℕ → Phys), q 0 = ⟨s.pos, s.vel⟩ ∧ (∀ k, q (k + 1) = (springStep s.settleEnv (q k)).1) ∧
    (∀ k < n, (springStep s.settleEnv (q k)).2) ∧ ¬ (springStep s.settleEnv (q n)).2 ∧ m = (q (n + 1)).pos

/-- Left to itself the model would come to rest with the corner that the mirror makes its top left one exactly as far from
its top left one as the size of the window says. -/
def RestsEvenly (fx fy : Bool) (s : State) : Prop :=
  ∀ m, RestsIn s m → m (mirrorPlace fx fy 0) = m 0 + ⟨if fx then s.width else 0, if fy then s.height else 0⟩

/-- The call grabs only where one point is nearest. Where it has to find out where the model will rest, it will rest
evenly: when the first anchor is made, when the last but one of the anchors goes away, when the model is moved to a place
or resized while it is not held by exactly one anchor. No anchor is inserted. -/
def Unbiased (fx fy : Bool) (s : State) : Op → Prop
  | .grab q =>
    (∀ i j, (∀ k, euclid q (s.pos i) ≤ euclid q (s.pos k)) → (∀ k, euclid q (s.pos j) ≤ euclid q (s.pos k)) → i = j) ∧
    (s.count = 0 → RestsEvenly fx fy s)
  | .release k => s.count = 2 → ∀ i, ⟨k, .grab i⟩ ∈ s.live →
      RestsEvenly fx fy { s with locks := Function.update s.locks i (s.locks i - 1) }
  | .moveTo _ | .resize _ _ => s.count ≠ 1 → RestsEvenly fx fy s
  | .insert _ => False
  | _ => True

end

end Verif.Spec
