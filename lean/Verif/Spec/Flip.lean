import Verif.Spec.Wobbly

/-! # A wobbly model with rows and columns exchanged -/

namespace Verif.Spec

noncomputable section

open Wobbly

/-- The two coordinates exchanged. -/
def swapXY (p : Pt) : Pt := ⟨p.y, p.x⟩

/-- The same call with all coordinates, width and height exchanged. -/
def flipOp : Op → Op
  | .grab q => .grab (swapXY q)
  | .insert q => .insert (swapXY q)
  | .moveAnchor h d => .moveAnchor h (swapXY d)
  | .moveBy d => .moveBy (swapXY d)
  | .moveTo q => .moveTo (swapXY q)
  | .resize w h => .resize h w
  | op => op

/-- Point number `4 c + r` of the second mesh is point number `4 r + c` of the first with its coordinates exchanged. -/
def FlippedMesh (m m' : Mesh) : Prop :=
  ∀ r c : Fin 4, m' ⟨4 * c.val + r.val, by omega⟩ = swapXY (m ⟨4 * r.val + c.val, by omega⟩)

/-- The second model is the first with rows and columns exchanged. -/
structure Transposed (s s' : State) : Prop where
  pos : FlippedMesh s.pos s'.pos
  vel : FlippedMesh s.vel s'.vel
  targets : FlippedMesh s.targets s'.targets
  anchors : ∀ h, anchorData s'.live h = (anchorData s.live h).map swapXY
  held : ∀ r c : Fin 4, heldBy s' ⟨4 * c.val + r.val, by omega⟩ = heldBy s ⟨4 * r.val + c.val, by omega⟩
  locks : ∀ r c : Fin 4, s'.locks ⟨4 * c.val + r.val, by omega⟩ = s.locks ⟨4 * r.val + c.val, by omega⟩
  count : s'.count = s.count
  settings : s'.settings = s.settings
  size : s'.width = s.height ∧ s'.height = s.width

/-- The spring is a nearest one to `q`: no spring has a nearer first end, and none of those whose first end is as near has
a nearer second end. -/
def NearestSpring (s : State) (q : Pt) (x : Spring) : Prop :=
  (∀ y ∈ s.springs, euclid (s.env.at_ s.pos x.a) q ≤ euclid (s.env.at_ s.pos y.a) q) ∧
  ∀ y ∈ s.springs, euclid (s.env.at_ s.pos y.a) q = euclid (s.env.at_ s.pos x.a) q →
    euclid (s.env.at_ s.pos x.b) q ≤ euclid (s.env.at_ s.pos y.b) q

/-- What the call looks for, there is only one of: the mesh point nearest to the place where it grabs; the spring nearest
to the place where it inserts, in a mesh with no two points in one place and with coordinates of representable size. -/
def NoTie (s : State) : Op → Prop
  | .grab q => ∀ i j, (∀ k, euclid q (s.pos i) ≤ euclid q (s.pos k)) → (∀ k, euclid q (s.pos j) ≤ euclid q (s.pos k)) → i = j
  | .insert q =>
    (∀ x ∈ s.springs, ∀ y ∈ s.springs, NearestSpring s q x → NearestSpring s q y → x = y) ∧
    (∀ i j, s.pos i = s.pos j → i = j) ∧
    (∀ y ∈ s.springs, Representable (s.env.at_ s.pos y.a) ∧ Representable (s.env.at_ s.pos y.b)) ∧ Representable q
  | _ => True

end

end Verif.Spec
