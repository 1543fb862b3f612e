import Verif.Lemmas.WobblyFlip
import Verif.Lemmas.WobblyQuiet
import Verif.Spec.Mirror

/-! A wobbly model and what is seen of it in a mirror. -/

namespace Verif.Wobbly

open Spec Outcome

variable {fx fy : Bool} {c : Pt}

theorem mir_mir : ∀ (fx fy : Bool) (i : Idx), mirrorPlace fx fy (mirrorPlace fx fy i) = i := by decide
theorem row_mir : ∀ (fx fy : Bool) (i : Idx), row (mirrorPlace fx fy i) = if fy then 3 - row i else row i := by decide
theorem col_mir : ∀ (fx fy : Bool) (i : Idx), col (mirrorPlace fx fy i) = if fx then 3 - col i else col i := by decide
theorem mir_inj {i j : Idx} (h : mirrorPlace fx fy i = mirrorPlace fx fy j) : i = j := by
  rw [← mir_mir fx fy i, h, mir_mir]

theorem vec_vec (d : Pt) : mirrorVec fx fy (mirrorVec fx fy d) = d := by
  cases fx <;> cases fy <;> ext <;> simp [mirrorVec]

theorem vec_zero : mirrorVec fx fy 0 = 0 := by
  cases fx <;> cases fy <;> ext <;> simp [mirrorVec]

theorem vec_add (p q : Pt) : mirrorVec fx fy (p + q) = mirrorVec fx fy p + mirrorVec fx fy q := by
  cases fx <;> cases fy <;> ext <;> simp [mirrorVec] <;> ring

theorem vec_scale (p : Pt) (k : ℝ) : mirrorVec fx fy (p.scale k) = (mirrorVec fx fy p).scale k := by
  cases fx <;> cases fy <;> ext <;> simp [mirrorVec, Pt.scale]

theorem mpt_add (p d : Pt) : mirrorPt fx fy c (p + d) = mirrorPt fx fy c p + mirrorVec fx fy d := by
  cases fx <;> cases fy <;> ext <;> simp [mirrorVec, mirrorPt] <;> ring

theorem mpt_sub (p q : Pt) : mirrorPt fx fy c p - mirrorPt fx fy c q = mirrorVec fx fy (p - q) := by
  cases fx <;> cases fy <;> ext <;> simp [mirrorVec, mirrorPt]

theorem distance_mirror (p q : Pt) : Pt.distance (mirrorPt fx fy c p) (mirrorPt fx fy c q) = Pt.distance p q := by
  unfold Pt.distance
  congr 1
  cases fx <;> cases fy <;> simp [mirrorPt] <;> ring

/-- The mesh seen in the mirror. -/
def MirMesh (fx fy : Bool) (c : Pt) (m m' : Mesh) : Prop := ∀ i, m' (mirrorPlace fx fy i) = mirrorPt fx fy c (m i)

/-- Movements of all points seen in the mirror. -/
def MirVel (fx fy : Bool) (m m' : Mesh) : Prop := ∀ i, m' (mirrorPlace fx fy i) = mirrorVec fx fy (m i)

/-! ### Forces -/

/-- The end of a spring seen in the mirror. -/
def Node.mir (fx fy : Bool) : Node → Node
  | .mesh i => .mesh (mirrorPlace fx fy i)
  | .anchor h => .anchor h

theorem Node.mir_mir (n : Node) : (n.mir fx fy).mir fx fy = n := by
  cases n with
  | mesh i => simp only [Node.mir, Wobbly.mir_mir]
  | anchor h => rfl

theorem Node.mir_inj {n m : Node} (h : n.mir fx fy = m.mir fx fy) : n = m := by
  rw [← n.mir_mir (fx := fx) (fy := fy), h, m.mir_mir]

/-- The spring along an edge of the mesh. -/
noncomputable def edgeSpring (t : Pt) (e : Idx × Idx × Bool) : Spring :=
  ⟨0, .mesh e.1, .mesh e.2.1, if e.2.2 then ⟨0, t.y⟩ else ⟨t.x, 0⟩⟩

/-- The edge seen in the mirror. -/
def mirEdge (fx fy : Bool) (e : Idx × Idx × Bool) : Idx × Idx × Bool :=
  if (if e.2.2 then fy else fx) then (mirrorPlace fx fy e.2.1, mirrorPlace fx fy e.1, e.2.2)
  else (mirrorPlace fx fy e.1, mirrorPlace fx fy e.2.1, e.2.2)

theorem edges_mir : ∀ fx fy : Bool, baseEdges.Perm (baseEdges.map (mirEdge fx fy)) := by decide +kernel

theorem forces_edges (k : ℝ) (at_ : Node → Pt) (t : Pt) (b : ℕ) :
    calculateForces k at_ (baseSprings t b) = calculateForces k at_ (baseEdges.map (edgeSpring t)) := by
  have h1 : ∀ l : List Spring, calculateForces k at_ (l.map fun x => ⟨0, x.a, x.b, x.desired⟩) = calculateForces k at_ l := by
    intro l
    unfold calculateForces
    rw [List.foldl_map]
    rfl
  rw [← h1]
  congr 1

/-- The two pulls of the mirrored spring: exchanged when its ends are. -/
theorem delta_mir {at1 at2 : Node → Pt} (h : ∀ n : Node, at2 (n.mir fx fy) = mirrorPt fx fy c (at1 n)) (t : Pt)
    (e : Idx × Idx × Bool) :
    if (if e.2.2 then fy else fx) then
      (edgeSpring t (mirEdge fx fy e)).deltaA at2 = mirrorVec fx fy ((edgeSpring t e).deltaB at1) ∧
      (edgeSpring t (mirEdge fx fy e)).deltaB at2 = mirrorVec fx fy ((edgeSpring t e).deltaA at1)
    else
      (edgeSpring t (mirEdge fx fy e)).deltaA at2 = mirrorVec fx fy ((edgeSpring t e).deltaA at1) ∧
      (edgeSpring t (mirEdge fx fy e)).deltaB at2 = mirrorVec fx fy ((edgeSpring t e).deltaB at1) := by
  obtain ⟨i, j, below⟩ := e
  have hi := h (.mesh i)
  have hj := h (.mesh j)
  simp only [Node.mir] at hi hj
  cases below <;> cases fx <;> cases fy <;>
    simp only [mirEdge, edgeSpring, Bool.false_eq_true, if_true, if_false] <;>
    refine ⟨Pt.ext ?_ ?_, Pt.ext ?_ ?_⟩ <;>
    simp only [Spring.deltaA, Spring.deltaB, hi, hj, mirrorPt, mirrorVec, deltaFromDesired, resetIfCloseToZero, Pt.scale,
      Bool.false_eq_true, if_true, if_false] <;>
    (try rw [← clip_neg]) <;> congr 1 <;> ring

open Classical in
theorem addForce_mir {f1 f2 : Node → Pt} (h : ∀ n : Node, f2 (n.mir fx fy) = mirrorVec fx fy (f1 n)) (n : Node) (v : Pt)
    (m : Node) : Spring.addForce f2 (n.mir fx fy) (mirrorVec fx fy v) (m.mir fx fy) =
      mirrorVec fx fy (Spring.addForce f1 n v m) := by
  unfold Spring.addForce
  by_cases hc : m = n
  · rw [if_pos hc, if_pos (by rw [hc]), h, vec_add]
  · rw [if_neg hc, if_neg (fun e => hc (Node.mir_inj e)), h]

theorem abs_vec (v : Pt) : |(mirrorVec fx fy v).x| = |v.x| ∧ |(mirrorVec fx fy v).y| = |v.y| := by
  cases fx <;> cases fy <;> simp [mirrorVec]

theorem applyForces_mir {k : ℝ} {at1 at2 : Node → Pt} (h : ∀ n : Node, at2 (n.mir fx fy) = mirrorPt fx fy c (at1 n)) (t : Pt)
    (e : Idx × Idx × Bool) {f1 f2 : Node → Pt} (hf : ∀ n : Node, f2 (n.mir fx fy) = mirrorVec fx fy (f1 n)) :
    (∀ n : Node, ((edgeSpring t (mirEdge fx fy e)).applyForces k at2 f2).1 (n.mir fx fy) =
      mirrorVec fx fy (((edgeSpring t e).applyForces k at1 f1).1 n)) ∧
    (((edgeSpring t (mirEdge fx fy e)).applyForces k at2 f2).2 ↔ ((edgeSpring t e).applyForces k at1 f1).2) := by
  have hd := delta_mir h t e
  simp only [Spring.applyForces]
  by_cases hs : (if e.2.2 then fy else fx) = true
  · rw [if_pos hs] at hd
    rw [hd.1, hd.2, (abs_vec _).1, (abs_vec _).1, (abs_vec _).2, (abs_vec _).2]
    have ha : (edgeSpring t (mirEdge fx fy e)).a = ((edgeSpring t e).b).mir fx fy := by
      simp only [edgeSpring, mirEdge, if_pos hs, Node.mir]
    have hb : (edgeSpring t (mirEdge fx fy e)).b = ((edgeSpring t e).a).mir fx fy := by
      simp only [edgeSpring, mirEdge, if_pos hs, Node.mir]
    refine ⟨fun n => ?_, ?_⟩
    · rw [ha, hb, ← vec_scale, ← vec_scale, addForce_comm _ (edgeSpring t e).a (edgeSpring t e).b]
      exact addForce_mir (addForce_mir hf _ _) _ _ n
    · rw [add_comm, add_comm |((edgeSpring t e).deltaB at1).y|]
  · rw [if_neg hs] at hd
    rw [hd.1, hd.2, (abs_vec _).1, (abs_vec _).1, (abs_vec _).2, (abs_vec _).2]
    have ha : (edgeSpring t (mirEdge fx fy e)).a = ((edgeSpring t e).a).mir fx fy := by
      simp only [edgeSpring, mirEdge, if_neg hs, Node.mir]
    have hb : (edgeSpring t (mirEdge fx fy e)).b = ((edgeSpring t e).b).mir fx fy := by
      simp only [edgeSpring, mirEdge, if_neg hs, Node.mir]
    refine ⟨fun n => ?_, Iff.rfl⟩
    rw [ha, hb, ← vec_scale, ← vec_scale]
    exact addForce_mir (addForce_mir hf _ _) _ _ n

theorem calculateForces_mir {k : ℝ} {at1 at2 : Node → Pt} (h : ∀ n : Node, at2 (n.mir fx fy) = mirrorPt fx fy c (at1 n))
    (t : Pt) (b b' : ℕ) :
    (∀ n : Node, (calculateForces k at2 (baseSprings t b')).1 (n.mir fx fy) =
      mirrorVec fx fy ((calculateForces k at1 (baseSprings t b)).1 n)) ∧
      (calculateForces k at2 (baseSprings t b')).2 = (calculateForces k at1 (baseSprings t b)).2 := by
  rw [forces_edges, forces_edges, calculateForces_perm ((edges_mir fx fy).map (edgeSpring t))]
  unfold calculateForces
  rw [List.map_map, List.foldl_map, List.foldl_map]
  have aux : ∀ (l : List (Idx × Idx × Bool)) (c1 c2 : (Node → Pt) × Prop),
      (∀ n : Node, c2.1 (n.mir fx fy) = mirrorVec fx fy (c1.1 n)) → c2.2 = c1.2 →
      (∀ n : Node, (l.foldl (fun acc e => let r := (edgeSpring t (mirEdge fx fy e)).applyForces k at2 acc.1
          (r.1, acc.2 ∨ r.2)) c2).1 (n.mir fx fy) =
        mirrorVec fx fy ((l.foldl (fun acc e => let r := (edgeSpring t e).applyForces k at1 acc.1; (r.1, acc.2 ∨ r.2)) c1).1 n)) ∧
      (l.foldl (fun acc e => let r := (edgeSpring t (mirEdge fx fy e)).applyForces k at2 acc.1; (r.1, acc.2 ∨ r.2)) c2).2 =
        (l.foldl (fun acc e => let r := (edgeSpring t e).applyForces k at1 acc.1; (r.1, acc.2 ∨ r.2)) c1).2 := by
    intro l
    induction l with
    | nil => intro c1 c2 h1 h2; exact ⟨h1, h2⟩
    | cons x l ih =>
      intro c1 c2 h1 h2
      simp only [List.foldl_cons]
      obtain ⟨k1, k2⟩ := applyForces_mir (k := k) h t x h1
      refine ih _ _ k1 ?_
      simp only [h2]
      exact propext (or_congr Iff.rfl k2)
  exact aux baseEdges (fun _ => 0, False) (fun _ => 0, False) (fun _ => vec_zero.symm) rfl

/-! ### Integration -/

structure PhysMir (fx fy : Bool) (c : Pt) (q q' : Phys) : Prop where
  pos : MirMesh fx fy c q.pos q'.pos
  vel : MirVel fx fy q.vel q'.vel

structure EnvMir (fx fy : Bool) (e e' : Env) : Prop where
  k : e'.k = e.k
  friction : e'.friction = e.friction
  locks : ∀ i, e'.locks (mirrorPlace fx fy i) = e.locks i
  springs : ∃ t b b', e.springs = baseSprings t b ∧ e'.springs = baseSprings t b'

theorem euler_mir (f : ℝ) (p v a : Pt) :
    eulerIntegrate 1 f mass (mirrorPt fx fy c p) (mirrorVec fx fy v) (mirrorVec fx fy a) =
      (mirrorPt fx fy c (eulerIntegrate 1 f mass p v a).1, mirrorVec fx fy (eulerIntegrate 1 f mass p v a).2.1,
        (eulerIntegrate 1 f mass p v a).2.2) := by
  have hv : ∀ v a : ℝ, eulerVelocity 1 f mass (-v) (-a) = -eulerVelocity 1 f mass v a := by
    intro v a
    unfold eulerVelocity
    rw [← clip_neg]
    congr 1
    ring
  have key : (⟨eulerVelocity 1 f mass (mirrorVec fx fy v).x (mirrorVec fx fy a).x,
      eulerVelocity 1 f mass (mirrorVec fx fy v).y (mirrorVec fx fy a).y⟩ : Pt) =
      mirrorVec fx fy ⟨eulerVelocity 1 f mass v.x a.x, eulerVelocity 1 f mass v.y a.y⟩ := by
    cases fx <;> cases fy <;> simp [mirrorVec, hv]
  have kx := congrArg Pt.x key
  have ky := congrArg Pt.y key
  simp only at kx ky
  simp only [eulerIntegrate, Prod.mk.injEq]
  rw [kx, ky]
  refine ⟨?_, ?_, ?_⟩
  · rw [mpt_add, vec_scale]
  · rfl
  · rw [(abs_vec _).1, (abs_vec _).2]

/-- Reading positions: the ends of springs of the mesh. -/
theorem forces_mesh_only (k : ℝ) {at1 at2 : Node → Pt} (h : ∀ i, at1 (.mesh i) = at2 (.mesh i)) (t : Pt) (b : ℕ) :
    calculateForces k at1 (baseSprings t b) = calculateForces k at2 (baseSprings t b) := by
  rw [forces_edges, forces_edges]
  unfold calculateForces
  rw [List.foldl_map, List.foldl_map]
  congr 1
  funext acc e
  simp only [Spring.applyForces, Spring.deltaA, Spring.deltaB, edgeSpring, h]

theorem forces_env {e e' : Env} (h : EnvMir fx fy e e') {m m' : Mesh} (hm : MirMesh fx fy c m m') :
    (∀ i, (calculateForces e'.k (e'.at_ m') e'.springs).1 (.mesh (mirrorPlace fx fy i)) =
      mirrorVec fx fy ((calculateForces e.k (e.at_ m) e.springs).1 (.mesh i))) ∧
      (calculateForces e'.k (e'.at_ m') e'.springs).2 = (calculateForces e.k (e.at_ m) e.springs).2 := by
  obtain ⟨t, b, b', h1, h2⟩ := h.springs
  rw [h1, h2, h.k]
  let a1 : Node → Pt := fun n => match n with | .mesh i => m i | .anchor _ => 0
  let a2 : Node → Pt := fun n => match n with | .mesh i => m' i | .anchor _ => mirrorPt fx fy c 0
  rw [forces_mesh_only e.k (at1 := e.at_ m) (at2 := a1) (fun _ => rfl),
    forces_mesh_only e.k (at1 := e'.at_ m') (at2 := a2) (fun _ => rfl)]
  have := calculateForces_mir (k := e.k) (at1 := a1) (at2 := a2) (fx := fx) (fy := fy) (c := c)
    (fun n => by cases n with
      | mesh i => exact hm i
      | anchor h => rfl) t b b'
  exact ⟨fun i => this.1 (.mesh i), this.2⟩

open Classical in
theorem springStep_mir {e e' : Env} (h : EnvMir fx fy e e') {q q' : Phys} (hq : PhysMir fx fy c q q') :
    PhysMir fx fy c (springStep e q).1 (springStep e' q').1 ∧ (springStep e' q').2 = (springStep e q).2 := by
  obtain ⟨hfi, hm⟩ := forces_env h hq.pos
  unfold springStep
  simp only
  set F := calculateForces e.k (e.at_ q.pos) e.springs
  set F' := calculateForces e'.k (e'.at_ q'.pos) e'.springs
  have hE : ∀ i, eulerIntegrate 1 e'.friction mass (q'.pos (mirrorPlace fx fy i)) (q'.vel (mirrorPlace fx fy i))
      (F'.1 (.mesh (mirrorPlace fx fy i))) =
      (mirrorPt fx fy c (eulerIntegrate 1 e.friction mass (q.pos i) (q.vel i) (F.1 (.mesh i))).1,
        mirrorVec fx fy (eulerIntegrate 1 e.friction mass (q.pos i) (q.vel i) (F.1 (.mesh i))).2.1,
        (eulerIntegrate 1 e.friction mass (q.pos i) (q.vel i) (F.1 (.mesh i))).2.2) := by
    intro i
    rw [hq.pos i, hq.vel i, hfi i, h.friction]
    exact euler_mir _ _ _ _
  refine ⟨⟨?_, ?_⟩, ?_⟩
  · intro i
    simp only [anchoredIntegration]
    rw [h.locks, hE]
    split_ifs
    · exact hq.pos i
    · rfl
  · intro i
    simp only [anchoredIntegration]
    rw [h.locks, hE]
    split_ifs
    · exact vec_zero.symm
    · rfl
  · simp only [anchoredIntegration]
    rw [hm]
    congr 1
    apply propext
    constructor
    · rintro ⟨i, h1, h2⟩
      refine ⟨mirrorPlace fx fy i, ?_, ?_⟩
      · rw [← h.locks, mir_mir]
        exact h1
      · have := hE (mirrorPlace fx fy i)
        rw [mir_mir] at this
        rw [this] at h2
        exact h2
    · rintro ⟨i, h1, h2⟩
      refine ⟨mirrorPlace fx fy i, ?_, ?_⟩
      · rw [h.locks]
        exact h1
      · rw [hE]
        exact h2

theorem settleIter_mir {e e' : Env} (h : EnvMir fx fy e e') {q q' : Phys} (hq : PhysMir fx fy c q q') (n : ℕ) :
    PhysMir fx fy c (settleIter e q n) (settleIter e' q' n) := by
  induction n with
  | zero => exact hq
  | succ n ih =>
    rw [settleIter_succ, settleIter_succ]
    exact (springStep_mir h ih).1

/-- Where the image comes to rest is the image of the other corner. -/
theorem settle_mir {e e' : Env} (h : EnvMir fx fy e e') {q q' : Phys} (hq : PhysMir fx fy c q q') :
    Matches (fun p p' => ∃ n, (¬ settleMore e q n ∧ (∀ m < n, settleMore e q m)) ∧
      p = (settleIter e q (n + 1)).pos 0 ∧
      p' = mirrorPt fx fy c ((settleIter e q (n + 1)).pos (mirrorPlace fx fy 0))) (settle e q) (settle e' q') := by
  have hm : ∀ n, settleMore e' q' n ↔ settleMore e q n := by
    intro n
    unfold settleMore
    rw [(springStep_mir h (settleIter_mir h hq n)).2]
  rcases settle_cases e q with ⟨p, hp⟩ | hd
  · obtain ⟨n, h1, h2, rfl⟩ := settle_ok hp
    rw [hp, settle_of (n := n) (by rwa [hm]) (fun m hmn => (hm m).2 (h2 m hmn))]
    refine ⟨n, ⟨h1, h2⟩, rfl, ?_⟩
    have := (settleIter_mir h hq (n + 1)).pos (mirrorPlace fx fy 0)
    rwa [mir_mir] at this
  · rw [hd]
    rw [settle_diverges] at hd
    rw [settle_diverges.2 fun n => (hm n).2 (hd n)]
    trivial

theorem constrainPoint_mir (r : ℝ) (t p : Pt) :
    constrainPoint r (mirrorPt fx fy c t) (mirrorPt fx fy c p) = mirrorPt fx fy c (constrainPoint r t p) := by
  simp only [constrainPoint, distance_mirror]
  cases fx <;> cases fy <;> ext <;> simp [mirrorPt] <;> ring

open Classical in
theorem constrain_mir (r : ℝ) {t t' p p' : Mesh} (ht : MirMesh fx fy c t t') (hp : MirMesh fx fy c p p') :
    Matches (fun a a' => MirMesh fx fy c a.1 a'.1 ∧ a'.2 = a.2) (constrain r t p) (constrain r t' p') := by
  have hd : ∀ i, Pt.distance (t' (mirrorPlace fx fy i)) (p' (mirrorPlace fx fy i)) = Pt.distance (t i) (p i) := by
    intro i
    rw [ht, hp, distance_mirror]
  have hd' : ∀ i, Pt.distance (t' i) (p' i) = Pt.distance (t (mirrorPlace fx fy i)) (p (mirrorPlace fx fy i)) := by
    intro i
    rw [← hd, mir_mir]
  unfold constrain
  by_cases hc : ∃ i, ¬ Pt.distance (t i) (p i) < r ∧ Pt.distance (t i) (p i) = 0
  · have hc' : ∃ i, ¬ Pt.distance (t' i) (p' i) < r ∧ Pt.distance (t' i) (p' i) = 0 := by
      obtain ⟨i, hi⟩ := hc
      exact ⟨mirrorPlace fx fy i, by rwa [hd]⟩
    rw [if_pos hc, if_pos hc']
    trivial
  · have hc' : ¬ ∃ i, ¬ Pt.distance (t' i) (p' i) < r ∧ Pt.distance (t' i) (p' i) = 0 := by
      rintro ⟨i, hi⟩
      rw [hd'] at hi
      exact hc ⟨_, hi⟩
    rw [if_neg hc, if_neg hc']
    refine ⟨?_, ?_⟩
    · intro i
      simp only [hd]
      split_ifs
      · exact hp i
      · rw [ht i, hp i, constrainPoint_mir]
    · apply propext
      constructor
      · rintro ⟨i, hi⟩
        rw [hd'] at hi
        exact ⟨_, hi⟩
      · rintro ⟨i, hi⟩
        exact ⟨mirrorPlace fx fy i, by rwa [hd]⟩

/-! ### The model -/

/-- The anchor seen in the mirror. -/
def Live.mir (fx fy : Bool) (a : Live) : Live :=
  ⟨a.hid, match a.kind with | .grab i => .grab (mirrorPlace fx fy i) | k => k⟩

/-- The second state is the first seen in the mirror; all anchors are grabs and the springs are those of the new model. -/
structure MirState (fx fy : Bool) (c : Pt) (b : ℕ) (s s' : State) : Prop where
  width : s'.width = s.width
  height : s'.height = s.height
  settings : s'.settings = s.settings
  locks : ∀ i, s'.locks (mirrorPlace fx fy i) = s.locks i
  targets : MirMesh fx fy c s.targets s'.targets
  count : s'.count = s.count
  pos : MirMesh fx fy c s.pos s'.pos
  vel : MirVel fx fy s.vel s'.vel
  springs : s.springs = baseSprings s.tile b
  springs' : s'.springs = baseSprings s.tile b
  live : s'.live = s.live.map (Live.mir fx fy)
  grabs : ∀ a ∈ s.live, ∃ i, a.kind = .grab i
  unequal : s'.unequal = s.unequal
  nextHid : s'.nextHid = s.nextHid

/-- Between the top left corner of the image and of the original. -/
theorem positionArray_mir (p : Pt) (w h : ℝ) :
    MirMesh fx fy c (positionArray p ⟨w / (4 - 1), h / (4 - 1)⟩)
      (positionArray (mirrorCorner fx fy c w h p) ⟨w / (4 - 1), h / (4 - 1)⟩) := by
  intro i
  have lr : ∀ i : Idx, row i ≤ 3 := by decide
  have lc : ∀ i : Idx, col i ≤ 3 := by decide
  have hr : ((3 - row i : ℕ) : ℝ) = 3 - row i := by
    push_cast [lr i]
    ring
  have hc : ((3 - col i : ℕ) : ℝ) = 3 - col i := by
    push_cast [lc i]
    ring
  simp only [positionArray, row_mir, col_mir]
  cases fx <;> cases fy <;> ext <;> simp [mirrorPt, mirrorCorner, hr, hc] <;> ring

theorem mir_new (p : Pt) (w h : ℝ) (x : Settings) (b : ℕ) :
    MirState fx fy c b (State.new p w h x b) (State.new (mirrorCorner fx fy c w h p) w h x b) where
  width := rfl
  height := rfl
  settings := rfl
  locks := fun _ => rfl
  targets := positionArray_mir p w h
  count := rfl
  pos := positionArray_mir p w h
  vel := fun _ => vec_zero.symm
  springs := rfl
  springs' := rfl
  live := rfl
  grabs := fun a ha => by simp [State.new] at ha
  unequal := rfl
  nextHid := rfl

variable {b : ℕ} {s s' : State}

theorem tile_mir (h : MirState fx fy c b s s') : s'.tile = s.tile := by
  simp only [State.tile, h.width, h.height]

theorem env_mir (h : MirState fx fy c b s s') : EnvMir fx fy s.env s'.env where
  k := by simp only [State.env, h.settings]
  friction := by simp only [State.env, h.settings]
  locks := h.locks
  springs := ⟨s.tile, b, b, h.springs, h.springs'⟩

theorem settleEnv_mir (h : MirState fx fy c b s s') : EnvMir fx fy s.settleEnv s'.settleEnv where
  k := by simp only [State.settleEnv, h.settings]
  friction := by simp only [State.settleEnv, h.settings]
  locks := h.locks
  springs := ⟨s.tile, s.lastId, s'.lastId, rfl, by simp only [State.settleEnv, tile_mir h]⟩

theorem restsIn_of {s : State} {n : ℕ} (h1 : ¬ settleMore s.settleEnv ⟨s.pos, s.vel⟩ n)
    (h2 : ∀ m < n, settleMore s.settleEnv ⟨s.pos, s.vel⟩ m) :
    RestsIn s (settleIter s.settleEnv ⟨s.pos, s.vel⟩ (n + 1)).pos :=
  ⟨n, settleIter s.settleEnv ⟨s.pos, s.vel⟩, rfl, fun k => settleIter_succ _ _ k, h2, h1, rfl⟩

theorem target_mir (h : MirState fx fy c b s s') (he : RestsEvenly fx fy s) :
    Matches (fun p p' => p' = mirrorCorner fx fy c s.width s.height p) s.targetByFullIntegration
      s'.targetByFullIntegration := by
  have := settle_mir (c := c) (settleEnv_mir h) (q := ⟨s.pos, s.vel⟩) (q' := ⟨s'.pos, s'.vel⟩) ⟨h.pos, h.vel⟩
  unfold State.targetByFullIntegration
  cases h1 : settle s.settleEnv ⟨s.pos, s.vel⟩ <;> rw [h1] at this <;>
    cases h2 : settle s'.settleEnv ⟨s'.pos, s'.vel⟩ <;> rw [h2] at this <;> first | exact this.elim | trivial | skip
  obtain ⟨n, ⟨k1, k2⟩, rfl, rfl⟩ := this
  show _ = _
  rw [he _ (restsIn_of k1 k2)]
  cases fx <;> cases fy <;> ext <;> simp [mirrorPt, mirrorCorner]

theorem spend_mir (h : MirState fx fy c b s s') : MirState fx fy c b s.spend s'.spend := { h with }

theorem recalc_mir (h : MirState fx fy c b s s') (he : RestsEvenly fx fy s) :
    Matches (MirState fx fy c b) s.recalc s'.recalc := by
  unfold State.recalc
  refine matches_bind (target_mir h he) ?_
  rintro p p' - - rfl
  refine { spend_mir h with targets := ?_ }
  rw [tile_mir h]
  exact positionArray_mir p s.width s.height

theorem active_mir (h : MirState fx fy c b s s') : s'.active ↔ s.active := by
  unfold State.active
  rw [h.count]

theorem activate_mir (h : MirState fx fy c b s s') (he : s.count = 0 → RestsEvenly fx fy s) :
    Matches (MirState fx fy c b) s.activate s'.activate := by
  unfold State.activate
  simp only [h.count]
  have : MirState fx fy c b { s with count := s.count + 1 } { s' with count := s.count + 1 } := { h with count := rfl }
  by_cases hc : s.count + 1 = 1
  · rw [if_pos hc, if_pos hc]
    exact recalc_mir this (he (by omega))
  · rw [if_neg hc, if_neg hc]
    exact this

theorem deactivate_mir (h : MirState fx fy c b s s') (he : s.count = 2 → RestsEvenly fx fy s) :
    Matches (MirState fx fy c b) s.deactivate s'.deactivate := by
  unfold State.deactivate
  simp only [h.count]
  have : MirState fx fy c b { s with count := s.count - 1 } { s' with count := s.count - 1 } := { h with count := rfl }
  by_cases h0 : s.count = 0
  · rw [if_pos h0, if_pos h0]
    trivial
  rw [if_neg h0, if_neg h0]
  by_cases hc : s.count - 1 = 1
  · rw [if_pos hc, if_pos hc]
    exact recalc_mir this (he (by omega))
  · rw [if_neg hc, if_neg hc]
    exact this

open Classical in
theorem targetPosition_keeps (h : MirState fx fy c b s s') (he : s.count ≠ 1 → RestsEvenly fx fy s)
    (ht : s.active → s.targets (mirrorPlace fx fy 0) = s.targets 0 + ⟨if fx then s.width else 0, if fy then s.height else 0⟩) :
    Matches (fun r r' => MirState fx fy c b r.1 r'.1 ∧ r.1.width = s.width ∧ r.1.height = s.height ∧
      r'.2 = mirrorCorner fx fy c s.width s.height r.2 ∧ r.1.targets = s.targets) s.targetPosition s'.targetPosition := by
  unfold State.targetPosition
  by_cases ha : s.active
  · rw [if_pos ha, if_pos ((active_mir h).2 ha)]
    refine ⟨h, rfl, rfl, ?_, rfl⟩
    have := h.targets (mirrorPlace fx fy 0)
    rw [mir_mir, ht ha] at this
    rw [this]
    cases fx <;> cases fy <;> ext <;> simp [mirrorPt, mirrorCorner]
  · rw [if_neg ha, if_neg (fun k => ha ((active_mir h).1 k))]
    refine matches_bind (target_mir h (he ha)) ?_
    rintro p p' - - rfl
    exact ⟨spend_mir h, rfl, rfl, rfl, rfl⟩

open Classical in
theorem round_mir (h : MirState fx fy c b s s') {q q' : Phys} (hq : PhysMir fx fy c q q') :
    Matches (fun r r' => PhysMir fx fy c r.1 r'.1 ∧ r'.2 = r.2) (s.round q) (s'.round q') := by
  unfold State.round
  by_cases ha : s.active
  · rw [if_pos ha, if_pos ((active_mir h).2 ha), h.settings]
    refine matches_bind (constrain_mir _ h.targets hq.pos) ?_
    rintro a a' - - ⟨h1, h2⟩
    obtain ⟨k1, k2⟩ := springStep_mir (env_mir h) (q := ⟨a.1, q.vel⟩) (q' := ⟨a'.1, q'.vel⟩) ⟨h1, hq.vel⟩
    refine ⟨k1, ?_⟩
    simp only [h2, k2]
  · rw [if_neg ha, if_neg (fun k => ha ((active_mir h).1 k))]
    exact springStep_mir (env_mir h) hq

theorem integrate_mir (h : MirState fx fy c b s s') (n : ℕ) : ∀ {q q' : Phys}, PhysMir fx fy c q q' →
    Matches (fun r r' => PhysMir fx fy c r.1 r'.1 ∧ r'.2 = r.2) (s.integrate n q) (s'.integrate n q') := by
  induction n with
  | zero => intro q q' hq; exact ⟨hq, rfl⟩
  | succ n ih =>
    intro q q' hq
    simp only [State.integrate]
    refine matches_bind (round_mir h hq) ?_
    rintro r r' - - ⟨h1, h2⟩
    refine matches_bind (ih h1) ?_
    rintro a a' - - ⟨h3, h4⟩
    refine ⟨h3, ?_⟩
    simp only [h2, h4]

theorem not_dangling_base {t : Pt} {b : ℕ} {l : List Live} : ¬ dangling (baseSprings t b) l := by
  rintro ⟨x, hx, hc⟩
  obtain ⟨⟨i, hi⟩, j, hj⟩ := baseSprings_mesh hx
  rw [hi, hj] at hc
  exact hc ⟨trivial, trivial⟩

open Classical in
theorem step_mir (h : MirState fx fy c b s s') (t : ℕ) :
    Matches (fun r r' => r'.2 = r.2 ∧ MirState fx fy c b r.1 r'.1) (s.step t) (s'.step t) := by
  unfold State.step
  have n1 : ¬ (stepCount t ≠ 0 ∧ dangling s.springs s.live) := by
    rw [h.springs]
    exact fun k => not_dangling_base k.2
  have n2 : ¬ (stepCount t ≠ 0 ∧ dangling s'.springs s'.live) := by
    rw [h.springs']
    exact fun k => not_dangling_base k.2
  rw [if_neg n1, if_neg n2]
  refine matches_bind (integrate_mir h _ ⟨h.pos, h.vel⟩) ?_
  rintro r r' - - ⟨h1, h2⟩
  have hm : ((if t ≠ 0 then False else s'.unequal) ∨ r'.2) = ((if t ≠ 0 then False else s.unequal) ∨ r.2) := by
    rw [h2, h.unequal]
  refine ⟨congrArg Res.more hm, { h with pos := ?_, vel := h1.vel, unequal := hm }⟩
  have key : ∀ (p p' : Prop) [Decidable p] [Decidable p'], (p' ↔ p) →
      MirMesh fx fy c (if p then s.targets else r.1.pos) (if p' then s'.targets else r'.1.pos) := by
    intro p p' _ _ hcc
    by_cases hc : p
    · rw [if_pos hc, if_pos (hcc.2 hc)]
      exact h.targets
    · rw [if_neg hc, if_neg (fun k => hc (hcc.1 k))]
      exact h1.pos
  exact key _ _ (by rw [hm, active_mir h])

theorem closestIndex_mir {m m' : Mesh} (hm : MirMesh fx fy c m m') {q : Pt}
    (hu : ∀ i j, (∀ k, euclid q (m i) ≤ euclid q (m k)) → (∀ k, euclid q (m j) ≤ euclid q (m k)) → i = j) :
    closestIndex m' (mirrorPt fx fy c q) = (closestIndex m q).map (mirrorPlace fx fy) := by
  have hd : ∀ i, Pt.distance (mirrorPt fx fy c q) (m' (mirrorPlace fx fy i)) = Pt.distance q (m i) :=
    fun i => by rw [hm, distance_mirror]
  cases h1 : closestIndex m q with
  | none =>
    cases h2 : closestIndex m' (mirrorPt fx fy c q) with
    | none => rfl
    | some j =>
      exfalso
      have k1 := (closestIndex_lt h2).1
      rw [← mir_mir fx fy j, hd] at k1
      rcases closestIndex_spec m q with ⟨-, k2⟩ | ⟨i, k2, -⟩
      · exact absurd k1 (not_lt.2 (k2 _))
      · rw [h1] at k2
        cases k2
  | some i =>
    have k1 := closestIndex_lt h1
    cases h2 : closestIndex m' (mirrorPt fx fy c q) with
    | none =>
      exfalso
      rcases closestIndex_spec m' (mirrorPt fx fy c q) with ⟨-, k2⟩ | ⟨j, k2, -⟩
      · have := k2 (mirrorPlace fx fy i)
        rw [hd] at this
        exact absurd k1.1 (not_lt.2 this)
      · rw [h2] at k2
        cases k2
    | some j =>
      have k2 := closestIndex_lt h2
      rw [Option.map_some]
      congr 1
      rw [← mir_mir fx fy j]
      congr 1
      refine hu _ _ (fun k => ?_) (fun k => ?_)
      · have := k2.2 (mirrorPlace fx fy k)
        rw [← mir_mir fx fy j, hd, hd] at this
        simpa only [Pt.distance_eq] using this
      · simpa only [Pt.distance_eq] using k1.2 k

theorem update_mir {α : Type} {f f' : Idx → α} {g : α → α} (h : ∀ i, f' (mirrorPlace fx fy i) = g (f i)) (i : Idx) (v : α)
    (j : Idx) : Function.update f' (mirrorPlace fx fy i) (g v) (mirrorPlace fx fy j) = g (Function.update f i v j) := by
  by_cases hj : j = i
  · rw [hj, Function.update_self, Function.update_self]
  · rw [Function.update_of_ne hj, Function.update_of_ne (fun e => hj (mir_inj e)), h]

theorem lock_mir (h : MirState fx fy c b s s') (i : Idx) : MirState fx fy c b (s.lock i) (s'.lock (mirrorPlace fx fy i)) :=
  { h with
    locks := by
      intro j
      simp only [State.lock, h.locks]
      exact update_mir (g := id) h.locks i _ j }

open Classical in
theorem unlock_mir (h : MirState fx fy c b s s') (i : Idx) :
    Matches (fun z z' => MirState fx fy c b z z' ∧ ∃ fa, z =
      { s with locks := Function.update s.locks i (s.locks i - 1), firstAnchor := fa }) (s.unlock i)
      (s'.unlock (mirrorPlace fx fy i)) := by
  unfold State.unlock
  by_cases h0 : s.locks i = 0
  · rw [if_pos h0, if_pos (by rw [h.locks, h0])]
    trivial
  · rw [if_neg h0, if_neg (by rw [h.locks]; exact h0)]
    refine ⟨{ h with locks := ?_ }, _, rfl⟩
    intro j
    simp only [h.locks]
    exact update_mir (g := id) h.locks i _ j

theorem grab_mir (h : MirState fx fy c b s s') {q : Pt} (hn : Unbiased fx fy s (.grab q)) :
    Matches (fun r r' => r'.2 = r.2 ∧ MirState fx fy c b r.1 r'.1) (s.grab q) (s'.grab (mirrorPt fx fy c q)) := by
  unfold State.grab
  rw [closestIndex_mir h.pos hn.1]
  cases closestIndex s.pos q with
  | none => trivial
  | some i =>
    simp only [Option.map_some]
    have h1 : MirState fx fy c b { s with unequal := True } { s' with unequal := True } := { h with unequal := rfl }
    refine matches_bind (activate_mir h1 hn.2) ?_
    rintro z z' - - hz
    have h2 := lock_mir hz i
    refine ⟨by rw [h2.nextHid], { h2 with live := ?_, nextHid := ?_, grabs := ?_ }⟩
    · simp only [h2.live, h2.nextHid, List.map_append, List.map_cons, List.map_nil]
      rfl
    · intro a ha
      rcases List.mem_append.1 ha with ha | ha
      · exact h2.grabs a ha
      · rw [List.mem_singleton.1 ha]
        exact ⟨i, rfl⟩
    · simp only [h2.nextHid]

theorem find_mir (l : List Live) (k : ℕ) : (l.map (Live.mir fx fy)).find? (fun a => decide (a.hid = k)) =
    (l.find? fun a => decide (a.hid = k)).map (Live.mir fx fy) := by
  induction l with
  | nil => rfl
  | cons a l ih =>
    simp only [List.map_cons, List.find?_cons, Live.mir]
    by_cases hk : a.hid = k
    · simp [hk, Live.mir]
    · simp only [hk, decide_false]
      exact ih

theorem release_mir (h : MirState fx fy c b s s') {k : ℕ} (hn : Unbiased fx fy s (.release k)) :
    Matches (fun r r' => r'.2 = r.2 ∧ MirState fx fy c b r.1 r'.1) (s.release k) (s'.release k) := by
  unfold State.release
  rw [h.live, find_mir]
  cases hf : s.live.find? (fun a => decide (a.hid = k)) with
  | none => exact ⟨rfl, h⟩
  | some a =>
    simp only [Option.map_some]
    have ha : a ∈ s.live := List.mem_of_find?_eq_some hf
    have hk : a.hid = k := by simpa using List.find?_some hf
    obtain ⟨i, hi⟩ := h.grabs a ha
    have h1 : MirState fx fy c b { s with live := s.live.filter fun b => b.hid ≠ k }
        { s' with live := (s.live.map (Live.mir fx fy)).filter fun b => b.hid ≠ k } :=
      { h with
        live := (by
          simp only [List.filter_map]
          rfl)
        grabs := fun x hx => h.grabs x (List.mem_filter.1 hx).1 }
    have hmi : (Live.mir fx fy a).kind = .grab (mirrorPlace fx fy i) := by simp only [Live.mir, hi]
    rw [hi, hmi]
    simp only [State.releaseKind]
    refine matches_bind (unlock_mir h1 i) ?_
    rintro z z' - - ⟨hz, fa, rfl⟩
    refine matches_bind (deactivate_mir hz ?_) ?_
    · intro h2
      have hmem : (⟨k, .grab i⟩ : Live) ∈ s.live := by
        rcases a with ⟨hid, kind⟩
        simp only at hk hi
        rw [← hk, ← hi]
        exact ha
      exact hn h2 i hmem
    · rintro y y' - - hy
      exact ⟨rfl, hy⟩

open Classical in
theorem moveAnchor_mir (h : MirState fx fy c b s s') (k : ℕ) (d : Pt) :
    Matches (fun r r' => r'.2 = r.2 ∧ MirState fx fy c b r.1 r'.1) (s.moveAnchor k d)
      (s'.moveAnchor k (mirrorVec fx fy d)) := by
  unfold State.moveAnchor
  rw [h.live, find_mir]
  have ht : MirMesh fx fy c (if s.active then fun i => s.targets i + d else s.targets)
      (if s'.active then fun i => s'.targets i + mirrorVec fx fy d else s'.targets) := by
    by_cases ha : s.active
    · rw [if_pos ha, if_pos ((active_mir h).2 ha)]
      intro i
      simp only [h.targets i, mpt_add]
    · rw [if_neg ha, if_neg (fun k => ha ((active_mir h).1 k))]
      exact h.targets
  cases hf : s.live.find? (fun a => decide (a.hid = k)) with
  | none => exact ⟨rfl, h⟩
  | some a =>
    simp only [Option.map_some]
    obtain ⟨i, hi⟩ := h.grabs a (List.mem_of_find?_eq_some hf)
    have hmi : (Live.mir fx fy a).kind = .grab (mirrorPlace fx fy i) := by simp only [Live.mir, hi]
    rw [hi, hmi]
    refine ⟨rfl, { h with targets := ht, pos := ?_, live := rfl }⟩
    intro j
    simp only [h.pos i, ← mpt_add]
    exact update_mir (g := mirrorPt fx fy c) h.pos i (s.pos i + d) j

theorem moveBy_mir (h : MirState fx fy c b s s') (d : Pt) :
    MirState fx fy c b (s.moveBy d) (s'.moveBy (mirrorVec fx fy d)) where
  width := h.width
  height := h.height
  settings := h.settings
  locks := h.locks
  targets := fun i => by simp only [State.moveBy, h.targets i, mpt_add]
  count := h.count
  pos := fun i => by simp only [State.moveBy, h.pos i, mpt_add]
  vel := h.vel
  springs := h.springs
  springs' := h.springs'
  live := by
    simp only [State.moveBy, h.live, List.map_map]
    apply List.map_congr_left
    intro a ha
    obtain ⟨i, hi⟩ := h.grabs a ha
    simp only [Function.comp, Live.mir, hi, Kind.shift]
  grabs := by
    intro a ha
    simp only [State.moveBy, List.mem_map] at ha
    obtain ⟨x, hx, rfl⟩ := ha
    obtain ⟨i, hi⟩ := h.grabs x hx
    exact ⟨i, by simp only [hi, Kind.shift]⟩
  unequal := h.unequal
  nextHid := h.nextHid

theorem corner_of_lattice (hs : s.targets = positionArray (s.targets 0) s.tile) :
    s.targets (mirrorPlace fx fy 0) = s.targets 0 + ⟨if fx then s.width else 0, if fy then s.height else 0⟩ := by
  rw [hs]
  simp only [positionArray, row_mir, col_mir, State.tile]
  cases fx <;> cases fy <;> ext <;> simp [row, col] <;> ring

theorem moveTo_mir {w v : ℝ} (h : MirState fx fy c b s s') (hw : s.width = w) (hv : s.height = v) {p : Pt}
    (hn : Unbiased fx fy s (.moveTo p)) (hs : s.targets = positionArray (s.targets 0) s.tile) :
    Matches (fun r r' => r'.2 = r.2 ∧ MirState fx fy c b r.1 r'.1 ∧ r.1.width = s.width ∧ r.1.height = s.height)
      (s.moveTo p) (s'.moveTo (mirrorCorner fx fy c w v p)) := by
  unfold State.moveTo
  refine matches_bind (targetPosition_keeps h hn (fun _ => corner_of_lattice hs)) ?_
  rintro r r' - - ⟨k1, k2, k3, k4, -⟩
  refine ⟨rfl, ?_, k2, k3⟩
  have : mirrorCorner fx fy c w v p - r'.2 = mirrorVec fx fy (p - r.2) := by
    rw [k4, hw, hv]
    cases fx <;> cases fy <;> ext <;> simp [mirrorCorner, mirrorVec]
  simp only [this]
  exact moveBy_mir k1 _

/-- Where the mirror is after the size has changed. -/
def axis (c : Pt) (s z : State) : Pt := ⟨c.x + (z.width - s.width), c.y + (z.height - s.height)⟩

theorem axis_same {z : State} (h : z.width = s.width ∧ z.height = s.height) : axis c s z = c := by
  ext <;> simp [axis, h.1, h.2]

open Classical in
theorem resize_mir (h : MirState fx fy c b s s') {w v : ℝ} (hn : s.count ≠ 1 → RestsEvenly fx fy s)
    (hs : s.targets = positionArray (s.targets 0) s.tile) :
    Matches (fun r r' => r'.2 = r.2 ∧ MirState fx fy (axis c s r.1) b r.1 r'.1) (s.resize w v) (s'.resize w v) := by
  unfold State.resize
  rw [h.width, h.height]
  by_cases hp : w > 0 ∧ v > 0
  swap
  · rw [if_pos hp, if_pos hp]
    trivial
  rw [if_neg (not_not.2 hp), if_neg (not_not.2 hp)]
  by_cases hz : s.width = 0 ∨ s.height = 0
  · rw [if_pos hz, if_pos hz]
    trivial
  rw [if_neg hz, if_neg hz]
  obtain ⟨hw0, hh0⟩ := not_or.1 hz
  dsimp only
  by_cases hq : Pt.equals ⟨w / s.width, v / s.height⟩ ⟨1, 1⟩
  · rw [if_pos hq, if_pos hq]
    refine ⟨rfl, ?_⟩
    rw [axis_same ⟨rfl, rfl⟩]
    exact h
  rw [if_neg hq, if_neg hq]
  refine matches_bind (targetPosition_keeps h hn (fun _ => corner_of_lattice hs)) ?_
  rintro r r' - - ⟨k1, k2, k3, k4, k5⟩
  have k5' : r.1.targets (mirrorPlace fx fy 0) =
      r.1.targets 0 + ⟨if fx then s.width else 0, if fy then s.height else 0⟩ := by
    rw [k5]
    exact corner_of_lattice hs
  have kt := k1.targets (mirrorPlace fx fy 0)
  rw [mir_mir, k5'] at kt
  have htile : (⟨s.width / (4 - 1), s.height / (4 - 1)⟩ : Pt).pscale ⟨w / s.width, v / s.height⟩ =
      ⟨w / (4 - 1), v / (4 - 1)⟩ := by
    ext <;> simp [Pt.pscale] <;> field_simp
  have hspr : ∀ (t : Pt) (f : Pt), (baseSprings t b).map (fun x => x.scaleLength f) = baseSprings (t.pscale f) b :=
    fun t f => by
      unfold baseSprings
      rw [List.map_map]
      refine List.map_congr_left fun y _ => ?_
      simp only [Function.comp, Spring.scaleLength, Spring.mk.injEq, true_and]
      split_ifs <;> ext <;> simp [Pt.pscale]
  refine ⟨rfl, ?_⟩
  constructor
  · rfl
  · rfl
  · exact k1.settings
  · exact k1.locks
  · intro i
    simp only [k1.targets i, kt, axis]
    cases fx <;> cases fy <;> ext <;> simp [mirrorPt, rescale, Pt.pscale] <;> field_simp <;> ring
  · exact k1.count
  · intro i
    simp only [k1.pos i, k4, axis]
    cases fx <;> cases fy <;> ext <;> simp [mirrorPt, mirrorCorner, rescale, Pt.pscale] <;> field_simp <;> ring
  · exact k1.vel
  · show r.1.springs.map _ = baseSprings ⟨w / (4 - 1), v / (4 - 1)⟩ b
    rw [k1.springs, hspr, State.tile, k2, k3, htile]
  · show r'.1.springs.map _ = baseSprings ⟨w / (4 - 1), v / (4 - 1)⟩ b
    rw [k1.springs', hspr, State.tile, k2, k3, htile]
  · simp only [k1.live, List.map_map]
    apply List.map_congr_left
    intro a ha
    obtain ⟨i, hi⟩ := k1.grabs a ha
    simp only [Function.comp, Live.mir, hi, Kind.scale]
  · intro a ha
    simp only [List.mem_map] at ha
    obtain ⟨x, hx, rfl⟩ := ha
    obtain ⟨i, hi⟩ := k1.grabs x hx
    exact ⟨i, by simp only [hi, Kind.scale]⟩
  · exact k1.unequal
  · exact k1.nextHid

theorem size_of_bind {α : Type} {x : Outcome α} {f : α → Outcome (State × Res)} {r : State × Res} (h : x.bind f = .ok r) :
    ∃ a, x = .ok a ∧ f a = .ok r := by
  cases x <;> first | exact ⟨_, rfl, h⟩ | cases h

theorem recalc_size {s z : State} (h : s.recalc = .ok z) : z.width = s.width ∧ z.height = s.height := by
  unfold State.recalc at h
  cases ht : s.targetByFullIntegration <;> rw [ht] at h <;> cases h
  exact ⟨rfl, rfl⟩

theorem activate_size {s z : State} (h : s.activate = .ok z) : z.width = s.width ∧ z.height = s.height := by
  unfold State.activate at h
  simp only at h
  split_ifs at h
  · have := recalc_size h
    exact this
  · cases h
    exact ⟨rfl, rfl⟩

theorem deactivate_size {s z : State} (h : s.deactivate = .ok z) : z.width = s.width ∧ z.height = s.height := by
  unfold State.deactivate at h
  simp only at h
  split_ifs at h
  · have := recalc_size h
    exact this
  · cases h
    exact ⟨rfl, rfl⟩

/-- Calls that keep the size of the model. -/
theorem exec_size {fx fy : Bool} {s : State} {op : Op} {r : State × Res} (hn : Unbiased fx fy s op)
    (hr : ∀ w v, op ≠ .resize w v)
    (hg : ∀ a ∈ s.live, ∃ i, a.kind = .grab i) (h : s.exec op = .ok r) :
    r.1.width = s.width ∧ r.1.height = s.height := by
  cases op with
  | grab q =>
    simp only [State.exec, State.grab] at h
    cases hc : closestIndex s.pos q with
    | none => rw [hc] at h; cases h
    | some i =>
      rw [hc] at h
      obtain ⟨z, hz, he⟩ := size_of_bind h
      have := activate_size hz
      cases he
      exact this
  | insert q => exact hn.elim
  | moveAnchor k d =>
    simp only [State.exec, State.moveAnchor] at h
    split at h
    · cases h; exact ⟨rfl, rfl⟩
    · split at h <;> cases h <;> exact ⟨rfl, rfl⟩
  | release k =>
    simp only [State.exec, State.release] at h
    cases hf : s.live.find? (fun a => decide (a.hid = k)) with
    | none => rw [hf] at h; cases h; exact ⟨rfl, rfl⟩
    | some a =>
      rw [hf] at h
      obtain ⟨i, hi⟩ := hg a (List.mem_of_find?_eq_some hf)
      simp only [hi, State.releaseKind] at h
      obtain ⟨z, hz, he⟩ := size_of_bind h
      obtain ⟨y, hy, he⟩ := size_of_bind he
      have h1 := deactivate_size hy
      have h2 : z.width = s.width ∧ z.height = s.height := by
        unfold State.unlock at hz
        simp only at hz
        split_ifs at hz <;> cases hz <;> exact ⟨rfl, rfl⟩
      cases he
      exact ⟨h1.1.trans h2.1, h1.2.trans h2.2⟩
  | step t =>
    simp only [State.exec, State.step] at h
    by_cases hd : stepCount t ≠ 0 ∧ dangling s.springs s.live
    · rw [if_pos hd] at h
      cases h
    rw [if_neg hd] at h
    obtain ⟨z, hz, he⟩ := size_of_bind h
    cases he
    exact ⟨rfl, rfl⟩
  | moveBy d => cases h; exact ⟨rfl, rfl⟩
  | moveTo q =>
    simp only [State.exec, State.moveTo] at h
    obtain ⟨z, hz, he⟩ := size_of_bind h
    cases he
    unfold State.targetPosition at hz
    split_ifs at hz
    · cases hz; exact ⟨rfl, rfl⟩
    · cases ht : s.targetByFullIntegration <;> rw [ht] at hz <;> cases hz
      exact ⟨rfl, rfl⟩
  | resize w v => exact absurd rfl (hr w v)
  | setSettings x => cases h; exact ⟨rfl, rfl⟩
  | elsewhere n => cases h; exact ⟨rfl, rfl⟩

theorem exec_mir {w v : ℝ} (h : MirState fx fy c b s s') (hw : s.width = w) (hv : s.height = v) {op : Op}
    (hn : Unbiased fx fy s op) (hr : ∀ w v, op ≠ .resize w v) (hs : s.targets = positionArray (s.targets 0) s.tile) :
    Matches (fun r r' => r'.2 = r.2 ∧ MirState fx fy c b r.1 r'.1) (s.exec op) (s'.exec (mirrorOp fx fy c w v op)) := by
  cases op with
  | grab q => exact grab_mir h hn
  | insert q => exact hn.elim
  | moveAnchor k d => exact moveAnchor_mir h k d
  | release k => exact release_mir h hn
  | step t => exact step_mir h t
  | moveBy d => exact ⟨rfl, moveBy_mir h d⟩
  | moveTo q =>
    have := moveTo_mir h hw hv hn hs
    simp only [State.exec, mirrorOp]
    cases h1 : s.moveTo q <;> rw [h1] at this <;>
      cases h2 : s'.moveTo (mirrorCorner fx fy c w v q) <;> rw [h2] at this <;>
      first | exact ⟨this.1, this.2.1⟩ | exact this.elim | trivial
  | resize w v => exact absurd rfl (hr w v)
  | setSettings x => exact ⟨rfl, { h with settings := rfl }⟩
  | elsewhere n => exact ⟨rfl, { h with }⟩

theorem mirrorOps_cons {w v : ℝ} {op : Op} (hr : ∀ w v, op ≠ .resize w v) (ops : List Op) :
    mirrorOps fx fy c w v (op :: ops) = mirrorOp fx fy c w v op :: mirrorOps fx fy c w v ops := by
  cases op <;> first | rfl | exact absurd rfl (hr _ _)

theorem resize_size {w v : ℝ} {r : State × Res} (h : s.exec (.resize w v) = .ok r) : r.1.width = w ∧ r.1.height = v := by
  simp only [State.exec, State.resize] at h
  by_cases hp : w > 0 ∧ v > 0
  swap
  · rw [if_pos hp] at h
    cases h
  rw [if_neg (not_not.2 hp)] at h
  by_cases hz : s.width = 0 ∨ s.height = 0
  · rw [if_pos hz] at h
    cases h
  rw [if_neg hz] at h
  obtain ⟨hw0, hh0⟩ := not_or.1 hz
  by_cases hq : Pt.equals ⟨w / s.width, v / s.height⟩ ⟨1, 1⟩
  · rw [if_pos hq] at h
    cases h
    obtain ⟨h1, h2⟩ := hq
    simp only at h1 h2
    exact ⟨((div_eq_one_iff_eq hw0).1 h2).symm, ((div_eq_one_iff_eq hh0).1 h1).symm⟩
  · rw [if_neg hq] at h
    obtain ⟨z, -, he⟩ := size_of_bind h
    cases he
    exact ⟨rfl, rfl⟩

theorem run_mir (ops : List Op) :
    ∀ {c : Pt} {w v : ℝ} {s s' : State}, Inv b s → MirState fx fy c b s s' → s.width = w → s.height = v →
      AllAlong (Unbiased fx fy) s ops →
    Matches (fun r r' => r'.2 = r.2 ∧ MirState fx fy ⟨c.x + (r.1.width - w), c.y + (r.1.height - v)⟩ b r.1 r'.1) (s.run ops)
      (s'.run (mirrorOps fx fy c w v ops)) := by
  induction ops with
  | nil =>
    intro c w v s s' _ h hw hv _
    refine ⟨rfl, ?_⟩
    subst hw hv
    have := axis_same (c := c) (s := s) (z := s) ⟨rfl, rfl⟩
    simp only [axis] at this
    rw [this]
    exact h
  | cons op ops ih =>
    intro c w v s s' hi h hw hv hn
    by_cases hr : ∀ w v, op ≠ .resize w v
    · rw [mirrorOps_cons hr]
      simp only [State.run]
      refine matches_bind (exec_mir h hw hv hn.1 hr hi.targets) ?_
      rintro r r' hx - ⟨k1, k2⟩
      have hr' : s.exec op = .ok (r.1, r.2) := hx
      obtain ⟨z1, z2⟩ := exec_size hn.1 hr h.grabs hx
      refine matches_bind (ih (inv_exec s op r.1 r.2 hi hr') k2 (z1.trans hw) (z2.trans hv) (hn.2 r.1 r.2 hr')) ?_
      rintro a a' - - ⟨k3, k4⟩
      exact ⟨by rw [k1, k3], k4⟩
    · push Not at hr
      obtain ⟨w', v', rfl⟩ := hr
      obtain ⟨n1, n3⟩ := hn
      show Matches _ ((s.exec (.resize w' v')).bind _) ((s'.exec (.resize w' v')).bind _)
      refine matches_bind (resize_mir h n1 hi.targets) ?_
      rintro r r' hx - ⟨k1, k2⟩
      have hr' : s.exec (.resize w' v') = .ok (r.1, r.2) := hx
      obtain ⟨z1, z2⟩ := resize_size hr'
      have e : axis c s r.1 = ⟨c.x + (w' - w), c.y + (v' - v)⟩ := by rw [axis, z1, z2, hw, hv]
      rw [e] at k2
      refine matches_bind (ih (inv_exec s _ r.1 r.2 hi hr') k2 z1 z2 (n3 r.1 r.2 hr')) ?_
      rintro a a' - - ⟨k3, k4⟩
      refine ⟨by rw [k1, k3], ?_⟩
      have e2 : (⟨c.x + (w' - w) + (a.1.width - w'), c.y + (v' - v) + (a.1.height - v')⟩ : Pt) =
          ⟨c.x + (a.1.width - w), c.y + (a.1.height - v)⟩ := by
        ext <;> simp <;> ring
      rw [← e2]
      exact k4

theorem mirrored_of (h : MirState fx fy c b s s') : Mirrored fx fy c s s' where
  pos := h.pos
  vel := h.vel
  targets := h.targets
  held := by
    intro i
    unfold heldBy
    rw [h.live, List.countP_map]
    apply List.countP_congr
    intro a ha
    obtain ⟨j, hj⟩ := h.grabs a ha
    simp only [Function.comp, Live.mir, hj, decide_eq_true_eq]
    exact ⟨mir_inj, congrArg _⟩
  locks := h.locks
  count := h.count
  settings := h.settings
  size := ⟨h.width, h.height⟩

/-! ### Reading -/

def mirEquiv (fx fy : Bool) : Idx ≃ Idx := ⟨mirrorPlace fx fy, mirrorPlace fx fy, mir_mir fx fy, mir_mir fx fy⟩

theorem coeff_mir (t : ℝ) : ∀ n ≤ 3, bezierCoeff (1 - t) (3 - n) = bezierCoeff t n := by
  intro n hn
  have : n = 0 ∨ n = 1 ∨ n = 2 ∨ n = 3 := by omega
  rcases this with rfl | rfl | rfl | rfl
  · rfl
  · show 3 * ((1 - t) * (1 - t)) * (1 - (1 - t)) = 3 * t * ((1 - t) * (1 - t))
    ring
  · show 3 * (1 - t) * ((1 - (1 - t)) * (1 - (1 - t))) = 3 * (t * t) * (1 - t)
    ring
  · show (1 - (1 - t)) * (1 - (1 - t)) * (1 - (1 - t)) = t * t * t
    ring

/-- The first coordinate of a place on the surface goes with the rows of the mesh. -/
theorem deform_mir {m m' : Mesh} (h : MirMesh fx fy c m m') (u v : ℝ) :
    deformTexcoords m' ⟨if fy then 1 - u else u, if fx then 1 - v else v⟩ =
      mirrorPt fx fy c (deformTexcoords m ⟨u, v⟩) := by
  rw [deform_eq, deform_eq]
  have lr : ∀ i : Idx, row i ≤ 3 := by decide
  have lc : ∀ i : Idx, col i ≤ 3 := by decide
  have hw : ∀ i, weight ⟨if fy then 1 - u else u, if fx then 1 - v else v⟩ (mirrorPlace fx fy i) = weight ⟨u, v⟩ i := by
    intro i
    simp only [weight, row_mir, col_mir]
    cases fx <;> cases fy <;> simp [coeff_mir, lr i, lc i]
  have hsum := weight_sum ⟨u, v⟩
  ext
  · simp only
    rw [← Equiv.sum_comp (mirEquiv fx fy)]
    simp only [mirEquiv, Equiv.coe_fn_mk, hw, h _]
    cases fx <;> simp only [mirrorPt, Bool.false_eq_true, if_true, if_false]
    simp only [mul_sub, Finset.sum_sub_distrib, ← Finset.sum_mul, hsum, one_mul]
  · simp only
    rw [← Equiv.sum_comp (mirEquiv fx fy)]
    simp only [mirEquiv, Equiv.coe_fn_mk, hw, h _]
    cases fy <;> simp only [mirrorPt, Bool.false_eq_true, if_true, if_false]
    simp only [mul_sub, Finset.sum_sub_distrib, ← Finset.sum_mul, hsum, one_mul]

theorem restsIn_still (hd : ∀ x ∈ s.settleEnv.springs, InDeadZone (s.settleEnv.at_ s.pos) x) (hv : ∀ i, s.vel i = 0)
    {m : Mesh} (h : RestsIn s m) : m = s.pos := by
  obtain ⟨n, q, h0, h1, h2, h3, rfl⟩ := h
  have hr := springStep_rest (e := s.settleEnv) (q := ⟨s.pos, s.vel⟩) hd hv
  have hn : n = 0 := by
    by_contra hne
    have := h2 0 (Nat.pos_of_ne_zero hne)
    rw [h0, hr] at this
    exact this
  rw [hn, h1, h0, hr]

/-- A model that lies still in its regular lattice rests evenly. -/
theorem AtRest.evenly (h : AtRest s) : RestsEvenly fx fy s := by
  intro m hm
  rw [restsIn_still (fun x hx => ?_) h.vel hm, h.pos]
  · simp only [positionArray, row_mir, col_mir, State.tile]
    cases fx <;> cases fy <;> ext <;> simp [row, col] <;> ring
  · refine dead_of_zero ?_
    rw [h.pos]
    exact base_deviation hx

end Verif.Wobbly
