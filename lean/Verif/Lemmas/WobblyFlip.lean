import Verif.Lemmas.WobblyRelabel
import Verif.Lemmas.WobblyMesh
import Verif.Spec.Flip

/-! Everything commutes with exchanging rows and columns, as long as nothing is chosen among equals. -/

namespace Verif.Wobbly

open Spec Outcome

/-- The mesh point in the exchanged place. -/
def turn (i : Idx) : Idx := Fin.ofNat 16 (4 * col i + row i)

theorem turn_turn : ∀ i, turn (turn i) = i := by decide
theorem turn_zero : turn 0 = 0 := by decide
theorem row_turn : ∀ i, row (turn i) = col i := by decide
theorem col_turn : ∀ i, col (turn i) = row i := by decide
theorem turn_inj {i j : Idx} (h : turn i = turn j) : i = j := by rw [← turn_turn i, h, turn_turn]

def turnEquiv : Idx ≃ Idx := ⟨turn, turn, turn_turn, turn_turn⟩

theorem turn_rc (r c : Fin 4) : turn ⟨4 * r.val + c.val, by omega⟩ = ⟨4 * c.val + r.val, by omega⟩ := by
  revert r c
  decide

theorem rc_of (i : Idx) : ∃ r c : Fin 4, i = ⟨4 * r.val + c.val, by omega⟩ := by
  revert i
  decide

theorem forall_turn {P : Idx → Prop} (h : ∀ i, P (turn i)) (i : Idx) : P i := by
  have := h (turn i)
  rwa [turn_turn] at this

@[simp] theorem flip_x (p : Pt) : (swapXY p).x = p.y := rfl
@[simp] theorem flip_y (p : Pt) : (swapXY p).y = p.x := rfl
theorem flip_flip (p : Pt) : swapXY (swapXY p) = p := rfl
theorem flip_add (p q : Pt) : swapXY (p + q) = swapXY p + swapXY q := rfl
theorem flip_sub (p q : Pt) : swapXY (p - q) = swapXY p - swapXY q := rfl
theorem flip_zero : swapXY 0 = 0 := rfl

theorem distance_flip (p q : Pt) : Pt.distance (swapXY p) (swapXY q) = Pt.distance p q := by
  unfold Pt.distance
  congr 1
  simp only [flip_x, flip_y]
  ring

theorem euclid_flip (p q : Pt) : euclid (swapXY p) (swapXY q) = euclid p q := by
  unfold euclid
  congr 1
  simp only [flip_x, flip_y]
  ring

/-- Mesh `m'` is mesh `m` with rows and columns exchanged. -/
def Turned (m m' : Mesh) : Prop := ∀ i, m' (turn i) = swapXY (m i)

theorem turned_iff {m m' : Mesh} : Turned m m' ↔ FlippedMesh m m' := by
  constructor
  · intro h r c
    rw [← turn_rc]
    exact h _
  · intro h i
    obtain ⟨r, c, rfl⟩ := rc_of i
    rw [turn_rc]
    exact h r c

theorem turned_back {m m' : Mesh} (h : Turned m m') : Turned m' m := by
  intro i
  have := h (turn i)
  rw [turn_turn] at this
  rw [this, flip_flip]

def Node.flip : Node → Node
  | .mesh i => .mesh (turn i)
  | .anchor h => .anchor h

theorem Node.flip_flip (n : Node) : n.flip.flip = n := by
  cases n with
  | mesh i => simp only [Node.flip, turn_turn]
  | anchor h => rfl

theorem Node.flip_inj {n m : Node} (h : n.flip = m.flip) : n = m := by
  rw [← n.flip_flip, h, m.flip_flip]

/-- The spring with its ends exchanged like the points, under another number. -/
def Spring.flip (ρ : ℕ → ℕ) (x : Spring) : Spring := ⟨ρ x.id, x.a.flip, x.b.flip, swapXY x.desired⟩

def Kind.flip (ρ : ℕ → ℕ) : Kind → Kind
  | .grab i => .grab (turn i)
  | .ins p st f g => .ins (swapXY p) (st.flip ρ) (ρ f) (ρ g)

def Live.flip (ρ : ℕ → ℕ) (a : Live) : Live := ⟨a.hid, a.kind.flip ρ⟩

/-! ### Forces -/

open Classical in
theorem addForce_comm (f : Node → Pt) (n m : Node) (v w : Pt) :
    Spring.addForce (Spring.addForce f n v) m w = Spring.addForce (Spring.addForce f m w) n v := by
  funext k
  unfold Spring.addForce
  split_ifs <;> first | rfl | exact Pt.add_right_comm' _ _ _

theorem calculateForces_perm {k : ℝ} {at_ : Node → Pt} {l l' : List Spring} (h : l.Perm l') :
    calculateForces k at_ l = calculateForces k at_ l' := by
  unfold calculateForces
  apply List.Perm.foldl_eq' h
  intro x _ y _ z
  simp only [Spring.applyForces, Prod.mk.injEq]
  constructor
  · rw [addForce_comm _ x.b y.a, addForce_comm _ x.a y.a, addForce_comm _ x.b y.b, addForce_comm _ x.a y.b]
  · apply propext
    tauto

theorem delta_flip {x : Spring} {ρ : ℕ → ℕ} {at1 at2 : Node → Pt} (h : ∀ n, at2 n.flip = swapXY (at1 n)) :
    (x.flip ρ).deltaA at2 = swapXY (x.deltaA at1) ∧ (x.flip ρ).deltaB at2 = swapXY (x.deltaB at1) := by
  unfold Spring.deltaA Spring.deltaB
  have ha : at2 (x.flip ρ).a = _ := h x.a
  have hb : at2 (x.flip ρ).b = _ := h x.b
  rw [ha, hb]
  exact ⟨rfl, rfl⟩

open Classical in
theorem addForce_flip {f1 f2 : Node → Pt} (h : ∀ n, f2 n.flip = swapXY (f1 n)) (n : Node) (v : Pt) (m : Node) :
    Spring.addForce f2 n.flip (swapXY v) m.flip = swapXY (Spring.addForce f1 n v m) := by
  unfold Spring.addForce
  by_cases hc : m = n
  · rw [if_pos hc, if_pos (by rw [hc]), h]
    rfl
  · rw [if_neg hc, if_neg (fun e => hc (Node.flip_inj e)), h]

theorem calculateForces_flip {k : ℝ} {ρ : ℕ → ℕ} {at1 at2 : Node → Pt} (h : ∀ n, at2 n.flip = swapXY (at1 n))
    {l l' : List Spring} (hl : l'.Perm (l.map (Spring.flip ρ))) :
    (∀ n, (calculateForces k at2 l').1 n.flip = swapXY ((calculateForces k at1 l).1 n)) ∧
      (calculateForces k at2 l').2 = (calculateForces k at1 l).2 := by
  rw [calculateForces_perm hl]
  unfold calculateForces
  rw [List.foldl_map]
  have aux : ∀ (l : List Spring) (c1 c2 : (Node → Pt) × Prop), (∀ n, c2.1 n.flip = swapXY (c1.1 n)) → c2.2 = c1.2 →
      (∀ n, (l.foldl (fun acc s => let r := (s.flip ρ).applyForces k at2 acc.1; (r.1, acc.2 ∨ r.2)) c2).1 n.flip =
        swapXY ((l.foldl (fun acc s => let r := s.applyForces k at1 acc.1; (r.1, acc.2 ∨ r.2)) c1).1 n)) ∧
      (l.foldl (fun acc s => let r := (s.flip ρ).applyForces k at2 acc.1; (r.1, acc.2 ∨ r.2)) c2).2 =
        (l.foldl (fun acc s => let r := s.applyForces k at1 acc.1; (r.1, acc.2 ∨ r.2)) c1).2 := by
    intro l
    induction l with
    | nil => intro c1 c2 h1 h2; exact ⟨h1, h2⟩
    | cons x l ih =>
      intro c1 c2 h1 h2
      simp only [List.foldl_cons]
      apply ih
      · simp only [Spring.applyForces]
        obtain ⟨ea, eb⟩ := delta_flip (x := x) (ρ := ρ) h
        rw [ea, eb]
        exact addForce_flip (addForce_flip h1 x.a ((x.deltaA at1).scale k)) x.b ((x.deltaB at1).scale k)
      · simp only [Spring.applyForces]
        obtain ⟨ea, eb⟩ := delta_flip (x := x) (ρ := ρ) h
        rw [ea, eb, h2]
        simp only [flip_x, flip_y]
        apply propext
        tauto
  exact aux l (fun _ => 0, False) (fun _ => 0, False) (fun _ => rfl) rfl

/-! ### Integration -/

/-- The physical states are exchanged. -/
structure PhysTurned (q q' : Phys) : Prop where
  pos : Turned q.pos q'.pos
  vel : Turned q.vel q'.vel

structure EnvTurned (e e' : Env) : Prop where
  k : e'.k = e.k
  friction : e'.friction = e.friction
  locks : ∀ i, e'.locks (turn i) = e.locks i
  springs : ∃ ρ, e'.springs.Perm (e.springs.map (Spring.flip ρ))
  apos : ∀ h, e'.apos h = swapXY (e.apos h)

theorem at_flip {e e' : Env} (h : EnvTurned e e') {m m' : Mesh} (hm : Turned m m') (n : Node) :
    e'.at_ m' n.flip = swapXY (e.at_ m n) := by
  cases n with
  | mesh i => exact hm i
  | anchor k => exact h.apos k

theorem euler_flip (f : ℝ) (p v a : Pt) :
    eulerIntegrate 1 f mass (swapXY p) (swapXY v) (swapXY a) =
      (swapXY (eulerIntegrate 1 f mass p v a).1, swapXY (eulerIntegrate 1 f mass p v a).2.1,
        (eulerIntegrate 1 f mass p v a).2.2) := by
  simp only [eulerIntegrate, flip_x, flip_y, Prod.mk.injEq]
  refine ⟨rfl, rfl, ?_⟩
  rw [or_comm]

open Classical in
theorem springStep_flip {e e' : Env} (h : EnvTurned e e') {q q' : Phys} (hq : PhysTurned q q') :
    PhysTurned (springStep e q).1 (springStep e' q').1 ∧ (springStep e' q').2 = (springStep e q).2 := by
  obtain ⟨ρ, hρ⟩ := h.springs
  obtain ⟨hf, hm⟩ := calculateForces_flip (k := e.k) (at_flip h hq.pos) hρ
  unfold springStep
  simp only
  rw [h.k]
  set F := calculateForces e.k (e.at_ q.pos) e.springs
  set F' := calculateForces e.k (e'.at_ q'.pos) e'.springs
  have hfi : ∀ i, F'.1 (.mesh (turn i)) = swapXY (F.1 (.mesh i)) := fun i => hf (.mesh i)
  have hE : ∀ i, eulerIntegrate 1 e'.friction mass (q'.pos (turn i)) (q'.vel (turn i)) (F'.1 (.mesh (turn i))) =
      (swapXY (eulerIntegrate 1 e.friction mass (q.pos i) (q.vel i) (F.1 (.mesh i))).1,
        swapXY (eulerIntegrate 1 e.friction mass (q.pos i) (q.vel i) (F.1 (.mesh i))).2.1,
        (eulerIntegrate 1 e.friction mass (q.pos i) (q.vel i) (F.1 (.mesh i))).2.2) := by
    intro i
    rw [hq.pos i, hq.vel i, hfi i, h.friction]
    exact euler_flip _ _ _ _
  refine ⟨⟨?_, ?_⟩, ?_⟩
  · intro i
    simp only [anchoredIntegration]
    rw [h.locks, hE]
    split_ifs
    · exact hq.pos i
    · rfl
  · intro i
    simp only [anchoredIntegration]
    rw [h.locks, hE]
    split_ifs
    · rfl
    · rfl
  · simp only [anchoredIntegration]
    rw [hm]
    congr 1
    apply propext
    constructor
    · rintro ⟨i, h1, h2⟩
      refine ⟨turn i, ?_, ?_⟩
      · rw [← h.locks, turn_turn]
        exact h1
      · have := hE (turn i)
        rw [turn_turn] at this
        rw [this] at h2
        exact h2
    · rintro ⟨i, h1, h2⟩
      refine ⟨turn i, ?_, ?_⟩
      · rw [h.locks]
        exact h1
      · rw [hE]
        exact h2

theorem settleIter_flip {e e' : Env} (h : EnvTurned e e') {q q' : Phys} (hq : PhysTurned q q') (n : ℕ) :
    PhysTurned (settleIter e q n) (settleIter e' q' n) := by
  induction n with
  | zero => exact hq
  | succ n ih =>
    rw [settleIter_succ, settleIter_succ]
    exact (springStep_flip h ih).1

theorem settle_flip {e e' : Env} (h : EnvTurned e e') {q q' : Phys} (hq : PhysTurned q q') :
    settle e' q' = (settle e q).mapOk swapXY := by
  have hm : ∀ n, settleMore e' q' n ↔ settleMore e q n := by
    intro n
    unfold settleMore
    rw [(springStep_flip h (settleIter_flip h hq n)).2]
  rcases settle_cases e q with ⟨p, hp⟩ | hd
  · obtain ⟨n, h1, h2, rfl⟩ := settle_ok hp
    rw [hp, settle_of (n := n) (by rwa [hm]) (fun m hmn => (hm m).2 (h2 m hmn))]
    have := (settleIter_flip h hq (n + 1)).pos 0
    rw [turn_zero] at this
    rw [this]
    rfl
  · rw [hd]
    rw [settle_diverges] at hd
    exact settle_diverges.2 fun n => (hm n).2 (hd n)

open Classical in
theorem constrain_flip (r : ℝ) {t t' p p' : Mesh} (ht : Turned t t') (hp : Turned p p') :
    Matches (fun c c' => Turned c.1 c'.1 ∧ c'.2 = c.2) (constrain r t p) (constrain r t' p') := by
  have hd : ∀ i, Pt.distance (t' (turn i)) (p' (turn i)) = Pt.distance (t i) (p i) := by
    intro i
    rw [ht, hp, distance_flip]
  have hd' : ∀ i, Pt.distance (t' i) (p' i) = Pt.distance (t (turn i)) (p (turn i)) := by
    intro i
    rw [← hd, turn_turn]
  unfold constrain
  by_cases hc : ∃ i, ¬ Pt.distance (t i) (p i) < r ∧ Pt.distance (t i) (p i) = 0
  · have hc' : ∃ i, ¬ Pt.distance (t' i) (p' i) < r ∧ Pt.distance (t' i) (p' i) = 0 := by
      obtain ⟨i, hi⟩ := hc
      exact ⟨turn i, by rwa [hd]⟩
    rw [if_pos hc, if_pos hc']
    trivial
  · have hc' : ¬ ∃ i, ¬ Pt.distance (t' i) (p' i) < r ∧ Pt.distance (t' i) (p' i) = 0 := by
      rintro ⟨i, hi⟩
      rw [hd'] at hi
      exact hc ⟨_, hi⟩
    rw [if_neg hc, if_neg hc']
    refine ⟨?_, ?_⟩
    · intro i
      simp only [hd]
      split_ifs
      · exact hp i
      · simp only [constrainPoint, ht i, hp i, distance_flip]
        rfl
    · apply propext
      constructor
      · rintro ⟨i, hi⟩
        rw [hd'] at hi
        exact ⟨_, hi⟩
      · rintro ⟨i, hi⟩
        exact ⟨turn i, by rwa [hd]⟩

/-! ### The new model -/

/-- The edge in the exchanged place. -/
def turnEdge (e : Idx × Idx × Bool) : Idx × Idx × Bool := (turn e.1, turn e.2.1, !e.2.2)

/-- Where in the list of edges the exchanged one is. -/
def turnNumber (n : ℕ) : ℕ := if n < 24 then baseEdges.findIdx (fun e => some e == baseEdges[n]?.map turnEdge) else n

/-- The renumbering of the springs of a new model whose numbers start after `b`. -/
def renumber (b n : ℕ) : ℕ := if b < n then b + turnNumber (n - b - 1) + 1 else n

theorem edges_turn : baseEdges.zipIdx.Perm (baseEdges.zipIdx.map fun e => (turnEdge e.1, turnNumber e.2)) := by
  decide +kernel

theorem turnNumber_lt : ∀ n < 24, turnNumber n < 24 ∧ turnNumber (turnNumber n) = n := by decide +kernel

theorem turnNumber_ge {n : ℕ} (h : 24 ≤ n) : turnNumber n = n := if_neg (by omega)

theorem turnNumber_inj {n m : ℕ} (h : turnNumber n = turnNumber m) : n = m := by
  by_cases hn : n < 24
  · by_cases hm : m < 24
    · rw [← (turnNumber_lt n hn).2, h, (turnNumber_lt m hm).2]
    · rw [turnNumber_ge (not_lt.1 hm)] at h
      have := (turnNumber_lt n hn).1
      omega
  · rw [turnNumber_ge (not_lt.1 hn)] at h
    by_cases hm : m < 24
    · have := (turnNumber_lt m hm).1
      omega
    · rwa [turnNumber_ge (not_lt.1 hm)] at h

theorem renumber_inj (b : ℕ) : Function.Injective (renumber b) := by
  intro n m h
  unfold renumber at h
  by_cases hn : b < n
  · rw [if_pos hn] at h
    by_cases hm : b < m
    · rw [if_pos hm] at h
      have := turnNumber_inj (n := n - b - 1) (m := m - b - 1) (by omega)
      omega
    · rw [if_neg hm] at h
      omega
  · rw [if_neg hn] at h
    by_cases hm : b < m
    · rw [if_pos hm] at h
      omega
    · rwa [if_neg hm] at h

theorem renumber_fix {b n : ℕ} (h : b + 24 < n) : renumber b n = n := by
  unfold renumber
  rw [if_pos (by omega), turnNumber_ge (by omega)]
  omega

theorem baseSprings_flip (t : Pt) (b : ℕ) :
    (baseSprings (swapXY t) b).Perm ((baseSprings t b).map (Spring.flip (renumber b))) := by
  have : (baseSprings t b).map (Spring.flip (renumber b)) =
      (baseEdges.zipIdx.map fun e => (turnEdge e.1, turnNumber e.2)).map fun e =>
        { id := b + e.2 + 1
          a := .mesh e.1.1
          b := .mesh e.1.2.1
          desired := if e.1.2.2 then ⟨0, (swapXY t).y⟩ else ⟨(swapXY t).x, 0⟩ } := by
    unfold baseSprings
    rw [List.map_map, List.map_map]
    apply List.map_congr_left
    rintro ⟨⟨i, j, below⟩, n⟩ _
    simp only [Function.comp, Spring.flip, turnEdge, Node.flip, Spring.mk.injEq, true_and]
    refine ⟨?_, ?_⟩
    · unfold renumber
      rw [if_pos (by omega)]
      congr 3
      omega
    · cases below <;> rfl
  rw [this]
  exact edges_turn.map _

/-! ### The model -/

/-- The second state is the first with rows and columns exchanged and springs renumbered by `ρ`. -/
structure Flipped (ρ : ℕ → ℕ) (s s' : State) : Prop where
  width : s'.width = s.height
  height : s'.height = s.width
  settings : s'.settings = s.settings
  locks : ∀ i, s'.locks (turn i) = s.locks i
  targets : Turned s.targets s'.targets
  count : s'.count = s.count
  pos : Turned s.pos s'.pos
  vel : Turned s.vel s'.vel
  springs : s'.springs.Perm (s.springs.map (Spring.flip ρ))
  pending : s'.pending = s.pending.map ρ
  live : s'.live = s.live.map (Live.flip ρ)
  lastId : s'.lastId = s.lastId
  unequal : s'.unequal = s.unequal
  nextHid : s'.nextHid = s.nextHid

theorem positionArray_flip (p t : Pt) : Turned (positionArray p t) (positionArray (swapXY p) (swapXY t)) := by
  intro i
  simp only [positionArray, row_turn, col_turn]
  rfl

theorem flipped_new (p : Pt) (w h : ℝ) (x : Settings) (b : ℕ) :
    Flipped (renumber b) (State.new p w h x b) (State.new (swapXY p) h w x b) where
  width := rfl
  height := rfl
  settings := rfl
  locks := fun _ => rfl
  targets := positionArray_flip p ⟨w / (4 - 1), h / (4 - 1)⟩
  count := rfl
  pos := positionArray_flip p ⟨w / (4 - 1), h / (4 - 1)⟩
  vel := fun _ => rfl
  springs := baseSprings_flip ⟨w / (4 - 1), h / (4 - 1)⟩ b
  pending := rfl
  live := rfl
  lastId := rfl
  unequal := rfl
  nextHid := rfl

theorem anchorData_flip (ρ : ℕ → ℕ) (l : List Live) (k : ℕ) :
    anchorData (l.map (Live.flip ρ)) k = (anchorData l k).map swapXY := by
  induction l with
  | nil => rfl
  | cons a l ih =>
    rw [List.map_cons, anchorData_cons, anchorData_cons, ih]
    rcases a with ⟨hid, k'⟩
    cases k' with
    | grab i => rfl
    | ins p st f g =>
      show (if hid = k then some (swapXY p) else (anchorData l k).map swapXY) =
        (if hid = k then some p else anchorData l k).map swapXY
      by_cases hk : hid = k
      · rw [if_pos hk, if_pos hk]
        rfl
      · rw [if_neg hk, if_neg hk]

theorem alive_flip (ρ : ℕ → ℕ) (l : List Live) (n : Node) : n.flip.alive (l.map (Live.flip ρ)) ↔ n.alive l := by
  cases n with
  | mesh i => exact Iff.rfl
  | anchor h => simp only [Node.flip, Node.alive, anchorData_flip, Option.isSome_map]

theorem mem_flip {ρ : ℕ → ℕ} {s s' : State} (h : Flipped ρ s s') {x : Spring} :
    x ∈ s'.springs ↔ ∃ y ∈ s.springs, y.flip ρ = x := by
  rw [h.springs.mem_iff, List.mem_map]

theorem dangling_flip {ρ : ℕ → ℕ} {s s' : State} (h : Flipped ρ s s') :
    dangling s'.springs s'.live ↔ dangling s.springs s.live := by
  unfold dangling
  constructor
  · rintro ⟨x, hx, hc⟩
    obtain ⟨y, hy, rfl⟩ := (mem_flip h).1 hx
    refine ⟨y, hy, ?_⟩
    rw [h.live] at hc
    simpa only [Spring.flip, alive_flip] using hc
  · rintro ⟨y, hy, hc⟩
    refine ⟨y.flip ρ, (mem_flip h).2 ⟨y, hy, rfl⟩, ?_⟩
    rw [h.live]
    simpa only [Spring.flip, alive_flip] using hc

theorem env_flip {ρ : ℕ → ℕ} {s s' : State} (h : Flipped ρ s s') : EnvTurned s.env s'.env where
  k := by simp only [State.env, h.settings]
  friction := by simp only [State.env, h.settings]
  locks := h.locks
  springs := ⟨ρ, h.springs⟩
  apos := by
    intro k
    simp only [State.env, apos, h.live, anchorData_flip]
    cases anchorData s.live k <;> rfl

theorem tile_flip {ρ : ℕ → ℕ} {s s' : State} (h : Flipped ρ s s') : s'.tile = swapXY s.tile := by
  simp only [State.tile, h.width, h.height]
  rfl

theorem settleEnv_flip {ρ : ℕ → ℕ} {s s' : State} (h : Flipped ρ s s') : EnvTurned s.settleEnv s'.settleEnv where
  k := by simp only [State.settleEnv, h.settings]
  friction := by simp only [State.settleEnv, h.settings]
  locks := h.locks
  springs := ⟨renumber s.lastId, by
    simp only [State.settleEnv, tile_flip h, h.lastId]
    exact baseSprings_flip _ _⟩
  apos := fun _ => rfl

theorem target_flip {ρ : ℕ → ℕ} {s s' : State} (h : Flipped ρ s s') :
    s'.targetByFullIntegration = s.targetByFullIntegration.mapOk swapXY :=
  settle_flip (settleEnv_flip h) ⟨h.pos, h.vel⟩

theorem spend_flip {ρ : ℕ → ℕ} {s s' : State} (h : Flipped ρ s s') : Flipped ρ s.spend s'.spend :=
  { h with lastId := by simp only [State.spend, h.lastId] }

theorem recalc_flip {ρ : ℕ → ℕ} {s s' : State} (h : Flipped ρ s s') : Matches (Flipped ρ) s.recalc s'.recalc := by
  unfold State.recalc
  rw [target_flip h]
  cases s.targetByFullIntegration with
  | ok p =>
    simp only [mapOk_ok, bind_ok]
    refine { spend_flip h with targets := ?_ }
    rw [tile_flip h]
    exact positionArray_flip p s.tile
  | _ => trivial

theorem activate_flip {ρ : ℕ → ℕ} {s s' : State} (h : Flipped ρ s s') :
    Matches (Flipped ρ) s.activate s'.activate := by
  unfold State.activate
  simp only [h.count]
  have : Flipped ρ { s with count := s.count + 1 } { s' with count := s.count + 1 } := { h with count := rfl }
  split_ifs
  · exact recalc_flip this
  · exact this

theorem deactivate_flip {ρ : ℕ → ℕ} {s s' : State} (h : Flipped ρ s s') :
    Matches (Flipped ρ) s.deactivate s'.deactivate := by
  unfold State.deactivate
  simp only [h.count]
  have : Flipped ρ { s with count := s.count - 1 } { s' with count := s.count - 1 } := { h with count := rfl }
  split_ifs
  · trivial
  · exact recalc_flip this
  · exact this

theorem active_flip {ρ : ℕ → ℕ} {s s' : State} (h : Flipped ρ s s') : s'.active ↔ s.active := by
  unfold State.active
  rw [h.count]

open Classical in
theorem targetPosition_flip {ρ : ℕ → ℕ} {s s' : State} (h : Flipped ρ s s') :
    Matches (fun r r' => Flipped ρ r.1 r'.1 ∧ r'.2 = swapXY r.2) s.targetPosition s'.targetPosition := by
  unfold State.targetPosition
  by_cases ha : s.active
  · rw [if_pos ha, if_pos ((active_flip h).2 ha)]
    refine ⟨h, ?_⟩
    have := h.targets 0
    rwa [turn_zero] at this
  · rw [if_neg ha, if_neg (fun k => ha ((active_flip h).1 k)), target_flip h]
    cases s.targetByFullIntegration with
    | ok p => exact ⟨spend_flip h, rfl⟩
    | _ => trivial

open Classical in
theorem round_flip {ρ : ℕ → ℕ} {s s' : State} (h : Flipped ρ s s') {q q' : Phys} (hq : PhysTurned q q') :
    Matches (fun r r' => PhysTurned r.1 r'.1 ∧ r'.2 = r.2) (s.round q) (s'.round q') := by
  unfold State.round
  by_cases ha : s.active
  · rw [if_pos ha, if_pos ((active_flip h).2 ha), h.settings]
    refine matches_bind (constrain_flip _ h.targets hq.pos) ?_
    rintro c c' - - ⟨h1, h2⟩
    obtain ⟨k1, k2⟩ := springStep_flip (env_flip h) (q := ⟨c.1, q.vel⟩) (q' := ⟨c'.1, q'.vel⟩) ⟨h1, hq.vel⟩
    refine ⟨k1, ?_⟩
    simp only [h2, k2]
  · rw [if_neg ha, if_neg (fun k => ha ((active_flip h).1 k))]
    exact springStep_flip (env_flip h) hq

theorem integrate_flip {ρ : ℕ → ℕ} {s s' : State} (h : Flipped ρ s s') (n : ℕ) : ∀ {q q' : Phys}, PhysTurned q q' →
    Matches (fun r r' => PhysTurned r.1 r'.1 ∧ r'.2 = r.2) (s.integrate n q) (s'.integrate n q') := by
  induction n with
  | zero => intro q q' hq; exact ⟨hq, rfl⟩
  | succ n ih =>
    intro q q' hq
    simp only [State.integrate]
    refine matches_bind (round_flip h hq) ?_
    rintro r r' - - ⟨h1, h2⟩
    refine matches_bind (ih h1) ?_
    rintro a a' - - ⟨h3, h4⟩
    refine ⟨h3, ?_⟩
    simp only [h2, h4]

open Classical in
theorem step_flip {ρ : ℕ → ℕ} {s s' : State} (h : Flipped ρ s s') (t : ℕ) :
    Matches (fun r r' => r'.2 = r.2 ∧ Flipped ρ r.1 r'.1) (s.step t) (s'.step t) := by
  unfold State.step
  by_cases hd : stepCount t ≠ 0 ∧ dangling s.springs s.live
  · rw [if_pos hd, if_pos ⟨hd.1, (dangling_flip h).2 hd.2⟩]
    trivial
  rw [if_neg (c := stepCount t ≠ 0 ∧ dangling s.springs s.live) hd,
    if_neg (c := stepCount t ≠ 0 ∧ dangling s'.springs s'.live) (fun k => hd ⟨k.1, (dangling_flip h).1 k.2⟩)]
  refine matches_bind (integrate_flip h _ ⟨h.pos, h.vel⟩) ?_
  rintro r r' - - ⟨h1, h2⟩
  have hm : ((if t ≠ 0 then False else s'.unequal) ∨ r'.2) = ((if t ≠ 0 then False else s.unequal) ∨ r.2) := by
    rw [h2, h.unequal]
  refine ⟨congrArg Res.more hm, { h with pos := ?_, vel := h1.vel, unequal := hm }⟩
  have key : ∀ (c c' : Prop) [Decidable c] [Decidable c'], (c' ↔ c) →
      Turned (if c then s.targets else r.1.pos) (if c' then s'.targets else r'.1.pos) := by
    intro c c' _ _ hcc
    by_cases hc : c
    · rw [if_pos hc, if_pos (hcc.2 hc)]
      exact h.targets
    · rw [if_neg hc, if_neg (fun k => hc (hcc.1 k))]
      exact h1.pos
  exact key _ _ (by rw [hm, active_flip h])

/-! ### Making and releasing anchors -/

theorem closestIndex_lt {m : Mesh} {p : Pt} {i : Idx} (h : closestIndex m p = some i) :
    Pt.distance p (m i) < dblMax ∧ ∀ j, Pt.distance p (m i) ≤ Pt.distance p (m j) := by
  rcases closest_fold m p (List.finRange 16) (List.pairwise_lt_finRange 16) with ⟨h1, -⟩ | ⟨j, -, h1, h2, h3, -⟩
  · simp [closestIndex, h1] at h
  · simp only [closestIndex, h1, Option.some.injEq] at h
    subst h
    exact ⟨h2, fun k => h3 k (List.mem_finRange k)⟩

theorem closestIndex_flip {m m' : Mesh} (hm : Turned m m') {q : Pt}
    (hu : ∀ i j, (∀ k, euclid q (m i) ≤ euclid q (m k)) → (∀ k, euclid q (m j) ≤ euclid q (m k)) → i = j) :
    closestIndex m' (swapXY q) = (closestIndex m q).map turn := by
  have hd : ∀ i, Pt.distance (swapXY q) (m' (turn i)) = Pt.distance q (m i) := fun i => by rw [hm, distance_flip]
  cases h1 : closestIndex m q with
  | none =>
    cases h2 : closestIndex m' (swapXY q) with
    | none => rfl
    | some j =>
      exfalso
      have k1 := (closestIndex_lt h2).1
      rw [← turn_turn j, hd] at k1
      rcases closestIndex_spec m q with ⟨-, k2⟩ | ⟨i, k2, -⟩
      · exact absurd k1 (not_lt.2 (k2 _))
      · rw [h1] at k2
        cases k2
  | some i =>
    have k1 := closestIndex_lt h1
    cases h2 : closestIndex m' (swapXY q) with
    | none =>
      exfalso
      rcases closestIndex_spec m' (swapXY q) with ⟨-, k2⟩ | ⟨j, k2, -⟩
      · have := k2 (turn i)
        rw [hd] at this
        exact absurd k1.1 (not_lt.2 this)
      · rw [h2] at k2
        cases k2
    | some j =>
      have k2 := closestIndex_lt h2
      rw [Option.map_some]
      congr 1
      rw [← turn_turn j]
      congr 1
      refine hu _ _ (fun k => ?_) (fun k => ?_)
      · have := k2.2 (turn k)
        rw [← turn_turn j, hd, hd] at this
        simpa only [Pt.distance_eq] using this
      · simpa only [Pt.distance_eq] using k1.2 k

theorem update_flip {α : Type} {f f' : Idx → α} {g : α → α} (h : ∀ i, f' (turn i) = g (f i)) (i : Idx) (v : α) (j : Idx) :
    Function.update f' (turn i) (g v) (turn j) = g (Function.update f i v j) := by
  by_cases hj : j = i
  · rw [hj, Function.update_self, Function.update_self]
  · rw [Function.update_of_ne hj, Function.update_of_ne (fun e => hj (turn_inj e)), h]

theorem lock_flip {ρ : ℕ → ℕ} {s s' : State} (h : Flipped ρ s s') (i : Idx) : Flipped ρ (s.lock i) (s'.lock (turn i)) :=
  { h with
    locks := by
      intro j
      simp only [State.lock, h.locks]
      exact update_flip (g := id) h.locks i _ j }

open Classical in
theorem unlock_flip {ρ : ℕ → ℕ} {s s' : State} (h : Flipped ρ s s') (i : Idx) :
    Matches (Flipped ρ) (s.unlock i) (s'.unlock (turn i)) := by
  unfold State.unlock
  by_cases h0 : s.locks i = 0
  · rw [if_pos h0, if_pos (by rw [h.locks, h0])]
    trivial
  · rw [if_neg h0, if_neg (by rw [h.locks]; exact h0)]
    refine { h with locks := ?_ }
    intro j
    simp only [h.locks]
    exact update_flip (g := id) h.locks i _ j

theorem grab_flip {ρ : ℕ → ℕ} {s s' : State} (h : Flipped ρ s s') {q : Pt} (hn : NoTie s (.grab q)) :
    Matches (fun r r' => r'.2 = r.2 ∧ Flipped ρ r.1 r'.1) (s.grab q) (s'.grab (swapXY q)) := by
  unfold State.grab
  rw [closestIndex_flip h.pos hn]
  cases closestIndex s.pos q with
  | none => trivial
  | some i =>
    simp only [Option.map_some]
    have h1 : Flipped ρ { s with unequal := True } { s' with unequal := True } := { h with unequal := rfl }
    refine matches_bind (activate_flip h1) ?_
    rintro z z' - - hz
    have h2 := lock_flip hz i
    refine ⟨by rw [h2.nextHid], { h2 with live := ?_, nextHid := ?_ }⟩
    · simp only [h2.live, h2.nextHid, List.map_append, List.map_cons, List.map_nil]
      rfl
    · simp only [h2.nextHid]

theorem removeId_flip {ρ : ℕ → ℕ} (hρ : Function.Injective ρ) {l l' : List Spring} (h : l'.Perm (l.map (Spring.flip ρ)))
    (id : ℕ) : (removeId l' (ρ id)).Perm ((removeId l id).map (Spring.flip ρ)) := by
  unfold removeId
  refine (h.filter _).trans (List.Perm.of_eq ?_)
  rw [List.filter_map]
  congr 1
  apply List.filter_congr
  intro x _
  simp only [Function.comp, Spring.flip, ne_eq, hρ.eq_iff]

open Classical in
theorem removeTracked_flip {ρ : ℕ → ℕ} (hρ : Function.Injective ρ) {s s' : State} (h : Flipped ρ s s') (id : ℕ) :
    Flipped ρ (s.removeTracked id) (s'.removeTracked (ρ id)) := by
  unfold State.removeTracked
  have he : (∃ x ∈ s'.springs, x.id = ρ id) ↔ ∃ x ∈ s.springs, x.id = id := by
    constructor
    · rintro ⟨x, hx, e⟩
      obtain ⟨y, hy, rfl⟩ := (mem_flip h).1 hx
      exact ⟨y, hy, hρ e⟩
    · rintro ⟨y, hy, rfl⟩
      exact ⟨y.flip ρ, (mem_flip h).2 ⟨y, hy, rfl⟩, rfl⟩
  by_cases hc : ∃ x ∈ s.springs, x.id = id
  · rw [if_pos hc, if_pos (he.2 hc)]
    exact { h with springs := removeId_flip hρ h.springs id }
  · rw [if_neg hc, if_neg (fun k => hc (he.1 k))]
    refine { h with pending := ?_ }
    simp only [h.pending, List.map_append, List.map_cons, List.map_nil]

open Classical in
theorem replace_flip {ρ : ℕ → ℕ} (hρ : Function.Injective ρ) {s s' : State} (h : Flipped ρ s s') (x : Spring) :
    Flipped ρ (s.replace x) (s'.replace (x.flip ρ)) := by
  unfold State.replace
  have he : (x.flip ρ).id ∈ s'.pending ↔ x.id ∈ s.pending := by
    rw [h.pending, List.mem_map]
    constructor
    · rintro ⟨y, hy, e⟩
      rwa [← hρ e]
    · intro k
      exact ⟨_, k, rfl⟩
  by_cases hc : x.id ∈ s.pending
  · rw [if_pos hc, if_pos (he.2 hc)]
    refine { h with pending := ?_ }
    simp only [h.pending, List.filter_map]
    congr 1
    apply List.filter_congr
    intro y _
    simp only [Function.comp, Spring.flip, ne_eq, hρ.eq_iff]
  · rw [if_neg hc, if_neg (fun k => hc (he.1 k))]
    refine { h with springs := ?_ }
    simp only [List.map_append, List.map_cons, List.map_nil]
    exact h.springs.append_right _

theorem releaseKind_flip {ρ : ℕ → ℕ} (hρ : Function.Injective ρ) {s s' : State} (h : Flipped ρ s s') (k : Kind) :
    Matches (Flipped ρ) (s.releaseKind k) (s'.releaseKind (k.flip ρ)) := by
  cases k with
  | grab i => exact unlock_flip h i
  | ins p st f g =>
    exact replace_flip hρ (removeTracked_flip hρ (removeTracked_flip hρ h g) f) st

theorem find_flip (ρ : ℕ → ℕ) (l : List Live) (k : ℕ) :
    (l.map (Live.flip ρ)).find? (fun a => decide (a.hid = k)) =
      (l.find? fun a => decide (a.hid = k)).map (Live.flip ρ) := by
  rw [List.find?_map]
  rfl

theorem release_flip {ρ : ℕ → ℕ} (hρ : Function.Injective ρ) {s s' : State} (h : Flipped ρ s s') (k : ℕ) :
    Matches (fun r r' => r'.2 = r.2 ∧ Flipped ρ r.1 r'.1) (s.release k) (s'.release k) := by
  unfold State.release
  rw [h.live, find_flip]
  cases s.live.find? (fun a => decide (a.hid = k)) with
  | none => exact ⟨rfl, h⟩
  | some a =>
    simp only [Option.map_some]
    have h1 : Flipped ρ { s with live := s.live.filter fun b => b.hid ≠ k }
        { s' with live := (s.live.map (Live.flip ρ)).filter fun b => b.hid ≠ k } :=
      { h with live := (by
          simp only [List.filter_map]
          rfl) }
    refine matches_bind (releaseKind_flip hρ h1 a.kind) ?_
    rintro z z' - - hz
    refine matches_bind (deactivate_flip hz) ?_
    rintro y y' - - hy
    exact ⟨rfl, hy⟩

open Classical in
theorem moveAnchor_flip {ρ : ℕ → ℕ} {s s' : State} (h : Flipped ρ s s') (k : ℕ) (d : Pt) :
    Matches (fun r r' => r'.2 = r.2 ∧ Flipped ρ r.1 r'.1) (s.moveAnchor k d) (s'.moveAnchor k (swapXY d)) := by
  unfold State.moveAnchor
  rw [h.live, find_flip]
  have ht : Turned (if s.active then fun i => s.targets i + d else s.targets)
      (if s'.active then fun i => s'.targets i + swapXY d else s'.targets) := by
    by_cases ha : s.active
    · rw [if_pos ha, if_pos ((active_flip h).2 ha)]
      intro i
      simp only [h.targets i]
      rfl
    · rw [if_neg ha, if_neg (fun k => ha ((active_flip h).1 k))]
      exact h.targets
  cases s.live.find? (fun a => decide (a.hid = k)) with
  | none => exact ⟨rfl, h⟩
  | some a =>
    simp only [Option.map_some]
    rcases a with ⟨hid, k'⟩
    cases k' with
    | grab i =>
      refine ⟨rfl, { h with targets := ht, pos := ?_, live := rfl }⟩
      intro j
      simp only [h.pos i]
      exact update_flip (g := swapXY) h.pos i (s.pos i + d) j
    | ins p st f g =>
      refine ⟨rfl, { h with targets := ht, live := ?_ }⟩
      simp only [List.map_map]
      apply List.map_congr_left
      intro b _
      simp only [Function.comp]
      by_cases hb : b.hid = k
      · rw [if_pos hb, if_pos (show (Live.flip ρ b).hid = k from hb)]
        rcases b with ⟨_, kb⟩
        cases kb <;> rfl
      · rw [if_neg hb, if_neg (show ¬ (Live.flip ρ b).hid = k from hb)]

theorem moveBy_flip {ρ : ℕ → ℕ} {s s' : State} (h : Flipped ρ s s') (d : Pt) :
    Flipped ρ (s.moveBy d) (s'.moveBy (swapXY d)) :=
  { h with
    pos := by
      intro i
      simp only [State.moveBy, h.pos i]
      rfl
    targets := by
      intro i
      simp only [State.moveBy, h.targets i]
      rfl
    live := by
      simp only [State.moveBy, h.live, List.map_map]
      apply List.map_congr_left
      rintro ⟨_, kb⟩ _
      cases kb <;> rfl }

open Classical in
theorem resize_flip {ρ : ℕ → ℕ} {s s' : State} (h : Flipped ρ s s') (w v : ℝ) :
    Matches (fun r r' => r'.2 = r.2 ∧ Flipped ρ r.1 r'.1) (s.resize w v) (s'.resize v w) := by
  unfold State.resize
  rw [h.width, h.height]
  by_cases h1 : ¬ (w > 0 ∧ v > 0)
  · rw [if_pos h1, if_pos (c := ¬ (v > 0 ∧ w > 0)) (fun k => h1 ⟨k.2, k.1⟩)]
    trivial
  rw [if_neg h1, if_neg (c := ¬ (v > 0 ∧ w > 0)) (fun k => k ⟨(not_not.1 h1).2, (not_not.1 h1).1⟩)]
  by_cases h2 : s.width = 0 ∨ s.height = 0
  · rw [if_pos h2, if_pos h2.symm]
    trivial
  rw [if_neg h2, if_neg (c := s.height = 0 ∨ s.width = 0) (fun k => h2 k.symm)]
  simp only
  by_cases h3 : Pt.equals ⟨w / s.width, v / s.height⟩ ⟨1, 1⟩
  · rw [if_pos h3, if_pos ⟨h3.2, h3.1⟩]
    exact ⟨rfl, h⟩
  rw [if_neg h3, if_neg (c := Pt.equals ⟨v / s.height, w / s.width⟩ ⟨1, 1⟩) (fun k => h3 ⟨k.2, k.1⟩)]
  refine matches_bind (targetPosition_flip h) ?_
  rintro r r' - - ⟨k1, k2⟩
  refine ⟨rfl, { k1 with width := rfl, height := rfl, pos := ?_, targets := ?_, springs := ?_, live := ?_ }⟩
  · intro i
    have := k1.targets 0
    rw [turn_zero] at this
    simp only [k1.targets i, this]
    rfl
  · intro i
    simp only [k1.pos i, k2]
    rfl
  · refine (k1.springs.map _).trans (List.Perm.of_eq ?_)
    rw [List.map_map, List.map_map]
    rfl
  · simp only [k1.live, List.map_map]
    apply List.map_congr_left
    rintro ⟨_, kb⟩ _
    rw [k2]
    cases kb <;> rfl

/-! ### Inserting -/

theorem nearest_of {s : State} {q : Pt} {f : Spring} (h1 : ∀ x ∈ s.springs, euclid (s.env.at_ s.pos f.a) q ≤
      euclid (s.env.at_ s.pos x.a) q) (h2 : ∀ x ∈ s.springs, euclid (s.env.at_ s.pos x.a) q =
      euclid (s.env.at_ s.pos f.a) q → euclid (s.env.at_ s.pos f.b) q ≤ euclid (s.env.at_ s.pos x.b) q) :
    NearestSpring s q f := ⟨h1, h2⟩

theorem representable_flip {p : Pt} : Representable (swapXY p) ↔ Representable p := by
  unfold Representable
  simp only [flip_x, flip_y]
  exact and_comm

theorem findSpring_flip {ρ : ℕ → ℕ} {s s' : State} (h : Flipped ρ s s') {q : Pt} (hn : NoTie s (.insert q)) :
    findSpringToSplit (s'.env.at_ s'.pos) (swapXY q) s'.springs =
      (findSpringToSplit (s.env.at_ s.pos) q s.springs).map (Spring.flip ρ) := by
  obtain ⟨hu, -, hz, hq⟩ := hn
  have hat := at_flip (env_flip h) h.pos
  by_cases hne : s.springs = []
  · have : s'.springs = [] := by
      have := h.springs
      rw [hne] at this
      exact this.eq_nil
    rw [hne, this]
    rfl
  have hne' : s'.springs ≠ [] := by
    obtain ⟨x, hx⟩ := List.exists_mem_of_ne_nil _ hne
    exact List.ne_nil_of_mem ((mem_flip h).2 ⟨x, hx, rfl⟩)
  have hz' : ∀ x ∈ s'.springs, Representable (s'.env.at_ s'.pos x.a) ∧ Representable (s'.env.at_ s'.pos x.b) := by
    intro x hx
    obtain ⟨y, hy, rfl⟩ := (mem_flip h).1 hx
    simp only [Spring.flip, hat, representable_flip]
    exact hz y hy
  obtain ⟨f, hf, e, h1, h2⟩ := find_spring hne hz hq
  obtain ⟨f', hf', e', h1', h2'⟩ := find_spring hne' hz' (representable_flip.2 hq)
  obtain ⟨y, hy, rfl⟩ := (mem_flip h).1 hf'
  rw [e, e', Option.map_some]
  congr 2
  refine hu y hy f hf ⟨fun x hx => ?_, fun x hx hxy => ?_⟩ ⟨h1, h2⟩
  · have := h1' (x.flip ρ) ((mem_flip h).2 ⟨x, hx, rfl⟩)
    simpa only [Spring.flip, hat, euclid_flip] using this
  · have := h2' (x.flip ρ) ((mem_flip h).2 ⟨x, hx, rfl⟩)
    simp only [Spring.flip, hat, euclid_flip] at this
    exact this hxy

theorem equals_iff (p q : Pt) : Pt.equals p q ↔ p = q := by
  unfold Pt.equals
  constructor
  · rintro ⟨h1, h2⟩
    ext <;> assumption
  · rintro rfl
    exact ⟨rfl, rfl⟩

open Classical in
theorem lookup_of {pos : Mesh} (hi : ∀ i j, pos i = pos j → i = j) (targets : Mesh) (i : Idx) :
    lookupTarget pos targets (pos i) = .ok (targets i) := by
  unfold lookupTarget
  have : (List.finRange 16).find? (fun j => decide (Pt.equals (pos i) (pos j))) = some i := by
    cases hf : (List.finRange 16).find? (fun j => decide (Pt.equals (pos i) (pos j))) with
    | none =>
      have := List.find?_eq_none.1 hf i (List.mem_finRange i)
      simp [equals_iff] at this
    | some j =>
      have := List.find?_some hf
      simp only [equals_iff, decide_eq_true_eq] at this
      rw [hi _ _ this]
  rw [this]

open Classical in
theorem lookup_none {pos : Mesh} {q : Pt} (hq : ∀ i, q ≠ pos i) (targets : Mesh) : lookupTarget pos targets q = .throws := by
  unfold lookupTarget
  have : (List.finRange 16).find? (fun j => decide (Pt.equals q (pos j))) = none := by
    rw [List.find?_eq_none]
    intro j _
    simp only [equals_iff, decide_eq_true_eq]
    exact hq j
  rw [this]

open Classical in
theorem preferred_flip {ρ : ℕ → ℕ} {s s' : State} (h : Flipped ρ s s') (hi : ∀ i j, s.pos i = s.pos j → i = j) (q : Pt) :
    s'.preferred (swapXY q) = (s.preferred q).mapOk swapXY := by
  unfold State.preferred
  by_cases ha : s.active
  · rw [if_pos ha, if_pos ((active_flip h).2 ha)]
    by_cases hq : ∃ i, q = s.pos i
    · obtain ⟨i, rfl⟩ := hq
      rw [lookup_of hi, ← h.pos, lookup_of, h.targets]
      · rfl
      · intro j k hjk
        rw [← turn_turn j, ← turn_turn k, h.pos, h.pos] at hjk
        have := congrArg swapXY hjk
        rw [flip_flip, flip_flip] at this
        exact turn_inj (hi _ _ this)
    · rw [lookup_none (fun i e => hq ⟨i, e⟩), lookup_none]
      · rfl
      · intro i e
        rw [← turn_turn i, h.pos] at e
        exact hq ⟨turn i, congrArg swapXY e⟩
  · rw [if_neg ha, if_neg (fun k => ha ((active_flip h).1 k))]
    rfl

theorem install_flip {ρ : ℕ → ℕ} (hρ : Function.Injective ρ) {s s' : State} (h : Flipped ρ s s')
    (hfix : ∀ n, s.lastId < n → ρ n = n) (q : Pt) (x : Spring) (d1 d2 : Pt) :
    Flipped ρ (s.install q x d1 d2) (s'.install (swapXY q) (x.flip ρ) (swapXY d1) (swapXY d2)) := by
  have e1 := hfix (s.lastId + 1) (by omega)
  have e2 := hfix (s.lastId + 2) (by omega)
  refine { h with springs := ?_, lastId := ?_, live := ?_, nextHid := ?_ }
  · simp only [State.install, List.map_append, List.map_cons, List.map_nil, h.lastId, h.nextHid, Spring.flip, e1, e2]
    exact (removeId_flip hρ h.springs x.id).append (List.Perm.refl _)
  · simp only [State.install, h.live, h.lastId, h.nextHid, List.map_append, List.map_cons, List.map_nil, Live.flip, Kind.flip,
      e1, e2]
  · simp only [State.install, h.lastId]
  · simp only [State.install, h.nextHid]

open Classical in
theorem insertSprings_flip {ρ : ℕ → ℕ} (hρ : Function.Injective ρ) {s s' : State} (h : Flipped ρ s s')
    (hfix : ∀ n, s.lastId < n → ρ n = n) {q : Pt} (hn : NoTie s (.insert q)) :
    Matches (Flipped ρ) (s.insertSprings q) (s'.insertSprings (swapXY q)) := by
  unfold State.insertSprings
  by_cases hd : dangling s.springs s.live
  · rw [if_pos hd, if_pos ((dangling_flip h).2 hd)]
    trivial
  rw [if_neg hd, if_neg (fun k => hd ((dangling_flip h).1 k)), findSpring_flip h hn]
  cases findSpringToSplit (s.env.at_ s.pos) q s.springs with
  | none => trivial
  | some x =>
    simp only [Option.map_some]
    have hat := at_flip (env_flip h) h.pos
    have ha : s'.env.at_ s'.pos (x.flip ρ).a = swapXY (s.env.at_ s.pos x.a) := hat x.a
    have hb : s'.env.at_ s'.pos (x.flip ρ).b = swapXY (s.env.at_ s.pos x.b) := hat x.b
    rw [ha, hb, preferred_flip h hn.2.1, preferred_flip h hn.2.1]
    cases s.preferred (s.env.at_ s.pos x.a) with
    | ok d1 =>
      cases s.preferred (s.env.at_ s.pos x.b) with
      | ok d2 => exact install_flip hρ h hfix q x d1 d2
      | _ => trivial
    | _ => trivial

theorem insert_flip {ρ : ℕ → ℕ} (hρ : Function.Injective ρ) {s s' : State} (h : Flipped ρ s s')
    (hfix : ∀ n, s.lastId < n → ρ n = n) {q : Pt} (hn : NoTie s (.insert q)) :
    Matches (fun r r' => r'.2 = r.2 ∧ Flipped ρ r.1 r'.1) (s.insert q) (s'.insert (swapXY q)) := by
  unfold State.insert
  have h1 : Flipped ρ { s with unequal := True } { s' with unequal := True } := { h with unequal := rfl }
  refine matches_bind (activate_flip h1) ?_
  rintro z z' hz - hzz
  have hn' : NoTie z (.insert q) := by
    obtain ⟨t, n, -, -, rfl⟩ := activate_ok hz
    exact hn
  have hfix' : ∀ n, z.lastId < n → ρ n = n := by
    obtain ⟨t, n, hle, -, rfl⟩ := activate_ok hz
    intro m hm
    exact hfix m (lt_of_le_of_lt hle hm)
  refine matches_bind (insertSprings_flip hρ hzz hfix' hn') ?_
  rintro y y' - - hy
  exact ⟨by rw [hzz.nextHid], hy⟩

theorem exec_flip {ρ : ℕ → ℕ} (hρ : Function.Injective ρ) {s s' : State} (h : Flipped ρ s s')
    (hfix : ∀ n, s.lastId < n → ρ n = n) {op : Op} (hn : NoTie s op) :
    Matches (fun r r' => r'.2 = r.2 ∧ Flipped ρ r.1 r'.1) (s.exec op) (s'.exec (flipOp op)) := by
  cases op with
  | grab q => exact grab_flip h hn
  | insert q => exact insert_flip hρ h hfix hn
  | moveAnchor k d => exact moveAnchor_flip h k d
  | release k => exact release_flip hρ h k
  | step t => exact step_flip h t
  | moveBy d => exact ⟨rfl, moveBy_flip h d⟩
  | moveTo q =>
    refine matches_bind (targetPosition_flip h) ?_
    rintro r r' - - ⟨k1, k2⟩
    refine ⟨rfl, ?_⟩
    simp only [k2, ← flip_sub]
    exact moveBy_flip k1 _
  | resize w v => exact resize_flip h w v
  | setSettings x => exact ⟨rfl, { h with settings := rfl }⟩
  | elsewhere n => exact ⟨rfl, { h with lastId := by simp only [h.lastId] }⟩

theorem run_flip {b : ℕ} {ρ : ℕ → ℕ} (hρ : Function.Injective ρ) (hfix : ∀ n, b + 24 < n → ρ n = n) (ops : List Op) :
    ∀ {s s' : State}, Inv b s → Flipped ρ s s' → AllAlong NoTie s ops →
    Matches (fun r r' => r'.2 = r.2 ∧ Flipped ρ r.1 r'.1) (s.run ops) (s'.run (ops.map flipOp)) := by
  induction ops with
  | nil => intro s s' _ h _; exact ⟨rfl, h⟩
  | cons op ops ih =>
    intro s s' hi h hn
    simp only [State.run, List.map_cons]
    refine matches_bind (exec_flip hρ h (fun n k => hfix n (lt_of_le_of_lt hi.baseLe k)) hn.1) ?_
    rintro r r' hr - ⟨k1, k2⟩
    have hr' : s.exec op = .ok (r.1, r.2) := hr
    refine matches_bind (ih (inv_exec s op r.1 r.2 hi hr') k2 (hn.2 r.1 r.2 hr')) ?_
    rintro a a' - - ⟨k3, k4⟩
    exact ⟨by rw [k1, k3], k4⟩

theorem transposed_of {ρ : ℕ → ℕ} {s s' : State} (h : Flipped ρ s s') : Transposed s s' where
  pos := turned_iff.1 h.pos
  vel := turned_iff.1 h.vel
  targets := turned_iff.1 h.targets
  anchors := fun k => by rw [h.live, anchorData_flip]
  held := by
    intro r c
    rw [← turn_rc]
    generalize (⟨4 * r.val + c.val, by omega⟩ : Idx) = i
    unfold heldBy
    rw [h.live, List.countP_map]
    congr 1
    funext a
    rcases a with ⟨_, k⟩
    cases k with
    | grab j =>
      simp only [Function.comp, Live.flip, Kind.flip, decide_eq_decide]
      exact ⟨turn_inj, congrArg turn⟩
    | ins p st f g => rfl
  locks := by
    intro r c
    rw [← turn_rc]
    exact h.locks _
  count := h.count
  settings := h.settings
  size := ⟨h.width, h.height⟩

/-! ### Reading -/

theorem deform_flip {m m' : Mesh} (h : Turned m m') (uv : Pt) :
    deformTexcoords m' (swapXY uv) = swapXY (deformTexcoords m uv) := by
  rw [deform_eq, deform_eq]
  have hw : ∀ i, weight (swapXY uv) (turn i) = weight uv i := by
    intro i
    simp only [weight, row_turn, col_turn, flip_x, flip_y]
    ring
  ext
  · simp only [flip_x]
    rw [← Equiv.sum_comp turnEquiv]
    apply Finset.sum_congr rfl
    intro i _
    show weight (swapXY uv) (turn i) * (m' (turn i)).x = _
    rw [hw, h i]
    rfl
  · simp only [flip_y]
    rw [← Equiv.sum_comp turnEquiv]
    apply Finset.sum_congr rfl
    intro i _
    show weight (swapXY uv) (turn i) * (m' (turn i)).y = _
    rw [hw, h i]
    rfl

theorem finRange_turn : (List.finRange 16).Perm ((List.finRange 16).map turn) := by decide +kernel

theorem minOf_flip {x x' : Idx → ℝ} (h : ∀ i, x' (turn i) = x i) : minOf x' = minOf x := by
  unfold minOf
  rw [List.Perm.foldl_eq' (f := fun acc i => min acc (x' i)) finRange_turn (fun i _ j _ z => min_right_comm _ _ _), List.foldl_map]
  simp only [h]

theorem maxOf_flip {x x' : Idx → ℝ} (h : ∀ i, x' (turn i) = x i) : maxOf x' = maxOf x := by
  unfold maxOf
  rw [List.Perm.foldl_eq' (f := fun acc i => max acc (x' i)) finRange_turn (fun i _ j _ z => max_right_comm _ _ _), List.foldl_map]
  simp only [h]

theorem extremes_flip {m m' : Mesh} (h : Turned m m') :
    extremes m' = (swapXY (extremes m).1, swapXY (extremes m).2.2.1, swapXY (extremes m).2.1, swapXY (extremes m).2.2.2) := by
  rw [extremes_eq, extremes_eq]
  rw [minOf_flip (x' := fun i => (m' i).x) (x := fun i => (m i).y) (fun i => by rw [h i]; rfl),
    minOf_flip (x' := fun i => (m' i).y) (x := fun i => (m i).x) (fun i => by rw [h i]; rfl),
    maxOf_flip (x' := fun i => (m' i).x) (x := fun i => (m i).y) (fun i => by rw [h i]; rfl),
    maxOf_flip (x' := fun i => (m' i).y) (x := fun i => (m i).x) (fun i => by rw [h i]; rfl)]
  rfl

end Verif.Wobbly
