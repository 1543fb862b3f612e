import Verif.Lemmas.WobblyOps
import Verif.Lemmas.WobblyMesh
import Verif.Lemmas.WobblySplit

/-! The invariant of the model's bookkeeping, and its preservation by every operation. -/

namespace Verif.Wobbly

open Outcome

/-- The spring an anchor has taken out of the mesh. -/
def Kind.stolenOf : Kind → List Spring
  | .grab _ => []
  | .ins _ st _ _ => [st]

/-- The identifiers of the springs an anchor has put in. -/
def Kind.trackedOf : Kind → List ℕ
  | .grab _ => []
  | .ins _ _ f g => [f, g]

/-- The anchor is a grab of point `i`. -/
def Kind.isGrab (i : Idx) : Kind → Bool
  | .grab j => j = i
  | .ins _ _ _ _ => false

/-- The anchor was inserted. -/
def Kind.isIns : Kind → Bool
  | .grab _ => false
  | .ins _ _ _ _ => true

def stolens (l : List Live) : List Spring := l.flatMap fun a => a.kind.stolenOf
def tracked (l : List Live) : List ℕ := l.flatMap fun a => a.kind.trackedOf
def grabs (l : List Live) (i : Idx) : ℕ := l.countP fun a => a.kind.isGrab i

@[simp] theorem stolens_nil : stolens [] = [] := rfl
@[simp] theorem tracked_nil : tracked [] = [] := rfl
@[simp] theorem stolens_append (l m : List Live) : stolens (l ++ m) = stolens l ++ stolens m := by
  simp [stolens]
@[simp] theorem tracked_append (l m : List Live) : tracked (l ++ m) = tracked l ++ tracked m := by
  simp [tracked]
@[simp] theorem grabs_append (l m : List Live) (i : Idx) : grabs (l ++ m) i = grabs l i + grabs m i := by
  simp [grabs]
@[simp] theorem stolens_single (h : ℕ) (k : Kind) : stolens [⟨h, k⟩] = k.stolenOf := by simp [stolens]
@[simp] theorem tracked_single (h : ℕ) (k : Kind) : tracked [⟨h, k⟩] = k.trackedOf := by simp [tracked]
@[simp] theorem grabs_single (h : ℕ) (k : Kind) (i : Idx) :
    grabs [⟨h, k⟩] i = if k.isGrab i then 1 else 0 := by simp [grabs]

/-- A change of the live anchors that only touches stored positions. -/
structure KeepsSkel (g : Live → Live) : Prop where
  hid : ∀ a, (g a).hid = a.hid
  stolen : ∀ a, (g a).kind.stolenOf = a.kind.stolenOf
  tracked : ∀ a, (g a).kind.trackedOf = a.kind.trackedOf
  grab : ∀ a i, (g a).kind.isGrab i = a.kind.isGrab i

theorem shift_skel (d : Pt) (k : Kind) : (k.shift d).stolenOf = k.stolenOf ∧ (k.shift d).trackedOf = k.trackedOf ∧
    ∀ i, (k.shift d).isGrab i = k.isGrab i := by
  cases k <;> simp [Kind.shift, Kind.stolenOf, Kind.trackedOf, Kind.isGrab]

theorem scale_skel (f o : Pt) (k : Kind) : (k.scale f o).stolenOf = k.stolenOf ∧
    (k.scale f o).trackedOf = k.trackedOf ∧ ∀ i, (k.scale f o).isGrab i = k.isGrab i := by
  cases k <;> simp [Kind.scale, Kind.stolenOf, Kind.trackedOf, Kind.isGrab]

theorem keeps_shift (d : Pt) : KeepsSkel fun b => ⟨b.hid, b.kind.shift d⟩ :=
  ⟨fun _ => rfl, fun a => (shift_skel d a.kind).1, fun a => (shift_skel d a.kind).2.1,
    fun a => (shift_skel d a.kind).2.2⟩

theorem keeps_scale (f o : Pt) : KeepsSkel fun b => ⟨b.hid, b.kind.scale f o⟩ :=
  ⟨fun _ => rfl, fun a => (scale_skel f o a.kind).1, fun a => (scale_skel f o a.kind).2.1,
    fun a => (scale_skel f o a.kind).2.2⟩

theorem keeps_shift_one (k : ℕ) (d : Pt) : KeepsSkel fun b => if b.hid = k then ⟨b.hid, b.kind.shift d⟩ else b := by
  refine ⟨fun a => ?_, fun a => ?_, fun a => ?_, fun a i => ?_⟩ <;> (try dsimp only) <;> split_ifs
  · rfl
  · rfl
  · exact (shift_skel d a.kind).1
  · rfl
  · exact (shift_skel d a.kind).2.1
  · rfl
  · exact (shift_skel d a.kind).2.2 i
  · rfl

namespace KeepsSkel

variable {g : Live → Live}

theorem stolens_map (hg : KeepsSkel g) (l : List Live) : stolens (l.map g) = stolens l := by
  simp [stolens, List.flatMap_map, hg.stolen]

theorem tracked_map (hg : KeepsSkel g) (l : List Live) : Wobbly.tracked (l.map g) = Wobbly.tracked l := by
  simp [Wobbly.tracked, List.flatMap_map, hg.tracked]

theorem grabs_map (hg : KeepsSkel g) (l : List Live) (i : Idx) : grabs (l.map g) i = grabs l i := by
  simp only [grabs, List.countP_map]
  congr 1
  funext a
  exact hg.grab a i

theorem hids_map (hg : KeepsSkel g) (l : List Live) : (l.map g).map Live.hid = l.map Live.hid := by
  simp only [List.map_map]
  congr 1
  funext a
  exact hg.hid a

end KeepsSkel

/-- Ends of the base springs when numbered from `b + 1`. -/
def baseEnds (b : ℕ) : List (ℕ × Node × Node) := (baseSprings 0 b).map fun s => (s.id, s.a, s.b)

/-- Identifiers of the base springs. -/
def baseIds (b : ℕ) : List ℕ := (baseSprings 0 b).map Spring.id

theorem baseSprings_ends (t : Pt) (b : ℕ) : (baseSprings t b).map (fun s => (s.id, s.a, s.b)) = baseEnds b := by
  simp [baseEnds, baseSprings]

theorem baseSprings_ids (t : Pt) (b : ℕ) : (baseSprings t b).map Spring.id = baseIds b := by
  simp [baseIds, baseSprings]

theorem baseEdges_length : baseEdges.length = 24 := by decide

theorem baseIds_eq (b : ℕ) : baseIds b = List.range' (b + 1) 24 := by
  simp only [baseIds, baseSprings, List.map_map]
  apply List.ext_getElem
  · simp [baseEdges_length]
  · intro n h1 h2
    simp
    omega

theorem baseIds_nodup (b : ℕ) : (baseIds b).Nodup := by
  rw [baseIds_eq]
  exact List.nodup_range'

theorem mem_baseIds {b x : ℕ} : x ∈ baseIds b ↔ b < x ∧ x ≤ b + 24 := by
  rw [baseIds_eq, List.mem_range'_1]
  omega

theorem springCount_eq : springCount = 24 := rfl

theorem baseEnds_mesh {b : ℕ} {e : ℕ × Node × Node} (h : e ∈ baseEnds b) :
    e.1 ∈ baseIds b ∧ (∃ i, e.2.1 = .mesh i) ∧ ∃ i, e.2.2 = .mesh i := by
  simp only [baseEnds, baseIds, List.mem_map] at *
  obtain ⟨s, hs, rfl⟩ := h
  refine ⟨⟨s, hs, rfl⟩, ?_⟩
  simp only [baseSprings, List.mem_map] at hs
  obtain ⟨e, -, rfl⟩ := hs
  exact ⟨⟨_, rfl⟩, ⟨_, rfl⟩⟩

/-- Where the ends of a spring can be. -/
def SpringShape (b nextHid : ℕ) (x : Spring) : Prop :=
  (x.id, x.a, x.b) ∈ baseEnds b ∨ (b + 24 < x.id ∧ ∃ h, h < nextHid ∧ x.a = .anchor h)

/-- The bookkeeping invariant. -/
structure Inv (b : ℕ) (s : State) : Prop where
  count : s.count = s.live.length
  locks : ∀ i, s.locks i = grabs s.live i
  firstSome : ∀ i, s.firstAnchor = some i → 0 < s.locks i
  firstNone : s.firstAnchor = none → ∀ i, s.locks i = 0
  hids : (s.live.map Live.hid).Nodup
  hidsLt : ∀ a ∈ s.live, a.hid < s.nextHid
  targets : s.targets = positionArray (s.targets 0) s.tile
  book : ∀ x, (s.springs.map Spring.id).count x + ((stolens s.live).map Spring.id).count x =
    (baseIds b).count x + (tracked s.live).count x + s.pending.count x
  uniq : ∀ x, (s.springs.map Spring.id).count x + ((stolens s.live).map Spring.id).count x ≤ 1
  pend : ∀ x, s.pending.count x ≤ ((stolens s.live).map Spring.id).count x
  idsLe : ∀ x, 0 < (s.springs.map Spring.id).count x + ((stolens s.live).map Spring.id).count x →
    b < x ∧ x ≤ s.lastId
  baseLe : b + 24 ≤ s.lastId
  order : ∀ a ∈ s.live, ∀ st ∈ a.kind.stolenOf, ∀ f ∈ a.kind.trackedOf, st.id < f
  shape : ∀ x ∈ s.springs ++ stolens s.live, SpringShape b s.nextHid x

theorem positionArray_zero (p t : Pt) : positionArray p t 0 = p := by
  ext <;> simp [positionArray, row, col]

theorem positionArray_canon {m : Mesh} {p t : Pt} (h : m = positionArray p t) : m = positionArray (m 0) t := by
  rw [h, positionArray_zero]

theorem inv_new (p : Pt) (w h : ℝ) (x : Settings) (b : ℕ) : Inv b (State.new p w h x b) where
  count := rfl
  locks := fun i => rfl
  firstSome := by intro i h; simp [State.new] at h
  firstNone := fun _ _ => rfl
  hids := by simp [State.new]
  hidsLt := by simp [State.new]
  targets := positionArray_canon rfl
  book := by
    intro x
    simp [State.new, baseSprings_ids]
  uniq := by
    intro x
    simp only [State.new, baseSprings_ids, stolens_nil, List.map_nil, List.count_nil, Nat.add_zero]
    exact List.nodup_iff_count_le_one.1 (baseIds_nodup b) x
  pend := by simp [State.new]
  idsLe := by
    intro x
    simp only [State.new, baseSprings_ids, stolens_nil, List.map_nil, List.count_nil, Nat.add_zero,
      List.count_pos_iff, mem_baseIds, springCount_eq]
    exact id
  baseLe := by simp [State.new, springCount_eq]
  order := by simp [State.new]
  shape := by
    intro y hy
    left
    simp only [State.new, stolens_nil, List.append_nil] at hy
    rw [← baseSprings_ends ⟨w / (4 - 1), h / (4 - 1)⟩ b]
    exact List.mem_map.2 ⟨y, hy, rfl⟩

/-! ### Preservation, operation by operation -/

theorem targetsFrom_lattice {s : State} {t : Mesh} (ht : TargetsFrom s t)
    (h : s.targets = positionArray (s.targets 0) s.tile) : t = positionArray (t 0) s.tile := by
  rcases ht with rfl | ⟨q, rfl⟩
  · exact h
  · exact positionArray_canon rfl

theorem maxElement_le (locks : Idx → ℕ) (i : Idx) : locks i ≤ locks (maxElement locks) := by
  have aux : ∀ (l : List Idx) (b : Idx), locks b ≤ locks (l.foldl (fun best i => if locks best < locks i then i else best) b) ∧
      ∀ i ∈ l, locks i ≤ locks (l.foldl (fun best i => if locks best < locks i then i else best) b) := by
    intro l
    induction l with
    | nil => intro b; simp
    | cons a l ih =>
      intro b
      simp only [List.foldl_cons]
      obtain ⟨h1, h2⟩ := ih (if locks b < locks a then a else b)
      have h3 : locks b ≤ locks (if locks b < locks a then a else b) ∧
          locks a ≤ locks (if locks b < locks a then a else b) := by
        split_ifs <;> omega
      refine ⟨h3.1.trans h1, ?_⟩
      intro j hj
      rcases List.mem_cons.1 hj with rfl | hj
      · exact h3.2.trans h1
      · exact h2 j hj
  exact (aux (List.finRange 16) 0).2 i (List.mem_finRange i)

theorem SpringShape.mono {b n m : ℕ} {x : Spring} (h : SpringShape b n x) (hnm : n ≤ m) : SpringShape b m x := by
  rcases h with h | ⟨h1, k, h2, h3⟩
  · exact Or.inl h
  · exact Or.inr ⟨h1, k, by omega, h3⟩

theorem inv_grab {b : ℕ} {s : State} (hs : Inv b s) (i : Idx) {t : Mesh} {n : ℕ} (hn : s.lastId ≤ n)
    (ht : TargetsFrom s t) : Inv b (grabbed s i t n) where
  count := by simp [grabbed, State.lock, hs.count]
  locks := by
    intro j
    simp only [grabbed, State.lock, grabs_append, grabs_single, Kind.isGrab]
    by_cases hj : j = i
    · subst hj
      simp [hs.locks]
    · simp [hj, Ne.symm hj, hs.locks, Function.update]
  firstSome := by
    intro j
    simp only [grabbed, State.lock]
    split_ifs with h
    · intro hj
      simp only [Option.some.injEq] at hj
      subst hj
      simp
    · intro hj
      have := hs.firstSome j hj
      by_cases hji : j = i
      · subst hji; simp
      · simpa [Function.update, hji] using this
  firstNone := by
    simp only [grabbed, State.lock]
    split_ifs with h
    · simp
    · intro hn
      exact absurd ⟨hs.firstNone hn i, hn⟩ h
  hids := by
    simp only [grabbed, List.map_append, List.map_cons, List.map_nil, List.nodup_append, List.nodup_cons,
      List.not_mem_nil, not_false_eq_true, List.nodup_nil, and_true, hs.hids, true_and]
    intro x hx y hy
    simp only [List.mem_singleton] at hy
    obtain ⟨a, ha, rfl⟩ := List.mem_map.1 hx
    have := hs.hidsLt a ha
    omega
  hidsLt := by
    intro a ha
    simp only [grabbed, List.mem_append, List.mem_singleton] at ha ⊢
    rcases ha with ha | rfl
    · have := hs.hidsLt a ha
      omega
    · simp
  targets := by
    have := targetsFrom_lattice ht hs.targets
    exact this
  book := by
    intro x
    simpa [grabbed, State.lock, Kind.stolenOf, Kind.trackedOf] using hs.book x
  uniq := by
    intro x
    simpa [grabbed, State.lock, Kind.stolenOf, Kind.trackedOf] using hs.uniq x
  pend := by
    intro x
    simpa [grabbed, State.lock, Kind.stolenOf, Kind.trackedOf] using hs.pend x
  idsLe := by
    intro x hx
    have := hs.idsLe x (by simpa [grabbed, State.lock, Kind.stolenOf] using hx)
    exact ⟨this.1, this.2.trans hn⟩
  baseLe := hs.baseLe.trans hn
  order := by
    intro a ha
    simp only [grabbed, List.mem_append, List.mem_singleton] at ha
    rcases ha with ha | rfl
    · exact hs.order a ha
    · simp [Kind.stolenOf]
  shape := by
    intro x hx
    refine SpringShape.mono (hs.shape x ?_) (Nat.le_succ _)
    simpa [grabbed, State.lock, Kind.stolenOf] using hx

theorem count_removeId (l : List Spring) (id x : ℕ) :
    ((removeId l id).map Spring.id).count x = if x = id then 0 else (l.map Spring.id).count x := by
  induction l with
  | nil => simp [removeId]
  | cons a l ih =>
    unfold removeId at ih ⊢
    rw [List.filter_cons]
    split_ifs with h1 h2 h2
    · subst h2
      simp only [ne_eq, decide_not, Bool.not_eq_eq_eq_not, Bool.not_true, decide_eq_false_iff_not] at h1
      rw [List.map_cons, List.count_cons, ih]
      simp [h1]
    · rw [List.map_cons, List.count_cons, ih, if_neg h2, List.map_cons, List.count_cons]
    · subst h2
      rw [ih]
      simp
    · simp only [ne_eq, decide_not, Bool.not_eq_eq_eq_not, Bool.not_true, decide_eq_false_iff_not, not_not] at h1
      rw [ih, if_neg h2, List.map_cons, List.count_cons]
      have : ¬ a.id = x := by omega
      simp [this]

theorem count_filter_ne (l : List ℕ) (id x : ℕ) :
    (l.filter (· ≠ id)).count x = if x = id then 0 else l.count x := by
  by_cases h : x = id
  · subst h
    simp [List.count_eq_zero]
  · rw [if_neg h, List.count_filter]
    simp [h]

theorem inv_install {b : ℕ} {s : State} (hs : Inv b s) {t : Mesh} {n : ℕ} (hn : s.lastId ≤ n)
    (ht : TargetsFrom s t) {p d1 d2 : Pt} {found : Spring} (hf : found ∈ s.springs) :
    Inv b ((preInsert s t n).install p found d1 d2) := by
  have hfc : 0 < (s.springs.map Spring.id).count found.id :=
    List.count_pos_iff.2 (List.mem_map.2 ⟨found, hf, rfl⟩)
  have hfu := hs.uniq found.id
  have hfl := hs.idsLe found.id (by omega)
  refine ⟨?_, ?_, ?_, ?_, ?_, ?_, ?_, ?_, ?_, ?_, ?_, ?_, ?_, ?_⟩
  · simp [State.install, preInsert, hs.count]
  · intro j
    simp [State.install, preInsert, hs.locks, Kind.isGrab]
  · exact hs.firstSome
  · exact hs.firstNone
  · simp only [State.install, preInsert, List.map_append, List.map_cons, List.map_nil, List.nodup_append,
      List.nodup_cons, List.not_mem_nil, not_false_eq_true, List.nodup_nil, and_true, hs.hids, true_and]
    intro x hx y hy
    simp only [List.mem_singleton] at hy
    obtain ⟨a, ha, rfl⟩ := List.mem_map.1 hx
    have := hs.hidsLt a ha
    omega
  · intro a ha
    simp only [State.install, preInsert, List.mem_append, List.mem_singleton] at ha ⊢
    rcases ha with ha | rfl
    · have := hs.hidsLt a ha
      omega
    · simp
  · have := targetsFrom_lattice ht hs.targets
    exact this
  · intro x
    have hb := hs.book x
    have hu := hs.uniq x
    simp only [State.install, preInsert, List.map_append, List.count_append, count_removeId, List.map_cons,
      List.map_nil, stolens_append, stolens_single, Kind.stolenOf, tracked_append, tracked_single, Kind.trackedOf,
      List.count_cons, List.count_nil]
    by_cases hx : x = found.id
    · subst hx
      simp
      omega
    · have : (found.id == x) = false := by simp [Ne.symm hx]
      simp only [this, if_neg hx]
      simp
      omega
  · intro x
    have hb := hs.book x
    have hu := hs.uniq x
    have hle := hs.idsLe x
    simp only [State.install, preInsert, List.map_append, List.count_append, count_removeId, List.map_cons,
      List.map_nil, stolens_append, stolens_single, Kind.stolenOf,
      List.count_cons, List.count_nil, beq_iff_eq]
    by_cases hx : x = found.id
    · subst hx
      rw [if_pos rfl, if_neg (by omega), if_neg (by omega), if_pos rfl]
      omega
    · rw [if_neg hx, if_neg (Ne.symm hx)]
      split_ifs <;> omega
  · intro x
    have := hs.pend x
    simp only [State.install, preInsert, List.map_append, List.count_append, List.map_cons,
      List.map_nil, stolens_append, stolens_single, Kind.stolenOf]
    omega
  · intro x
    have hle := hs.idsLe x
    simp only [State.install, preInsert, List.map_append, List.count_append, count_removeId, List.map_cons,
      List.map_nil, stolens_append, stolens_single, Kind.stolenOf,
      List.count_cons, List.count_nil, beq_iff_eq]
    have hb := hs.baseLe
    split_ifs <;> omega
  · have := hs.baseLe
    simp only [State.install, preInsert]
    omega
  · intro a ha
    simp only [State.install, preInsert, List.mem_append, List.mem_singleton] at ha
    rcases ha with ha | rfl
    · exact hs.order a ha
    · simp only [Kind.stolenOf, Kind.trackedOf, List.mem_singleton, List.mem_cons, List.not_mem_nil, or_false]
      rintro st rfl f (rfl | rfl) <;> omega
  · intro x hx
    have hbl := hs.baseLe
    simp only [State.install, preInsert, stolens_append, stolens_single, Kind.stolenOf, List.mem_append,
      List.mem_cons, List.not_mem_nil, or_false] at hx
    have old : x ∈ s.springs ++ stolens s.live → SpringShape b (s.nextHid + 1) x := fun h =>
      SpringShape.mono (hs.shape x h) (Nat.le_succ _)
    rcases hx with (hx | rfl | rfl) | hx | rfl
    · exact old (List.mem_append_left _ (List.mem_of_mem_filter hx))
    · exact Or.inr ⟨by simp only; omega, s.nextHid, by simp [State.install, preInsert], rfl⟩
    · exact Or.inr ⟨by simp only; omega, s.nextHid, by simp [State.install, preInsert], rfl⟩
    · exact old (List.mem_append_right _ hx)
    · exact old (List.mem_append_left _ hf)

/-- A released anchor and the rest. -/
theorem live_perm {l : List Live} (hl : (l.map Live.hid).Nodup) {k : ℕ} {a : Live}
    (ha : l.find? (fun a => a.hid = k) = some a) :
    a ∈ l ∧ a.hid = k ∧ l.Perm (a :: l.filter fun b => b.hid ≠ k) := by
  have hm := List.mem_of_find?_eq_some ha
  have hk : a.hid = k := by
    have := List.find?_some ha
    simpa using this
  refine ⟨hm, hk, ?_⟩
  clear ha
  induction l with
  | nil => simp at hm
  | cons c l ih =>
    rw [List.map_cons, List.nodup_cons] at hl
    rcases List.mem_cons.1 hm with rfl | hm
    · have : l.filter (fun b => decide (b.hid ≠ k)) = l := by
        rw [List.filter_eq_self]
        intro x hx
        simp only [ne_eq, decide_not, Bool.not_eq_eq_eq_not, Bool.not_true, decide_eq_false_iff_not]
        intro hxk
        exact hl.1 (List.mem_map.2 ⟨x, hx, by omega⟩)
      rw [List.filter_cons]
      simp only [hk, ne_eq, not_true_eq_false, decide_false, Bool.false_eq_true, if_false]
      rw [this]
    · have hck : c.hid ≠ k := by
        intro hck
        exact hl.1 (List.mem_map.2 ⟨a, hm, by omega⟩)
      rw [List.filter_cons]
      simp only [hck, ne_eq, not_false_eq_true, decide_true, if_true]
      exact (List.Perm.cons c (ih hl.2 hm)).trans (List.Perm.swap _ _ _)

theorem removeId_not_mem {l : List Spring} {id : ℕ} (h : ¬ ∃ x ∈ l, x.id = id) : removeId l id = l := by
  unfold removeId
  rw [List.filter_eq_self]
  intro x hx
  simp only [ne_eq, decide_not, Bool.not_eq_eq_eq_not, Bool.not_true, decide_eq_false_iff_not]
  intro hxi
  exact h ⟨x, hx, hxi⟩

/-- The list of pending removals after removing a tracked spring. -/
noncomputable def pendingAfter (springs : List Spring) (pending : List ℕ) (id : ℕ) : List ℕ :=
  open Classical in if ∃ x ∈ springs, x.id = id then pending else pending ++ [id]

theorem removeTracked_eq (s : State) (id : ℕ) :
    s.removeTracked id =
      { s with springs := removeId s.springs id, pending := pendingAfter s.springs s.pending id } := by
  unfold State.removeTracked pendingAfter
  split_ifs with h
  · rfl
  · rw [removeId_not_mem h]

theorem count_pendingAfter (springs : List Spring) (pending : List ℕ) (id x : ℕ) :
    (pendingAfter springs pending id).count x =
      pending.count x + if x = id ∧ (springs.map Spring.id).count id = 0 then 1 else 0 := by
  have : (springs.map Spring.id).count id = 0 ↔ ¬ ∃ x ∈ springs, x.id = id := by
    rw [List.count_eq_zero, List.mem_map]
  unfold pendingAfter
  simp only [this]
  split_ifs with h1 h2 h2
  · exact absurd h1 h2.2
  · rfl
  · rw [h2.1]; simp
  · rw [not_and_or, not_not] at h2
    rcases h2 with h2 | h2
    · simp [Ne.symm h2]
    · exact absurd h2 h1

/-- The springs after putting a spring back. -/
def springsAfter (springs : List Spring) (pending : List ℕ) (st : Spring) : List Spring :=
  if st.id ∈ pending then springs else springs ++ [st]

theorem replace_eq (s : State) (st : Spring) :
    s.replace st =
      { s with springs := springsAfter s.springs s.pending st, pending := s.pending.filter (· ≠ st.id) } := by
  unfold State.replace springsAfter
  split_ifs with h
  · rfl
  · have : s.pending.filter (fun x => decide (x ≠ st.id)) = s.pending := by
      rw [List.filter_eq_self]
      intro x hx
      simp only [ne_eq, decide_not, Bool.not_eq_eq_eq_not, Bool.not_true, decide_eq_false_iff_not]
      rintro rfl
      exact h hx
    rw [this]

theorem count_springsAfter (springs : List Spring) (pending : List ℕ) (st : Spring) (x : ℕ) :
    ((springsAfter springs pending st).map Spring.id).count x =
      (springs.map Spring.id).count x + if x = st.id ∧ pending.count st.id = 0 then 1 else 0 := by
  unfold springsAfter
  simp only [List.count_eq_zero]
  split_ifs with h1 h2 h2
  · exact absurd h1 h2.2
  · rfl
  · rw [h2.1]; simp
  · have : ¬ st.id = x := fun h => h2 ⟨h.symm, h1⟩
    simp [this]

theorem inv_released {b : ℕ} {s s1 : State} (hs : Inv b s) {k n : ℕ} {a : Live} {t : Mesh}
    (ha : s.live.find? (fun a => a.hid = k) = some a)
    (h1 : ({ s with live := s.live.filter fun b => b.hid ≠ k } : State).releaseKind a.kind = .ok s1)
    (h0 : s1.count ≠ 0) (hn : s1.lastId ≤ n) (ht : TargetsFrom s1 t) :
    Inv b { s1 with count := s1.count - 1, targets := t, lastId := n } := by
  obtain ⟨hm, hk, hp⟩ := live_perm hs.hids ha
  have hids' : ((s.live.filter fun b => decide (b.hid ≠ k)).map Live.hid).Nodup :=
    hs.hids.sublist (List.filter_sublist.map _)
  have hsub0 : ∀ x ∈ s.live.filter (fun b => decide (b.hid ≠ k)), x ∈ s.live := fun x hx => List.mem_of_mem_filter hx
  generalize hrest : (s.live.filter fun b => decide (b.hid ≠ k)) = rest at *
  have hlen : s.live.length = rest.length + 1 := by
    rw [hp.length_eq]; rfl
  have hgr : ∀ i, grabs s.live i = grabs rest i + (if a.kind.isGrab i then 1 else 0) := by
    intro i
    unfold grabs
    rw [hp.countP_eq, List.countP_cons]
  have hst : ∀ x, ((stolens s.live).map Spring.id).count x =
      (a.kind.stolenOf.map Spring.id).count x +
        ((stolens rest).map Spring.id).count x := by
    intro x
    have : (stolens s.live).Perm (stolens (a :: rest)) := hp.flatMap_right _
    rw [(this.map Spring.id).count_eq]
    simp [stolens]
  have htr : ∀ x, (tracked s.live).count x =
      a.kind.trackedOf.count x + (tracked rest).count x := by
    intro x
    have : (tracked s.live).Perm (tracked (a :: rest)) := hp.flatMap_right _
    rw [this.count_eq]
    simp [tracked]
  have hsub : ∀ x ∈ rest, x ∈ s.live := fun x hx => hsub0 x hx
  have hstsub : ∀ x ∈ stolens rest, x ∈ stolens s.live := by
    intro x hx
    simp only [stolens, List.mem_flatMap] at hx ⊢
    obtain ⟨c, hc, hx⟩ := hx
    exact ⟨c, hsub c hc, hx⟩
  have hord := hs.order a hm
  cases hkind : a.kind with
  | grab i =>
    rw [hkind] at h1 hgr hst htr
    obtain ⟨hl0, rfl⟩ := unlock_ok h1
    simp only [Kind.isGrab, Kind.stolenOf, Kind.trackedOf, List.map_nil, List.count_nil, Nat.zero_add,
      decide_eq_true_eq] at hgr hst htr
    have hlk : ∀ j, Function.update s.locks i (s.locks i - 1) j = grabs rest j := by
      intro j
      have := hgr j
      by_cases hj : j = i
      · subst hj
        simp only [Function.update_self, hs.locks]
        simp at this
        omega
      · simp only [Function.update_of_ne hj, hs.locks]
        simp [Ne.symm hj] at this
        omega
    refine ⟨?_, ?_, ?_, ?_, ?_, ?_, ?_, ?_, ?_, ?_, ?_, ?_, ?_, ?_⟩
    · simp only [unlocked]
      rw [hs.count, hlen]
      rfl
    · intro j
      exact hlk j
    · intro j
      simp only [unlocked]
      split_ifs with h1 h2
      · intro hj
        simp only [Option.some.injEq] at hj
        subst hj
        exact h2
      · simp
      · intro hj
        by_cases hji : j = i
        · subst hji
          rw [not_and_or] at h1
          rcases h1 with h1 | h1
          · omega
          · exact absurd hj h1
        · simp only [Function.update_of_ne hji]
          exact hs.firstSome j hj
    · simp only [unlocked]
      split_ifs with h1 h2
      · simp
      · intro _ j
        have := maxElement_le (Function.update s.locks i (s.locks i - 1)) j
        omega
      · intro hn
        have := hs.firstNone hn i
        exact absurd this hl0
    · exact hids'
    · intro c hc
      exact hs.hidsLt c (hsub c hc)
    · have ht' : TargetsFrom s t := ht
      have := targetsFrom_lattice ht' hs.targets
      exact this
    · intro x
      have := hs.book x
      simp only [unlocked]
      rw [hst, htr] at this
      exact this
    · intro x
      have := hs.uniq x
      simp only [unlocked]
      rw [hst] at this
      exact this
    · intro x
      have := hs.pend x
      simp only [unlocked]
      rw [hst] at this
      exact this
    · intro x
      have := hs.idsLe x
      simp only [unlocked] at hn ⊢
      rw [hst] at this
      intro hx
      exact ⟨(this hx).1, (this hx).2.trans hn⟩
    · exact hs.baseLe.trans hn
    · intro c hc
      exact hs.order c (hsub c hc)
    · intro x hx
      refine hs.shape x ?_
      rcases List.mem_append.1 hx with hx | hx
      · exact List.mem_append_left _ hx
      · exact List.mem_append_right _ (hstsub x hx)
  | ins p0 st f g =>
    rw [hkind] at h1 hgr hst htr hord
    simp only [Kind.isGrab, Kind.stolenOf, Kind.trackedOf, List.map_cons, List.map_nil, List.count_cons,
      List.count_nil, Nat.zero_add, Bool.false_eq_true, if_false, Nat.add_zero, beq_iff_eq, List.mem_singleton,
      List.mem_cons, List.not_mem_nil, or_false, forall_eq, forall_eq_or_imp] at hgr hst htr hord
    simp only [State.releaseKind, Outcome.ok.injEq] at h1
    rw [removeTracked_eq, removeTracked_eq, replace_eq] at h1
    subst h1
    have hfg : f ≠ g := by
      rintro rfl
      have := hs.book f
      have := hs.uniq f
      have := htr f
      simp at this
      omega
    have cs := fun x => count_springsAfter (removeId (removeId s.springs g) f)
      (pendingAfter (removeId s.springs g) (pendingAfter s.springs s.pending g) f) st x
    have cp := fun x => count_filter_ne
      (pendingAfter (removeId s.springs g) (pendingAfter s.springs s.pending g) f) st.id x
    simp only [count_removeId, count_pendingAfter] at cs cp
    have key : ∀ x, (s.springs.map Spring.id).count x + ((if st.id = x then 1 else 0) +
        ((stolens rest).map Spring.id).count x) = (baseIds b).count x + ((if f = x then 1 else 0) +
        (if g = x then 1 else 0) + (tracked rest).count x) + s.pending.count x := by
      intro x
      have := hs.book x
      rw [hst, htr] at this
      omega
    have kuniq : ∀ x, (s.springs.map Spring.id).count x + ((if st.id = x then 1 else 0) +
        ((stolens rest).map Spring.id).count x) ≤ 1 := by
      intro x
      have := hs.uniq x
      rw [hst] at this
      exact this
    have kpend : ∀ x, s.pending.count x ≤ (if st.id = x then 1 else 0) + ((stolens rest).map Spring.id).count x := by
      intro x
      have := hs.pend x
      rw [hst] at this
      exact this
    refine ⟨?_, ?_, ?_, ?_, ?_, ?_, ?_, ?_, ?_, ?_, ?_, ?_, ?_, ?_⟩
    · simp only
      rw [hs.count, hlen]
      rfl
    · intro j
      simp only
      rw [hs.locks, hgr]
    · exact hs.firstSome
    · exact hs.firstNone
    · exact hids'
    · intro c hc
      exact hs.hidsLt c (hsub c hc)
    · have ht' : TargetsFrom s t := ht
      have := targetsFrom_lattice ht' hs.targets
      exact this
    · intro x
      simp only
      rw [cs, cp]
      have k1 := key x
      have k2 := kuniq x
      have k3 := key st.id
      have k4 := kuniq st.id
      by_cases e1 : x = st.id
      · subst e1
        have n1 : st.id ≠ f := by omega
        have n2 : st.id ≠ g := by omega
        simp only [n1, n2, Ne.symm n1, Ne.symm n2, if_true, if_false, false_and, true_and, if_pos, Nat.add_zero] at k1 k2 ⊢
        split_ifs <;> omega
      · by_cases e2 : x = f
        · subst e2
          simp only [hfg, e1, Ne.symm e1, if_true, if_false, false_and, true_and, Nat.add_zero, Ne.symm hfg] at k1 k2 ⊢
          split_ifs <;> omega
        · by_cases e3 : x = g
          · subst e3
            simp only [e2, e1, Ne.symm e1, if_true, if_false, false_and, true_and, Nat.add_zero, Ne.symm e2] at k1 k2 ⊢
            split_ifs <;> omega
          · simp only [e2, e1, e3, Ne.symm e1, Ne.symm e3, if_true, if_false, false_and, true_and, Nat.add_zero, Ne.symm e2] at k1 k2 ⊢
            omega
    · intro x
      simp only
      rw [cs]
      have k1 := key x
      have k2 := kuniq x
      by_cases e : x = st.id
      · rw [if_pos e.symm] at k2
        clear cs cp key kuniq kpend k1 htr hst
        split_ifs <;> omega
      · rw [if_neg (Ne.symm e)] at k2
        simp only [e, false_and, if_false]
        clear cs cp key kuniq kpend k1 htr hst
        split_ifs <;> omega
    · intro x
      simp only
      rw [cp]
      have k1 := key x
      have k2 := kuniq x
      have k3 := kpend x
      by_cases e1 : x = st.id
      · simp [e1]
      · by_cases e2 : x = f
        · subst e2
          simp only [hfg, e1, Ne.symm e1, if_true, if_false, false_and, true_and, Nat.add_zero, Ne.symm hfg] at k1 k2 k3 ⊢
          split_ifs <;> omega
        · by_cases e3 : x = g
          · subst e3
            simp only [e2, e1, Ne.symm e1, if_true, if_false, false_and, true_and, Nat.add_zero, Ne.symm e2] at k1 k2 k3 ⊢
            split_ifs <;> omega
          · simp only [e2, e1, e3, Ne.symm e1, Ne.symm e3, if_true, if_false, false_and, true_and, Nat.add_zero, Ne.symm e2] at k1 k2 k3 ⊢
            omega
    · intro x hx
      simp only at hx
      rw [cs] at hx
      have := hs.idsLe x
      rw [hst] at this
      have hpos : 0 < (s.springs.map Spring.id).count x + ((if st.id = x then 1 else 0) +
          ((stolens rest).map Spring.id).count x) := by
        clear this cs cp key kuniq kpend htr hst
        by_cases e : x = st.id
        · rw [if_pos e.symm]
          omega
        · simp only [e, false_and, if_false] at hx
          split_ifs at hx <;> omega
      have hle := this hpos
      exact ⟨hle.1, hle.2.trans hn⟩
    · exact hs.baseLe.trans hn
    · intro c hc
      exact hs.order c (hsub c hc)
    · intro x hx
      refine hs.shape x ?_
      rcases List.mem_append.1 hx with hx | hx
      · have : x ∈ removeId (removeId s.springs g) f ∨ x = st := by
          simp only [springsAfter] at hx
          split_ifs at hx
          · exact Or.inl hx
          · simpa using hx
        rcases this with hx | rfl
        · exact List.mem_append_left _ (List.mem_of_mem_filter (List.mem_of_mem_filter hx))
        · refine List.mem_append_right _ ?_
          simp only [stolens, List.mem_flatMap]
          exact ⟨a, hm, by simp [hkind, Kind.stolenOf]⟩
      · exact List.mem_append_right _ (hstsub x hx)

theorem inv_release {b : ℕ} {s s' : State} (hs : Inv b s) {k : ℕ} {r : Res} (h : s.release k = .ok (s', r)) :
    Inv b s' := by
  rcases release_ok h with ⟨-, rfl, -⟩ | ⟨a, s1, t, n, ha, h1, h0, hn, ht, rfl, -⟩
  · exact hs
  · exact inv_released hs ha h1 h0 hn ht

/-- Operations that leave the bookkeeping alone. -/
theorem inv_frame {b : ℕ} {s s' : State} (hs : Inv b s) {g : Live → Live} (hg : KeepsSkel g)
    (hlive : s'.live = s.live.map g) (hcount : s'.count = s.count) (hlocks : s'.locks = s.locks)
    (hfirst : s'.firstAnchor = s.firstAnchor) (hnext : s'.nextHid = s.nextHid)
    (hsp : s'.springs.map (fun x => (x.id, x.a, x.b)) = s.springs.map (fun x => (x.id, x.a, x.b)))
    (hpend : s'.pending = s.pending) (hid : s.lastId ≤ s'.lastId)
    (ht : s'.targets = positionArray (s'.targets 0) s'.tile) : Inv b s' := by
  have hsid : s'.springs.map Spring.id = s.springs.map Spring.id := by
    have := congrArg (List.map Prod.fst) hsp
    simpa [List.map_map, Function.comp_def] using this
  refine ⟨?_, ?_, ?_, ?_, ?_, ?_, ht, ?_, ?_, ?_, ?_, hs.baseLe.trans hid, ?_, ?_⟩
  · rw [hcount, hlive, List.length_map, hs.count]
  · intro i
    rw [hlocks, hlive, hg.grabs_map, hs.locks]
  · rw [hfirst, hlocks]; exact hs.firstSome
  · rw [hfirst, hlocks]; exact hs.firstNone
  · rw [hlive, hg.hids_map]; exact hs.hids
  · rw [hlive, hnext]
    intro a ha
    obtain ⟨c, hc, rfl⟩ := List.mem_map.1 ha
    rw [hg.hid]
    exact hs.hidsLt c hc
  · rw [hsid, hlive, hpend, hg.stolens_map, hg.tracked_map]; exact hs.book
  · rw [hsid, hlive, hg.stolens_map]; exact hs.uniq
  · rw [hlive, hpend, hg.stolens_map]; exact hs.pend
  · rw [hsid, hlive, hg.stolens_map]
    intro x hx
    exact ⟨(hs.idsLe x hx).1, (hs.idsLe x hx).2.trans hid⟩
  · rw [hlive]
    intro a ha
    obtain ⟨c, hc, rfl⟩ := List.mem_map.1 ha
    rw [hg.stolen, hg.tracked]
    exact hs.order c hc
  · rw [hlive, hg.stolens_map, hnext]
    intro x hx
    rcases List.mem_append.1 hx with hx | hx
    · have : (x.id, x.a, x.b) ∈ s.springs.map (fun x => (x.id, x.a, x.b)) := by
        rw [← hsp]
        exact List.mem_map.2 ⟨x, hx, rfl⟩
      obtain ⟨y, hy, e⟩ := List.mem_map.1 this
      have := hs.shape y (List.mem_append_left _ hy)
      simp only [Prod.mk.injEq] at e
      unfold SpringShape at this ⊢
      rw [e.1, e.2.1, e.2.2] at this
      exact this
    · exact hs.shape x (List.mem_append_right _ hx)

theorem keeps_id : KeepsSkel id := ⟨fun _ => rfl, fun _ => rfl, fun _ => rfl, fun _ _ => rfl⟩

theorem positionArray_shift (p t d : Pt) : (fun i => positionArray p t i + d) = positionArray (p + d) t := by
  funext i
  ext <;> simp [positionArray] <;> ring

theorem movedTargets_lattice {s : State} (d : Pt) (h : s.targets = positionArray (s.targets 0) s.tile) :
    movedTargets s d = positionArray (movedTargets s d 0) s.tile := by
  unfold movedTargets
  split_ifs
  · apply positionArray_canon (p := s.targets 0 + d)
    rw [← positionArray_shift, ← h]
  · exact h

theorem inv_moveBy {b : ℕ} {s : State} (hs : Inv b s) (d : Pt) : Inv b (s.moveBy d) := by
  refine inv_frame hs (keeps_shift d) rfl rfl rfl rfl rfl rfl rfl (le_refl _) ?_
  apply positionArray_canon (p := s.targets 0 + d)
  rw [← positionArray_shift]
  simp only [State.moveBy]
  funext i
  have := congrFun hs.targets i
  exact congrArg (· + d) this

theorem inv_lastId {b : ℕ} {s : State} (hs : Inv b s) {n : ℕ} (hn : s.lastId ≤ n) :
    Inv b { s with lastId := n } :=
  inv_frame hs keeps_id (by simp) rfl rfl rfl rfl rfl rfl hn hs.targets

theorem resized_targets {s : State} {w h : ℝ} (o : Pt) (hw : s.width ≠ 0) (hh : s.height ≠ 0)
    (ht : s.targets = positionArray (s.targets 0) s.tile) :
    (resized s w h o).targets = positionArray (s.targets 0) (resized s w h o).tile := by
  funext i
  simp only [resized, State.tile]
  have := congrFun ht i
  rw [this]
  ext
  · simp only [rescale, positionArray, State.tile, Pt.add_x, Pt.sub_x, Pt.pscale_x]
    field_simp
    ring
  · simp only [rescale, positionArray, State.tile, Pt.add_y, Pt.sub_y, Pt.pscale_y]
    field_simp
    ring

theorem inv_resized {b : ℕ} {s : State} (hs : Inv b s) {w h : ℝ} (o : Pt) (hw : s.width ≠ 0) (hh : s.height ≠ 0) :
    Inv b (resized s w h o) := by
  refine inv_frame hs (keeps_scale _ _) rfl rfl rfl rfl rfl ?_ rfl (le_refl _)
    (positionArray_canon (resized_targets o hw hh hs.targets))
  simp [resized, Spring.scaleLength, Function.comp_def]

/-- Every operation preserves the invariant. -/
theorem inv_exec {b : ℕ} (s : State) (op : Op) (s' : State) (r : Res) (hs : Inv b s)
    (h : s.exec op = .ok (s', r)) : Inv b s' := by
  cases op with
  | grab p =>
    obtain ⟨i, t, n, -, hn, ht, rfl, -⟩ := grab_ok h
    exact inv_grab hs i hn ht
  | insert p =>
    obtain ⟨t, n, found, d1, d2, hn, ht, -, hf, -, -, rfl, -⟩ := insert_ok h
    exact inv_install hs hn ht (splitStep_mem _ _ _ _ hf)
  | moveAnchor k d =>
    obtain ⟨-, ⟨-, rfl⟩ | ⟨a, -, ⟨i, -, rfl⟩ | ⟨-, rfl⟩⟩⟩ := moveAnchor_ok h
    · exact hs
    · exact inv_frame hs keeps_id (by simp) rfl rfl rfl rfl rfl rfl (le_refl _)
        (movedTargets_lattice d hs.targets)
    · exact inv_frame hs (keeps_shift_one k d) rfl rfl rfl rfl rfl rfl rfl (le_refl _)
        (movedTargets_lattice d hs.targets)
  | release k => exact inv_release hs h
  | step t =>
    obtain ⟨pos, vel, more, rfl, -⟩ := step_ok h
    exact inv_frame hs keeps_id (by simp) rfl rfl rfl rfl rfl rfl (le_refl _) hs.targets
  | moveBy d =>
    simp only [State.exec, Outcome.ok.injEq, Prod.mk.injEq] at h
    rw [← h.1]
    exact inv_moveBy hs d
  | moveTo p =>
    obtain ⟨n, d, hn, rfl, -⟩ := moveTo_ok h
    exact inv_moveBy (inv_lastId hs hn) d
  | resize w h' =>
    obtain ⟨-, -, hw, hh, -, ⟨-, -, rfl⟩ | ⟨n, q, hn, -, -, rfl⟩⟩ := resize_ok h
    · exact hs
    · exact inv_resized (inv_lastId hs hn) q hw hh
  | setSettings x =>
    simp only [State.exec, Outcome.ok.injEq, Prod.mk.injEq] at h
    rw [← h.1]
    exact inv_frame hs keeps_id (by simp) rfl rfl rfl rfl rfl rfl (le_refl _) hs.targets
  | elsewhere n =>
    simp only [State.exec, Outcome.ok.injEq, Prod.mk.injEq] at h
    rw [← h.1]
    exact inv_lastId hs (Nat.le_add_right _ _)

/-- The invariant holds after every history. -/
theorem inv_run {p : Pt} {w h : ℝ} {x : Settings} {b : ℕ} {ops : List Op} {s : State} {rs : List Res}
    (e : (State.new p w h x b).run ops = .ok (s, rs)) : Inv b s :=
  run_induction (P := Inv b) inv_exec (inv_new p w h x b) e

end Verif.Wobbly
