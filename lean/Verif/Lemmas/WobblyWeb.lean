import Verif.Lemmas.WobblyDangle

/-! # Which springs are at a mesh point, whatever anchors are inserted (for C136) -/

namespace Verif.Wobbly

open Spec Outcome

/-- The end is a mesh point. -/
def Node.isMesh : Node → Bool
  | .mesh _ => true
  | .anchor _ => false

/-- How many ends at mesh point `i` a spring between mesh points has. -/
def plainAt (i : Idx) (x : Spring) : ℕ :=
  (if x.a = .mesh i then 1 else 0) + (if x.a.isMesh ∧ x.b = .mesh i then 1 else 0)

/-- How many ends at mesh point `i` a spring to an anchor has. -/
def tiedAt (i : Idx) (x : Spring) : ℕ := if ¬ x.a.isMesh ∧ x.b = .mesh i then 1 else 0

/-- How many ends at mesh point `i` a spring has. -/
def endsAt (i : Idx) (x : Spring) : ℕ := (if .mesh i = x.a then 1 else 0) + (if .mesh i = x.b then 1 else 0)

theorem endsAt_eq (i : Idx) (x : Spring) : endsAt i x = plainAt i x + tiedAt i x := by
  unfold endsAt plainAt tiedAt
  simp only [eq_comm (a := Node.mesh i)]
  cases x.a <;> simp [Node.isMesh]

/-- The springs with their ends. -/
structure Web (s : State) : Prop where
  pending : s.pending = []
  ends : ∀ a ∈ s.live, ∀ st f g, a.kind.stolenOf = [st] → a.kind.trackedOf = [f, g] →
    ∀ x ∈ s.springs ++ stolens s.live, (x.id = f → ¬ x.a.isMesh ∧ x.b = st.a) ∧ (x.id = g → ¬ x.a.isMesh ∧ x.b = st.b)
  tied : ∀ i, (s.springs.map (tiedAt i)).sum = ((stolens s.live).map (plainAt i)).sum

variable {b : ℕ} {s : State}

theorem base_plain (b : ℕ) (i : Idx) :
    ((baseEnds b).map fun z => (if z.2.1 = .mesh i then 1 else 0) + (if z.2.1.isMesh ∧ z.2.2 = .mesh i then 1 else 0)).sum ≤ 4 := by
  have e : ((baseEnds b).map fun z => (if z.2.1 = .mesh i then 1 else 0) +
      (if z.2.1.isMesh ∧ z.2.2 = .mesh i then 1 else 0)) =
      baseEdges.map fun z => (if z.1 = i then 1 else 0) + (if z.2.1 = i then 1 else 0) := by
    unfold baseEnds baseSprings
    rw [List.map_map, List.map_map]
    conv_rhs => rw [← List.zipIdx_map_fst 0 baseEdges, List.map_map]
    refine List.map_congr_left fun z _ => ?_
    simp [Function.comp, Node.isMesh]
  rw [e]
  clear e
  revert i
  decide

/-- At most four springs end at a mesh point. -/
theorem Web.degree (hs : Inv b s) (hw : Web s) (i : Idx) : (s.springs.map (endsAt i)).sum ≤ 4 := by
  have e : (s.springs.map (endsAt i)).sum = ((s.springs ++ stolens s.live).map (plainAt i)).sum := by
    have : s.springs.map (endsAt i) = s.springs.map fun x => plainAt i x + tiedAt i x :=
      List.map_congr_left fun x _ => endsAt_eq i x
    rw [this, List.sum_map_add, hw.tied i, List.map_append, List.sum_append]
  rw [e]
  set l := s.springs ++ stolens s.live with hl
  have hnd : (l.map Spring.id).Nodup := by
    rw [List.nodup_iff_count_le_one]
    intro x
    rw [hl, List.map_append, List.count_append]
    exact hs.uniq x
  set l' := l.filter fun x => x.a.isMesh with hl'
  have e2 : (l.map (plainAt i)).sum = (l'.map (plainAt i)).sum := by
    rw [hl']
    clear_value l
    clear hnd hl e hl' l'
    induction l with
    | nil => rfl
    | cons x l ih =>
      rw [List.map_cons, List.sum_cons, ih, List.filter_cons]
      split_ifs with hx
      · rw [List.map_cons, List.sum_cons]
      · have : plainAt i x = 0 := by
          unfold plainAt
          have hne : x.a ≠ .mesh i := fun h => hx (by rw [h]; rfl)
          simp [hne, hx]
        omega
  rw [e2]
  have hsub : (l'.map fun x => (x.id, x.a, x.b)) ⊆ baseEnds b := by
    intro z hz
    obtain ⟨x, hx, rfl⟩ := List.mem_map.1 hz
    rw [hl', List.mem_filter] at hx
    rcases hs.shape x hx.1 with h | ⟨-, h, -, ha⟩
    · exact h
    · rw [ha] at hx
      simp [Node.isMesh] at hx
  have hnd' : (l'.map fun x => (x.id, x.a, x.b)).Nodup := by
    refine List.Nodup.of_map Prod.fst ?_
    rw [List.map_map]
    exact hnd.sublist (List.filter_sublist.map _)
  have hsp := hnd'.subperm hsub
  have e3 : l'.map (plainAt i) = (l'.map fun x => (x.id, x.a, x.b)).map fun z =>
      (if z.2.1 = .mesh i then 1 else 0) + (if z.2.1.isMesh ∧ z.2.2 = .mesh i then 1 else 0) := by
    rw [List.map_map]
    rfl
  rw [e3]
  refine le_trans ?_ (base_plain b i)
  obtain ⟨m, pm, sm⟩ := hsp
  rw [← (pm.map _).sum_eq]
  exact (sm.map _).sum_le_sum fun _ _ => Nat.zero_le _

/-- Point `i` has a spring to an anchor. -/
def TiedTo (s : State) (i : Idx) : Prop := ∃ x ∈ s.springs, ¬ x.a.isMesh ∧ x.b = .mesh i

theorem Web.tiedTo (hw : Web s) {x : Spring} (hx : x ∈ stolens s.live) {i : Idx} (hi : 0 < plainAt i x) : TiedTo s i := by
  have h1 : 0 < ((stolens s.live).map (plainAt i)).sum :=
    lt_of_lt_of_le hi (List.single_le_sum (fun _ _ => Nat.zero_le _) _ (List.mem_map.2 ⟨x, hx, rfl⟩))
  rw [← hw.tied i] at h1
  by_contra hn
  have : (s.springs.map (tiedAt i)).sum = 0 := by
    refine List.sum_eq_zero fun y hy => ?_
    obtain ⟨z, hz, rfl⟩ := List.mem_map.1 hy
    unfold tiedAt
    rw [if_neg fun h => hn ⟨z, hz, h⟩]
  omega

theorem plainAt_pos {x : Spring} {i j : Idx} (ha : x.a = .mesh i) (hb : x.b = .mesh j) :
    0 < plainAt i x ∧ 0 < plainAt j x := by
  unfold plainAt
  rw [ha, hb]
  simp [Node.isMesh]

/-- Every edge of the mesh has its spring, or both its ends are tied to anchors. -/
theorem Web.edges (hs : Inv b s) (hw : Web s) {z : Idx × Idx × Bool} (hz : z ∈ baseEdges) :
    (∃ x ∈ s.springs, x.a = .mesh z.1 ∧ x.b = .mesh z.2.1) ∨ TiedTo s z.1 ∧ TiedTo s z.2.1 := by
  obtain ⟨n, hn⟩ : ∃ n, (n, Node.mesh z.1, Node.mesh z.2.1) ∈ baseEnds b := by
    obtain ⟨m, hm, e⟩ := List.getElem_of_mem hz
    refine ⟨b + m + 1, ?_⟩
    unfold baseEnds baseSprings
    rw [List.map_map]
    refine List.mem_map.2 ⟨(z, m), ?_, rfl⟩
    rw [List.mem_zipIdx_iff_getElem?]
    simp [hm, e]
  have hb : 0 < (baseIds b).count n := by
    refine List.count_pos_iff.2 ?_
    have : baseIds b = (baseEnds b).map Prod.fst := by
      unfold baseIds baseEnds
      rw [List.map_map]
      rfl
    rw [this]
    exact List.mem_map.2 ⟨_, hn, rfl⟩
  have hk := hs.book n
  have hx : ∃ x ∈ s.springs ++ stolens s.live, x.id = n := by
    have : 0 < ((s.springs ++ stolens s.live).map Spring.id).count n := by
      rw [List.map_append, List.count_append]
      omega
    obtain ⟨x, hx, e⟩ := List.mem_map.1 (List.count_pos_iff.1 this)
    exact ⟨x, hx, e⟩
  obtain ⟨x, hx, e⟩ := hx
  have hends : x.a = .mesh z.1 ∧ x.b = .mesh z.2.1 := by
    rcases hs.shape x hx with h | ⟨h, -⟩
    · have hnd : ((baseEnds b).map Prod.fst).Nodup := by
        have := baseIds_nodup b
        unfold baseIds at this
        unfold baseEnds
        rw [List.map_map]
        exact this
      have := List.inj_on_of_nodup_map hnd h hn e
      simp only [Prod.mk.injEq] at this
      exact this.2
    · have := (mem_baseIds.1 (List.count_pos_iff.1 hb)).2
      omega
  rcases List.mem_append.1 hx with hx | hx
  · exact Or.inl ⟨x, hx, hends⟩
  · have := plainAt_pos hends.1 hends.2
    exact Or.inr ⟨hw.tiedTo hx this.1, hw.tiedTo hx this.2⟩

/-- While an anchor is inserted some point is tied to one. -/
theorem Web.some_tied (hs : Inv b s) (hw : Web s) {a : Live} (ha : a ∈ s.live) (hi : IsInserted a) : ∃ i, TiedTo s i := by
  have key : ∀ n, ∀ st ∈ stolens s.live, st.id = n → ∃ i, TiedTo s i := by
    intro n
    induction n using Nat.strong_induction_on with
    | _ n ih =>
      intro st hst hn
      rcases hs.shape st (List.mem_append_right _ hst) with h | ⟨h, -⟩
      · have hm := baseEnds_mesh h
        obtain ⟨-, ⟨i, hi⟩, j, hj⟩ := hm
        exact ⟨i, hw.tiedTo hst (plainAt_pos hi hj).1⟩
      · have hb : (baseIds b).count st.id = 0 := by
          rw [List.count_eq_zero, mem_baseIds]
          omega
        have hk := hs.book st.id
        have hc : 0 < ((stolens s.live).map Spring.id).count st.id := List.count_pos_iff.2 (List.mem_map.2 ⟨st, hst, rfl⟩)
        rw [hw.pending, List.count_nil] at hk
        have ht : 0 < (tracked s.live).count st.id := by omega
        obtain ⟨c, hc, hct⟩ := List.mem_flatMap.1 (List.count_pos_iff.1 ht)
        obtain ⟨q, st', f, g, hk'⟩ := tracked_isInserted hct
        have hst' : st' ∈ c.kind.stolenOf := by rw [hk']; simp [Kind.stolenOf]
        exact ih st'.id (hn ▸ hs.order c hc st' hst' st.id hct) st' (mem_stolens.2 ⟨c, hc, hst'⟩) rfl
  obtain ⟨p, st, f, g, hk⟩ := hi
  exact key _ st (mem_stolens.2 ⟨a, ha, by rw [hk]; simp [Kind.stolenOf]⟩) rfl

end Verif.Wobbly
