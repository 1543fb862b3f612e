import Verif.Lemmas.WobblyDangle

/-! States in which nothing moves. -/

namespace Verif.Wobbly

open Spec Outcome

/-- The mesh is the regular lattice for the current size and has no velocity. -/
structure AtRest (s : State) : Prop where
  pos : s.pos = positionArray (s.pos 0) s.tile
  vel : ∀ i, s.vel i = 0

theorem recalc_cases (s : State) : (∃ z, s.recalc = .ok z) ∨ s.recalc = .diverges := by
  unfold State.recalc State.targetByFullIntegration
  rcases settle_cases s.settleEnv ⟨s.pos, s.vel⟩ with ⟨q, hq⟩ | hq
  · rw [hq]
    exact Or.inl ⟨_, rfl⟩
  · rw [hq]
    exact Or.inr rfl

theorem activate_cases (s : State) : (∃ z, s.activate = .ok z) ∨ s.activate = .diverges := by
  unfold State.activate
  simp only
  split_ifs
  · exact recalc_cases _
  · exact Or.inl ⟨_, rfl⟩

theorem AtRest.target {s : State} (h : AtRest s) : s.targetByFullIntegration = .ok (s.pos 0) := by
  unfold State.targetByFullIntegration
  refine settle_rest (q := ⟨s.pos, s.vel⟩) ?_ h.vel
  intro x hx
  refine dead_of_zero ?_
  simp only
  rw [h.pos]
  exact base_deviation hx

theorem AtRest.recalc {s : State} (h : AtRest s) :
    s.recalc = .ok { s with targets := s.pos, lastId := s.lastId + springCount } := by
  unfold State.recalc
  rw [h.target, bind_ok, ← h.pos]
  rfl

/-- Activation leaves everything but count, targets and identifiers. -/
theorem AtRest.activate {s : State} (h : AtRest s) :
    ∃ t n, s.activate = .ok { s with count := s.count + 1, targets := t, lastId := n } ∧
      (s.count = 0 → t = s.pos ∧ n = s.lastId + springCount) ∧ (s.count ≠ 0 → t = s.targets ∧ n = s.lastId) := by
  unfold State.activate
  simp only
  by_cases hc : s.count = 0
  · have h' : AtRest { s with count := s.count + 1 } := ⟨h.pos, h.vel⟩
    rw [if_pos (by rw [hc]), h'.recalc]
    exact ⟨_, _, rfl, fun _ => ⟨rfl, rfl⟩, fun hc' => absurd hc hc'⟩
  · rw [if_neg (by omega)]
    exact ⟨_, _, rfl, fun hc' => absurd hc' hc, fun _ => ⟨rfl, rfl⟩⟩

theorem AtRest.deactivate {s : State} (h : AtRest s) (hc : s.count ≠ 0) :
    ∃ t n, s.deactivate = .ok { s with count := s.count - 1, targets := t, lastId := n } ∧
      (s.count = 2 → t = s.pos) := by
  unfold State.deactivate
  simp only
  rw [if_neg hc]
  split_ifs with h1
  · have h' : AtRest { s with count := s.count - 1 } := ⟨h.pos, h.vel⟩
    rw [h'.recalc]
    exact ⟨_, _, rfl, fun _ => rfl⟩
  · exact ⟨_, _, rfl, fun h2 => absurd (by omega) h1⟩

/-- Every position that springs see is of representable size. -/
def Sized (s : State) : Prop := ∀ n, Representable (s.env.at_ s.pos n)

theorem closest_of_representable {m : Mesh} {p : Pt} (hm : ∀ i, Representable (m i)) (hp : Representable p) :
    ∃ i, closestIndex m p = some i ∧ IsFirstNearest m p i := by
  rcases closestIndex_spec m p with ⟨-, h⟩ | h
  · have := h 0
    have := distance_lt_dblMax hp (hm 0)
    linarith
  · exact h

theorem grab_atRest {s : State} (h : AtRest s) {p : Pt} (hm : ∀ i, Representable (s.pos i)) (hp : Representable p) :
    ∃ i t n, closestIndex s.pos p = some i ∧ s.grab p = .ok (grabbed s i t n, .handle s.nextHid) ∧
      (s.count = 0 → t = s.pos) ∧ (s.count ≠ 0 → t = s.targets) := by
  obtain ⟨i, hi, -⟩ := closest_of_representable hm hp
  have h' : AtRest { s with unequal := True } := ⟨h.pos, h.vel⟩
  obtain ⟨t, n, ha, h0, h1⟩ := h'.activate
  refine ⟨i, t, n, hi, ?_, fun h => (h0 h).1, fun h => (h1 h).1⟩
  unfold State.grab
  simp only [hi, ha, bind_ok]
  rfl

/-- What springs see, written out. -/
theorem env_at (s : State) (n : Node) :
    s.env.at_ s.pos n = match n with
      | .mesh i => s.pos i
      | .anchor h => apos s.live h := by
  cases n <;> rfl

theorem find_spring {s : State} {p : Pt} (hne : s.springs ≠ []) (hz : ∀ x ∈ s.springs,
      Representable (s.env.at_ s.pos x.a) ∧ Representable (s.env.at_ s.pos x.b)) (hp : Representable p) :
    ∃ found ∈ s.springs, findSpringToSplit (s.env.at_ s.pos) p s.springs = some found ∧
      (∀ x ∈ s.springs, euclid (s.env.at_ s.pos found.a) p ≤ euclid (s.env.at_ s.pos x.a) p) ∧
      ∀ x ∈ s.springs, euclid (s.env.at_ s.pos x.a) p = euclid (s.env.at_ s.pos found.a) p →
        euclid (s.env.at_ s.pos found.b) p ≤ euclid (s.env.at_ s.pos x.b) p := by
  obtain ⟨f, hf, e, h1, h2⟩ := split_fold (s.env.at_ s.pos) p s.springs hne
    (fun x hx => distance_lt_dblMax (hz x hx).1 hp) (fun x hx => distance_lt_dblMax (hz x hx).2 hp)
  simp only [← Pt.distance_eq]
  refine ⟨f, hf, ?_, h1, h2⟩
  unfold findSpringToSplit
  rw [e]

open Classical in
theorem lookup_mesh (pos targets : Mesh) (i : Idx) :
    ∃ j, pos j = pos i ∧ lookupTarget pos targets (pos i) = .ok (targets j) := by
  unfold lookupTarget
  cases hf : (List.finRange 16).find? fun j => Pt.equals (pos i) (pos j) with
  | none =>
    rw [List.find?_eq_none] at hf
    have := hf i (List.mem_finRange i)
    simp [Pt.equals_iff] at this
  | some j =>
    have := List.find?_some hf
    simp only [decide_eq_true_eq, Pt.equals_iff] at this
    exact ⟨j, this.symm, rfl⟩

/-- Springs exist as long as an insertion is possible. -/
theorem inv_springs_ne {b : ℕ} {s : State} (hs : Inv b s) : s.springs ≠ [] := by
  intro h
  have : (stolens s.live).length + 24 ≤ (stolens s.live).length := by
    have hle : (baseIds b ++ tracked s.live).Sublist (baseIds b ++ tracked s.live) := List.Sublist.refl _
    have h1 : ∀ x, (baseIds b ++ tracked s.live).count x ≤ ((stolens s.live).map Spring.id).count x := by
      intro x
      have := hs.book x
      rw [h] at this
      rw [List.count_append]
      simp only [List.map_nil, List.count_nil] at this
      omega
    have h2 := (List.subperm_ext_iff.2 fun x _ => h1 x).length_le
    have h3 : (tracked s.live).length = 2 * (stolens s.live).length := by
      generalize s.live = l
      induction l with
      | nil => rfl
      | cons a l ih =>
        simp only [tracked, stolens, List.flatMap_cons, List.length_append] at ih ⊢
        rw [ih]
        cases a.kind <;> simp [Kind.trackedOf, Kind.stolenOf] <;> ring
    rw [List.length_append, h3, List.length_map, baseIds_eq, List.length_range'] at h2
    omega
  omega

/-- Nothing will move: springs within their dead zones, no velocity, and targets (when tracked) on the
mesh. -/
structure Quiet (s : State) : Prop where
  dead : ∀ x ∈ s.springs, InDeadZone (s.env.at_ s.pos) x
  vel : ∀ i, s.vel i = 0
  fine : ¬ dangling s.springs s.live
  target : s.active → s.targets = s.pos ∧ 0 < s.settings.maximumRange

theorem Quiet.round {s : State} (h : Quiet s) : s.round ⟨s.pos, s.vel⟩ = .ok (⟨s.pos, s.vel⟩, False) := by
  have hr := springStep_rest (e := s.env) (q := ⟨s.pos, s.vel⟩) h.dead h.vel
  unfold State.round
  split_ifs with ha
  · obtain ⟨ht, hm⟩ := h.target ha
    have hc : constrain s.settings.maximumRange s.targets s.pos = .ok (s.pos, False) := by
      unfold constrain
      rw [ht]
      simp only [Pt.distance_self, hm, not_true_eq_false, false_and, exists_false, if_false, if_true]
    simp only [hc, bind_ok, hr, or_self]
  · simp only [hr]

theorem Quiet.integrate {s : State} (h : Quiet s) (n : ℕ) :
    s.integrate n ⟨s.pos, s.vel⟩ = .ok (⟨s.pos, s.vel⟩, False) := by
  induction n with
  | zero => rfl
  | succ n ih => simp only [State.integrate, h.round, bind_ok, ih, or_self]

theorem Quiet.step {s : State} (h : Quiet s) (t : ℕ) :
    s.step t = .ok ({ s with unequal := if t ≠ 0 then False else s.unequal },
      .more (if t ≠ 0 then False else s.unequal)) := by
  unfold State.step
  rw [if_neg (fun hd => h.fine hd.2), h.integrate, bind_ok]
  simp only [or_false, Outcome.ok.injEq, Prod.mk.injEq, and_true]
  congr 1
  by_cases ha : s.active
  · rw [(h.target ha).1, ite_self]
  · simp [ha]

theorem Quiet.unequal {s : State} (h : Quiet s) (P : Prop) : Quiet { s with unequal := P } :=
  ⟨h.dead, h.vel, h.fine, h.target⟩

end Verif.Wobbly
