import Verif.Lemmas.WobblyBook
import Verif.Lemmas.WobblySlowDouble
import Verif.Lemmas.WobblyQuiet

/-! Insertion and release in the model with rounding. -/

namespace Verif.Wobbly.Rounded

open Wobbly Spec Outcome Classical

variable {R : Rounding64} {r : ℝ → ℝ} {s : State}

/-! ### Release -/

theorem recalc_returns (s : State) : (∃ z, recalc r s = .ok z) ∨ recalc r s = .diverges := by
  unfold recalc targetByFullIntegration rest
  split_ifs
  · exact .inl ⟨_, rfl⟩
  · exact .inr rfl

theorem find_live {k : ℕ} {a : Live} (h : s.live.find? (fun a => decide (a.hid = k)) = some a) : a ∈ s.live ∧ a.hid = k :=
  ⟨List.mem_of_find?_eq_some h, by simpa using List.find?_some h⟩

theorem Book.pinned {b : ℕ} (B : Book b s) {a : Live} (ha : a ∈ s.live) {i : Idx} (hk : a.kind = .grab i) : s.locks i ≠ 0 := by
  have h1 : s.locks i = grabs s.live i := B.inv.locks i
  rw [h1]
  unfold grabs
  have : 0 < s.live.countP fun a => a.kind.isGrab i := List.countP_pos_iff.2 ⟨a, ha, by simp [hk, Kind.isGrab]⟩
  omega

/-- Nothing is wrong with a release until the targets are computed. -/
theorem Book.releases {b : ℕ} (B : Book b s) {k : ℕ} {a : Live} (ha : s.live.find? (fun a => decide (a.hid = k)) = some a) :
    ∃ s1, State.releaseKind { s with live := s.live.filter fun b => decide (b.hid ≠ k) } a.kind = .ok s1 ∧
      s1.count ≠ 0 ∧ s1.count = s.count := by
  have hm := (find_live ha).1
  have hc : s.count ≠ 0 := by
    have h1 : s.count = s.live.length := B.inv.count
    rw [h1]
    exact (List.length_pos_of_mem hm).ne'
  cases hk : a.kind with
  | grab i =>
    simp only [State.releaseKind, State.unlock]
    rw [if_neg (B.pinned hm hk)]
    exact ⟨_, rfl, hc, rfl⟩
  | ins q st f g =>
    refine ⟨_, rfl, ?_⟩
    rw [removeTracked_eq, removeTracked_eq, replace_eq]
    exact ⟨hc, rfl⟩

theorem Book.release_cases {b : ℕ} (B : Book b s) (k : ℕ) :
    (∃ y, exec r s (.release k) = .ok y) ∨ exec r s (.release k) = .diverges := by
  simp only [exec, release]
  cases hf : s.live.find? (fun a => decide (a.hid = k)) with
  | none => exact Or.inl ⟨_, rfl⟩
  | some a =>
    obtain ⟨s1, h1, h2, -⟩ := B.releases hf
    simp only
    rw [h1, bind_ok]
    unfold deactivate
    rw [if_neg h2]
    simp only
    split_ifs
    · rcases recalc_returns (r := r) { s1 with count := s1.count - 1 } with ⟨z, hz⟩ | hz
      · rw [hz]
        exact .inl ⟨_, rfl⟩
      · rw [hz]
        exact .inr rfl
    · exact .inl ⟨_, rfl⟩

/-! ### `Step` -/

theorem rounds_defined (s : State) (n : ℕ) (q : Phys) : rounds r s n q ≠ .ub := by
  induction n generalizing q with
  | zero => simp [rounds]
  | succ n ih =>
    unfold rounds round constrain
    have key : ∀ a : Phys × Prop, ((rounds r s n a.1).bind fun b => .ok (b.1, a.2 ∨ b.2)) ≠ .ub := by
      intro a h
      cases hr : rounds r s n a.1 with
      | ok b => rw [hr] at h; cases h
      | ub => exact ih _ hr
      | diverges => rw [hr] at h; cases h
      | throws => rw [hr] at h; cases h
      | nonfinite => rw [hr] at h; cases h
    split_ifs
    · simp [Outcome.bind]
    · exact key _
    · exact key _

theorem step_undefined_iff (s : State) {t : ℕ} (ht : t ≠ 0) :
    exec r s (.step t) = .ub ↔ dangling s.springs s.live := by
  have hc : stepCount t ≠ 0 := by
    have : 0 < stepCount t := by
      unfold stepCount
      rw [Nat.ceil_pos]
      positivity
    omega
  simp only [exec]
  unfold Rounded.step
  by_cases hd : dangling s.springs s.live
  · rw [if_pos ⟨hc, hd⟩]
    exact ⟨fun _ => hd, fun _ => rfl⟩
  · rw [if_neg fun h => hd h.2]
    refine ⟨fun h => ?_, fun h => absurd h hd⟩
    cases hr : rounds r s (stepCount t) ⟨s.pos, s.vel⟩ with
    | ok b => rw [hr] at h; cases h
    | ub => exact absurd hr (rounds_defined _ _ _)
    | diverges => rw [hr] at h; cases h
    | throws => rw [hr] at h; cases h
    | nonfinite => rw [hr] at h; cases h

/-! ### Insertion -/

theorem split_fold (at_ : Node → Pt) (p : Pt) (l : List Spring) :
    let acc := l.foldl (splitStep r at_ p) ⟨none, dblMax, dblMax⟩
    (∀ y ∈ l, acc.primary ≤ distance r (at_ y.a) p) ∧
      ((acc.found = none ∧ acc.primary = dblMax) ∨ ∃ f, acc.found = some f ∧ acc.primary = distance r (at_ f.a) p) := by
  induction l using List.reverseRecOn with
  | nil => simp
  | append_singleton l y ih =>
    simp only [List.foldl_append, List.foldl_cons, List.foldl_nil] at ih ⊢
    generalize l.foldl (splitStep r at_ p) ⟨none, dblMax, dblMax⟩ = acc at ih
    obtain ⟨h1, h2⟩ := ih
    unfold splitStep
    simp only
    by_cases hlt : distance r (at_ y.a) p < acc.primary
    · simp only [if_pos hlt]
      have hall : ∀ z ∈ l ++ [y], distance r (at_ y.a) p ≤ distance r (at_ z.a) p := by
        intro z hz
        rcases List.mem_append.1 hz with hz | hz
        · exact hlt.le.trans (h1 z hz)
        · rw [List.mem_singleton.1 hz]
      by_cases e2 : distance r (at_ y.b) p < dblMax
      · rw [if_pos trivial, if_pos e2]
        exact ⟨hall, .inr ⟨y, rfl, rfl⟩⟩
      · rw [if_pos trivial, if_neg e2]
        exact ⟨hall, .inr ⟨y, rfl, rfl⟩⟩
    · simp only [if_neg hlt]
      have hall : ∀ z ∈ l ++ [y], acc.primary ≤ distance r (at_ z.a) p := by
        intro z hz
        rcases List.mem_append.1 hz with hz | hz
        · exact h1 z hz
        · rw [List.mem_singleton.1 hz]
          exact not_lt.1 hlt
      split_ifs with e1 e2
      · exact ⟨hall, .inr ⟨y, rfl, e1.symm⟩⟩
      · exact ⟨hall, h2⟩
      · exact ⟨hall, h2⟩

theorem found_nearest {at_ : Node → Pt} {p : Pt} {l : List Spring} (h : ∃ y ∈ l, distance r (at_ y.a) p < dblMax) :
    ∃ f, findSpringToSplit r at_ p l = some f ∧ ∀ y ∈ l, distance r (at_ f.a) p ≤ distance r (at_ y.a) p := by
  obtain ⟨h1, h2⟩ := split_fold (r := r) at_ p l
  obtain ⟨y, hy, hd⟩ := h
  rcases h2 with ⟨-, h2⟩ | ⟨f, hf, h2⟩
  · have := h1 y hy
    rw [h2] at this
    exact absurd hd (not_lt.2 this)
  · exact ⟨f, hf, fun z hz => h2 ▸ h1 z hz⟩

/-- Insertion into a slow model whose springs begin and end at mesh points, or that has an anchor already. -/
theorem slow_insert (hs : WellSlow s) (hd : Doubles s.pos) (hn : ¬ dangling s.springs s.live)
    (hm : ∃ y ∈ s.springs, ∃ i, y.a = .mesh i)
    (ho : s.count ≠ 0 ∨ ∀ y ∈ s.springs, (∃ i, y.a = .mesh i) ∧ ∃ j, y.b = .mesh j) {q : Pt} (hx : |q.x| ≤ 32768)
    (hy : |q.y| ≤ 32768) :
    ∃ t n found d1 d2, findSpringToSplit R.rnd (s.env.at_ s.pos) q s.springs = some found ∧
      exec R.rnd s (.insert q) = .ok ((preInsert s t n).install q found d1 d2, .handle s.nextHid) := by
  obtain ⟨z, hz⟩ := slow_activate (R := R) (s := { s with unequal := True }) (slow_transfer hs rfl rfl rfl rfl rfl) hd
  obtain ⟨t, n, hn', rfl⟩ := activate_fields hz
  obtain ⟨y, hym, i, hyi⟩ := hm
  obtain ⟨f, hf, -⟩ := found_nearest (r := R.rnd) (at_ := s.env.at_ s.pos) (p := q) (l := s.springs) ⟨y, hym, by
    rw [hyi]
    have hx' := abs_le.1 hx
    have hy' := abs_le.1 hy
    have px := abs_le.1 (hs.x i)
    have py := abs_le.1 (hs.y i)
    show distance R.rnd (s.pos i) q < dblMax
    exact screen_distance R (abs_le.2 ⟨by linarith, by linarith⟩) (abs_le.2 ⟨by linarith, by linarith⟩)⟩
  have hfm := found_mem _ _ _ _ hf
  have hpre : ∀ node : Node, (node = f.a ∨ node = f.b) →
      ∃ d, (preInsert s t n).preferred (s.env.at_ s.pos node) = .ok d := by
    intro node hnode
    unfold State.preferred
    split_ifs with ha
    · have h0 : s.count + 1 = 1 := ha
      rcases ho with ho | ho
      · omega
      · have : ∃ j, node = .mesh j := by
          obtain ⟨h1, h2⟩ := ho f hfm
          rcases hnode with rfl | rfl
          · exact h1
          · exact h2
        obtain ⟨j, rfl⟩ := this
        obtain ⟨j', -, h2⟩ := lookup_mesh s.pos t j
        exact ⟨_, h2⟩
    · exact ⟨_, rfl⟩
  obtain ⟨d1, h1⟩ := hpre f.a (.inl rfl)
  obtain ⟨d2, h2⟩ := hpre f.b (.inr rfl)
  refine ⟨t, n, f, q + sub R.rnd d1 q, q + sub R.rnd d2 q, hf, ?_⟩
  simp only [exec, insert, hz, bind_ok]
  unfold insertSprings
  rw [if_neg hn]
  have hf' : findSpringToSplit R.rnd (State.env { s with unequal := True, count := s.count + 1, targets := t, lastId := n }
      |>.at_ s.pos) q s.springs = some f := hf
  simp only [hf']
  have h1' : State.preferred { s with unequal := True, count := s.count + 1, targets := t, lastId := n }
      (State.env { s with unequal := True, count := s.count + 1, targets := t, lastId := n } |>.at_ s.pos f.a) = .ok d1 := h1
  have h2' : State.preferred { s with unequal := True, count := s.count + 1, targets := t, lastId := n }
      (State.env { s with unequal := True, count := s.count + 1, targets := t, lastId := n } |>.at_ s.pos f.b) = .ok d2 := h2
  rw [h1', bind_ok, h2', bind_ok, bind_ok, install_exact]
  rfl

/-- Without inserted anchors every spring begins and ends at a mesh point. -/
theorem Book.mesh {b : ℕ} (B : Book b s) (hn : NoneInserted s) :
    ¬ dangling s.springs s.live ∧ (∃ y ∈ s.springs, ∃ i, y.a = .mesh i) ∧
      ∀ y ∈ s.springs, (∃ i, y.a = .mesh i) ∧ ∃ j, y.b = .mesh j := by
  have hp := ends_perm B.inv hn
  have hall : ∀ y ∈ s.springs, (∃ i, y.a = .mesh i) ∧ ∃ j, y.b = .mesh j := by
    intro y hy
    exact (baseEnds_mesh (hp.mem_iff.1 (List.mem_map.2 ⟨y, hy, rfl⟩))).2
  refine ⟨?_, ?_, hall⟩
  · rintro ⟨y, hy, hna⟩
    obtain ⟨⟨i, hi⟩, j, hj⟩ := hall y hy
    rw [hi, hj] at hna
    exact hna ⟨trivial, trivial⟩
  · have hl := hp.length_eq
    rw [List.length_map, baseEnds, List.length_map] at hl
    have h24 : (Wobbly.baseSprings 0 b).length = 24 := by
      simp [Wobbly.baseSprings, baseEdges_length]
    have h24' : s.springs.length = 24 := hl.trans h24
    obtain ⟨y, hy⟩ := List.exists_mem_of_length_pos (by omega : 0 < s.springs.length)
    exact ⟨y, hy, (hall y hy).1⟩

end Verif.Wobbly.Rounded
