import Verif.Lemmas.WobblyPhysics
import Verif.Lemmas.Outcome

/-! What each operation does to the fields of the state, when it returns. -/

namespace Verif.Wobbly

open Outcome

/-- Either the old targets or a recomputed lattice. -/
def TargetsFrom (s : State) (t : Mesh) : Prop := t = s.targets ∨ ∃ q, t = positionArray q s.tile

theorem recalc_ok {s s' : State} (h : s.recalc = .ok s') :
    ∃ q, s.targetByFullIntegration = .ok q ∧
      s' = { s with targets := positionArray q s.tile, lastId := s.lastId + springCount } := by
  unfold State.recalc at h
  rw [bind_eq_ok] at h
  obtain ⟨q, hq, h⟩ := h
  refine ⟨q, hq, ?_⟩
  simp only [Outcome.ok.injEq] at h
  rw [← h]
  rfl

theorem activate_ok {s s' : State} (h : s.activate = .ok s') :
    ∃ t n, s.lastId ≤ n ∧ TargetsFrom s t ∧ s' = { s with count := s.count + 1, targets := t, lastId := n } := by
  unfold State.activate at h
  simp only at h
  split_ifs at h
  · obtain ⟨q, -, rfl⟩ := recalc_ok h
    exact ⟨_, _, Nat.le_add_right _ _, Or.inr ⟨q, rfl⟩, rfl⟩
  · simp only [Outcome.ok.injEq] at h
    exact ⟨s.targets, s.lastId, le_refl _, Or.inl rfl, h.symm⟩

theorem deactivate_ok {s s' : State} (h : s.deactivate = .ok s') :
    s.count ≠ 0 ∧ ∃ t n, s.lastId ≤ n ∧ TargetsFrom s t ∧
      s' = { s with count := s.count - 1, targets := t, lastId := n } := by
  unfold State.deactivate at h
  simp only at h
  split_ifs at h with h0 h1
  · refine ⟨h0, ?_⟩
    obtain ⟨q, -, rfl⟩ := recalc_ok h
    exact ⟨_, _, Nat.le_add_right _ _, Or.inr ⟨q, rfl⟩, rfl⟩
  · simp only [Outcome.ok.injEq] at h
    exact ⟨h0, s.targets, s.lastId, le_refl _, Or.inl rfl, h.symm⟩

theorem targetPosition_ok {s s' : State} {q : Pt} (h : s.targetPosition = .ok (s', q)) :
    ∃ n, s.lastId ≤ n ∧ s' = { s with lastId := n } := by
  unfold State.targetPosition at h
  split_ifs at h
  · simp only [Outcome.ok.injEq, Prod.mk.injEq] at h
    exact ⟨s.lastId, le_refl _, h.1.symm⟩
  · rw [bind_eq_ok] at h
    obtain ⟨p, -, h⟩ := h
    simp only [Outcome.ok.injEq, Prod.mk.injEq] at h
    exact ⟨_, Nat.le_add_right _ _, h.1.symm⟩

/-- State after a successful grab of point `i`. -/
def grabbed (s : State) (i : Idx) (t : Mesh) (n : ℕ) : State :=
  { (({ s with unequal := True, count := s.count + 1, targets := t, lastId := n } : State).lock i) with
    live := s.live ++ [⟨s.nextHid, .grab i⟩], nextHid := s.nextHid + 1 }

theorem grab_ok {s s' : State} {p : Pt} {r : Res} (h : s.grab p = .ok (s', r)) :
    ∃ i t n, closestIndex s.pos p = some i ∧ s.lastId ≤ n ∧ TargetsFrom s t ∧
      s' = grabbed s i t n ∧ r = .handle s.nextHid := by
  unfold State.grab at h
  split at h
  · simp at h
  · rename_i i hi
    rw [bind_eq_ok] at h
    obtain ⟨s1, h1, h⟩ := h
    obtain ⟨t, n, hn, ht, rfl⟩ := activate_ok h1
    simp only [Outcome.ok.injEq, Prod.mk.injEq] at h
    exact ⟨i, t, n, hi, hn, ht, h.1.symm, h.2.symm⟩

/-- State of an insertion after activation. -/
def preInsert (s : State) (t : Mesh) (n : ℕ) : State :=
  { s with unequal := True, count := s.count + 1, targets := t, lastId := n }

theorem insert_ok {s s' : State} {p : Pt} {r : Res} (h : s.insert p = .ok (s', r)) :
    ∃ t n found d1 d2, s.lastId ≤ n ∧ TargetsFrom s t ∧ ¬ dangling s.springs s.live ∧
      findSpringToSplit (s.env.at_ s.pos) p s.springs = some found ∧
      (preInsert s t n).preferred (s.env.at_ s.pos found.a) = .ok d1 ∧
      (preInsert s t n).preferred (s.env.at_ s.pos found.b) = .ok d2 ∧
      s' = (preInsert s t n).install p found d1 d2 ∧ r = .handle s.nextHid := by
  unfold State.insert at h
  rw [bind_eq_ok] at h
  obtain ⟨s1, h1, h⟩ := h
  obtain ⟨t, n, hn, ht, rfl⟩ := activate_ok h1
  rw [bind_eq_ok] at h
  obtain ⟨s2, h2, h⟩ := h
  unfold State.insertSprings at h2
  split_ifs at h2 with hd
  split at h2
  · simp at h2
  · rename_i found hf
    rw [bind_eq_ok] at h2
    obtain ⟨d1, e1, h2⟩ := h2
    rw [bind_eq_ok] at h2
    obtain ⟨d2, e2, h2⟩ := h2
    simp only [Outcome.ok.injEq, Prod.mk.injEq] at h h2
    obtain ⟨rfl, rfl⟩ := h
    exact ⟨t, n, found, d1, d2, hn, ht, hd, hf, e1, e2, h2.symm, rfl⟩

theorem release_ok {s s' : State} {k : ℕ} {r : Res} (h : s.release k = .ok (s', r)) :
    (s.live.find? (fun a => a.hid = k) = none ∧ s' = s ∧ r = .none) ∨
    ∃ a s1 t n, s.live.find? (fun a => a.hid = k) = some a ∧
      ({ s with live := s.live.filter fun b => b.hid ≠ k } : State).releaseKind a.kind = .ok s1 ∧
      s1.count ≠ 0 ∧ s1.lastId ≤ n ∧ TargetsFrom s1 t ∧
      s' = { s1 with count := s1.count - 1, targets := t, lastId := n } ∧ r = .none := by
  unfold State.release at h
  split at h
  · rename_i hf
    simp only [Outcome.ok.injEq, Prod.mk.injEq] at h
    exact Or.inl ⟨hf, h.1.symm, h.2.symm⟩
  · rename_i a ha
    right
    rw [bind_eq_ok] at h
    obtain ⟨s1, h1, h⟩ := h
    rw [bind_eq_ok] at h
    obtain ⟨s2, h2, h⟩ := h
    obtain ⟨h0, t, n, hn, ht, rfl⟩ := deactivate_ok h2
    simp only [Outcome.ok.injEq, Prod.mk.injEq] at h
    exact ⟨a, s1, t, n, ha, h1, h0, hn, ht, h.1.symm, h.2.symm⟩

/-- State after unlocking. -/
noncomputable def unlocked (s : State) (i : Idx) : State :=
  let locks := Function.update s.locks i (s.locks i - 1)
  { s with
    locks := locks
    firstAnchor :=
      open Classical in
      if locks i = 0 ∧ s.firstAnchor = some i then
        if locks (maxElement locks) > 0 then some (maxElement locks) else none
      else s.firstAnchor }

theorem unlock_ok {s s' : State} {i : Idx} (h : s.unlock i = .ok s') : s.locks i ≠ 0 ∧ s' = unlocked s i := by
  unfold State.unlock at h
  split_ifs at h with h0
  simp only [Outcome.ok.injEq] at h
  exact ⟨h0, h.symm⟩

theorem step_ok {s s' : State} {t : ℕ} {r : Res} (h : s.step t = .ok (s', r)) :
    ∃ pos vel more, s' = { s with pos := pos, vel := vel, unequal := more } ∧ r = .more more := by
  unfold State.step at h
  split_ifs at h
  · rw [bind_eq_ok] at h
    obtain ⟨x, -, h⟩ := h
    simp only [Outcome.ok.injEq, Prod.mk.injEq] at h
    exact ⟨_, _, _, h.1.symm, h.2.symm⟩
  · rw [bind_eq_ok] at h
    obtain ⟨x, -, h⟩ := h
    simp only [Outcome.ok.injEq, Prod.mk.injEq] at h
    exact ⟨_, _, _, h.1.symm, h.2.symm⟩

/-- The targets after an anchor moved by `d`. -/
noncomputable def movedTargets (s : State) (d : Pt) : Mesh :=
  open Classical in if s.active then fun i => s.targets i + d else s.targets

theorem moveAnchor_ok {s s' : State} {k : ℕ} {d : Pt} {r : Res} (h : s.moveAnchor k d = .ok (s', r)) :
    r = .none ∧ ((s.live.find? (fun a => a.hid = k) = none ∧ s' = s) ∨
    ∃ a, s.live.find? (fun a => a.hid = k) = some a ∧
      ((∃ i, a.kind = .grab i ∧
        s' = { s with targets := movedTargets s d, pos := Function.update s.pos i (s.pos i + d) }) ∨
       ((∃ p st f g, a.kind = .ins p st f g) ∧
        s' = { s with targets := movedTargets s d,
                      live := s.live.map fun b => if b.hid = k then ⟨b.hid, b.kind.shift d⟩ else b }))) := by
  unfold State.moveAnchor at h
  cases hf : s.live.find? (fun a => a.hid = k) with
  | none =>
    simp only [hf, Outcome.ok.injEq, Prod.mk.injEq] at h
    exact ⟨h.2.symm, Or.inl ⟨rfl, h.1.symm⟩⟩
  | some a =>
    cases hk : a.kind with
    | grab i =>
      simp only [hf, hk, Outcome.ok.injEq, Prod.mk.injEq] at h
      exact ⟨h.2.symm, Or.inr ⟨a, rfl, Or.inl ⟨i, hk, h.1.symm⟩⟩⟩
    | ins p st f g =>
      simp only [hf, hk, Outcome.ok.injEq, Prod.mk.injEq] at h
      exact ⟨h.2.symm, Or.inr ⟨a, rfl, Or.inr ⟨⟨p, st, f, g, hk⟩, h.1.symm⟩⟩⟩

/-- State after moving the model. -/
theorem moveTo_ok {s s' : State} {p : Pt} {r : Res} (h : s.moveTo p = .ok (s', r)) :
    ∃ n d, s.lastId ≤ n ∧ s' = ({ s with lastId := n } : State).moveBy d ∧ r = .none := by
  unfold State.moveTo at h
  rw [bind_eq_ok] at h
  obtain ⟨⟨s1, q⟩, h1, h⟩ := h
  obtain ⟨n, hn, rfl⟩ := targetPosition_ok h1
  simp only [Outcome.ok.injEq, Prod.mk.injEq] at h
  exact ⟨n, _, hn, h.1.symm, h.2.symm⟩

/-- State after a resize by factor `f` about `o`. -/
noncomputable def resized (s : State) (w h : ℝ) (o : Pt) : State :=
  let f : Pt := ⟨w / s.width, h / s.height⟩
  { s with
    pos := fun i => rescale f o (s.pos i)
    targets := fun i => rescale f (s.targets 0) (s.targets i)
    springs := s.springs.map fun x => x.scaleLength f
    live := s.live.map fun b => ⟨b.hid, b.kind.scale f o⟩
    width := w
    height := h }

theorem resize_ok {s s' : State} {w h : ℝ} {r : Res} (e : s.resize w h = .ok (s', r)) :
    w > 0 ∧ h > 0 ∧ s.width ≠ 0 ∧ s.height ≠ 0 ∧ r = .none ∧
    ((w = s.width ∧ h = s.height ∧ s' = s) ∨
     ∃ n q, s.lastId ≤ n ∧ ¬ (w = s.width ∧ h = s.height) ∧
      s.targetPosition = .ok ({ s with lastId := n }, q) ∧
      s' = resized ({ s with lastId := n } : State) w h q) := by
  unfold State.resize at e
  simp only at e
  split_ifs at e with h1 h2 h3
  · rw [not_or] at h2
    refine ⟨h1.1, h1.2, h2.1, h2.2, ?_⟩
    simp only [Outcome.ok.injEq, Prod.mk.injEq] at e
    rw [Pt.equals_iff, Pt.ext_iff] at h3
    simp only at h3
    rw [div_eq_one_iff_eq h2.1, div_eq_one_iff_eq h2.2] at h3
    exact ⟨e.2.symm, Or.inl ⟨h3.1, h3.2, e.1.symm⟩⟩
  · rw [not_or] at h2
    refine ⟨h1.1, h1.2, h2.1, h2.2, ?_⟩
    rw [bind_eq_ok] at e
    obtain ⟨⟨s1, q⟩, e1, e⟩ := e
    obtain ⟨n, hn, rfl⟩ := targetPosition_ok e1
    simp only [Outcome.ok.injEq, Prod.mk.injEq] at e
    rw [Pt.equals_iff, Pt.ext_iff] at h3
    simp only at h3
    rw [div_eq_one_iff_eq h2.1, div_eq_one_iff_eq h2.2] at h3
    exact ⟨e.2.symm, Or.inr ⟨n, q, hn, h3, e1, e.1.symm⟩⟩

/-- Induction over histories. -/
theorem run_induction {P : State → Prop} (hP : ∀ s op s' r, P s → s.exec op = .ok (s', r) → P s') {s s' : State}
    {ops : List Op} {rs : List Res} (h0 : P s) (h : s.run ops = .ok (s', rs)) : P s' := by
  induction ops generalizing s rs with
  | nil =>
    simp only [State.run, Outcome.ok.injEq, Prod.mk.injEq] at h
    rw [← h.1]
    exact h0
  | cons op ops ih =>
    unfold State.run at h
    rw [bind_eq_ok] at h
    obtain ⟨⟨s1, r1⟩, h1, h⟩ := h
    rw [bind_eq_ok] at h
    obtain ⟨⟨s2, r2⟩, h2, h⟩ := h
    simp only [Outcome.ok.injEq, Prod.mk.injEq] at h
    rw [h.1] at h2
    exact ih (hP s op s1 r1 h0 h1) h2

end Verif.Wobbly
