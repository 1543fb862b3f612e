import Verif.Lemmas.WobblyTwice
import Verif.Lemmas.WobblyRests
import Verif.Lemmas.WobblyBase

/-! The bookkeeping of anchors and springs in the model with rounding, over all histories. -/

namespace Verif.Wobbly.Rounded

open Wobbly Spec Outcome Classical

variable {r : ℝ → ℝ} {s : State}

/-! ### What each call does to the fields of the state, when it returns -/

theorem recalc_fields {s' : State} (h : recalc r s = .ok s') :
    ∃ t n, s.lastId ≤ n ∧ s' = { s with targets := t, lastId := n } := by
  unfold recalc at h
  rw [bind_eq_ok] at h
  obtain ⟨q, -, h⟩ := h
  simp only [Outcome.ok.injEq] at h
  exact ⟨_, _, Nat.le_add_right _ springCount, h.symm⟩

theorem activate_fields {s' : State} (h : activate r s = .ok s') :
    ∃ t n, s.lastId ≤ n ∧ s' = { s with count := s.count + 1, targets := t, lastId := n } := by
  unfold activate at h
  simp only at h
  split_ifs at h
  · obtain ⟨t, n, hn, rfl⟩ := recalc_fields h
    exact ⟨t, n, hn, rfl⟩
  · simp only [Outcome.ok.injEq] at h
    exact ⟨s.targets, s.lastId, le_refl _, h.symm⟩

theorem deactivate_fields {s' : State} (h : deactivate r s = .ok s') :
    s.count ≠ 0 ∧ ∃ t n, s.lastId ≤ n ∧ s' = { s with count := s.count - 1, targets := t, lastId := n } := by
  unfold deactivate at h
  simp only at h
  split_ifs at h with h0 h1
  · obtain ⟨t, n, hn, rfl⟩ := recalc_fields h
    exact ⟨h0, t, n, hn, rfl⟩
  · simp only [Outcome.ok.injEq] at h
    exact ⟨h0, s.targets, s.lastId, le_refl _, h.symm⟩

theorem targetPosition_fields {s' : State} {q : Pt} (h : targetPosition r s = .ok (s', q)) :
    ∃ n, s.lastId ≤ n ∧ s' = { s with lastId := n } := by
  unfold targetPosition at h
  split_ifs at h
  · simp only [Outcome.ok.injEq, Prod.mk.injEq] at h
    exact ⟨s.lastId, le_refl _, h.1.symm⟩
  · rw [bind_eq_ok] at h
    obtain ⟨p, -, h⟩ := h
    simp only [Outcome.ok.injEq, Prod.mk.injEq] at h
    exact ⟨_, Nat.le_add_right _ springCount, h.1.symm⟩

theorem grab_fields {s' : State} {p : Pt} {y : Res} (h : exec r s (.grab p) = .ok (s', y)) :
    ∃ i t n, closestIndex r s.pos p = some i ∧ s.lastId ≤ n ∧ s' = grabbed s i t n ∧ y = .handle s.nextHid := by
  simp only [exec, grab] at h
  split at h
  · simp at h
  · rename_i i hi
    rw [bind_eq_ok] at h
    obtain ⟨s1, h1, h⟩ := h
    obtain ⟨t, n, hn, rfl⟩ := activate_fields h1
    simp only [Outcome.ok.injEq, Prod.mk.injEq] at h
    exact ⟨i, t, n, hi, hn, h.1.symm, h.2.symm⟩

theorem found_mem (at_ : Node → Pt) (p : Pt) (l : List Spring) (f : Spring)
    (h : findSpringToSplit r at_ p l = some f) : f ∈ l := by
  unfold findSpringToSplit at h
  induction l using List.reverseRecOn generalizing f with
  | nil => simp at h
  | append_singleton l a ih =>
    rw [List.foldl_append] at h
    simp only [List.foldl_cons, List.foldl_nil, splitStep] at h
    split_ifs at h
    all_goals first
      | (simp only [Option.some.injEq] at h; subst h; simp)
      | exact List.mem_append_left _ (ih f h)

/-- Installation with rounding is installation with other lengths. -/
theorem install_exact (s : State) (p : Pt) (found : Spring) (d1 d2 : Pt) :
    install r s p found d1 d2 = s.install p found (p + sub r d1 p) (p + sub r d2 p) := by
  have : ∀ d : Pt, p + d - p = d := fun d => by ext <;> simp
  simp only [install, State.install, this]

theorem insert_fields {s' : State} {p : Pt} {y : Res} (h : exec r s (.insert p) = .ok (s', y)) :
    ∃ t n found d1 d2, s.lastId ≤ n ∧ found ∈ s.springs ∧
      s' = (preInsert s t n).install p found d1 d2 ∧ y = .handle s.nextHid := by
  simp only [exec, insert] at h
  rw [bind_eq_ok] at h
  obtain ⟨s1, h1, h⟩ := h
  obtain ⟨t, n, hn, rfl⟩ := activate_fields h1
  rw [bind_eq_ok] at h
  obtain ⟨s2, h2, h⟩ := h
  unfold insertSprings at h2
  split_ifs at h2 with hd
  split at h2
  · simp at h2
  · rename_i found hf
    rw [bind_eq_ok] at h2
    obtain ⟨d1, e1, h2⟩ := h2
    rw [bind_eq_ok] at h2
    obtain ⟨d2, e2, h2⟩ := h2
    simp only [Outcome.ok.injEq, Prod.mk.injEq] at h h2
    obtain ⟨rfl, rfl⟩ := h
    rw [install_exact] at h2
    exact ⟨t, n, found, _, _, hn, found_mem _ _ _ _ hf, h2.symm, rfl⟩

theorem moveAnchor_fields {s' : State} {k : ℕ} {d : Pt} {y : Res} (h : exec r s (.moveAnchor k d) = .ok (s', y)) :
    y = .none ∧ ((∃ t m, s' = { s with targets := t, pos := m }) ∨
      ∃ t, s' = { s with
        targets := t
        live := s.live.map fun b => if b.hid = k then ⟨b.hid, shift r d b.kind⟩ else b }) := by
  simp only [exec, moveAnchor] at h
  split at h
  · simp only [Outcome.ok.injEq, Prod.mk.injEq] at h
    obtain ⟨rfl, rfl⟩ := h
    exact ⟨rfl, .inl ⟨s.targets, s.pos, rfl⟩⟩
  split at h
  all_goals
    simp only [Outcome.ok.injEq, Prod.mk.injEq] at h
    obtain ⟨rfl, rfl⟩ := h
  · exact ⟨rfl, .inl ⟨_, _, rfl⟩⟩
  · exact ⟨rfl, .inr ⟨_, rfl⟩⟩

theorem release_fields {s' : State} {k : ℕ} {y : Res} (h : exec r s (.release k) = .ok (s', y)) :
    (s.live.find? (fun a => a.hid = k) = none ∧ s' = s ∧ y = .none) ∨
    ∃ a s1 t n, s.live.find? (fun a => a.hid = k) = some a ∧
      ({ s with live := s.live.filter fun b => b.hid ≠ k } : State).releaseKind a.kind = .ok s1 ∧
      s1.count ≠ 0 ∧ s1.lastId ≤ n ∧
      s' = { s1 with count := s1.count - 1, targets := t, lastId := n } ∧ y = .none := by
  simp only [exec, release] at h
  split at h
  · rename_i hf
    simp only [Outcome.ok.injEq, Prod.mk.injEq] at h
    exact Or.inl ⟨hf, h.1.symm, h.2.symm⟩
  · rename_i a ha
    right
    rw [bind_eq_ok] at h
    obtain ⟨s1, h1, h⟩ := h
    rw [bind_eq_ok] at h
    obtain ⟨s2, h2, h⟩ := h
    obtain ⟨h0, t, n, hn, rfl⟩ := deactivate_fields h2
    simp only [Outcome.ok.injEq, Prod.mk.injEq] at h
    exact ⟨a, s1, t, n, ha, h1, h0, hn, h.1.symm, h.2.symm⟩

theorem step_fields {s' : State} {t : ℕ} {y : Res} (h : exec r s (.step t) = .ok (s', y)) :
    ∃ pos vel more, s' = { s with pos := pos, vel := vel, unequal := more } ∧ y = .more more := by
  simp only [exec] at h
  unfold Rounded.step at h
  by_cases hd : stepCount t ≠ 0 ∧ dangling s.springs s.live
  · rw [if_pos hd] at h
    cases h
  rw [if_neg hd, bind_eq_ok] at h
  obtain ⟨a, -, h⟩ := h
  simp only [Outcome.ok.injEq, Prod.mk.injEq] at h
  exact ⟨_, _, _, h.1.symm, h.2.symm⟩

theorem moveTo_fields {s' : State} {p : Pt} {y : Res} (h : exec r s (.moveTo p) = .ok (s', y)) :
    ∃ n d, s.lastId ≤ n ∧ s' = moveBy r { s with lastId := n } d ∧ y = .none := by
  simp only [exec, moveTo, bind_eq_ok] at h
  obtain ⟨⟨s1, q⟩, h1, h⟩ := h
  obtain ⟨n, hn, rfl⟩ := targetPosition_fields h1
  simp only [Outcome.ok.injEq, Prod.mk.injEq] at h
  exact ⟨n, _, hn, h.1.symm, h.2.symm⟩

theorem resize_fields {s' : State} {w h : ℝ} {y : Res} (e : exec r s (.resize w h) = .ok (s', y)) :
    y = .none ∧ (s' = s ∨ ∃ n pos t f q, s.lastId ≤ n ∧ s' = { s with
      lastId := n
      pos := pos
      targets := t
      springs := s.springs.map fun x => { x with desired := pscale r x.desired f }
      live := s.live.map fun b => ⟨b.hid, scaleKind r f q b.kind⟩
      width := w
      height := h }) := by
  simp only [exec, resize] at e
  split_ifs at e
  · simp only [Outcome.ok.injEq, Prod.mk.injEq] at e
    exact ⟨e.2.symm, .inl e.1.symm⟩
  · rw [bind_eq_ok] at e
    obtain ⟨⟨s1, q⟩, h1, e⟩ := e
    obtain ⟨n, hn, rfl⟩ := targetPosition_fields h1
    simp only [Outcome.ok.injEq, Prod.mk.injEq] at e
    exact ⟨e.2.symm, .inr ⟨n, _, _, _, _, hn, e.1.symm⟩⟩

/-! ### The books -/

/-- The state with some lattice for targets. -/
noncomputable def flat (s : State) : State := { s with targets := Wobbly.positionArray 0 s.tile }

/-- The bookkeeping invariants, which do not look at the targets. -/
structure Book (b : ℕ) (s : State) : Prop where
  inv : Inv b (flat s)
  ends : Ends s

theorem keeps_shiftR (d : Pt) : KeepsSkel fun b => ⟨b.hid, shift r d b.kind⟩ := by
  have k : ∀ k : Kind, (shift r d k).stolenOf = k.stolenOf ∧ (shift r d k).trackedOf = k.trackedOf ∧
      ∀ i, (shift r d k).isGrab i = k.isGrab i := by
    intro k
    cases k <;> simp [shift, Kind.stolenOf, Kind.trackedOf, Kind.isGrab]
  exact ⟨fun _ => rfl, fun a => (k a.kind).1, fun a => (k a.kind).2.1, fun a => (k a.kind).2.2⟩

theorem keeps_scaleR (f o : Pt) : KeepsSkel fun b => ⟨b.hid, scaleKind r f o b.kind⟩ := by
  have k : ∀ k : Kind, (scaleKind r f o k).stolenOf = k.stolenOf ∧ (scaleKind r f o k).trackedOf = k.trackedOf ∧
      ∀ i, (scaleKind r f o k).isGrab i = k.isGrab i := by
    intro k
    cases k <;> simp [scaleKind, Kind.stolenOf, Kind.trackedOf, Kind.isGrab]
  exact ⟨fun _ => rfl, fun a => (k a.kind).1, fun a => (k a.kind).2.1, fun a => (k a.kind).2.2⟩

theorem keeps_shiftR_one (k : ℕ) (d : Pt) :
    KeepsSkel fun b => if b.hid = k then ⟨b.hid, shift r d b.kind⟩ else b := by
  have K := keeps_shiftR (r := r) d
  refine ⟨fun a => ?_, fun a => ?_, fun a => ?_, fun a i => ?_⟩ <;> (try dsimp only) <;> split_ifs
  · rfl
  · rfl
  · exact K.stolen a
  · rfl
  · exact K.tracked a
  · rfl
  · exact K.grab a i
  · rfl

theorem Book.frame {b : ℕ} {s' : State} (B : Book b s) {g : Live → Live} (hg : KeepsSkel g)
    (hlive : s'.live = s.live.map g) (hcount : s'.count = s.count) (hlocks : s'.locks = s.locks)
    (hfirst : s'.firstAnchor = s.firstAnchor) (hnext : s'.nextHid = s.nextHid)
    (hsp : s'.springs.map (fun x => (x.id, x.a, x.b)) = s.springs.map (fun x => (x.id, x.a, x.b)))
    (hpend : s'.pending = s.pending) (hid : s.lastId ≤ s'.lastId) : Book b s' :=
  ⟨inv_frame (s := flat s) (s' := flat s') B.inv hg hlive hcount hlocks hfirst hnext hsp hpend hid (positionArray_canon rfl),
    B.ends.frame hg hlive hsp hnext⟩

theorem book_new (p : Pt) (w h : ℝ) (x : Settings) (b : ℕ) : Book b (Rounded.new r p w h x b) := by
  have hsp : (Rounded.new r p w h x b).springs.map (fun x => (x.id, x.a, x.b)) =
      (State.new p w h x b).springs.map (fun x => (x.id, x.a, x.b)) :=
    (baseSprings_ends _ b).trans (baseSprings_ends _ b).symm
  exact ⟨inv_frame (s' := flat (Rounded.new r p w h x b)) (inv_new p w h x b) keeps_id rfl rfl rfl rfl rfl hsp rfl
      (le_refl _) (positionArray_canon rfl),
    (ends_new p w h x b).frame keeps_id rfl hsp rfl⟩

theorem releaseKind_flat {s1 : State} {k : Kind} (t : Mesh) (h : s.releaseKind k = .ok s1) :
    ({ s with targets := t } : State).releaseKind k = .ok { s1 with targets := t } := by
  cases k with
  | grab i =>
    obtain ⟨h0, rfl⟩ := unlock_ok h
    simp only [State.releaseKind, State.unlock]
    rw [if_neg h0]
    rfl
  | ins p st f g =>
    simp only [State.releaseKind, Outcome.ok.injEq] at h ⊢
    rw [← h, removeTracked_eq, removeTracked_eq, replace_eq, removeTracked_eq, removeTracked_eq, replace_eq]

theorem releaseKind_tile {s1 : State} {k : Kind} (h : s.releaseKind k = .ok s1) : s1.tile = s.tile := by
  cases k with
  | grab i =>
    obtain ⟨h0, rfl⟩ := unlock_ok h
    rfl
  | ins p st f g =>
    simp only [State.releaseKind, Outcome.ok.injEq] at h
    rw [← h, removeTracked_eq, removeTracked_eq, replace_eq]
    rfl

theorem exec_book {b : ℕ} {s' : State} {op : Op} {y : Res} (B : Book b s) (e : exec r s op = .ok (s', y)) : Book b s' := by
  cases op with
  | grab p =>
    obtain ⟨i, t, n, -, hn, rfl, -⟩ := grab_fields e
    refine ⟨?_, ends_grabbed B.ends i t n⟩
    exact inv_grab B.inv i (n := n) hn (.inl rfl)
  | insert p =>
    obtain ⟨t, n, found, d1, d2, hn, hf, rfl, -⟩ := insert_fields e
    refine ⟨?_, ?_⟩
    · exact inv_install B.inv (n := n) hn (.inl rfl) hf
    · have hs := ends_installed (s := flat s) (t := t) (p := p) (d1 := d1) (d2 := d2) B.inv
        (B.ends.frame keeps_id (by simp [flat]) rfl rfl) (n := n) hn hf
      exact hs.frame keeps_id (by simp; rfl) rfl rfl
  | moveAnchor k d =>
    obtain ⟨-, ⟨t, m, rfl⟩ | ⟨t, rfl⟩⟩ := moveAnchor_fields e
    · exact B.frame keeps_id (by simp) rfl rfl rfl rfl rfl rfl (le_refl _)
    · exact B.frame (keeps_shiftR_one k d) rfl rfl rfl rfl rfl rfl rfl (le_refl _)
  | release k =>
    rcases release_fields e with ⟨-, rfl, -⟩ | ⟨a, s1, t, n, ha, h1, h0, hn, rfl, -⟩
    · exact B
    · refine ⟨?_, ends_released B.ends ha h1⟩
      have h2 := releaseKind_flat (Wobbly.positionArray 0 s.tile) h1
      have := inv_released (s := flat s) (n := n) B.inv ha h2 h0 hn (.inl rfl)
      refine inv_frame this keeps_id (by simp; rfl) rfl rfl rfl rfl rfl rfl (le_refl _) (positionArray_canon rfl)
  | step t =>
    obtain ⟨pos, vel, more, rfl, -⟩ := step_fields e
    exact B.frame keeps_id (by simp) rfl rfl rfl rfl rfl rfl (le_refl _)
  | moveBy d =>
    simp only [exec, Outcome.ok.injEq, Prod.mk.injEq] at e
    rw [← e.1]
    exact B.frame (keeps_shiftR d) rfl rfl rfl rfl rfl rfl rfl (le_refl _)
  | moveTo p =>
    obtain ⟨n, d, hn, rfl, -⟩ := moveTo_fields e
    exact B.frame (keeps_shiftR d) rfl rfl rfl rfl rfl rfl rfl hn
  | resize w h =>
    obtain ⟨-, rfl | ⟨n, pos, t, f, q, hn, rfl⟩⟩ := resize_fields e
    · exact B
    · exact B.frame (keeps_scaleR f q) rfl rfl rfl rfl rfl (by simp [Function.comp_def]) rfl hn
  | setSettings x =>
    simp only [exec, Outcome.ok.injEq, Prod.mk.injEq] at e
    rw [← e.1]
    exact B.frame keeps_id (by simp) rfl rfl rfl rfl rfl rfl (le_refl _)
  | elsewhere n =>
    simp only [exec, Outcome.ok.injEq, Prod.mk.injEq] at e
    rw [← e.1]
    exact B.frame keeps_id (by simp) rfl rfl rfl rfl rfl rfl (Nat.le_add_right _ _)

/-- What holds of a new model and is kept by every call holds after every history. -/
theorem run_keeps {P : State → Prop} (hP : ∀ s op s' y, P s → exec r s op = .ok (s', y) → P s') {s' : State} {ops : List Op}
    {ys : List Res} (h : P s) (e : run r s ops = .ok (s', ys)) : P s' := by
  induction ops generalizing s ys with
  | nil =>
    simp only [run, Outcome.ok.injEq, Prod.mk.injEq] at e
    obtain ⟨rfl, -⟩ := e
    exact h
  | cons op ops ih =>
    simp only [run, bind_eq_ok, Outcome.ok.injEq, Prod.mk.injEq] at e
    obtain ⟨a, ea, c, ec, rfl, -⟩ := e
    exact ih (hP _ _ _ _ h ea) ec

theorem run_book {p : Pt} {w h : ℝ} {x : Settings} {b : ℕ} {ops : List Op} {rs : List Res}
    (e : run r (Rounded.new r p w h x b) ops = .ok (s, rs)) : Book b s :=
  run_keeps (fun _ _ _ _ => exec_book) (book_new p w h x b) e

theorem run_owned {s' : State} {ops : List Op} {ys : List Res} (h : run r s ops = .ok (s', ys)) :
    s'.live.map Live.hid = owned (s.live.map Live.hid) ops ys := by
  induction ops generalizing s ys with
  | nil =>
    simp only [run, Outcome.ok.injEq, Prod.mk.injEq] at h
    obtain ⟨rfl, rfl⟩ := h
    simp [owned]
  | cons op ops ih =>
    simp only [run, bind_eq_ok, Outcome.ok.injEq, Prod.mk.injEq] at h
    obtain ⟨⟨s1, y1⟩, h1, ⟨s2, y2⟩, h2, rfl, rfl⟩ := h
    rw [ih h2]
    cases op with
    | grab p =>
      obtain ⟨i, t, n, -, hn, rfl, rfl⟩ := grab_fields h1
      simp [owned, grabbed, State.lock]
    | insert p =>
      obtain ⟨t, n, found, d1, d2, hn, hf, rfl, rfl⟩ := insert_fields h1
      simp [owned, State.install, preInsert]
    | moveAnchor k d =>
      obtain ⟨rfl, ⟨t, m, rfl⟩ | ⟨t, rfl⟩⟩ := moveAnchor_fields h1
      · simp [owned]
      · simp only [owned]
        rw [(keeps_shiftR_one k d).hids_map]
    | release k =>
      rcases release_fields h1 with ⟨hf, rfl, rfl⟩ | ⟨a, s1, t, n, ha, hrk, h0, hn, rfl, rfl⟩
      · simp only [owned]
        congr 1
        symm
        rw [List.filter_eq_self]
        intro x hx
        rw [List.find?_eq_none] at hf
        obtain ⟨a, ha, rfl⟩ := List.mem_map.1 hx
        simpa using hf a ha
      · simp only [owned]
        congr 1
        rw [releaseKind_live hrk, List.filter_map]
        congr 1
    | step t =>
      obtain ⟨pos, vel, more, rfl, rfl⟩ := step_fields h1
      simp [owned]
    | moveBy d =>
      simp only [exec, Outcome.ok.injEq, Prod.mk.injEq] at h1
      obtain ⟨rfl, rfl⟩ := h1
      simp only [owned, moveBy]
      rw [(keeps_shiftR d).hids_map]
    | moveTo p =>
      obtain ⟨n, d, hn, rfl, rfl⟩ := moveTo_fields h1
      simp only [owned, moveBy]
      rw [(keeps_shiftR d).hids_map]
    | resize w h' =>
      obtain ⟨rfl, rfl | ⟨n, pos, t, f, q, hn, rfl⟩⟩ := resize_fields h1
      · simp [owned]
      · simp only [owned]
        rw [(keeps_scaleR f q).hids_map]
    | setSettings x =>
      simp only [exec, Outcome.ok.injEq, Prod.mk.injEq] at h1
      obtain ⟨rfl, rfl⟩ := h1
      simp [owned]
    | elsewhere n =>
      simp only [exec, Outcome.ok.injEq, Prod.mk.injEq] at h1
      obtain ⟨rfl, rfl⟩ := h1
      simp [owned]

end Verif.Wobbly.Rounded
