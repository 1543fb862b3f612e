import Verif.Spec.GWobbly
import Verif.Lemmas.WobblyOps

/-! The GObject layer over the wobbly model follows its specification step by step. -/

namespace Verif.GWobbly

open Wobbly Spec Outcome

noncomputable section

open Classical

theorem matches_bind {α β γ δ : Type} {R : α → β → Prop} {S : γ → δ → Prop} {x : Outcome α} {y : Outcome β}
    {f : α → Outcome γ} {g : β → Outcome δ} (h : Matches R x y) (hf : ∀ a b, x = .ok a → y = .ok b → R a b →
      Matches S (f a) (g b)) : Matches S (x.bind f) (y.bind g) := by
  cases x <;> cases y <;> simp only [Matches] at h <;> simp only [bind_ok, bind_diverges, bind_throws, bind_ub,
    bind_nonfinite]
  · exact hf _ _ rfl rfl h
  all_goals trivial

theorem matches_refl {α : Type} {R : α → α → Prop} {x : Outcome α} (h : ∀ a, x = .ok a → R a a) : Matches R x x := by
  cases x <;> simp only [Matches]
  exact h _ rfl

theorem matches_map {α γ δ : Type} {S : γ → δ → Prop} {x : Outcome α} {f : α → Outcome γ} {g : α → Outcome δ}
    (h : ∀ a, x = .ok a → Matches S (f a) (g a)) : Matches S (x.bind f) (x.bind g) := by
  cases x <;> simp only [bind_ok, bind_diverges, bind_throws, bind_ub, bind_nonfinite]
  · exact h _ rfl
  all_goals trivial

theorem bind_assoc {α β γ : Type} (x : Outcome α) (f : α → Outcome β) (g : β → Outcome γ) :
    (x.bind f).bind g = x.bind fun a => (f a).bind g := by cases x <;> rfl

/-- Settings after a native call. -/
def opSettings (x : Settings) : Op → Settings
  | .setSettings y => y
  | _ => x

/-- Number of anchors after a native call. -/
def opNext (n : ℕ) : Op → ℕ
  | .grab _ | .insert _ => n + 1
  | _ => n

/-- What a native call returns. -/
def opRes (n : ℕ) (r : Res) : Op → Prop
  | .grab _ | .insert _ => r = .handle n
  | .step _ => ∃ b, r = .more b
  | _ => r = .none

/-- The call is for its effect only. -/
def ForEffect : Op → Prop
  | .grab _ | .insert _ | .step _ => False
  | _ => True

/-- What a native call does to the settings and to the numbering of anchors. -/
theorem exec_frame {s s' : State} {op : Op} {r : Res} (e : s.exec op = .ok (s', r)) :
    s'.settings = opSettings s.settings op ∧ s'.nextHid = opNext s.nextHid op ∧ opRes s.nextHid r op := by
  cases op with
  | grab p =>
    obtain ⟨i, t, n, -, -, -, rfl, rfl⟩ := grab_ok e
    exact ⟨rfl, rfl, rfl⟩
  | insert p =>
    obtain ⟨t, n, f, d1, d2, -, -, -, -, -, -, rfl, rfl⟩ := insert_ok e
    exact ⟨rfl, rfl, rfl⟩
  | moveAnchor h d =>
    obtain ⟨rfl, ⟨-, rfl⟩ | ⟨a, -, ⟨i, -, rfl⟩ | ⟨-, rfl⟩⟩⟩ := moveAnchor_ok e <;> exact ⟨rfl, rfl, rfl⟩
  | release h =>
    rcases release_ok e with ⟨-, rfl, rfl⟩ | ⟨a, s1, t, n, -, hk, -, -, -, rfl, rfl⟩
    · exact ⟨rfl, rfl, rfl⟩
    · have : s1.settings = s.settings ∧ s1.nextHid = s.nextHid := by
        cases hka : a.kind with
        | grab i =>
          rw [hka] at hk
          obtain ⟨-, rfl⟩ := unlock_ok hk
          exact ⟨rfl, rfl⟩
        | ins p st f g =>
          rw [hka] at hk
          simp only [State.releaseKind, Outcome.ok.injEq] at hk
          subst hk
          unfold State.replace State.removeTracked
          split_ifs <;> exact ⟨rfl, rfl⟩
      exact ⟨this.1, this.2, rfl⟩
  | step t =>
    obtain ⟨pos, vel, more, rfl, rfl⟩ := step_ok e
    exact ⟨rfl, rfl, _, rfl⟩
  | moveBy d =>
    simp only [State.exec, Outcome.ok.injEq, Prod.mk.injEq] at e
    obtain ⟨rfl, rfl⟩ := e
    exact ⟨rfl, rfl, rfl⟩
  | moveTo p =>
    obtain ⟨n, d, -, rfl, rfl⟩ := moveTo_ok e
    exact ⟨rfl, rfl, rfl⟩
  | resize w h =>
    obtain ⟨-, -, -, -, rfl, ⟨-, -, rfl⟩ | ⟨n, q, -, -, -, rfl⟩⟩ := resize_ok e <;> exact ⟨rfl, rfl, rfl⟩
  | setSettings x =>
    simp only [State.exec, Outcome.ok.injEq, Prod.mk.injEq] at e
    obtain ⟨rfl, rfl⟩ := e
    exact ⟨rfl, rfl, rfl⟩
  | elsewhere n =>
    simp only [State.exec, Outcome.ok.injEq, Prod.mk.injEq] at e
    obtain ⟨rfl, rfl⟩ := e
    exact ⟨rfl, rfl, rfl⟩

/-- The GObject layer is where the program's bookkeeping says. -/
structure Rel (t : Track) (g : GState) (s : State) : Prop where
  model : g.model = if t.alive then some s else none
  len : g.anchors.length = t.made
  next : s.nextHid = t.made
  sett : s.settings = t.settings
  slot : ∀ a, a < t.made → g.anchors[a]? = some (if a ∈ t.gone then .gone else if a ∈ t.released then .obj none
    else .obj (some a))

/-- How the results of a GObject call and of the native calls it stands for are related. -/
def StepRel (t : Track) (op : GOp) (g : GState) (r : GState × GRes) (r' : State × List Res) : Prop :=
  Rel (t.next op) r.1 r'.1 ∧ r.1.log = g.log ++ t.native op ∧ gStepAnswers [r.2] = stepAnswers r'.2 ∧
  (gAnchors [r.2] = if (t.next op).made = t.made then [] else [t.made])

theorem run_single (s : State) (op : Op) : s.run [op] = (s.exec op).bind fun r => .ok (r.1, [r.2]) := by
  simp only [State.run]
  cases s.exec op <;> simp

/-- A call for its effect only. -/
theorem run1_sim {t : Track} {g : GState} {s : State} (h : Rel t g s) (ha : t.alive = true) (gop : GOp) (op : Op)
    (p z : Pt) (hn : t.native gop = [op]) (hop : ForEffect op)
    (ht : t.next gop = { t with settings := opSettings t.settings op }) :
    Matches (StepRel t gop g) (({ g with position := p, size := z } : GState).run1 op) (s.run (t.native gop)) := by
  rw [hn, run_single]
  have hm : g.model = some s := by rw [h.model, if_pos ha]
  unfold GState.run1 GState.call
  simp only [hm]
  rw [bind_assoc]
  refine matches_map fun r e => ?_
  obtain ⟨s', r⟩ := r
  obtain ⟨h1, h2, h3⟩ := exec_frame e
  have hnx : s'.nextHid = s.nextHid := by
    rw [h2]; cases op <;> first | rfl | exact hop.elim
  have hr : stepAnswers [r] = [] := by
    cases op <;> first | exact hop.elim | (simp only [opRes] at h3; rw [h3]; rfl)
  refine ⟨⟨?_, ?_, ?_, ?_, ?_⟩, ?_, ?_, ?_⟩
  · rw [ht]; simp [ha]
  · rw [ht]; exact h.len
  · rw [ht]; exact hnx.trans h.next
  · rw [ht]; exact h1.trans (by rw [h.sett])
  · rw [ht]; exact h.slot
  · rw [hn]
  · exact hr.symm
  · rw [ht, if_pos rfl]; rfl

theorem wrap_sim {t : Track} {g : GState} {s : State} (h : Rel t g s) (ha : t.alive = true) (gop : GOp) (op : Op)
    (hn : t.native gop = [op]) (hop : (∃ p, op = .grab p) ∨ ∃ p, op = .insert p)
    (ht : t.next gop = { t with made := t.made + 1 }) (hg : ∀ a ∈ t.gone, a < t.made) (hr : ∀ a ∈ t.released, a < t.made) :
    Matches (StepRel t gop g) (g.wrap op) (s.run (t.native gop)) := by
  rw [hn, run_single]
  have hm : g.model = some s := by rw [h.model, if_pos ha]
  unfold GState.wrap GState.call
  simp only [hm]
  rw [bind_assoc]
  refine matches_map fun r e => ?_
  obtain ⟨s', r⟩ := r
  obtain ⟨h1, h2, h3⟩ := exec_frame e
  have hs : s'.settings = s.settings ∧ s'.nextHid = s.nextHid + 1 ∧ r = .handle s.nextHid := by
    rcases hop with ⟨p, rfl⟩ | ⟨p, rfl⟩ <;> exact ⟨h1, h2, h3⟩
  clear h1 h2 h3
  obtain ⟨h1, h2, rfl⟩ := hs
  refine ⟨⟨?_, ?_, ?_, ?_, ?_⟩, ?_, ?_, ?_⟩
  · rw [ht]; simp [ha]
  · rw [ht]; simp [h.len]
  · rw [ht]; simp only [h2, h.next]
  · rw [ht]; exact h1.trans h.sett
  · rw [ht]
    intro a hlt
    simp only at hlt ⊢
    by_cases hlast : a < t.made
    · rw [List.getElem?_append_left (by rw [h.len]; exact hlast)]
      exact h.slot a hlast
    · have : a = t.made := by omega
      subst this
      rw [List.getElem?_append_right (by rw [h.len]), h.len]
      have n1 : t.made ∉ t.gone := fun hh => absurd (hg _ hh) (lt_irrefl _)
      have n2 : t.made ∉ t.released := fun hh => absurd (hr _ hh) (lt_irrefl _)
      simp [n1, n2, h.next]
  · rw [hn]
  · rfl
  · rw [ht]; simp [gAnchors, h.len]

/-- Anchors released or given up were made before. -/
structure Track.Ok (t : Track) : Prop where
  gone : ∀ a ∈ t.gone, a < t.made
  released : ∀ a ∈ t.released, a < t.made
  sub : ∀ a ∈ t.gone, a ∈ t.released

theorem ok_next {t : Track} (h : Track.Ok t) {op : GOp} (ha : t.allows op) : Track.Ok (t.next op) := by
  cases op with
  | grab p => exact ⟨fun a ha => (h.gone a ha).trans (Nat.lt_succ_self _),
      fun a ha => (h.released a ha).trans (Nat.lt_succ_self _), h.sub⟩
  | insert p => exact ⟨fun a ha => (h.gone a ha).trans (Nat.lt_succ_self _),
      fun a ha => (h.released a ha).trans (Nat.lt_succ_self _), h.sub⟩
  | anchorRelease a =>
    refine ⟨h.gone, ?_, fun b hb => List.mem_cons_of_mem _ (h.sub b hb)⟩
    intro b hb
    rcases List.mem_cons.1 hb with rfl | hb
    · exact ha.1
    · exact h.released b hb
  | anchorUnref a =>
    refine ⟨?_, ?_, ?_⟩
    · intro b hb
      rcases List.mem_cons.1 hb with rfl | hb
      · exact ha.1
      · exact h.gone b hb
    · intro b hb
      rcases List.mem_cons.1 hb with rfl | hb
      · exact ha.1
      · exact h.released b hb
    · intro b hb
      rcases List.mem_cons.1 hb with rfl | hb
      · exact List.mem_cons_self
      · exact List.mem_cons_of_mem _ (h.sub b hb)
  | propSpringK v => simp only [Track.next]; split_ifs <;> exact ⟨h.gone, h.released, h.sub⟩
  | propFriction v => simp only [Track.next]; split_ifs <;> exact ⟨h.gone, h.released, h.sub⟩
  | propMovementRange v => simp only [Track.next]; split_ifs <;> exact ⟨h.gone, h.released, h.sub⟩
  | _ => exact ⟨h.gone, h.released, h.sub⟩

theorem setSettings_eq {g : GState} {s : State} (hm : g.model = some s) (f : Settings → Settings) :
    g.setSettings f = g.run1 (.setSettings (f s.settings)) := by
  unfold GState.setSettings
  simp only [hm]

/-- An allowed call that does nothing. -/
theorem inert_sim {t : Track} {g : GState} {s : State} (gop : GOp) (hn : t.native gop = [])
    (ht : Rel (t.next gop) g s) (hm : (t.next gop).made = t.made) :
    Matches (StepRel t gop g) (.ok (g, .none)) (s.run (t.native gop)) := by
  rw [hn]
  refine ⟨ht, ?_, rfl, ?_⟩
  · rw [hn]; simp
  · rw [if_pos hm]; rfl

/-- Release of an anchor: the GObject function, then whatever `finalize` adds. -/
theorem release_sim {t : Track} {g : GState} {s : State} (h : Rel t g s) {a : ℕ} (hlt : a < t.made)
    (hng : a ∉ t.gone) (hal : t.alive = true ∨ a ∈ t.released) (gop : GOp) (last : GAnchor)
    (hn : t.native gop = if a ∈ t.released then [] else [.release a])
    (hl : (last = .gone ∧ t.next gop = { t with released := a :: t.released, gone := a :: t.gone }) ∨
      (last = .obj none ∧ t.next gop = { t with released := a :: t.released })) :
    Matches (StepRel t gop g) ((g.anchorRelease a).bind fun g' => .ok ({ g' with anchors := g'.anchors.set a last }, .none))
      (s.run (t.native gop)) := by
  have hs := h.slot a hlt
  rw [if_neg hng] at hs
  have hmade : (t.next gop).made = t.made := by rcases hl with ⟨-, h⟩ | ⟨-, h⟩ <;> rw [h]
  have hslot : ∀ g' : GState, g'.anchors.length = t.made → (∀ b, b < t.made → b ≠ a → g'.anchors[b]? = g.anchors[b]?) →
      ∀ b, b < (t.next gop).made → (g'.anchors.set a last)[b]? = some (if b ∈ (t.next gop).gone then .gone else
        if b ∈ (t.next gop).released then .obj none else .obj (some b)) := by
    intro g' hlen hrest b hb
    rw [hmade] at hb
    rcases hl with ⟨rfl, hnx⟩ | ⟨rfl, hnx⟩
    · rw [hnx]
      by_cases hba : b = a
      · subst hba
        rw [List.getElem?_set_self (by omega)]
        simp
      · rw [List.getElem?_set_ne (fun hh => hba hh.symm), hrest b hb hba, h.slot b hb]
        simp [hba]
    · rw [hnx]
      by_cases hba : b = a
      · subst hba
        rw [List.getElem?_set_self (by omega)]
        simp [hng]
      · rw [List.getElem?_set_ne (fun hh => hba hh.symm), hrest b hb hba, h.slot b hb]
        simp [hba]
  have hrest : (t.next gop).alive = t.alive ∧ (t.next gop).settings = t.settings := by
    rcases hl with ⟨-, h⟩ | ⟨-, h⟩ <;> rw [h] <;> exact ⟨rfl, rfl⟩
  unfold GState.anchorRelease
  by_cases hr : a ∈ t.released
  · rw [if_pos hr] at hs hn
    rw [hs, hn]
    refine ⟨⟨?_, ?_, ?_, ?_, ?_⟩, ?_, rfl, ?_⟩
    · rw [hrest.1]; exact h.model
    · simp only [List.length_set]; rw [hmade]; exact h.len
    · rw [hmade]; exact h.next
    · rw [hrest.2]; exact h.sett
    · exact hslot g h.len (fun _ _ _ => rfl)
    · simp [hn]
    · rw [if_pos hmade]; rfl
  · rw [if_neg hr] at hs hn
    have ha : t.alive = true := hal.resolve_right hr
    have hm : g.model = some s := by rw [h.model, if_pos ha]
    rw [hs, hn, run_single]
    unfold GState.call
    simp only [hm]
    rw [bind_assoc, bind_assoc]
    refine matches_map fun r e => ?_
    obtain ⟨s', r⟩ := r
    obtain ⟨h1, h2, h3⟩ := exec_frame e
    have h3 : r = .none := h3
    subst h3
    refine ⟨⟨?_, ?_, ?_, ?_, ?_⟩, ?_, rfl, ?_⟩
    · simp only; rw [hrest.1, if_pos ha]
    · simp only [List.length_set]; rw [hmade]; exact h.len
    · rw [hmade]; exact h2.trans h.next
    · rw [hrest.2]; exact h1.trans h.sett
    · have hq := hslot { g with anchors := g.anchors.set a (.obj none) } (by simp [h.len])
        (fun b _ hba => List.getElem?_set_ne fun hh => hba hh.symm)
      exact hq
    · simp [hn]
    · rw [if_pos hmade]; rfl

/-- Each allowed call follows the specification. -/
theorem exec_sim {t : Track} {g : GState} {s : State} (h : Rel t g s) (hok : Track.Ok t) {op : GOp} (ha : t.allows op) :
    Matches (StepRel t op g) (g.exec op) (s.run (t.native op)) := by
  have model : ∀ {b : Bool}, t.alive = b → b = true → g.model = some s := by
    intro b h1 h2; rw [h.model, if_pos (by rw [h1]; exact h2)]
  cases op with
  | grab p => exact wrap_sim h ha _ _ rfl (Or.inl ⟨p, rfl⟩) rfl hok.gone hok.released
  | insert p => exact wrap_sim h ha _ _ rfl (Or.inr ⟨p, rfl⟩) rfl hok.gone hok.released
  | step n =>
    have hm := model rfl ha
    show Matches _ ((g.call (.step n)).bind _) (s.run [.step n])
    rw [run_single]
    unfold GState.call
    simp only [hm]
    rw [bind_assoc]
    refine matches_map fun r e => ?_
    obtain ⟨s', r⟩ := r
    obtain ⟨h1, h2, b, rfl⟩ := exec_frame e
    refine ⟨⟨?_, h.len, ?_, ?_, h.slot⟩, rfl, rfl, (if_pos rfl).symm⟩
    · exact (if_pos ha).symm
    · exact h2.trans h.next
    · exact h1.trans h.sett
  | moveTo p => exact run1_sim h ha _ _ p g.size rfl trivial rfl
  | moveBy d => exact run1_sim h ha _ _ (g.position + d) g.size rfl trivial rfl
  | resize z => exact run1_sim h ha _ _ g.position z rfl trivial rfl
  | setSpringK v =>
    simp only [GState.exec]
    rw [setSettings_eq (model rfl ha), h.sett]
    exact run1_sim h ha _ _ g.position g.size rfl trivial rfl
  | setFriction v =>
    simp only [GState.exec]
    rw [setSettings_eq (model rfl ha), h.sett]
    exact run1_sim h ha _ _ g.position g.size rfl trivial rfl
  | setMaximumRange v =>
    simp only [GState.exec]
    rw [setSettings_eq (model rfl ha), h.sett]
    exact run1_sim h ha _ _ g.position g.size rfl trivial rfl
  | propSpringK v =>
    have hm := model rfl ha
    show Matches _ (if g.model.isNone then .ub else if factorOk v then g.setSettings _ else .ok (g, .none)) _
    rw [if_neg (by rw [hm]; simp)]
    by_cases hv : factorOk v
    · rw [if_pos hv, setSettings_eq hm, h.sett]
      have hv' : 1 / 10 ≤ v ∧ v ≤ 10 := hv
      exact run1_sim h ha _ _ g.position g.size (if_pos hv') trivial (if_pos hv')
    · rw [if_neg hv]
      have hv' : ¬ (1 / 10 ≤ v ∧ v ≤ 10) := hv
      have hx : t.next (.propSpringK v) = t := if_neg hv'
      exact inert_sim _ (if_neg hv') (by rw [hx]; exact h) (by rw [hx])
  | propFriction v =>
    have hm := model rfl ha
    show Matches _ (if g.model.isNone then .ub else if factorOk v then g.setSettings _ else .ok (g, .none)) _
    rw [if_neg (by rw [hm]; simp)]
    by_cases hv : factorOk v
    · rw [if_pos hv, setSettings_eq hm, h.sett]
      have hv' : 1 / 10 ≤ v ∧ v ≤ 10 := hv
      exact run1_sim h ha _ _ g.position g.size (if_pos hv') trivial (if_pos hv')
    · rw [if_neg hv]
      have hv' : ¬ (1 / 10 ≤ v ∧ v ≤ 10) := hv
      have hx : t.next (.propFriction v) = t := if_neg hv'
      exact inert_sim _ (if_neg hv') (by rw [hx]; exact h) (by rw [hx])
  | propMovementRange v =>
    have hm := model rfl ha
    show Matches _ (if g.model.isNone then .ub else if rangeOk v then g.setSettings _ else .ok (g, .none)) _
    rw [if_neg (by rw [hm]; simp)]
    by_cases hv : rangeOk v
    · rw [if_pos hv, setSettings_eq hm, h.sett]
      have hv' : 10 ≤ v ∧ v ≤ 1000 := hv
      exact run1_sim h ha _ _ g.position g.size (if_pos hv') trivial (if_pos hv')
    · rw [if_neg hv]
      have hv' : ¬ (10 ≤ v ∧ v ≤ 1000) := hv
      have hx : t.next (.propMovementRange v) = t := if_neg hv'
      exact inert_sim _ (if_neg hv') (by rw [hx]; exact h) (by rw [hx])
  | propPosition v =>
    cases v with
    | none => exact ha.elim
    | some p => exact run1_sim h ha _ _ p g.size rfl trivial rfl
  | propSize v =>
    cases v with
    | none => exact ha.elim
    | some z => exact run1_sim h ha _ _ g.position z rfl trivial rfl
  | unrefModel =>
    have hm := model rfl ha
    show Matches _ (if g.model.isNone then .ub else _) _
    rw [if_neg (by rw [hm]; simp)]
    refine ⟨⟨rfl, h.len, h.next, h.sett, h.slot⟩, ?_, rfl, (if_pos rfl).symm⟩
    simp [Track.native]
  | anchorMoveBy a d =>
    obtain ⟨hlt, hng, hal⟩ := ha
    have hs := h.slot a hlt
    rw [if_neg hng] at hs
    show Matches _ (g.anchorMoveBy a d) _
    unfold GState.anchorMoveBy
    by_cases hr : a ∈ t.released
    · rw [if_pos hr] at hs
      rw [hs]
      exact inert_sim _ (if_pos hr) h rfl
    · rw [if_neg hr] at hs
      rw [hs]
      exact run1_sim h (by simpa [hr] using hal) _ _ g.position g.size (if_neg hr) trivial rfl
  | anchorRelease a =>
    obtain ⟨hlt, hng, hal⟩ := ha
    have := release_sim h hlt hng (by simpa using hal) (.anchorRelease a) (.obj none) rfl (Or.inr ⟨rfl, rfl⟩)
    simp only [GState.exec]
    have he : ((g.anchorRelease a).bind fun g' => Outcome.ok (g', GRes.none)) = ((g.anchorRelease a).bind fun g' =>
        .ok (({ g' with anchors := g'.anchors.set a (.obj none) } : GState), GRes.none)) := by
      unfold GState.anchorRelease
      have hs := h.slot a hlt
      rw [if_neg hng] at hs
      rw [hs]
      by_cases hr : a ∈ t.released
      · rw [if_pos hr]
        simp only [bind_ok]
        rw [show g.anchors.set a (.obj none) = g.anchors from ?_]
        rw [if_pos hr] at hs
        obtain ⟨hlt', hge⟩ := List.getElem?_eq_some_iff.1 hs
        rw [← hge, List.set_getElem_self]
      · rw [if_neg hr]
        simp only
        rw [bind_assoc, bind_assoc]
        congr 1
        funext r
        simp
    rw [he]
    exact this
  | anchorUnref a =>
    obtain ⟨hlt, hng, hal⟩ := ha
    exact release_sim h hlt hng (by simpa using hal) (.anchorUnref a) .gone rfl (Or.inl ⟨rfl, rfl⟩)
  | elsewhere n => exact run1_sim h ha _ _ g.position g.size rfl trivial rfl

/-- The result of a run and what it stands for. -/
def RunRel (t : Track) (ops : List GOp) (g : GState) (r : GState × List GRes) (r' : State × List Res) : Prop :=
  Rel (t.after ops) r.1 r'.1 ∧ r.1.log = g.log ++ nativeCalls t ops ∧ gStepAnswers r.2 = stepAnswers r'.2 ∧
  gAnchors r.2 = (List.range ((t.after ops).made - t.made)).map (· + t.made)

theorem made_next (t : Track) (op : GOp) : (t.next op).made = t.made ∨ (t.next op).made = t.made + 1 := by
  cases op <;> first | exact Or.inl rfl | exact Or.inr rfl | (simp only [Track.next]; split_ifs <;> exact Or.inl rfl)

theorem made_after (t : Track) (ops : List GOp) : t.made ≤ (t.after ops).made := by
  induction ops generalizing t with
  | nil => exact le_refl _
  | cons op ops ih =>
    have := ih (t.next op)
    show t.made ≤ ((t.next op).after ops).made
    rcases made_next t op with h | h <;> omega

theorem run_append' (s : State) (a b : List Op) :
    s.run (a ++ b) = (s.run a).bind fun r => (r.1.run b).bind fun r' => .ok (r'.1, r.2 ++ r'.2) := by
  induction a generalizing s with
  | nil =>
    simp only [List.nil_append, State.run, bind_ok]
    cases s.run b <;> simp
  | cons x a ih =>
    simp only [List.cons_append, State.run]
    cases s.exec x with
    | ok r =>
      simp only [bind_ok, ih]
      cases r.1.run a with
      | ok r1 =>
        simp only [bind_ok]
        cases r1.1.run b <;> simp
      | _ => simp
    | _ => simp

/-- A program that uses only what it owns gets from the GObject layer what the native model gives. -/
theorem run_sim {t : Track} {g : GState} {s : State} (h : Rel t g s) (hok : Track.Ok t) {ops : List GOp}
    (hw : WellUsed t ops) : Matches (RunRel t ops g) (g.run ops) (s.run (nativeCalls t ops)) := by
  induction ops generalizing t g s with
  | nil => exact ⟨h, by simp [nativeCalls], rfl, by simp [Track.after, gAnchors]⟩
  | cons op ops ih =>
    obtain ⟨ha, hw⟩ := hw
    show Matches _ ((g.exec op).bind fun r => (r.1.run ops).bind fun r' => .ok (r'.1, r.2 :: r'.2))
      (s.run (t.native op ++ nativeCalls (t.next op) ops))
    rw [run_append']
    refine matches_bind (exec_sim h hok ha) fun r r' _ _ hr => ?_
    obtain ⟨h1, h2, h3, h4⟩ := hr
    refine matches_bind (ih h1 (ok_next hok ha) hw) fun u u' _ _ hu => ?_
    obtain ⟨u1, u2, u3, u4⟩ := hu
    refine ⟨u1, ?_, ?_, ?_⟩
    · rw [u2, h2, List.append_assoc]; rfl
    · show gStepAnswers ([r.2] ++ u.2) = stepAnswers (r'.2 ++ u'.2)
      have e1 : gStepAnswers ([r.2] ++ u.2) = gStepAnswers [r.2] ++ gStepAnswers u.2 := List.filterMap_append
      have e2 : stepAnswers (r'.2 ++ u'.2) = stepAnswers r'.2 ++ stepAnswers u'.2 := List.filterMap_append
      rw [e1, e2, h3, u3]
    · show gAnchors ([r.2] ++ u.2) = (List.range (((t.next op).after ops).made - t.made)).map (· + t.made)
      have e1 : gAnchors ([r.2] ++ u.2) = gAnchors [r.2] ++ gAnchors u.2 := List.filterMap_append
      have hle := made_after (t.next op) ops
      rw [e1, h4, u4]
      rcases made_next t op with hm | hm
      · rw [if_pos hm, hm]; rfl
      · rw [if_neg (by omega), hm]
        rw [hm] at hle
        obtain ⟨k, hk⟩ := Nat.exists_eq_add_of_le hle
        rw [hk, show t.made + 1 + k - t.made = k + 1 by omega, Nat.add_sub_cancel_left, List.range_succ_eq_map]
        simp only [List.map_cons, List.map_map, zero_add, List.singleton_append, List.cons.injEq, true_and]
        congr 1
        funext x
        simp only [Function.comp]
        omega

/-- A call that is not allowed does not return. -/
theorem exec_misuse {t : Track} {g : GState} {s : State} (h : Rel t g s) {op : GOp} (ha : ¬ t.allows op) :
    g.exec op = .ub := by
  have dead : t.alive = false → g.model = none := fun hh => by rw [h.model, hh]; simp
  have call : ∀ (g' : GState) (o : Op), g'.model = none → g'.call o = .ub := by
    intro g' o hm; unfold GState.call; rw [hm]
  have run1 : ∀ (g' : GState) (o : Op), g'.model = none → g'.run1 o = .ub := by
    intro g' o hm; unfold GState.run1; rw [call _ _ hm]; rfl
  have slot : ∀ a, ¬ (a < t.made ∧ a ∉ t.gone ∧ (t.alive ∨ a ∈ t.released)) →
      g.anchors[a]? = none ∨ g.anchors[a]? = some .gone ∨
      (g.model = none ∧ g.anchors[a]? = some (.obj (some a))) := by
    intro a hn
    by_cases hlt : a < t.made
    · have := h.slot a hlt
      by_cases hg : a ∈ t.gone
      · rw [if_pos hg] at this
        exact Or.inr (Or.inl this)
      · rw [if_neg hg] at this
        simp only [hlt, hg, not_false_eq_true, true_and, not_or, Bool.not_eq_true] at hn
        rw [if_neg hn.2] at this
        exact Or.inr (Or.inr ⟨dead hn.1, this⟩)
    · exact Or.inl (by rw [List.getElem?_eq_none]; rw [h.len]; omega)
  cases op with
  | anchorMoveBy a d =>
    simp only [GState.exec, GState.anchorMoveBy]
    rcases slot a ha with h1 | h1 | ⟨hm, h1⟩ <;> rw [h1]
    exact run1 _ _ hm
  | anchorRelease a =>
    simp only [GState.exec, GState.anchorRelease]
    rcases slot a ha with h1 | h1 | ⟨hm, h1⟩ <;> rw [h1] <;> try rfl
    simp only [call _ _ hm]
    rfl
  | anchorUnref a =>
    simp only [GState.exec, GState.anchorRelease]
    rcases slot a ha with h1 | h1 | ⟨hm, h1⟩ <;> rw [h1] <;> try rfl
    simp only [call _ _ hm]
    rfl
  | propPosition v =>
    cases v with
    | none => rfl
    | some p => exact run1 _ _ (dead (by simpa [Track.allows] using ha))
  | propSize v =>
    cases v with
    | none => rfl
    | some p => exact run1 _ _ (dead (by simpa [Track.allows] using ha))
  | unrefModel =>
    have hm := dead (by simpa [Track.allows] using ha)
    simp only [GState.exec, hm]
    rfl
  | grab p => simp only [GState.exec, GState.wrap, call _ _ (dead (by simpa [Track.allows] using ha))]; rfl
  | insert p => simp only [GState.exec, GState.wrap, call _ _ (dead (by simpa [Track.allows] using ha))]; rfl
  | step n => simp only [GState.exec, call _ _ (dead (by simpa [Track.allows] using ha))]; rfl
  | setSpringK v => simp only [GState.exec, GState.setSettings, dead (by simpa [Track.allows] using ha)]
  | setFriction v => simp only [GState.exec, GState.setSettings, dead (by simpa [Track.allows] using ha)]
  | setMaximumRange v => simp only [GState.exec, GState.setSettings, dead (by simpa [Track.allows] using ha)]
  | propSpringK v =>
    have hm := dead (by simpa [Track.allows] using ha)
    simp only [GState.exec, hm]
    rfl
  | propFriction v =>
    have hm := dead (by simpa [Track.allows] using ha)
    simp only [GState.exec, hm]
    rfl
  | propMovementRange v =>
    have hm := dead (by simpa [Track.allows] using ha)
    simp only [GState.exec, hm]
    rfl
  | moveTo p => exact run1 _ _ (dead (by simpa [Track.allows] using ha))
  | moveBy p => exact run1 _ _ (dead (by simpa [Track.allows] using ha))
  | resize p => exact run1 _ _ (dead (by simpa [Track.allows] using ha))
  | elsewhere p => exact run1 _ _ (dead (by simpa [Track.allows] using ha))

theorem matches_ok {α β : Type} {R : α → β → Prop} {a : α} {y : Outcome β} (h : Matches R (.ok a) y) :
    ∃ b, y = .ok b ∧ R a b := by
  cases y <;> simp only [Matches] at h
  exact ⟨_, rfl, h⟩

theorem matches_ok' {α β : Type} {R : α → β → Prop} {x : Outcome α} {b : β} (h : Matches R x (.ok b)) :
    ∃ a, x = .ok a ∧ R a b := by
  cases x <;> simp only [Matches] at h
  exact ⟨_, rfl, h⟩

/-- A run that returns made only allowed calls. -/
theorem wellUsed_of_ok {t : Track} {g : GState} {s : State} (h : Rel t g s) (hok : Track.Ok t) {ops : List GOp}
    {r : GState × List GRes} (e : g.run ops = .ok r) : WellUsed t ops := by
  induction ops generalizing t g s r with
  | nil => trivial
  | cons op ops ih =>
    simp only [GState.run] at e
    rw [bind_eq_ok] at e
    obtain ⟨⟨g1, r1⟩, h1, e⟩ := e
    rw [bind_eq_ok] at e
    obtain ⟨r2, h2, -⟩ := e
    have ha : t.allows op := by
      by_contra ha
      rw [exec_misuse h ha] at h1
      cases h1
    have := exec_sim h hok ha
    rw [h1] at this
    obtain ⟨b, -, hb, -⟩ := matches_ok this
    exact ⟨ha, ih hb (ok_next hok ha) h2⟩

theorem ok_start (x : Settings) : Track.Ok (Track.start x) := ⟨by simp [Track.start], by simp [Track.start], by simp [Track.start]⟩

theorem rel_start (p z : Pt) (x : Settings) (b : ℕ) :
    Rel (Track.start x) ⟨some (State.new p z.x z.y x b), p, z, [], []⟩ (State.new p z.x z.y x b) :=
  ⟨rfl, rfl, rfl, rfl, fun _ ha => absurd ha (Nat.not_lt_zero _)⟩

end

end Verif.GWobbly
