import Verif.Lemmas.GWobbly
import Verif.Lemmas.WobblyResize
import Verif.Lemmas.WobblyDemo

/-! Histories of calls on the GObject layer over the wobbly model. -/

namespace Verif.GWobbly

open Wobbly Spec Outcome

noncomputable section

open Classical

theorem new_ok (p z : Pt) (k f r : ℝ) (b : ℕ) :
    modelNew p z k f r b = .ok ⟨some (State.new p z.x z.y (builtSettings k f r) b), p, z, [], []⟩ := by
  unfold modelNew gnew builtSettings factorOk rangeOk
  simp only
  congr!

theorem released_after {t : Track} {ops : List GOp} {a : ℕ} :
    a ∈ (t.after ops).released ↔ a ∈ t.released ∨ .anchorRelease a ∈ ops ∨ .anchorUnref a ∈ ops := by
  induction ops generalizing t with
  | nil => simp [Track.after]
  | cons op ops ih =>
    show a ∈ ((t.next op).after ops).released ↔ _
    rw [ih]
    cases op
    case anchorRelease b =>
      simp only [Track.next, List.mem_cons, GOp.anchorRelease.injEq, reduceCtorEq, false_or]
      tauto
    case anchorUnref b =>
      simp only [Track.next, List.mem_cons, GOp.anchorUnref.injEq, reduceCtorEq, false_or]
      tauto
    all_goals
      simp only [Track.next, List.mem_cons, reduceCtorEq, false_or]
      try (split_ifs <;> rfl)

theorem gone_after {t : Track} {ops : List GOp} {a : ℕ} :
    a ∈ (t.after ops).gone ↔ a ∈ t.gone ∨ .anchorUnref a ∈ ops := by
  induction ops generalizing t with
  | nil => simp [Track.after]
  | cons op ops ih =>
    show a ∈ ((t.next op).after ops).gone ↔ _
    rw [ih]
    cases op
    case anchorUnref b =>
      simp only [Track.next, List.mem_cons, GOp.anchorUnref.injEq]
      tauto
    all_goals
      simp only [Track.next, List.mem_cons, reduceCtorEq, false_or]
      try (split_ifs <;> rfl)

theorem alive_after {t : Track} {ops : List GOp} :
    (t.after ops).alive = true ↔ t.alive = true ∧ .unrefModel ∉ ops := by
  induction ops generalizing t with
  | nil => simp [Track.after]
  | cons op ops ih =>
    show ((t.next op).after ops).alive = true ↔ _
    rw [ih]
    cases op
    case unrefModel => simp [Track.next]
    all_goals
      simp only [Track.next, List.mem_cons, reduceCtorEq, false_or]
      try (split_ifs <;> rfl)

/-- Nothing is done with an anchor released before. -/
theorem released_silent {t : Track} {ops : List GOp} {a : ℕ} (h : a ∈ t.released) :
    ∀ o ∈ nativeCalls t ops, ¬ IsOnAnchor a o := by
  induction ops generalizing t with
  | nil => simp [nativeCalls]
  | cons op ops ih =>
    intro o ho
    simp only [nativeCalls, List.mem_append] at ho
    rcases ho with ho | ho
    · cases op
      case propPosition v => cases v <;> simp only [Track.native, List.not_mem_nil, List.mem_singleton] at ho; subst ho; exact id
      case propSize v => cases v <;> simp only [Track.native, List.not_mem_nil, List.mem_singleton] at ho; subst ho; exact id
      case anchorMoveBy b d =>
        simp only [Track.native] at ho
        split_ifs at ho with hb
        · cases ho
        · rw [List.mem_singleton] at ho
          subst ho
          intro (e : b = a)
          exact hb (e ▸ h)
      case anchorRelease b =>
        simp only [Track.native] at ho
        split_ifs at ho with hb
        · cases ho
        · rw [List.mem_singleton] at ho
          subst ho
          intro (e : b = a)
          exact hb (e ▸ h)
      case anchorUnref b =>
        simp only [Track.native] at ho
        split_ifs at ho with hb
        · cases ho
        · rw [List.mem_singleton] at ho
          subst ho
          intro (e : b = a)
          exact hb (e ▸ h)
      all_goals
        simp only [Track.native] at ho
        try split_ifs at ho
        all_goals first
          | (simp only [List.not_mem_nil] at ho)
          | (rw [List.mem_singleton] at ho; subst ho; exact id)
    · refine ih ?_ o ho
      have := released_after (t := t) (ops := [op]) (a := a)
      exact this.2 (Or.inl h)

theorem release_imp {a : ℕ} {o : Op} (h : IsRelease a o) : IsOnAnchor a o := by
  cases o <;> first | exact h | exact h.elim

/-- What a call does with an anchor not released before. -/
theorem native_release {t : Track} {op : GOp} {a : ℕ} (h : a ∉ t.released) :
    (t.native op).countP (IsRelease a) = (if op = .anchorRelease a ∨ op = .anchorUnref a then 1 else 0) ∧
    (t.native op).Pairwise fun o o' => IsRelease a o → ¬ IsOnAnchor a o' := by
  cases op
  case propPosition v => cases v <;> simp [Track.native, IsRelease] <;> exact @decide_eq_false _ (_) id
  case propSize v => cases v <;> simp [Track.native, IsRelease] <;> exact @decide_eq_false _ (_) id
  case anchorRelease b =>
    simp only [Track.native]
    by_cases e : b = a
    · subst e
      simp [h, IsRelease]
    · split_ifs <;> simp_all [IsRelease]
  case anchorUnref b =>
    simp only [Track.native]
    by_cases e : b = a
    · subst e
      simp [h, IsRelease]
    · split_ifs <;> simp_all [IsRelease]
  all_goals
    simp only [Track.native]
    try split_ifs
    all_goals simp_all [IsRelease]
    all_goals exact @decide_eq_false _ (_) id

theorem released_count {t : Track} {ops : List GOp} {a : ℕ} (h : a ∉ t.released) :
    (nativeCalls t ops).countP (IsRelease a) = (if .anchorRelease a ∈ ops ∨ .anchorUnref a ∈ ops then 1 else 0) ∧
    (nativeCalls t ops).Pairwise fun o o' => IsRelease a o → ¬ IsOnAnchor a o' := by
  induction ops generalizing t with
  | nil => simp [nativeCalls]
  | cons op ops ih =>
    obtain ⟨h1, h2⟩ := native_release (op := op) h
    simp only [nativeCalls]
    rw [List.countP_append, List.pairwise_append, h1]
    by_cases ho : op = .anchorRelease a ∨ op = .anchorUnref a
    · have hr : a ∈ (t.next op).released := by rcases ho with rfl | rfl <;> exact List.mem_cons_self
      have hs := released_silent (ops := ops) hr
      have hz : (nativeCalls (t.next op) ops).countP (IsRelease a) = 0 := by
        rw [List.countP_eq_zero]
        intro o ho'
        simp only [decide_eq_true_eq]
        exact fun hh => hs o ho' (release_imp hh)
      refine ⟨?_, h2, ?_, fun x _ y hy _ => hs y hy⟩
      · rw [if_pos ho, hz, if_pos]
        rcases ho with rfl | rfl <;> simp
      · have hall : ∀ l : List Op, (∀ o ∈ l, ¬ IsOnAnchor a o) → l.Pairwise fun o o' => IsRelease a o → ¬ IsOnAnchor a o' := by
          intro l hl
          induction l with
          | nil => exact List.Pairwise.nil
          | cons x l ih' =>
            exact List.Pairwise.cons (fun y hy _ => hl y (List.mem_cons_of_mem _ hy))
              (ih' fun o ho => hl o (List.mem_cons_of_mem _ ho))
        exact hall _ hs
    · have hr : a ∉ (t.next op).released := by
        intro hh
        have := (released_after (t := t) (ops := [op]) (a := a)).1 hh
        simp only [List.mem_singleton] at this
        rcases this with hx | hx | hx
        · exact h hx
        · exact ho (Or.inl hx.symm)
        · exact ho (Or.inr hx.symm)
      obtain ⟨i1, i2⟩ := ih hr
      refine ⟨?_, h2, i2, ?_⟩
      · rw [if_neg ho, zero_add, i1]
        have e1 : (GOp.anchorRelease a ∈ op :: ops ∨ GOp.anchorUnref a ∈ op :: ops) ↔
            (GOp.anchorRelease a ∈ ops ∨ GOp.anchorUnref a ∈ ops) := by
          simp only [List.mem_cons]
          constructor
          · rintro ((hx | hx) | (hx | hx))
            · exact absurd (Or.inl hx.symm) ho
            · exact Or.inl hx
            · exact absurd (Or.inr hx.symm) ho
            · exact Or.inr hx
          · tauto
        simp only [e1]
      · intro x hx y _ hr
        rw [if_neg ho, List.countP_eq_zero] at h1
        exact absurd hr (by simpa using h1 x hx)

/-! ## Position and size -/

theorem run1_same {g g' : GState} {op : Op} {r : GRes} (e : g.run1 op = .ok (g', r)) :
    g'.position = g.position ∧ g'.size = g.size := by
  unfold GState.run1 GState.call at e
  cases hm : g.model with
  | none => rw [hm] at e; cases e
  | some s =>
    simp only [hm] at e
    rw [bind_assoc, bind_eq_ok] at e
    obtain ⟨x, -, e⟩ := e
    simp only [bind_ok, Outcome.ok.injEq, Prod.mk.injEq] at e
    obtain ⟨rfl, -⟩ := e
    exact ⟨rfl, rfl⟩

theorem call_same {g g' : GState} {op : Op} {r : Res} (e : g.call op = .ok (g', r)) :
    g'.position = g.position ∧ g'.size = g.size := by
  have : g.run1 op = .ok (g', .none) := by unfold GState.run1; rw [e, bind_ok]
  exact run1_same this

theorem settings_same {g g' : GState} {f : Settings → Settings} {r : GRes} (e : g.setSettings f = .ok (g', r)) :
    g'.position = g.position ∧ g'.size = g.size := by
  unfold GState.setSettings at e
  cases hm : g.model with
  | none => rw [hm] at e; cases e
  | some s => simp only [hm] at e; exact run1_same e

theorem wrap_same {g g' : GState} {op : Op} {r : GRes} (e : g.wrap op = .ok (g', r)) :
    g'.position = g.position ∧ g'.size = g.size := by
  unfold GState.wrap at e
  rw [bind_eq_ok] at e
  obtain ⟨⟨g1, r1⟩, h1, e⟩ := e
  have := call_same h1
  cases r1 <;> simp only [Outcome.ok.injEq, Prod.mk.injEq, reduceCtorEq] at e
  obtain ⟨rfl, -⟩ := e
  exact this

theorem release_same {g g' : GState} {a : ℕ} (e : g.anchorRelease a = .ok g') :
    g'.position = g.position ∧ g'.size = g.size := by
  unfold GState.anchorRelease at e
  split at e
  · rw [bind_eq_ok] at e
    obtain ⟨⟨g1, r1⟩, h1, e⟩ := e
    simp only [Outcome.ok.injEq] at e
    subst e
    exact call_same (g' := g1) h1
  · simp only [Outcome.ok.injEq] at e
    subst e
    exact ⟨rfl, rfl⟩
  · cases e

theorem exec_request {g g' : GState} {op : GOp} {r : GRes} (e : g.exec op = .ok (g', r)) :
    g'.position = requestedPosition g.position [op] ∧ g'.size = requestedSize g.size [op] := by
  cases op
  case propPosition v =>
    cases v with
    | none => cases e
    | some p => exact run1_same (g := { g with position := p }) e
  case propSize v =>
    cases v with
    | none => cases e
    | some p => exact run1_same (g := { g with size := p }) e
  case moveTo p => exact run1_same (g := { g with position := p }) e
  case moveBy d => exact run1_same (g := { g with position := g.position + d }) e
  case resize z => exact run1_same (g := { g with size := z }) e
  case grab p => exact wrap_same e
  case insert p => exact wrap_same e
  case step n =>
    simp only [GState.exec] at e
    rw [bind_eq_ok] at e
    obtain ⟨⟨g1, r1⟩, h1, e⟩ := e
    have := call_same h1
    cases r1 <;> simp only [Outcome.ok.injEq, Prod.mk.injEq, reduceCtorEq] at e
    obtain ⟨rfl, -⟩ := e
    exact this
  case setSpringK v => simp only [GState.exec] at e; exact settings_same e
  case setFriction v => simp only [GState.exec] at e; exact settings_same e
  case setMaximumRange v => simp only [GState.exec] at e; exact settings_same e
  case propSpringK v =>
    simp only [GState.exec] at e
    split_ifs at e
    · exact settings_same e
    · simp only [Outcome.ok.injEq, Prod.mk.injEq] at e
      obtain ⟨rfl, -⟩ := e
      exact ⟨rfl, rfl⟩
  case propFriction v =>
    simp only [GState.exec] at e
    split_ifs at e
    · exact settings_same e
    · simp only [Outcome.ok.injEq, Prod.mk.injEq] at e
      obtain ⟨rfl, -⟩ := e
      exact ⟨rfl, rfl⟩
  case propMovementRange v =>
    simp only [GState.exec] at e
    split_ifs at e
    · exact settings_same e
    · simp only [Outcome.ok.injEq, Prod.mk.injEq] at e
      obtain ⟨rfl, -⟩ := e
      exact ⟨rfl, rfl⟩
  case unrefModel =>
    simp only [GState.exec] at e
    split_ifs at e
    simp only [Outcome.ok.injEq, Prod.mk.injEq] at e
    obtain ⟨rfl, -⟩ := e
    exact ⟨rfl, rfl⟩
  case anchorMoveBy a d =>
    simp only [GState.exec, GState.anchorMoveBy] at e
    split at e
    · exact run1_same e
    · simp only [Outcome.ok.injEq, Prod.mk.injEq] at e
      obtain ⟨rfl, -⟩ := e
      exact ⟨rfl, rfl⟩
    · cases e
  case anchorRelease a =>
    simp only [GState.exec] at e
    rw [bind_eq_ok] at e
    obtain ⟨g1, h1, e⟩ := e
    simp only [Outcome.ok.injEq, Prod.mk.injEq] at e
    obtain ⟨rfl, -⟩ := e
    exact release_same h1
  case anchorUnref a =>
    simp only [GState.exec] at e
    rw [bind_eq_ok] at e
    obtain ⟨g1, h1, e⟩ := e
    simp only [Outcome.ok.injEq, Prod.mk.injEq] at e
    obtain ⟨rfl, -⟩ := e
    exact release_same (g' := g1) h1
  case elsewhere n => exact run1_same e

theorem requestedPosition_cons (p : Pt) (op : GOp) (ops : List GOp) :
    requestedPosition p (op :: ops) = requestedPosition (requestedPosition p [op]) ops := by
  cases op
  case propPosition v => cases v <;> rfl
  all_goals rfl

theorem requestedSize_cons (p : Pt) (op : GOp) (ops : List GOp) :
    requestedSize p (op :: ops) = requestedSize (requestedSize p [op]) ops := by
  cases op
  case propSize v => cases v <;> rfl
  all_goals rfl

theorem run_request {g : GState} {ops : List GOp} {r : GState × List GRes} (e : g.run ops = .ok r) :
    r.1.position = requestedPosition g.position ops ∧ r.1.size = requestedSize g.size ops := by
  induction ops generalizing g r with
  | nil =>
    simp only [GState.run, Outcome.ok.injEq] at e
    subst e
    exact ⟨rfl, rfl⟩
  | cons op ops ih =>
    simp only [GState.run] at e
    rw [bind_eq_ok] at e
    obtain ⟨⟨g1, r1⟩, h1, e⟩ := e
    rw [bind_eq_ok] at e
    obtain ⟨r2, h2, e⟩ := e
    simp only [Outcome.ok.injEq] at e
    subst e
    obtain ⟨a1, a2⟩ := exec_request h1
    obtain ⟨b1, b2⟩ := ih h2
    rw [requestedPosition_cons, requestedSize_cons]
    simp only at b1 b2
    rw [a1] at b1
    rw [a2] at b2
    exact ⟨b1, b2⟩

/-! ## A model nobody touches -/

/-- The native model rests where and as it was asked to. -/
structure Untouched (b : ℕ) (p z : Pt) (s : State) : Prop where
  rest : AtRest s
  count : s.count = 0
  springs : s.springs.Perm (baseSprings s.tile b)
  width : s.width = z.x
  height : s.height = z.y
  pos : s.pos 0 = p

theorem untouched_new (p z : Pt) (x : Settings) (b : ℕ) : Untouched b p z (State.new p z.x z.y x b) := by
  refine ⟨⟨?_, fun _ => rfl⟩, rfl, List.Perm.refl _, rfl, rfl, ?_⟩
  · show positionArray p _ = positionArray (positionArray p _ 0) _
    rw [positionArray_zero]
    rfl
  · show positionArray p _ 0 = p
    rw [positionArray_zero]

theorem untouched_quiet {b : ℕ} {p z : Pt} {s : State} (h : Untouched b p z s) : Quiet s :=
  quiet_of_rest h.springs h.rest (fun ha => by unfold State.active at ha; rw [h.count] at ha; cases ha)

theorem untouched_idle {b : ℕ} {p z : Pt} {s : State} (h : Untouched b p z s) : ¬ s.active := by
  unfold State.active; rw [h.count]; simp

/-- Moving all points. -/
theorem untouched_moveBy {b : ℕ} {p z : Pt} {s : State} (h : Untouched b p z s) (d : Pt) (n : ℕ) :
    Untouched b (p + d) z (({ s with lastId := n } : State).moveBy d) := by
  refine ⟨⟨?_, h.rest.vel⟩, h.count, h.springs, h.width, h.height, ?_⟩
  · funext i
    show s.pos i + d = positionArray (s.pos 0 + d) s.tile i
    rw [h.rest.pos]
    simp only [positionArray_zero]
    ext <;> simp [positionArray] <;> ring
  · show s.pos 0 + d = p + d
    rw [h.pos]

theorem untouched_resize {b : ℕ} {p z y : Pt} {s : State} (h : Untouched b p z s) (hz : 0 < z.x ∧ 0 < z.y)
    (hy : 0 < y.x ∧ 0 < y.y) : ∃ s' , s.exec (.resize y.x y.y) = .ok (s', .none) ∧ Untouched b p y s' := by
  obtain ⟨s', e, a, p1, w1, t1, c1, v1, x1, l1, g1⟩ := resize_rest h.rest (untouched_idle h)
    (by rw [h.width]; exact hz.1) (by rw [h.height]; exact hz.2) hy.1 hy.2
  refine ⟨s', e, a, c1.trans h.count, ?_, w1, t1, p1.trans h.pos⟩
  have hw : s.width ≠ 0 := by rw [h.width]; exact hz.1.ne'
  have hh : s.height ≠ 0 := by rw [h.height]; exact hz.2.ne'
  have key : ∀ f : Pt, (baseSprings s.tile b).map (fun y => y.scaleLength f) = baseSprings (s.tile.pscale f) b := by
    intro f
    unfold baseSprings
    rw [List.map_map]
    refine List.map_congr_left fun y _ => ?_
    simp only [Function.comp, Spring.scaleLength, Spring.mk.injEq, true_and]
    split_ifs <;> ext <;> simp [Pt.pscale]
  have htile : s'.tile = s.tile.pscale ⟨y.x / s.width, y.y / s.height⟩ := by
    ext <;> simp only [State.tile, Pt.pscale, w1, t1] <;> field_simp
  rw [htile, ← key, g1]
  exact h.springs.map _

/-- The requests a native call makes. -/
theorem untouched_exec {b : ℕ} {p z : Pt} {s : State} (h : Untouched b p z s) (hz : 0 < z.x ∧ 0 < z.y) {t : Track}
    {op : GOp} (hu : Untouching op) : ∃ s' rs, s.run (t.native op) = .ok (s', rs) ∧
      Untouched b (requestedPosition p [op]) (requestedSize z [op]) s' ∧
      (0 < (requestedSize z [op]).x ∧ 0 < (requestedSize z [op]).y) := by
  have single : ∀ {o : Op} {s' : State} {r : Res}, t.native op = [o] → s.exec o = .ok (s', r) →
      s.run (t.native op) = .ok (s', [r]) := by
    intro o s' r h1 h2
    rw [h1, run_single, h2, bind_ok]
  have toP : ∀ q : Pt, s.exec (.moveTo q) = .ok ((({ s with lastId := s.lastId + springCount } : State).moveBy (q - p)), .none) ∧
      p + (q - p) = q := by
    intro q
    constructor
    · show s.moveTo q = _
      unfold State.moveTo
      rw [h.rest.targetPosition (untouched_idle h), bind_ok, h.pos]
      rfl
    · ext <;> simp
  have sett : ∀ x : Settings, Untouched b p z { s with settings := x } := fun x =>
    ⟨⟨h.rest.pos, h.rest.vel⟩, h.count, h.springs, h.width, h.height, h.pos⟩
  cases op
  case propPosition v =>
    cases v with
    | none => exact hu.elim
    | some q =>
      have := untouched_moveBy h (q - p) (s.lastId + springCount)
      rw [(toP q).2] at this
      exact ⟨_, _, single rfl (toP q).1, this, hz⟩
  case propSize v =>
    cases v with
    | none => exact hu.elim
    | some y =>
      obtain ⟨s', e, h'⟩ := untouched_resize h hz hu
      exact ⟨s', _, single rfl e, h', hu⟩
  case moveTo q =>
    have := untouched_moveBy h (q - p) (s.lastId + springCount)
    rw [(toP q).2] at this
    exact ⟨_, _, single rfl (toP q).1, this, hz⟩
  case moveBy d => exact ⟨_, _, single rfl rfl, untouched_moveBy h d s.lastId, hz⟩
  case resize y =>
    obtain ⟨s', e, h'⟩ := untouched_resize h hz hu
    exact ⟨s', _, single rfl e, h', hu⟩
  case step n =>
    refine ⟨_, _, single rfl ((untouched_quiet h).step n), ?_, hz⟩
    exact ⟨⟨h.rest.pos, h.rest.vel⟩, h.count, h.springs, h.width, h.height, h.pos⟩
  case setSpringK v => exact ⟨_, _, single rfl rfl, sett _, hz⟩
  case setFriction v => exact ⟨_, _, single rfl rfl, sett _, hz⟩
  case setMaximumRange v => exact ⟨_, _, single rfl rfl, sett _, hz⟩
  case propSpringK v =>
    by_cases hv : 1 / 10 ≤ v ∧ v ≤ 10
    · exact ⟨_, _, single (if_pos hv) rfl, sett _, hz⟩
    · exact ⟨s, [], by simp only [Track.native]; rw [if_neg hv]; rfl, h, hz⟩
  case propFriction v =>
    by_cases hv : 1 / 10 ≤ v ∧ v ≤ 10
    · exact ⟨_, _, single (if_pos hv) rfl, sett _, hz⟩
    · exact ⟨s, [], by simp only [Track.native]; rw [if_neg hv]; rfl, h, hz⟩
  case propMovementRange v =>
    by_cases hv : 10 ≤ v ∧ v ≤ 1000
    · exact ⟨_, _, single (if_pos hv) rfl, sett _, hz⟩
    · exact ⟨s, [], by simp only [Track.native]; rw [if_neg hv]; rfl, h, hz⟩
  case elsewhere n =>
    refine ⟨_, _, single rfl rfl, ?_, hz⟩
    exact ⟨⟨h.rest.pos, h.rest.vel⟩, h.count, h.springs, h.width, h.height, h.pos⟩
  all_goals exact hu.elim

theorem untouched_run {b : ℕ} {p z : Pt} {s : State} (h : Untouched b p z s) (hz : 0 < z.x ∧ 0 < z.y) {t : Track}
    (ha : t.alive = true) {ops : List GOp} (hu : ∀ op ∈ ops, Untouching op) :
    (∃ s' rs, s.run (nativeCalls t ops) = .ok (s', rs) ∧ Untouched b (requestedPosition p ops) (requestedSize z ops) s') ∧
    WellUsed t ops ∧ (t.after ops).alive = true := by
  induction ops generalizing p z s t with
  | nil => exact ⟨⟨s, [], rfl, h⟩, trivial, ha⟩
  | cons op ops ih =>
    have ho := hu op List.mem_cons_self
    obtain ⟨s1, r1, e1, h1, hz1⟩ := untouched_exec (t := t) h hz ho
    have hal : (t.next op).alive = true := by
      refine (alive_after (t := t) (ops := [op])).2 ⟨ha, ?_⟩
      intro hh
      rw [List.mem_singleton] at hh
      subst hh
      exact ho
    obtain ⟨⟨s2, r2, e2, h2⟩, hw, ha2⟩ := ih h1 hz1 hal (fun o h' => hu o (List.mem_cons_of_mem _ h'))
    refine ⟨⟨s2, r1 ++ r2, ?_, ?_⟩, ⟨?_, hw⟩, ha2⟩
    · simp only [nativeCalls]
      rw [run_append', e1, bind_ok]
      simp only [e2, bind_ok]
    · rw [requestedPosition_cons, requestedSize_cons]
      exact h2
    · cases op
      case propPosition v => cases v <;> first | exact ho.elim | exact ha
      case propSize v => cases v <;> first | exact ho.elim | exact ha
      all_goals first | exact ho.elim | exact ha

/-! ## From construction on -/

variable {p z : Pt} {k f r : ℝ} {b : ℕ} {g0 g : GState} {ops : List GOp} {rs : List GRes}

/-- All there is to know about a history that returned. -/
theorem history (h0 : modelNew p z k f r b = .ok g0) (hrun : g0.run ops = .ok (g, rs)) :
    WellUsed (Track.start (builtSettings k f r)) ops ∧
    ∃ s rs', (State.new p z.x z.y (builtSettings k f r) b).run (nativeCalls (Track.start (builtSettings k f r)) ops) =
      .ok (s, rs') ∧ Rel ((Track.start (builtSettings k f r)).after ops) g s ∧
      g.log = nativeCalls (Track.start (builtSettings k f r)) ops := by
  rw [new_ok, Outcome.ok.injEq] at h0
  subst h0
  have hw := wellUsed_of_ok (rel_start p z _ b) (ok_start _) hrun
  have hs := run_sim (rel_start p z _ b) (ok_start _) hw
  rw [hrun] at hs
  obtain ⟨⟨s, rs'⟩, e, h1, h2, -⟩ := matches_ok hs
  exact ⟨hw, s, rs', e, h1, by simpa using h2⟩

/-- A concrete history: a model is made, its corner grabbed, and the anchor released. -/
theorem sample (ops : List GOp) (hops : ops = [] ∨ ops = [.unrefModel]) :
    ∃ g0 g rs, modelNew ⟨0, 0⟩ ⟨300, 300⟩ 8 3 500 0 = .ok g0 ∧
      g0.run ([.grab ⟨0, 0⟩, .anchorRelease 0] ++ ops) = .ok (g, rs) ∧ gAnchors rs = [0] := by
  have hb : builtSettings 8 3 500 = defaultSettings := by
    unfold builtSettings defaultSettings
    norm_num
  have hw : WellUsed (Track.start defaultSettings) ([.grab ⟨0, 0⟩, .anchorRelease 0] ++ ops) := by
    rcases hops with rfl | rfl <;> simp [WellUsed, Track.allows, Track.start, Track.next]
  have hn : nativeCalls (Track.start defaultSettings) ([.grab ⟨0, 0⟩, .anchorRelease 0] ++ ops) =
      [.grab ⟨0, 0⟩, .release 0] := by
    rcases hops with rfl | rfl <;> simp [nativeCalls, Track.native, Track.start, Track.next]
  obtain ⟨s, e⟩ := demo_grab_release ⟨0, 0⟩ (rep_small (by norm_num) (by norm_num))
  have hs := run_sim (rel_start ⟨0, 0⟩ ⟨300, 300⟩ defaultSettings 0) (ok_start _) hw
  rw [hn] at hs
  have e' : (State.new ⟨0, 0⟩ 300 300 defaultSettings 0).run [.grab ⟨0, 0⟩, .release 0] = .ok (s, [.handle 0, .none]) := e
  rw [e'] at hs
  obtain ⟨⟨g, rs⟩, e2, -, -, -, h4⟩ := matches_ok' hs
  refine ⟨_, g, rs, by rw [new_ok, hb], e2, h4.trans ?_⟩
  rcases hops with rfl | rfl <;> rfl

/-- A concrete history: the anchor outlives the model. -/
theorem sample_outlived :
    ∃ g0 g rs, modelNew ⟨0, 0⟩ ⟨300, 300⟩ 8 3 500 0 = .ok g0 ∧ g0.run [.grab ⟨0, 0⟩, .unrefModel] = .ok (g, rs) := by
  have hb : builtSettings 8 3 500 = defaultSettings := by
    unfold builtSettings defaultSettings
    norm_num
  have hw : WellUsed (Track.start defaultSettings) [.grab ⟨0, 0⟩, .unrefModel] := by
    simp [WellUsed, Track.allows, Track.start, Track.next]
  obtain ⟨i, t, n, -, -, e⟩ := demo_grab ⟨0, 0⟩ (rep_small (by norm_num) (by norm_num))
  have hs := run_sim (rel_start ⟨0, 0⟩ ⟨300, 300⟩ defaultSettings 0) (ok_start _) hw
  have e' : (State.new ⟨0, 0⟩ 300 300 defaultSettings 0).run
      (nativeCalls (Track.start defaultSettings) [.grab ⟨0, 0⟩, .unrefModel]) = .ok (grabbed demo i t n, [.handle 0]) := by
    show demo.run [.grab ⟨0, 0⟩] = _
    rw [run_single, e, bind_ok]
  rw [e'] at hs
  obtain ⟨⟨g, rs⟩, e2, -⟩ := matches_ok' hs
  exact ⟨_, g, rs, by rw [new_ok, hb], e2⟩

end

end Verif.GWobbly
