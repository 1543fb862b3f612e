import Verif.Lemmas.GWobblyRounded
import Verif.Lemmas.GWobblyHist
import Verif.Lemmas.WobblyBook
import Verif.Spec.GTug
import Verif.Spec.WobblyTug

/-! The anchors a program holds through the GObject layer are those the native model knows. -/

namespace Verif.GWobbly.Rounded

open Wobbly Spec Outcome GWobbly

noncomputable section

open Classical

variable {rd : ℝ → ℝ}

/-- The anchors the bookkeeping has as held. -/
def Track.holds (t : Track) : List ℕ := (List.range t.made).filter fun a => a ∉ t.released

theorem holds_make {t t' : Track} (ok : Track.Ok t) (h1 : t'.made = t.made + 1) (h2 : t'.released = t.released) :
    Track.holds t' = Track.holds t ++ [t.made] := by
  have hn : t.made ∉ t.released := fun hh => absurd (ok.released _ hh) (lt_irrefl _)
  unfold Track.holds
  rw [h1, h2, List.range_succ, List.filter_append]
  simp [hn]

theorem holds_drop {t t' : Track} {a : ℕ} (h1 : t'.made = t.made) (h2 : t'.released = a :: t.released) :
    Track.holds t' = (Track.holds t).filter fun k => k ≠ a := by
  unfold Track.holds
  rw [h1, h2, List.filter_filter]
  refine List.filter_congr fun x _ => ?_
  simp only [List.mem_cons, not_or, ne_eq]
  simp

theorem holds_same {t t' : Track} {a : ℕ} (ha : a ∈ t.released) (h1 : t'.made = t.made) (h2 : t'.released = a :: t.released) :
    Track.holds t' = Track.holds t := by
  unfold Track.holds
  rw [h1, h2]
  refine List.filter_congr fun x _ => ?_
  simp only [List.mem_cons, not_or]
  by_cases hx : x = a
  · subst hx
    simp [ha]
  · simp [hx]

/-- One call keeps the native anchors those held. -/
theorem hids_step {t : Track} {s s' : State} {op : GOp} {ys : List Res} (ok : Track.Ok t) (hn : s.nextHid = t.made)
    (hl : s.live.map Live.hid = Track.holds t)
    (e : Wobbly.Rounded.run rd s (t.native op) = .ok (s', ys)) :
    s'.live.map Live.hid = Track.holds (t.next op) := by
  have ho := Wobbly.Rounded.run_owned e
  rw [hl] at ho
  rw [ho]
  have none : ∀ ys, t.native op = [] → owned (Track.holds t) (t.native op) ys = Track.holds t := by
    intro ys h
    rw [h]
    cases ys <;> rfl
  have handle : ∀ o, t.native op = [o] → (∃ p, o = .grab p ∨ o = .insert p) → ys = [.handle t.made] := by
    intro o h hp
    rw [h, Wobbly.Rounded.run] at e
    rw [bind_eq_ok] at e
    obtain ⟨⟨s1, y⟩, e1, e2⟩ := e
    rw [bind_eq_ok] at e2
    obtain ⟨⟨s2, y2⟩, e2, e3⟩ := e2
    simp only [Wobbly.Rounded.run, Outcome.ok.injEq, Prod.mk.injEq] at e2 e3
    obtain ⟨-, rfl⟩ := e2
    obtain ⟨-, rfl⟩ := e3
    obtain ⟨-, -, h3⟩ := exec_frame e1
    rw [← hn]
    obtain ⟨p, rfl | rfl⟩ := hp
    · have h3 : y = .handle s.nextHid := h3
      rw [h3]
    · have h3 : y = .handle s.nextHid := h3
      rw [h3]
  have plain : ∀ o own, (∀ p, o ≠ .grab p) → (∀ p, o ≠ .insert p) → (∀ k, o ≠ .release k) → owned own [o] ys = own := by
    intro o own h1 h2 h3
    cases ys with
    | nil => cases o <;> first | rfl | exact absurd rfl (h1 _) | exact absurd rfl (h2 _) | exact absurd rfl (h3 _)
    | cons y ys =>
      cases ys <;> cases o <;> cases y <;> first | rfl | exact absurd rfl (h1 _) | exact absurd rfl (h2 _) | exact absurd rfl (h3 _)
  have drop : ∀ a, t.native op = [.release a] → owned (Track.holds t) (t.native op) ys = (Track.holds t).filter fun k => k ≠ a := by
    intro a h
    rw [h, Wobbly.Rounded.run] at e
    rw [bind_eq_ok] at e
    obtain ⟨⟨s1, y⟩, e1, e2⟩ := e
    rw [bind_eq_ok] at e2
    obtain ⟨⟨s2, y2⟩, e2, e3⟩ := e2
    simp only [Wobbly.Rounded.run, Outcome.ok.injEq, Prod.mk.injEq] at e2 e3
    obtain ⟨-, rfl⟩ := e2
    obtain ⟨-, rfl⟩ := e3
    rw [h]
    simp [owned]
  cases op with
  | grab p =>
    rw [handle (.grab p) rfl ⟨p, Or.inl rfl⟩]
    exact (holds_make (t' := t.next (.grab p)) ok rfl rfl).symm
  | insert p =>
    rw [handle (.insert p) rfl ⟨p, Or.inr rfl⟩]
    exact (holds_make (t' := t.next (.insert p)) ok rfl rfl).symm
  | anchorRelease a =>
    by_cases ha : a ∈ t.released
    · rw [none _ (by simp [Track.native, ha])]
      exact (holds_same (t' := t.next (.anchorRelease a)) ha rfl rfl).symm
    · rw [drop a (by simp [Track.native, ha])]
      exact (holds_drop (t := t) (t' := t.next (.anchorRelease a)) rfl rfl).symm
  | anchorUnref a =>
    by_cases ha : a ∈ t.released
    · rw [none _ (by simp [Track.native, ha])]
      exact (holds_same (t' := t.next (.anchorUnref a)) ha rfl rfl).symm
    · rw [drop a (by simp [Track.native, ha])]
      exact (holds_drop (t := t) (t' := t.next (.anchorUnref a)) rfl rfl).symm
  | anchorMoveBy a d =>
    by_cases ha : a ∈ t.released
    · rw [none _ (by simp [Track.native, ha])]
      rfl
    · have : t.native (.anchorMoveBy a d) = [.moveAnchor a d] := by simp [Track.native, ha]
      rw [this]
      exact plain _ _ (by simp) (by simp) (by simp)
  | propSpringK v =>
    simp only [Track.native, Track.next]
    split_ifs
    · exact plain _ _ (by simp) (by simp) (by simp)
    · cases ys <;> rfl
  | propFriction v =>
    simp only [Track.native, Track.next]
    split_ifs
    · exact plain _ _ (by simp) (by simp) (by simp)
    · cases ys <;> rfl
  | propMovementRange v =>
    simp only [Track.native, Track.next]
    split_ifs
    · exact plain _ _ (by simp) (by simp) (by simp)
    · cases ys <;> rfl
  | propPosition v =>
    cases v with
    | none => exact none _ rfl
    | some p => exact plain _ _ (by simp) (by simp) (by simp)
  | propSize v =>
    cases v with
    | none => exact none _ rfl
    | some p => exact plain _ _ (by simp) (by simp) (by simp)
  | unrefModel => exact none _ rfl
  | _ => exact plain _ _ (by simp) (by simp) (by simp)

theorem hids_run {t : Track} {g : GState} {s s' : State} {ops : List GOp} {ys : List Res} (h : Rel t g s) (ok : Track.Ok t)
    (hw : WellUsed t ops) (hl : s.live.map Live.hid = Track.holds t)
    (e : Wobbly.Rounded.run rd s (nativeCalls t ops) = .ok (s', ys)) :
    s'.live.map Live.hid = Track.holds (t.after ops) := by
  induction ops generalizing t g s ys with
  | nil =>
    simp only [nativeCalls, Wobbly.Rounded.run, Outcome.ok.injEq, Prod.mk.injEq] at e
    rw [← e.1, hl]
    rfl
  | cons op ops ih =>
    obtain ⟨ha, hw⟩ := hw
    have e' : Wobbly.Rounded.run rd s (t.native op ++ nativeCalls (t.next op) ops) = .ok (s', ys) := e
    rw [run_append', bind_eq_ok] at e'
    obtain ⟨⟨s1, y1⟩, e1, e2⟩ := e'
    rw [bind_eq_ok] at e2
    obtain ⟨⟨s2, y2⟩, e2, e3⟩ := e2
    simp only [Outcome.ok.injEq, Prod.mk.injEq] at e3
    have m := exec_sim (rd := rd) h ok ha
    rw [e1] at m
    obtain ⟨⟨g1, z⟩, -, hr⟩ := matches_ok' m
    obtain ⟨rfl, -⟩ := e3
    exact ih hr.1 (ok_next ok ha) hw (hids_step ok h.next hl e1) e2

/-! ## Tugging -/

theorem tugs_next {t : Track} {op : GOp} (h : GTugs op) : t.next op = t := by
  cases op <;> first | rfl | exact h.elim

theorem tugs_after {t : Track} {ops : List GOp} (h : ∀ op ∈ ops, GTugs op) : t.after ops = t := by
  induction ops with
  | nil => rfl
  | cons op ops ih =>
    show (t.next op).after ops = t
    rw [tugs_next (h op List.mem_cons_self)]
    exact ih fun o ho => h o (List.mem_cons_of_mem _ ho)

theorem tugs_calls {t : Track} {op : GOp} {ops : List GOp} (h : GTugs op) :
    nativeCalls t (op :: ops) = t.native op ++ nativeCalls t ops := by
  show t.native op ++ nativeCalls (t.next op) ops = _
  rw [tugs_next h]

theorem tugs_used {t : Track} {ops : List GOp} (h : ∀ op ∈ ops, GTugs op) (ha : ∀ op ∈ ops, t.allows op) : WellUsed t ops := by
  induction ops with
  | nil => trivial
  | cons op ops ih =>
    refine ⟨ha op List.mem_cons_self, ?_⟩
    rw [tugs_next (h op List.mem_cons_self)]
    exact ih (fun o ho => h o (List.mem_cons_of_mem _ ho)) fun o ho => ha o (List.mem_cons_of_mem _ ho)

theorem tugs_native {t : Track} {op : GOp} (h : GTugs op) : t.native op = [] ∨ ∃ o, t.native op = [o] ∧ Tugs o := by
  cases op with
  | step n => exact Or.inr ⟨_, rfl, trivial⟩
  | anchorMoveBy a d =>
    by_cases ha : a ∈ t.released
    · exact Or.inl (by simp [Track.native, ha])
    · exact Or.inr ⟨.moveAnchor a d, by simp [Track.native, ha], trivial⟩
  | _ => exact h.elim

theorem tugs_all {t : Track} {ops : List GOp} (h : ∀ op ∈ ops, GTugs op) : ∀ o ∈ nativeCalls t ops, Tugs o := by
  induction ops with
  | nil => intro o ho; cases ho
  | cons op ops ih =>
    intro o ho
    rw [tugs_calls (h op List.mem_cons_self), List.mem_append] at ho
    rcases ho with ho | ho
    · rcases tugs_native (t := t) (h op List.mem_cons_self) with e | ⟨o', e, ht⟩
      · rw [e] at ho
        cases ho
      · rw [e, List.mem_singleton] at ho
        subst ho
        exact ht
    · exact ih (fun o ho => h o (List.mem_cons_of_mem _ ho)) o ho

/-- What the native model sees up to some point is what it sees of some of the calls. -/
theorem tugs_prefix {t : Track} {ops : List GOp} (h : ∀ op ∈ ops, GTugs op) {l : List Op} (hl : l <+: nativeCalls t ops) :
    ∃ m, m <+: ops ∧ nativeCalls t m = l := by
  induction ops generalizing l with
  | nil =>
    refine ⟨[], List.prefix_refl _, ?_⟩
    exact (List.prefix_nil.1 hl).symm
  | cons op ops ih =>
    have h0 := h op List.mem_cons_self
    have ht : ∀ op ∈ ops, GTugs op := fun o ho => h o (List.mem_cons_of_mem _ ho)
    rw [tugs_calls h0] at hl
    rcases tugs_native (t := t) h0 with e | ⟨o', e, -⟩
    · rw [e, List.nil_append] at hl
      obtain ⟨m, hm, em⟩ := ih ht hl
      exact ⟨op :: m, List.cons_prefix_cons.2 ⟨rfl, hm⟩, by rw [tugs_calls h0, e, em, List.nil_append]⟩
    · cases l with
      | nil => exact ⟨[], List.nil_prefix, rfl⟩
      | cons o l =>
        rw [e, List.singleton_append] at hl
        obtain ⟨rfl, hl'⟩ := List.cons_prefix_cons.1 hl
        obtain ⟨m, hm, em⟩ := ih ht hl'
        exact ⟨op :: m, List.cons_prefix_cons.2 ⟨rfl, hm⟩, by rw [tugs_calls h0, e, em, List.singleton_append]⟩

/-- The steps among the calls. -/
def gSteps : List GOp → List ℕ
  | [] => []
  | .step t :: ops => t :: gSteps ops
  | _ :: ops => gSteps ops

/-- With no anchor held only the steps reach the native model. -/
theorem tugs_steps {t : Track} {ops : List GOp} (h : ∀ op ∈ ops, GTugs op) (ha : ∀ op ∈ ops, t.allows op)
    (hr : ∀ a < t.made, a ∈ t.released) : nativeCalls t ops = (gSteps ops).map .step := by
  induction ops with
  | nil => rfl
  | cons op ops ih =>
    have ih' := ih (fun o ho => h o (List.mem_cons_of_mem _ ho)) fun o ho => ha o (List.mem_cons_of_mem _ ho)
    have h0 := h op List.mem_cons_self
    rw [tugs_calls h0, ih']
    cases op with
    | step n => rfl
    | anchorMoveBy a d =>
      have h1 : a < t.made := (ha _ List.mem_cons_self).1
      simp [Track.native, hr a h1, gSteps]
    | _ => exact h0.elim

/-- The calls through the GObject layer give what the native calls give. -/
theorem tugs_sim {t : Track} {g : GState} {s s' : State} {ops : List GOp} {ys : List Res} (h : Rel t g s) (ok : Track.Ok t)
    (hal : t.alive = true) (hm : ∀ op ∈ ops, GTugs op) (ha : ∀ op ∈ ops, t.allows op)
    (e : Wobbly.Rounded.run rd s (nativeCalls t ops) = .ok (s', ys)) :
    ∃ g' rs, run rd g ops = .ok (g', rs) ∧ g'.model = some s' ∧ gStepAnswers rs = stepAnswers ys := by
  have m := run_sim (rd := rd) h ok (tugs_used hm ha)
  rw [e] at m
  obtain ⟨⟨g', rs⟩, e', hr⟩ := matches_ok' m
  obtain ⟨h1, -, h3, -⟩ := hr
  rw [tugs_after hm] at h1
  exact ⟨g', rs, e', by rw [h1.model, if_pos hal], h3⟩

/-- The native calls give what the calls through the GObject layer give. -/
theorem tugs_back {t : Track} {g g' : GState} {s : State} {ops : List GOp} {rs : List GRes} (h : Rel t g s) (ok : Track.Ok t)
    (hal : t.alive = true) (hm : ∀ op ∈ ops, GTugs op) (ha : ∀ op ∈ ops, t.allows op) (e : run rd g ops = .ok (g', rs)) :
    ∃ s' ys, Wobbly.Rounded.run rd s (nativeCalls t ops) = .ok (s', ys) ∧ g'.model = some s' := by
  have m := run_sim (rd := rd) h ok (tugs_used hm ha)
  rw [e] at m
  obtain ⟨⟨s', ys⟩, e', hr⟩ := matches_ok m
  obtain ⟨h1, -⟩ := hr
  rw [tugs_after hm] at h1
  exact ⟨s', ys, e', by rw [h1.model, if_pos hal]⟩

end

end Verif.GWobbly.Rounded
