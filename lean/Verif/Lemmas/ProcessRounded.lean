import Verif.Lemmas.Process
import Verif.Lemmas.WobblyRelabelRounded
import Verif.Spec.ProcessRounded

/-! What a model in a program goes through, statement by statement, with rounding. -/

namespace Verif.Process.Rounded

open Wobbly Spec Outcome

variable {rd : ℝ → ℝ}

/-- What releasing an anchor leaves alone. -/
theorem releaseKind_shared {s s1 : State} {k : Kind} (h : s.releaseKind k = .ok s1) :
    s1.lastId = s.lastId ∧ s1.settings = s.settings ∧ s1.live = s.live := by
  cases k with
  | grab i =>
    obtain ⟨-, rfl⟩ := unlock_ok h
    exact ⟨rfl, rfl, rfl⟩
  | ins p st f g =>
    simp only [State.releaseKind, Outcome.ok.injEq] at h
    rw [removeTracked_eq, removeTracked_eq, replace_eq] at h
    rw [← h]
    exact ⟨rfl, rfl, rfl⟩

/-- Calls only move the counter forward, and only `setSettings` changes the settings. -/
theorem exec_shared {s s' : State} {op : Op} {y : Res} (h : Wobbly.Rounded.exec rd s op = .ok (s', y)) :
    s.lastId ≤ s'.lastId ∧ ((∀ x, op ≠ .setSettings x) → s'.settings = s.settings) := by
  cases op with
  | grab p =>
    obtain ⟨i, t, n, -, hn, rfl, -⟩ := Wobbly.Rounded.grab_fields h
    exact ⟨hn, fun _ => rfl⟩
  | insert p =>
    obtain ⟨t, n, found, d1, d2, hn, -, rfl, -⟩ := Wobbly.Rounded.insert_fields h
    exact ⟨by simp only [preInsert, State.install]; omega, fun _ => rfl⟩
  | moveAnchor k d =>
    obtain ⟨-, ⟨t, m, rfl⟩ | ⟨t, rfl⟩⟩ := Wobbly.Rounded.moveAnchor_fields h <;> exact ⟨le_refl _, fun _ => rfl⟩
  | release k =>
    rcases Wobbly.Rounded.release_fields h with ⟨-, rfl, -⟩ | ⟨a, s1, t, n, -, h1, -, hn, rfl, -⟩
    · exact ⟨le_refl _, fun _ => rfl⟩
    · have h2 := releaseKind_shared h1
      simp only at h2
      exact ⟨by simp only; omega, fun _ => h2.2.1⟩
  | step t =>
    obtain ⟨pos, vel, more, rfl, -⟩ := Wobbly.Rounded.step_fields h
    exact ⟨le_refl _, fun _ => rfl⟩
  | moveBy d =>
    simp only [Wobbly.Rounded.exec, Outcome.ok.injEq, Prod.mk.injEq] at h
    rw [← h.1]
    exact ⟨le_refl _, fun _ => rfl⟩
  | moveTo p =>
    obtain ⟨n, d, hn, rfl, -⟩ := Wobbly.Rounded.moveTo_fields h
    exact ⟨hn, fun _ => rfl⟩
  | resize w h' =>
    obtain ⟨-, rfl | ⟨n, pos, t, f, q, hn, rfl⟩⟩ := Wobbly.Rounded.resize_fields h
    · exact ⟨le_refl _, fun _ => rfl⟩
    · exact ⟨hn, fun _ => rfl⟩
  | setSettings x =>
    simp only [Wobbly.Rounded.exec, Outcome.ok.injEq, Prod.mk.injEq] at h
    rw [← h.1]
    exact ⟨le_refl _, fun hx => absurd rfl (hx x)⟩
  | elsewhere n =>
    simp only [Wobbly.Rounded.exec, Outcome.ok.injEq, Prod.mk.injEq] at h
    rw [← h.1]
    exact ⟨Nat.le_add_right _ _, fun _ => rfl⟩

theorem exec_hids {s s' : State} {op : Op} {x : Res} (h : Wobbly.Rounded.exec rd s op = .ok (s', x)) :
    hids s' = hidsAfter s op := by
  cases op with
  | grab p =>
    obtain ⟨i, t, n, -, hn, rfl, -⟩ := Wobbly.Rounded.grab_fields h
    simp [hids, hidsAfter, grabbed]
  | insert p =>
    obtain ⟨t, n, found, d1, d2, hn, -, rfl, -⟩ := Wobbly.Rounded.insert_fields h
    simp [hids, hidsAfter, preInsert, State.install]
  | moveAnchor k d =>
    obtain ⟨-, ⟨t, m, rfl⟩ | ⟨t, rfl⟩⟩ := Wobbly.Rounded.moveAnchor_fields h
    · rfl
    · exact map_hid (Wobbly.Rounded.keeps_shiftR_one k d) s.live
  | release k =>
    rcases Wobbly.Rounded.release_fields h with ⟨hf, rfl, -⟩ | ⟨a, s1, t, n, -, h1, -, hn, rfl, -⟩
    · simp only [hidsAfter, hids]
      symm
      rw [List.filter_eq_self]
      intro y hy
      obtain ⟨a, ha, rfl⟩ := List.mem_map.1 hy
      have := List.find?_eq_none.1 hf a ha
      simpa using this
    · have h2 := (releaseKind_shared h1).2.2
      simp only [hids, hidsAfter, h2]
      exact filter_hids _ _
  | step t =>
    obtain ⟨pos, vel, more, rfl, -⟩ := Wobbly.Rounded.step_fields h
    rfl
  | moveBy d =>
    simp only [Wobbly.Rounded.exec, Outcome.ok.injEq, Prod.mk.injEq] at h
    rw [← h.1]
    exact map_hid (Wobbly.Rounded.keeps_shiftR d) s.live
  | moveTo p =>
    obtain ⟨n, d, hn, rfl, -⟩ := Wobbly.Rounded.moveTo_fields h
    exact map_hid (Wobbly.Rounded.keeps_shiftR d) s.live
  | resize w h' =>
    obtain ⟨-, rfl | ⟨n, pos, t, f, q, hn, rfl⟩⟩ := Wobbly.Rounded.resize_fields h
    · rfl
    · exact map_hid (Wobbly.Rounded.keeps_scaleR _ _) s.live
  | setSettings x =>
    simp only [Wobbly.Rounded.exec, Outcome.ok.injEq, Prod.mk.injEq] at h
    rw [← h.1]
    rfl
  | elsewhere n =>
    simp only [Wobbly.Rounded.exec, Outcome.ok.injEq, Prod.mk.injEq] at h
    rw [← h.1]
    rfl

theorem release_res {s s' : State} {h : ℕ} {x : Res} (e : Wobbly.Rounded.exec rd s (.release h) = .ok (s', x)) :
    x = .none := by
  rcases Wobbly.Rounded.release_fields e with ⟨-, -, rfl⟩ | ⟨_, _, _, _, -, -, -, -, -, rfl⟩ <;> rfl

theorem grab_res {s s' : State} {p : Pt} {x : Res} (e : Wobbly.Rounded.exec rd s (.grab p) = .ok (s', x)) :
    x = .handle s.nextHid := by
  obtain ⟨_, _, _, -, -, -, rfl⟩ := Wobbly.Rounded.grab_fields e
  rfl

theorem insert_res {s s' : State} {p : Pt} {x : Res} (e : Wobbly.Rounded.exec rd s (.insert p) = .ok (s', x)) :
    x = .handle s.nextHid := by
  obtain ⟨_, _, _, _, _, -, -, -, rfl⟩ := Wobbly.Rounded.insert_fields e
  rfl

theorem book_lastId {b : ℕ} {s : State} (B : Wobbly.Rounded.Book b s) {n : ℕ} (h : s.lastId ≤ n) :
    Wobbly.Rounded.Book b { s with lastId := n } :=
  B.frame keeps_id (by simp) rfl rfl rfl rfl rfl rfl h

/-- A call that returns, seen from the model called. -/
theorem call_ok {P P' : Proc} {m : ℕ} {op : Op} {x : Res} (h : call rd P m op = .ok (P', x)) :
    ∃ r s0 s', P.models[m]? = some (some (r, s0)) ∧
      Wobbly.Rounded.exec rd { s0 with settings := P.settings r, lastId := P.counter } op = .ok (s', x) ∧
      P' = { P with models := P.models.set m (some (r, s')), counter := s'.lastId } := by
  unfold call at h
  split at h
  · rename_i r s0 e
    rw [bind_eq_ok] at h
    obtain ⟨⟨s', x'⟩, h1, h⟩ := h
    simp only [Outcome.ok.injEq, Prod.mk.injEq] at h
    obtain ⟨rfl, rfl⟩ := h
    exact ⟨r, s0, s', e, h1, rfl⟩
  · simp at h

/-- What happened to model `m` between two points of a program: some calls of its own, with their results,
while the counter moved on. -/
def Goes (rd : ℝ → ℝ) (P P' : Proc) (m : ℕ) (ops : List Op) (rs : List Res) : Prop :=
  ∀ s, P.model m = some s → ∃ s', P'.model m = some s' ∧
    ∃ l xs, own l = ops ∧ ownResults l xs = rs ∧ Wobbly.Rounded.run rd s l = .ok (s', xs)

theorem goes_refl (P : Proc) (m : ℕ) : Goes rd P P m [] [] := fun s h => ⟨s, h, [], [], rfl, rfl, rfl⟩

theorem run_length {s s' : State} {ops : List Op} {rs : List Res} (h : Wobbly.Rounded.run rd s ops = .ok (s', rs)) :
    rs.length = ops.length := by
  induction ops generalizing s rs with
  | nil =>
    simp only [Wobbly.Rounded.run, Outcome.ok.injEq, Prod.mk.injEq] at h
    rw [← h.2]
    rfl
  | cons op ops ih =>
    unfold Wobbly.Rounded.run at h
    rw [bind_eq_ok] at h
    obtain ⟨⟨s1, r1⟩, h1, h⟩ := h
    rw [bind_eq_ok] at h
    obtain ⟨⟨s2, r2⟩, h2, h⟩ := h
    simp only [Outcome.ok.injEq, Prod.mk.injEq] at h
    obtain ⟨rfl, rfl⟩ := h
    simp [ih h2]

theorem run_append_ok {s s1 s2 : State} {a b : List Op} {rs xs : List Res} (h1 : Wobbly.Rounded.run rd s a = .ok (s1, rs))
    (h2 : Wobbly.Rounded.run rd s1 b = .ok (s2, xs)) : Wobbly.Rounded.run rd s (a ++ b) = .ok (s2, rs ++ xs) := by
  induction a generalizing s rs with
  | nil =>
    simp only [Wobbly.Rounded.run, Outcome.ok.injEq, Prod.mk.injEq] at h1
    obtain ⟨rfl, rfl⟩ := h1
    exact h2
  | cons op a ih =>
    unfold Wobbly.Rounded.run at h1
    rw [bind_eq_ok] at h1
    obtain ⟨⟨s3, r3⟩, e1, h1⟩ := h1
    rw [bind_eq_ok] at h1
    obtain ⟨⟨s4, r4⟩, e2, h1⟩ := h1
    simp only [Outcome.ok.injEq, Prod.mk.injEq] at h1
    obtain ⟨rfl, rfl⟩ := h1
    simp only [List.cons_append, Wobbly.Rounded.run, e1, bind_ok, ih e2]

theorem goes_trans {P P1 P2 : Proc} {m : ℕ} {a b : List Op} {rs xs : List Res} (h1 : Goes rd P P1 m a rs)
    (h2 : Goes rd P1 P2 m b xs) : Goes rd P P2 m (a ++ b) (rs ++ xs) := by
  intro s hs
  obtain ⟨s1, e1, l1, x1, o1, r1, h1⟩ := h1 s hs
  obtain ⟨s2, e2, l2, x2, o2, r2, h2⟩ := h2 s1 e1
  refine ⟨s2, e2, l1 ++ l2, x1 ++ x2, ?_, ?_, run_append_ok h1 h2⟩
  · rw [own_append, o1, o2]
  · rw [ownResults_append _ _ _ _ (run_length h1), r1, r2]

theorem goes_call {P P' : Proc} {n : ℕ} {op : Op} {x : Res} (hp : Plain op) (h : call rd P n op = .ok (P', x)) (m : ℕ) :
    Goes rd P P' m (if n = m then [op] else []) (if n = m then [x] else []) := by
  obtain ⟨r, s0, s', e, h1, rfl⟩ := call_ok h
  obtain ⟨hle, hset⟩ := exec_shared h1
  have hset' := hset (by rintro y rfl; exact hp)
  simp only at hle hset'
  intro s hs
  obtain ⟨r1, s1, e1, rfl⟩ := model_eq hs
  by_cases hnm : n = m
  · subst hnm
    rw [e] at e1
    simp only [Option.some.injEq, Prod.mk.injEq] at e1
    obtain ⟨rfl, rfl⟩ := e1
    have hlt : n < P.models.length := by
      by_contra hc
      rw [List.getElem?_eq_none (by omega)] at e
      simp at e
    refine ⟨s', ?_, [op], [x], ?_, ?_, ?_⟩
    · rw [model_of (r := r) (s0 := s') (by simp [hlt])]
      congr 1
      rw [← hset']
    · rw [if_pos rfl, own_plain hp]
    · rw [if_pos rfl, ownResults_plain hp]
    · simp only [Wobbly.Rounded.run, h1, bind_ok]
  · refine ⟨{ s1 with settings := P.settings r1, lastId := s'.lastId }, ?_, [.elsewhere (s'.lastId - P.counter)], [.none],
      ?_, ?_, ?_⟩
    · rw [model_of (r := r1) (s0 := s1) (by simp [hnm, e1])]
    · rw [if_neg hnm]
      rfl
    · rw [if_neg hnm]
      rfl
    · simp only [Wobbly.Rounded.run, Wobbly.Rounded.exec, bind_ok, Outcome.ok.injEq, Prod.mk.injEq, and_true, State.mk.injEq, true_and]
      omega

theorem goes_vars (P : Proc) (f : ℕ → Option (ℕ × ℕ)) (m : ℕ) : Goes rd P { P with vars := f } m [] [] := by
  intro s hs
  exact ⟨s, hs, [], [], rfl, rfl, rfl⟩

theorem call_vars {P P' : Proc} {n : ℕ} {op : Op} {x : Res} (h : call rd P n op = .ok (P', x)) :
    P'.vars = P.vars ∧ P'.settings = P.settings := by
  obtain ⟨r, s0, s', e, h1, rfl⟩ := call_ok h
  exact ⟨rfl, rfl⟩

theorem goes_put {P P' : Proc} {v : ℕ} {a : Option (ℕ × ℕ)} {x : Res} (h : put rd P v a = .ok (P', x)) (m : ℕ) :
    ∃ rs, Goes rd P P' m (dropped P m v) rs ∧ Quiet rs := by
  unfold put at h
  unfold dropped
  cases hv : P.vars v with
  | none =>
    simp only [hv, Outcome.ok.injEq, Prod.mk.injEq] at h
    obtain ⟨rfl, rfl⟩ := h
    exact ⟨[], goes_vars _ _ _, rfl⟩
  | some nh =>
    obtain ⟨n, k⟩ := nh
    simp only [hv] at h
    rw [bind_eq_ok] at h
    obtain ⟨⟨P1, y⟩, h1, h⟩ := h
    simp only [Outcome.ok.injEq, Prod.mk.injEq] at h
    obtain ⟨rfl, rfl⟩ := h
    refine ⟨_, goes_trans (goes_vars P _ m) (goes_call (op := .release k) trivial h1 m), ?_⟩
    obtain ⟨r, s0, s', -, e, -⟩ := call_ok h1
    rw [release_res e]
    show answersIn ([] ++ _) = []
    split_ifs <;> rfl

theorem goes_store {P P' : Proc} {v n : ℕ} {y x : Res} (hy : ∃ h, y = .handle h) (h : store rd P v n y = .ok (P', x)) (m : ℕ) :
    ∃ rs, Goes rd P P' m (dropped P m v) rs ∧ Quiet rs := by
  obtain ⟨k, rfl⟩ := hy
  exact goes_put h m

/-- One statement, seen from a model that is still there afterwards. -/
theorem goes_exec {P P' : Proc} {st : Stmt} {x : Res} (h : exec rd P st = .ok (P', x)) {m : ℕ} {s' : State}
    (hs' : P'.model m = some s') : ∃ rs, Goes rd P P' m (heard P m st) rs ∧ answersIn rs = answerOf m st x := by
  have quietCall : ∀ {n : ℕ} {op : Op}, Plain op → (∀ t, op ≠ .step t) → call rd P n op = .ok (P', x) →
      ∃ rs, Goes rd P P' m (if n = m then [op] else []) rs ∧ answersIn rs = [] := by
    intro n op hp hst hc
    refine ⟨_, goes_call hp hc m, ?_⟩
    obtain ⟨r, s0, s1, -, e, -⟩ := call_ok hc
    have : answersIn [x] = [] := by
      cases op with
      | grab p => rw [grab_res e]; rfl
      | insert p => rw [insert_res e]; rfl
      | moveAnchor k d => rw [(Wobbly.Rounded.moveAnchor_fields e).1]; rfl
      | release k => rw [release_res e]; rfl
      | step t => exact absurd rfl (hst t)
      | moveBy d =>
        simp only [Wobbly.Rounded.exec, Outcome.ok.injEq, Prod.mk.injEq] at e
        rw [← e.2]; rfl
      | moveTo p =>
        obtain ⟨_, _, -, -, rfl⟩ := Wobbly.Rounded.moveTo_fields e
        rfl
      | resize w h' =>
        obtain ⟨rfl, -⟩ := Wobbly.Rounded.resize_fields e
        rfl
      | setSettings y => exact hp.elim
      | elsewhere k => exact hp.elim
    split_ifs
    · exact this
    · rfl
  cases st with
  | make p w h' r =>
    simp only [exec, Outcome.ok.injEq, Prod.mk.injEq] at h
    obtain ⟨rfl, rfl⟩ := h
    refine ⟨[], ?_, rfl⟩
    intro s hs
    obtain ⟨r1, s1, e1, rfl⟩ := model_eq hs
    have hlt : m < P.models.length := by
      by_contra hc
      rw [List.getElem?_eq_none (by omega)] at e1
      simp at e1
    refine ⟨{ s1 with settings := P.settings r1, lastId := P.counter + springCount }, ?_, [.elsewhere springCount], [.none],
      rfl, rfl, rfl⟩
    rw [model_of (r := r1) (s0 := s1) (by simp only [List.getElem?_append_left hlt, e1])]
  | destroy n =>
    simp only [exec] at h
    split at h
    · rename_i y e
      simp only [Outcome.ok.injEq, Prod.mk.injEq] at h
      obtain ⟨rfl, rfl⟩ := h
      refine ⟨[], ?_, rfl⟩
      obtain ⟨r1, s1, e1, rfl⟩ := model_eq hs'
      have hnm : n ≠ m := by
        rintro rfl
        simp only [List.getElem?_set] at e1
        split_ifs at e1 <;> simp at e1
      intro s hs
      refine ⟨s, ?_, [], [], rfl, rfl, rfl⟩
      obtain ⟨r2, s2, e2, rfl⟩ := model_eq hs
      rw [model_of (r := r2) (s0 := s2) (by simp [hnm, e2])]
    · simp at h
  | write r y =>
    simp only [exec, Outcome.ok.injEq, Prod.mk.injEq] at h
    obtain ⟨rfl, rfl⟩ := h
    obtain ⟨r1, s1, e1, rfl⟩ := model_eq hs'
    simp only at e1
    simp only [heard, e1]
    by_cases hr : r1 = r
    · subst hr
      rw [if_pos rfl]
      refine ⟨[.none], ?_, rfl⟩
      intro s hs
      obtain ⟨r2, s2, e2, rfl⟩ := model_eq hs
      rw [e1] at e2
      simp only [Option.some.injEq, Prod.mk.injEq] at e2
      obtain ⟨rfl, rfl⟩ := e2
      refine ⟨_, model_of (r := r1) (s0 := s1) e1, [.setSettings y], [.none], rfl, rfl, ?_⟩
      simp only [Wobbly.Rounded.run, Wobbly.Rounded.exec, bind_ok, Function.update_self]
    · rw [if_neg hr]
      refine ⟨[], ?_, rfl⟩
      intro s hs
      obtain ⟨r2, s2, e2, rfl⟩ := model_eq hs
      rw [e1] at e2
      simp only [Option.some.injEq, Prod.mk.injEq] at e2
      obtain ⟨rfl, rfl⟩ := e2
      refine ⟨_, model_of (r := r1) (s0 := s1) e1, [], [], rfl, rfl, ?_⟩
      simp only [Wobbly.Rounded.run, Function.update_of_ne hr]
  | grab v n p =>
    simp only [exec] at h
    rw [bind_eq_ok] at h
    obtain ⟨⟨P1, y⟩, h1, h⟩ := h
    obtain ⟨r, s0, s1, -, e, -⟩ := call_ok h1
    have hg := goes_call (op := .grab p) trivial h1 m
    obtain ⟨rs, hg2, hq⟩ := goes_store ⟨_, grab_res e⟩ h m
    have hd : dropped P1 m v = dropped P m v := by
      unfold dropped
      rw [(call_vars h1).1]
    rw [hd] at hg2
    refine ⟨_, goes_trans hg hg2, ?_⟩
    rw [grab_res e]
    exact quiet_append (by split_ifs <;> rfl) hq
  | insert v n p =>
    simp only [exec] at h
    rw [bind_eq_ok] at h
    obtain ⟨⟨P1, y⟩, h1, h⟩ := h
    obtain ⟨r, s0, s1, -, e, -⟩ := call_ok h1
    have hg := goes_call (op := .insert p) trivial h1 m
    obtain ⟨rs, hg2, hq⟩ := goes_store ⟨_, insert_res e⟩ h m
    have hd : dropped P1 m v = dropped P m v := by
      unfold dropped
      rw [(call_vars h1).1]
    rw [hd] at hg2
    refine ⟨_, goes_trans hg hg2, ?_⟩
    rw [insert_res e]
    exact quiet_append (by split_ifs <;> rfl) hq
  | drag v d =>
    simp only [exec] at h
    cases hv : P.vars v with
    | none => simp [hv] at h
    | some nk =>
      obtain ⟨n, k⟩ := nk
      simp only [hv] at h
      simp only [heard, hv]
      exact quietCall (op := .moveAnchor k d) trivial (by simp) h
  | assign v u =>
    simp only [exec] at h
    simp only [heard]
    split_ifs at h with hvu
    · simp only [Outcome.ok.injEq, Prod.mk.injEq] at h
      obtain ⟨rfl, rfl⟩ := h
      rw [if_pos hvu]
      exact ⟨[], goes_refl _ _, rfl⟩
    · rw [if_neg hvu]
      obtain ⟨rs, hg, hq⟩ := goes_put h m
      have hd : dropped ({ P with vars := Function.update P.vars u none } : Proc) m v = dropped P m v := by
        unfold dropped
        simp only [Function.update_of_ne hvu]
      rw [hd] at hg
      exact ⟨_, goes_trans (goes_vars P _ m) hg, hq⟩
  | clear v =>
    obtain ⟨rs, hg, hq⟩ := goes_put h m
    exact ⟨rs, hg, hq⟩
  | step n t =>
    simp only [exec] at h
    refine ⟨_, goes_call (op := .step t) trivial h m, ?_⟩
    simp only [answerOf, answersGivenBy, List.append_nil]
    split_ifs <;> rfl
  | moveBy n d => exact quietCall (op := .moveBy d) trivial (by simp) h
  | moveTo n p => exact quietCall (op := .moveTo p) trivial (by simp) h
  | resize n w h' => exact quietCall (op := .resize w h') trivial (by simp) h

theorem dead_call {P P' : Proc} {n : ℕ} {op : Op} {x : Res} (h : call rd P n op = .ok (P', x)) {m : ℕ} (hd : Dead P m) :
    Dead P' m := by
  obtain ⟨r, s0, s', e, -, rfl⟩ := call_ok h
  unfold Dead at *
  have : n ≠ m := by
    rintro rfl
    rw [e] at hd
    simp at hd
  simp [this, hd]

theorem dead_put {P P' : Proc} {v : ℕ} {a : Option (ℕ × ℕ)} {x : Res} (h : put rd P v a = .ok (P', x)) {m : ℕ}
    (hd : Dead P m) : Dead P' m := by
  unfold put at h
  cases hv : P.vars v with
  | none =>
    simp only [hv, Outcome.ok.injEq, Prod.mk.injEq] at h
    obtain ⟨rfl, rfl⟩ := h
    exact hd
  | some nh =>
    simp only [hv] at h
    rw [bind_eq_ok] at h
    obtain ⟨⟨P1, y⟩, h1, h⟩ := h
    simp only [Outcome.ok.injEq, Prod.mk.injEq] at h
    obtain ⟨rfl, rfl⟩ := h
    exact dead_call h1 hd

theorem dead_store {P P' : Proc} {v n : ℕ} {y x : Res} (h : store rd P v n y = .ok (P', x)) {m : ℕ}
    (hd : Dead P m) : Dead P' m := by
  cases y with
  | handle k => exact dead_put h hd
  | _ =>
    simp only [store, Outcome.ok.injEq, Prod.mk.injEq] at h
    rw [← h.1]
    exact hd

theorem dead_exec {P P' : Proc} {st : Stmt} {x : Res} (h : exec rd P st = .ok (P', x)) {m : ℕ} (hd : Dead P m) :
    Dead P' m := by
  cases st with
  | make p w h' r =>
    simp only [exec, Outcome.ok.injEq, Prod.mk.injEq] at h
    obtain ⟨rfl, rfl⟩ := h
    unfold Dead at *
    obtain ⟨hlt, -⟩ := List.getElem?_eq_some_iff.1 hd
    simp only [List.getElem?_append_left hlt, hd]
  | destroy n =>
    simp only [exec] at h
    split at h
    · rename_i y e
      simp only [Outcome.ok.injEq, Prod.mk.injEq] at h
      obtain ⟨rfl, rfl⟩ := h
      unfold Dead at *
      by_cases hnm : n = m
      · subst hnm
        rw [e] at hd
        simp at hd
      · simp [hnm, hd]
    · simp at h
  | write r y =>
    simp only [exec, Outcome.ok.injEq, Prod.mk.injEq] at h
    rw [← h.1]
    exact hd
  | grab v n p =>
    simp only [exec] at h
    rw [bind_eq_ok] at h
    obtain ⟨⟨P1, y⟩, h1, h⟩ := h
    exact dead_store h (dead_call h1 hd)
  | insert v n p =>
    simp only [exec] at h
    rw [bind_eq_ok] at h
    obtain ⟨⟨P1, y⟩, h1, h⟩ := h
    exact dead_store h (dead_call h1 hd)
  | drag v d =>
    simp only [exec] at h
    cases hv : P.vars v with
    | none => simp [hv] at h
    | some nk =>
      simp only [hv] at h
      exact dead_call h hd
  | assign v u =>
    simp only [exec] at h
    split_ifs at h with hvu
    · simp only [Outcome.ok.injEq, Prod.mk.injEq] at h
      rw [← h.1]
      exact hd
    · exact dead_put h hd
  | clear v => exact dead_put h hd
  | step n t => exact dead_call h hd
  | moveBy n d => exact dead_call h hd
  | moveTo n p => exact dead_call h hd
  | resize n w h' => exact dead_call h hd

theorem run_cons_ok {P P' : Proc} {st : Stmt} {sts : List Stmt} {rs : List Res} (h : run rd P (st :: sts) = .ok (P', rs)) :
    ∃ P1 x ys, exec rd P st = .ok (P1, x) ∧ run rd P1 sts = .ok (P', ys) ∧ rs = x :: ys := by
  unfold run at h
  rw [bind_eq_ok] at h
  obtain ⟨⟨P1, x⟩, h1, h⟩ := h
  rw [bind_eq_ok] at h
  obtain ⟨⟨P2, ys⟩, h2, h⟩ := h
  simp only [Outcome.ok.injEq, Prod.mk.injEq] at h
  obtain ⟨rfl, rfl⟩ := h
  exact ⟨P1, x, ys, h1, h2, rfl⟩

theorem dead_run {P P' : Proc} {sts : List Stmt} {rs : List Res} (h : run rd P sts = .ok (P', rs)) {m : ℕ}
    (hd : Dead P m) : Dead P' m := by
  induction sts generalizing P rs with
  | nil =>
    simp only [run, Outcome.ok.injEq, Prod.mk.injEq] at h
    rw [← h.1]
    exact hd
  | cons st sts ih =>
    obtain ⟨P1, x, ys, h1, h2, -⟩ := run_cons_ok h
    exact ih h2 (dead_exec h1 hd)

/-- After a statement a model that was there is still there or was destroyed. -/
theorem there_or_dead {P P' : Proc} {st : Stmt} {x : Res} (h : exec rd P st = .ok (P', x)) {m : ℕ} {s : State}
    (hs : P.model m = some s) : (∃ s', P'.model m = some s') ∨ Dead P' m := by
  by_cases hd : ∃ s', P'.model m = some s'
  · exact Or.inl hd
  right
  have callCase : ∀ {Q Q' : Proc} {n : ℕ} {op : Op} {y : Res}, Plain op → call rd Q n op = .ok (Q', y) →
      (∃ t, Q.model m = some t) → ∃ t, Q'.model m = some t := by
    intro Q Q' n op y hp hc ⟨t, ht⟩
    obtain ⟨t', ht', -⟩ := goes_call hp hc m t ht
    exact ⟨t', ht'⟩
  have putCase : ∀ {Q Q' : Proc} {v : ℕ} {a : Option (ℕ × ℕ)} {y : Res}, put rd Q v a = .ok (Q', y) →
      (∃ t, Q.model m = some t) → ∃ t, Q'.model m = some t := by
    intro Q Q' v a y hc ⟨t, ht⟩
    obtain ⟨rs, hg, -⟩ := goes_put hc m
    obtain ⟨t', ht', -⟩ := hg t ht
    exact ⟨t', ht'⟩
  have storeCase : ∀ {Q Q' : Proc} {v n : ℕ} {z y : Res}, store rd Q v n z = .ok (Q', y) →
      (∃ t, Q.model m = some t) → ∃ t, Q'.model m = some t := by
    intro Q Q' v n z y hc ht
    cases z with
    | handle k => exact putCase hc ht
    | _ =>
      simp only [store, Outcome.ok.injEq, Prod.mk.injEq] at hc
      rw [← hc.1]
      exact ht
  obtain ⟨r0, s0, e0, -⟩ := model_eq hs
  cases st with
  | make p w h' r =>
    simp only [exec, Outcome.ok.injEq, Prod.mk.injEq] at h
    obtain ⟨rfl, rfl⟩ := h
    obtain ⟨hlt, -⟩ := List.getElem?_eq_some_iff.1 e0
    exact absurd ⟨_, model_of (r := r0) (s0 := s0) (by simp only [List.getElem?_append_left hlt, e0])⟩ hd
  | destroy n =>
    simp only [exec] at h
    split at h
    · rename_i y e
      simp only [Outcome.ok.injEq, Prod.mk.injEq] at h
      obtain ⟨rfl, rfl⟩ := h
      by_cases hnm : n = m
      · subst hnm
        obtain ⟨hlt, -⟩ := List.getElem?_eq_some_iff.1 e0
        simp [Dead, hlt]
      · exact absurd ⟨_, model_of (r := r0) (s0 := s0) (by simp [hnm, e0])⟩ hd
    · simp at h
  | write r y =>
    simp only [exec, Outcome.ok.injEq, Prod.mk.injEq] at h
    obtain ⟨rfl, rfl⟩ := h
    exact absurd ⟨_, model_of (r := r0) (s0 := s0) e0⟩ hd
  | grab v n p =>
    simp only [exec] at h
    rw [bind_eq_ok] at h
    obtain ⟨⟨P1, y⟩, h1, h⟩ := h
    exact absurd (storeCase h (callCase (op := .grab p) trivial h1 ⟨s, hs⟩)) hd
  | insert v n p =>
    simp only [exec] at h
    rw [bind_eq_ok] at h
    obtain ⟨⟨P1, y⟩, h1, h⟩ := h
    exact absurd (storeCase h (callCase (op := .insert p) trivial h1 ⟨s, hs⟩)) hd
  | drag v d =>
    simp only [exec] at h
    cases hv : P.vars v with
    | none => simp [hv] at h
    | some nk =>
      simp only [hv] at h
      exact absurd (callCase (op := .moveAnchor _ _) trivial h ⟨s, hs⟩) hd
  | assign v u =>
    simp only [exec] at h
    split_ifs at h with hvu
    · simp only [Outcome.ok.injEq, Prod.mk.injEq] at h
      obtain ⟨rfl, rfl⟩ := h
      exact absurd ⟨s, hs⟩ hd
    · exact absurd (putCase h ⟨s, hs⟩) hd
  | clear v => exact absurd (putCase h ⟨s, hs⟩) hd
  | step n t => exact absurd (callCase (op := .step _) trivial h ⟨s, hs⟩) hd
  | moveBy n d => exact absurd (callCase (op := .moveBy _) trivial h ⟨s, hs⟩) hd
  | moveTo n p => exact absurd (callCase (op := .moveTo _) trivial h ⟨s, hs⟩) hd
  | resize n w h' => exact absurd (callCase (op := .resize _ _) trivial h ⟨s, hs⟩) hd

/-- A whole program, seen from a model that is there from beginning to end. -/
theorem goes_run {P P' : Proc} {sts : List Stmt} {xs : List Res} (h : run rd P sts = .ok (P', xs)) {m : ℕ} {s s' : State}
    (hs : P.model m = some s) (hs' : P'.model m = some s') :
    ∃ l rs, own l = heardAllRounded rd P m sts ∧ answersIn (ownResults l rs) = answersGivenBy m sts xs ∧ Wobbly.Rounded.run rd s l = .ok (s', rs) := by
  induction sts generalizing P s xs with
  | nil =>
    simp only [run, Outcome.ok.injEq, Prod.mk.injEq] at h
    obtain ⟨rfl, rfl⟩ := h
    rw [hs] at hs'
    simp only [Option.some.injEq] at hs'
    subst hs'
    exact ⟨[], [], rfl, rfl, rfl⟩
  | cons st sts ih =>
    obtain ⟨P1, x, ys, h1, h2, rfl⟩ := run_cons_ok h
    rcases there_or_dead h1 hs with ⟨s1, hs1⟩ | hd
    · obtain ⟨rs1, hg, hq⟩ := goes_exec h1 hs1
      obtain ⟨s2, hs2, l1, y1, o1, r1, e1⟩ := hg s hs
      rw [hs1] at hs2
      simp only [Option.some.injEq] at hs2
      subst hs2
      obtain ⟨l2, y2, o2, r2, e2⟩ := ih h2 hs1
      refine ⟨l1 ++ l2, y1 ++ y2, ?_, ?_, run_append_ok e1 e2⟩
      · rw [own_append, o1, o2, heardAllRounded, h1]
      · rw [ownResults_append _ _ _ _ (run_length e1), stepAnswersOf_cons, ← hq, ← r2, r1]
        unfold answersIn
        exact List.filterMap_append
    · exact absurd (dead_run h2 hd) (not_dead_of_model hs')

/-! ## Who owns the anchors -/

/-- Every anchor in effect is held by exactly one variable, or by the temporary `t`. -/
structure Owns (P : Proc) (t : Option (ℕ × ℕ)) : Prop where
  inv : ∀ m s, P.model m = some s → ∃ b, Wobbly.Rounded.Book b s
  uniq : ∀ v v' a, P.vars v = some a → P.vars v' = some a → v = v'
  uniqT : ∀ v a, P.vars v = some a → t ≠ some a
  held : ∀ v m h, P.vars v = some (m, h) → m < P.models.length ∧ ∀ s, P.model m = some s → h ∈ hids s
  heldT : ∀ m h, t = some (m, h) → m < P.models.length ∧ ∀ s, P.model m = some s → h ∈ hids s
  back : ∀ m s, P.model m = some s → ∀ h ∈ hids s, (∃ v, P.vars v = some (m, h)) ∨ t = some (m, h)

theorem owns_swap {P : Proc} {t : Option (ℕ × ℕ)} (h : Owns P t) (v : ℕ) :
    Owns { P with vars := Function.update P.vars v t } (P.vars v) where
  inv := h.inv
  uniq := by
    intro a b c ha hb
    simp only [Function.update_apply] at ha hb
    split_ifs at ha hb with h1 h2 h2
    · rw [h1, h2]
    · exact absurd ha (h.uniqT b c hb)
    · exact absurd hb (h.uniqT a c ha)
    · exact h.uniq a b c ha hb
  uniqT := by
    intro a c ha hc
    simp only [Function.update_apply] at ha
    split_ifs at ha with h1
    · exact h.uniqT v c hc ha
    · exact h1 (h.uniq a v c ha hc)
  held := by
    intro a m k ha
    simp only [Function.update_apply] at ha
    split_ifs at ha with h1
    · exact h.heldT m k ha
    · exact h.held a m k ha
  heldT := fun m k hm => h.held v m k hm
  back := by
    intro m s hs k hk
    rcases h.back m s hs k hk with ⟨a, ha⟩ | ht
    · by_cases hav : a = v
      · subst hav
        exact Or.inr ha
      · exact Or.inl ⟨a, by simp only [Function.update_of_ne hav, ha]⟩
    · exact Or.inl ⟨v, by simp only [Function.update_self, ht]⟩

/-- The models after a call: the one called has changed, the others only see the counter. -/
theorem call_models {P P' : Proc} {n : ℕ} {op : Op} {x : Res} (hp : Plain op) (h : call rd P n op = .ok (P', x)) :
    P'.models.length = P.models.length ∧ P'.vars = P.vars ∧
    ∃ s s', P.model n = some s ∧ Wobbly.Rounded.exec rd s op = .ok (s', x) ∧ P'.model n = some s' ∧
      ∀ m, m ≠ n → ∀ z', P'.model m = some z' → ∃ z, P.model m = some z ∧ z.lastId ≤ s'.lastId ∧
        z' = { z with lastId := s'.lastId } := by
  obtain ⟨r, s0, s', e, h1, rfl⟩ := call_ok h
  obtain ⟨hle, hset⟩ := exec_shared h1
  have hset' := hset (by rintro y rfl; exact hp)
  simp only at hle hset'
  obtain ⟨hlt, -⟩ := List.getElem?_eq_some_iff.1 e
  refine ⟨by simp, rfl, _, s', model_of e, h1, ?_, ?_⟩
  · rw [model_of (r := r) (s0 := s') (by simp [hlt])]
    congr 1
    rw [← hset']
  · intro m hm z' hz'
    obtain ⟨r1, s1, e1, rfl⟩ := model_eq hz'
    simp only [List.getElem?_set, if_neg (Ne.symm hm)] at e1
    exact ⟨_, model_of e1, hle, rfl⟩

theorem owns_plain {P P' : Proc} {n : ℕ} {op : Op} {x : Res} {t : Option (ℕ × ℕ)} (ho : Owns P t) (hp : Plain op)
    (hk : ∀ s, hidsAfter s op = hids s) (h : call rd P n op = .ok (P', x)) : Owns P' t := by
  obtain ⟨hl, hv, s, s', hs, he, hs', hothers⟩ := call_models hp h
  have hh : hids s' = hids s := by rw [exec_hids he, hk]
  have hmod : ∀ m z', P'.model m = some z' → ∃ z, P.model m = some z ∧ hids z' = hids z := by
    intro m z' hz'
    by_cases hm : m = n
    · subst hm
      rw [hs'] at hz'
      simp only [Option.some.injEq] at hz'
      subst hz'
      exact ⟨s, hs, hh⟩
    · obtain ⟨z, hz, -, rfl⟩ := hothers m hm z' hz'
      exact ⟨z, hz, rfl⟩
  refine ⟨?_, ?_, ?_, ?_, ?_, ?_⟩
  · intro m z' hz'
    by_cases hm : m = n
    · subst hm
      rw [hs'] at hz'
      simp only [Option.some.injEq] at hz'
      subst hz'
      obtain ⟨b, hb⟩ := ho.inv m s hs
      exact ⟨b, Wobbly.Rounded.exec_book hb he⟩
    · obtain ⟨z, hz, hzle, rfl⟩ := hothers m hm z' hz'
      obtain ⟨b, hb⟩ := ho.inv m z hz
      exact ⟨b, book_lastId hb hzle⟩
  · rw [hv]
    exact ho.uniq
  · rw [hv]
    exact ho.uniqT
  · intro v m k hvk
    rw [hv] at hvk
    obtain ⟨h1, h2⟩ := ho.held v m k hvk
    refine ⟨by omega, fun z' hz' => ?_⟩
    obtain ⟨z, hz, e⟩ := hmod m z' hz'
    rw [e]
    exact h2 z hz
  · intro m k htk
    obtain ⟨h1, h2⟩ := ho.heldT m k htk
    refine ⟨by omega, fun z' hz' => ?_⟩
    obtain ⟨z, hz, e⟩ := hmod m z' hz'
    rw [e]
    exact h2 z hz
  · intro m z' hz' k hk'
    obtain ⟨z, hz, e⟩ := hmod m z' hz'
    rw [e] at hk'
    rw [hv]
    exact ho.back m z hz k hk'

theorem owns_new {P P' : Proc} {n : ℕ} {op : Op} {x : Res} (ho : Owns P none) (hp : Plain op)
    (hk : ∀ s, hidsAfter s op = hids s ++ [s.nextHid]) (hx : ∀ s s' : State, Wobbly.Rounded.exec rd s op = .ok (s', x) → x = .handle s.nextHid)
    (h : call rd P n op = .ok (P', x)) : ∃ k, x = .handle k ∧ Owns P' (some (n, k)) := by
  obtain ⟨hl, hv, s, s', hs, he, hs', hothers⟩ := call_models hp h
  have hh : hids s' = hids s ++ [s.nextHid] := by rw [exec_hids he, hk]
  obtain ⟨b, hb⟩ := ho.inv n s hs
  have hfresh : s.nextHid ∉ hids s := by
    intro hc
    obtain ⟨a, ha, e⟩ := List.mem_map.1 hc
    have : a.hid < s.nextHid := hb.inv.hidsLt a ha
    omega
  have hlt : n < P.models.length := by
    obtain ⟨r, s0, e, -⟩ := model_eq hs
    exact (List.getElem?_eq_some_iff.1 e).1
  refine ⟨s.nextHid, hx s s' he, ?_, ?_, ?_, ?_, ?_, ?_⟩
  · intro m z' hz'
    by_cases hm : m = n
    · subst hm
      rw [hs'] at hz'
      simp only [Option.some.injEq] at hz'
      subst hz'
      exact ⟨b, Wobbly.Rounded.exec_book hb he⟩
    · obtain ⟨z, hz, hzle, rfl⟩ := hothers m hm z' hz'
      obtain ⟨b', hb'⟩ := ho.inv m z hz
      exact ⟨b', book_lastId hb' hzle⟩
  · rw [hv]
    exact ho.uniq
  · rw [hv]
    intro v a hva hc
    simp only [Option.some.injEq] at hc
    subst hc
    exact hfresh ((ho.held v n s.nextHid hva).2 s hs)
  · intro v m k hvk
    rw [hv] at hvk
    obtain ⟨h1, h2⟩ := ho.held v m k hvk
    refine ⟨by omega, fun z' hz' => ?_⟩
    by_cases hm : m = n
    · subst hm
      rw [hs'] at hz'
      simp only [Option.some.injEq] at hz'
      subst hz'
      rw [hh]
      exact List.mem_append_left _ (h2 s hs)
    · obtain ⟨z, hz, -, rfl⟩ := hothers m hm z' hz'
      exact h2 z hz
  · intro m k htk
    simp only [Option.some.injEq, Prod.mk.injEq] at htk
    obtain ⟨rfl, rfl⟩ := htk
    refine ⟨by omega, fun z' hz' => ?_⟩
    rw [hs'] at hz'
    simp only [Option.some.injEq] at hz'
    subst hz'
    rw [hh]
    simp
  · intro m z' hz' k hk'
    rw [hv]
    by_cases hm : m = n
    · subst hm
      rw [hs'] at hz'
      simp only [Option.some.injEq] at hz'
      subst hz'
      rw [hh, List.mem_append, List.mem_singleton] at hk'
      rcases hk' with hk' | rfl
      · rcases ho.back m s hs k hk' with h1 | h1
        · exact Or.inl h1
        · simp at h1
      · exact Or.inr rfl
    · obtain ⟨z, hz, -, rfl⟩ := hothers m hm z' hz'
      rcases ho.back m z hz k hk' with h1 | h1
      · exact Or.inl h1
      · simp at h1

theorem owns_release {P P' : Proc} {n k : ℕ} {x : Res} (ho : Owns P (some (n, k)))
    (h : call rd P n (.release k) = .ok (P', x)) : Owns P' none := by
  obtain ⟨hl, hv, s, s', hs, he, hs', hothers⟩ := call_models (op := .release k) trivial h
  have hh : hids s' = (hids s).filter (· ≠ k) := exec_hids he
  refine ⟨?_, ?_, ?_, ?_, ?_, ?_⟩
  · intro m z' hz'
    by_cases hm : m = n
    · subst hm
      rw [hs'] at hz'
      simp only [Option.some.injEq] at hz'
      subst hz'
      obtain ⟨b, hb⟩ := ho.inv m s hs
      exact ⟨b, Wobbly.Rounded.exec_book hb he⟩
    · obtain ⟨z, hz, hzle, rfl⟩ := hothers m hm z' hz'
      obtain ⟨b', hb'⟩ := ho.inv m z hz
      exact ⟨b', book_lastId hb' hzle⟩
  · rw [hv]
    exact ho.uniq
  · intro v a _ hc
    simp at hc
  · intro v m j hvj
    rw [hv] at hvj
    obtain ⟨h1, h2⟩ := ho.held v m j hvj
    refine ⟨by omega, fun z' hz' => ?_⟩
    by_cases hm : m = n
    · subst hm
      rw [hs'] at hz'
      simp only [Option.some.injEq] at hz'
      subst hz'
      rw [hh, List.mem_filter]
      refine ⟨h2 s hs, ?_⟩
      have : j ≠ k := by
        rintro rfl
        exact ho.uniqT v _ hvj rfl
      simpa using this
    · obtain ⟨z, hz, -, rfl⟩ := hothers m hm z' hz'
      exact h2 z hz
  · intro m j hc
    simp at hc
  · intro m z' hz' j hj
    rw [hv]
    left
    by_cases hm : m = n
    · subst hm
      rw [hs'] at hz'
      simp only [Option.some.injEq] at hz'
      subst hz'
      rw [hh, List.mem_filter] at hj
      rcases ho.back m s hs j hj.1 with h1 | h1
      · exact h1
      · simp only [Option.some.injEq, Prod.mk.injEq, true_and] at h1
        exact absurd h1.symm (by simpa using hj.2)
    · obtain ⟨z, hz, -, rfl⟩ := hothers m hm z' hz'
      rcases ho.back m z hz j hj with h1 | h1
      · exact h1
      · simp only [Option.some.injEq, Prod.mk.injEq] at h1
        exact absurd h1.1.symm hm

theorem owns_put {P P' : Proc} {v : ℕ} {a : Option (ℕ × ℕ)} {x : Res} (ho : Owns P a) (h : put rd P v a = .ok (P', x)) :
    Owns P' none := by
  have hsw := owns_swap ho v
  unfold put at h
  cases hv : P.vars v with
  | none =>
    simp only [hv, Outcome.ok.injEq, Prod.mk.injEq] at h
    obtain ⟨rfl, rfl⟩ := h
    rw [hv] at hsw
    exact hsw
  | some nh =>
    obtain ⟨n, k⟩ := nh
    simp only [hv] at h
    rw [bind_eq_ok] at h
    obtain ⟨⟨P1, y⟩, h1, h⟩ := h
    simp only [Outcome.ok.injEq, Prod.mk.injEq] at h
    obtain ⟨rfl, rfl⟩ := h
    rw [hv] at hsw
    exact owns_release hsw h1

/-- The program after a model was made. -/
noncomputable def made (rd : ℝ → ℝ) (P : Proc) (p : Pt) (w h : ℝ) (r : ℕ) : Proc :=
  { P with models := P.models ++ [some (r, Wobbly.Rounded.new rd p w h (P.settings r) P.counter)],
           counter := P.counter + springCount }

theorem owns_exec {P P' : Proc} {st : Stmt} {x : Res} (ho : Owns P none) (h : exec rd P st = .ok (P', x)) : Owns P' none := by
  cases st with
  | make p w h' r =>
    simp only [exec, Outcome.ok.injEq, Prod.mk.injEq] at h
    obtain ⟨rfl, rfl⟩ := h
    have old : ∀ m z', (made rd P p w h' r).model m = some z' →
        (∃ z, P.model m = some z ∧ z.lastId ≤ P.counter + springCount ∧ z' = { z with lastId := P.counter + springCount }) ∨
        (m = P.models.length ∧ z' = Wobbly.Rounded.new rd p w h' (P.settings r) P.counter) := by
      intro m z' hz'
      obtain ⟨r1, s1, e1, rfl⟩ := model_eq hz'
      simp only [made] at e1
      by_cases hlt : m < P.models.length
      · rw [List.getElem?_append_left hlt] at e1
        exact Or.inl ⟨_, model_of e1, Nat.le_add_right _ _, rfl⟩
      · rw [List.getElem?_append_right (by omega)] at e1
        obtain ⟨hl, -⟩ := List.getElem?_eq_some_iff.1 e1
        simp only [List.length_cons, List.length_nil] at hl
        have hm : m = P.models.length := by omega
        subst hm
        simp only [Nat.sub_self, List.getElem?_cons_zero, Option.some.injEq, Prod.mk.injEq] at e1
        obtain ⟨rfl, rfl⟩ := e1
        exact Or.inr ⟨rfl, rfl⟩
    refine ⟨?_, ho.uniq, ho.uniqT, ?_, ?_, ?_⟩
    · intro m z' hz'
      rcases old m z' hz' with ⟨z, hz, hle, rfl⟩ | ⟨-, rfl⟩
      · obtain ⟨b, hb⟩ := ho.inv m z hz
        exact ⟨b, book_lastId hb hle⟩
      · exact ⟨_, Wobbly.Rounded.book_new _ _ _ _ _⟩
    · intro v m k hvk
      obtain ⟨h1, h2⟩ := ho.held v m k hvk
      refine ⟨by simp only [List.length_append]; omega, fun z' hz' => ?_⟩
      rcases old m z' hz' with ⟨z, hz, -, rfl⟩ | ⟨rfl, -⟩
      · exact h2 z hz
      · omega
    · intro m k hc
      simp at hc
    · intro m z' hz' k hk
      rcases old m z' hz' with ⟨z, hz, -, rfl⟩ | ⟨-, rfl⟩
      · exact ho.back m z hz k hk
      · simp [hids, Wobbly.Rounded.new] at hk
  | destroy n =>
    simp only [exec] at h
    split at h
    · rename_i y e
      simp only [Outcome.ok.injEq, Prod.mk.injEq] at h
      obtain ⟨rfl, rfl⟩ := h
      have old : ∀ m z', Proc.model { P with models := P.models.set n none } m = some z' → P.model m = some z' := by
        intro m z' hz'
        obtain ⟨r1, s1, e1, rfl⟩ := model_eq hz'
        have hnm : n ≠ m := by
          rintro rfl
          simp only [List.getElem?_set] at e1
          split_ifs at e1 <;> simp at e1
        simp only [List.getElem?_set, if_neg hnm] at e1
        exact model_of e1
      refine ⟨fun m z' hz' => ho.inv m z' (old m z' hz'), ho.uniq, ho.uniqT, ?_, ?_, fun m z' hz' => ho.back m z' (old m z' hz')⟩
      · intro v m k hvk
        obtain ⟨h1, h2⟩ := ho.held v m k hvk
        exact ⟨by simpa using h1, fun z' hz' => h2 z' (old m z' hz')⟩
      · intro m k hc
        simp at hc
    · simp at h
  | write r y =>
    simp only [exec, Outcome.ok.injEq, Prod.mk.injEq] at h
    obtain ⟨rfl, rfl⟩ := h
    have old : ∀ m z', Proc.model { P with settings := Function.update P.settings r y } m = some z' →
        ∃ z, P.model m = some z ∧ z' = { z with settings := z'.settings } := by
      intro m z' hz'
      obtain ⟨r1, s1, e1, rfl⟩ := model_eq hz'
      exact ⟨_, model_of e1, rfl⟩
    refine ⟨?_, ho.uniq, ho.uniqT, ?_, ?_, ?_⟩
    · intro m z' hz'
      obtain ⟨z, hz, e⟩ := old m z' hz'
      obtain ⟨b, hb⟩ := ho.inv m z hz
      refine ⟨b, ?_⟩
      rw [e]
      exact Wobbly.Rounded.exec_book (r := rd) (s := z) (op := .setSettings z'.settings) (y := .none) hb rfl
    · intro v m k hvk
      obtain ⟨h1, h2⟩ := ho.held v m k hvk
      refine ⟨h1, fun z' hz' => ?_⟩
      obtain ⟨z, hz, e⟩ := old m z' hz'
      rw [e]
      exact h2 z hz
    · intro m k hc
      simp at hc
    · intro m z' hz' k hk
      obtain ⟨z, hz, e⟩ := old m z' hz'
      rw [e] at hk
      exact ho.back m z hz k hk
  | grab v n p =>
    simp only [exec] at h
    rw [bind_eq_ok] at h
    obtain ⟨⟨P1, y⟩, h1, h⟩ := h
    obtain ⟨k, hy, ho1⟩ := owns_new ho (op := .grab p) trivial (fun _ => rfl) (fun _ _ e => grab_res e) h1
    simp only at h
    rw [hy] at h
    exact owns_put ho1 h
  | insert v n p =>
    simp only [exec] at h
    rw [bind_eq_ok] at h
    obtain ⟨⟨P1, y⟩, h1, h⟩ := h
    obtain ⟨k, hy, ho1⟩ := owns_new ho (op := .insert p) trivial (fun _ => rfl) (fun _ _ e => insert_res e) h1
    simp only at h
    rw [hy] at h
    exact owns_put ho1 h
  | drag v d =>
    simp only [exec] at h
    cases hv : P.vars v with
    | none => simp [hv] at h
    | some nk =>
      simp only [hv] at h
      exact owns_plain ho (op := .moveAnchor _ _) trivial (fun _ => rfl) h
  | assign v u =>
    simp only [exec] at h
    split_ifs at h with hvu
    · simp only [Outcome.ok.injEq, Prod.mk.injEq] at h
      rw [← h.1]
      exact ho
    · exact owns_put (owns_swap ho u) h
  | clear v => exact owns_put ho h
  | step n t => exact owns_plain ho (op := .step _) trivial (fun _ => rfl) h
  | moveBy n d => exact owns_plain ho (op := .moveBy _) trivial (fun _ => rfl) h
  | moveTo n p => exact owns_plain ho (op := .moveTo _) trivial (fun _ => rfl) h
  | resize n w h' => exact owns_plain ho (op := .resize _ _) trivial (fun _ => rfl) h

theorem owns_run {P P' : Proc} {sts : List Stmt} {xs : List Res} (ho : Owns P none) (h : run rd P sts = .ok (P', xs)) :
    Owns P' none := by
  induction sts generalizing P xs with
  | nil =>
    simp only [run, Outcome.ok.injEq, Prod.mk.injEq] at h
    rw [← h.1]
    exact ho
  | cons st sts ih =>
    obtain ⟨P1, x, ys, h1, h2, -⟩ := run_cons_ok h
    exact ih (owns_exec ho h1) h2

theorem owns_start (x : ℕ → Settings) : Owns (Proc.start x) none := by
  refine ⟨?_, ?_, ?_, ?_, ?_, ?_⟩ <;> simp [Proc.start, Proc.model]

/-! ### Without rounding this is the model of `Model/Process.lean` -/

theorem call_id (P : Proc) (m : ℕ) (op : Op) : call id P m op = P.call m op := by
  unfold call Proc.call
  simp only [Wobbly.Rounded.exec_exact]
  rfl

theorem put_id (P : Proc) (v : ℕ) (a : Option (ℕ × ℕ)) : put id P v a = P.put v a := by
  unfold put Proc.put
  simp only [call_id]
  rfl

theorem store_id (P : Proc) (v m : ℕ) (x : Res) : store id P v m x = P.store v m x := by
  cases x <;> first | exact put_id _ _ _ | rfl

theorem exec_id (P : Proc) (st : Stmt) : exec id P st = P.exec st := by
  cases st with
  | make p w h r => rfl
  | destroy m => rfl
  | write r x => rfl
  | grab v m p => simp only [exec, Proc.exec, call_id, store_id]
  | insert v m p => simp only [exec, Proc.exec, call_id, store_id]
  | drag v d =>
    simp only [exec, Proc.exec, call_id]
    rfl
  | assign v u => simp only [exec, Proc.exec, put_id]
  | clear v => exact put_id _ _ _
  | _ => exact call_id _ _ _

theorem run_id (P : Proc) (sts : List Stmt) : run id P sts = P.run sts := by
  induction sts generalizing P with
  | nil => rfl
  | cons st sts ih => simp only [run, Proc.run, exec_id, ih]

end Verif.Process.Rounded
