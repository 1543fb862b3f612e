import Verif.Lemmas.WobblyRelabel
import Verif.Lemmas.WobblyBits

/-! Spring identifiers are only compared with each other, also in the model with rounding: everything commutes with
renumbering them. -/

namespace Verif.Wobbly.Rounded

open Spec Outcome

variable {r : ℝ → ℝ}

theorem forces_mapR {springs : List Spring} {k : ℝ} {at_ : Node → Pt} {g : Spring → Spring}
    (h : ∀ x, (g x).a = x.a ∧ (g x).b = x.b ∧ (g x).desired = x.desired) :
    calculateForces r k at_ (springs.map g) = calculateForces r k at_ springs := by
  unfold calculateForces
  rw [List.foldl_map]
  congr 1
  funext acc x
  obtain ⟨h1, h2, h3⟩ := h x
  simp only [applyForces, deltaA, deltaB, h1, h2, h3]

theorem springRound_relabel (e : Env) (g : Spring → Spring)
    (hg : ∀ x, (g x).a = x.a ∧ (g x).b = x.b ∧ (g x).desired = x.desired) :
    springRound r { e with springs := e.springs.map g } = springRound r e := by
  funext q
  have hforce : calculateForces r e.k (e.at_ q.pos) (e.springs.map g) = calculateForces r e.k (e.at_ q.pos) e.springs :=
    forces_mapR hg
  have hat : ({ e with springs := e.springs.map g } : Env).at_ q.pos = e.at_ q.pos := by
    funext n
    cases n <;> rfl
  unfold springRound
  simp only
  rw [hat, hforce]

theorem rest_relabel (e : Env) (g : Spring → Spring)
    (hg : ∀ x, (g x).a = x.a ∧ (g x).b = x.b ∧ (g x).desired = x.desired) (q : Phys) :
    rest r { e with springs := e.springs.map g } q = rest r e q := by
  have h := springRound_relabel (r := r) e g hg
  have hi : restIter r { e with springs := e.springs.map g } q = restIter r e q := by
    funext n
    unfold restIter
    rw [h]
  have hm : restMore r { e with springs := e.springs.map g } q = restMore r e q := by
    funext n
    unfold restMore
    rw [h, hi]
  unfold rest
  rw [hi, hm]

theorem round_env_relabel (ρ : ℕ → ℕ) (δ : ℕ) (s : State) :
    springRound r (s.relabel ρ δ).env = springRound r s.env := by
  rw [env_relabel]
  exact springRound_relabel _ _ fun x => ⟨rfl, rfl, rfl⟩

theorem target_relabelR (ρ : ℕ → ℕ) (δ : ℕ) (s : State) :
    targetByFullIntegration r (s.relabel ρ δ) = targetByFullIntegration r s := by
  unfold targetByFullIntegration
  obtain ⟨g, hg, he⟩ := baseSprings_relabel (tile r s) s.lastId (s.lastId + δ)
  have : restEnv r (s.relabel ρ δ) = { restEnv r s with springs := (restEnv r s).springs.map g } := by
    simp only [restEnv, Env.mk.injEq, State.relabel, true_and, and_true]
    exact he
  rw [this]
  exact rest_relabel _ g hg _

theorem recalc_relabelR (ρ : ℕ → ℕ) (δ : ℕ) (s : State) :
    recalc r (s.relabel ρ δ) = (recalc r s).mapOk (State.relabel ρ δ) := by
  unfold recalc
  rw [target_relabelR, bind_mapOk, relabel_spend]
  rfl

theorem activate_relabelR (ρ : ℕ → ℕ) (δ : ℕ) (s : State) :
    activate r (s.relabel ρ δ) = (activate r s).mapOk (State.relabel ρ δ) := by
  unfold activate
  simp only
  have : (s.relabel ρ δ).count = s.count := rfl
  rw [this]
  split_ifs
  · exact recalc_relabelR ρ δ { s with count := s.count + 1 }
  · rfl

theorem deactivate_relabelR (ρ : ℕ → ℕ) (δ : ℕ) (s : State) :
    deactivate r (s.relabel ρ δ) = (deactivate r s).mapOk (State.relabel ρ δ) := by
  unfold deactivate
  simp only
  have : (s.relabel ρ δ).count = s.count := rfl
  rw [this]
  split_ifs
  · rfl
  · exact recalc_relabelR ρ δ { s with count := s.count - 1 }
  · rfl

theorem targetPosition_relabelR (ρ : ℕ → ℕ) (δ : ℕ) (s : State) :
    targetPosition r (s.relabel ρ δ) = (targetPosition r s).mapOk fun a => (a.1.relabel ρ δ, a.2) := by
  unfold targetPosition
  split_ifs with h1 h2 h2
  · rfl
  · exact absurd h1 h2
  · exact absurd h2 h1
  · rw [target_relabelR, bind_mapOk, relabel_spend]
    rfl

theorem round_relabelR (ρ : ℕ → ℕ) (δ : ℕ) (s : State) (q : Phys) : round r (s.relabel ρ δ) q = round r s q := by
  unfold round
  rw [round_env_relabel]
  rfl

theorem rounds_relabelR (ρ : ℕ → ℕ) (δ : ℕ) (s : State) (n : ℕ) (q : Phys) :
    rounds r (s.relabel ρ δ) n q = rounds r s n q := by
  induction n generalizing q with
  | zero => rfl
  | succ n ih => simp only [rounds, round_relabelR, ih]

open Classical in
theorem step_relabelR (ρ : ℕ → ℕ) (δ : ℕ) (s : State) (t : ℕ) :
    step r (s.relabel ρ δ) t = (step r s t).mapOk fun a => (a.1.relabel ρ δ, a.2) := by
  unfold step
  by_cases hd : stepCount t ≠ 0 ∧ dangling s.springs s.live
  · rw [if_pos hd, if_pos ⟨hd.1, (dangling_relabel ρ δ s).2 hd.2⟩]
    rfl
  rw [if_neg hd, if_neg (fun h => hd ⟨h.1, (dangling_relabel ρ δ s).1 h.2⟩), rounds_relabelR, bind_mapOk]
  rfl

theorem shift_relabelR (ρ : ℕ → ℕ) (d : Pt) (k : Kind) : shift r d (k.relabel ρ) = (shift r d k).relabel ρ := by
  cases k <;> rfl

theorem scale_relabelR (ρ : ℕ → ℕ) (f o : Pt) (k : Kind) :
    scaleKind r f o (k.relabel ρ) = (scaleKind r f o k).relabel ρ := by
  cases k <;> rfl

theorem moveBy_relabelR (ρ : ℕ → ℕ) (δ : ℕ) (s : State) (d : Pt) :
    moveBy r (s.relabel ρ δ) d = (moveBy r s d).relabel ρ δ := by
  simp only [moveBy, State.relabel, State.mk.injEq, true_and, and_true, List.map_map]
  apply List.map_congr_left
  intro b _
  simp only [Function.comp, Live.relabel, shift_relabelR]

open Classical in
/-- Every call but an insertion commutes with renumbering. -/
theorem exec_relabelR {ρ : ℕ → ℕ} (hρ : Function.Injective ρ) (δ : ℕ) (s : State) {op : Op} (ho : MakesNoSprings op) :
    exec r (s.relabel ρ δ) op = (exec r s op).mapOk fun a => (a.1.relabel ρ δ, a.2) := by
  cases op with
  | grab p =>
    simp only [exec, grab]
    have hc : closestIndex r (s.relabel ρ δ).pos p = closestIndex r s.pos p := rfl
    rw [hc]
    cases closestIndex r s.pos p with
    | none => rfl
    | some i =>
      simp only
      have ha := activate_relabelR (r := r) ρ δ { s with unequal := True }
      have ha' : activate r ({ s.relabel ρ δ with unequal := True } : State) = _ := ha
      rw [ha', mapOk_bind, bind_mapOk]
      congr 1
      funext z
      simp only [mapOk_ok, State.relabel, State.lock, List.map_append, List.map_cons, List.map_nil, Live.relabel, Kind.relabel]
      rfl
  | insert p => exact ho.elim
  | moveAnchor k v =>
    simp only [exec, moveAnchor]
    have hf : (s.relabel ρ δ).live.find? (fun a => decide (a.hid = k)) = _ := find_relabel ρ s.live k
    rw [hf]
    cases hc : s.live.find? (fun a => decide (a.hid = k)) with
    | none => rfl
    | some a =>
      simp only [Option.map_some]
      cases hk : a.kind with
      | grab i => simp only [Live.relabel, hk, Kind.relabel]; rfl
      | ins p st f g =>
        simp only [Live.relabel, hk, Kind.relabel, mapOk_ok, Outcome.ok.injEq, Prod.mk.injEq, and_true]
        simp only [State.relabel, State.mk.injEq, true_and, and_true, List.map_map]
        refine ⟨rfl, ?_⟩
        apply List.map_congr_left
        intro b _
        simp only [Function.comp]
        by_cases hb : b.hid = k
        · rw [if_pos hb, if_pos (by exact hb)]
          simp only [Live.relabel, shift_relabelR]
        · rw [if_neg hb, if_neg (by exact hb)]
  | release k =>
    simp only [exec, release]
    have hf : (s.relabel ρ δ).live.find? (fun a => decide (a.hid = k)) = _ := find_relabel ρ s.live k
    rw [hf]
    cases hc : s.live.find? (fun a => decide (a.hid = k)) with
    | none => rfl
    | some a =>
      simp only [Option.map_some]
      have hl : ({ s.relabel ρ δ with live := (s.relabel ρ δ).live.filter fun b => decide (b.hid ≠ k) } : State) =
          State.relabel ρ δ { s with live := s.live.filter fun b => decide (b.hid ≠ k) } := by
        simp only [State.relabel, List.filter_map]
        rfl
      rw [hl, show (Live.relabel ρ a).kind = a.kind.relabel ρ from rfl, releaseKind_relabel hρ, mapOk_bind, bind_mapOk]
      congr 1
      funext z
      rw [deactivate_relabelR, mapOk_bind, bind_mapOk]
      rfl
  | step t => exact step_relabelR ρ δ s t
  | moveBy v => simp only [exec, moveBy_relabelR, mapOk_ok]
  | moveTo p =>
    simp only [exec, moveTo, targetPosition_relabelR, mapOk_bind, bind_mapOk, moveBy_relabelR, mapOk_ok]
  | resize w h =>
    simp only [exec, resize]
    have e1 : (s.relabel ρ δ).width = s.width := rfl
    have e2 : (s.relabel ρ δ).height = s.height := rfl
    simp only [e1, e2]
    by_cases h1 : ¬ (w > 0 ∧ h > 0)
    · rw [if_pos h1, if_pos h1]
      rfl
    rw [if_neg h1, if_neg h1]
    by_cases h2 : s.width = 0 ∨ s.height = 0
    · rw [if_pos h2, if_pos h2]
      rfl
    rw [if_neg h2, if_neg h2]
    by_cases h3 : Pt.equals ⟨r (w / s.width), r (h / s.height)⟩ ⟨1, 1⟩
    · rw [if_pos h3, if_pos h3]
      rfl
    · rw [if_neg h3, if_neg h3]
      simp only [targetPosition_relabelR, mapOk_bind, bind_mapOk]
      congr 1
      funext a
      simp only [mapOk_ok, State.relabel, Outcome.ok.injEq, Prod.mk.injEq, and_true, State.mk.injEq, true_and,
        List.map_map]
      constructor
      · rfl
      · apply List.map_congr_left
        intro b _
        simp only [Function.comp, Live.relabel, scale_relabelR]
  | setSettings x => rfl
  | elsewhere n =>
    simp only [exec, mapOk_ok, State.relabel, Outcome.ok.injEq, Prod.mk.injEq, and_true, State.mk.injEq, true_and]
    omega

theorem findSpring_relabelR (ρ : ℕ → ℕ) (at_ : Node → Pt) (p : Pt) (springs : List Spring) :
    findSpringToSplit r at_ p (springs.map (Spring.relabel ρ)) =
      (findSpringToSplit r at_ p springs).map (Spring.relabel ρ) := by
  unfold findSpringToSplit
  have aux : ∀ (l : List Spring) (acc : Split),
      (l.map (Spring.relabel ρ)).foldl (splitStep r at_ p) ⟨acc.found.map (Spring.relabel ρ), acc.primary, acc.secondary⟩ =
        ⟨(l.foldl (splitStep r at_ p) acc).found.map (Spring.relabel ρ), (l.foldl (splitStep r at_ p) acc).primary,
          (l.foldl (splitStep r at_ p) acc).secondary⟩ := by
    intro l
    induction l with
    | nil => intro acc; rfl
    | cons x l ih =>
      intro acc
      simp only [List.map_cons, List.foldl_cons]
      rw [← ih]
      congr 1
      unfold splitStep
      have ea : (Spring.relabel ρ x).a = x.a := rfl
      have eb : (Spring.relabel ρ x).b = x.b := rfl
      simp only [ea, eb]
      by_cases h1 : distance r (at_ x.a) p < acc.primary
      · simp only [h1, if_true]
        by_cases h2 : distance r (at_ x.b) p < dblMax <;> simp [h2]
      · simp only [h1, if_false]
        by_cases h3 : distance r (at_ x.a) p = acc.primary
        · by_cases h2 : distance r (at_ x.b) p < acc.secondary <;> simp [h2, h3]
        · simp [h3]
  have := aux springs ⟨none, dblMax, dblMax⟩
  simp only [Option.map_none] at this
  rw [this]

/-- The insertion, with the renumbering extended to the two springs it makes. -/
theorem insert_relabelR {ρ : ℕ → ℕ} {δ : ℕ} (h : Renumbers ρ δ) {s : State} (hi : IssuedIds s) (p : Pt) :
    ∃ σ, Renumbers σ δ ∧ insert r (s.relabel ρ δ) p = (insert r s p).mapOk fun a => (a.1.relabel σ δ, a.2) := by
  unfold insert
  have ha := activate_relabelR (r := r) ρ δ { s with unequal := True }
  have ha' : activate r ({ s.relabel ρ δ with unequal := True } : State) = _ := ha
  rw [ha']
  cases hz : activate r ({ s with unequal := True } : State) with
  | ok z =>
    refine ⟨bump ρ z.lastId δ, renumbers_bump h _, ?_⟩
    have hiz : IssuedIds z := by
      obtain ⟨t, n, hn, rfl⟩ := activate_fields hz
      exact issued_frame hi rfl rfl rfl hn
    simp only [mapOk_ok, bind_ok, bind_mapOk]
    have key : insertSprings r (z.relabel ρ δ) p = (insertSprings r z p).mapOk (State.relabel (bump ρ z.lastId δ) δ) := by
      unfold insertSprings
      by_cases hd : dangling z.springs z.live
      · rw [if_pos hd, if_pos ((dangling_relabel ρ δ z).2 hd)]
        rfl
      rw [if_neg hd, if_neg (fun h => hd ((dangling_relabel ρ δ z).1 h))]
      rw [env_at_relabel]
      have hf := findSpring_relabelR (r := r) ρ (z.env.at_ z.pos) p z.springs
      have hf' : findSpringToSplit r (z.env.at_ (z.relabel ρ δ).pos) p (z.relabel ρ δ).springs = _ := hf
      rw [hf']
      cases hc : findSpringToSplit r (z.env.at_ z.pos) p z.springs with
      | none => rfl
      | some x =>
        have hx := found_mem _ _ _ _ hc
        simp only [Option.map_some, bind_mapOk, mapOk_ok, install_exact, ← install_relabel h hiz p hx]
        rfl
    rw [key, mapOk_bind]
    rfl
  | _ => exact ⟨ρ, h, rfl⟩

/-- One call, with the renumbering that is right afterwards. -/
theorem exec_relabel_anyR {ρ : ℕ → ℕ} {δ : ℕ} (h : Renumbers ρ δ) {s : State} (hi : IssuedIds s) (op : Op) :
    ∃ σ, Renumbers σ δ ∧ exec r (s.relabel ρ δ) op = (exec r s op).mapOk fun a => (a.1.relabel σ δ, a.2) := by
  by_cases ho : MakesNoSprings op
  · exact ⟨ρ, h, exec_relabelR h.mono.injective δ s ho⟩
  · cases op with
    | insert p => exact insert_relabelR h hi p
    | _ => exact absurd trivial ho

theorem issued_of_book {b : ℕ} {s : State} (B : Book b s) : IssuedIds s :=
  issued_frame (issued_of_inv B.inv) rfl rfl rfl (le_refl _)

/-- A whole history: the calls of others only shift the counter. -/
theorem run_relabelR {b : ℕ} (ops : List Op) : ∀ {ρ : ℕ → ℕ} {δ : ℕ} {s : State}, Renumbers ρ δ → Book b s →
    Matches (fun a a' => (∃ σ ε, Renumbers σ ε ∧ a'.1 = a.1.relabel σ ε) ∧ ownResults ops a'.2 = a.2)
      (run r s (own ops)) (run r (s.relabel ρ δ) ops) := by
  induction ops with
  | nil =>
    intro ρ δ s h hs
    exact ⟨⟨ρ, δ, h, rfl⟩, rfl⟩
  | cons op ops ih =>
    intro ρ δ s h hs
    by_cases he : ∃ n, op = .elsewhere n
    · obtain ⟨n, rfl⟩ := he
      have e1 : own (.elsewhere n :: ops) = own ops := rfl
      have e2 : run r (s.relabel ρ δ) (.elsewhere n :: ops) =
          (run r (s.relabel ρ (δ + n)) ops).bind fun a' => .ok (a'.1, Res.none :: a'.2) := by
        simp only [run, exec, bind_ok]
        congr 2
        simp only [State.relabel, State.mk.injEq, true_and, and_true]
        omega
      rw [e1, e2]
      have := ih (renumbers_more h n) hs
      cases hx : run r s (own ops) <;> rw [hx] at this <;>
        cases hy : run r (s.relabel ρ (δ + n)) ops <;> rw [hy] at this <;>
        exact this
    · have e1 : own (op :: ops) = op :: own ops := by
        cases op with
        | elsewhere n => exact absurd ⟨n, rfl⟩ he
        | _ => rfl
      have e3 : ∀ (y : Res) (ys : List Res), ownResults (op :: ops) (y :: ys) = y :: ownResults ops ys := by
        intro y ys
        cases op with
        | elsewhere n => exact absurd ⟨n, rfl⟩ he
        | _ => rfl
      rw [e1]
      simp only [run]
      obtain ⟨σ, hσ, e⟩ := exec_relabel_anyR (r := r) h (issued_of_book hs) op
      rw [e, mapOk_bind]
      cases hx : exec r s op with
      | ok a =>
        simp only [bind_ok]
        have ha : Book b a.1 := exec_book hs hx
        refine matches_bind (ih hσ ha) ?_
        rintro c c' - - ⟨h1, h2⟩
        exact ⟨h1, by rw [e3, h2]⟩
      | _ => trivial

/-- A new model differs from a new model in a new process by its numbers only. -/
theorem new_relabelR (p : Pt) (w h : ℝ) (x : Settings) (n : ℕ) :
    Rounded.new r p w h x n = (Rounded.new r p w h x 0).relabel (fun k => k + n) n := by
  simp only [Rounded.new, State.relabel, State.mk.injEq, true_and, List.map_nil, and_true]
  refine ⟨?_, by omega⟩
  rw [baseSprings_from _ n]
  apply List.map_congr_left
  intro y _
  simp only [Spring.relabel, Spring.mk.injEq, and_true]
  omega

/-- The model made in any process, in any company, against the same calls on one that is alone. -/
theorem run_aloneR (p : Pt) (w h : ℝ) (x : Settings) (n : ℕ) (ops : List Op) :
    Matches (fun a a' => SameModel a.1 a'.1 ∧ ownResults ops a'.2 = a.2)
      (run r (Rounded.new r p w h x 0) (own ops)) (run r (Rounded.new r p w h x n) ops) := by
  rw [new_relabelR p w h x n]
  have := run_relabelR (r := r) ops (renumbers_add n) (book_new (r := r) p w h x 0)
  cases hx : run r (Rounded.new r p w h x 0) (own ops) <;> rw [hx] at this <;>
    cases hy : run r ((Rounded.new r p w h x 0).relabel (fun k => k + n) n) ops <;> rw [hy] at this <;>
    first
    | exact ⟨by obtain ⟨⟨σ, ε, -, e⟩, -⟩ := this; rw [e]; exact same_relabel _ _ _, this.2⟩
    | exact this.elim
    | trivial

end Verif.Wobbly.Rounded
