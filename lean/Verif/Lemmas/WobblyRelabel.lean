import Verif.Lemmas.WobblyShift
import Verif.Spec.Process

/-! Spring identifiers are only compared with each other: everything commutes with renumbering them. -/

namespace Verif.Wobbly

open Spec Outcome

/-- The spring with its identifier renumbered. -/
def Spring.relabel (ρ : ℕ → ℕ) (x : Spring) : Spring := { x with id := ρ x.id }

/-- The anchor with the identifiers it keeps renumbered. -/
def Kind.relabel (ρ : ℕ → ℕ) : Kind → Kind
  | .grab i => .grab i
  | .ins p st f g => .ins p (st.relabel ρ) (ρ f) (ρ g)

def Live.relabel (ρ : ℕ → ℕ) (a : Live) : Live := ⟨a.hid, a.kind.relabel ρ⟩

/-- The model with its springs renumbered and a counter that is `δ` ahead. -/
def State.relabel (ρ : ℕ → ℕ) (δ : ℕ) (s : State) : State :=
  { s with
    springs := s.springs.map (Spring.relabel ρ)
    pending := s.pending.map ρ
    live := s.live.map (Live.relabel ρ)
    lastId := s.lastId + δ }

theorem springStep_relabel (e : Env) (g : Spring → Spring)
    (hg : ∀ x, (g x).a = x.a ∧ (g x).b = x.b ∧ (g x).desired = x.desired) :
    springStep { e with springs := e.springs.map g } = springStep e := by
  funext q
  have hforce : calculateForces e.k (e.at_ q.pos) (e.springs.map g) = calculateForces e.k (e.at_ q.pos) e.springs :=
    calculateForces_map hg
  have hat : ({ e with springs := e.springs.map g } : Env).at_ q.pos = e.at_ q.pos := by
    funext n
    cases n <;> rfl
  unfold springStep
  simp only
  rw [hat, hforce]

theorem settle_relabel (e : Env) (g : Spring → Spring)
    (hg : ∀ x, (g x).a = x.a ∧ (g x).b = x.b ∧ (g x).desired = x.desired) (q : Phys) :
    settle { e with springs := e.springs.map g } q = settle e q := by
  have h := springStep_relabel e g hg
  have hi : ∀ n, settleIter { e with springs := e.springs.map g } q n = settleIter e q n := by
    intro n
    unfold settleIter
    rw [h]
  have hm : ∀ n, settleMore { e with springs := e.springs.map g } q n ↔ settleMore e q n := by
    intro n
    unfold settleMore
    rw [h, hi]
  rcases settle_cases e q with ⟨p, hp⟩ | hd
  · obtain ⟨n, h1, h2, rfl⟩ := settle_ok hp
    rw [hp, settle_of (n := n) (by rwa [hm]) (fun m hmn => (hm m).2 (h2 m hmn)), hi]
  · rw [hd]
    rw [settle_diverges] at hd
    exact settle_diverges.2 fun n => (hm n).2 (hd n)

theorem anchorData_relabel (ρ : ℕ → ℕ) (l : List Live) (k : ℕ) :
    anchorData (l.map (Live.relabel ρ)) k = anchorData l k := by
  induction l with
  | nil => rfl
  | cons a l ih =>
    unfold anchorData at ih ⊢
    simp only [List.map_cons, List.findSome?_cons]
    rw [ih]
    rcases a with ⟨hid, k'⟩
    cases k' <;> rfl

theorem alive_relabel (ρ : ℕ → ℕ) (l : List Live) (n : Node) : n.alive (l.map (Live.relabel ρ)) ↔ n.alive l := by
  cases n with
  | mesh i => exact Iff.rfl
  | anchor h => simp only [Node.alive, anchorData_relabel]

theorem dangling_relabel (ρ : ℕ → ℕ) (δ : ℕ) (s : State) :
    dangling (s.relabel ρ δ).springs (s.relabel ρ δ).live ↔ dangling s.springs s.live := by
  unfold dangling
  simp only [State.relabel, alive_relabel]
  constructor
  · rintro ⟨x, hx, h⟩
    obtain ⟨y, hy, rfl⟩ := List.mem_map.1 hx
    exact ⟨y, hy, h⟩
  · rintro ⟨x, hx, h⟩
    exact ⟨x.relabel ρ, List.mem_map.2 ⟨x, hx, rfl⟩, h⟩

theorem env_relabel (ρ : ℕ → ℕ) (δ : ℕ) (s : State) :
    (s.relabel ρ δ).env = { s.env with springs := s.env.springs.map (Spring.relabel ρ) } := by
  simp only [State.env, State.relabel, Env.mk.injEq, true_and]
  funext h
  simp only [apos, anchorData_relabel]

theorem env_at_relabel (ρ : ℕ → ℕ) (δ : ℕ) (s : State) (m : Mesh) : (s.relabel ρ δ).env.at_ m = s.env.at_ m := by
  rw [env_relabel]
  funext n
  cases n <;> rfl

theorem env_step_relabel (ρ : ℕ → ℕ) (δ : ℕ) (s : State) : springStep (s.relabel ρ δ).env = springStep s.env := by
  rw [env_relabel]
  exact springStep_relabel _ _ fun x => ⟨rfl, rfl, rfl⟩

theorem target_relabel (ρ : ℕ → ℕ) (δ : ℕ) (s : State) :
    (s.relabel ρ δ).targetByFullIntegration = s.targetByFullIntegration := by
  unfold State.targetByFullIntegration
  obtain ⟨g, hg, he⟩ := baseSprings_relabel s.tile s.lastId (s.lastId + δ)
  have : (s.relabel ρ δ).settleEnv = { s.settleEnv with springs := s.settleEnv.springs.map g } := by
    simp only [State.settleEnv, Env.mk.injEq, State.relabel, true_and, and_true]
    exact he
  rw [this]
  exact settle_relabel _ g hg _

theorem relabel_spend (ρ : ℕ → ℕ) (δ : ℕ) (s : State) : (s.relabel ρ δ).spend = s.spend.relabel ρ δ := by
  simp only [State.spend, State.relabel, State.mk.injEq, true_and, and_true]
  omega

theorem recalc_relabel (ρ : ℕ → ℕ) (δ : ℕ) (s : State) :
    (s.relabel ρ δ).recalc = s.recalc.mapOk (State.relabel ρ δ) := by
  unfold State.recalc
  rw [target_relabel, bind_mapOk, relabel_spend]
  rfl

theorem activate_relabel (ρ : ℕ → ℕ) (δ : ℕ) (s : State) :
    (s.relabel ρ δ).activate = s.activate.mapOk (State.relabel ρ δ) := by
  unfold State.activate
  simp only
  have : (s.relabel ρ δ).count = s.count := rfl
  rw [this]
  split_ifs
  · exact recalc_relabel ρ δ { s with count := s.count + 1 }
  · rfl

theorem deactivate_relabel (ρ : ℕ → ℕ) (δ : ℕ) (s : State) :
    (s.relabel ρ δ).deactivate = s.deactivate.mapOk (State.relabel ρ δ) := by
  unfold State.deactivate
  simp only
  have : (s.relabel ρ δ).count = s.count := rfl
  rw [this]
  split_ifs
  · rfl
  · exact recalc_relabel ρ δ { s with count := s.count - 1 }
  · rfl

theorem targetPosition_relabel (ρ : ℕ → ℕ) (δ : ℕ) (s : State) :
    (s.relabel ρ δ).targetPosition = s.targetPosition.mapOk fun r => (r.1.relabel ρ δ, r.2) := by
  unfold State.targetPosition
  split_ifs with h1 h2 h2
  · rfl
  · exact absurd h1 h2
  · exact absurd h2 h1
  · rw [target_relabel, bind_mapOk, relabel_spend]
    rfl

theorem round_relabel (ρ : ℕ → ℕ) (δ : ℕ) (s : State) (q : Phys) : (s.relabel ρ δ).round q = s.round q := by
  unfold State.round
  rw [env_step_relabel]
  rfl

theorem integrate_relabel (ρ : ℕ → ℕ) (δ : ℕ) (s : State) (n : ℕ) (q : Phys) :
    (s.relabel ρ δ).integrate n q = s.integrate n q := by
  induction n generalizing q with
  | zero => rfl
  | succ n ih => simp only [State.integrate, round_relabel, ih]

open Classical in
theorem step_relabel (ρ : ℕ → ℕ) (δ : ℕ) (s : State) (t : ℕ) :
    (s.relabel ρ δ).step t = (s.step t).mapOk fun r => (r.1.relabel ρ δ, r.2) := by
  unfold State.step
  by_cases hd : stepCount t ≠ 0 ∧ dangling s.springs s.live
  · rw [if_pos hd, if_pos ⟨hd.1, (dangling_relabel ρ δ s).2 hd.2⟩]
    rfl
  rw [if_neg hd, if_neg (fun h => hd ⟨h.1, (dangling_relabel ρ δ s).1 h.2⟩), integrate_relabel, bind_mapOk]
  rfl

theorem find_relabel (ρ : ℕ → ℕ) (l : List Live) (k : ℕ) :
    (l.map (Live.relabel ρ)).find? (fun a => decide (a.hid = k)) =
      (l.find? fun a => decide (a.hid = k)).map (Live.relabel ρ) := by
  rw [List.find?_map]
  rfl

theorem kind_shift_relabel (ρ : ℕ → ℕ) (d : Pt) (k : Kind) : (k.relabel ρ).shift d = (k.shift d).relabel ρ := by
  cases k <;> rfl

theorem kind_scale_relabel (ρ : ℕ → ℕ) (f o : Pt) (k : Kind) : (k.relabel ρ).scale f o = (k.scale f o).relabel ρ := by
  cases k <;> rfl

theorem moveBy_relabel (ρ : ℕ → ℕ) (δ : ℕ) (s : State) (d : Pt) :
    (s.relabel ρ δ).moveBy d = (s.moveBy d).relabel ρ δ := by
  simp only [State.moveBy, State.relabel, State.mk.injEq, true_and, and_true, List.map_map]
  apply List.map_congr_left
  intro b _
  simp only [Function.comp, Live.relabel, kind_shift_relabel]

open Classical in
theorem removeTracked_relabel {ρ : ℕ → ℕ} (hρ : Function.Injective ρ) (δ : ℕ) (s : State) (id : ℕ) :
    (s.relabel ρ δ).removeTracked (ρ id) = (s.removeTracked id).relabel ρ δ := by
  unfold State.removeTracked
  have h : (∃ x ∈ (s.relabel ρ δ).springs, x.id = ρ id) ↔ ∃ x ∈ s.springs, x.id = id := by
    simp only [State.relabel, List.mem_map]
    constructor
    · rintro ⟨_, ⟨y, hy, rfl⟩, h⟩
      exact ⟨y, hy, hρ h⟩
    · rintro ⟨y, hy, rfl⟩
      exact ⟨_, ⟨y, hy, rfl⟩, rfl⟩
  by_cases hc : ∃ x ∈ s.springs, x.id = id
  · rw [if_pos hc, if_pos (h.2 hc)]
    simp only [State.relabel, removeId, State.mk.injEq, true_and, and_true, List.filter_map]
    congr 1
    apply List.filter_congr
    intro x _
    simp only [Function.comp, Spring.relabel, ne_eq, hρ.eq_iff]
  · rw [if_neg hc, if_neg (fun h' => hc (h.1 h'))]
    simp only [State.relabel, List.map_append, List.map_cons, List.map_nil]

open Classical in
theorem replace_relabel {ρ : ℕ → ℕ} (hρ : Function.Injective ρ) (δ : ℕ) (s : State) (x : Spring) :
    (s.relabel ρ δ).replace (x.relabel ρ) = (s.replace x).relabel ρ δ := by
  unfold State.replace
  have h : (x.relabel ρ).id ∈ (s.relabel ρ δ).pending ↔ x.id ∈ s.pending := by
    simp only [State.relabel, List.mem_map, Spring.relabel]
    constructor
    · rintro ⟨y, hy, h⟩
      rwa [← hρ h]
    · intro h
      exact ⟨_, h, rfl⟩
  by_cases hc : x.id ∈ s.pending
  · rw [if_pos hc, if_pos (h.2 hc)]
    simp only [State.relabel, State.mk.injEq, true_and, and_true, List.filter_map]
    congr 1
    apply List.filter_congr
    intro y _
    simp only [Function.comp, Spring.relabel, ne_eq, hρ.eq_iff]
  · rw [if_neg hc, if_neg (fun h' => hc (h.1 h'))]
    simp only [State.relabel, List.map_append, List.map_cons, List.map_nil]

theorem releaseKind_relabel {ρ : ℕ → ℕ} (hρ : Function.Injective ρ) (δ : ℕ) (s : State) (k : Kind) :
    (s.relabel ρ δ).releaseKind (k.relabel ρ) = (s.releaseKind k).mapOk (State.relabel ρ δ) := by
  cases k with
  | grab i =>
    simp only [Kind.relabel, State.releaseKind, State.unlock]
    have : (s.relabel ρ δ).locks = s.locks := rfl
    rw [this]
    by_cases h0 : s.locks i = 0
    · rw [if_pos h0, if_pos h0]
      rfl
    · rw [if_neg h0, if_neg h0]
      rfl
  | ins p st f g =>
    simp only [Kind.relabel, State.releaseKind, mapOk_ok, removeTracked_relabel hρ, replace_relabel hρ]

/-- The call makes no springs that stay. -/
def MakesNoSprings : Op → Prop
  | .insert _ => False
  | _ => True

open Classical in
/-- Every call but an insertion commutes with renumbering. -/
theorem exec_relabel {ρ : ℕ → ℕ} (hρ : Function.Injective ρ) (δ : ℕ) (s : State) {op : Op} (ho : MakesNoSprings op) :
    (s.relabel ρ δ).exec op = (s.exec op).mapOk fun r => (r.1.relabel ρ δ, r.2) := by
  cases op with
  | grab p =>
    simp only [State.exec, State.grab]
    have hc : closestIndex (s.relabel ρ δ).pos p = closestIndex s.pos p := rfl
    rw [hc]
    cases closestIndex s.pos p with
    | none => rfl
    | some i =>
      simp only
      have ha := activate_relabel ρ δ { s with unequal := True }
      have ha' : ({ s.relabel ρ δ with unequal := True } : State).activate = _ := ha
      rw [ha', mapOk_bind, bind_mapOk]
      congr 1
      funext z
      simp only [mapOk_ok, State.relabel, State.lock, List.map_append, List.map_cons, List.map_nil, Live.relabel, Kind.relabel]
      rfl
  | insert p => exact ho.elim
  | moveAnchor k v =>
    simp only [State.exec, State.moveAnchor]
    have hf : (s.relabel ρ δ).live.find? (fun a => decide (a.hid = k)) = _ := find_relabel ρ s.live k
    rw [hf]
    cases hc : s.live.find? (fun a => decide (a.hid = k)) with
    | none => rfl
    | some a =>
      simp only [Option.map_some]
      cases hk : a.kind with
      | grab i => simp only [Live.relabel, hk, Kind.relabel]; rfl
      | ins p st f g =>
        simp only [Live.relabel, hk, Kind.relabel, mapOk_ok, Outcome.ok.injEq, Prod.mk.injEq, and_true]
        simp only [State.relabel, State.mk.injEq, true_and, and_true, List.map_map]
        refine ⟨rfl, ?_⟩
        apply List.map_congr_left
        intro b _
        simp only [Function.comp]
        by_cases hb : b.hid = k
        · rw [if_pos hb, if_pos (by exact hb)]
          simp only [Live.relabel, kind_shift_relabel]
        · rw [if_neg hb, if_neg (by exact hb)]
  | release k =>
    simp only [State.exec, State.release]
    have hf : (s.relabel ρ δ).live.find? (fun a => decide (a.hid = k)) = _ := find_relabel ρ s.live k
    rw [hf]
    cases hc : s.live.find? (fun a => decide (a.hid = k)) with
    | none => rfl
    | some a =>
      simp only [Option.map_some]
      have hl : ({ s.relabel ρ δ with live := (s.relabel ρ δ).live.filter fun b => decide (b.hid ≠ k) } : State) =
          State.relabel ρ δ { s with live := s.live.filter fun b => decide (b.hid ≠ k) } := by
        simp only [State.relabel, List.filter_map]
        rfl
      rw [hl, show (Live.relabel ρ a).kind = a.kind.relabel ρ from rfl, releaseKind_relabel hρ, mapOk_bind, bind_mapOk]
      congr 1
      funext z
      rw [deactivate_relabel, mapOk_bind, bind_mapOk]
      rfl
  | step t => exact step_relabel ρ δ s t
  | moveBy v => simp only [State.exec, moveBy_relabel, mapOk_ok]
  | moveTo p =>
    simp only [State.exec, State.moveTo, targetPosition_relabel, mapOk_bind, bind_mapOk, moveBy_relabel, mapOk_ok]
  | resize w h =>
    simp only [State.exec, State.resize]
    have e1 : (s.relabel ρ δ).width = s.width := rfl
    have e2 : (s.relabel ρ δ).height = s.height := rfl
    simp only [e1, e2]
    by_cases h1 : ¬ (w > 0 ∧ h > 0)
    · rw [if_pos h1, if_pos h1]
      rfl
    rw [if_neg h1, if_neg h1]
    by_cases h2 : s.width = 0 ∨ s.height = 0
    · rw [if_pos h2, if_pos h2]
      rfl
    rw [if_neg h2, if_neg h2]
    by_cases h3 : Pt.equals ⟨w / s.width, h / s.height⟩ ⟨1, 1⟩
    · rw [if_pos h3, if_pos h3]
      rfl
    · rw [if_neg h3, if_neg h3]
      simp only [targetPosition_relabel, mapOk_bind, bind_mapOk]
      congr 1
      funext r
      simp only [mapOk_ok, State.relabel, Outcome.ok.injEq, Prod.mk.injEq, and_true, State.mk.injEq, true_and,
        List.map_map]
      constructor
      · rfl
      · apply List.map_congr_left
        intro b _
        simp only [Function.comp, Live.relabel, kind_scale_relabel]
  | setSettings x => rfl
  | elsewhere n =>
    simp only [State.exec, mapOk_ok, State.relabel, Outcome.ok.injEq, Prod.mk.injEq, and_true, State.mk.injEq, true_and]
    omega

/-- All identifiers in use were issued already. -/
structure IssuedIds (s : State) : Prop where
  springs : ∀ x ∈ s.springs, x.id ≤ s.lastId
  pending : ∀ x ∈ s.pending, x ≤ s.lastId
  stolen : ∀ x ∈ stolens s.live, x.id ≤ s.lastId
  tracked : ∀ x ∈ tracked s.live, x ≤ s.lastId

theorem issued_of_inv {b : ℕ} {s : State} (h : Inv b s) : IssuedIds s := by
  have hs : ∀ x ∈ s.springs, x.id ≤ s.lastId := fun x hx =>
    (h.idsLe x.id (Nat.add_pos_left (List.count_pos_iff.2 (List.mem_map.2 ⟨x, hx, rfl⟩)) _)).2
  have ht : ∀ x ∈ stolens s.live, x.id ≤ s.lastId := fun x hx =>
    (h.idsLe x.id (Nat.add_pos_right _ (List.count_pos_iff.2 (List.mem_map.2 ⟨x, hx, rfl⟩)))).2
  refine ⟨hs, ?_, ht, ?_⟩
  · intro x hx
    refine (h.idsLe x ?_).2
    rw [h.book]
    exact Nat.add_pos_right _ (List.count_pos_iff.2 hx)
  · intro x hx
    refine (h.idsLe x ?_).2
    rw [h.book]
    have := List.count_pos_iff.2 hx
    omega

theorem relabel_congr {ρ ρ' : ℕ → ℕ} {s : State} (h : IssuedIds s) (hρ : ∀ x, x ≤ s.lastId → ρ x = ρ' x) (δ : ℕ) :
    s.relabel ρ δ = s.relabel ρ' δ := by
  simp only [State.relabel, State.mk.injEq, true_and, and_true]
  refine ⟨?_, ?_, ?_⟩
  · apply List.map_congr_left
    intro x hx
    simp only [Spring.relabel, hρ _ (h.springs x hx)]
  · apply List.map_congr_left
    intro x hx
    exact hρ _ (h.pending x hx)
  · apply List.map_congr_left
    intro a ha
    rcases a with ⟨hid, k⟩
    cases k with
    | grab i => rfl
    | ins p st f g =>
      have h1 := h.stolen st (List.mem_flatMap.2 ⟨_, ha, by simp [Kind.stolenOf]⟩)
      have h2 := h.tracked f (List.mem_flatMap.2 ⟨_, ha, by simp [Kind.trackedOf]⟩)
      have h3 := h.tracked g (List.mem_flatMap.2 ⟨_, ha, by simp [Kind.trackedOf]⟩)
      simp only [Live.relabel, Kind.relabel, Spring.relabel, hρ _ h1, hρ _ h2, hρ _ h3]

/-- A renumbering of the identifiers up to a counter that is `δ` behind the other. -/
structure Renumbers (ρ : ℕ → ℕ) (δ : ℕ) : Prop where
  mono : StrictMono ρ
  le : ∀ x, ρ x ≤ x + δ

/-- The renumbering once the counters have moved on to `n` and `n + δ`. -/
def bump (ρ : ℕ → ℕ) (n δ : ℕ) : ℕ → ℕ := fun x => if x ≤ n then ρ x else x + δ

theorem bump_of_le {ρ : ℕ → ℕ} {n δ x : ℕ} (h : x ≤ n) : bump ρ n δ x = ρ x := if_pos h
theorem bump_of_lt {ρ : ℕ → ℕ} {n δ x : ℕ} (h : n < x) : bump ρ n δ x = x + δ := if_neg (by omega)

theorem renumbers_bump {ρ : ℕ → ℕ} {δ : ℕ} (h : Renumbers ρ δ) (n : ℕ) : Renumbers (bump ρ n δ) δ := by
  refine ⟨fun x y hxy => ?_, fun x => ?_⟩
  · by_cases hx : x ≤ n
    · by_cases hy : y ≤ n
      · rw [bump_of_le hx, bump_of_le hy]
        exact h.mono hxy
      · rw [bump_of_le hx, bump_of_lt (by omega)]
        have := h.le x
        omega
    · rw [bump_of_lt (by omega), bump_of_lt (by omega)]
      omega
  · by_cases hx : x ≤ n
    · rw [bump_of_le hx]
      exact h.le x
    · rw [bump_of_lt (by omega)]

theorem renumbers_more {ρ : ℕ → ℕ} {δ : ℕ} (h : Renumbers ρ δ) (n : ℕ) : Renumbers ρ (δ + n) :=
  ⟨h.mono, fun x => (h.le x).trans (by omega)⟩

theorem findSpring_relabel (ρ : ℕ → ℕ) (at_ : Node → Pt) (p : Pt) (springs : List Spring) :
    findSpringToSplit at_ p (springs.map (Spring.relabel ρ)) = (findSpringToSplit at_ p springs).map (Spring.relabel ρ) := by
  unfold findSpringToSplit
  have aux : ∀ (l : List Spring) (acc : Split),
      (l.map (Spring.relabel ρ)).foldl (splitStep at_ p) ⟨acc.found.map (Spring.relabel ρ), acc.primary, acc.secondary⟩ =
        ⟨(l.foldl (splitStep at_ p) acc).found.map (Spring.relabel ρ), (l.foldl (splitStep at_ p) acc).primary,
          (l.foldl (splitStep at_ p) acc).secondary⟩ := by
    intro l
    induction l with
    | nil => intro acc; rfl
    | cons x l ih =>
      intro acc
      simp only [List.map_cons, List.foldl_cons]
      rw [← ih]
      congr 1
      unfold splitStep
      have ea : (Spring.relabel ρ x).a = x.a := rfl
      have eb : (Spring.relabel ρ x).b = x.b := rfl
      simp only [ea, eb]
      by_cases h1 : (at_ x.a).distance p < acc.primary
      · simp only [h1, if_true]
        by_cases h2 : (at_ x.b).distance p < dblMax <;> simp [h2]
      · simp only [h1, if_false]
        by_cases h3 : (at_ x.a).distance p = acc.primary
        · by_cases h2 : (at_ x.b).distance p < acc.secondary <;> simp [h2, h3]
        · simp [h3]
  have := aux springs ⟨none, dblMax, dblMax⟩
  simp only [Option.map_none] at this
  rw [this]

theorem removeId_relabel {ρ : ℕ → ℕ} (hρ : Function.Injective ρ) (l : List Spring) (id : ℕ) :
    removeId (l.map (Spring.relabel ρ)) (ρ id) = (removeId l id).map (Spring.relabel ρ) := by
  simp only [removeId, List.filter_map]
  congr 1
  apply List.filter_congr
  intro x _
  simp only [Function.comp, Spring.relabel, ne_eq, hρ.eq_iff]

theorem install_relabel {ρ : ℕ → ℕ} {δ : ℕ} (h : Renumbers ρ δ) {s : State} (hi : IssuedIds s) (p : Pt) {x : Spring}
    (hx : x ∈ s.springs) (d1 d2 : Pt) :
    (s.relabel ρ δ).install p (x.relabel ρ) d1 d2 = (s.install p x d1 d2).relabel (bump ρ s.lastId δ) δ := by
  have hc : s.relabel ρ δ = s.relabel (bump ρ s.lastId δ) δ :=
    relabel_congr hi (fun y hy => (bump_of_le hy).symm) δ
  have hxr : x.relabel ρ = x.relabel (bump ρ s.lastId δ) := by
    simp only [Spring.relabel, bump_of_le (hi.springs x hx)]
  rw [hc, hxr]
  have hb := renumbers_bump h s.lastId
  have e1 : bump ρ s.lastId δ (s.lastId + 1) = s.lastId + δ + 1 := by
    rw [bump_of_lt (by omega)]; omega
  have e2 : bump ρ s.lastId δ (s.lastId + 2) = s.lastId + δ + 2 := by
    rw [bump_of_lt (by omega)]; omega
  generalize bump ρ s.lastId δ = σ at *
  have hr := removeId_relabel hb.mono.injective s.springs x.id
  simp only [State.install, State.relabel, State.mk.injEq, true_and, and_true, List.map_append, List.map_cons,
    List.map_nil, Live.relabel, Kind.relabel]
  refine ⟨?_, ?_, ?_⟩
  · rw [← hr]
    simp only [Spring.relabel, e1, e2]
  · omega
  · rw [e1, e2]

theorem issued_frame {s s' : State} (h : IssuedIds s) (h1 : s'.springs = s.springs) (h2 : s'.pending = s.pending)
    (h3 : s'.live = s.live) (h4 : s.lastId ≤ s'.lastId) : IssuedIds s' where
  springs := fun x hx => (h.springs x (h1 ▸ hx)).trans h4
  pending := fun x hx => (h.pending x (h2 ▸ hx)).trans h4
  stolen := fun x hx => (h.stolen x (h3 ▸ hx)).trans h4
  tracked := fun x hx => (h.tracked x (h3 ▸ hx)).trans h4

theorem matches_mapOk {α β : Type} {R : α → β → Prop} (x : Outcome α) (f : α → β) (h : ∀ a, x = .ok a → R a (f a)) :
    Matches R x (x.mapOk f) := by
  cases x with
  | ok a => exact h a rfl
  | _ => trivial

/-- The insertion, with the renumbering extended to the two springs it makes. -/
theorem insert_relabel {ρ : ℕ → ℕ} {δ : ℕ} (h : Renumbers ρ δ) {s : State} (hi : IssuedIds s) (p : Pt) :
    ∃ σ, Renumbers σ δ ∧ (s.relabel ρ δ).insert p = (s.insert p).mapOk fun r => (r.1.relabel σ δ, r.2) := by
  unfold State.insert
  have ha := activate_relabel ρ δ { s with unequal := True }
  have ha' : ({ s.relabel ρ δ with unequal := True } : State).activate = _ := ha
  rw [ha']
  cases hz : ({ s with unequal := True } : State).activate with
  | ok z =>
    refine ⟨bump ρ z.lastId δ, renumbers_bump h _, ?_⟩
    have hiz : IssuedIds z := by
      obtain ⟨t, n, hn, -, rfl⟩ := activate_ok hz
      exact issued_frame hi rfl rfl rfl hn
    simp only [mapOk_ok, bind_ok, bind_mapOk]
    have key : (z.relabel ρ δ).insertSprings p = (z.insertSprings p).mapOk (State.relabel (bump ρ z.lastId δ) δ) := by
      unfold State.insertSprings
      by_cases hd : dangling z.springs z.live
      · rw [if_pos hd, if_pos ((dangling_relabel ρ δ z).2 hd)]
        rfl
      rw [if_neg hd, if_neg (fun h => hd ((dangling_relabel ρ δ z).1 h))]
      rw [env_at_relabel]
      have hf := findSpring_relabel ρ (z.env.at_ z.pos) p z.springs
      have hf' : findSpringToSplit (z.env.at_ (z.relabel ρ δ).pos) p (z.relabel ρ δ).springs = _ := hf
      rw [hf']
      cases hc : findSpringToSplit (z.env.at_ z.pos) p z.springs with
      | none => rfl
      | some x =>
        have hx := splitStep_mem _ _ _ _ hc
        simp only [Option.map_some, bind_mapOk, mapOk_ok, ← install_relabel h hiz p hx]
        rfl
    rw [key, mapOk_bind]
    rfl
  | _ => exact ⟨ρ, h, rfl⟩

theorem matches_ok {α β : Type} {R : α → β → Prop} {x : Outcome α} {y : Outcome β} (h : Matches R x y) {a : α}
    (hx : x = .ok a) : ∃ b, y = .ok b ∧ R a b := by
  subst hx
  cases y with
  | ok b => exact ⟨b, rfl, h⟩
  | _ => exact h.elim

theorem matches_bind {α β γ ζ : Type} {R : α → β → Prop} {S : γ → ζ → Prop} {x : Outcome α} {y : Outcome β}
    {f : α → Outcome γ} {g : β → Outcome ζ} (h : Matches R x y)
    (hf : ∀ a b, x = .ok a → y = .ok b → R a b → Matches S (f a) (g b)) : Matches S (x.bind f) (y.bind g) := by
  cases x <;> cases y <;> first | exact hf _ _ rfl rfl h | exact h.elim | trivial

/-- One call, with the renumbering that is right afterwards. -/
theorem exec_relabel_any {ρ : ℕ → ℕ} {δ : ℕ} (h : Renumbers ρ δ) {s : State} (hi : IssuedIds s) (op : Op) :
    ∃ σ, Renumbers σ δ ∧ (s.relabel ρ δ).exec op = (s.exec op).mapOk fun r => (r.1.relabel σ δ, r.2) := by
  by_cases ho : MakesNoSprings op
  · exact ⟨ρ, h, exec_relabel h.mono.injective δ s ho⟩
  · cases op with
    | insert p => exact insert_relabel h hi p
    | _ => exact absurd trivial ho

/-- A whole history: the calls of others only shift the counter. -/
theorem run_relabel {b : ℕ} (ops : List Op) : ∀ {ρ : ℕ → ℕ} {δ : ℕ} {s : State}, Renumbers ρ δ → Inv b s →
    Matches (fun r r' => (∃ σ ε, Renumbers σ ε ∧ r'.1 = r.1.relabel σ ε) ∧ ownResults ops r'.2 = r.2)
      (s.run (own ops)) ((s.relabel ρ δ).run ops) := by
  induction ops with
  | nil =>
    intro ρ δ s h hs
    exact ⟨⟨ρ, δ, h, rfl⟩, rfl⟩
  | cons op ops ih =>
    intro ρ δ s h hs
    by_cases he : ∃ n, op = .elsewhere n
    · obtain ⟨n, rfl⟩ := he
      have e1 : own (.elsewhere n :: ops) = own ops := rfl
      have e2 : (s.relabel ρ δ).run (.elsewhere n :: ops) =
          ((s.relabel ρ (δ + n)).run ops).bind fun r' => .ok (r'.1, Res.none :: r'.2) := by
        simp only [State.run, State.exec, bind_ok]
        congr 2
        simp only [State.relabel, State.mk.injEq, true_and, and_true]
        omega
      rw [e1, e2]
      have := ih (renumbers_more h n) hs
      cases hx : s.run (own ops) <;> rw [hx] at this <;>
        cases hy : (s.relabel ρ (δ + n)).run ops <;> rw [hy] at this <;>
        exact this
    · have e1 : own (op :: ops) = op :: own ops := by
        cases op with
        | elsewhere n => exact absurd ⟨n, rfl⟩ he
        | _ => rfl
      have e3 : ∀ (r : Res) (rs : List Res), ownResults (op :: ops) (r :: rs) = r :: ownResults ops rs := by
        intro r rs
        cases op with
        | elsewhere n => exact absurd ⟨n, rfl⟩ he
        | _ => rfl
      rw [e1]
      simp only [State.run]
      obtain ⟨σ, hσ, e⟩ := exec_relabel_any h (issued_of_inv hs) op
      rw [e, mapOk_bind]
      cases hx : s.exec op with
      | ok r =>
        simp only [bind_ok]
        have hr : Inv b r.1 := inv_exec s op r.1 r.2 hs hx
        refine matches_bind (ih hσ hr) ?_
        rintro a a' - - ⟨h1, h2⟩
        exact ⟨h1, by rw [e3, h2]⟩
      | _ => trivial

theorem heldBy_eq_grabs (s : State) (i : Idx) : heldBy s i = grabs s.live i := by
  unfold heldBy grabs
  congr 1

theorem grabs_relabel (ρ : ℕ → ℕ) (l : List Live) (i : Idx) : grabs (l.map (Live.relabel ρ)) i = grabs l i := by
  simp only [grabs, List.countP_map]
  congr 1
  funext a
  rcases a with ⟨h, k⟩
  cases k <;> rfl

theorem same_relabel (ρ : ℕ → ℕ) (δ : ℕ) (s : State) : SameModel s (s.relabel ρ δ) where
  pos := rfl
  vel := rfl
  targets := rfl
  locks := rfl
  size := ⟨rfl, rfl⟩
  settings := rfl
  handles := by
    simp only [State.relabel, List.map_map]
    rfl
  anchors := anchorData_relabel ρ s.live
  held := by
    intro i
    rw [heldBy_eq_grabs, heldBy_eq_grabs]
    exact grabs_relabel ρ s.live i
  springs := by
    simp only [State.relabel]
    rw [List.forall₂_map_right_iff]
    exact List.forall₂_same.2 fun x _ => ⟨rfl, rfl, rfl⟩
  unequal := Iff.rfl

/-- A new model differs from a new model in a new process by its numbers only. -/
theorem new_relabel (p : Pt) (w h : ℝ) (x : Settings) (n : ℕ) :
    State.new p w h x n = (State.new p w h x 0).relabel (fun k => k + n) n := by
  simp only [State.new, State.relabel, State.mk.injEq, true_and, List.map_nil, and_true]
  refine ⟨?_, by omega⟩
  rw [baseSprings_from _ n]
  apply List.map_congr_left
  intro y _
  simp only [Spring.relabel, Spring.mk.injEq, and_true]
  omega

theorem renumbers_add (n : ℕ) : Renumbers (fun k => k + n) n :=
  ⟨fun x y h => by simpa using h, fun x => le_refl _⟩

/-- The model made in any process, in any company, against the same calls on one that is alone. -/
theorem run_alone (p : Pt) (w h : ℝ) (x : Settings) (n : ℕ) (ops : List Op) :
    Matches (fun r r' => SameModel r.1 r'.1 ∧ ownResults ops r'.2 = r.2)
      ((State.new p w h x 0).run (own ops)) ((State.new p w h x n).run ops) := by
  rw [new_relabel p w h x n]
  have := run_relabel ops (renumbers_add n) (inv_new p w h x 0)
  cases hx : (State.new p w h x 0).run (own ops) <;> rw [hx] at this <;>
    cases hy : ((State.new p w h x 0).relabel (fun k => k + n) n).run ops <;> rw [hy] at this <;>
    first
    | exact ⟨by obtain ⟨⟨σ, ε, -, e⟩, -⟩ := this; rw [e]; exact same_relabel _ _ _, this.2⟩
    | exact this.elim
    | trivial

end Verif.Wobbly
