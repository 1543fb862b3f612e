import Verif.Lemmas.WobblyQuiet

/-! Everything commutes with translations. -/

namespace Verif

namespace Outcome

variable {α β γ : Type}

@[simp] theorem mapOk_ok (f : α → β) (a : α) : (ok a).mapOk f = ok (f a) := rfl
@[simp] theorem mapOk_ub (f : α → β) : (ub : Outcome α).mapOk f = ub := rfl
@[simp] theorem mapOk_throws (f : α → β) : (throws : Outcome α).mapOk f = throws := rfl
@[simp] theorem mapOk_diverges (f : α → β) : (diverges : Outcome α).mapOk f = diverges := rfl
@[simp] theorem mapOk_nonfinite (f : α → β) : (nonfinite : Outcome α).mapOk f = nonfinite := rfl

theorem mapOk_bind (x : Outcome α) (f : α → β) (g : β → Outcome γ) :
    (x.mapOk f).bind g = x.bind fun a => g (f a) := by cases x <;> rfl

theorem bind_mapOk (x : Outcome α) (f : α → Outcome β) (g : β → γ) :
    (x.bind f).mapOk g = x.bind fun a => (f a).mapOk g := by cases x <;> rfl

theorem mapOk_eq_ok {x : Outcome α} {f : α → β} {b : β} : x.mapOk f = ok b ↔ ∃ a, x = ok a ∧ f a = b := by
  cases x <;> simp

end Outcome

namespace Wobbly

open Spec Outcome

theorem Pt.add_right_comm' (p q r : Pt) : p + q + r = p + r + q := by ext <;> simp <;> ring

/-- A mesh moved by `d`. -/
def Mesh.shift (d : Pt) (m : Mesh) : Mesh := fun i => m i + d

theorem Mesh.shift_apply (d : Pt) (m : Mesh) (i : Idx) : Mesh.shift d m i = m i + d := rfl

theorem positionArray_add (p tile d : Pt) : positionArray (p + d) tile = Mesh.shift d (positionArray p tile) := by
  funext i
  ext <;> simp [positionArray, Mesh.shift] <;> ring

theorem applyForces_shift {x : Spring} {k : ℝ} {at1 at2 : Node → Pt} {d : Pt} (f : Node → Pt)
    (ha : at2 x.a = at1 x.a + d) (hb : at2 x.b = at1 x.b + d) : x.applyForces k at2 f = x.applyForces k at1 f := by
  have h1 : x.deltaA at2 = x.deltaA at1 := by
    unfold Spring.deltaA
    rw [ha, hb]
    congr 1
    ext <;> simp [deltaFromDesired]
  have h2 : x.deltaB at2 = x.deltaB at1 := by
    unfold Spring.deltaB
    rw [ha, hb]
    congr 1
    ext <;> simp [deltaFromDesired]
  unfold Spring.applyForces
  rw [h1, h2]

theorem foldl_congr_mem {α β : Type} {f g : β → α → β} {l : List α} (h : ∀ a ∈ l, ∀ b, f b a = g b a) (b : β) :
    l.foldl f b = l.foldl g b := by
  induction l generalizing b with
  | nil => rfl
  | cons a l ih =>
    rw [List.foldl_cons, List.foldl_cons, h a (by simp)]
    exact ih (fun c hc => h c (List.mem_cons_of_mem _ hc)) _

/-- Spring ends in `at2` are those in `at1` moved by `d`. -/
def EndsShift (d : Pt) (springs : List Spring) (at1 at2 : Node → Pt) : Prop :=
  ∀ x ∈ springs, at2 x.a = at1 x.a + d ∧ at2 x.b = at1 x.b + d

theorem calculateForces_shift {springs : List Spring} {k : ℝ} {at1 at2 : Node → Pt} {d : Pt}
    (h : EndsShift d springs at1 at2) : calculateForces k at2 springs = calculateForces k at1 springs := by
  unfold calculateForces
  apply foldl_congr_mem
  intro x hx b
  simp only
  rw [applyForces_shift _ (h x hx).1 (h x hx).2]

/-- Forces do not depend on identifiers. -/
theorem calculateForces_map {springs : List Spring} {k : ℝ} {at_ : Node → Pt} {g : Spring → Spring}
    (h : ∀ x, (g x).a = x.a ∧ (g x).b = x.b ∧ (g x).desired = x.desired) :
    calculateForces k at_ (springs.map g) = calculateForces k at_ springs := by
  unfold calculateForces
  rw [List.foldl_map]
  apply foldl_congr_mem
  intro x _ b
  obtain ⟨h1, h2, h3⟩ := h x
  simp only [Spring.applyForces, Spring.deltaA, Spring.deltaB, h1, h2, h3]

/-- A physical state moved by `d`. -/
def Phys.shift (d : Pt) (q : Phys) : Phys := ⟨Mesh.shift d q.pos, q.vel⟩

/-- The two environments differ by a translation of the inserted anchors (and by identifiers). -/
structure EnvShift (d : Pt) (e1 e2 : Env) : Prop where
  k : e2.k = e1.k
  friction : e2.friction = e1.friction
  locks : e2.locks = e1.locks
  springs : ∃ g : Spring → Spring, (∀ x, (g x).a = x.a ∧ (g x).b = x.b ∧ (g x).desired = x.desired) ∧
    e2.springs = e1.springs.map g
  ends : ∀ m, EndsShift d e1.springs (e1.at_ m) (e2.at_ (Mesh.shift d m))

theorem springStep_shift {d : Pt} {e1 e2 : Env} (h : EnvShift d e1 e2) (q : Phys) :
    springStep e2 (q.shift d) = ((springStep e1 q).1.shift d, (springStep e1 q).2) := by
  obtain ⟨hk, hf, hl, ⟨g, hg, hs⟩, hends⟩ := h
  have hforce : calculateForces e2.k (e2.at_ (q.shift d).pos) e2.springs =
      calculateForces e1.k (e1.at_ q.pos) e1.springs := by
    rw [hs, calculateForces_map hg, hk]
    exact calculateForces_shift (hends q.pos)
  unfold springStep
  simp only
  rw [hforce]
  unfold anchoredIntegration
  rw [hf, hl]
  simp only [Phys.shift, Mesh.shift, Prod.mk.injEq]
  refine ⟨?_, rfl⟩
  ext1
  · funext i
    simp only [Mesh.shift_apply]
    split_ifs
    · rfl
    · simp only [eulerIntegrate]
      exact Pt.add_right_comm' _ _ _
  · rfl

theorem settleIter_shift {d : Pt} {e1 e2 : Env} (h : EnvShift d e1 e2) (q : Phys) (n : ℕ) :
    settleIter e2 (q.shift d) n = (settleIter e1 q n).shift d := by
  induction n with
  | zero => rfl
  | succ n ih => rw [settleIter_succ, settleIter_succ, ih, springStep_shift h]

theorem settle_shift {d : Pt} {e1 e2 : Env} (h : EnvShift d e1 e2) (q : Phys) :
    settle e2 (q.shift d) = (settle e1 q).mapOk (· + d) := by
  have hm : ∀ n, settleMore e2 (q.shift d) n ↔ settleMore e1 q n := by
    intro n
    unfold settleMore
    rw [settleIter_shift h, springStep_shift h]
  rcases settle_cases e1 q with ⟨p, hp⟩ | hd
  · obtain ⟨n, h1, h2, rfl⟩ := settle_ok hp
    rw [hp, settle_of (n := n) (by rwa [hm]) (fun m hmn => (hm m).2 (h2 m hmn)), settleIter_shift h]
    rfl
  · rw [hd]
    rw [settle_diverges] at hd
    exact settle_diverges.2 fun n => (hm n).2 (hd n)

theorem baseSprings_from (tile : Pt) (n : ℕ) :
    baseSprings tile n = (baseSprings tile 0).map fun x => { x with id := n + x.id } := by
  simp only [baseSprings, List.map_map]
  apply List.map_congr_left
  intro e _
  simp only [Function.comp, Spring.mk.injEq, and_true]
  omega

theorem baseSprings_mesh {t : Pt} {b : ℕ} {x : Spring} (hx : x ∈ baseSprings t b) :
    (∃ i, x.a = .mesh i) ∧ ∃ i, x.b = .mesh i := by
  simp only [baseSprings, List.mem_map] at hx
  obtain ⟨e, -, rfl⟩ := hx
  exact ⟨⟨_, rfl⟩, ⟨_, rfl⟩⟩

theorem baseSprings_relabel (tile : Pt) (n m : ℕ) :
    ∃ g : Spring → Spring, (∀ x, (g x).a = x.a ∧ (g x).b = x.b ∧ (g x).desired = x.desired) ∧
      baseSprings tile m = (baseSprings tile n).map g := by
  refine ⟨fun x => { x with id := x.id - n + m }, fun x => ⟨rfl, rfl, rfl⟩, ?_⟩
  rw [baseSprings_from tile m, baseSprings_from tile n, List.map_map]
  apply List.map_congr_left
  intro x _
  simp only [Function.comp, Spring.mk.injEq, and_true]
  omega

/-- Two states in which a full integration does the same up to a translation. -/
theorem settleEnv_shift {d : Pt} {s1 s2 : State} (hs : s2.settings = s1.settings) (hl : s2.locks = s1.locks)
    (ht : s2.tile = s1.tile) : EnvShift d s1.settleEnv s2.settleEnv where
  k := by simp [State.settleEnv, hs]
  friction := by simp [State.settleEnv, hs]
  locks := hl
  springs := by
    simp only [State.settleEnv, ht]
    exact baseSprings_relabel _ _ _
  ends := by
    intro m x hx
    obtain ⟨⟨i, hi⟩, j, hj⟩ := baseSprings_mesh hx
    rw [hi, hj]
    exact ⟨rfl, rfl⟩

theorem target_shift {d : Pt} {s1 s2 : State} (hs : s2.settings = s1.settings) (hl : s2.locks = s1.locks)
    (ht : s2.tile = s1.tile) (hp : s2.pos = Mesh.shift d s1.pos) (hv : s2.vel = s1.vel) :
    s2.targetByFullIntegration = s1.targetByFullIntegration.mapOk (· + d) := by
  unfold State.targetByFullIntegration
  rw [← settle_shift (settleEnv_shift hs hl ht), hp, hv]
  rfl

/-- Outcomes of operations, moved by `d`. -/
def shiftRes (d : Pt) (r : State × Res) : State × Res := (r.1.moveBy d, r.2)

theorem moveBy_active (s : State) (d : Pt) : (s.moveBy d).active ↔ s.active := Iff.rfl

theorem recalc_shift (s : State) (d : Pt) : (s.moveBy d).recalc = s.recalc.mapOk (·.moveBy d) := by
  unfold State.recalc
  rw [target_shift (s1 := s) (s2 := s.moveBy d) rfl rfl rfl rfl rfl, mapOk_bind, bind_mapOk]
  congr 1
  funext p
  rw [show (s.moveBy d).tile = s.tile from rfl, positionArray_add]
  rfl

theorem activate_shift (s : State) (d : Pt) : (s.moveBy d).activate = s.activate.mapOk (·.moveBy d) := by
  unfold State.activate
  simp only
  have : (s.moveBy d).count = s.count := rfl
  rw [this]
  split_ifs
  · exact recalc_shift { s with count := s.count + 1 } d
  · rfl

theorem deactivate_shift (s : State) (d : Pt) : (s.moveBy d).deactivate = s.deactivate.mapOk (·.moveBy d) := by
  unfold State.deactivate
  simp only
  have : (s.moveBy d).count = s.count := rfl
  rw [this]
  split_ifs
  · rfl
  · exact recalc_shift { s with count := s.count - 1 } d
  · rfl

theorem targetPosition_shift (s : State) (d : Pt) :
    (s.moveBy d).targetPosition = s.targetPosition.mapOk fun r => (r.1.moveBy d, r.2 + d) := by
  unfold State.targetPosition
  split_ifs with h1 h2 h2
  · rfl
  · exact absurd h1 h2
  · exact absurd h2 h1
  · rw [target_shift (s1 := s) (s2 := s.moveBy d) rfl rfl rfl rfl rfl, mapOk_bind, bind_mapOk]
    rfl

theorem closestIndex_shift (m : Mesh) (p d : Pt) : closestIndex (Mesh.shift d m) (p + d) = closestIndex m p := by
  unfold closestIndex
  congr 1
  apply foldl_congr_mem
  intro i _ b
  unfold closestStep
  simp only [Mesh.shift, Pt.distance_translate]

theorem anchorData_shift (l : List Live) (d : Pt) (k : ℕ) :
    anchorData (l.map fun b => ⟨b.hid, b.kind.shift d⟩) k = (anchorData l k).map (· + d) :=
  anchorData_map_kind l (fun _ x => x.shift d) (fun _ p => p + d) (fun _ x => by cases x <;> rfl) k

theorem alive_shift (l : List Live) (d : Pt) (n : Node) :
    n.alive (l.map fun b => ⟨b.hid, b.kind.shift d⟩) ↔ n.alive l := by
  cases n with
  | mesh i => exact Iff.rfl
  | anchor h => simp only [Node.alive, anchorData_shift, Option.isSome_map]

theorem dangling_shift (s : State) (d : Pt) :
    dangling (s.moveBy d).springs (s.moveBy d).live ↔ dangling s.springs s.live := by
  unfold dangling
  simp only [State.moveBy, alive_shift]

theorem at_shift (s : State) (d : Pt) (m : Mesh) {n : Node} (h : n.alive s.live) :
    (s.moveBy d).env.at_ (Mesh.shift d m) n = s.env.at_ m n + d := by
  cases n with
  | mesh i => rfl
  | anchor k =>
    simp only [Env.at_, State.env, State.moveBy, apos, anchorData_shift]
    simp only [Node.alive] at h
    obtain ⟨q, hq⟩ := Option.isSome_iff_exists.1 h
    rw [hq]
    rfl

theorem ends_shift {s : State} (h : ¬ dangling s.springs s.live) (d : Pt) (m : Mesh) :
    EndsShift d s.springs (s.env.at_ m) ((s.moveBy d).env.at_ (Mesh.shift d m)) := by
  intro x hx
  have : x.a.alive s.live ∧ x.b.alive s.live := by
    by_contra hc
    exact h ⟨x, hx, hc⟩
  exact ⟨at_shift s d m this.1, at_shift s d m this.2⟩

theorem env_shift {s : State} (h : ¬ dangling s.springs s.live) (d : Pt) : EnvShift d s.env (s.moveBy d).env where
  k := rfl
  friction := rfl
  locks := rfl
  springs := ⟨id, fun _ => ⟨rfl, rfl, rfl⟩, by simp [State.env, State.moveBy]⟩
  ends := fun m => ends_shift h d m

theorem findSpring_shift {springs : List Spring} {at1 at2 : Node → Pt} {d p : Pt}
    (h : EndsShift d springs at1 at2) :
    findSpringToSplit at2 (p + d) springs = findSpringToSplit at1 p springs := by
  unfold findSpringToSplit
  congr 1
  apply foldl_congr_mem
  intro x hx b
  unfold splitStep
  obtain ⟨h1, h2⟩ := h x hx
  rw [h1, h2]
  simp only [Pt.distance_translate]

theorem equals_shift (p q d : Pt) : Pt.equals (p + d) (q + d) ↔ Pt.equals p q := by
  simp [Pt.equals]

open Classical in
theorem lookup_shift (pos targets : Mesh) (q d : Pt) :
    lookupTarget (Mesh.shift d pos) (Mesh.shift d targets) (q + d) = (lookupTarget pos targets q).mapOk (· + d) := by
  unfold lookupTarget
  simp only [Mesh.shift_apply, equals_shift]
  cases (List.finRange 16).find? fun i => decide (Pt.equals q (pos i)) <;> rfl

theorem preferred_shift (s : State) (q d : Pt) :
    (s.moveBy d).preferred (q + d) = (s.preferred q).mapOk (· + d) := by
  unfold State.preferred
  split_ifs with h1 h2 h2
  · exact lookup_shift _ _ _ _
  · exact absurd h1 h2
  · exact absurd h2 h1
  · rfl

theorem install_shift (s : State) (p : Pt) (x : Spring) (d1 d2 d : Pt) :
    (s.moveBy d).install (p + d) x (d1 + d) (d2 + d) = (s.install p x d1 d2).moveBy d := by
  have e : ∀ a : Pt, a + d - (p + d) = a - p := by
    intro a
    ext <;> simp
  simp only [State.install, State.moveBy, e, List.map_append, List.map_cons, List.map_nil, Kind.shift]

theorem insertSprings_shift (s : State) (p d : Pt) :
    (s.moveBy d).insertSprings (p + d) = (s.insertSprings p).mapOk (·.moveBy d) := by
  unfold State.insertSprings
  by_cases hd : dangling s.springs s.live
  · rw [if_pos hd, if_pos ((dangling_shift s d).2 hd)]
    rfl
  rw [if_neg hd, if_neg (fun h => hd ((dangling_shift s d).1 h))]
  have hf := findSpring_shift (p := p) (ends_shift hd d s.pos)
  have hf' : findSpringToSplit ((s.moveBy d).env.at_ (s.moveBy d).pos) (p + d) (s.moveBy d).springs =
      findSpringToSplit (s.env.at_ s.pos) p s.springs := hf
  rw [hf']
  cases hc : findSpringToSplit (s.env.at_ s.pos) p s.springs with
  | none => rfl
  | some x =>
    simp only
    have hx := splitStep_mem _ _ _ _ hc
    obtain ⟨h1, h2⟩ := ends_shift hd d s.pos x hx
    have h1' : (s.moveBy d).env.at_ (s.moveBy d).pos x.a = s.env.at_ s.pos x.a + d := h1
    have h2' : (s.moveBy d).env.at_ (s.moveBy d).pos x.b = s.env.at_ s.pos x.b + d := h2
    rw [h1', h2', preferred_shift, preferred_shift]
    simp only [mapOk_bind, bind_mapOk, mapOk_ok, install_shift]

theorem shift_shift (k : Kind) (a b : Pt) : (k.shift a).shift b = (k.shift b).shift a := by
  cases k with
  | grab i => rfl
  | ins p st f g => simp only [Kind.shift, Pt.add_right_comm']

theorem find_shift (l : List Live) (d : Pt) (k : ℕ) :
    (l.map fun b => (⟨b.hid, b.kind.shift d⟩ : Live)).find? (fun a => decide (a.hid = k)) =
      (l.find? fun a => decide (a.hid = k)).map fun b => ⟨b.hid, b.kind.shift d⟩ := by
  rw [List.find?_map]
  rfl

theorem constrain_shift (r : ℝ) (t p : Mesh) (d : Pt) :
    constrain r (Mesh.shift d t) (Mesh.shift d p) = (constrain r t p).mapOk fun c => (Mesh.shift d c.1, c.2) := by
  unfold constrain
  simp only [Mesh.shift_apply, Pt.distance_translate]
  split_ifs
  · rfl
  · simp only [mapOk_ok, Outcome.ok.injEq, Prod.mk.injEq, and_true]
    funext i
    simp only [Mesh.shift_apply]
    split_ifs
    · rfl
    · simp only [constrainPoint, Pt.distance_translate]
      ext <;> simp <;> ring

theorem round_shift {s : State} (h : ¬ dangling s.springs s.live) (d : Pt) (q : Phys) :
    (s.moveBy d).round (q.shift d) = (s.round q).mapOk fun r => (r.1.shift d, r.2) := by
  unfold State.round
  split_ifs with h1 h2 h2
  · have hc := constrain_shift s.settings.maximumRange s.targets q.pos d
    have hc' : constrain (s.moveBy d).settings.maximumRange (s.moveBy d).targets (q.shift d).pos = _ := hc
    rw [hc', mapOk_bind, bind_mapOk]
    congr 1
    funext c
    have := springStep_shift (env_shift h d) ⟨c.1, q.vel⟩
    have this' : springStep (s.moveBy d).env ⟨Mesh.shift d c.1, (q.shift d).vel⟩ = _ := this
    simp only [this', mapOk_ok]
  · exact absurd h1 h2
  · exact absurd h2 h1
  · simp only [springStep_shift (env_shift h d), mapOk_ok]

theorem integrate_shift {s : State} (h : ¬ dangling s.springs s.live) (d : Pt) (n : ℕ) (q : Phys) :
    (s.moveBy d).integrate n (q.shift d) = (s.integrate n q).mapOk fun r => (r.1.shift d, r.2) := by
  induction n generalizing q with
  | zero => rfl
  | succ n ih =>
    simp only [State.integrate, round_shift h, mapOk_bind, bind_mapOk, ih, mapOk_ok]

open Classical in
theorem step_shift (s : State) (d : Pt) (t : ℕ) : (s.moveBy d).step t = (s.step t).mapOk (shiftRes d) := by
  unfold State.step
  by_cases hd : stepCount t ≠ 0 ∧ dangling s.springs s.live
  · rw [if_pos hd, if_pos ⟨hd.1, (dangling_shift s d).2 hd.2⟩]
    rfl
  rw [if_neg hd, if_neg (fun h => hd ⟨h.1, (dangling_shift s d).1 h.2⟩)]
  have hi : (s.moveBy d).integrate (stepCount t) ⟨(s.moveBy d).pos, (s.moveBy d).vel⟩ =
      (s.integrate (stepCount t) ⟨s.pos, s.vel⟩).mapOk fun r => (r.1.shift d, r.2) := by
    by_cases h0 : stepCount t = 0
    · rw [h0]
      rfl
    · exact integrate_shift (fun h => hd ⟨h0, h⟩) d _ ⟨s.pos, s.vel⟩
  rw [hi, mapOk_bind, bind_mapOk]
  congr 1
  funext r
  simp only [mapOk_ok, shiftRes, Outcome.ok.injEq, Prod.mk.injEq]
  refine ⟨?_, rfl⟩
  simp only [State.moveBy, State.mk.injEq, true_and, and_true]
  refine ⟨?_, rfl⟩
  exact (apply_ite (Mesh.shift d) _ _ _).symm

theorem rescale_shift (f o p d : Pt) : rescale f (o + d) (p + d) = rescale f o p + d := by
  unfold rescale
  ext <;> simp <;> ring

theorem kind_scale_shift (k : Kind) (f o d : Pt) : (k.shift d).scale f (o + d) = (k.scale f o).shift d := by
  cases k with
  | grab i => rfl
  | ins p st g h => simp only [Kind.shift, Kind.scale, rescale_shift]

open Classical in
/-- Every call commutes with translations. -/
theorem exec_shift (s : State) (op : Op) (d : Pt) :
    (s.moveBy d).exec (shiftOp d op) = (s.exec op).mapOk (shiftRes d) := by
  cases op with
  | grab p =>
    simp only [shiftOp, State.exec, State.grab]
    have hc : closestIndex (s.moveBy d).pos (p + d) = closestIndex s.pos p := closestIndex_shift _ _ _
    rw [hc]
    cases closestIndex s.pos p with
    | none => rfl
    | some i =>
      simp only
      have ha := activate_shift { s with unequal := True } d
      have ha' : ({ s.moveBy d with unequal := True } : State).activate = _ := ha
      rw [ha', mapOk_bind, bind_mapOk]
      congr 1
      funext z
      simp only [mapOk_ok, shiftRes, State.moveBy, State.lock, List.map_append, List.map_cons, List.map_nil, Kind.shift]
      rfl
  | insert p =>
    simp only [shiftOp, State.exec, State.insert]
    have ha := activate_shift { s with unequal := True } d
    have ha' : ({ s.moveBy d with unequal := True } : State).activate = _ := ha
    rw [ha', mapOk_bind, bind_mapOk]
    congr 1
    funext z
    rw [insertSprings_shift, mapOk_bind, bind_mapOk]
    rfl
  | moveAnchor k v =>
    simp only [shiftOp, State.exec, State.moveAnchor]
    have hf : (s.moveBy d).live.find? (fun a => decide (a.hid = k)) = _ := find_shift s.live d k
    rw [hf]
    cases hc : s.live.find? (fun a => decide (a.hid = k)) with
    | none => rfl
    | some a =>
      simp only [Option.map_some]
      have ht : (if (s.moveBy d).active then fun i => (s.moveBy d).targets i + v else (s.moveBy d).targets) =
          Mesh.shift d (if s.active then fun i => s.targets i + v else s.targets) := by
        simp only [moveBy_active]
        split_ifs
        · funext i
          exact Pt.add_right_comm' _ _ _
        · rfl
      cases hk : a.kind with
      | grab i =>
        simp only [Kind.shift]
        rw [ht]
        simp only [mapOk_ok, shiftRes, State.moveBy, Outcome.ok.injEq, Prod.mk.injEq, and_true,
          State.mk.injEq, true_and]
        refine ⟨rfl, ?_⟩
        funext j
        by_cases hj : j = i
        · subst hj
          simp only [Function.update_self]
          exact Pt.add_right_comm' _ _ _
        · simp only [Function.update_of_ne hj]
      | ins p st f g =>
        simp only [Kind.shift]
        rw [ht]
        simp only [mapOk_ok, shiftRes, State.moveBy, Outcome.ok.injEq, Prod.mk.injEq, and_true,
          State.mk.injEq, true_and, List.map_map]
        refine ⟨rfl, ?_⟩
        apply List.map_congr_left
        intro b _
        simp only [Function.comp]
        split_ifs
        · have := shift_shift b.kind d v
          exact congrArg (Live.mk b.hid) this
        · rfl
  | release k =>
    simp only [shiftOp, State.exec, State.release]
    have hf : (s.moveBy d).live.find? (fun a => decide (a.hid = k)) = _ := find_shift s.live d k
    rw [hf]
    cases hc : s.live.find? (fun a => decide (a.hid = k)) with
    | none => rfl
    | some a =>
      simp only [Option.map_some]
      have hl : ({ s.moveBy d with live := (s.moveBy d).live.filter fun b => decide (b.hid ≠ k) } : State) =
          State.moveBy { s with live := s.live.filter fun b => decide (b.hid ≠ k) } d := by
        simp only [State.moveBy, List.filter_map]
        rfl
      have hr : ∀ (z : State) (x : Kind), (z.moveBy d).releaseKind (x.shift d) = (z.releaseKind x).mapOk (·.moveBy d) := by
        intro z x
        cases x with
        | grab i =>
          simp only [Kind.shift, State.releaseKind, State.unlock]
          have : (z.moveBy d).locks = z.locks := rfl
          rw [this]
          by_cases h0 : z.locks i = 0
          · rw [if_pos h0, if_pos h0]
            rfl
          · rw [if_neg h0, if_neg h0]
            rfl
        | ins p st f g =>
          simp only [Kind.shift, State.releaseKind, mapOk_ok]
          rw [removeTracked_eq, removeTracked_eq, replace_eq, removeTracked_eq, removeTracked_eq, replace_eq]
          rfl
      rw [hl, hr, mapOk_bind, bind_mapOk]
      congr 1
      funext z
      rw [deactivate_shift, mapOk_bind, bind_mapOk]
      rfl
  | step t => exact step_shift s d t
  | moveBy v =>
    simp only [shiftOp, State.exec, mapOk_ok, shiftRes, State.moveBy, Outcome.ok.injEq, Prod.mk.injEq, and_true,
      State.mk.injEq, true_and, List.map_map]
    refine ⟨?_, ?_, ?_⟩
    · funext i
      exact Pt.add_right_comm' _ _ _
    · funext i
      exact Pt.add_right_comm' _ _ _
    · apply List.map_congr_left
      intro b _
      simp only [Function.comp, shift_shift]
  | moveTo p =>
    simp only [shiftOp, State.exec, State.moveTo, targetPosition_shift, mapOk_bind, bind_mapOk]
    congr 1
    funext r
    have e : p + d - (r.2 + d) = p - r.2 := by ext <;> simp
    simp only [e, mapOk_ok, shiftRes, State.moveBy, Outcome.ok.injEq, Prod.mk.injEq, and_true,
      State.mk.injEq, true_and, List.map_map]
    refine ⟨?_, ?_, ?_⟩
    · funext i
      exact Pt.add_right_comm' _ _ _
    · funext i
      exact Pt.add_right_comm' _ _ _
    · apply List.map_congr_left
      intro b _
      simp only [Function.comp, shift_shift]
  | resize w h =>
    simp only [shiftOp, State.exec, State.resize]
    have e1 : (s.moveBy d).width = s.width := rfl
    have e2 : (s.moveBy d).height = s.height := rfl
    simp only [e1, e2]
    by_cases h1 : ¬ (w > 0 ∧ h > 0)
    · rw [if_pos h1, if_pos h1]
      rfl
    rw [if_neg h1, if_neg h1]
    by_cases h2 : s.width = 0 ∨ s.height = 0
    · rw [if_pos h2, if_pos h2]
      rfl
    rw [if_neg h2, if_neg h2]
    by_cases h3 : Pt.equals ⟨w / s.width, h / s.height⟩ ⟨1, 1⟩
    · rw [if_pos h3, if_pos h3]
      rfl
    · rw [if_neg h3, if_neg h3]
      simp only [targetPosition_shift, mapOk_bind, bind_mapOk]
      congr 1
      funext r
      simp only [mapOk_ok, shiftRes, State.moveBy, Outcome.ok.injEq, Prod.mk.injEq, and_true,
        State.mk.injEq, true_and, List.map_map, rescale_shift]
      apply List.map_congr_left
      intro b _
      simp only [Function.comp, kind_scale_shift]
  | setSettings x => rfl
  | elsewhere n => rfl

theorem run_shift (s : State) (ops : List Op) (d : Pt) :
    (s.moveBy d).run (ops.map (shiftOp d)) = (s.run ops).mapOk fun r => (r.1.moveBy d, r.2) := by
  induction ops generalizing s with
  | nil => rfl
  | cons op ops ih =>
    simp only [List.map_cons, State.run, exec_shift, mapOk_bind, bind_mapOk, shiftRes, ih, mapOk_ok]

end Wobbly

end Verif
