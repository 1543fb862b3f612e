import Verif.Lemmas.WobblyKeep
import Verif.Lemmas.WobblyBlock
import Verif.Props.WobblyHang

/-! # Wobbly: an anchor keeps the place where the model would have come to rest (C114) -/

namespace Verif.Props

open Wobbly Spec Outcome

variable {p : Pt} {w h : ℝ} {x : Settings} {b : ℕ} {ops : List Op} {rs : List Res} {s : State}

/-! ## A model given a nudge -/

/-- `a` at the top left point, `c` at its two neighbours. -/
noncomputable def tri (a c : ℝ) (i : Idx) : ℝ := if i = 0 then a else if i = 1 ∨ i = 4 then c else 0

theorem tri_calm {a c : ℝ} (h1 : |c - a| < 1) (h2 : |c| < 1) : ∀ z ∈ baseEdges, |tri a c z.2.1 - tri a c z.1| < 1 := by
  rw [baseEdges_list]
  simp [tri, h1, h2]

theorem tri_force : slidForce 8 (tri 1 0) = tri (-8) 4 := by
  funext i
  unfold slidForce
  rw [baseEdges_list]
  fin_cases i <;> simp [tri, pull_zero, pull_minus_one] <;> norm_num

theorem settle_nudge {e : Env} {p tile : Pt} {b : ℕ} (hs : e.springs = baseSprings tile b) (hk : e.k = 8)
    (hf : e.friction = 10) (hl : ∀ i, ¬ e.locks i > 0) :
    settle e (slid p tile (tri 1 0) (tri 0 0)) = .ok (p + ⟨29 / 45, 0⟩) := by
  have hv : ∀ u a c a' c' fa fc, slidForce 8 u = tri fa fc → eulerVelocity 1 10 mass a fa = a' →
      eulerVelocity 1 10 mass c fc = c' → slidVel e u (tri a c) = tri a' c' := by
    intro u a c a' c' fa fc h1 h2 h3
    funext i
    unfold slidVel
    rw [if_neg (hl i), hk, hf, h1]
    unfold tri
    split_ifs
    · exact h2
    · exact h3
    · rw [eulerVelocity_free]
      simp [clip_zero]
  have hcalm : ∀ a c, |c - a| < 1 → |c| < 1 → slidForce 8 (tri a c) = tri 0 0 := by
    intro a c h1 h2
    funext i
    rw [slidForce_calm (tri_calm h1 h2)]
    simp [tri]
  have v1 : slidVel e (tri 1 0) (tri 0 0) = tri (-8 / 15) (4 / 15) :=
    hv _ _ _ _ _ _ _ tri_force (by norm_num [eulerVelocity, mass, clip, abs_lt]) (by norm_num [eulerVelocity, mass, clip, abs_lt])
  have v2 : slidVel e (tri (11 / 15) (2 / 15)) (tri (-8 / 15) (4 / 15)) = tri (-8 / 45) 0 :=
    hv _ _ _ _ _ _ _ (hcalm _ _ (by norm_num [abs_lt]) (by norm_num [abs_lt]))
      (by norm_num [eulerVelocity, mass, clip, abs_lt]) (by norm_num [eulerVelocity, mass, clip, abs_lt])
  have v3 : slidVel e (tri (29 / 45) (2 / 15)) (tri (-8 / 45) 0) = tri 0 0 :=
    hv _ _ _ _ _ _ _ (hcalm _ _ (by norm_num [abs_lt]) (by norm_num [abs_lt]))
      (by norm_num [eulerVelocity, mass, clip, abs_lt]) (by norm_num [eulerVelocity, mass, clip, abs_lt])
  have hadd : ∀ a c v w a' c', a + v * (1 / 2) = a' → c + w * (1 / 2) = c' →
      (fun i => tri a c i + tri v w i * (1 / 2)) = tri a' c' := by
    intro a c v w a' c' h1 h2
    funext i
    unfold tri
    split_ifs
    · exact h1
    · exact h2
    · ring
  obtain ⟨p1, m1⟩ := springStep_slid (p := p) hs (tri 1 0) (tri 0 0)
  obtain ⟨p2, m2⟩ := springStep_slid (p := p) hs (tri (11 / 15) (2 / 15)) (tri (-8 / 15) (4 / 15))
  obtain ⟨p3, m3⟩ := springStep_slid (p := p) hs (tri (29 / 45) (2 / 15)) (tri (-8 / 45) 0)
  rw [v1, hadd 1 0 (-8 / 15) (4 / 15) (11 / 15) (2 / 15) (by norm_num) (by norm_num)] at p1
  rw [v2, hadd (11 / 15) (2 / 15) (-8 / 45) 0 (29 / 45) (2 / 15) (by norm_num) (by norm_num)] at p2
  rw [v3, hadd (29 / 45) (2 / 15) 0 0 (29 / 45) (2 / 15) (by norm_num) (by norm_num)] at p3
  set q := slid p tile (tri 1 0) (tri 0 0) with hq
  have i1 : settleIter e q 1 = slid p tile (tri (11 / 15) (2 / 15)) (tri (-8 / 15) (4 / 15)) := p1
  have i2 : settleIter e q 2 = slid p tile (tri (29 / 45) (2 / 15)) (tri (-8 / 45) 0) := by
    rw [settleIter_add e q 1 1, i1]
    exact p2
  have i3 : settleIter e q 3 = slid p tile (tri (29 / 45) (2 / 15)) (tri 0 0) := by
    rw [settleIter_add e q 2 1, i2]
    exact p3
  have := settle_of (e := e) (q := q) (n := 2)
    (by
      unfold settleMore
      rw [i2, m3, v3]
      rintro (⟨z, hz, h⟩ | ⟨i, -, h⟩)
      · exact h (tri_calm (by norm_num [abs_lt]) (by norm_num [abs_lt]) z hz)
      · simp [tri] at h)
    (by
      intro m hm
      obtain rfl | rfl : m = 0 ∨ m = 1 := by omega
      · unfold settleMore
        have : settleIter e q 0 = q := settleIter_zero _ _
        rw [this, m1, v1]
        exact Or.inr ⟨0, hl 0, by norm_num [tri]⟩
      · unfold settleMore
        rw [i1, m2, v2]
        exact Or.inr ⟨0, hl 0, by norm_num [tri]⟩)
  rw [this, i3]
  simp only [slid, positionArray_zero]
  norm_num [tri]

/-- Grabbing the corner of a model, moving it by one pixel and letting go. -/
theorem corner_nudged (p : Pt) {w h : ℝ} (x : Settings) (b : ℕ) (hw : w ≠ 0) (hh : h ≠ 0)
    (hz : ∀ i, Representable ((State.new p w h x b).pos i)) :
    ∃ s, (State.new p w h x b).run [.grab p, .moveAnchor 0 ⟨1, 0⟩, .release 0] = .ok (s, [.handle 0, .none, .none]) ∧
      s.live = [] ∧ s.nextHid = 1 ∧ s.width = w ∧ s.height = h ∧ s.settings = x ∧ (∀ i, s.locks i = 0) ∧
      (⟨s.pos, s.vel⟩ : Phys) = slid p s.tile (tri 1 0) (tri 0 0) := by
  set m := State.new p w h x b with hm
  have hR : AtRest m := new_atRest p w h x b
  have hp0 : m.pos 0 = p := positionArray_zero _ _
  obtain ⟨i, t, n, hi, e1, -, -⟩ := grab_atRest hR hz (hz 0)
  rw [closest_at (new_injective hw hh) hz 0] at hi
  simp only [Option.some.injEq] at hi
  subst hi
  set s1 := grabbed m 0 t n with hs1
  have e2 : s1.exec (.moveAnchor 0 ⟨1, 0⟩) = .ok ({ s1 with
      targets := fun i => s1.targets i + ⟨1, 0⟩
      pos := Function.update s1.pos 0 (s1.pos 0 + ⟨1, 0⟩) }, .none) := by
    simp only [State.exec, State.moveAnchor]
    have hf : s1.live.find? (fun a => decide (a.hid = 0)) = some ⟨0, .grab 0⟩ := rfl
    rw [hf]
    simp only
    have ha : s1.active := rfl
    rw [if_pos ha]
  set s2 : State := { s1 with
      targets := fun i => s1.targets i + ⟨1, 0⟩
      pos := Function.update s1.pos 0 (s1.pos 0 + ⟨1, 0⟩) } with hs2
  have hlock : s2.locks 0 = 1 := rfl
  have e3 := release_last (s := s2) (k := 0) (i := 0) rfl (by rw [hlock]; norm_num) rfl
  set s3 : State := { unlocked ({ s2 with live := [] } : State) 0 with count := 0 } with hs3
  have e1' : m.exec (.grab p) = .ok (s1, .handle 0) := by rw [← hp0]; exact e1
  refine ⟨s3, ?_, rfl, rfl, rfl, rfl, rfl, fun i => ?_, ?_⟩
  · simp only [State.run, e1', e2, e3, bind_ok]
  · show Function.update s2.locks 0 (s2.locks 0 - 1) i = 0
    by_cases hi : i = 0
    · subst hi
      rw [Function.update_self, hlock]
    · rw [Function.update_of_ne hi]
      show Function.update m.locks 0 (m.locks 0 + 1) i = 0
      rw [Function.update_of_ne hi]
      rfl
  · unfold slid
    ext1
    · funext i
      show Function.update m.pos 0 (m.pos 0 + ⟨1, 0⟩) i = positionArray p m.tile i + _
      by_cases hi : i = 0
      · subst hi
        rw [Function.update_self]
        simp only [tri, if_true]
        rfl
      · rw [Function.update_of_ne hi]
        show positionArray p m.tile i = _
        ext <;> simp [tri, hi]
    · funext i
      show (0 : Pt) = _
      ext <;> simp [tri]

theorem nudged_settles (p : Pt) {w h : ℝ} (R : ℝ) (b : ℕ) (hw : w ≠ 0) (hh : h ≠ 0)
    (hz : ∀ i, Representable ((State.new p w h ⟨8, 10, R⟩ b).pos i)) :
    ∃ s, (State.new p w h ⟨8, 10, R⟩ b).run [.grab p, .moveAnchor 0 ⟨1, 0⟩, .release 0] =
        .ok (s, [.handle 0, .none, .none]) ∧
      s.live = [] ∧ s.nextHid = 1 ∧ s.width = w ∧ s.height = h ∧ s.targetByFullIntegration = .ok (p + ⟨29 / 45, 0⟩) ∧
      ∀ i, s.pos i = positionArray p s.tile i + ⟨tri 1 0 i, 0⟩ := by
  obtain ⟨s, e, h1, h2, h3, h4, h5, h6, h7⟩ := corner_nudged p ⟨8, 10, R⟩ b hw hh hz
  refine ⟨s, e, h1, h2, h3, h4, ?_, fun i => ?_⟩
  · unfold State.targetByFullIntegration
    rw [h7]
    exact settle_nudge (e := s.settleEnv) (tile := s.tile) (b := s.lastId) rfl (by show s.settings.springConstant = 8; rw [h5])
      (by show s.settings.friction = 10; rw [h5]) (fun i => by show ¬ s.locks i > 0; rw [h6]; norm_num)
  · exact congrFun (congrArg Phys.pos h7) i

theorem nudge_allowed (s : State) : AllAlong ResizeAllowed s [.grab p, .moveAnchor 0 ⟨1, 0⟩, .release 0] := by
  refine allAlong_of (fun op hop s' => ?_) _
  simp only [List.mem_cons, List.not_mem_nil, or_false] at hop
  rcases hop with rfl | rfl | rfl <;> trivial

theorem corner_rep : ∀ i, Representable ((State.new ⟨0, 0⟩ 300 300 ⟨8, 10, 500⟩ 0).pos i) := demo_rep

/-! ## The place -/

/-- **C114.** After any history (without resizing while an anchor is inserted) that leaves no anchor: suppose that
calling `Step` until it answers that nothing moves would bring the top-left mesh point to `s1.pos 0`. If `GrabAnchor`
or `InsertAnchor` is called instead, and then the program drags, moves, resizes and steps the model while holding
that anchor, then a `Step` that answers that nothing moves leaves every mesh point on the regular lattice of the
model's size with its corner at `s1.pos 0`, carried along by the drags and moves. -/
theorem C114_keeps_the_place (e : (State.new p w h x b).run ops = .ok (s, rs))
    (hr : AllAlong ResizeAllowed (State.new p w h x b) ops) (hl : s.live = [])
    {ts : List ℕ} {t : ℕ} (ht : t ≠ 0) {s1 : State} {rs1 : List Res} {m : Prop}
    (es : s.run ((ts ++ [t]).map .step) = .ok (s1, rs1 ++ [.more m])) (hm : ¬ m)
    {op : Op} {g : Pt} (hop : op = .grab g ∨ op = .insert g) {s2 : State} {k : ℕ}
    (ea : s.exec op = .ok (s2, .handle k)) {held : List HeldOp} {s3 : State} {rs3 : List Res}
    (eh : s2.run (held.map (HeldOp.call k)) = .ok (s3, rs3))
    {t' : ℕ} (ht' : t' ≠ 0) {s4 : State} {m' : Prop} (e4 : s3.exec (.step t') = .ok (s4, .more m')) (hm' : ¬ m') :
    ∀ i, s4.pos i = ((⟨s1.pos 0, s.width, s.height⟩ : Spot).heldAll held).point i ∧ s4.vel i = 0 := by
  have hI := inv_run e
  have hc : s.count = 0 := by rw [hI.count, hl]; rfl
  have hset := unheld_settles hI (baseLen_run hr e) hl ht es hm
  have T : Tracks k ⟨s1.pos 0, s.width, s.height⟩ s2 := by
    rcases hop with rfl | rfl
    · exact grab_tracks hl hc hset ea
    · exact insert_tracks hl hc hset ea
  have T3 := tracks_run T eh
  have h4 := (still_active (s := s3) T3.count ht' e4 hm').1
  intro i
  rw [h4]
  exact ⟨T3.targets i, rfl⟩

/-- The corner of a model is grabbed, moved by one pixel and released. The model would come to rest 29/45 of a pixel to
the right of where it was, and it can be grabbed there. -/
example : ∃ s s1 rs1 n, (State.new ⟨0, 0⟩ 300 300 ⟨8, 10, 500⟩ 0).run [.grab ⟨0, 0⟩, .moveAnchor 0 ⟨1, 0⟩, .release 0] =
      .ok (s, [.handle 0, .none, .none]) ∧
    s.live = [] ∧ s.run ((List.replicate n 16 ++ [16]).map .step) = .ok (s1, rs1 ++ [.more False]) ∧
    s1.pos 0 = ⟨29 / 45, 0⟩ := by
  obtain ⟨s, e, hl, -, -, -, ht, -⟩ := nudged_settles ⟨0, 0⟩ 500 0 (by norm_num) (by norm_num) corner_rep
  obtain ⟨n, s1, rs1, h1, h2⟩ := settles_unheld (inv_run e) (baseLen_run (nudge_allowed _) e) hl ht
  refine ⟨s, s1, rs1, n, e, hl, h1, ?_⟩
  rw [h2]
  ext <;> simp

/-- **C114.** Such calls return: in a model without anchors, `GrabAnchor` and `InsertAnchor` at representable
coordinates return exactly if calling `Step` again and again would come to an answer that nothing moves. Otherwise
they run for ever. -/
theorem C114_returns_iff_rests (e : (State.new p w h x b).run ops = .ok (s, rs))
    (hr : AllAlong ResizeAllowed (State.new p w h x b) ops) (hl : s.live = [])
    (hz : ∀ i, Representable (s.pos i)) {g : Pt} (hg : Representable g) {op : Op} (hop : op = .grab g ∨ op = .insert g) :
    ((∃ s2 k, s.exec op = .ok (s2, .handle k)) ↔
      ∃ ts s1 rs1, s.run ((ts ++ [16]).map .step) = .ok (s1, rs1 ++ [.more False])) ∧
    ((∃ s2 k, s.exec op = .ok (s2, .handle k)) ∨ s.exec op = .diverges) := by
  have hI := inv_run e
  have hB := baseLen_run hr e
  have hc : s.count = 0 := by rw [hI.count, hl]; rfl
  have hperm := springs_perm hI hB (noneInserted_nil hl)
  have hok : ∀ c, s.targetByFullIntegration = .ok c → ∃ s2 k, s.exec op = .ok (s2, .handle k) := by
    intro c h
    have ha := activate_first hc h
    rcases hop with rfl | rfl
    · obtain ⟨i, hi, -⟩ := closest_of_representable hz hg
      simp only [State.exec, State.grab, hi]
      rw [ha, bind_ok]
      exact ⟨_, _, rfl⟩
    · have hz' : ∀ y ∈ s.springs, Representable (s.env.at_ s.pos y.a) ∧ Representable (s.env.at_ s.pos y.b) := by
        intro y hy
        obtain ⟨⟨i, hi⟩, j, hj⟩ := base_ends_mesh (hperm.mem_iff.1 hy)
        rw [hi, hj]
        exact ⟨hz i, hz j⟩
      obtain ⟨found, hm, hf, -⟩ := find_spring (inv_springs_ne hI) hz' hg
      obtain ⟨⟨i, hi⟩, j, hj⟩ := base_ends_mesh (hperm.mem_iff.1 hm)
      obtain ⟨i', -, h1⟩ := lookup_mesh s.pos (positionArray c s.tile) i
      obtain ⟨j', -, h2⟩ := lookup_mesh s.pos (positionArray c s.tile) j
      simp only [State.exec, State.insert]
      rw [ha, bind_ok]
      set z : State := ⟨s.width, s.height, s.settings, s.locks, s.firstAnchor, positionArray c s.tile, s.count + 1, s.pos,
        s.vel, s.springs, s.pending, s.lastId + springCount, True, s.live, s.nextHid⟩ with hzd
      have hd : ¬ dangling z.springs z.live := fine_of_perm hperm
      have hf' : findSpringToSplit (z.env.at_ z.pos) g z.springs = some found := hf
      have hact : z.active := by
        show s.count + 1 = 1
        omega
      have h1' : z.preferred (z.env.at_ z.pos found.a) = .ok (positionArray c s.tile i') := by
        unfold State.preferred
        rw [if_pos hact, hi]
        exact h1
      have h2' : z.preferred (z.env.at_ z.pos found.b) = .ok (positionArray c s.tile j') := by
        unfold State.preferred
        rw [if_pos hact, hj]
        exact h2
      unfold State.insertSprings
      rw [if_neg hd]
      simp only [hf', h1', h2', bind_ok]
      exact ⟨_, _, rfl⟩
  have hdiv : s.targetByFullIntegration = .diverges → s.exec op = .diverges := by
    intro h
    have ha : ({ s with unequal := True } : State).activate = .diverges := by
      unfold State.activate
      simp only
      rw [if_pos (by rw [hc])]
      unfold State.recalc
      have : State.targetByFullIntegration { ({ s with unequal := True } : State) with count := s.count + 1 } = .diverges := h
      simp only at this ⊢
      rw [this]
      rfl
    rcases hop with rfl | rfl
    · obtain ⟨i, hi, -⟩ := closest_of_representable hz hg
      simp only [State.exec, State.grab, hi]
      rw [ha]
      rfl
    · simp only [State.exec, State.insert]
      rw [ha]
      rfl
  rcases settle_cases s.settleEnv ⟨s.pos, s.vel⟩ with ⟨c, h⟩ | h
  · obtain ⟨n, s1, rs1, h1, -⟩ := settles_unheld hI hB hl h
    exact ⟨⟨fun _ => ⟨_, s1, rs1, h1⟩, fun _ => hok c h⟩, Or.inl (hok c h)⟩
  · refine ⟨⟨?_, ?_⟩, Or.inr (hdiv h)⟩
    · rintro ⟨s2, k, h2⟩
      rw [hdiv h] at h2
      simp at h2
    · rintro ⟨ts, s1, rs1, h1⟩
      have := unheld_settles hI hB hl (by norm_num) h1 not_false
      unfold State.targetByFullIntegration at this
      rw [h] at this
      simp at this

example : ∃ s s2 k, (State.new ⟨0, 0⟩ 300 300 ⟨8, 10, 500⟩ 0).run [.grab ⟨0, 0⟩, .moveAnchor 0 ⟨1, 0⟩, .release 0] =
      .ok (s, [.handle 0, .none, .none]) ∧ (∀ i, Representable (s.pos i)) ∧ s.exec (.insert ⟨50, 50⟩) = .ok (s2, .handle k) := by
  obtain ⟨s, e, hl, -, hw, hh, ht, hp⟩ := nudged_settles ⟨0, 0⟩ 500 0 (by norm_num) (by norm_num) corner_rep
  have hz : ∀ i, Representable (s.pos i) := by
    intro i
    rw [hp]
    simp only [State.tile, hw, hh, positionArray, tri]
    have h1 : (col i : ℝ) ≤ 3 := by
      have : col i ≤ 3 := by unfold col; omega
      exact_mod_cast this
    have h2 : (row i : ℝ) ≤ 3 := by
      have : row i ≤ 3 := by unfold row; omega
      exact_mod_cast this
    have h3 : (0 : ℝ) ≤ col i := Nat.cast_nonneg _
    have h4 : (0 : ℝ) ≤ row i := Nat.cast_nonneg _
    refine rep_small ?_ ?_
    · simp only [Pt.add_x]
      rw [abs_le]
      split_ifs <;> norm_num <;> constructor <;> linarith
    · simp only [Pt.add_y]
      rw [abs_le]
      norm_num
      constructor <;> linarith
  obtain ⟨n, s1, rs1, h1, -⟩ := settles_unheld (inv_run e) (baseLen_run (nudge_allowed _) e) hl ht
  obtain ⟨s2, k, h2⟩ := (C114_returns_iff_rests e (nudge_allowed _) hl hz (g := ⟨50, 50⟩)
    (rep_small (by norm_num [abs_of_pos]) (by norm_num [abs_of_pos])) (Or.inr rfl)).1.2 ⟨_, s1, rs1, h1⟩
  exact ⟨s, s2, k, e, hz, h2⟩

/-- **C114.** When the first anchor is inserted, its spring to a mesh point gets a length so that the spring is at ease
when the model has come to rest with the anchor unmoved: the resting place of that mesh point, or of the first mesh
point that is at exactly the same place, seen from the place of insertion. -/
theorem C114_first_lengths (e : (State.new p w h x b).run ops = .ok (s, rs))
    (hr : AllAlong ResizeAllowed (State.new p w h x b) ops) (hl : s.live = [])
    {ts : List ℕ} {t : ℕ} (ht : t ≠ 0) {s1 : State} {rs1 : List Res} {m : Prop}
    (es : s.run ((ts ++ [t]).map .step) = .ok (s1, rs1 ++ [.more m])) (hm : ¬ m)
    {g : Pt} {s2 : State} {k : ℕ} (ea : s.exec (.insert g) = .ok (s2, .handle k))
    {y : Spring} (hy : y ∈ s2.springs) (hya : y.a = .anchor k) {i : Idx} (hyb : y.b = .mesh i) :
    ∃ j, s.pos j = s.pos i ∧ (∀ j', s.pos j' = s.pos i → j ≤ j') ∧
      y.desired = (⟨s1.pos 0, s.width, s.height⟩ : Spot).point j - g := by
  have hI := inv_run e
  have hB := baseLen_run hr e
  have hc : s.count = 0 := by rw [hI.count, hl]; rfl
  have hset := unheld_settles hI hB hl ht es hm
  have T := insert_tracks hl hc hset ea
  obtain ⟨t, n, found, d1, d2, -, -, -, hf, hp1, hp2, rfl, hk⟩ := insert_ok ea
  have hact : (preInsert s t n).active := by
    show s.count + 1 = 1
    omega
  have hperm := springs_perm hI hB (noneInserted_nil hl)
  have hend : ∀ (q : Node) (d : Pt), q = .mesh i → (preInsert s t n).preferred (s.env.at_ s.pos q) = .ok d →
      ∃ j, s.pos j = s.pos i ∧ (∀ j', s.pos j' = s.pos i → j ≤ j') ∧
        d - g = (⟨s1.pos 0, s.width, s.height⟩ : Spot).point j - g := by
    intro q d hq hd
    unfold State.preferred at hd
    rw [if_pos hact, hq] at hd
    have h3 : lookupTarget s.pos t (s.pos i) = .ok d := hd
    obtain ⟨j, hj, hmin, h4⟩ := lookup_first s.pos t i
    rw [h3] at h4
    simp only [Outcome.ok.injEq] at h4
    refine ⟨j, hj, hmin, ?_⟩
    rw [h4]
    exact congrArg (· - g) (T.targets j)
  simp only [State.install, List.mem_append, List.mem_cons, List.not_mem_nil, or_false] at hy
  rcases hy with hy | rfl | rfl
  · have : y ∈ s.springs := List.mem_of_mem_filter hy
    obtain ⟨⟨i', hi'⟩, -⟩ := base_ends_mesh (hperm.mem_iff.1 this)
    rw [hi'] at hya
    simp at hya
  · exact hend _ _ hyb hp1
  · exact hend _ _ hyb hp2

/-- **C114 (partial).** When the first anchor is inserted, its spring to a mesh point gets the length that the spring
has when the model has come to rest: the resting place of the mesh point, seen from the place of insertion. Missing:
mesh points that are at exactly the same place as another one. -/
theorem C114_first_lengths_partial (e : (State.new p w h x b).run ops = .ok (s, rs))
    (hr : AllAlong ResizeAllowed (State.new p w h x b) ops) (hl : s.live = [])
    {ts : List ℕ} {t : ℕ} (ht : t ≠ 0) {s1 : State} {rs1 : List Res} {m : Prop}
    (es : s.run ((ts ++ [t]).map .step) = .ok (s1, rs1 ++ [.more m])) (hm : ¬ m)
    {g : Pt} {s2 : State} {k : ℕ} (ea : s.exec (.insert g) = .ok (s2, .handle k))
    {y : Spring} (hy : y ∈ s2.springs) (hya : y.a = .anchor k) {i : Idx} (hyb : y.b = .mesh i)
    (hu : ∀ j, s.pos j = s.pos i → j = i) :
    y.desired = (⟨s1.pos 0, s.width, s.height⟩ : Spot).point i - g := by
  obtain ⟨j, hj, -, hd⟩ := C114_first_lengths e hr hl ht es hm ea hy hya hyb
  rw [hd, hu j hj]

/-- Steps keep springs, anchors and targets. -/
theorem steps_keep {z z' : State} {ts : List ℕ} {rr : List Res} (e : z.run (ts.map .step) = .ok (z', rr)) :
    z'.springs = z.springs ∧ z'.live = z.live ∧ z'.targets = z.targets ∧ z'.count = z.count := by
  induction ts generalizing z rr with
  | nil =>
    simp only [List.map_nil, State.run, Outcome.ok.injEq, Prod.mk.injEq] at e
    rw [← e.1]
    exact ⟨rfl, rfl, rfl, rfl⟩
  | cons a ts ih =>
    simp only [List.map_cons, State.run, State.exec] at e
    rw [bind_eq_ok] at e
    obtain ⟨⟨z1, r1⟩, h1, e⟩ := e
    rw [bind_eq_ok] at e
    obtain ⟨⟨z2, r2⟩, h2, e⟩ := e
    simp only [Outcome.ok.injEq, Prod.mk.injEq] at e
    obtain ⟨P, V, m, rfl, -⟩ := step_ok h1
    rw [e.1] at h2
    have := ih (z := ⟨z.width, z.height, z.settings, z.locks, z.firstAnchor, z.targets, z.count, P, V, z.springs, z.pending,
      z.lastId, m, z.live, z.nextHid⟩) h2
    exact this

/-- **C114 (negation).** A model three pixels wide with spring constant 8 (the default) and friction 10: grab its
corner, move it by one pixel, so that it is exactly on the next mesh point, and release it. Left alone the model
comes to rest. Insert an anchor at that place instead: its spring to the second mesh point gets another length than
it has when the model is at rest, and although the anchor is never moved, no two `Step`s in a row ever answer that
nothing moves. -/
theorem C114_coinciding_points (p : Pt) {h : ℝ} (R : ℝ) (b : ℕ) (hh : h ≠ 0)
    (hz : ∀ i, Representable ((State.new p 3 h ⟨8, 10, R⟩ b).pos i)) :
    ∃ s ts s1 rs1 s2, (State.new p 3 h ⟨8, 10, R⟩ b).run [.grab p, .moveAnchor 0 ⟨1, 0⟩, .release 0] =
        .ok (s, [.handle 0, .none, .none]) ∧ s.live = [] ∧
      s.run ((ts ++ [16]).map .step) = .ok (s1, rs1 ++ [.more False]) ∧
      s.exec (.insert (p + ⟨1, 0⟩)) = .ok (s2, .handle 1) ∧
      (∃ y ∈ s2.springs, y.a = .anchor 1 ∧ y.b = .mesh 1 ∧
        y.desired ≠ (⟨s1.pos 0, s.width, s.height⟩ : Spot).point 1 - (p + ⟨1, 0⟩)) ∧
      ∀ ts t t' s3 rs3 m m', t ≠ 0 → t' ≠ 0 →
        s2.run ((ts ++ [t, t']).map .step) = .ok (s3, rs3 ++ [.more m, .more m']) → m ∨ m' := by
  obtain ⟨s, e, hl, hn, hw, hhs, ht, hp⟩ := nudged_settles p R b (by norm_num) hh hz
  have hr := nudge_allowed (p := p) (State.new p 3 h ⟨8, 10, R⟩ b)
  have hI := inv_run e
  have hB := baseLen_run hr e
  have htile : s.tile = (State.new p 3 h ⟨8, 10, R⟩ b).tile := by
    unfold State.tile
    rw [hw, hhs]
    rfl
  have hp1 : ∀ i, i ≠ 0 → s.pos i = (State.new p 3 h ⟨8, 10, R⟩ b).pos i := by
    intro i hi
    rw [hp, htile]
    ext <;> simp [tri, hi] <;> rfl
  have hg1 : s.pos 1 = p + ⟨1, 0⟩ := by
    rw [hp]
    simp only [positionArray, State.tile, hw, tri, col, row]
    ext <;> simp
    norm_num
  have hg0 : s.pos 0 = p + ⟨1, 0⟩ := by
    rw [hp, positionArray_zero]
    simp [tri]
  have hrep : ∀ i, Representable (s.pos i) := by
    intro i
    by_cases hi : i = 0
    · rw [hi, hg0, ← hg1, hp1 1 (by decide)]
      exact hz 1
    · rw [hp1 i hi]
      exact hz i
  have hgr : Representable (p + ⟨1, 0⟩) := by
    rw [← hg0]
    exact hrep 0
  have honly : ∀ i, s.pos i = p + ⟨1, 0⟩ → i = 0 ∨ i = 1 := by
    intro i hi
    by_cases h0 : i = 0
    · exact Or.inl h0
    · right
      rw [← hg1, hp1 i h0, hp1 1 (by decide)] at hi
      exact new_injective (by norm_num) hh hi
  obtain ⟨n, s1, rs1, h1, h1c⟩ := settles_unheld hI hB hl ht
  obtain ⟨s2, k, h2⟩ := (C114_returns_iff_rests e hr hl hrep hgr (Or.inr rfl)).1.2 ⟨_, s1, rs1, h1⟩
  have T := insert_tracks hl (by rw [hI.count, hl]; rfl) ht h2
  obtain ⟨t0, n0, found, d1, d2, -, -, -, hf, -, -, hs2, hk⟩ := insert_ok h2
  have hk1 : k = 1 := by
    simp only [Res.handle.injEq] at hk
    rw [hk, hn]
  subst hk1
  have hperm := springs_perm hI hB (noneInserted_nil hl)
  have hz' : ∀ y ∈ s.springs, Representable (s.env.at_ s.pos y.a) ∧ Representable (s.env.at_ s.pos y.b) := by
    intro y hy
    obtain ⟨⟨i, hi⟩, j, hj⟩ := base_ends_mesh (hperm.mem_iff.1 hy)
    rw [hi, hj]
    exact ⟨hrep i, hrep j⟩
  obtain ⟨found', hm', hf', hmin1, hmin2⟩ := find_spring (inv_springs_ne hI) hz' hgr
  rw [hf'] at hf
  simp only [Option.some.injEq] at hf
  subst hf
  obtain ⟨y0, hy0, hy0a, hy0b⟩ : ∃ y0 ∈ s.springs, y0.a = .mesh 0 ∧ y0.b = .mesh 1 := by
    refine ⟨_, hperm.mem_iff.2 (List.mem_map.2 ⟨((0, 1, false), 1), ?_, rfl⟩), rfl, rfl⟩
    rw [baseEdges_list]
    decide
  have hzero : euclid (p + ⟨1, 0⟩) (p + ⟨1, 0⟩) = 0 := by simp [euclid]
  have hin1 : euclid (s.env.at_ s.pos found'.a) (p + ⟨1, 0⟩) ≤ 0 := by
    have := hmin1 y0 hy0
    rw [hy0a] at this
    have e0 : s.env.at_ s.pos (.mesh 0) = p + ⟨1, 0⟩ := hg0
    rw [e0, hzero] at this
    exact this
  have hpos : ∀ a c : Pt, 0 ≤ euclid a c := fun a c => Real.sqrt_nonneg _
  have hin2 : euclid (s.env.at_ s.pos found'.b) (p + ⟨1, 0⟩) ≤ 0 := by
    have := hmin2 y0 hy0 (by
      rw [hy0a]
      have e0 : s.env.at_ s.pos (.mesh 0) = p + ⟨1, 0⟩ := hg0
      rw [e0, hzero]
      exact le_antisymm (hpos _ _) hin1)
    rw [hy0b] at this
    have e0 : s.env.at_ s.pos (.mesh 1) = p + ⟨1, 0⟩ := hg1
    rw [e0, hzero] at this
    exact this
  have heq : ∀ a c : Pt, euclid a c ≤ 0 → a = c := by
    intro a c hac
    have := le_antisymm hac (hpos a c)
    unfold euclid at this
    rw [Real.sqrt_eq_zero (by positivity)] at this
    have h1 := sq_nonneg (a.x - c.x)
    have h2 := sq_nonneg (a.y - c.y)
    ext
    · nlinarith
    · nlinarith
  have hfb : found'.b = .mesh 1 := by
    have hmem := hperm.mem_iff.1 hm'
    simp only [baseSprings, List.mem_map] at hmem
    obtain ⟨⟨z, c⟩, hzm, hzf⟩ := hmem
    have hz2 : z ∈ baseEdges := (List.mem_zipIdx' hzm).2 ▸ List.getElem_mem _
    have ha : found'.a = .mesh z.1 := by rw [← hzf]
    have hb : found'.b = .mesh z.2.1 := by rw [← hzf]
    rw [ha] at hin1
    rw [hb] at hin2
    have i1 := honly z.1 (heq _ _ hin1)
    have i2 := honly z.2.1 (heq _ _ hin2)
    rw [hb]
    rw [baseEdges_list] at hz2
    have : z.2.1 = 1 := by
      clear hzm hzf ha hb hin1 hin2
      simp only [List.mem_cons, List.not_mem_nil, or_false] at hz2
      rcases hz2 with rfl | rfl | rfl | rfl | rfl | rfl | rfl | rfl | rfl | rfl | rfl | rfl | rfl | rfl | rfl | rfl |
        rfl | rfl | rfl | rfl | rfl | rfl | rfl | rfl <;> revert i1 i2 <;> decide
    rw [this]
  obtain ⟨y, hy, hya, hyb⟩ : ∃ y ∈ s2.springs, y.a = .anchor 1 ∧ y.b = .mesh 1 := by
    refine ⟨⟨n0 + 2, .anchor s.nextHid, found'.b, d2 - (p + ⟨1, 0⟩)⟩, ?_, by rw [hn], hfb⟩
    rw [hs2]
    simp [State.install, preInsert]
  obtain ⟨j, hj, hjm, hd⟩ := C114_first_lengths e hr hl (by norm_num) h1 not_false h2 hy hya hyb
  have hj0 : j = 0 := by
    have := hjm 0 (by rw [hg0, hg1])
    exact le_antisymm this (Fin.zero_le j)
  subst hj0
  refine ⟨s, _, s1, rs1, s2, e, hl, h1, h2, ⟨y, hy, hya, hyb, ?_⟩, ?_⟩
  · rw [hd]
    intro hc
    have := congrArg Pt.x hc
    simp [Spot.point, hw] at this
  · intro ts t t' s3 rs3 m m' htt htt' e3
    rw [show ts ++ [t, t'] = ts ++ [t] ++ [t'] by simp, List.map_append, List.map_append, List.append_assoc, run_append,
      bind_eq_ok] at e3
    obtain ⟨⟨sa, ra⟩, ea, e3⟩ := e3
    simp only [List.map_cons, List.map_nil, List.cons_append, List.nil_append, State.run, bind_eq_ok] at e3
    obtain ⟨⟨sd, rd⟩, ⟨⟨sb, rb⟩, eb, ⟨sc, rc⟩, ⟨⟨sf, rf⟩, ec, ⟨sg, rg⟩, eg, e6⟩, e5⟩, e4⟩ := e3
    simp only [Outcome.ok.injEq, Prod.mk.injEq] at e4 e5 e6 eg
    obtain ⟨rfl, rfl⟩ := eg
    obtain ⟨rfl, rfl⟩ := e6
    obtain ⟨rfl, rfl⟩ := e5
    obtain ⟨rfl, hrs⟩ := e4
    have hlast : rb = .more m ∧ rf = .more m' := by
      have := List.append_inj_right' hrs rfl
      simpa using this
    obtain ⟨rfl, rfl⟩ := hlast
    by_contra hcon
    rw [not_or] at hcon
    obtain ⟨k1, k2, k3, k4⟩ := steps_keep ea
    have hb := (still_active (s := sa) (by show sa.count = 1; rw [k4]; exact T.count) htt eb hcon.1).1
    have hc := (still_active (s := sb) (by show sb.count = 1; rw [hb]; show sa.count = 1; rw [k4]; exact T.count) htt' ec hcon.2).2.2.1
    have hdz := hc y (by rw [hb]; show y ∈ sa.springs; rw [k1]; exact hy)
    have hx := hdz.1
    have epos : sb.pos = s2.targets := by rw [hb]; exact k3
    have elive : sb.live = s2.live := by rw [hb]; exact k2
    have hanch : sb.env.at_ sb.pos (.anchor 1) = p + ⟨1, 0⟩ := by
      show apos sb.live 1 = _
      rw [elive, hs2]
      simp only [State.install, preInsert, hl, List.nil_append, apos, anchorData_cons, hn]
      simp
    have hmesh : sb.env.at_ sb.pos (.mesh 1) = s2.targets 1 := by
      show sb.pos 1 = _
      rw [epos]
    simp only [deviation, hya, hyb, hanch, hmesh, hd, T.targets, h1c] at hx
    simp [Spot.point, hw] at hx

example : ∀ i, Representable ((State.new ⟨0, 0⟩ 3 300 ⟨8, 10, 500⟩ 0).pos i) := by
  intro i
  simp only [State.new, positionArray]
  have h1 : (col i : ℝ) ≤ 3 := by
    have : col i ≤ 3 := by unfold col; omega
    exact_mod_cast this
  have h2 : (row i : ℝ) ≤ 3 := by
    have : row i ≤ 3 := by unfold row; omega
    exact_mod_cast this
  have h3 : (0 : ℝ) ≤ col i := Nat.cast_nonneg _
  have h4 : (0 : ℝ) ≤ row i := Nat.cast_nonneg _
  have h5 : ((3 : ℝ) / (4 - 1)) = 1 := by norm_num
  rw [h5]
  refine rep_small ?_ ?_ <;> simp only [Pt.add_x, Pt.add_y] <;> rw [abs_le] <;> constructor <;> linarith

end Verif.Props
