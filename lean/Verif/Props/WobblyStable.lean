import Verif.Lemmas.WobblyTame
import Verif.Props.WobblyHang

/-! # A mesh left to itself cannot run away (C111) -/

namespace Verif.Props

open Wobbly Spec Outcome Classical

noncomputable section

/-- Among the points of `P` every two are, up to `B` in each coordinate, as far apart as in a mesh at rest. -/
def InShape (s : State) (P : Idx → Prop) (B : ℝ) : Prop :=
  ∀ i j : Idx, P i → P j →
    |(s.pos j).x - (s.pos i).x - (((j.val % 4 : ℕ) : ℝ) - (i.val % 4 : ℕ)) * (s.width / 3)| ≤ B ∧
    |(s.pos j).y - (s.pos i).y - (((j.val / 4 : ℕ) : ℝ) - (i.val / 4 : ℕ)) * (s.height / 3)| ≤ B

/-- No coordinate of a velocity is above `B`. -/
def SlowerThan (s : State) (B : ℝ) : Prop := ∀ i, |(s.vel i).x| ≤ B ∧ |(s.vel i).y| ≤ B

variable {p : Pt} {w h : ℝ} {x : Settings} {b : ℕ} {ops : List Op} {s : State} {rs : List Res}

theorem inShape_iff (s : State) (P : Idx → Prop) (B : ℝ) : InShape s P B ↔ ∀ i j, P i → P j →
    |(offShape s.tile s.pos i j).x| ≤ B ∧ |(offShape s.tile s.pos i j).y| ≤ B := by
  have : s.tile = ⟨s.width / 3, s.height / 3⟩ := by
    ext <;> norm_num [State.tile]
  unfold InShape offShape
  rw [this]
  rfl

theorem ticks_ge (ts : List ℕ) : ts.sum ≤ 16 * ticks ts := by
  induction ts with
  | nil => simp [ticks]
  | cons t ts ih =>
    have e : ticks (t :: ts) = stepCount t + ticks ts := by simp [ticks]
    have h := stepCount_eq t
    rw [e, List.sum_cons]
    omega

/-- What the bounds on the integration say about the model. -/
theorem tame_steps {k f : ℝ} (hk : 0 < k) (hk' : k ≤ 10) (hf : 0 < f) (hf' : f ≤ 10) :
    ∃ C : ℝ, 0 ≤ C ∧ ∀ (p : Pt) (w h : ℝ) (x : Settings) (b : ℕ) (ops : List Op) (s : State) (rs : List Res),
      (State.new p w h x b).run ops = .ok (s, rs) → AllAlong ResizeAllowed (State.new p w h x b) ops →
      (owned [] ops rs).length ≠ 1 → NoneInserted s → s.settings.springConstant = k → s.settings.friction = f →
      ∀ D, 0 ≤ D → InShape s (fun i => 0 < heldBy s i) D →
      ∃ Z τ : ℝ, 0 ≤ Z ∧ 0 ≤ τ ∧ τ < 1 ∧ ∀ ts : List ℕ, ∃ s' rs', s.run (ts.map .step) = .ok (s', rs') ∧
        (∀ i, 0 < heldBy s i → s'.pos i = s.pos i) ∧
        (ticks ts = 0 → s'.vel = s.vel) ∧
        (ticks ts ≠ 0 → SlowerThan s' (C * (τ ^ ticks ts * Z + 1 + D))) ∧
        InShape s' (fun _ => True) (C * (τ ^ ticks ts * Z + 1 + D)) := by
  obtain ⟨C, hC, H⟩ := tame hk hk' hf hf'
  refine ⟨C, hC, fun p w h x b ops s rs e hr h1 hn ek ef D hD hs => ?_⟩
  have ha : ¬ s.active := fun hc => h1 ((C45_tracking_iff e).1 hc)
  have hperm : s.springs.Perm (baseSprings s.tile b) := C48_lengths_restored e hn hr
  have hlk : ∀ i, s.env.locks i = heldBy s i := fun i => (C46_locks_count e i).1
  obtain ⟨Z, τ, z0, t0, t1, K⟩ := H s.env s.tile b ⟨s.pos, s.vel⟩ D ek ef hperm hD (fun i j hi hj =>
    (inShape_iff s _ D).1 hs i j (by rw [← hlk]; exact hi) (by rw [← hlk]; exact hj))
  have hd : ¬ dangling s.springs s.live := by
    rintro ⟨y, hy, hn⟩
    obtain ⟨⟨i, hi⟩, j, hj⟩ := base_ends_mesh (hperm.subset hy)
    rw [hi, hj] at hn
    exact hn ⟨trivial, trivial⟩
  refine ⟨Z, τ, z0, t0, t1, fun ts => ?_⟩
  obtain ⟨u, rs', er⟩ := steps_inactive ha (ts := ts) fun _ => hd
  obtain ⟨k1, k2⟩ := K (ticks ts)
  refine ⟨_, rs', er, fun i hi => ?_, fun h0 => ?_, fun h0 i => k1 i (Or.inr h0), ?_⟩
  · exact (settleIter_locked s.env _ (by rw [hlk]; exact hi) _).1
  · rw [h0]
    rfl
  · rw [inShape_iff]
    exact fun i j _ _ => k2 i j

/-- **C111.** With a spring constant and a friction above 0 and up to 10 (the GObject properties allow no others): while
a program does not own exactly one anchor, and owns none made by `InsertAnchor`, there is a bound such that whatever is
stepped from then on, `Step` returns, no velocity is above the bound and every two points of the mesh are up to the
bound as far apart as at rest. If a point of the mesh is held, no point ever is further away from where it is now. -/
theorem C111_bounded (e : (State.new p w h x b).run ops = .ok (s, rs))
    (hr : AllAlong ResizeAllowed (State.new p w h x b) ops) (h1 : (owned [] ops rs).length ≠ 1) (hn : NoneInserted s)
    (hk : 0 < s.settings.springConstant) (hk' : s.settings.springConstant ≤ 10) (hf : 0 < s.settings.friction)
    (hf' : s.settings.friction ≤ 10) :
    ∃ B : ℝ, ∀ ts : List ℕ, ∃ s' rs', s.run (ts.map .step) = .ok (s', rs') ∧ SlowerThan s' B ∧
      InShape s' (fun _ => True) B ∧ ((∃ j, 0 < heldBy s j) → ∀ i,
        |(s'.pos i).x - (s.pos i).x| ≤ B ∧ |(s'.pos i).y - (s.pos i).y| ≤ B) := by
  obtain ⟨C, hC, H⟩ := tame_steps hk hk' hf hf'
  obtain ⟨D, hD, hD', hv⟩ : ∃ D, 0 ≤ D ∧ InShape s (fun _ => True) D ∧ SlowerThan s D := by
    obtain ⟨D1, h1⟩ := (Set.finite_range fun z : Idx × Idx => |(offShape s.tile s.pos z.1 z.2).x|).bddAbove
    obtain ⟨D2, h2⟩ := (Set.finite_range fun z : Idx × Idx => |(offShape s.tile s.pos z.1 z.2).y|).bddAbove
    obtain ⟨D3, h3⟩ := (Set.finite_range fun i : Idx => |(s.vel i).x|).bddAbove
    obtain ⟨D4, h4⟩ := (Set.finite_range fun i : Idx => |(s.vel i).y|).bddAbove
    have g1 := fun i j => h1 ⟨(i, j), rfl⟩
    have g2 := fun i j => h2 ⟨(i, j), rfl⟩
    have g3 := fun i => h3 ⟨i, rfl⟩
    have g4 := fun i => h4 ⟨i, rfl⟩
    simp only at g1 g2 g3 g4
    have p1 : 0 ≤ D1 := (abs_nonneg _).trans (g1 0 0)
    have p2 : 0 ≤ D2 := (abs_nonneg _).trans (g2 0 0)
    have p3 : 0 ≤ D3 := (abs_nonneg _).trans (g3 0)
    have p4 : 0 ≤ D4 := (abs_nonneg _).trans (g4 0)
    refine ⟨D1 + D2 + D3 + D4, by positivity, (inShape_iff _ _ _).2 fun i j _ _ => ?_, fun i => ?_⟩
    · exact ⟨(g1 i j).trans (by linarith), (g2 i j).trans (by linarith)⟩
    · exact ⟨(g3 i).trans (by linarith), (g4 i).trans (by linarith)⟩
  obtain ⟨Z, τ, z0, t0, t1, K⟩ := H p w h x b ops s rs e hr h1 hn rfl rfl D hD fun i j _ _ => hD' i j trivial trivial
  have hB : ∀ n, C * (τ ^ n * Z + 1 + D) ≤ C * (Z + 1 + D) := fun n =>
    mul_le_mul_of_nonneg_left (by
      have := mul_le_mul_of_nonneg_right (pow_le_one₀ t0 t1.le : τ ^ n ≤ 1) z0
      linarith) hC
  have hB0 : 0 ≤ C * (Z + 1 + D) := by positivity
  refine ⟨C * (Z + 1 + D) + D, fun ts => ?_⟩
  obtain ⟨s', rs', er, k0, k1, k2, k3⟩ := K ts
  have hs' : InShape s' (fun _ => True) (C * (Z + 1 + D)) := fun i j hi hj =>
    ⟨(k3 i j hi hj).1.trans (hB _), (k3 i j hi hj).2.trans (hB _)⟩
  have hsize : s'.width = s.width ∧ s'.height = s.height := by
    have ha : ¬ s.active := fun hc => h1 ((C45_tracking_iff e).1 hc)
    have hd : ticks ts ≠ 0 → ¬ dangling s.springs s.live := by
      rintro - ⟨y, hy, hn'⟩
      obtain ⟨⟨i, hi⟩, j, hj⟩ := base_ends_mesh ((C48_lengths_restored e hn hr).subset hy)
      rw [hi, hj] at hn'
      exact hn' ⟨trivial, trivial⟩
    obtain ⟨u, rs'', er'⟩ := steps_inactive ha hd
    rw [er] at er'
    injection er' with e1
    rw [(Prod.mk.inj e1).1]
    exact ⟨rfl, rfl⟩
  refine ⟨s', rs', er, fun i => ?_, fun i j hi hj => ?_, ?_⟩
  · by_cases h0 : ticks ts = 0
    · rw [k1 h0]
      exact ⟨(hv i).1.trans (by linarith), (hv i).2.trans (by linarith)⟩
    · exact ⟨((k2 h0 i).1.trans (hB _)).trans (by linarith), ((k2 h0 i).2.trans (hB _)).trans (by linarith)⟩
  · exact ⟨(hs' i j hi hj).1.trans (by linarith), (hs' i j hi hj).2.trans (by linarith)⟩
  · rintro ⟨j, hj⟩ i
    have e1 := hs' j i trivial trivial
    have e2 := hD' j i trivial trivial
    rw [hsize.1, hsize.2, k0 j hj] at e1
    simp only [abs_le] at e1 e2 ⊢
    obtain ⟨⟨a1, a2⟩, a3, a4⟩ := e1
    obtain ⟨⟨c1, c2⟩, c3, c4⟩ := e2
    refine ⟨⟨?_, ?_⟩, ?_, ?_⟩ <;> linarith

/-- **C111.** There is a factor for each spring constant and friction above 0 and up to 10, the same for all models and
all histories: if the points that are held are up to `D` as far apart as at rest, then after long enough every velocity
and every deviation from the resting shape stays below the factor times `1 + D`. Where nothing is held, `D` is 0: the
wobbling comes down to a few pixels, however large it was. -/
theorem C111_eventually {k f : ℝ} (hk : 0 < k) (hk' : k ≤ 10) (hf : 0 < f) (hf' : f ≤ 10) :
    ∃ C : ℝ, ∀ (p : Pt) (w h : ℝ) (x : Settings) (b : ℕ) (ops : List Op) (s : State) (rs : List Res),
      (State.new p w h x b).run ops = .ok (s, rs) → AllAlong ResizeAllowed (State.new p w h x b) ops →
      (owned [] ops rs).length ≠ 1 → NoneInserted s → s.settings.springConstant = k → s.settings.friction = f →
      ∀ D, 0 ≤ D → InShape s (fun i => 0 < heldBy s i) D →
      ∃ T, ∀ ts : List ℕ, T ≤ ts.sum → ∃ s' rs', s.run (ts.map .step) = .ok (s', rs') ∧
        SlowerThan s' (C * (1 + D)) ∧ InShape s' (fun _ => True) (C * (1 + D)) := by
  obtain ⟨C, hC, H⟩ := tame_steps hk hk' hf hf'
  refine ⟨2 * C, fun p w h x b ops s rs e hr h1 hn ek ef D hD hs => ?_⟩
  obtain ⟨Z, τ, z0, t0, t1, K⟩ := H p w h x b ops s rs e hr h1 hn ek ef D hD hs
  obtain ⟨N, hN⟩ : ∃ N, ∀ n, N ≤ n → τ ^ n * Z ≤ 1 := by
    obtain ⟨N, hN⟩ := exists_pow_lt_of_lt_one (y := τ) (x := 1 / (Z + 1)) (by positivity) t1
    refine ⟨N, fun n hn => ?_⟩
    have h1 : τ ^ n ≤ 1 / (Z + 1) := (pow_le_pow_of_le_one t0 t1.le hn).trans hN.le
    have h2 := mul_le_mul_of_nonneg_right h1 z0
    refine h2.trans ?_
    rw [one_div, inv_mul_le_iff₀ (by positivity)]
    linarith
  refine ⟨16 * (N + 1), fun ts hts => ?_⟩
  have ht := ticks_ge ts
  have hn' : N + 1 ≤ ticks ts := by omega
  have hB : C * (τ ^ ticks ts * Z + 1 + D) ≤ 2 * C * (1 + D) := by
    have := mul_le_mul_of_nonneg_left (hN (ticks ts) (by omega)) hC
    nlinarith
  obtain ⟨s', rs', er, -, -, k2, k3⟩ := K ts
  refine ⟨s', rs', er, fun i => ?_, fun i j hi hj => ?_⟩
  · have := k2 (by omega) i
    exact ⟨this.1.trans hB, this.2.trans hB⟩
  · have := k3 i j hi hj
    exact ⟨this.1.trans hB, this.2.trans hB⟩

/-- Two corners are held, one of them dragged 30 pixels away: `D` is 30. -/
example : ∃ s rs, demo.run [.grab (demo.pos 0), .grab (demo.pos 15), .moveAnchor 1 ⟨30, 0⟩] = .ok (s, rs) ∧
    (owned [] [.grab (demo.pos 0), .grab (demo.pos 15), .moveAnchor 1 ⟨30, 0⟩] rs).length ≠ 1 ∧ NoneInserted s ∧
    s.settings.springConstant = 8 ∧ s.settings.friction = 3 ∧ InShape s (fun i => 0 < heldBy s i) 30 ∧
    AllAlong ResizeAllowed demo [.grab (demo.pos 0), .grab (demo.pos 15), .moveAnchor 1 ⟨30, 0⟩] := by
  obtain ⟨s1, rs1, e1, hH⟩ := hold_points (w := 300) (h := 300) ⟨0, 0⟩ defaultSettings 0 (by norm_num) (by norm_num)
    demo_rep [0, 15]
  have hl1 : s1.live = [⟨0, .grab 0⟩, ⟨1, .grab 15⟩] := hH.live
  have hc1 : s1.count = 2 := hH.count
  have e2 := moveAnchor_grab_inactive (s := s1) (k := 1) (i := 15) (d := ⟨30, 0⟩) (by omega) (by rw [hl1]; rfl)
  have e := run_snoc e1 e2
  have hcount := C45_activation_count e
  refine ⟨_, _, e, ?_, ?_, congrArg Settings.springConstant hH.settings, congrArg Settings.friction hH.settings,
    (inShape_iff _ _ _).2 fun i j _ _ => ?_, allAlong_of (fun op hop s' => ?_) _⟩
  · have : (2 : ℕ) ≠ 1 := by norm_num
    rw [← hc1] at this
    exact fun hc => this (hcount.trans hc)
  · intro a ha
    have ha' : a ∈ s1.live := ha
    rw [hl1] at ha'
    simp only [List.mem_cons, List.not_mem_nil, or_false] at ha'
    rcases ha' with rfl | rfl <;> rintro ⟨_, _, _, _, h⟩ <;> simp at h
  · have hp : ∀ i, (Function.update s1.pos 15 (s1.pos 15 + ⟨30, 0⟩)) i =
        ⟨col i * 100 + (if i = 15 then 30 else 0), row i * 100⟩ := by
      intro i
      rw [hH.pos]
      by_cases hi : i = 15
      · subst hi
        rw [Function.update_self]
        show demo.pos 15 + _ = _
        rw [demo_pos]
        ext <;> simp
      · rw [Function.update_of_ne hi, if_neg hi]
        show demo.pos i = _
        rw [demo_pos]
        ext <;> simp
    have ht : State.tile { s1 with pos := Function.update s1.pos 15 (s1.pos 15 + ⟨30, 0⟩) } = ⟨100, 100⟩ := by
      simp only [State.tile, hH.size]
      norm_num [State.new]
    rw [ht]
    unfold offShape
    simp only [hp]
    constructor
    · rw [abs_le]
      split_ifs <;> constructor <;> linarith
    · rw [abs_le]
      constructor <;> linarith
  · simp only [List.mem_cons, List.not_mem_nil, or_false] at hop
    rcases hop with rfl | rfl | rfl <;> trivial

/-! ## Outside the documented range -/

/-- **C111 (negation).** The settings of the C++ interface are not checked. With a spring constant of 60 or more: hold
the four neighbours of an inner point and the point itself, move the point by a pixel or more and release it. These
calls return, and so does every `Step`. After enough steps of 16 ms the point is further away than any bound. -/
theorem C111_too_stiff (p : Pt) {w h : ℝ} (x : Settings) (b : ℕ) (hw : w ≠ 0) (hh : h ≠ 0)
    (hz : ∀ i, Representable ((State.new p w h x b).pos i)) (hk : 60 ≤ x.springConstant) (hf : 0 < x.friction)
    (hf' : x.friction ≤ 15) {y : ℝ} (hy : 1 ≤ |y|) :
    ∃ s rs, (State.new p w h x b).run ([1, 4, 6, 9, 5].map (fun i => .grab ((State.new p w h x b).pos i)) ++
        [.moveAnchor 4 ⟨y, 0⟩, .release 4]) = .ok (s, rs) ∧
      ∀ B : ℝ, ∃ n s' rs', s.run (List.replicate n (.step 16)) = .ok (s', rs') ∧ B < |(s'.pos 5).x - (s.pos 5).x| := by
  set m := State.new p w h x b with hm
  obtain ⟨s1, rs1, e1, hH⟩ := hold_points p x b hw hh hz [1, 4, 6, 9, 5]
  have hl1 : s1.live = [⟨0, .grab 1⟩, ⟨1, .grab 4⟩, ⟨2, .grab 6⟩, ⟨3, .grab 9⟩, ⟨4, .grab 5⟩] := hH.live
  have hc1 : s1.count = 5 := hH.count
  have e2 := moveAnchor_grab_inactive (s := s1) (k := 4) (i := 5) (d := ⟨y, 0⟩) (by omega) (by rw [hl1]; rfl)
  set s2 : State := { s1 with pos := Function.update s1.pos 5 (s1.pos 5 + ⟨y, 0⟩) } with hs2
  have hlk2 : ∀ i, s2.locks i = [1, 4, 6, 9, 5].count i := hH.locks
  have e3 := release_grab_many (s := s2) (k := 4) (i := 5) (by show s1.live.find? _ = _; rw [hl1]; rfl)
    (by rw [hlk2]; decide) (by show 3 ≤ s1.count; omega)
  set s3 : State := { unlocked ({ s2 with live := s2.live.filter fun a => a.hid ≠ 4 } : State) 5 with
    count := s2.count - 1 } with hs3
  have hl3 : s3.live = [⟨0, .grab 1⟩, ⟨1, .grab 4⟩, ⟨2, .grab 6⟩, ⟨3, .grab 9⟩] := by
    show s1.live.filter _ = _
    rw [hl1]
    rfl
  have hc3 : s3.count = 4 := by show s1.count - 1 = 4; omega
  have hlk3 : ∀ i, i ≠ 5 → s3.locks i = [1, 4, 6, 9, 5].count i := fun i hi => by
    show Function.update s2.locks 5 (s2.locks 5 - 1) i = _
    rw [Function.update_of_ne hi, hlk2]
  have hlk5 : s3.locks 5 = 0 := by
    show Function.update s2.locks 5 (s2.locks 5 - 1) 5 = _
    rw [Function.update_self, hlk2]
    decide
  have htile : s3.tile = m.tile := by
    show s1.tile = _
    simp only [State.tile, hH.size]
    rfl
  have hq : (⟨s3.pos, s3.vel⟩ : Phys) = oscPhys p s3.tile (y, 0) := by
    rw [htile]
    ext1
    · funext i
      show Function.update s1.pos 5 (s1.pos 5 + ⟨y, 0⟩) i = positionArray p m.tile i + oneOff y i
      rw [hH.pos]
      by_cases hi : i = 5
      · subst hi
        rw [Function.update_self]
        simp only [oneOff, if_true]
        rfl
      · rw [Function.update_of_ne hi]
        simp only [oneOff, if_neg hi]
        show positionArray p m.tile i = _
        ext <;> simp
    · funext i
      show s1.vel i = oneOff 0 i
      rw [hH.vel]
      unfold oneOff
      split_ifs <;> rfl
  have e := run_snoc (run_snoc e1 e2) e3
  rw [List.append_assoc] at e
  have hset : s3.settings = x := hH.settings
  have hperm : s3.springs.Perm (baseSprings s3.tile b) := by
    refine C48_lengths_restored e ?_ (allAlong_of (fun op hop s' => ?_) _)
    · intro a ha
      rw [hl3] at ha
      simp only [List.mem_cons, List.not_mem_nil, or_false] at ha
      rcases ha with rfl | rfl | rfl | rfl <;> rintro ⟨_, _, _, _, h⟩ <;> simp at h
    · simp only [List.map_cons, List.map_nil, List.cons_append, List.nil_append, List.mem_cons, List.not_mem_nil,
        or_false] at hop
      rcases hop with rfl | rfl | rfl | rfl | rfl | rfl | rfl <;> trivial
  have hpos : ∀ i, i ≠ 5 → 0 < [1, 4, 6, 9, 5].count i → s3.env.locks i > 0 := fun i h1 h2 =>
    lt_of_lt_of_eq h2 (hlk3 i h1).symm
  have hiter : ∀ n, settleIter s3.env (oscPhys p s3.tile (y, 0)) n =
      oscPhys p s3.tile ((swing x.springConstant x.friction)^[n] (y, 0)) := by
    intro n
    induction n with
    | zero => rfl
    | succ n ih =>
      rw [settleIter_succ, ih, springStep_swing hperm (hpos 1 (by decide) (by decide)) (hpos 4 (by decide) (by decide))
        (hpos 6 (by decide) (by decide)) (hpos 9 (by decide) (by decide)) hlk5, Function.iterate_succ_apply']
      show oscPhys p s3.tile (swing s3.settings.springConstant s3.settings.friction _) = _
      rw [hset]
  refine ⟨s3, _, e, fun B => ?_⟩
  obtain ⟨n, hn⟩ := pow_unbounded_of_one_lt (B + |y|) (by linarith [div_pos hf (by norm_num : (0 : ℝ) < 15)] :
    1 < 1 + x.friction / 15)
  have ha : ¬ s3.active := by
    unfold State.active
    rw [hc3]
    norm_num
  have hd : ¬ dangling s3.springs s3.live := by
    rintro ⟨z, hz', hn'⟩
    obtain ⟨⟨i, hi⟩, j, hj⟩ := base_ends_mesh (hperm.subset hz')
    rw [hi, hj] at hn'
    exact hn' ⟨trivial, trivial⟩
  obtain ⟨u, rs', er⟩ := steps_inactive ha (ts := List.replicate n 16) fun _ => hd
  have ht : ticks (List.replicate n 16) = n := by
    unfold ticks
    rw [List.map_replicate, stepCount_eq]
    simp
  rw [List.map_replicate, ht, hq, hiter] at er
  refine ⟨n, _, rs', er, ?_⟩
  have k := (swing_iter hk hf hf' hy n).1
  have k1 : ((s3.withPhys (oscPhys p s3.tile ((swing x.springConstant x.friction)^[n] (y, 0))) u).pos 5).x =
      (positionArray p s3.tile 5).x + ((swing x.springConstant x.friction)^[n] (y, 0)).1 := by
    simp [State.withPhys, oscPhys, oneOff]
  have k2 : (s3.pos 5).x = (positionArray p s3.tile 5).x + y := by
    have := congrArg (fun q : Phys => (q.pos 5).x) hq
    simpa [oscPhys, oneOff] using this
  rw [k1, k2]
  have k3 : (positionArray p s3.tile 5).x + ((swing x.springConstant x.friction)^[n] (y, 0)).1 -
      ((positionArray p s3.tile 5).x + y) = ((swing x.springConstant x.friction)^[n] (y, 0)).1 - y := by ring
  rw [k3]
  have := abs_sub_abs_le_abs_sub ((swing x.springConstant x.friction)^[n] (y, 0)).1 y
  linarith

example : (60 : ℝ) ≤ (⟨60, 3, 500⟩ : Settings).springConstant ∧ (0 : ℝ) < (⟨60, 3, 500⟩ : Settings).friction ∧
    (⟨60, 3, 500⟩ : Settings).friction ≤ (15 : ℝ) ∧ (1 : ℝ) ≤ |(-1)| ∧
    ∀ i, Representable ((State.new ⟨0, 0⟩ 300 300 ⟨60, 3, 500⟩ 0).pos i) :=
  ⟨le_refl _, by norm_num, by norm_num, by norm_num, demo_rep⟩

end

end Verif.Props
