import Verif.Lemmas.WobblyHang
import Verif.Props.WobblyLaw

/-! # Velocities while the targets are active (for C110) -/

namespace Verif.Wobbly

open Spec Outcome Classical Props

/-- The velocity a mesh settles below: springs of constant `k` on four sides, stretched to range `R`, against friction
`f`. -/
noncomputable def topSpeed (x : Settings) : ℝ := 4 * x.springConstant * x.maximumRange / x.friction

/-- Mesh and springs of a model that follows its targets, with velocities of at most `V`. -/
structure Tied (x : Settings) (V : ℝ) (s : State) : Prop where
  settings : s.settings = x
  active : s.active
  targets : s.targets = positionArray (s.targets 0) s.tile
  springs : ∃ c, s.springs.Perm (baseSprings s.tile c)
  velX : ∀ i, |(s.vel i).x| ≤ V
  velY : ∀ i, |(s.vel i).y| ≤ V

theorem pull_le {k d R : ℝ} (hk : 0 ≤ k) (hd : |d| ≤ 2 * R) : |pull k d| ≤ k * R := by
  unfold pull
  split_ifs with h
  · rw [abs_zero]
    have : 0 ≤ R := by linarith [abs_nonneg d]
    positivity
  · rw [abs_mul, abs_of_nonneg (by positivity)]
    nlinarith

theorem degree_le (i : Idx) : baseEdges.countP (fun z => i = z.1 ∨ i = z.2.1) ≤ 4 := by
  revert i
  decide

set_option maxRecDepth 4000 in
theorem no_loops : ∀ z ∈ baseEdges, z.1 ≠ z.2.1 := by decide

theorem sum_bound {α : Type} (l : List α) (f : α → ℝ) (P : α → Prop) {B : ℝ} (h1 : ∀ z ∈ l, P z → |f z| ≤ B)
    (h0 : ∀ z ∈ l, ¬ P z → f z = 0) : |(l.map f).sum| ≤ (l.countP (fun z => P z)) * B := by
  induction l with
  | nil => simp
  | cons z l ih =>
    have ih' := ih (fun z hz => h1 z (List.mem_cons_of_mem _ hz)) fun z hz => h0 z (List.mem_cons_of_mem _ hz)
    rw [List.map_cons, List.sum_cons]
    refine (abs_add_le _ _).trans ?_
    by_cases hz : P z
    · rw [List.countP_cons_of_pos (by simpa using hz)]
      have := h1 z (by simp) hz
      push_cast
      linarith
    · rw [List.countP_cons_of_neg (by simpa using hz), h0 z (by simp) hz, abs_zero, zero_add]
      exact ih'

theorem edges_le {k R : ℝ} (hk : 0 ≤ k) (hR : 0 ≤ R) {d : Idx → ℝ} (hd : ∀ i, |d i| ≤ R) (i : Idx) :
    |(baseEdges.map fun z => (if i = z.1 then pull k (d z.2.1 - d z.1) else 0) -
      (if i = z.2.1 then pull k (d z.2.1 - d z.1) else 0)).sum| ≤ 4 * k * R := by
  refine (sum_bound (B := k * R) _ _ (fun z => i = z.1 ∨ i = z.2.1) ?_ ?_).trans ?_
  · intro z hz hi
    have hp : |pull k (d z.2.1 - d z.1)| ≤ k * R := pull_le hk ((abs_sub _ _).trans (by linarith [hd z.2.1, hd z.1]))
    have hn := no_loops z hz
    by_cases h1 : i = z.1
    · rw [if_pos h1, if_neg (fun h => hn (h1.symm.trans h)), sub_zero]
      exact hp
    · rw [if_neg h1, if_pos (hi.resolve_left h1), zero_sub, abs_neg]
      exact hp
  · intro z _ hi
    rw [not_or] at hi
    rw [if_neg hi.1, if_neg hi.2, sub_zero]
  · have h4 : ((baseEdges.countP fun z => decide (i = z.1 ∨ i = z.2.1) : ℕ) : ℝ) ≤ 4 := by exact_mod_cast degree_le i
    have : 0 ≤ k * R := by positivity
    calc _ ≤ 4 * (k * R) := by
          refine mul_le_mul_of_nonneg_right ?_ this
          refine le_trans (le_of_eq ?_) h4
          congr!
      _ = 4 * k * R := by ring

theorem disp_le {R : ℝ} {t p : Pt} (h : euclid t p ≤ R) : |(p - t).x| ≤ R ∧ |(p - t).y| ≤ R := by
  unfold euclid at h
  have h0 : 0 ≤ R := (Real.sqrt_nonneg _).trans h
  rw [Real.sqrt_le_left h0] at h
  constructor
  · rw [Pt.sub_x]
    exact abs_le_of_sq_le_sq (by nlinarith [sq_nonneg (t.y - p.y)]) h0
  · rw [Pt.sub_y]
    exact abs_le_of_sq_le_sq (by nlinarith [sq_nonneg (t.x - p.x)]) h0

theorem forces_le {x : Settings} {V : ℝ} {s : State} (H : Tied x V s) (hk : 0 ≤ x.springConstant) {m : Mesh}
    (hm : ∀ i, euclid (s.targets i) (m i) ≤ x.maximumRange) (i : Idx) :
    |((calculateForces s.env.k (s.env.at_ m) s.env.springs).1 (.mesh i)).x| ≤ 4 * x.springConstant * x.maximumRange ∧
    |((calculateForces s.env.k (s.env.at_ m) s.env.springs).1 (.mesh i)).y| ≤ 4 * x.springConstant * x.maximumRange := by
  obtain ⟨c, hc⟩ := H.springs
  have hR : 0 ≤ x.maximumRange := (Real.sqrt_nonneg _).trans (hm 0)
  have e1 : (calculateForces s.env.k (s.env.at_ m) s.env.springs).1 (.mesh i) =
      (calculateForces x.springConstant (s.env.at_ m) (baseSprings s.tile c)).1 (.mesh i) := by
    rw [calculateForces_force, calculateForces_force]
    show (s.springs.map fun y => contribution s.settings.springConstant _ y _).sum = _
    rw [H.settings]
    exact (hc.map _).sum_eq
  have e2 := force_disp (e := s.env) (p := s.targets 0) (tile := s.tile) (b := c) (m := m)
    (disp := fun j => m j - s.targets j) x.springConstant (fun j => by
      rw [← congrFun H.targets j]
      ext <;> simp) i
  rw [e1, e2]
  have hx := edges_le hk hR (fun j => (disp_le (hm j)).1) i
  have hy := edges_le hk hR (fun j => (disp_le (hm j)).2) i
  refine ⟨?_, ?_⟩
  · have : ((baseEdges.map (edgeForce x.springConstant (fun j => m j - s.targets j) i)).sum).x =
        (baseEdges.map fun z => (edgeForce x.springConstant (fun j => m j - s.targets j) i z).x).sum := by
      generalize baseEdges = l
      induction l with
      | nil => rfl
      | cons a l ih => simp [ih]
    rw [this]
    convert hx using 4
    funext z
    unfold edgeForce edgePull
    rw [Pt.sub_x]
    congr 1 <;> split_ifs <;> rfl
  · have : ((baseEdges.map (edgeForce x.springConstant (fun j => m j - s.targets j) i)).sum).y =
        (baseEdges.map fun z => (edgeForce x.springConstant (fun j => m j - s.targets j) i z).y).sum := by
      generalize baseEdges = l
      induction l with
      | nil => rfl
      | cons a l ih => simp [ih]
    rw [this]
    convert hy using 4
    funext z
    unfold edgeForce edgePull
    rw [Pt.sub_y]
    congr 1 <;> split_ifs <;> rfl

theorem velocity_le {x : Settings} {V v F B : ℝ} (h0 : 0 < x.friction) (h1 : x.friction ≤ 15) (hV' : B ≤ V * x.friction)
    (hv : |v| ≤ V) (hF : |F| ≤ B) : |eulerVelocity 1 x.friction mass v F| ≤ V := by
  unfold eulerVelocity clip
  split_ifs
  · rw [abs_zero]
    exact (abs_nonneg _).trans hv
  · have e : v + (F - v * x.friction) * (1 / mass) * 1 = v * (1 - x.friction / 15) + F / 15 := by
      unfold mass
      ring
    rw [e]
    refine (abs_add_le _ _).trans ?_
    have a1 : |v * (1 - x.friction / 15)| ≤ V * (1 - x.friction / 15) := by
      rw [abs_mul, abs_of_nonneg (a := 1 - x.friction / 15) (by linarith)]
      exact mul_le_mul_of_nonneg_right hv (by linarith)
    have a2 : |F / 15| ≤ V * x.friction / 15 := by
      rw [abs_div, abs_of_pos (by norm_num : (0 : ℝ) < 15)]
      linarith
    linarith

/-- The targets are active, and no force on a mesh that is in range of them is above `B` in a coordinate. -/
structure Limited (x : Settings) (B : ℝ) (s : State) : Prop where
  settings : s.settings = x
  active : s.active
  force : ∀ m : Mesh, (∀ i, euclid (s.targets i) (m i) ≤ x.maximumRange) → ∀ i,
    |((calculateForces s.env.k (s.env.at_ m) s.env.springs).1 (.mesh i)).x| ≤ B ∧
    |((calculateForces s.env.k (s.env.at_ m) s.env.springs).1 (.mesh i)).y| ≤ B

theorem Tied.limited {x : Settings} {V : ℝ} {s : State} (H : Tied x V s) (hk : 0 ≤ x.springConstant) :
    Limited x (4 * x.springConstant * x.maximumRange) s :=
  ⟨H.settings, H.active, fun _ hm => forces_le H hk hm⟩

/-- One spring step. -/
theorem springStep_le {x : Settings} {V B : ℝ} {s : State} (H : Limited x B s)
    (h0 : 0 < x.friction) (h1 : x.friction ≤ 15) (hV : B ≤ V * x.friction) {m : Mesh} {vel : Mesh}
    (hm : ∀ i, euclid (s.targets i) (m i) ≤ x.maximumRange) (hv : ∀ i, |(vel i).x| ≤ V ∧ |(vel i).y| ≤ V) (i : Idx) :
    |((springStep s.env ⟨m, vel⟩).1.vel i).x| ≤ V ∧ |((springStep s.env ⟨m, vel⟩).1.vel i).y| ≤ V := by
  obtain ⟨fx, fy⟩ := H.force m hm i
  have hV0 : 0 ≤ V := (abs_nonneg _).trans (hv i).1
  have hf : s.env.friction = x.friction := congrArg Settings.friction H.settings
  simp only [springStep, anchoredIntegration]
  split_ifs
  · simpa [Pt.assignValue] using hV0
  · rw [hf]
    exact ⟨velocity_le h0 h1 hV (hv i).1 fx, velocity_le h0 h1 hV (hv i).2 fy⟩

/-- All rounds of one `Step`. -/
theorem integrate_le {x : Settings} {V B : ℝ} {s : State} (H : Limited x B s)
    (h0 : 0 < x.friction) (h1 : x.friction ≤ 15) (hV : B ≤ V * x.friction) (hR : 0 < x.maximumRange) :
    ∀ (n : ℕ) (q r : Phys) (more : Prop), (∀ i, |(q.vel i).x| ≤ V ∧ |(q.vel i).y| ≤ V) → s.integrate n q = .ok (r, more) →
      ∀ i, |(r.vel i).x| ≤ V ∧ |(r.vel i).y| ≤ V := by
  intro n
  induction n with
  | zero =>
    intro q r more hq e
    simp only [State.integrate, Outcome.ok.injEq, Prod.mk.injEq] at e
    rw [← e.1]
    exact hq
  | succ n ih =>
    intro q r more hq e
    have hR' : 0 < s.settings.maximumRange := by rw [H.settings]; exact hR
    obtain ⟨m, moved, hc, k0, -⟩ := C37_range_respected _ hR' s.targets q.pos
    have hround : s.round q = .ok ((springStep s.env ⟨m, q.vel⟩).1, moved ∨ (springStep s.env ⟨m, q.vel⟩).2) := by
      unfold State.round
      rw [if_pos H.active]
      simp only [hc, bind_ok]
    simp only [State.integrate, hround, bind_ok] at e
    rw [bind_eq_ok] at e
    obtain ⟨⟨r', more'⟩, e1, e2⟩ := e
    simp only [Outcome.ok.injEq, Prod.mk.injEq] at e2
    rw [← e2.1]
    rw [H.settings] at k0
    exact ih _ _ _ (springStep_le H h0 h1 hV k0 hq) e1

theorem base_scaled (t f : Pt) (c : ℕ) :
    (baseSprings t c).map (fun y => y.scaleLength f) = baseSprings (t.pscale f) c := by
  unfold baseSprings
  rw [List.map_map]
  refine List.map_congr_left fun y _ => ?_
  simp only [Function.comp, Spring.scaleLength, Spring.mk.injEq, true_and]
  split_ifs <;> ext <;> simp [Pt.pscale]

theorem Tied.exec {x : Settings} {V : ℝ} {s s' : State} {op : Op} {r : Res} (H : Tied x V s)
    (hk : 0 ≤ x.springConstant) (h0 : 0 < x.friction) (h1 : x.friction ≤ 15) (hV : topSpeed x ≤ V)
    (hR : 0 < x.maximumRange) (ho : KeepsAnchors op) (hs : ∀ y, op ≠ .setSettings y)
    (e : s.exec op = .ok (s', r)) : Tied x V s' := by
  cases op with
  | grab p => exact ho.elim
  | insert p => exact ho.elim
  | release k => exact ho.elim
  | setSettings y => exact absurd rfl (hs y)
  | elsewhere n =>
    simp only [State.exec, Outcome.ok.injEq, Prod.mk.injEq] at e
    rw [← e.1]
    exact ⟨H.settings, H.active, H.targets, H.springs, H.velX, H.velY⟩
  | step t =>
    change s.step t = _ at e
    unfold State.step at e
    by_cases hd : stepCount t ≠ 0 ∧ dangling s.springs s.live
    · rw [if_pos hd] at e
      cases e
    rw [if_neg hd, bind_eq_ok] at e
    obtain ⟨⟨q, more⟩, e1, e2⟩ := e
    simp only [Outcome.ok.injEq, Prod.mk.injEq] at e2
    have k := integrate_le (H.limited hk) h0 h1 ((div_le_iff₀ h0).1 hV) hR _ _ _ _ (fun i => ⟨H.velX i, H.velY i⟩) e1
    rw [← e2.1]
    exact ⟨H.settings, H.active, H.targets, H.springs, fun i => (k i).1, fun i => (k i).2⟩
  | moveBy d =>
    simp only [State.exec, Outcome.ok.injEq, Prod.mk.injEq] at e
    rw [← e.1]
    refine ⟨H.settings, H.active, ?_, H.springs, H.velX, H.velY⟩
    apply positionArray_canon (p := s.targets 0 + d)
    rw [← positionArray_shift]
    funext i
    exact congrArg (· + d) (congrFun H.targets i)
  | moveTo q =>
    obtain ⟨n, d, -, rfl, -⟩ := moveTo_ok e
    refine ⟨H.settings, H.active, ?_, H.springs, H.velX, H.velY⟩
    apply positionArray_canon (p := s.targets 0 + d)
    rw [← positionArray_shift]
    funext i
    exact congrArg (· + d) (congrFun H.targets i)
  | moveAnchor k d =>
    obtain ⟨-, ⟨-, rfl⟩ | ⟨a, -, ⟨i, -, rfl⟩ | ⟨-, rfl⟩⟩⟩ := moveAnchor_ok e
    · exact H
    · exact ⟨H.settings, H.active, movedTargets_lattice d H.targets, H.springs, H.velX, H.velY⟩
    · exact ⟨H.settings, H.active, movedTargets_lattice d H.targets, H.springs, H.velX, H.velY⟩
  | resize w hh =>
    obtain ⟨-, -, hw, hh', -, ⟨-, -, rfl⟩ | ⟨n, q, -, -, -, rfl⟩⟩ := resize_ok e
    · exact H
    · obtain ⟨c, hc⟩ := H.springs
      refine ⟨H.settings, H.active, positionArray_canon (resized_targets q hw hh' H.targets), ⟨c, ?_⟩, H.velX, H.velY⟩
      have htile : (resized ({ s with lastId := n } : State) w hh q).tile = s.tile.pscale ⟨w / s.width, hh / s.height⟩ := by
        ext <;> simp only [resized, State.tile, Pt.pscale] <;> field_simp
      rw [htile, ← base_scaled]
      exact hc.map _

theorem Tied.run {x : Settings} {V : ℝ} {s s' : State} {ops : List Op} {rs : List Res} (H : Tied x V s)
    (hk : 0 ≤ x.springConstant) (h0 : 0 < x.friction) (h1 : x.friction ≤ 15) (hV : topSpeed x ≤ V)
    (hR : 0 < x.maximumRange) (ho : ∀ op ∈ ops, KeepsAnchors op ∧ ∀ y, op ≠ .setSettings y)
    (e : s.run ops = .ok (s', rs)) : Tied x V s' := by
  induction ops generalizing s rs with
  | nil =>
    simp only [State.run, Outcome.ok.injEq, Prod.mk.injEq] at e
    rw [← e.1]
    exact H
  | cons op ops ih =>
    unfold State.run at e
    rw [bind_eq_ok] at e
    obtain ⟨⟨s1, r1⟩, e1, e⟩ := e
    rw [bind_eq_ok] at e
    obtain ⟨⟨s2, r2⟩, e2, e⟩ := e
    simp only [Outcome.ok.injEq, Prod.mk.injEq] at e
    rw [e.1] at e2
    have := ho op (by simp)
    exact ih (H.exec hk h0 h1 hV hR this.1 this.2 e1) (fun o ho' => ho o (List.mem_cons_of_mem _ ho')) e2

end Verif.Wobbly
