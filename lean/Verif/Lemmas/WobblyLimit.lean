import Verif.Lemmas.WobblyBounded
import Verif.Lemmas.WobblyStep

/-! # Velocities of a mesh held by an inserted anchor (for C110) -/

namespace Verif.Wobbly

open Spec Outcome Classical Props

/-- The spring ends at the mesh point. -/
def Touches (i : Idx) (y : Spring) : Prop := .mesh i = y.a ∨ .mesh i = y.b

/-- No mesh point has more than four springs, and no spring joins a point to itself. -/
structure FourSprings (l : List Spring) : Prop where
  degree : ∀ i, l.countP (fun y => Touches i y) ≤ 4
  loops : ∀ y ∈ l, y.a ≠ y.b

theorem base_degree (tile : Pt) (c : ℕ) (i : Idx) :
    (baseSprings tile c).countP (fun y => Touches i y) = baseEdges.countP (fun z => i = z.1 ∨ i = z.2.1) := by
  have : baseEdges.zipIdx.countP (fun z => decide (i = z.1.1 ∨ i = z.1.2.1)) =
      baseEdges.countP (fun z => i = z.1 ∨ i = z.2.1) := by
    conv_rhs => rw [← List.zipIdx_map_fst 0 baseEdges, List.countP_map]
    rfl
  rw [← this]
  unfold baseSprings
  rw [List.countP_map]
  refine List.countP_congr fun z _ => ?_
  simp [Function.comp, Touches]

theorem base_four (tile : Pt) (c : ℕ) : FourSprings (baseSprings tile c) := by
  refine ⟨fun i => ?_, ?_⟩
  · rw [base_degree]
    refine le_trans (le_of_eq ?_) (degree_le i)
    congr!
  · intro y hy
    simp only [baseSprings, List.mem_map] at hy
    obtain ⟨z, hz, rfl⟩ := hy
    have := no_loops z.1 ((List.mem_zipIdx hz).2.2 ▸ List.getElem_mem _)
    simpa using this

theorem FourSprings.perm {l l' : List Spring} (h : FourSprings l) (p : l'.Perm l) : FourSprings l' :=
  ⟨fun i => by rw [p.countP_eq]; exact h.degree i, fun y hy => h.loops y (p.subset hy)⟩

theorem FourSprings.scaled {l : List Spring} (h : FourSprings l) (f : Pt) :
    FourSprings (l.map fun y => y.scaleLength f) := by
  refine ⟨fun i => ?_, ?_⟩
  · rw [List.countP_map]
    exact h.degree i
  · intro y hy
    obtain ⟨z, hz, rfl⟩ := List.mem_map.1 hy
    exact h.loops z hz

/-- Replacing a spring between mesh points by two that go to an anchor. -/
theorem FourSprings.split {l : List Spring} (h : FourSprings l) {found : Spring} (hf : found ∈ l) {i j : Idx}
    (hi : found.a = .mesh i) (hj : found.b = .mesh j) (a b k : ℕ) (d1 d2 : Pt) :
    FourSprings (removeId l found.id ++ [⟨a, .anchor k, found.a, d1⟩, ⟨b, .anchor k, found.b, d2⟩]) := by
  have hl := h.loops found hf
  refine ⟨fun q => ?_, ?_⟩
  · have h4 := h.degree q
    rw [List.countP_append]
    have hs : (removeId l found.id).countP (fun y => Touches q y) + (if Touches q found then 1 else 0) ≤
        l.countP (fun y => Touches q y) := by
      have e := List.countP_eq_countP_filter_add l (fun y => decide (Touches q y)) (fun y => decide (y.id ≠ found.id))
      unfold removeId
      rw [e]
      refine Nat.add_le_add_left ?_ _
      split_ifs with ht
      · exact List.countP_pos_iff.2 ⟨found, List.mem_filter.2 ⟨hf, by simp⟩, by simpa using ht⟩
      · exact Nat.zero_le _
    have h2 : List.countP (fun y => decide (Touches q y))
        [(⟨a, .anchor k, found.a, d1⟩ : Spring), ⟨b, .anchor k, found.b, d2⟩] = if Touches q found then 1 else 0 := by
      rw [hi, hj] at hl ⊢
      have hij : i ≠ j := fun e => hl (by rw [e])
      simp only [Touches, List.countP_cons, List.countP_nil, hi, hj, Node.mesh.injEq, reduceCtorEq, false_or,
        decide_eq_true_eq]
      by_cases h1 : q = i
      · have : q ≠ j := fun e => hij (h1.symm.trans e)
        simp [h1, hij]
      · by_cases h2 : q = j
        · simp [h2]
          exact fun e => hij e.symm
        · simp [h1, h2]
    omega
  · intro y hy
    simp only [List.mem_append, List.mem_cons, List.not_mem_nil, or_false] at hy
    rcases hy with hy | rfl | rfl
    · exact h.loops y (List.mem_of_mem_filter hy)
    · rw [hi]; simp
    · rw [hj]; simp

theorem contribution_le {x : Settings} {s : State} (hfit : OnTargets s) (hk : 0 ≤ x.springConstant)
    (hR : 0 ≤ x.maximumRange) {m : Mesh}
    (hm : ∀ i, euclid (s.targets i) (m i) ≤ x.maximumRange) {y : Spring} (hy : y ∈ s.springs) :
    |(pullPt x.springConstant (s.env.at_ m) y).x| ≤ x.springConstant * x.maximumRange ∧
    |(pullPt x.springConstant (s.env.at_ m) y).y| ≤ x.springConstant * x.maximumRange := by
  have h0 := hfit y hy
  simp only [deviation, Pt.ext_iff, Pt.zero_x, Pt.zero_y] at h0
  have hn : ∀ n : Node, |(s.env.at_ m n).x - (s.env.at_ s.targets n).x| ≤ x.maximumRange ∧
      |(s.env.at_ m n).y - (s.env.at_ s.targets n).y| ≤ x.maximumRange := by
    intro n
    cases n with
    | mesh i => exact disp_le (hm i)
    | anchor j => simpa [Env.at_] using hR
  have ha := hn y.a
  have hb := hn y.b
  simp only [abs_le] at ha hb
  refine ⟨pull_le hk ?_, pull_le hk ?_⟩
  · simp only [deviation]
    rw [abs_le]
    constructor <;> linarith [h0.1, ha.1.1, ha.1.2, hb.1.1, hb.1.2]
  · simp only [deviation]
    rw [abs_le]
    constructor <;> linarith [h0.2, ha.2.1, ha.2.2, hb.2.1, hb.2.2]

/-- Springs that fit the targets, four at most at each point: the forces are limited. -/
theorem limited_of_fits {x : Settings} {s : State} (hs : s.settings = x) (ha : s.active) (hfit : OnTargets s)
    (hfour : FourSprings s.springs) (hk : 0 ≤ x.springConstant) :
    Limited x (4 * x.springConstant * x.maximumRange) s := by
  refine ⟨hs, ha, fun m hm i => ?_⟩
  have hR : 0 ≤ x.maximumRange := (Real.sqrt_nonneg _).trans (hm 0)
  have hkR : 0 ≤ x.springConstant * x.maximumRange := mul_nonneg hk hR
  have he : s.env.k = x.springConstant := congrArg Settings.springConstant hs
  rw [calculateForces_force, he]
  rw [sum_x, sum_y, List.map_map, List.map_map]
  have h4 : ((s.springs.countP (fun y => decide (Touches i y)) : ℕ) : ℝ) ≤ 4 := by exact_mod_cast hfour.degree i
  have hb : ((s.springs.countP (fun y => decide (Touches i y)) : ℕ) : ℝ) * (x.springConstant * x.maximumRange) ≤
      4 * x.springConstant * x.maximumRange := by nlinarith
  constructor
  · refine (sum_bound _ _ (fun y => Touches i y) ?_ ?_).trans hb
    · intro y hy ht
      have hp := (contribution_le hfit hk hR hm hy).1
      have hl := hfour.loops y hy
      show |(contribution _ _ _ _).x| ≤ _
      unfold contribution
      by_cases h1 : .mesh i = y.a
      · rw [if_pos h1, if_neg (fun h => hl (h1.symm.trans h)), sub_zero]
        exact hp
      · rw [if_neg h1, if_pos (ht.resolve_left h1), zero_sub, Pt.neg_x, abs_neg]
        exact hp
    · intro y _ ht
      unfold Touches at ht
      rw [not_or] at ht
      show (contribution _ _ _ _).x = 0
      unfold contribution
      rw [if_neg ht.1, if_neg ht.2, sub_zero]
      rfl
  · refine (sum_bound _ _ (fun y => Touches i y) ?_ ?_).trans hb
    · intro y hy ht
      have hp := (contribution_le hfit hk hR hm hy).2
      have hl := hfour.loops y hy
      show |(contribution _ _ _ _).y| ≤ _
      unfold contribution
      by_cases h1 : .mesh i = y.a
      · rw [if_pos h1, if_neg (fun h => hl (h1.symm.trans h)), sub_zero]
        exact hp
      · rw [if_neg h1, if_pos (ht.resolve_left h1), zero_sub, Pt.neg_y, abs_neg]
        exact hp
    · intro y _ ht
      unfold Touches at ht
      rw [not_or] at ht
      show (contribution _ _ _ _).y = 0
      unfold contribution
      rw [if_neg ht.1, if_neg ht.2, sub_zero]
      rfl

/-- A model held by one inserted anchor, with velocities of at most `V`. -/
structure Hung (x : Settings) (V : ℝ) (s : State) : Prop where
  lone : Lone s
  settings : s.settings = x
  four : FourSprings s.springs
  vel : ∀ i, |(s.vel i).x| ≤ V ∧ |(s.vel i).y| ≤ V

theorem Hung.limited {x : Settings} {V : ℝ} {s : State} (H : Hung x V s) (hk : 0 ≤ x.springConstant) :
    Limited x (4 * x.springConstant * x.maximumRange) s :=
  limited_of_fits H.settings H.lone.count H.lone.fits H.four hk

theorem Hung.exec {x : Settings} {V : ℝ} {s s' : State} {op : Op} {r : Res} (H : Hung x V s)
    (hk : 0 ≤ x.springConstant) (h0 : 0 < x.friction) (h1 : x.friction ≤ 15) (hV : topSpeed x ≤ V)
    (hR : 0 < x.maximumRange) (ho : KeepsAnchors op) (hs : ∀ y, op ≠ .setSettings y)
    (e : s.exec op = .ok (s', r)) : Hung x V s' := by
  have hL := lone_exec H.lone ho e
  suffices h : s'.settings = x ∧ FourSprings s'.springs ∧ ∀ i, |(s'.vel i).x| ≤ V ∧ |(s'.vel i).y| ≤ V from
    ⟨hL, h.1, h.2.1, h.2.2⟩
  clear hL
  cases op with
  | grab p => exact ho.elim
  | insert p => exact ho.elim
  | release k => exact ho.elim
  | setSettings y => exact absurd rfl (hs y)
  | elsewhere n =>
    simp only [State.exec, Outcome.ok.injEq, Prod.mk.injEq] at e
    rw [← e.1]
    exact ⟨H.settings, H.four, H.vel⟩
  | step t =>
    change s.step t = _ at e
    unfold State.step at e
    by_cases hd : stepCount t ≠ 0 ∧ dangling s.springs s.live
    · rw [if_pos hd] at e
      cases e
    rw [if_neg hd, bind_eq_ok] at e
    obtain ⟨⟨q, more⟩, e1, e2⟩ := e
    simp only [Outcome.ok.injEq, Prod.mk.injEq] at e2
    have k := integrate_le (H.limited hk) h0 h1 ((div_le_iff₀ h0).1 hV) hR _ _ _ _ H.vel e1
    rw [← e2.1]
    exact ⟨H.settings, H.four, k⟩
  | moveBy d =>
    simp only [State.exec, Outcome.ok.injEq, Prod.mk.injEq] at e
    rw [← e.1]
    exact ⟨H.settings, H.four, H.vel⟩
  | moveTo q =>
    obtain ⟨n, d, -, rfl, -⟩ := moveTo_ok e
    exact ⟨H.settings, H.four, H.vel⟩
  | moveAnchor k d =>
    obtain ⟨-, ⟨-, rfl⟩ | ⟨a, -, ⟨i, -, rfl⟩ | ⟨-, rfl⟩⟩⟩ := moveAnchor_ok e
    all_goals exact ⟨H.settings, H.four, H.vel⟩
  | resize w hh =>
    obtain ⟨-, -, -, -, -, ⟨-, -, rfl⟩ | ⟨n, q, -, -, -, rfl⟩⟩ := resize_ok e
    · exact ⟨H.settings, H.four, H.vel⟩
    · exact ⟨H.settings, H.four.scaled _, H.vel⟩

theorem Hung.run {x : Settings} {V : ℝ} {s s' : State} {ops : List Op} {rs : List Res} (H : Hung x V s)
    (hk : 0 ≤ x.springConstant) (h0 : 0 < x.friction) (h1 : x.friction ≤ 15) (hV : topSpeed x ≤ V)
    (hR : 0 < x.maximumRange) (ho : ∀ op ∈ ops, KeepsAnchors op ∧ ∀ y, op ≠ .setSettings y)
    (e : s.run ops = .ok (s', rs)) : Hung x V s' := by
  induction ops generalizing s rs with
  | nil =>
    simp only [State.run, Outcome.ok.injEq, Prod.mk.injEq] at e
    rw [← e.1]
    exact H
  | cons op ops ih =>
    unfold State.run at e
    rw [bind_eq_ok] at e
    obtain ⟨⟨s1, r1⟩, e1, e⟩ := e
    rw [bind_eq_ok] at e
    obtain ⟨⟨s2, r2⟩, e2, e⟩ := e
    simp only [Outcome.ok.injEq, Prod.mk.injEq] at e
    rw [e.1] at e2
    have := ho op (by simp)
    exact ih (H.exec hk h0 h1 hV hR this.1 this.2 e1) (fun o ho' => ho o (List.mem_cons_of_mem _ ho')) e2

/-- The first anchor, inserted. -/
theorem hung_insert {b : ℕ} {s s' : State} {V : ℝ} (hI : Inv b s) (hB : BaseLen b s) (hl : s.live = [])
    (hinj : Function.Injective s.pos) (hv : ∀ i, |(s.vel i).x| ≤ V ∧ |(s.vel i).y| ≤ V) {q : Pt} {r : Res}
    (e : s.exec (.insert q) = .ok (s', r)) : Hung s.settings V s' := by
  have hL := lone_insert hI hB hl hinj e
  obtain ⟨t, n, found, d1, d2, -, -, -, hf, -, -, rfl, -⟩ := insert_ok e
  have hfm : found ∈ s.springs := splitStep_mem _ _ _ _ hf
  have hperm := springs_perm hI hB (noneInserted_nil hl)
  obtain ⟨⟨i, hi⟩, j, hj⟩ := base_ends_mesh (hperm.mem_iff.1 hfm)
  have h4 : FourSprings s.springs := (base_four _ _).perm hperm
  exact ⟨hL, rfl, h4.split hfm hi hj _ _ _ _ _, hv⟩

/-- One call of `Step` under limited forces. -/
theorem Limited.step {x : Settings} {V B : ℝ} {s : State} (H : Limited x B s) (hd : ¬ dangling s.springs s.live)
    (hv : ∀ i, |(s.vel i).x| ≤ V ∧ |(s.vel i).y| ≤ V) (h0 : 0 < x.friction) (h1 : x.friction ≤ 15) (hV : B ≤ V * x.friction)
    (hR : 0 < x.maximumRange) {t : ℕ} (ht : t ≠ 0) :
    ∃ s' b, s.exec (.step t) = .ok (s', .more b) ∧ ∀ i, |(s'.vel i).x| ≤ V ∧ |(s'.vel i).y| ≤ V ∧
      |(s'.pos i).x - (s.targets i).x| ≤ x.maximumRange + V / 2 ∧
      |(s'.pos i).y - (s.targets i).y| ≤ x.maximumRange + V / 2 := by
  have hR' : 0 < s.settings.maximumRange := by rw [H.settings]; exact hR
  obtain ⟨r, moved, hi, hk'⟩ := integrate_in_range H.active hR' (stepCount t) ⟨s.pos, s.vel⟩
  have hl := integrate_le H h0 h1 hV hR _ _ _ _ hv hi
  set m' : Prop := (if t ≠ 0 then False else s.unequal) ∨ moved
  have hx : s.exec (.step t) = .ok ({ s with
      pos := if ¬ m' ∧ s.active then s.targets else r.pos, vel := r.vel, unequal := m' }, .more m') := by
    show s.step t = _
    unfold State.step
    rw [if_neg (fun h => hd h.2), hi]
    rfl
  refine ⟨_, _, hx, fun i => ?_⟩
  refine ⟨(hl i).1, (hl i).2, ?_⟩
  have hV0 : 0 ≤ V := (abs_nonneg _).trans (hv 0).1
  have key : ∀ {a m v c : ℝ}, |v| ≤ V → |m - c| ≤ x.maximumRange → a = m + v / 2 →
      |a - c| ≤ x.maximumRange + V / 2 := by
    rintro a m v c h1 h2 rfl
    have : m + v / 2 - c = (m - c) + v / 2 := by ring
    rw [this]
    refine (abs_add_le _ _).trans ?_
    rw [abs_div, abs_of_pos (by norm_num : (0 : ℝ) < 2)]
    linarith
  obtain ⟨m, k1, k2, k3⟩ := hk' (stepCount_pos ht) i
  have d := disp_le k1
  rw [H.settings] at d
  by_cases hc : ¬ m' ∧ s.active
  · simp only [if_pos hc, sub_self, abs_zero]
    constructor <;> positivity
  · simp only [if_neg hc]
    exact ⟨key (hl i).1 d.1 k2, key (hl i).2 d.2 k3⟩

/-! ## Any model held by one anchor -/

/-- What `s` keeps of `o` while its only anchor is dragged and the model is moved and stepped. -/
structure Kept (o s : State) : Prop where
  settings : s.settings = o.settings
  live : ∃ a, s.live = [a]
  count : s.count = 1
  springs : s.springs = o.springs
  fine : ¬ dangling s.springs s.live
  dev : ∀ y ∈ s.springs, deviation (s.env.at_ s.targets) y = deviation (o.env.at_ o.targets) y

/-- Moving everything that springs see keeps how far they are from fitting the targets. -/
theorem dev_shift {s s' : State} {d : Pt} (hd : ¬ dangling s.springs s.live) (hs : s'.springs = s.springs)
    (ht : ∀ i, s'.targets i = s.targets i + d) (ha : ∀ j, anchorData s'.live j = (anchorData s.live j).map (· + d)) :
    ¬ dangling s'.springs s'.live ∧
      ∀ y ∈ s.springs, deviation (s'.env.at_ s'.targets) y = deviation (s.env.at_ s.targets) y := by
  have hat : ∀ n : Node, n.alive s.live → s'.env.at_ s'.targets n = s.env.at_ s.targets n + d := by
    intro n hn
    cases n with
    | mesh i => exact ht i
    | anchor j =>
      simp only [Node.alive] at hn
      simp only [Env.at_, State.env, apos, ha]
      cases hx : anchorData s.live j with
      | none => rw [hx] at hn; simp at hn
      | some p => rfl
  have halive : ∀ n : Node, n.alive s.live → n.alive s'.live := by
    intro n hn
    cases n with
    | mesh i => trivial
    | anchor j =>
      simp only [Node.alive] at hn ⊢
      rw [ha, Option.isSome_map]
      exact hn
  have hal : ∀ y ∈ s.springs, y.a.alive s.live ∧ y.b.alive s.live := by
    intro y hy
    by_contra hc
    exact hd ⟨y, hy, hc⟩
  constructor
  · rintro ⟨y, hy, hc⟩
    rw [hs] at hy
    exact hc ⟨halive _ (hal y hy).1, halive _ (hal y hy).2⟩
  · intro y hy
    simp only [deviation, hat _ (hal y hy).1, hat _ (hal y hy).2, Pt.add_x, Pt.add_y, Pt.mk.injEq]
    constructor <;> ring

theorem Kept.exec {o s s' : State} {op : Op} {r : Res} (H : Kept o s) (ho : KeepsAnchors op)
    (hs : ∀ y, op ≠ .setSettings y) (hz : ∀ w h, op ≠ .resize w h) (e : s.exec op = .ok (s', r)) : Kept o s' := by
  obtain ⟨hset, ⟨a0, hl⟩, hc, hsp, hd, hdev⟩ := H
  have hmove : ∀ (n : ℕ) (d : Pt), Kept o (({ s with lastId := n } : State).moveBy d) := by
    intro n d
    obtain ⟨k1, k2⟩ := dev_shift (s' := ({ s with lastId := n } : State).moveBy d) hd rfl (fun _ => rfl)
      (anchorData_shift s.live d)
    exact ⟨hset, ⟨_, by simp [State.moveBy, hl]; rfl⟩, hc, hsp, k1, fun y hy => (k2 y hy).trans (hdev y hy)⟩
  cases op with
  | grab q => exact ho.elim
  | insert q => exact ho.elim
  | release q => exact ho.elim
  | setSettings y => exact absurd rfl (hs y)
  | resize w h => exact absurd rfl (hz w h)
  | elsewhere y =>
    simp only [State.exec, Outcome.ok.injEq, Prod.mk.injEq] at e
    rw [← e.1]
    exact ⟨hset, ⟨a0, hl⟩, hc, hsp, hd, hdev⟩
  | step t =>
    obtain ⟨P, V, m, rfl, -⟩ := step_ok e
    exact ⟨hset, ⟨a0, hl⟩, hc, hsp, hd, hdev⟩
  | moveBy d =>
    simp only [State.exec, Outcome.ok.injEq, Prod.mk.injEq] at e
    rw [← e.1]
    exact hmove s.lastId d
  | moveTo q =>
    obtain ⟨n, d, -, rfl, -⟩ := moveTo_ok e
    exact hmove n d
  | moveAnchor k d =>
    have hact : s.active := hc
    have ht : movedTargets s d = fun i => s.targets i + d := by
      unfold movedTargets
      rw [if_pos hact]
    obtain ⟨-, ⟨-, rfl⟩ | ⟨a, ha, hcase⟩⟩ := moveAnchor_ok e
    · exact ⟨hset, ⟨a0, hl⟩, hc, hsp, hd, hdev⟩
    have hm := List.mem_of_find?_eq_some ha
    have hk' := List.find?_some ha
    rw [hl, List.mem_singleton] at hm
    simp only [decide_eq_true_eq] at hk'
    subst hm
    rcases hcase with ⟨j, hj, rfl⟩ | ⟨⟨p, st, f, g, hins⟩, rfl⟩
    · generalize hz : State.mk _ _ _ _ _ _ _ _ _ _ _ _ _ _ _ = z
      have hnone : ∀ j, anchorData s.live j = none := by
        intro j'
        rw [hl, anchorData_cons, hj]
        rfl
      obtain ⟨k1, k2⟩ := dev_shift (s' := z) (d := d) hd (by rw [← hz]) (fun i => by rw [← hz]; simp only [ht])
        (fun j => by rw [← hz]; simp only [hnone, Option.map_none])
      subst hz
      exact ⟨hset, ⟨a, hl⟩, hc, hsp, k1, fun y hy => (k2 y hy).trans (hdev y hy)⟩
    · have hdata : ∀ j, anchorData (s.live.map fun b => if b.hid = k then ⟨b.hid, b.kind.shift d⟩ else b) j =
          (anchorData s.live j).map (· + d) := by
        intro j
        rw [anchorData_move]
        by_cases hjk : j = k
        · rw [if_pos hjk]
        · rw [if_neg hjk]
          have : anchorData s.live j = none := by
            rw [hl, anchorData_cons, hins]
            simp only
            rw [if_neg (fun h => hjk (h.symm.trans hk'))]
            rfl
          rw [this]
          rfl
      generalize hz : State.mk _ _ _ _ _ _ _ _ _ _ _ _ _ _ _ = z
      obtain ⟨k1, k2⟩ := dev_shift (s' := z) (d := d) hd (by rw [← hz]) (fun i => by rw [← hz]; simp only [ht])
        (by rw [← hz]; exact hdata)
      subst hz
      exact ⟨hset, ⟨_, by simp [hl]; rfl⟩, hc, hsp, k1, fun y hy => (k2 y hy).trans (hdev y hy)⟩

theorem exists_bound (l : List Spring) (f : Spring → ℝ) : ∃ D, 0 ≤ D ∧ ∀ y ∈ l, f y ≤ D := by
  induction l with
  | nil => exact ⟨0, le_refl _, by simp⟩
  | cons a l ih =>
    obtain ⟨D, h0, h⟩ := ih
    refine ⟨max D (f a), le_max_of_le_left h0, ?_⟩
    intro y hy
    rcases List.mem_cons.1 hy with rfl | hy
    · exact le_max_right _ _
    · exact (h y hy).trans (le_max_left _ _)

theorem pull_bound {k d B : ℝ} (hk : 0 ≤ k) (hd : |d| ≤ B) : |pull k d| ≤ k * B := by
  have : 0 ≤ B := (abs_nonneg _).trans hd
  have := pull_le (d := d) (R := B / 2) hk (by linarith)
  nlinarith [mul_nonneg hk ‹0 ≤ B›]

/-- One limit for every state that keeps these springs. -/
theorem Kept.limited {o : State} (hk : 0 ≤ o.settings.springConstant) :
    ∃ B, 0 ≤ B ∧ ∀ s, Kept o s → Limited o.settings B s := by
  obtain ⟨D, hD0, hD⟩ := exists_bound o.springs
    (fun y => |(deviation (o.env.at_ o.targets) y).x| + |(deviation (o.env.at_ o.targets) y).y|)
  set R := max o.settings.maximumRange 0 with hRdef
  have hR0 : 0 ≤ R := le_max_right _ _
  set c := o.settings.springConstant * (2 * R + D) with hcdef
  have hc0 : 0 ≤ c := by positivity
  refine ⟨o.springs.length * c, by positivity, fun s H => ⟨H.settings, H.count, fun m hm i => ?_⟩⟩
  have he : s.env.k = o.settings.springConstant := congrArg Settings.springConstant H.settings
  have hn : ∀ n : Node, |(s.env.at_ m n).x - (s.env.at_ s.targets n).x| ≤ R ∧
      |(s.env.at_ m n).y - (s.env.at_ s.targets n).y| ≤ R := by
    intro n
    cases n with
    | mesh i =>
      have := disp_le (hm i)
      exact ⟨this.1.trans (le_max_left _ _), this.2.trans (le_max_left _ _)⟩
    | anchor j => simpa [Env.at_] using hR0
  have hpull : ∀ y ∈ s.springs, |(pullPt o.settings.springConstant (s.env.at_ m) y).x| ≤ c ∧
      |(pullPt o.settings.springConstant (s.env.at_ m) y).y| ≤ c := by
    intro y hy
    have h1 := hD y (H.springs ▸ hy)
    have h2 := H.dev y hy
    rw [← h2] at h1
    have ha := hn y.a
    have hb := hn y.b
    have hx := abs_nonneg (deviation (s.env.at_ s.targets) y).x
    have hy' := abs_nonneg (deviation (s.env.at_ s.targets) y).y
    have lx := abs_le.1 (show |(deviation (s.env.at_ s.targets) y).x| ≤ D by linarith)
    have ly := abs_le.1 (show |(deviation (s.env.at_ s.targets) y).y| ≤ D by linarith)
    simp only [deviation] at lx ly
    simp only [abs_le] at ha hb
    refine ⟨pull_bound hk ?_, pull_bound hk ?_⟩
    · simp only [deviation]
      rw [abs_le]
      constructor <;> linarith [lx.1, lx.2, ha.1.1, ha.1.2, hb.1.1, hb.1.2]
    · simp only [deviation]
      rw [abs_le]
      constructor <;> linarith [ly.1, ly.2, ha.2.1, ha.2.2, hb.2.1, hb.2.2]
  have hcon : ∀ y ∈ s.springs, |(contribution o.settings.springConstant (s.env.at_ m) y (.mesh i)).x| ≤ c ∧
      |(contribution o.settings.springConstant (s.env.at_ m) y (.mesh i)).y| ≤ c := by
    intro y hy
    obtain ⟨p1, p2⟩ := hpull y hy
    unfold contribution
    split_ifs
    · simpa using hc0
    · simpa using ⟨p1, p2⟩
    · simpa using ⟨p1, p2⟩
    · simpa using hc0
  rw [calculateForces_force, he, sum_x, sum_y, List.map_map, List.map_map]
  constructor
  · refine (sum_bound _ _ (fun _ => True) (fun y hy _ => (hcon y hy).1) (fun y _ h => absurd trivial h)).trans ?_
    exact le_of_eq (by simp [State.env, H.springs])
  · refine (sum_bound _ _ (fun _ => True) (fun y hy _ => (hcon y hy).2) (fun y _ h => absurd trivial h)).trans ?_
    exact le_of_eq (by simp [State.env, H.springs])

/-- Both together along a run. -/
theorem Kept.run {o s s' : State} {V B : ℝ} {ops : List Op} {rs : List Res} (H : Kept o s)
    (hL : ∀ s, Kept o s → Limited o.settings B s) (h0 : 0 < o.settings.friction) (h1 : o.settings.friction ≤ 15)
    (hV : B ≤ V * o.settings.friction) (hR : 0 < o.settings.maximumRange)
    (hv : ∀ i, |(s.vel i).x| ≤ V ∧ |(s.vel i).y| ≤ V)
    (ho : ∀ op ∈ ops, KeepsAnchors op ∧ (∀ y, op ≠ .setSettings y) ∧ ∀ w h, op ≠ .resize w h)
    (e : s.run ops = .ok (s', rs)) : Kept o s' ∧ ∀ i, |(s'.vel i).x| ≤ V ∧ |(s'.vel i).y| ≤ V := by
  induction ops generalizing s rs with
  | nil =>
    simp only [State.run, Outcome.ok.injEq, Prod.mk.injEq] at e
    rw [← e.1]
    exact ⟨H, hv⟩
  | cons op ops ih =>
    unfold State.run at e
    rw [bind_eq_ok] at e
    obtain ⟨⟨s1, r1⟩, e1, e⟩ := e
    rw [bind_eq_ok] at e
    obtain ⟨⟨s2, r2⟩, e2, e⟩ := e
    simp only [Outcome.ok.injEq, Prod.mk.injEq] at e
    rw [e.1] at e2
    obtain ⟨o1, o2, o3⟩ := ho op (by simp)
    refine ih (H.exec o1 o2 o3 e1) ?_ (fun o ho' => ho o (List.mem_cons_of_mem _ ho')) e2
    cases op with
    | grab q => exact o1.elim
    | insert q => exact o1.elim
    | release q => exact o1.elim
    | setSettings y => exact absurd rfl (o2 y)
    | resize w h => exact absurd rfl (o3 w h)
    | elsewhere y =>
      simp only [State.exec, Outcome.ok.injEq, Prod.mk.injEq] at e1
      rw [← e1.1]
      exact hv
    | moveBy d =>
      simp only [State.exec, Outcome.ok.injEq, Prod.mk.injEq] at e1
      rw [← e1.1]
      exact hv
    | moveTo q =>
      obtain ⟨n, d, -, rfl, -⟩ := moveTo_ok e1
      exact hv
    | moveAnchor k d =>
      obtain ⟨-, ⟨-, rfl⟩ | ⟨a, -, ⟨i, -, rfl⟩ | ⟨-, rfl⟩⟩⟩ := moveAnchor_ok e1
      all_goals exact hv
    | step t =>
      change s.step t = _ at e1
      unfold State.step at e1
      by_cases hd : stepCount t ≠ 0 ∧ dangling s.springs s.live
      · rw [if_pos hd] at e1
        cases e1
      rw [if_neg hd, bind_eq_ok] at e1
      obtain ⟨⟨q, more⟩, e3, e4⟩ := e1
      simp only [Outcome.ok.injEq, Prod.mk.injEq] at e4
      have k := integrate_le (hL s H) h0 h1 hV hR _ _ _ _ hv e3
      rw [← e4.1]
      exact k

end Verif.Wobbly
