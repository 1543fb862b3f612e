import Verif.Lemmas.WobblyStep

/-! Full integrations that never end. -/

namespace Verif.Wobbly

open Spec Outcome

/-! ## Forces of the base springs in terms of displacements from a lattice -/

/-- What a mesh edge pulls with. -/
noncomputable def edgePull (k : ℝ) (disp : Idx → Pt) (z : Idx × Idx × Bool) : Pt :=
  ⟨pull k ((disp z.2.1).x - (disp z.1).x), pull k ((disp z.2.1).y - (disp z.1).y)⟩

noncomputable def edgeForce (k : ℝ) (disp : Idx → Pt) (i : Idx) (z : Idx × Idx × Bool) : Pt :=
  (if i = z.1 then edgePull k disp z else 0) - (if i = z.2.1 then edgePull k disp z else 0)

theorem deviation_disp {e : Env} {p tile : Pt} {b : ℕ} {m : Mesh} {disp : Idx → Pt}
    (hm : ∀ i, m i = positionArray p tile i + disp i) {z : (Idx × Idx × Bool) × ℕ} (hz : z ∈ baseEdges.zipIdx) :
    deviation (e.at_ m) ⟨b + z.2 + 1, .mesh z.1.1, .mesh z.1.2.1,
      if z.1.2.2 then ⟨0, tile.y⟩ else ⟨tile.x, 0⟩⟩ = disp z.1.2.1 - disp z.1.1 := by
  have h0 := base_deviation (e := e) (p := p) (tile := tile) (b := b) (x := ⟨b + z.2 + 1, .mesh z.1.1,
    .mesh z.1.2.1, if z.1.2.2 then ⟨0, tile.y⟩ else ⟨tile.x, 0⟩⟩) (List.mem_map.2 ⟨z, hz, rfl⟩)
  simp only [deviation, Env.at_, Pt.ext_iff, Pt.zero_x, Pt.zero_y] at h0
  simp only [deviation, Env.at_, hm]
  ext
  · simp only [Pt.add_x, Pt.sub_x]
    linarith [h0.1]
  · simp only [Pt.add_y, Pt.sub_y]
    linarith [h0.2]

theorem force_disp {e : Env} {p tile : Pt} {b : ℕ} {m : Mesh} {disp : Idx → Pt} (k : ℝ)
    (hm : ∀ i, m i = positionArray p tile i + disp i) (i : Idx) :
    (calculateForces k (e.at_ m) (baseSprings tile b)).1 (.mesh i) = (baseEdges.map (edgeForce k disp i)).sum := by
  rw [calculateForces_force]
  have hz : (baseSprings tile b).map (fun s => contribution k (e.at_ m) s (.mesh i)) =
      baseEdges.zipIdx.map (fun z => edgeForce k disp i z.1) := by
    unfold baseSprings
    rw [List.map_map]
    refine List.map_congr_left fun z hz => ?_
    have hd := deviation_disp (e := e) (b := b) hm hz
    simp only [Function.comp, contribution, edgeForce, pullPt, hd, edgePull, Node.mesh.injEq, Pt.sub_x, Pt.sub_y]
  rw [hz]
  have : baseEdges.zipIdx.map (fun z => edgeForce k disp i z.1) =
      (baseEdges.zipIdx.map Prod.fst).map (edgeForce k disp i) := by
    rw [List.map_map]
    rfl
  rw [this, List.zipIdx_map_fst]

theorem more_disp {e : Env} {p tile : Pt} {b : ℕ} {m : Mesh} {disp : Idx → Pt} (k : ℝ)
    (hm : ∀ i, m i = positionArray p tile i + disp i) :
    (calculateForces k (e.at_ m) (baseSprings tile b)).2 ↔
      ∃ z ∈ baseEdges, ¬ (|(disp z.2.1).x - (disp z.1).x| < 1 ∧ |(disp z.2.1).y - (disp z.1).y| < 1) := by
  rw [calculateForces_more]
  constructor
  · rintro ⟨y, hy, h⟩
    simp only [baseSprings, List.mem_map] at hy
    obtain ⟨z, hz, rfl⟩ := hy
    refine ⟨z.1, (List.mem_zipIdx hz).2.2 ▸ List.getElem_mem _, ?_⟩
    unfold InDeadZone at h
    rw [deviation_disp hm hz] at h
    simpa using h
  · rintro ⟨z, hz, h⟩
    obtain ⟨n, hn, rfl⟩ := List.getElem_of_mem hz
    have hz' : (baseEdges[n], n) ∈ baseEdges.zipIdx := by
      rw [List.mem_zipIdx_iff_getElem?]
      simp [hn]
    refine ⟨_, List.mem_map.2 ⟨_, hz', rfl⟩, ?_⟩
    unfold InDeadZone
    rw [deviation_disp (e := e) (b := b) hm hz']
    simpa using h

theorem baseEdges_list : baseEdges = [(0, 4, true), (0, 1, false), (1, 5, true), (1, 2, false), (2, 6, true),
    (2, 3, false), (3, 7, true), (4, 8, true), (4, 5, false), (5, 9, true), (5, 6, false), (6, 10, true), (6, 7, false),
    (7, 11, true), (8, 12, true), (8, 9, false), (9, 13, true), (9, 10, false), (10, 14, true), (10, 11, false),
    (11, 15, true), (12, 13, false), (13, 14, false), (14, 15, false)] := by decide

/-! ## Nothing moves, but a spring is out of its dead zone -/

theorem stuck {e : Env} {q : Phys} (hv : ∀ i, q.vel i = 0)
    (hf : ∀ i, e.locks i = 0 → |((calculateForces e.k (e.at_ q.pos) e.springs).1 (.mesh i)).x| < 3 / 2 ∧
      |((calculateForces e.k (e.at_ q.pos) e.springs).1 (.mesh i)).y| < 3 / 2) :
    (springStep e q).1 = q := by
  have hvel : ∀ c : ℝ, |c| < 3 / 2 → eulerVelocity 1 e.friction mass 0 c = 0 := by
    intro c hc
    unfold eulerVelocity mass
    rw [clip_eq_zero]
    left
    rw [show (0 : ℝ) + (c - 0 * e.friction) * (1 / 15) * 1 = c / 15 by ring, abs_div, abs_of_pos (by norm_num : (0 : ℝ) < 15)]
    rw [div_lt_iff₀ (by norm_num)]
    linarith
  unfold springStep anchoredIntegration
  ext1
  · funext i
    simp only
    split_ifs with hi
    · rfl
    · obtain ⟨h1, h2⟩ := hf i (by omega)
      simp only [eulerIntegrate, hv, Pt.zero_x, Pt.zero_y, hvel _ h1, hvel _ h2]
      ext <;> simp
  · funext i
    simp only
    split_ifs with hi
    · rw [hv]
      rfl
    · obtain ⟨h1, h2⟩ := hf i (by omega)
      simp only [eulerIntegrate, hv, Pt.zero_x, Pt.zero_y, hvel _ h1, hvel _ h2]
      rfl

theorem stuck_forever {e : Env} {q : Phys} (h : (springStep e q).1 = q) (hm : (springStep e q).2) :
    ∀ n, settleMore e q n := by
  have hi : ∀ n, settleIter e q n = q := by
    intro n
    induction n with
    | zero => rfl
    | succ n ih => rw [settleIter_succ, ih, h]
  intro n
  unfold settleMore
  rw [hi]
  exact hm

theorem hang_of {s : State} (hw : s.width ≠ 0) (hh : s.height ≠ 0) (hc : s.count ≠ 1)
    (hm : ∀ n, settleMore s.settleEnv ⟨s.pos, s.vel⟩ n) : SettlingHangs s := by
  have ht : s.targetPosition = .diverges := by
    unfold State.targetPosition
    rw [if_neg (by exact hc)]
    unfold State.targetByFullIntegration
    rw [settle_diverges.2 hm]
    rfl
  refine ⟨fun q => ?_, fun w h hw' hh' hne => ?_⟩
  · simp only [State.exec, State.moveTo]
    rw [ht]
    rfl
  · simp only [State.exec, State.resize]
    rw [if_neg (by rw [not_not]; exact ⟨hw', hh'⟩), if_neg (by rw [not_or]; exact ⟨hw, hh⟩), if_neg, ht]
    · rfl
    · rw [Pt.equals_iff, Pt.ext_iff]
      rintro ⟨h1, h2⟩
      simp only at h1 h2
      rw [div_eq_one_iff_eq hw] at h1
      rw [div_eq_one_iff_eq hh] at h2
      exact hne ⟨h1, h2⟩

theorem neverSettles_of {s : State} (hc : s.count ≠ 1) (hd : ¬ dangling s.springs s.live)
    (hm : ∀ n, settleMore s.env ⟨s.pos, s.vel⟩ n) : NeverSettles s := by
  intro ts
  induction ts generalizing s with
  | nil => exact fun _ => ⟨s, rfl⟩
  | cons t ts ih =>
    intro h0
    have ht0 : t ≠ 0 := h0 t (by simp)
    have hn := stepCount_pos ht0
    have hst : ∃ u, s.step t = .ok (s.withPhys (settleIter s.env ⟨s.pos, s.vel⟩ (stepCount t)) u, .more True) := by
      have hmm : ∃ k < stepCount t, settleMore s.env ⟨s.pos, s.vel⟩ k := ⟨0, by omega, hm 0⟩
      unfold State.step
      rw [if_neg (fun h => hd h.2), integrate_inactive (by exact hc), bind_ok]
      refine ⟨True, ?_⟩
      have hT : ((if t ≠ 0 then False else s.unequal) ∨ ∃ k < stepCount t, settleMore s.env ⟨s.pos, s.vel⟩ k) = True :=
        eq_true (Or.inr hmm)
      simp only [State.withPhys, Outcome.ok.injEq, Prod.mk.injEq, State.mk.injEq, true_and, and_true, Res.more.injEq]
      refine ⟨⟨?_, hT⟩, hT⟩
      rw [if_neg]
      rintro ⟨h1, -⟩
      exact h1 (Or.inr hmm)
    obtain ⟨u, hst⟩ := hst
    obtain ⟨s', e⟩ := ih (s := s.withPhys (settleIter s.env ⟨s.pos, s.vel⟩ (stepCount t)) u) hc hd (fun n => by
      have := hm (stepCount t + n)
      rw [settleMore_add] at this
      exact this) (fun t' ht' => h0 t' (by simp [ht']))
    refine ⟨s', ?_⟩
    simp only [List.map_cons, State.run, State.exec]
    rw [hst, bind_ok]
    simp only
    rw [e, bind_ok]

/-! ## Two held points pulled apart -/

theorem chain_bound (g : Fin 4 → ℝ) (h0 : |g 1 - g 0| < 1) (h1 : |g 2 - g 1| < 1) (h2 : |g 3 - g 2| < 1)
    (r r' : Fin 4) : |g r - g r'| < 3 := by
  rw [abs_lt] at *
  fin_cases r <;> fin_cases r' <;> simp only [Fin.zero_eta, Fin.mk_one, Fin.reduceFinMk] <;> constructor <;> linarith

set_option maxRecDepth 10000 in
theorem edges_bound {f : Idx → ℝ} (hf : ∀ z ∈ baseEdges, |f z.2.1 - f z.1| < 1) (i j : Idx) : |f i - f j| < 6 := by
  have hv : ∀ c : Fin 4, ∀ r r' : Fin 4, |f ⟨4 * r.val + c.val, by omega⟩ - f ⟨4 * r'.val + c.val, by omega⟩| < 3 := by
    intro c
    have hmem : ∀ c : Fin 4, ((⟨4 * 0 + c.val, by omega⟩, ⟨4 * 1 + c.val, by omega⟩, true) : Idx × Idx × Bool) ∈ baseEdges ∧
        ((⟨4 * 1 + c.val, by omega⟩, ⟨4 * 2 + c.val, by omega⟩, true) : Idx × Idx × Bool) ∈ baseEdges ∧
        ((⟨4 * 2 + c.val, by omega⟩, ⟨4 * 3 + c.val, by omega⟩, true) : Idx × Idx × Bool) ∈ baseEdges := by decide
    obtain ⟨m0, m1, m2⟩ := hmem c
    exact chain_bound (fun r => f ⟨4 * r.val + c.val, by omega⟩) (hf _ m0) (hf _ m1) (hf _ m2)
  have hh : ∀ r : Fin 4, ∀ c c' : Fin 4, |f ⟨4 * r.val + c.val, by omega⟩ - f ⟨4 * r.val + c'.val, by omega⟩| < 3 := by
    intro r
    have hmem : ∀ r : Fin 4, ((⟨4 * r.val + 0, by omega⟩, ⟨4 * r.val + 1, by omega⟩, false) : Idx × Idx × Bool) ∈ baseEdges ∧
        ((⟨4 * r.val + 1, by omega⟩, ⟨4 * r.val + 2, by omega⟩, false) : Idx × Idx × Bool) ∈ baseEdges ∧
        ((⟨4 * r.val + 2, by omega⟩, ⟨4 * r.val + 3, by omega⟩, false) : Idx × Idx × Bool) ∈ baseEdges := by decide
    obtain ⟨m0, m1, m2⟩ := hmem r
    exact chain_bound (fun c => f ⟨4 * r.val + c.val, by omega⟩) (hf _ m0) (hf _ m1) (hf _ m2)
  have h1 := hv ⟨i.val % 4, by omega⟩ ⟨i.val / 4, by omega⟩ ⟨j.val / 4, by omega⟩
  have h2 := hh ⟨j.val / 4, by omega⟩ ⟨i.val % 4, by omega⟩ ⟨j.val % 4, by omega⟩
  have ei : (⟨4 * (i.val / 4) + i.val % 4, by omega⟩ : Idx) = i := by ext; simp only; omega
  have ej : (⟨4 * (j.val / 4) + j.val % 4, by omega⟩ : Idx) = j := by ext; simp only; omega
  simp only at h1 h2
  rw [ei] at h1
  rw [ej] at h2
  rw [abs_lt] at *
  constructor <;> linarith [h1.1, h1.2, h2.1, h2.2]

/-- How far the offset between two points is from that in the lattice. -/
theorem stretched_hangs {e : Env} {tile : Pt} {b : ℕ} {q : Phys} (hs : e.springs = baseSprings tile b) {i j : Idx}
    (hi : e.locks i > 0) (hj : e.locks j > 0)
    (hd : 6 ≤ |(q.pos j).x - (q.pos i).x - ((col j : ℝ) - col i) * tile.x| ∨
      6 ≤ |(q.pos j).y - (q.pos i).y - ((row j : ℝ) - row i) * tile.y|) (n : ℕ) : settleMore e q n := by
  by_contra hn
  have hdz := (springStep_still hn).2
  have hpi := (settleIter_locked e q hi n).1
  have hpj := (settleIter_locked e q hj n).1
  set m := (settleIter e q n).pos with hm
  set disp : Idx → Pt := fun k => m k - positionArray 0 tile k with hdisp
  have hmd : ∀ k, m k = positionArray 0 tile k + disp k := fun k => by simp only [hdisp]; ext <;> simp
  have hmore := more_disp (e := e) (b := b) e.k hmd
  rw [calculateForces_more, ← hs] at hmore
  have hall : ∀ z ∈ baseEdges, |(disp z.2.1).x - (disp z.1).x| < 1 ∧ |(disp z.2.1).y - (disp z.1).y| < 1 := by
    intro z hz
    by_contra hc
    obtain ⟨y, hy, hy'⟩ := hmore.2 ⟨z, hz, hc⟩
    exact hy' (hdz y hy)
  have bx := edges_bound (f := fun k => (disp k).x) (fun z hz => (hall z hz).1) j i
  have bY := edges_bound (f := fun k => (disp k).y) (fun z hz => (hall z hz).2) j i
  simp only [hdisp, hpi, hpj, Pt.sub_x, Pt.sub_y, positionArray, Pt.add_x, Pt.add_y, Pt.zero_x, Pt.zero_y] at bx bY
  rcases hd with hd | hd
  · have : (q.pos j).x - (q.pos i).x - ((col j : ℝ) - col i) * tile.x =
        (q.pos j).x - (0 + col j * tile.x) - ((q.pos i).x - (0 + col i * tile.x)) := by ring
    rw [this] at hd
    linarith
  · have : (q.pos j).y - (q.pos i).y - ((row j : ℝ) - row i) * tile.y =
        (q.pos j).y - (0 + row j * tile.y) - ((q.pos i).y - (0 + row i * tile.y)) := by ring
    rw [this] at hd
    linarith

/-! ## Strong springs are never frozen out of their dead zone -/

/-- One coordinate of the force of the mesh edges on a point. -/
noncomputable def lineForce (k : ℝ) (f : Idx → ℝ) (i : Idx) : ℝ :=
  (baseEdges.map fun z => (if i = z.1 then pull k (f z.2.1 - f z.1) else 0) -
    (if i = z.2.1 then pull k (f z.2.1 - f z.1) else 0)).sum

theorem sum_x (l : List Pt) : l.sum.x = (l.map Pt.x).sum := by
  induction l with
  | nil => rfl
  | cons a l ih => simp [ih]

theorem sum_y (l : List Pt) : l.sum.y = (l.map Pt.y).sum := by
  induction l with
  | nil => rfl
  | cons a l ih => simp [ih]

theorem lineForce_x (k : ℝ) (disp : Idx → Pt) (i : Idx) :
    (baseEdges.map (edgeForce k disp i)).sum.x = lineForce k (fun j => (disp j).x) i := by
  rw [sum_x, List.map_map]
  unfold lineForce
  congr 1
  refine List.map_congr_left fun z _ => ?_
  simp only [Function.comp, edgeForce, Pt.sub_x]
  split_ifs <;> rfl

theorem lineForce_y (k : ℝ) (disp : Idx → Pt) (i : Idx) :
    (baseEdges.map (edgeForce k disp i)).sum.y = lineForce k (fun j => (disp j).y) i := by
  rw [sum_y, List.map_map]
  unfold lineForce
  congr 1
  refine List.map_congr_left fun z _ => ?_
  simp only [Function.comp, edgeForce, Pt.sub_y]
  split_ifs <;> rfl

theorem sum_map_neg {α : Type} (l : List α) (g : α → ℝ) : (l.map fun z => -g z).sum = -(l.map g).sum := by
  induction l with
  | nil => simp
  | cons a l ih => rw [List.map_cons, List.map_cons, List.sum_cons, List.sum_cons, ih]; ring

theorem lineForce_neg (k : ℝ) (f : Idx → ℝ) (i : Idx) : lineForce k (fun j => -f j) i = -lineForce k f i := by
  unfold lineForce
  rw [← sum_map_neg]
  congr 1
  refine List.map_congr_left fun z _ => ?_
  have : -f z.2.1 - -f z.1 = -(f z.2.1 - f z.1) := by ring
  simp only [this, pull_neg]
  split_ifs <;> ring

/-- The highest point among the ends of stretched edges is pulled down by at least `k / 2`. -/
theorem lineForce_top {k : ℝ} (hk : 0 ≤ k) {f : Idx → ℝ} {i : Idx} {z : Idx × Idx × Bool} (hz : z ∈ baseEdges)
    (hi : i = z.1 ∨ i = z.2.1) (hs : 1 ≤ |f z.2.1 - f z.1|)
    (htop : ∀ w ∈ baseEdges, 1 ≤ |f w.2.1 - f w.1| → f w.1 ≤ f i ∧ f w.2.1 ≤ f i) : lineForce k f i ≤ -(k / 2) := by
  have hterm : ∀ w ∈ baseEdges, (if i = w.1 then pull k (f w.2.1 - f w.1) else 0) -
      (if i = w.2.1 then pull k (f w.2.1 - f w.1) else 0) ≤
      (if (i = w.1 ∨ i = w.2.1) ∧ 1 ≤ |f w.2.1 - f w.1| then -(k / 2) else 0) := by
    intro w hw
    by_cases hst : 1 ≤ |f w.2.1 - f w.1|
    · have ht := htop w hw hst
      have hp : pull k (f w.2.1 - f w.1) = k / 2 * (f w.2.1 - f w.1) := by
        unfold pull
        rw [if_neg (by linarith)]
      rw [hp]
      by_cases h1 : i = w.1
      · have h2 : ¬ i = w.2.1 := by
          intro h2
          rw [← h1, ← h2, sub_self, abs_zero] at hst
          linarith
        rw [if_pos h1, if_neg h2, if_pos ⟨Or.inl h1, hst⟩]
        rw [← h1] at hst ⊢
        have : f w.2.1 - f i ≤ -1 := by
          rw [abs_of_nonpos (by linarith [ht.2])] at hst
          linarith
        nlinarith
      · rw [if_neg h1]
        by_cases h2 : i = w.2.1
        · rw [if_pos h2, if_pos ⟨Or.inr h2, hst⟩]
          rw [← h2] at hst ⊢
          have : 1 ≤ f i - f w.1 := by
            rw [abs_of_nonneg (by linarith [ht.1])] at hst
            linarith
          nlinarith
        · rw [if_neg h2, if_neg (fun h => by tauto)]
          simp
    · have hp : pull k (f w.2.1 - f w.1) = 0 := by
        unfold pull
        rw [if_pos (by linarith)]
      have hno : ¬ ((i = w.1 ∨ i = w.2.1) ∧ 1 ≤ |f w.2.1 - f w.1|) := fun h => hst h.2
      rw [hp, if_neg hno]
      simp
  have h1 : lineForce k f i ≤
      (baseEdges.map fun w => if (i = w.1 ∨ i = w.2.1) ∧ 1 ≤ |f w.2.1 - f w.1| then -(k / 2) else 0).sum :=
    List.sum_le_sum hterm
  refine h1.trans ?_
  have h2 := List.single_le_sum (l := (baseEdges.map fun w =>
      -(if (i = w.1 ∨ i = w.2.1) ∧ 1 ≤ |f w.2.1 - f w.1| then -(k / 2) else 0))) (fun y hy => by
    obtain ⟨w, -, rfl⟩ := List.mem_map.1 hy
    split_ifs <;> linarith) (k / 2) (List.mem_map.2 ⟨z, hz, by rw [if_pos ⟨hi, hs⟩]; ring⟩)
  have h3 : (baseEdges.map fun w =>
      -(if (i = w.1 ∨ i = w.2.1) ∧ 1 ≤ |f w.2.1 - f w.1| then -(k / 2) else 0)).sum =
      -(baseEdges.map fun w => if (i = w.1 ∨ i = w.2.1) ∧ 1 ≤ |f w.2.1 - f w.1| then -(k / 2) else 0).sum := sum_map_neg _ _
  rw [h3] at h2
  linarith

/-- If an edge is stretched, two points that differ are pulled with at least `k / 2`. -/
theorem lineForce_two {k : ℝ} (hk : 0 ≤ k) {f : Idx → ℝ} (h : ∃ z ∈ baseEdges, 1 ≤ |f z.2.1 - f z.1|) :
    ∃ i j, i ≠ j ∧ k / 2 ≤ |lineForce k f i| ∧ k / 2 ≤ |lineForce k f j| := by
  classical
  have key : ∀ g : Idx → ℝ, (∃ z ∈ baseEdges, 1 ≤ |g z.2.1 - g z.1|) →
      ∃ i, lineForce k g i ≤ -(k / 2) ∧ ∀ w ∈ baseEdges, 1 ≤ |g w.2.1 - g w.1| → g w.1 ≤ g i ∧ g w.2.1 ≤ g i := by
    intro g hg
    obtain ⟨z, hz, hs⟩ := hg
    let S : Finset Idx := Finset.univ.filter fun i => ∃ w ∈ baseEdges, (i = w.1 ∨ i = w.2.1) ∧ 1 ≤ |g w.2.1 - g w.1|
    have hne : S.Nonempty := ⟨z.1, by simp only [S, Finset.mem_filter, Finset.mem_univ, true_and]; exact ⟨z, hz, Or.inl rfl, hs⟩⟩
    obtain ⟨i, hi, hmax⟩ := S.exists_max_image g hne
    have htop : ∀ w ∈ baseEdges, 1 ≤ |g w.2.1 - g w.1| → g w.1 ≤ g i ∧ g w.2.1 ≤ g i := by
      intro w hw hw'
      constructor
      · exact hmax _ (by simp only [S, Finset.mem_filter, Finset.mem_univ, true_and]; exact ⟨w, hw, Or.inl rfl, hw'⟩)
      · exact hmax _ (by simp only [S, Finset.mem_filter, Finset.mem_univ, true_and]; exact ⟨w, hw, Or.inr rfl, hw'⟩)
    simp only [S, Finset.mem_filter, Finset.mem_univ, true_and] at hi
    obtain ⟨w, hw, hiw, hsw⟩ := hi
    exact ⟨i, lineForce_top hk hw hiw hsw htop, htop⟩
  obtain ⟨i, hi, hti⟩ := key f h
  obtain ⟨z, hz, hs⟩ := h
  have hflip : ∀ a b : ℝ, |-a - -b| = |a - b| := by
    intro a b
    rw [show -a - -b = -(a - b) by ring, abs_neg]
  obtain ⟨j, hj, htj⟩ := key (fun n => -f n) ⟨z, hz, by rw [hflip]; exact hs⟩
  rw [lineForce_neg] at hj
  refine ⟨i, j, ?_, ?_, ?_⟩
  · rintro rfl
    have a := hti z hz hs
    have b := htj z hz (by rw [hflip]; exact hs)
    have e1 : f z.1 = f i := by linarith [a.1, b.1]
    have e2 : f z.2.1 = f i := by linarith [a.2, b.2]
    rw [e1, e2, sub_self, abs_zero] at hs
    linarith
  · rw [le_abs]
    right
    linarith
  · rw [le_abs]
    left
    linarith

/-- With a spring constant of at least 3 and at most one pinned point, a round that changes nothing does not ask for
more. -/
theorem not_frozen {e : Env} {tile : Pt} {b : ℕ} {q : Phys} (hs : e.springs = baseSprings tile b) (hk : 3 ≤ e.k)
    (hl : ∀ i j, e.locks i > 0 → e.locks j > 0 → i = j) (h : (springStep e q).1 = q) : ¬ (springStep e q).2 := by
  set disp : Idx → Pt := fun n => q.pos n - positionArray 0 tile n with hdisp
  have hmd : ∀ n, q.pos n = positionArray 0 tile n + disp n := fun n => by simp only [hdisp]; ext <;> simp
  have hforce := force_disp (e := e) (b := b) e.k hmd
  rw [← hs] at hforce
  -- velocities vanish
  have hv : ∀ n, q.vel n = 0 ∧ (¬ e.locks n > 0 → (eulerIntegrate 1 e.friction mass (q.pos n) (q.vel n)
      ((calculateForces e.k (e.at_ q.pos) e.springs).1 (.mesh n))).2.1 = 0) := by
    intro n
    have h1 := congrFun (congrArg Phys.pos h) n
    have h2 := congrFun (congrArg Phys.vel h) n
    simp only [springStep, anchoredIntegration] at h1 h2
    by_cases hn : e.locks n > 0
    · rw [if_pos hn] at h2
      refine ⟨h2.symm.trans ?_, fun h => absurd hn h⟩
      rfl
    · rw [if_neg hn] at h1 h2
      have hz : q.vel n = 0 := by
        simp only [eulerIntegrate] at h1 h2
        rw [h2, Pt.ext_iff] at h1
        simp only [Pt.add_x, Pt.add_y, Pt.scale_x, Pt.scale_y] at h1
        ext
        · simp only [Pt.zero_x]
          linarith [h1.1]
        · simp only [Pt.zero_y]
          linarith [h1.2]
      exact ⟨hz, fun _ => h2.trans hz⟩
  have hsmall : ∀ n, ¬ e.locks n > 0 → |lineForce e.k (fun j => (disp j).x) n| < 3 / 2 ∧
      |lineForce e.k (fun j => (disp j).y) n| < 3 / 2 := by
    intro n hn
    have := (hv n).2 hn
    rw [(hv n).1, hforce] at this
    have hcl : ∀ c : ℝ, eulerVelocity 1 e.friction mass 0 c = 0 → |c| < 3 / 2 := by
      intro c hc
      unfold eulerVelocity mass at hc
      rw [show (0 : ℝ) + (c - 0 * e.friction) * (1 / 15) * 1 = c / 15 by ring, clip_eq_zero] at hc
      rcases hc with hc | hc
      · rw [abs_div, abs_of_pos (by norm_num : (0 : ℝ) < 15), div_lt_iff₀ (by norm_num)] at hc
        linarith
      · have : c = 0 := by linarith
        rw [this, abs_zero]
        norm_num
    simp only [eulerIntegrate, Pt.ext_iff, Pt.zero_x, Pt.zero_y, lineForce_x, lineForce_y] at this
    exact ⟨hcl _ this.1, hcl _ this.2⟩
  have hno : ∀ f : Idx → ℝ, (∀ n, ¬ e.locks n > 0 → |lineForce e.k f n| < 3 / 2) →
      ¬ ∃ z ∈ baseEdges, 1 ≤ |f z.2.1 - f z.1| := by
    intro f hf hz
    obtain ⟨i, j, hij, hi, hj⟩ := lineForce_two (by linarith : 0 ≤ e.k) hz
    have li : e.locks i > 0 := by
      by_contra hc
      linarith [hf i hc]
    have lj : e.locks j > 0 := by
      by_contra hc
      linarith [hf j hc]
    exact hij (hl i j li lj)
  have hmore := more_disp (e := e) (b := b) e.k hmd
  rw [← hs] at hmore
  rintro (hm | hm)
  · obtain ⟨z, hz, hm⟩ := hmore.1 hm
    rw [not_and_or, not_lt, not_lt] at hm
    rcases hm with hm | hm
    · exact hno _ (fun n hn => (hsmall n hn).1) ⟨z, hz, hm⟩
    · exact hno _ (fun n hn => (hsmall n hn).2) ⟨z, hz, hm⟩
  · obtain ⟨n, hn, hm⟩ := hm
    have := (hv n).2 hn
    simp only [eulerIntegrate, Pt.ext_iff, Pt.zero_x, Pt.zero_y] at this
    simp only [eulerIntegrate] at hm
    rw [this.1, this.2] at hm
    simp at hm

/-! ## Grabbing several points of a resting model -/

/-- The state after grabbing these points one after the other. -/
structure Holding (m s : State) (is : List Idx) : Prop where
  pos : s.pos = m.pos
  vel : s.vel = m.vel
  springs : s.springs = m.springs
  size : s.width = m.width ∧ s.height = m.height
  settings : s.settings = m.settings
  count : s.count = is.length
  locks : ∀ i, s.locks i = is.count i
  live : s.live = is.mapIdx fun n i => ⟨n, .grab i⟩
  nextHid : s.nextHid = is.length

theorem hold_run {m : State} (hr : AtRest m) (hinj : Function.Injective m.pos) (hz : ∀ i, Representable (m.pos i))
    (js : List Idx) : ∀ {is : List Idx} {s : State}, Holding m s is →
      ∃ s' rs, s.run (js.map fun i => .grab (m.pos i)) = .ok (s', rs) ∧ Holding m s' (is ++ js) := by
  induction js with
  | nil =>
    intro is s h
    refine ⟨s, [], rfl, ?_⟩
    rw [List.append_nil]
    exact h
  | cons j js ih =>
    intro is s h
    have htile : s.tile = m.tile := by
      unfold State.tile
      rw [h.size.1, h.size.2]
    have hrs : AtRest s := ⟨by rw [h.pos, htile]; exact hr.pos, fun i => by rw [h.vel]; exact hr.vel i⟩
    obtain ⟨i, t, n, hi, e, -⟩ := grab_atRest hrs (p := m.pos j) (fun i => by rw [h.pos]; exact hz i) (hz j)
    rw [h.pos, closest_at hinj hz j] at hi
    simp only [Option.some.injEq] at hi
    subst hi
    have hH : Holding m (grabbed s j t n) (is ++ [j]) := by
      refine ⟨h.pos, h.vel, h.springs, h.size, h.settings, ?_, ?_, ?_, ?_⟩
      · show s.count + 1 = _
        rw [h.count, List.length_append]
        rfl
      · intro i
        show Function.update s.locks j (s.locks j + 1) i = _
        by_cases hij : i = j
        · subst hij
          rw [Function.update_self, h.locks, List.count_append]
          simp
        · rw [Function.update_of_ne hij, h.locks, List.count_append]
          have : List.count i [j] = 0 := by simp [Ne.symm hij]
          rw [this]
          rfl
      · show s.live ++ [⟨s.nextHid, .grab j⟩] = _
        rw [h.live, h.nextHid, List.mapIdx_concat]
      · show s.nextHid + 1 = _
        rw [h.nextHid, List.length_append]
        rfl
    obtain ⟨s', rs, e', h'⟩ := ih hH
    refine ⟨s', .handle s.nextHid :: rs, ?_, ?_⟩
    · simp only [List.map_cons, State.run, State.exec]
      rw [e, bind_ok]
      simp only
      rw [e', bind_ok]
    · have : is ++ j :: js = is ++ [j] ++ js := by simp
      rw [this]
      exact h'

theorem hold_new {m : State} (hr : AtRest m) (hinj : Function.Injective m.pos) (hz : ∀ i, Representable (m.pos i))
    (h0 : m.count = 0) (h1 : m.live = []) (h2 : m.nextHid = 0) (h3 : ∀ i, m.locks i = 0) (js : List Idx) :
    ∃ s rs, m.run (js.map fun i => .grab (m.pos i)) = .ok (s, rs) ∧ Holding m s js := by
  have := hold_run hr hinj hz js (is := []) (s := m) ⟨rfl, rfl, rfl, ⟨rfl, rfl⟩, rfl, h0, h3, h1, h2⟩
  simpa using this

end Verif.Wobbly
