import Verif.Lemmas.WobblyDemo
import Verif.Lemmas.WobblySplit
import Verif.Lemmas.WobblySettle

/-! An anchor inserted into a new model and pulled. -/

namespace Verif.Wobbly

open Spec Outcome

/-- An anchor is inserted into a new model and pulled up or down: in the next tick the two ends of the spring that was split
move, and no other point. -/
theorem insert_pull (p : Pt) (w h : ℝ) (x : Settings) (b : ℕ) (hz : ∀ i, Representable ((State.new p w h x b).pos i))
    {q : Pt} (hq : Representable q) {d : ℝ} (hr : |d| < x.maximumRange) (hd : 1 ≤ |d|)
    (hv : 1 / 10 ≤ |x.springConstant * d / 30|) :
    ∃ found ∈ (State.new p w h x b).springs,
      (∀ y ∈ (State.new p w h x b).springs,
        euclid ((State.new p w h x b).env.at_ (State.new p w h x b).pos found.a) q ≤
          euclid ((State.new p w h x b).env.at_ (State.new p w h x b).pos y.a) q) ∧
      (∀ y ∈ (State.new p w h x b).springs,
        euclid ((State.new p w h x b).env.at_ (State.new p w h x b).pos y.a) q =
          euclid ((State.new p w h x b).env.at_ (State.new p w h x b).pos found.a) q →
        euclid ((State.new p w h x b).env.at_ (State.new p w h x b).pos found.b) q ≤
          euclid ((State.new p w h x b).env.at_ (State.new p w h x b).pos y.b) q) ∧
      ∃ s rs, (State.new p w h x b).run [.insert q, .moveAnchor 0 ⟨0, d⟩, .step 16] = .ok (s, rs) ∧
        ∀ i, s.pos i = (State.new p w h x b).pos i +
          (if found.a = .mesh i ∨ found.b = .mesh i then ⟨0, x.springConstant * d / 60⟩ else 0 : Pt) := by
  set m := State.new p w h x b with hm
  have hI : Inv b m := inv_new p w h x b
  have hA : Anchored m := anchored_new p w h x b
  have hR : AtRest m := new_atRest p w h x b
  have hends : ∀ y ∈ m.springs, (∃ i, y.a = .mesh i) ∧ ∃ i, y.b = .mesh i := fun y hy =>
    base_ends_mesh (t := ⟨w / (4 - 1), h / (4 - 1)⟩) (b := b) hy
  have hrep : ∀ y ∈ m.springs, Representable (m.env.at_ m.pos y.a) ∧ Representable (m.env.at_ m.pos y.b) := by
    intro y hy
    obtain ⟨⟨i, hi⟩, j, hj⟩ := hends y hy
    rw [hi, hj]
    exact ⟨hz i, hz j⟩
  obtain ⟨t, n, found, hf, hn, hmin, hmin2, htp, -, e1⟩ := insert_atRest_best hI hR hA.not_dangling hrep hq
  refine ⟨found, hf, hmin, hmin2, ?_⟩
  have ht : t = m.pos := htp rfl
  obtain ⟨⟨u, hu⟩, v, hv'⟩ := hends found hf
  have huv : u ≠ v := by
    have hf' : found ∈ baseSprings ⟨w / (4 - 1), h / (4 - 1)⟩ b := hf
    simp only [baseSprings, List.mem_map] at hf'
    obtain ⟨e, he, rfl⟩ := hf'
    simp only [Node.mesh.injEq] at hu hv'
    have key : ∀ z ∈ baseEdges.zipIdx, z.1.1 ≠ z.1.2.1 := by decide
    rw [← hu, ← hv']
    exact key e he
  set s1 := (preInsert m t n).install q found (m.env.at_ m.pos found.a) (m.env.at_ m.pos found.b) with hs1
  have e1' : m.exec (.insert q) = .ok (s1, .handle 0) := e1
  set s2 : State := { s1 with
      targets := fun i => m.pos i + ⟨0, d⟩
      live := [⟨0, .ins (q + ⟨0, d⟩) found (n + 1) (n + 2)⟩] } with hs2
  have e2 : s1.exec (.moveAnchor 0 ⟨0, d⟩) = .ok (s2, .none) := by
    have ha : s1.active := rfl
    have hl : s1.live = [⟨0, .ins q found (n + 1) (n + 2)⟩] := rfl
    have htt : s1.targets = m.pos := ht
    simp only [State.exec, State.moveAnchor, hl, htt]
    rw [if_pos ha]
    rfl
  have hpos : s2.pos = m.pos := rfl
  have hvel : ∀ i, s2.vel i = 0 := fun _ => rfl
  have hspr : s2.springs = removeId m.springs found.id ++
      [⟨n + 1, .anchor 0, .mesh u, m.pos u - q⟩, ⟨n + 2, .anchor 0, .mesh v, m.pos v - q⟩] := by
    show removeId m.springs found.id ++ [⟨n + 1, .anchor 0, found.a, m.env.at_ m.pos found.a - q⟩,
      ⟨n + 2, .anchor 0, found.b, m.env.at_ m.pos found.b - q⟩] = _
    rw [hu, hv']
    rfl
  have hap : s2.env.apos 0 = q + ⟨0, d⟩ := rfl
  have hnd : ¬ (stepCount 16 ≠ 0 ∧ dangling s2.springs s2.live) := by
    rintro ⟨-, y, hy, hc⟩
    apply hc
    rw [hspr] at hy
    rcases List.mem_append.1 hy with hy | hy
    · obtain ⟨⟨i, hi⟩, j, hj⟩ := hends y (List.mem_filter.1 hy).1
      rw [hi, hj]
      exact ⟨trivial, trivial⟩
    · simp only [List.mem_cons, List.not_mem_nil, or_false] at hy
      rcases hy with rfl | rfl <;> exact ⟨rfl, trivial⟩
  have hforce : ∀ i, (calculateForces s2.env.k (s2.env.at_ m.pos) s2.springs).1 (.mesh i) =
      (if u = i ∨ v = i then ⟨0, x.springConstant / 2 * d⟩ else 0 : Pt) := by
    intro i
    rw [calculateForces_force, hspr, List.map_append, List.sum_append]
    have h0 : ((removeId m.springs found.id).map fun s => contribution s2.env.k (s2.env.at_ m.pos) s (.mesh i)).sum = 0 := by
      apply List.sum_eq_zero
      intro z hz'
      obtain ⟨y, hy, rfl⟩ := List.mem_map.1 hz'
      have hy' : y ∈ baseSprings m.tile b := (List.mem_filter.1 hy).1
      have : InDeadZone (s2.env.at_ m.pos) y := dead_of_zero (by rw [hR.pos]; exact base_deviation hy')
      simp [contribution, pullPt_zero this]
    rw [h0, zero_add]
    have hp : ∀ (k : ℕ) (j : Idx), pullPt s2.env.k (s2.env.at_ m.pos) ⟨k, .anchor 0, .mesh j, m.pos j - q⟩ =
        ⟨0, -(x.springConstant / 2 * d)⟩ := by
      intro k j
      have hk : s2.env.k = x.springConstant := rfl
      have hdev : deviation (s2.env.at_ m.pos) ⟨k, .anchor 0, .mesh j, m.pos j - q⟩ = ⟨0, -d⟩ := by
        ext <;> simp [deviation, Env.at_, hap]
      rw [pullPt, hdev, hk]
      ext
      · simp [pull]
      · simp only [pull, abs_neg]
        rw [if_neg (not_lt.2 hd)]
        ring
    simp only [List.map_cons, List.map_nil, List.sum_cons, List.sum_nil, add_zero, contribution, hp]
    have a1 : ∀ i : Idx, (Node.mesh i = Node.anchor 0) = False := fun i => by simp
    simp only [a1, if_false, Node.mesh.injEq]
    by_cases h1 : i = u
    · have h2 : ¬ i = v := fun e => huv (h1.symm.trans e)
      rw [if_pos h1, if_neg h2, if_pos (Or.inl h1.symm)]
      ext <;> simp
    · by_cases h2 : i = v
      · rw [if_neg h1, if_pos h2, if_pos (Or.inr h2.symm)]
        ext <;> simp
      · rw [if_neg h1, if_neg h2, if_neg (by rintro (e | e); exacts [h1 e.symm, h2 e.symm])]
        ext <;> simp
  have hin : ∀ i, Pt.distance (s2.targets i) (s2.pos i) < s2.settings.maximumRange := by
    intro i
    have e : s2.settings = x := rfl
    rw [e]
    refine lt_of_le_of_lt (Pt.distance_le _ _) ?_
    show |(m.pos i + ⟨0, d⟩).x - (m.pos i).x| + |(m.pos i + ⟨0, d⟩).y - (m.pos i).y| < _
    simpa using hr
  have hco : constrain s2.settings.maximumRange s2.targets s2.pos = .ok (s2.pos, False) := by
    unfold constrain
    rw [if_neg (by rintro ⟨k, hk, -⟩; exact hk (hin k))]
    congr 2
    · funext k
      rw [if_pos (hin k)]
    · simp only [eq_iff_iff, iff_false]
      rintro ⟨k, hk⟩
      exact hk (hin k)
  have hss : ∀ i, (springStep s2.env ⟨s2.pos, s2.vel⟩).1.pos i =
      m.pos i + (if u = i ∨ v = i then ⟨0, x.springConstant * d / 60⟩ else 0 : Pt) := by
    intro i
    have hl : ¬ s2.env.locks i > 0 := Nat.lt_irrefl 0
    simp only [springStep, anchoredIntegration]
    rw [if_neg hl, hpos, show s2.env.springs = s2.springs from rfl, hforce, hvel]
    by_cases hi : u = i ∨ v = i
    · rw [if_pos hi, if_pos hi]
      have hc : clip (1 / 10) (x.springConstant * d / 30) = x.springConstant * d / 30 := by
        unfold clip
        rw [if_neg (not_lt.2 hv)]
      have e : x.springConstant / 2 * d * (1 / 15) = x.springConstant * d / 30 := by ring
      ext
      · simp [eulerIntegrate, eulerVelocity, clip]
      · simp only [eulerIntegrate, eulerVelocity, mass]
        simp only [Pt.zero_y, zero_mul, sub_zero, zero_add, mul_one, e, hc, Pt.add_y, Pt.scale_y]
        ring
    · rw [if_neg hi, if_neg hi]
      ext <;> simp [eulerIntegrate, eulerVelocity, clip]
  have hmore : (springStep s2.env ⟨s2.pos, s2.vel⟩).2 := by
    refine Or.inl ?_
    rw [calculateForces_more]
    refine ⟨⟨n + 1, .anchor 0, .mesh u, m.pos u - q⟩, ?_, ?_⟩
    · rw [show s2.env.springs = s2.springs from rfl, hspr]
      simp
    · intro hc
      have := hc.2
      simp [deviation, Env.at_, hap, hpos] at this
      linarith
  have e3 : ∃ s3 y, s2.exec (.step 16) = .ok (s3, y) ∧ s3.pos = (springStep s2.env ⟨s2.pos, s2.vel⟩).1.pos := by
    have hsc : stepCount 16 = 1 := by rw [stepCount_eq]
    have ha : s2.active := rfl
    simp only [State.exec, State.step]
    rw [if_neg hnd, hsc]
    simp only [State.integrate, State.round, if_pos ha, hco, bind_ok]
    refine ⟨_, _, rfl, ?_⟩
    simp [hmore]
  obtain ⟨s3, y, e3, h3⟩ := e3
  refine ⟨s3, [.handle 0, .none, y], ?_, fun i => ?_⟩
  · simp only [State.run, e1', bind_ok, e2, e3]
  · rw [h3, hss, hu, hv']
    simp only [Node.mesh.injEq]

end Verif.Wobbly
