import Verif.Lemmas.WobblyQuiet

/-! Small histories on a fresh model, used to show that hypotheses can be met. -/

namespace Verif.Wobbly

open Spec Outcome

theorem dblMax_big : 4000000 ≤ dblMax := by
  unfold dblMax
  have h : (1 : ℝ) ≤ 2 ^ 971 := one_le_pow₀ (by norm_num)
  generalize (2 : ℝ) ^ 971 = y at h
  norm_num
  linarith

theorem maxDouble_big : 4000000 ≤ maxDouble := maxDouble_eq ▸ dblMax_big

theorem rep_small {p : Pt} (hx : |p.x| ≤ 1000000) (hy : |p.y| ≤ 1000000) : Representable p := by
  have := maxDouble_big
  exact ⟨by linarith, by linarith⟩

/-- A fresh 300 by 300 model at the origin with the default settings. -/
noncomputable def demo : State := State.new ⟨0, 0⟩ 300 300 defaultSettings 0

theorem new_atRest (p : Pt) (w h : ℝ) (x : Settings) (b : ℕ) : AtRest (State.new p w h x b) :=
  ⟨positionArray_canon rfl, fun _ => rfl⟩

theorem lattice_bounds (i : Idx) : (col i : ℝ) ≤ 3 ∧ (row i : ℝ) ≤ 3 := by
  have h1 : col i ≤ 3 := by unfold col; omega
  have h2 : row i ≤ 3 := by unfold row; omega
  exact ⟨by exact_mod_cast h1, by exact_mod_cast h2⟩

theorem demo_pos (i : Idx) : demo.pos i = ⟨col i * 100, row i * 100⟩ := by
  ext <;> simp [demo, State.new, positionArray] <;> norm_num

theorem demo_rep (i : Idx) : Representable (demo.pos i) := by
  rw [demo_pos]
  obtain ⟨h1, h2⟩ := lattice_bounds i
  apply rep_small
  · simp only
    rw [abs_of_nonneg (by positivity)]
    linarith
  · simp only
    rw [abs_of_nonneg (by positivity)]
    linarith

theorem demo_grab (q : Pt) (hq : Representable q) :
    ∃ i t n, closestIndex demo.pos q = some i ∧ t = demo.pos ∧
      demo.exec (.grab q) = .ok (grabbed demo i t n, .handle 0) := by
  obtain ⟨i, t, n, hi, h, h0, -⟩ := grab_atRest (s := demo) (new_atRest _ _ _ _ _) demo_rep hq
  exact ⟨i, t, n, hi, h0 rfl, h⟩

/-- Grabbing, then releasing. -/
theorem demo_grab_release (q : Pt) (hq : Representable q) :
    ∃ s, demo.run [.grab q, .release 0] = .ok (s, [.handle 0, .none]) := by
  obtain ⟨i, t, n, hi, ht, h⟩ := demo_grab q hq
  have h2 : ∃ s, (grabbed demo i t n).exec (.release 0) = .ok (s, .none) := by
    simp only [State.exec, State.release]
    have hf : (grabbed demo i t n).live.find? (fun a => decide (a.hid = 0)) = some ⟨0, .grab i⟩ := by
      simp [grabbed, demo, State.new]
    rw [hf]
    simp only [State.releaseKind, State.unlock]
    rw [if_neg (by simp [grabbed, State.lock])]
    simp only [bind_ok, State.deactivate]
    rw [if_neg (by simp [grabbed, State.lock]), if_neg (by simp [grabbed, State.lock, demo, State.new])]
    exact ⟨_, rfl⟩
  obtain ⟨s, h2⟩ := h2
  refine ⟨s, ?_⟩
  simp only [State.run, h, bind_ok, h2]

/-- Insertion into a resting model, with the second ends compared too. -/
theorem insert_atRest_best {b : ℕ} {s : State} (hs : Inv b s) (hr : AtRest s) (hnd : ¬ dangling s.springs s.live)
    {p : Pt} (hz : ∀ x ∈ s.springs, Representable (s.env.at_ s.pos x.a) ∧ Representable (s.env.at_ s.pos x.b))
    (hp : Representable p) :
    ∃ t n found, found ∈ s.springs ∧ s.lastId ≤ n ∧
      (∀ x ∈ s.springs, euclid (s.env.at_ s.pos found.a) p ≤ euclid (s.env.at_ s.pos x.a) p) ∧
      (∀ x ∈ s.springs, euclid (s.env.at_ s.pos x.a) p = euclid (s.env.at_ s.pos found.a) p →
        euclid (s.env.at_ s.pos found.b) p ≤ euclid (s.env.at_ s.pos x.b) p) ∧
      (s.count = 0 → t = s.pos) ∧ (s.count ≠ 0 → t = s.targets) ∧
      s.insert p = .ok ((preInsert s t n).install p found (s.env.at_ s.pos found.a) (s.env.at_ s.pos found.b),
        .handle s.nextHid) := by
  have h' : AtRest { s with unequal := True } := ⟨hr.pos, hr.vel⟩
  obtain ⟨t, n, ha, h0, h1⟩ := h'.activate
  obtain ⟨found, hf, hfind, hmin, hmin2⟩ := find_spring (p := p) (inv_springs_ne hs) hz hp
  refine ⟨t, n, found, hf, ?_, hmin, hmin2, fun h => (h0 h).1, fun h => (h1 h).1, ?_⟩
  · by_cases hc : s.count = 0
    · rw [(h0 hc).2]
      exact Nat.le_add_right _ _
    · rw [(h1 hc).2]
  have hpref : ∀ e : Node, (e = found.a ∨ e = found.b) →
      (preInsert s t n).preferred (s.env.at_ s.pos e) = .ok (s.env.at_ s.pos e) := by
    intro e he
    unfold State.preferred
    split_ifs with hact
    · have hc : s.count = 0 := by
        have : s.count + 1 = 1 := hact
        omega
      have ht := (h0 hc).1
      have hlive : s.live = [] := by
        have := hs.count
        rw [hc] at this
        exact List.eq_nil_of_length_eq_zero this.symm
      have hmem := ends_mem hs (fun a ha => by rw [hlive] at ha; simp at ha) hf
      obtain ⟨-, ⟨i, hi⟩, ⟨j, hj⟩⟩ := baseEnds_mesh hmem
      have : ∃ i, e = .mesh i := by
        rcases he with rfl | rfl
        · exact ⟨i, hi⟩
        · exact ⟨j, hj⟩
      obtain ⟨i, rfl⟩ := this
      obtain ⟨j, hj, hl⟩ := lookup_mesh s.pos t i
      have e2 : (preInsert s t n).pos = s.pos ∧ (preInsert s t n).targets = t := ⟨rfl, rfl⟩
      rw [e2.1, e2.2]
      have e3 : s.env.at_ s.pos (.mesh i) = s.pos i := rfl
      rw [e3, hl, ht]
      simp only [hj]
    · rfl
  unfold State.insert
  rw [ha, bind_ok]
  have e : (State.insertSprings (preInsert s t n) p) =
      .ok ((preInsert s t n).install p found (s.env.at_ s.pos found.a) (s.env.at_ s.pos found.b)) := by
    unfold State.insertSprings
    rw [if_neg (by exact hnd)]
    have hfind' : findSpringToSplit ((preInsert s t n).env.at_ (preInsert s t n).pos) p (preInsert s t n).springs
        = some found := hfind
    rw [hfind']
    simp only
    have q1 := hpref _ (Or.inl rfl)
    have q2 := hpref _ (Or.inr rfl)
    have e1 : (preInsert s t n).env.at_ (preInsert s t n).pos = s.env.at_ s.pos := rfl
    rw [e1, q1, bind_ok, q2, bind_ok]
  have e' : (State.insertSprings { s with unequal := True, count := s.count + 1, targets := t, lastId := n } p) =
      .ok ((preInsert s t n).install p found (s.env.at_ s.pos found.a) (s.env.at_ s.pos found.b)) := e
  rw [e', bind_ok]

/-- Insertion into a resting model. -/
theorem insert_atRest {b : ℕ} {s : State} (hs : Inv b s) (hr : AtRest s) (hnd : ¬ dangling s.springs s.live)
    {p : Pt} (hz : ∀ x ∈ s.springs, Representable (s.env.at_ s.pos x.a) ∧ Representable (s.env.at_ s.pos x.b))
    (hp : Representable p) :
    ∃ t n found, found ∈ s.springs ∧ s.lastId ≤ n ∧
      (∀ x ∈ s.springs, euclid (s.env.at_ s.pos found.a) p ≤ euclid (s.env.at_ s.pos x.a) p) ∧
      (s.count = 0 → t = s.pos) ∧ (s.count ≠ 0 → t = s.targets) ∧
      s.insert p = .ok ((preInsert s t n).install p found (s.env.at_ s.pos found.a) (s.env.at_ s.pos found.b),
        .handle s.nextHid) := by
  obtain ⟨t, n, found, h1, h2, h3, -, h4, h5, h6⟩ := insert_atRest_best hs hr hnd hz hp
  exact ⟨t, n, found, h1, h2, h3, h4, h5, h6⟩

theorem base_ends_mesh {t : Pt} {b : ℕ} {x : Spring} (hx : x ∈ baseSprings t b) :
    (∃ i, x.a = .mesh i) ∧ ∃ i, x.b = .mesh i := by
  simp only [baseSprings, List.mem_map] at hx
  obtain ⟨e, -, rfl⟩ := hx
  exact ⟨⟨_, rfl⟩, ⟨_, rfl⟩⟩

theorem demo_insert (q : Pt) (hq : Representable q) :
    ∃ t n found, found ∈ demo.springs ∧ t = demo.pos ∧ 24 ≤ n ∧
      demo.exec (.insert q) = .ok ((preInsert demo t n).install q found (demo.env.at_ demo.pos found.a)
        (demo.env.at_ demo.pos found.b), .handle 0) := by
  have hI : Inv 0 demo := inv_new _ _ _ _ _
  have hA : Anchored demo := anchored_new _ _ _ _ _
  obtain ⟨t, n, found, hf, hn, -, h0, -, h⟩ := insert_atRest hI (new_atRest _ _ _ _ _) hA.not_dangling (p := q)
    (fun x hx => by
      obtain ⟨⟨i, hi⟩, j, hj⟩ := base_ends_mesh (t := ⟨300 / (4 - 1), 300 / (4 - 1)⟩) (b := 0) hx
      rw [hi, hj]
      exact ⟨demo_rep i, demo_rep j⟩) hq
  exact ⟨t, n, found, hf, h0 rfl, hn, h⟩

end Verif.Wobbly
