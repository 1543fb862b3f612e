import Verif.Lemmas.WobblyBase

/-! Lengths of the base springs after any history. -/

namespace Verif.Wobbly

open Spec Outcome

/-- The spring with its desired length scaled. -/
theorem scaleLength_scaleLength (y : Spring) (f g : Pt) :
    (y.scaleLength f).scaleLength g = y.scaleLength ⟨f.x * g.x, f.y * g.y⟩ := by
  simp only [Spring.scaleLength, Spring.mk.injEq, true_and]
  ext
  · simp only [Pt.pscale_x]; ring
  · simp only [Pt.pscale_y]; ring

theorem scaleLength_one (y : Spring) : y.scaleLength ⟨1, 1⟩ = y := by
  cases y
  simp only [Spring.scaleLength, Spring.mk.injEq, true_and]
  ext <;> simp

/-- Every base spring comes from one that was there before, scaled as `grown` says. -/
theorem base_grown {b : ℕ} {ops : List Op} {s s' : State} {rs : List Res} (hs : Inv b s)
    (e : s.run ops = .ok (s', rs)) :
    ∀ x ∈ s'.springs ++ stolens s'.live, x.id ∈ baseIds b →
      ∃ y ∈ s.springs ++ stolens s.live, x = y.scaleLength (grown y.id s ops) := by
  induction ops generalizing s rs with
  | nil =>
    simp only [State.run, Outcome.ok.injEq, Prod.mk.injEq] at e
    intro x hx _
    rw [← e.1] at hx
    exact ⟨x, hx, (scaleLength_one x).symm⟩
  | cons op ops ih =>
    unfold State.run at e
    rw [bind_eq_ok] at e
    obtain ⟨⟨s1, r1⟩, h1, e⟩ := e
    rw [bind_eq_ok] at e
    obtain ⟨⟨s2, r2⟩, h2, e⟩ := e
    simp only [Outcome.ok.injEq, Prod.mk.injEq] at e
    rw [e.1] at h2
    intro x hx hid
    obtain ⟨y, hy, rfl⟩ := ih (inv_exec s op s1 r1 hs h1) h2 x hx hid
    have hid' : y.id ∈ baseIds b := hid
    by_cases hres : ∀ w h, op ≠ .resize w h
    · rcases (base_kept hs hres h1).2 y hy with h | h
      · refine ⟨y, h, ?_⟩
        congr 1
        simp only [grown, h1]
      · exact absurd hid' h
    · push Not at hres
      obtain ⟨w, h', rfl⟩ := hres
      have hg : ∀ n, grown n s (.resize w h' :: ops) = if ∃ y ∈ s.springs, y.id = n
          then ⟨w / s.width * (grown n s1 ops).x, h' / s.height * (grown n s1 ops).y⟩ else grown n s1 ops := by
        intro n
        simp only [grown, h1]
      obtain ⟨-, -, hw, hh, -, ⟨ew, eh, rfl⟩ | ⟨n, q, hn, -, -, rfl⟩⟩ := resize_ok h1
      · refine ⟨y, hy, ?_⟩
        rw [hg, ew, eh, div_self hw, div_self hh, one_mul, one_mul]
        split_ifs <;> rfl
      · simp only [resized] at hy
        rw [(keeps_scale _ _).stolens_map] at hy
        rcases List.mem_append.1 hy with hy | hy
        · obtain ⟨z, hz, rfl⟩ := List.mem_map.1 hy
          refine ⟨z, List.mem_append_left _ hz, ?_⟩
          rw [hg, if_pos ⟨z, hz, rfl⟩, scaleLength_scaleLength]
          rfl
        · refine ⟨y, List.mem_append_right _ hy, ?_⟩
          rw [hg, if_neg]
          rintro ⟨z, hz, hzy⟩
          have hu := hs.uniq y.id
          have c1 : 0 < (s.springs.map Spring.id).count y.id :=
            List.count_pos_iff.2 (List.mem_map.2 ⟨z, hz, hzy⟩)
          have c2 : 0 < ((stolens s.live).map Spring.id).count y.id :=
            List.count_pos_iff.2 (List.mem_map.2 ⟨y, hy, rfl⟩)
          omega

/-- With nothing inserted, the springs are the base springs with these lengths. -/
theorem springs_grown {p : Pt} {w h : ℝ} {x : Settings} {b : ℕ} {ops : List Op} {s : State} {rs : List Res}
    (e : (State.new p w h x b).run ops = .ok (s, rs)) (hn : NoneInserted s) :
    s.springs.Perm ((State.new p w h x b).springs.map fun y => y.scaleLength (grown y.id (State.new p w h x b) ops)) := by
  have hs : Inv b s := inv_run e
  have hp := (ids_perm hs hn).2
  have e0 : (State.new p w h x b).springs = baseSprings (State.new p w h x b).tile b := rfl
  set g : Spring → Spring := fun y => y.scaleLength (grown y.id (State.new p w h x b) ops) with hg
  have hi : ((State.new p w h x b).springs.map g).map Spring.id = baseIds b := by
    rw [List.map_map, e0, ← baseSprings_ids (State.new p w h x b).tile b]
    rfl
  have hm : ∀ y ∈ s.springs, y ∈ (State.new p w h x b).springs.map g := by
    intro y hy
    obtain ⟨z, hz, rfl⟩ := base_grown (inv_new p w h x b) e y (List.mem_append_left _ hy)
      (hp.mem_iff.1 (List.mem_map.2 ⟨y, hy, rfl⟩))
    exact List.mem_map.2 ⟨z, by simpa [State.new, stolens] using hz, rfl⟩
  have hn1 : (s.springs.map Spring.id).Nodup := hp.nodup_iff.2 (baseIds_nodup b)
  have hn2 : (((State.new p w h x b).springs.map g).map Spring.id).Nodup := by rw [hi]; exact baseIds_nodup b
  rw [List.perm_ext_iff_of_nodup (List.Nodup.of_map _ hn1) (List.Nodup.of_map _ hn2)]
  intro y
  refine ⟨hm y, fun hy => ?_⟩
  have : y.id ∈ s.springs.map Spring.id := by
    rw [hp.mem_iff, ← hi]
    exact List.mem_map.2 ⟨y, hy, rfl⟩
  obtain ⟨z, hz, ez⟩ := List.mem_map.1 this
  rw [← List.inj_on_of_nodup_map hn2 (hm z hz) hy ez]
  exact hz

/-- Two ways of scaling the base springs give the same springs exactly if they give every spring the same length. -/
theorem perm_scaled_iff {t : Pt} {b : ℕ} (f g : Spring → Pt) :
    ((baseSprings t b).map fun y => y.scaleLength (f y)).Perm ((baseSprings t b).map fun y => y.scaleLength (g y)) ↔
      ∀ y ∈ baseSprings t b, y.desired.pscale (f y) = y.desired.pscale (g y) := by
  constructor
  · intro hp y hy
    have : y.scaleLength (f y) ∈ (baseSprings t b).map fun y => y.scaleLength (g y) :=
      hp.mem_iff.1 (List.mem_map.2 ⟨y, hy, rfl⟩)
    obtain ⟨z, hz, ez⟩ := List.mem_map.1 this
    simp only [Spring.scaleLength, Spring.mk.injEq] at ez
    have := baseSprings_inj hz hy ez.1
    subst this
    exact ez.2.2.2.symm
  · intro h
    rw [List.map_congr_left fun y hy => ?_]
    simp only [Spring.scaleLength, h y hy]

end Verif.Wobbly
