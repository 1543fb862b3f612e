import Verif.Lemmas.WobblyTug
import Verif.Props.WobblyTied

/-! # A mesh dragged by several anchors cannot run away (C137) -/

namespace Verif.Props

open Wobbly Spec Outcome Classical

noncomputable section

variable {p : Pt} {w h : ℝ} {x : Settings} {b : ℕ} {ops : List Op} {s : State} {rs : List Res}

/-- **C137.** A program that holds several anchors, or none, while `Step` is defined, and drags them about, in any order and as
often as it likes, but never farther than `D` from where they are now, stepping in between as it likes: every call returns, and one
bound, which depends on `D` but not on the calls, holds for all velocities, for how far points get from each other and,
if there is an anchor, for how far they get from where they are. -/
theorem C137_dragged_together (e : (State.new p w h x b).run ops = .ok (s, rs))
    (hu : s.exec (.step 16) ≠ .ub) (h1 : (owned [] ops rs).length ≠ 1)
    (hk : 0 < s.settings.springConstant) (hk' : s.settings.springConstant ≤ 10)
    (hf : 0 < s.settings.friction) (hf' : s.settings.friction ≤ 10) (D : ℝ) :
    ∃ B : ℝ, ∀ more, (∀ op ∈ more, Tugs op) → StaysNear (owned [] ops rs) D more →
      ∃ s' rs', s.run more = .ok (s', rs') ∧ SlowerThan s' B ∧
      (∀ i j, |(s'.pos i).x - (s'.pos j).x| ≤ B ∧ |(s'.pos i).y - (s'.pos j).y| ≤ B) ∧
      (owned [] ops rs ≠ [] → ∀ i, |(s'.pos i).x - (s.pos i).x| ≤ B ∧ |(s'.pos i).y - (s.pos i).y| ≤ B) := by
  have hI := inv_run e
  obtain ⟨hW, hd⟩ := web_run e hu
  have ha : ¬ s.active := fun hh => h1 ((C45_tracking_iff e).1 hh)
  have hown : owned [] ops rs = s.live.map Live.hid := (live_owned e).symm
  have hlive : owned [] ops rs ≠ [] → s.live ≠ [] := by
    intro hne hl
    rw [hown, hl] at hne
    exact hne rfl
  obtain ⟨X, hX0, hX⟩ := tug_bounded hI hW ha hd hk hk' hf hf' (Or.inl rfl) (le_max_left 0 D)
  obtain ⟨Y, hY0, hY⟩ := tug_bounded hI hW ha hd hk hk' hf hf' (Or.inr rfl) (le_max_left 0 D)
  refine ⟨X + Y, fun more hmore hnear => ?_⟩
  have hm : ∀ l, l <+: more → ∀ a ∈ s.live, |(dragged a.hid l).x| ≤ max 0 D ∧ |(dragged a.hid l).y| ≤ max 0 D := by
    intro l hl a ha
    have := hnear l hl a.hid (by rw [hown]; exact List.mem_map.2 ⟨a, ha, rfl⟩)
    exact ⟨this.1.trans (le_max_right _ _), this.2.trans (le_max_right _ _)⟩
  obtain ⟨s', rs', hrun, hx⟩ := hX more hmore fun l hl a ha => (hm l hl a ha).1
  obtain ⟨s2, rs2, hrun2, hy⟩ := hY more hmore fun l hl a ha => (hm l hl a ha).2
  obtain ⟨rfl, rfl⟩ : s' = s2 ∧ rs' = rs2 := by
    rw [hrun] at hrun2
    simpa using hrun2
  refine ⟨s', rs', hrun, fun i => ⟨?_, ?_⟩, fun i j => ⟨?_, ?_⟩, fun hne i => ⟨?_, ?_⟩⟩
  · exact (hx i).1.trans (by linarith)
  · exact (hy i).1.trans (by linarith)
  · exact ((hx i).2.1 j).trans (by linarith)
  · exact ((hy i).2.1 j).trans (by linarith)
  · exact ((hx i).2.2 (hlive hne)).trans (by linarith)
  · exact ((hy i).2.2 (hlive hne)).trans (by linarith)

/-- A fresh model with an inserted anchor and a grabbed one, the second of which is dragged to and fro. -/
example : ∃ s rs, demo.run [.insert ⟨50, 50⟩, .grab ⟨90, 10⟩] = .ok (s, rs) ∧
    owned [] [.insert ⟨50, 50⟩, .grab ⟨90, 10⟩] rs = [0, 1] ∧
    s.exec (.step 16) ≠ .ub ∧ s.settings = defaultSettings ∧
    StaysNear [0, 1] 7 [.moveAnchor 1 ⟨5, -7⟩, .step 16, .moveAnchor 1 ⟨-9, 9⟩, .step 16] := by
  obtain ⟨t, n, found, -, -, -, h⟩ :=
    demo_insert ⟨50, 50⟩ (rep_small (by norm_num [abs_of_pos]) (by norm_num [abs_of_pos]))
  have hR := new_atRest ⟨0, 0⟩ 300 300 defaultSettings 0
  obtain ⟨i, t', n', -, h2, -⟩ := grab_atRest (s := (preInsert demo t n).install ⟨50, 50⟩ found
    (demo.env.at_ demo.pos found.a) (demo.env.at_ demo.pos found.b)) ⟨hR.pos, hR.vel⟩ demo_rep (p := ⟨90, 10⟩)
    (rep_small (by norm_num [abs_of_pos]) (by norm_num [abs_of_pos]))
  refine ⟨_, _, run_snoc (run_one h) h2, rfl, step_defined (no_dangling (ops := [.insert ⟨50, 50⟩, .grab ⟨90, 10⟩])
    (run_snoc (run_one h) h2)
    ⟨trivial, fun _ _ _ => ⟨trivial, fun _ _ _ => trivial⟩⟩), rfl, ?_⟩
  intro l hl k hk
  simp only [List.prefix_cons_iff, List.prefix_nil] at hl
  have x0 : (0 : Pt).x = 0 := rfl
  have y0 : (0 : Pt).y = 0 := rfl
  have xa : ∀ p q : Pt, (p + q).x = p.x + q.x := fun _ _ => rfl
  have ya : ∀ p q : Pt, (p + q).y = p.y + q.y := fun _ _ => rfl
  rcases List.mem_pair.1 hk with rfl | rfl <;>
    rcases hl with rfl | ⟨_, rfl, rfl | ⟨_, rfl, rfl | ⟨_, rfl, rfl | ⟨_, rfl, rfl⟩⟩⟩⟩ <;>
    norm_num [dragged, x0, y0, xa, ya, abs_le]

end

end Verif.Props
