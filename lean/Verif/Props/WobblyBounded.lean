import Verif.Lemmas.WobblyLimit
import Verif.Props.WobblyMotion
import Verif.Props.WobblySteps

/-! # A mesh that is held cannot run away (C110) -/

namespace Verif.Props

open Wobbly Spec Outcome Classical

noncomputable section

variable {p : Pt} {w h : ℝ} {x : Settings} {b : ℕ} {ops more : List Op} {s s' : State} {rs rs' : List Res}

/-- **C110.** While a program owns exactly one anchor, made by `GrabAnchor`, and the friction is positive and at most the
mass: let `V` be at least `4 k R / f` (`k` the spring constant, `R` the maximum range, `f` the friction) and at least
every velocity at some moment. Then, whatever is dragged, moved, resized and stepped from that moment on, `Step`
returns, no velocity is above `V` and after every `Step` each point of the mesh is within `R + V / 2` of its target, in
each coordinate. -/
theorem C110_speed_limit (e : (State.new p w h x b).run ops = .ok (s, rs))
    (hr : AllAlong ResizeAllowed (State.new p w h x b) ops) (h1 : (owned [] ops rs).length = 1) (hn : NoneInserted s)
    (hk : 0 ≤ s.settings.springConstant) (hf : 0 < s.settings.friction) (hf' : s.settings.friction ≤ 15)
    (hR : 0 < s.settings.maximumRange) {V : ℝ}
    (hV : 4 * s.settings.springConstant * s.settings.maximumRange / s.settings.friction ≤ V)
    (hv : ∀ i, |(s.vel i).x| ≤ V ∧ |(s.vel i).y| ≤ V) (ho : ∀ op ∈ more, KeepsAnchors op ∧ ∀ y, op ≠ .setSettings y)
    (e' : s.run more = .ok (s', rs')) {t : ℕ} (ht : t ≠ 0) :
    ∃ s'' b, s'.exec (.step t) = .ok (s'', .more b) ∧ ∀ i, |(s''.vel i).x| ≤ V ∧ |(s''.vel i).y| ≤ V ∧
      |(s''.pos i).x - (s'.targets i).x| ≤ s.settings.maximumRange + V / 2 ∧
      |(s''.pos i).y - (s'.targets i).y| ≤ s.settings.maximumRange + V / 2 := by
  have H : Tied s.settings V s := ⟨rfl, (C45_tracking_iff e).2 h1, (run_induction inv_exec (inv_new p w h x b) e).targets,
    ⟨b, C48_lengths_restored e hn hr⟩, fun i => (hv i).1, fun i => (hv i).2⟩
  have H' := H.run hk hf hf' hV hR ho e'
  have hd : ¬ dangling s'.springs s'.live := by
    rintro ⟨y, hy, hn⟩
    obtain ⟨c, hc⟩ := H'.springs
    obtain ⟨⟨i, hi⟩, j, hj⟩ := base_ends_mesh (hc.subset hy)
    rw [hi, hj] at hn
    exact hn ⟨trivial, trivial⟩
  exact (H'.limited hk).step hd (fun i => ⟨H'.velX i, H'.velY i⟩) hf hf' ((div_le_iff₀ hf).1 hV) hR ht

/-- **C110.** If nothing moved when the anchor was taken, each point of the mesh stays within `R (1 + 2 k / f)` of its
target for as long as that anchor is the only one. With the default settings that is less than 3167 pixels. -/
theorem C110_from_rest (e : (State.new p w h x b).run ops = .ok (s, rs))
    (hr : AllAlong ResizeAllowed (State.new p w h x b) ops) (h1 : (owned [] ops rs).length = 1) (hn : NoneInserted s)
    (hk : 0 ≤ s.settings.springConstant) (hf : 0 < s.settings.friction) (hf' : s.settings.friction ≤ 15)
    (hR : 0 < s.settings.maximumRange) (hv : ∀ i, s.vel i = ⟨0, 0⟩)
    (ho : ∀ op ∈ more, KeepsAnchors op ∧ ∀ y, op ≠ .setSettings y)
    (e' : s.run more = .ok (s', rs')) {t : ℕ} (ht : t ≠ 0) :
    ∃ s'' b, s'.exec (.step t) = .ok (s'', .more b) ∧ ∀ i,
      |(s''.pos i).x - (s'.targets i).x| ≤
        s.settings.maximumRange * (1 + 2 * s.settings.springConstant / s.settings.friction) ∧
      |(s''.pos i).y - (s'.targets i).y| ≤
        s.settings.maximumRange * (1 + 2 * s.settings.springConstant / s.settings.friction) ∧
      (s.settings = ⟨8, 3, 500⟩ → |(s''.pos i).x - (s'.targets i).x| < 3167 ∧
        |(s''.pos i).y - (s'.targets i).y| < 3167) := by
  obtain ⟨s'', b, hx, k⟩ := C110_speed_limit e hr h1 hn hk hf hf' hR (le_refl _)
    (fun i => by
      rw [hv i]
      simp only [abs_zero, and_self]
      positivity) ho e' ht
  have eq : s.settings.maximumRange + 4 * s.settings.springConstant * s.settings.maximumRange / s.settings.friction / 2 =
      s.settings.maximumRange * (1 + 2 * s.settings.springConstant / s.settings.friction) := by
    field_simp
    ring
  refine ⟨s'', b, hx, fun i => ?_⟩
  obtain ⟨-, -, kx, ky⟩ := k i
  rw [eq] at kx ky
  refine ⟨kx, ky, fun hs => ?_⟩
  rw [hs] at kx ky
  norm_num [defaultSettings] at kx ky
  constructor <;> linarith

/-- **C110.** The same for an anchor made by `InsertAnchor`, if the program owned no anchor before and no two points of
the mesh were at the same place. -/
theorem C110_inserted (e : (State.new p w h x b).run ops = .ok (s, rs))
    (hr : AllAlong ResizeAllowed (State.new p w h x b) ops) (hl : owned [] ops rs = [])
    (hinj : ∀ i j, s.pos i = s.pos j → i = j)
    (hk : 0 ≤ s.settings.springConstant) (hf : 0 < s.settings.friction) (hf' : s.settings.friction ≤ 15)
    (hR : 0 < s.settings.maximumRange) {V : ℝ}
    (hV : 4 * s.settings.springConstant * s.settings.maximumRange / s.settings.friction ≤ V)
    (hv : ∀ i, |(s.vel i).x| ≤ V ∧ |(s.vel i).y| ≤ V) {g : Pt} {s1 : State} {r : Res}
    (ei : s.exec (.insert g) = .ok (s1, r)) (ho : ∀ op ∈ more, KeepsAnchors op ∧ ∀ y, op ≠ .setSettings y)
    (e' : s1.run more = .ok (s', rs')) {t : ℕ} (ht : t ≠ 0) :
    ∃ s'' b, s'.exec (.step t) = .ok (s'', .more b) ∧ ∀ i, |(s''.vel i).x| ≤ V ∧ |(s''.vel i).y| ≤ V ∧
      |(s''.pos i).x - (s'.targets i).x| ≤ s.settings.maximumRange + V / 2 ∧
      |(s''.pos i).y - (s'.targets i).y| ≤ s.settings.maximumRange + V / 2 := by
  have hI := inv_run e
  have hlive : s.live = [] := by
    have := live_owned e
    rw [show (State.new p w h x b).live = [] from rfl, List.map_nil, hl, List.map_eq_nil_iff] at this
    exact this
  have H := hung_insert hI (baseLen_run hr e) hlive (fun i j h => hinj i j h) hv ei
  have H' := H.run hk hf hf' hV hR ho e'
  exact (H'.limited hk).step H'.lone.fine H'.vel hf hf' ((div_le_iff₀ hf).1 hV) hR ht

/-- **C110.** While a program owns exactly one anchor, however the model came to that, the integration does not blow up:
at a moment at which `Step` returns there is a bound for all velocities, and with it for the distances from the targets,
that holds whatever is dragged, moved and stepped from then on. -/
theorem C110_bounded (e : (State.new p w h x b).run ops = .ok (s, rs)) (h1 : (owned [] ops rs).length = 1)
    {t : ℕ} (ht : t ≠ 0) {z : State × Res} (et : s.exec (.step t) = .ok z)
    (hk : 0 ≤ s.settings.springConstant) (hf : 0 < s.settings.friction) (hf' : s.settings.friction ≤ 15)
    (hR : 0 < s.settings.maximumRange) :
    ∃ V, ∀ more s' rs', (∀ op ∈ more, KeepsAnchors op ∧ (∀ y, op ≠ .setSettings y) ∧ ∀ w h, op ≠ .resize w h) →
      s.run more = .ok (s', rs') → ∀ t, t ≠ 0 →
      ∃ s'' b, s'.exec (.step t) = .ok (s'', .more b) ∧ ∀ i, |(s''.vel i).x| ≤ V ∧ |(s''.vel i).y| ≤ V ∧
        |(s''.pos i).x - (s'.targets i).x| ≤ s.settings.maximumRange + V / 2 ∧
        |(s''.pos i).y - (s'.targets i).y| ≤ s.settings.maximumRange + V / 2 := by
  have hd : ¬ dangling s.springs s.live := by
    intro hd
    change s.step t = _ at et
    unfold State.step at et
    rw [if_pos ⟨(stepCount_pos ht), hd⟩] at et
    cases et
  have hact := (C45_tracking_iff e).2 h1
  have hlive : ∃ a, s.live = [a] := by
    rw [← List.length_eq_one_iff, ← (inv_run e).count]
    exact hact
  have H : Kept s s := ⟨rfl, hlive, hact, rfl, hd, fun _ _ => rfl⟩
  obtain ⟨B, hB0, hB⟩ := Kept.limited (o := s) hk
  obtain ⟨V0, hV0⟩ : ∃ V0, ∀ i, |(s.vel i).x| ≤ V0 ∧ |(s.vel i).y| ≤ V0 := by
    refine ⟨∑ i, (|(s.vel i).x| + |(s.vel i).y|), fun i => ?_⟩
    have := Finset.single_le_sum (f := fun i => |(s.vel i).x| + |(s.vel i).y|) (fun i _ => by positivity) (Finset.mem_univ i)
    constructor <;> linarith [abs_nonneg (s.vel i).x, abs_nonneg (s.vel i).y]
  have hV : B ≤ max V0 (B / s.settings.friction) * s.settings.friction := by
    rw [← div_le_iff₀ hf]
    exact le_max_right _ _
  refine ⟨max V0 (B / s.settings.friction), fun more s' rs' ho e' t' ht' => ?_⟩
  obtain ⟨H', hv'⟩ := H.run hB hf hf' hV hR
    (fun i => ⟨(hV0 i).1.trans (le_max_left _ _), (hV0 i).2.trans (le_max_left _ _)⟩) ho e'
  exact (hB s' H').step H'.fine hv' hf hf' hV hR ht'

/-- A fresh model, grabbed. -/
example : ∃ s rs, demo.run [.grab ⟨90, 10⟩] = .ok (s, rs) ∧ (owned [] [.grab ⟨90, 10⟩] rs).length = 1 ∧ NoneInserted s ∧
    AllAlong ResizeAllowed demo [.grab ⟨90, 10⟩] ∧ s.settings = defaultSettings ∧ ∀ i, s.vel i = ⟨0, 0⟩ := by
  obtain ⟨i, t, n, -, -, h⟩ := demo_grab ⟨90, 10⟩ (rep_small (by norm_num [abs_of_pos]) (by norm_num [abs_of_pos]))
  refine ⟨_, [.handle 0], run_one h, rfl, ?_, ?_, rfl, fun i => rfl⟩
  · rintro a ha ⟨q, st, f, g, hk⟩
    rw [List.mem_singleton.1 ha] at hk
    cases hk
  · exact ⟨trivial, fun _ _ _ => trivial⟩

/-- A fresh model, with an inserted anchor. -/
example : ∃ s1 r, demo.exec (.insert ⟨50, 50⟩) = .ok (s1, r) ∧ owned [] [] [] = [] ∧
    (∀ i j, demo.pos i = demo.pos j → i = j) ∧ ∀ i, demo.vel i = ⟨0, 0⟩ := by
  obtain ⟨t, n, found, -, -, -, h⟩ :=
    demo_insert ⟨50, 50⟩ (rep_small (by norm_num [abs_of_pos]) (by norm_num [abs_of_pos]))
  exact ⟨_, _, h, rfl, fun i j e => new_injective (by norm_num) (by norm_num) e, fun i => rfl⟩

/-- With one inserted anchor, `Step` returns. -/
example : ∃ s rs z, demo.run [.insert ⟨50, 50⟩] = .ok (s, rs) ∧ (owned [] [.insert ⟨50, 50⟩] rs).length = 1 ∧
    s.exec (.step 16) = .ok z ∧ s.settings = defaultSettings := by
  obtain ⟨t, n, found, -, -, -, h⟩ :=
    demo_insert ⟨50, 50⟩ (rep_small (by norm_num [abs_of_pos]) (by norm_num [abs_of_pos]))
  obtain ⟨s'', m, hz, -⟩ := C110_inserted (ops := []) (more := []) (rs := []) (rs' := []) (b := 0) rfl trivial rfl
    (fun i j e => new_injective (by norm_num) (by norm_num) e) (by norm_num [demo, State.new, defaultSettings])
    (by norm_num [demo, State.new, defaultSettings]) (by norm_num [demo, State.new, defaultSettings])
    (by norm_num [demo, State.new, defaultSettings])
    (le_refl _) (fun i => by norm_num [demo, State.new, defaultSettings]) h (by simp) rfl (t := 16) (by norm_num)
  exact ⟨_, [.handle 0], _, run_one h, rfl, hz, rfl⟩

end

end Verif.Props
