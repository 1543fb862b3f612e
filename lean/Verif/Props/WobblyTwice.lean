import Verif.Lemmas.WobblyTwice
import Verif.Props.WobblyVisit

/-! # When a wobbly model with anchors has settled, in double precision (C116) -/

namespace Verif.Props

open Wobbly Wobbly.Rounded Spec Outcome Classical

noncomputable section

variable (R : Rounding64) {p : Pt} {w h : ℝ} {x : Settings} {b : ℕ} {ops : List Op} {rs : List Res} {s s1 s2 : State}

/-- **C116.** In double precision, whatever was called before and with whatever arguments, and whatever anchors there are:
if two `Step`s in a row over times that are not zero answer false, the second one changed nothing, and every later `Step`
answers false and changes nothing. -/
theorem C116_twice (e : run R.rnd (Rounded.new R.rnd p w h x b) ops = .ok (s, rs)) {t t' : ℕ} (ht : t ≠ 0) (ht' : t' ≠ 0)
    (e1 : exec R.rnd s (.step t) = .ok (s1, .more False)) (e2 : exec R.rnd s1 (.step t') = .ok (s2, .more False)) :
    s2 = s1 ∧ Still R.rnd s1 := by
  have A := run_double (new_double R p w h x b) e
  obtain ⟨-, f1, hd⟩ := step_idle A ht e1
  have A1 : AllDouble s1 := exec_double A e1
  obtain ⟨I, f2, hd1⟩ := step_idle A1 ht' e2
  have hact : s1.active → s1.pos = s1.targets := by
    intro ha
    have ha' : s.active := by rw [f1] at ha; exact ha
    rw [f1]
    exact if_pos ha'
  have hv : ∀ j, s1.vel j = 0 := fun j => by rw [f1]
  have hu : ¬ s1.unequal := by rw [f1]; exact not_false
  have still : Still R.rnd s1 := idle_step A1 I hact hv hu hd1
  refine ⟨?_, still⟩
  have := still t'
  rw [e2] at this
  exact (Prod.mk.inj (Outcome.ok.inj this)).1

/-- **C116.** With no anchor or with several, one such answer is enough, and the `Step` that gave it left every point where it
was. -/
theorem C116_untracked (e : run R.rnd (Rounded.new R.rnd p w h x b) ops = .ok (s, rs)) (hl : s.live.length ≠ 1) {t : ℕ}
    (ht : t ≠ 0) (e1 : exec R.rnd s (.step t) = .ok (s1, .more False)) : s1.pos = s.pos ∧ Still R.rnd s1 := by
  have A := run_double (new_double R p w h x b) e
  have hna : ¬ s.active := by
    unfold State.active
    rw [(run_counted (new_counted R.rnd p w h x b) e).count]
    exact hl
  obtain ⟨I, f1, hd⟩ := step_idle A ht e1
  have A1 : AllDouble s1 := exec_double A e1
  rw [if_neg hna] at f1
  refine ⟨by rw [f1], ?_⟩
  subst f1
  exact idle_step A1 ⟨fun ha => absurd ha hna, I.slack⟩ (fun ha => absurd ha hna) (fun _ => rfl) not_false hd

/-- **C116.** With one anchor, the `Step` that answers false puts every point on its target, and it is final exactly when the
next one answers false as well. -/
theorem C116_tracked (e : run R.rnd (Rounded.new R.rnd p w h x b) ops = .ok (s, rs)) (hl : s.live.length = 1) {t t' : ℕ}
    (ht : t ≠ 0) (ht' : t' ≠ 0) (e1 : exec R.rnd s (.step t) = .ok (s1, .more False)) :
    s1.pos = s.targets ∧ (Still R.rnd s1 ↔ ∃ s2, exec R.rnd s1 (.step t') = .ok (s2, .more False)) := by
  have A := run_double (new_double R p w h x b) e
  have ha : s.active := by
    unfold State.active
    rw [(run_counted (new_counted R.rnd p w h x b) e).count]
    exact hl
  obtain ⟨-, f1, -⟩ := step_idle A ht e1
  refine ⟨by rw [f1]; exact if_pos ha, fun hs => ⟨_, hs t'⟩, fun ⟨s2, e2⟩ => (C116_twice R e ht ht' e1 e2).2⟩

/-- A grabbed model of any size on the screen meets the hypotheses. -/
theorem grabbed_settles (hx : 1 ≤ x.maximumRange) {g : Pt} {v : Spot} (on : v.OnScreen) (gx : |g.x| ≤ 32768) (gy : |g.y| ≤ 32768) :
    ∃ s rs s1, run R.rnd (Rounded.new R.rnd v.place v.width v.height x b) [.grab g] = .ok (s, rs) ∧ s.live.length = 1 ∧
      exec R.rnd s (.step 16) = .ok (s1, .more False) ∧ exec R.rnd s1 (.step 16) = .ok (s1, .more False) ∧
      ∀ y ∈ s1.springs, (∃ i, y.a = .mesh i) ∧ ∃ j, y.b = .mesh j := by
  have Q := peaceful_quiet (R := R) (Or.inl rfl) hx (.new (r := R.rnd) (x := x) (b := b) on) (by norm_num)
  obtain ⟨i, s', e', K, -, w1, h1, -⟩ := Q.grab (R := R) (Or.inl rfl) hx gx gy
  have es := (grab_same R.rnd e').2.1
  have ep : s'.pos = (Rounded.new R.rnd v.place v.width v.height x b).pos := by
    obtain ⟨i', s1', e1', -, -, -, ep', -⟩ := grab_kept R Q.free Q.rest Q.width Q.height Q.on gx gy
      (by rw [Q.settings]; exact hx) Q.joined
    rw [show exec R.rnd _ (.grab g) = _ from e1'] at e'
    rw [← (Prod.mk.inj (Outcome.ok.inj e')).1]
    exact ep'
  have near : ∀ j, Near (3 / 16) (s'.pos j) (s'.targets j) := by
    intro j
    obtain ⟨c1, c2⟩ := K.held.aimed (x := v) w1 h1 j
    obtain ⟨q1, q2⟩ := Q.close j
    rw [ep]
    rw [abs_le] at c1 c2 q1 q2
    constructor <;> rw [abs_le] <;> constructor <;> push_cast at * <;> linarith
  obtain ⟨s3, e3, P, -⟩ := K.calm (R := R) near (by rw [ep]; exact Q.rest.doubles)
    (fun j => by rw [es]; exact Q.rest.vel j) (t := 16) (by norm_num)
  have e1 : run R.rnd (Rounded.new R.rnd v.place v.width v.height x b) [.grab g] = .ok (s', [.handle 0]) := by
    simp only [run, e', bind_ok]
    rfl
  refine ⟨s', _, s3, e1, ?_, e3, P.step 16, P.kept.held.ends⟩
  have := (run_counted (new_counted R.rnd v.place v.width v.height x b) e1).count
  rw [← this]
  exact K.held.count

/-- So does one that is held twice, for the case of several anchors. -/
theorem twice_grabbed_settles (hx : 1 ≤ x.maximumRange) {g : Pt} {v : Spot} (on : v.OnScreen) (gx : |g.x| ≤ 32768)
    (gy : |g.y| ≤ 32768) :
    ∃ q s rs s1, run R.rnd (Rounded.new R.rnd v.place v.width v.height x b) [.grab g, .step 16, .grab q] = .ok (s, rs) ∧
      s.live.length = 2 ∧ exec R.rnd s (.step 16) = .ok (s1, .more False) := by
  obtain ⟨s, rs, s1, e, hl, e1, e2, ends⟩ := grabbed_settles R (b := b) hx on gx gy
  have ee : run R.rnd (Rounded.new R.rnd v.place v.width v.height x b) [.grab g, .step 16] = .ok (s1, rs ++ [.more False]) := by
    simp only [run, bind_eq_ok, Outcome.ok.injEq, Prod.mk.injEq] at e ⊢
    obtain ⟨a, ea, c, ec, h1, h2⟩ := e
    rw [← ec] at h1 h2
    simp only at h1 h2
    subst h1
    exact ⟨a, ea, (s1, [.more False]), ⟨(s1, .more False), e1, (s1, []), rfl, rfl⟩, rfl, by rw [← h2]; rfl⟩
  have A1 := run_double (new_double R v.place v.width v.height x b) ee
  have C1 := run_counted (new_counted R.rnd v.place v.width v.height x b) ee
  have A0 := run_double (new_double R v.place v.width v.height x b) e
  have C0 := run_counted (new_counted R.rnd v.place v.width v.height x b) e
  obtain ⟨I, f, hd⟩ := step_idle A1 (by norm_num) e2
  have k1 : s1.count = 1 := by
    have := (step_idle A0 (by norm_num) e1).2.1
    rw [this]
    exact C0.count.trans hl
  obtain ⟨i, ei, -⟩ := closest_some R (m := s1.pos) (p := s1.pos 0) (screen_distance R (by norm_num) (by norm_num))
  let s2 : State := { s1 with unequal := True, count := s1.count + 1 }
  let s3 : State := { s2.lock i with live := (s2.lock i).live ++ [⟨s2.nextHid, .grab i⟩], nextHid := s2.nextHid + 1 }
  have e3 : exec R.rnd s1 (.grab (s1.pos 0)) = .ok (s3, .handle s1.nextHid) := by
    simp only [exec, grab, ei]
    unfold activate
    dsimp only
    rw [if_neg (by rw [k1]; norm_num)]
    rfl
  have er : run R.rnd (Rounded.new R.rnd v.place v.width v.height x b) [.grab g, .step 16, .grab (s1.pos 0)] =
      .ok (s3, rs ++ [.more False] ++ [.handle s1.nextHid]) := by
    exact run_snoc ee e3
  have A3 := exec_double A1 e3
  have C3 := exec_counted C1 e3
  have k3 : s3.count = 2 := by
    show s1.count + 1 = 2
    rw [k1]
  have hd3 : ¬ dangling s3.springs s3.live := mesh_ends_sound ends
  have I3 : Idle R s3 s3.pos := by
    refine ⟨fun ha => absurd (k3.symm.trans ha) (by norm_num), fun y hy => ?_⟩
    have := I.slack y hy
    obtain ⟨⟨i, hi⟩, j, hj⟩ := ends y hy
    unfold Slack deltaA deltaB at this ⊢
    rw [hi, hj] at this ⊢
    exact this
  obtain ⟨s4, e4⟩ := idle_answer A3 I3 (fun j => by
    show s1.vel j = 0
    rw [f]) hd3 (t := 16) (by norm_num)
  exact ⟨_, s3, _, s4, er, C3.count.symm.trans k3, e4⟩

end

end Verif.Props
