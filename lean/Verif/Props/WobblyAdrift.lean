import Verif.Lemmas.WobblyAdrift
import Verif.Props.WobblyTugDouble

/-! # A mesh that nothing holds, in double precision (C145) -/

namespace Verif.Props

open Spec Outcome Wobbly Wobbly.Rounded

section

variable {R : Rounding64} {r : ℝ → ℝ} {p : Pt} {w h : ℝ} {x : Settings} {b : ℕ} {ops : List Op} {s : State} {rs : List Res} {M : ℝ}

/-- What a history without anchors at its end leaves. -/
theorem released_facts (e : run r (Rounded.new r p w h x b) ops = .ok (s, rs)) (h0 : owned [] ops rs = []) :
    ¬ s.active ∧ (∀ i, s.locks i = 0) ∧ (∀ i, (s.springs.map (endsAt i)).sum ≤ 4) ∧ ¬ dangling s.springs s.live ∧ OnMesh s.springs ∧
      (∀ z ∈ baseEdges, ∃ x ∈ s.springs, x.a = .mesh z.1 ∧ x.b = .mesh z.2.1) ∧ s.springs.length ≤ 24 ∧ s.live = [] := by
  have B := run_book e
  have hc : s.count = 0 := by
    rw [(C126_tracking e).1, h0]
    rfl
  have hl : s.live = [] := by
    have : s.count = s.live.length := B.inv.count
    rw [hc] at this
    exact List.length_eq_zero_iff.1 this.symm
  have he : Ends (flat s) := B.ends.frame keeps_id (by simp [flat]) rfl rfl
  have hd : ¬ dangling s.springs s.live := by
    intro hd
    obtain ⟨a, ha, -⟩ := (dangling_iff_stolen B.inv he).1 hd
    have ha' : a ∈ s.live := ha
    rw [hl] at ha'
    cases ha'
  have hp : s.pending = [] := loose_none B (run_loose e) hd
  have W : Web (flat s) := web_of_ends B.inv he hp
  have hm : OnMesh s.springs := by
    intro z hz
    have ok : ∀ n : Node, n.alive s.live → ∃ i, n = .mesh i := by
      intro n hn
      cases n with
      | mesh i => exact ⟨i, rfl⟩
      | anchor k =>
        rw [hl] at hn
        simp [Node.alive, anchorData] at hn
    by_contra hcon
    refine hd ⟨z, hz, fun hh => hcon ⟨ok _ hh.1, ok _ hh.2⟩⟩
  refine ⟨?_, fun i => ?_, fun i => Web.degree (s := flat s) B.inv W i, hd, hm, fun z hz => ?_, ?_, hl⟩
  · rw [(C126_tracking e).2, h0]
    norm_num
  · rw [(C126_locks e i).1, heldBy, hl]
    rfl
  · rcases W.edges (s := flat s) B.inv hz with h | ⟨⟨y, hy, h1, -⟩, -⟩
    · exact h
    · obtain ⟨⟨i, hi⟩, -⟩ := hm y hy
      rw [hi] at h1
      exact absurd rfl h1
  · have := web_length (s := flat s) B.inv hp
    have hl' : (flat s).live = [] := hl
    rw [hl'] at this
    exact this

/-- A tick every 16 milliseconds: a `Step` over `t` milliseconds takes `t / 16` of them, rounded up. -/
def ticksIn (ts : List ℕ) : ℕ := (ts.map fun t => (t + 15) / 16).sum

theorem ticksIn_eq (ts : List ℕ) : ticks ts = ticksIn ts := by
  unfold ticks ticksIn
  congr 1
  refine List.map_congr_left fun t _ => ?_
  have := stepCount_eq t
  omega

theorem adrift_at (hM : 1 ≤ M) (hM' : M ≤ 2 ^ 190) (R : Rounding64) (e : run r (Rounded.new r p w h x b) ops = .ok (s, rs))
    (h0 : owned [] ops rs = []) (hk : 1 / 10 ≤ s.settings.springConstant) (hk' : s.settings.springConstant ≤ 10)
    (hf : 1 / 10 ≤ s.settings.friction) (hf' : s.settings.friction ≤ 10) (hs : AllWithin M s) :
    ∃ S, Gathers s.springs (s.settings.springConstant / 30) (s.settings.friction / 15) S ∧
      ∀ f, Agrees R f → ∀ n ≤ 2 ^ 33, Adrift S M n (restIter f s.env ⟨s.pos, s.vel⟩ n) := by
  obtain ⟨-, hlk, hdeg, -, hm, hjoin, -, -⟩ := released_facts e h0
  obtain ⟨S, hS⟩ := exists_gathers hm hdeg hjoin (c := s.settings.springConstant / 30) (γ := s.settings.friction / 15)
    (by linarith) (by linarith) (by linarith) (by linarith)
  refine ⟨S, hS, fun f hf2 n hn => ?_⟩
  have F : Fine f (2 ^ 46 * M) := by
    have := hf2.fine (M := 2 * M) (by linarith) (by
      calc 2 * M ≤ 2 * 2 ^ 190 := by linarith
        _ = (2 : ℝ) ^ (1 + 190) := by rw [pow_add, pow_one]
        _ ≤ _ := pow_le_pow_right₀ (by norm_num) (by omega))
    have e1 : (2 : ℝ) ^ 45 * (2 * M) = 2 ^ 46 * M := by ring
    rw [e1] at this
    exact this
  exact adrift_iter hM F (e := s.env) hm hlk hdeg (show 0 ≤ s.settings.springConstant by linarith) hk' hf hf' hs.2.2 hS
    (adrift_start hM hS hs.1 hs.2.1) n hn

/-- **C145.** A model of which no anchor is owned any more is stepped in double precision. For `2 ^ 33` ticks, more than four
years, every call returns, all positions stay within `2 ^ 46 * M` and all velocities within `2 ^ 37 * M`, where `M` bounds
positions, velocities and the lengths of springs at the beginning, whatever rounding does beyond `2 ^ 500`. -/
theorem C145_bounded (hr : Agrees R r) (e : run r (Rounded.new r p w h x b) ops = .ok (s, rs)) (h0 : owned [] ops rs = [])
    (hk : 1 / 10 ≤ s.settings.springConstant) (hk' : s.settings.springConstant ≤ 10)
    (hf : 1 / 10 ≤ s.settings.friction) (hf' : s.settings.friction ≤ 10)
    {M : ℝ} (hM : 1 ≤ M) (hM' : M ≤ 2 ^ 190) (hs : AllWithin M s) (ts : List ℕ) (ht : ticksIn ts < 2 ^ 33) :
    ∃ s' rs', run r s (ts.map .step) = .ok (s', rs') ∧
      ∀ i, Within (2 ^ 46 * M) (s'.pos i) ∧ Within (2 ^ 37 * M) (s'.vel i) := by
  obtain ⟨ha, -, -, hd, -, -, -, -⟩ := released_facts e h0
  obtain ⟨S, hS, H⟩ := adrift_at hM hM' R e h0 hk hk' hf hf' hs
  obtain ⟨u, rs', er⟩ := Rounded.steps_inactive (r := r) ha hd ts
  rw [ticksIn_eq] at er
  exact ⟨_, rs', er, fun i => (H r hr _ ht.le).within hM hS ht i⟩

/-- **C145.** Nothing overflows on the way: whatever rounding does beyond `2 ^ 500`, the calls give the same. -/
theorem C145_no_overflow (hr : Agrees R r) (e : run r (Rounded.new r p w h x b) ops = .ok (s, rs)) (h0 : owned [] ops rs = [])
    (hk : 1 / 10 ≤ s.settings.springConstant) (hk' : s.settings.springConstant ≤ 10)
    (hf : 1 / 10 ≤ s.settings.friction) (hf' : s.settings.friction ≤ 10)
    {M : ℝ} (hM : 1 ≤ M) (hM' : M ≤ 2 ^ 190) (hs : AllWithin M s) (ts : List ℕ) (ht : ticksIn ts < 2 ^ 33) :
    run r s (ts.map .step) = run R.rnd s (ts.map .step) := by
  obtain ⟨ha, -, -, hd, -, -, hlen, hl⟩ := released_facts e h0
  obtain ⟨S, hS, H⟩ := adrift_at hM hM' R e h0 hk hk' hf hf' hs
  have M0 : 0 ≤ M := by linarith
  have hround : ∀ n < 2 ^ 33, springRound r s.env (restIter R.rnd s.env ⟨s.pos, s.vel⟩ n) =
      springRound R.rnd s.env (restIter R.rnd s.env ⟨s.pos, s.vel⟩ n) := by
    intro n hn
    have W := fun i => (H R.rnd (agrees_self R) n hn.le).within hM hS hn i
    have e1 : (2 : ℝ) ^ 45 * (2 * M) = 2 ^ 46 * M := by ring
    have b1 : (2 : ℝ) ^ 37 * M ≤ 2 ^ 46 * M := mul_le_mul_of_nonneg_right (by norm_num) M0
    refine spring_agrees hr (M := 2 * M) ?_ (e := s.env) (show s.springs.length ≤ 64 by omega)
      (show 0 ≤ s.settings.springConstant by linarith) hk' (show 0 ≤ s.settings.friction by linarith) hf'
      (fun z hz => ⟨(hs.2.2 z hz).1.trans (by linarith), (hs.2.2 z hz).2.trans (by linarith)⟩) (fun k => ?_)
      (fun i => by rw [e1]; exact (W i).1) (fun i => by rw [e1]; exact ⟨(W i).2.1.trans b1, (W i).2.2.trans b1⟩)
    · calc 2 * M ≤ 2 * 2 ^ 190 := by linarith
        _ = (2 : ℝ) ^ (1 + 190) := by rw [pow_add, pow_one]
        _ ≤ _ := pow_le_pow_right₀ (by norm_num) (by omega)
    · show Within _ (apos s.live k)
      rw [hl]
      simpa [apos, anchorData, Within] using M0
  exact steps_alike ha hd ts fun k hk => hround k (lt_trans (by rw [← ticksIn_eq]; exact hk) ht)

end

/-! The hypotheses can be met: a model of 300 by 300 is grabbed at a corner, the corner is dragged away, and let go of. -/

example (R : Rounding64) (b : ℕ) : ∃ ops s rs, run R.rnd (Rounded.new R.rnd ⟨0, 0⟩ 300 300 ⟨8, 5, 500⟩ b) ops = .ok (s, rs) ∧
    owned [] ops rs = [] ∧ s.settings = ⟨8, 5, 500⟩ ∧ AllWithin (2 ^ 12) s ∧ (s.pos 0).x ≤ -100 ∧
    ticksIn [16, 16, 1000, 16] < 2 ^ 33 := by
  obtain ⟨s1, e1, hp, hv, ht, -, -, hs, hsp, hl, hc, hn, hk⟩ :=
    whole_grab R (b := b) (x := ⟨8, 5, 500⟩) (by norm_num) (by norm_num) 0
  have hpos : ∀ i, Small 9 (s1.pos i) := by
    intro i
    rw [hp]
    have c1 := col_grid.nonneg i
    have c2 := col_grid.le i
    have r1 := row_grid.nonneg i
    have r2 := row_grid.le i
    unfold wholeMesh
    constructor <;> simp only [] <;> rw [abs_le] <;> norm_num <;> constructor <;> linarith
  have hadd := (ag_add (agrees_self R) (hpos 0) (q := ⟨-200, -200⟩) (by constructor <;> norm_num)).2
  let s2 : State := { s1 with
    targets := fun i => Rounded.add R.rnd (s1.targets i) ⟨-200, -200⟩
    pos := Function.update s1.pos 0 (Rounded.add R.rnd (s1.pos 0) ⟨-200, -200⟩) }
  have hact : s1.active := hc
  have e2 : exec R.rnd s1 (.moveAnchor 0 ⟨-200, -200⟩) = .ok (s2, .none) := by
    have hf : s1.live.find? (fun a => decide (a.hid = 0)) = some ⟨0, .grab 0⟩ := by
      rw [hl]
      simp
    simp only [exec, Rounded.moveAnchor, hf, if_pos hact]
    rfl
  have hl2 : s2.live = [⟨0, .grab 0⟩] := hl
  obtain ⟨s3, e3, f1, f2, f3, f4⟩ : ∃ s3, exec R.rnd s2 (.release 0) = .ok (s3, .none) ∧ s3.settings = s2.settings ∧ s3.pos = s2.pos ∧
      s3.vel = s2.vel ∧ s3.springs = s2.springs := by
    have hlk : s2.locks 0 ≠ 0 := by
      show s1.locks 0 ≠ 0
      rw [hk]
      simp
    have hc2 : s2.count = 1 := hc
    simp only [exec, Rounded.release, hl2, List.find?_cons_of_pos, decide_true, State.releaseKind, State.unlock, if_neg hlk, bind_ok,
      Rounded.deactivate, hc2]
    norm_num
  have er : run R.rnd (Rounded.new R.rnd ⟨0, 0⟩ 300 300 ⟨8, 5, 500⟩ b)
      [.grab (wholeMesh 0), .moveAnchor 0 ⟨-200, -200⟩, .release 0] = .ok (s3, [.handle 0, .none, .none]) := by
    simp only [run, e1, e2, e3, bind_ok]
  refine ⟨_, s3, _, er, rfl, f1.trans hs, ⟨fun i => ?_, fun i => ?_, fun z hz => ?_⟩, ?_, by norm_num [ticksIn]⟩
  · rw [f2]
    show Within _ (Function.update s1.pos 0 _ i)
    by_cases hi : i = 0
    · subst hi
      rw [Function.update_self]
      exact hadd.up (by omega)
    · rw [Function.update_of_ne hi]
      exact (hpos i).up (by omega)
  · rw [f3]
    show Within _ (s1.vel i)
    rw [hv]
    simp [Within]
  · rw [f4] at hz
    have hz' : z ∈ s1.springs := hz
    rw [hsp] at hz'
    unfold baseSprings at hz'
    obtain ⟨e, -, rfl⟩ := List.mem_map.1 hz'
    dsimp only
    split_ifs <;> constructor <;> norm_num
  · rw [f2]
    show (Function.update s1.pos 0 (Rounded.add R.rnd (s1.pos 0) ⟨-200, -200⟩) 0).x ≤ -100
    rw [Function.update_self, hp]
    show R.rnd (100 * col 0 + -200) ≤ -100
    have h0 : ((100 : ℝ) * col 0 + -200) = -200 := by simp [col]
    rw [h0]
    have F := (agrees_self R).fine (M := 1) le_rfl (one_le_pow₀ (by norm_num)) (-200) (by norm_num)
    rw [abs_le] at F
    norm_num at F
    linarith [F.2]

end Verif.Props
