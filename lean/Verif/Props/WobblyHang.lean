import Verif.Lemmas.WobblyOscillator
import Verif.Props.WobblySteps

/-! # Wobbly: calls that never return (C41) -/

namespace Verif.Props

open Wobbly Spec Outcome

variable {p : Pt} {w h : ℝ} {x : Settings} {b : ℕ} {ops : List Op} {rs : List Res} {s : State}

theorem run_snoc {s s1 s2 : State} {ops : List Op} {op : Op} {rs : List Res} {r : Res} (e1 : s.run ops = .ok (s1, rs))
    (e2 : s1.exec op = .ok (s2, r)) : s.run (ops ++ [op]) = .ok (s2, rs ++ [r]) := by
  rw [run_append, e1, bind_ok]
  simp only [State.run, e2, bind_ok]

theorem allAlong_of {P : State → Op → Prop} (hP : ∀ op ∈ ops, ∀ s, P s op) (s : State) : AllAlong P s ops := by
  induction ops generalizing s with
  | nil => trivial
  | cons op ops ih =>
    exact ⟨hP op (by simp) s, fun s' _ _ => ih (fun o ho => hP o (List.mem_cons_of_mem _ ho)) s'⟩

/-- Without inserted anchors the full integration does what `Step` does. -/
theorem neverSettles_history (e : (State.new p w h x b).run ops = .ok (s, rs))
    (hr : AllAlong ResizeAllowed (State.new p w h x b) ops) (hn : NoneInserted s) (hl : s.live.length ≠ 1)
    (hm : ∀ n, settleMore s.settleEnv ⟨s.pos, s.vel⟩ n) : NeverSettles s := by
  have hI := inv_run e
  have hB := baseLen_run hr e
  refine neverSettles_of ((not_active_iff e).1 hl) (fine_of_perm (springs_perm hI hB hn)) (fun n => ?_)
  have := hm n
  unfold settleMore at this ⊢
  rw [settleIter_congr (springStep_settleEnv hI hB hn), springStep_settleEnv hI hB hn] at this
  exact this

/-! ## Two points held apart -/

theorem stretched_core (e : (State.new p w h x b).run ops = .ok (s, rs)) {k l : ℕ} {i j : Idx}
    (hi : (⟨k, .grab i⟩ : Live) ∈ s.live) (hj : (⟨l, .grab j⟩ : Live) ∈ s.live)
    (hd : 6 ≤ |(s.pos j).x - (s.pos i).x - ((col j : ℝ) - col i) * (s.width / 3)| ∨
      6 ≤ |(s.pos j).y - (s.pos i).y - ((row j : ℝ) - row i) * (s.height / 3)|) :
    s.live.length ≠ 1 ∧ ∀ n, settleMore s.settleEnv ⟨s.pos, s.vel⟩ n := by
  constructor
  · intro h1
    obtain ⟨a, ha⟩ := List.length_eq_one_iff.1 h1
    rw [ha, List.mem_singleton] at hi hj
    have : i = j := by
      have h2 := hi.trans hj.symm
      simp only [Live.mk.injEq, Kind.grab.injEq] at h2
      exact h2.2
    subst this
    norm_num at hd
  · have ht : s.tile = ⟨s.width / 3, s.height / 3⟩ := by
      unfold State.tile
      norm_num
    exact stretched_hangs (e := s.settleEnv) (tile := s.tile) (q := ⟨s.pos, s.vel⟩) rfl
      ((C46_locks_count e i).2.2 ⟨_, hi, rfl⟩) ((C46_locks_count e j).2.2 ⟨_, hj, rfl⟩) (by rw [ht]; exact hd)

/-- **C41 (negation).** After any history, if two mesh points are held by live grabs and their horizontal or vertical
offset differs by six pixels or more from what it is in the regular lattice (points are numbered row by row, four to a row),
then `MoveModelTo` and `ResizeModel` never return. -/
theorem C41_stretched_anchors (e : (State.new p w h x b).run ops = .ok (s, rs)) (hw : s.width ≠ 0) (hh : s.height ≠ 0)
    {k l : ℕ} {i j : Idx} (hi : (⟨k, .grab i⟩ : Live) ∈ s.live) (hj : (⟨l, .grab j⟩ : Live) ∈ s.live)
    (hd : 6 ≤ |(s.pos j).x - (s.pos i).x - (((j.val % 4 : ℕ) : ℝ) - (i.val % 4 : ℕ)) * (s.width / 3)| ∨
      6 ≤ |(s.pos j).y - (s.pos i).y - (((j.val / 4 : ℕ) : ℝ) - (i.val / 4 : ℕ)) * (s.height / 3)|) : SettlingHangs s := by
  obtain ⟨h1, h2⟩ := stretched_core e hi hj hd
  exact hang_of hw hh ((not_active_iff e).1 h1) h2

/-- **C41 (negation).** In the same situation `Step` never answers that the model is at rest, unless anchors were
inserted. -/
theorem C41_stretched_never_rests (e : (State.new p w h x b).run ops = .ok (s, rs))
    (hr : AllAlong ResizeAllowed (State.new p w h x b) ops) (hn : NoneInserted s)
    {k l : ℕ} {i j : Idx} (hi : (⟨k, .grab i⟩ : Live) ∈ s.live) (hj : (⟨l, .grab j⟩ : Live) ∈ s.live)
    (hd : 6 ≤ |(s.pos j).x - (s.pos i).x - (((j.val % 4 : ℕ) : ℝ) - (i.val % 4 : ℕ)) * (s.width / 3)| ∨
      6 ≤ |(s.pos j).y - (s.pos i).y - (((j.val / 4 : ℕ) : ℝ) - (i.val / 4 : ℕ)) * (s.height / 3)|) : NeverSettles s := by
  obtain ⟨h1, h2⟩ := stretched_core e hi hj hd
  exact neverSettles_history e hr hn h1 h2

/-- Holding these points, without the state in between. -/
theorem hold_points (p : Pt) {w h : ℝ} (x : Settings) (b : ℕ) (hw : w ≠ 0) (hh : h ≠ 0)
    (hz : ∀ i, Representable ((State.new p w h x b).pos i)) (js : List Idx) :
    ∃ s rs, (State.new p w h x b).run (js.map fun i => .grab ((State.new p w h x b).pos i)) = .ok (s, rs) ∧
      Holding (State.new p w h x b) s js :=
  hold_new (new_atRest p w h x b) (new_injective hw hh) hz rfl rfl rfl (fun _ => rfl) js

/-- **C41 (negation).** Any model, with any settings: grab two mesh points and move one of them by six pixels. All
these calls return. From then on `MoveModelTo` and `ResizeModel` never return, and `Step` always answers that
something moves. -/
theorem C41_two_fingers (p : Pt) {w h : ℝ} (x : Settings) (b : ℕ) (hw : w ≠ 0) (hh : h ≠ 0)
    (hz : ∀ i, Representable ((State.new p w h x b).pos i)) {i j : Idx} (hij : i ≠ j) {d : Pt}
    (hd : 6 ≤ |d.x| ∨ 6 ≤ |d.y|) :
    ∃ s rs, (State.new p w h x b).run [.grab ((State.new p w h x b).pos i), .grab ((State.new p w h x b).pos j),
        .moveAnchor 0 d] = .ok (s, rs) ∧ SettlingHangs s ∧ NeverSettles s := by
  obtain ⟨s2, rs2, e2, hH⟩ := hold_points p x b hw hh hz [i, j]
  have hl : s2.live = [⟨0, .grab i⟩, ⟨1, .grab j⟩] := hH.live
  have e3 := moveAnchor_grab_inactive (s := s2) (k := 0) (i := i) (d := d) (by rw [hH.count]; simp)
    (by rw [hl]; rfl)
  have e := run_snoc e2 e3
  set s : State := { s2 with pos := Function.update s2.pos i (s2.pos i + d) } with hs
  have hli : (⟨0, .grab i⟩ : Live) ∈ s.live := by
    show (_ : Live) ∈ s2.live
    rw [hl]
    simp
  have hlj : (⟨1, .grab j⟩ : Live) ∈ s.live := by
    show (_ : Live) ∈ s2.live
    rw [hl]
    simp
  have hsw : s.width = w := hH.size.1
  have hsh : s.height = h := hH.size.2
  have hpi : s.pos i = positionArray p ⟨w / (4 - 1), h / (4 - 1)⟩ i + d := by
    show Function.update s2.pos i (s2.pos i + d) i = _
    rw [Function.update_self, hH.pos]
    rfl
  have hpj : s.pos j = positionArray p ⟨w / (4 - 1), h / (4 - 1)⟩ j := by
    show Function.update s2.pos i (s2.pos i + d) j = _
    rw [Function.update_of_ne (Ne.symm hij), hH.pos]
    rfl
  have hdist : 6 ≤ |(s.pos j).x - (s.pos i).x - ((col j : ℝ) - col i) * (s.width / 3)| ∨
      6 ≤ |(s.pos j).y - (s.pos i).y - ((row j : ℝ) - row i) * (s.height / 3)| := by
    rw [hpi, hpj, hsw, hsh]
    simp only [positionArray, Pt.add_x, Pt.add_y]
    have e1 : p.x + col j * (w / (4 - 1)) - (p.x + col i * (w / (4 - 1)) + d.x) - ((col j : ℝ) - col i) * (w / 3) = -d.x := by
      norm_num
      ring
    have e2 : p.y + row j * (h / (4 - 1)) - (p.y + row i * (h / (4 - 1)) + d.y) - ((row j : ℝ) - row i) * (h / 3) = -d.y := by
      norm_num
      ring
    rw [e1, e2, abs_neg, abs_neg]
    exact hd
  refine ⟨s, _, e, C41_stretched_anchors e (by rw [hsw]; exact hw) (by rw [hsh]; exact hh) hli hlj hdist,
    C41_stretched_never_rests e (allAlong_of (fun op hop s' => ?_) _) ?_ hli hlj hdist⟩
  · simp only [List.map_cons, List.map_nil, List.cons_append, List.nil_append, List.mem_cons, List.not_mem_nil,
      or_false] at hop
    rcases hop with rfl | rfl | rfl <;> trivial
  · intro a ha
    have ha' : a ∈ s2.live := ha
    rw [hl] at ha'
    simp only [List.mem_cons, List.not_mem_nil, or_false] at ha'
    rcases ha' with rfl | rfl <;> rintro ⟨_, _, _, _, h⟩ <;> simp at h

example : (300 : ℝ) ≠ 0 ∧ (∀ i, Representable ((State.new ⟨0, 0⟩ 300 300 defaultSettings 0).pos i)) ∧
    ((0 : Idx) ≠ 15) ∧ 6 ≤ |(⟨-10, 0⟩ : Pt).x| := ⟨by norm_num, demo_rep, by decide, by norm_num [abs_of_pos]⟩

/-! ## Weak springs -/

/-- A motionless mesh whose springs are too weak to move anything although one is stretched. -/
theorem too_weak {s : State} {p : Pt} {disp : Idx → Pt} (hp : ∀ i, s.pos i = positionArray p s.tile i + disp i)
    (hv : ∀ i, s.vel i = 0)
    (hf : ∀ i, |lineForce s.settings.springConstant (fun j => (disp j).x) i| < 3 / 2 ∧
      |lineForce s.settings.springConstant (fun j => (disp j).y) i| < 3 / 2)
    (hz : ∃ z ∈ baseEdges, ¬ (|(disp z.2.1).x - (disp z.1).x| < 1 ∧ |(disp z.2.1).y - (disp z.1).y| < 1)) (n : ℕ) :
    settleMore s.settleEnv ⟨s.pos, s.vel⟩ n := by
  refine stuck_forever (stuck hv fun i _ => ?_) (Or.inl ?_) n
  · have := force_disp (e := s.settleEnv) (b := s.lastId) s.settings.springConstant hp i
    have h1 : (calculateForces s.settleEnv.k (s.settleEnv.at_ s.pos) s.settleEnv.springs).1 (.mesh i) =
        (baseEdges.map (edgeForce s.settings.springConstant disp i)).sum := this
    simp only
    rw [h1, lineForce_x, lineForce_y]
    exact hf i
  · exact (more_disp (e := s.settleEnv) (b := s.lastId) s.settings.springConstant hp).2 hz

theorem pull_one (k : ℝ) : pull k 1 = k / 2 := by simp [pull]

theorem pull_minus_one (k : ℝ) : pull k (-1) = -(k / 2) := by rw [pull_neg, pull_one]

theorem lineForce_zero (k : ℝ) (i : Idx) : lineForce k (fun _ => 0) i = 0 := by
  unfold lineForce
  simp [pull_zero]

theorem corner_force (k : ℝ) (hk : |k| < 3 / 2) (i : Idx) : |lineForce k (fun j => if j = 0 then 1 else 0) i| < 3 / 2 := by
  rw [abs_lt] at hk ⊢
  unfold lineForce
  rw [baseEdges_list]
  fin_cases i <;> simp [pull_zero, pull_one, pull_minus_one] <;> constructor <;> linarith [hk.1, hk.2]

theorem row_force (k : ℝ) (hk : |k| < 3) (i : Idx) :
    |lineForce k (fun j => if j.val < 4 then -1 else 0) i| < 3 / 2 := by
  rw [abs_lt] at hk ⊢
  unfold lineForce
  rw [baseEdges_list]
  fin_cases i <;> simp [pull_zero, pull_one, pull_minus_one] <;> constructor <;> linarith [hk.1, hk.2]

/-- A release that leaves no anchor. -/
theorem release_last {s : State} {k : ℕ} {i : Idx} (hl : s.live = [⟨k, .grab i⟩]) (hk : s.locks i ≠ 0) (hc : s.count = 1) :
    s.exec (.release k) = .ok ({ unlocked ({ s with live := [] } : State) i with count := 0 }, .none) := by
  simp only [State.exec, State.release, hl]
  simp only [List.find?_cons, decide_true, State.releaseKind, State.unlock]
  rw [if_neg hk]
  simp only [bind_ok, State.deactivate, hc]
  rw [if_neg one_ne_zero, if_neg (by norm_num), bind_ok]
  have hfl : ([⟨k, .grab i⟩] : List Live).filter (fun b => decide (b.hid ≠ k)) = [] := by simp
  rw [hfl]
  simp only [unlocked]

/-- **C41 (negation).** With a spring constant below 1.5 (the documented range starts at 0.1): grab the corner of any
model, move it by one pixel, release it. These calls return and no anchor is left. From then on `MoveModelTo`,
`ResizeModel`, `InsertAnchor` and `GrabAnchor` never return, and `Step` always answers that something moves. -/
theorem C41_weak_springs (p : Pt) {w h : ℝ} (x : Settings) (b : ℕ) (hw : w ≠ 0) (hh : h ≠ 0)
    (hz : ∀ i, Representable ((State.new p w h x b).pos i)) (hp : Representable (p + ⟨1, 0⟩))
    (hk : |x.springConstant| < 3 / 2) :
    ∃ s rs, (State.new p w h x b).run [.grab p, .moveAnchor 0 ⟨1, 0⟩, .release 0] = .ok (s, rs) ∧ s.live = [] ∧
      SettlingHangs s ∧ NeverSettles s ∧ (∀ q, s.exec (.insert q) = .diverges) ∧
      ∀ q, Representable q → s.exec (.grab q) = .diverges := by
  set m := State.new p w h x b with hm
  have hR : AtRest m := new_atRest p w h x b
  have hp0 : m.pos 0 = p := positionArray_zero _ _
  obtain ⟨i, t, n, hi, e1, -, -⟩ := grab_atRest hR hz (hz 0)
  rw [closest_at (new_injective hw hh) hz 0] at hi
  simp only [Option.some.injEq] at hi
  subst hi
  set s1 := grabbed m 0 t n with hs1
  have e2 : s1.exec (.moveAnchor 0 ⟨1, 0⟩) = .ok ({ s1 with
      targets := fun i => s1.targets i + ⟨1, 0⟩
      pos := Function.update s1.pos 0 (s1.pos 0 + ⟨1, 0⟩) }, .none) := by
    simp only [State.exec, State.moveAnchor]
    have hf : s1.live.find? (fun a => decide (a.hid = 0)) = some ⟨0, .grab 0⟩ := rfl
    rw [hf]
    simp only
    have ha : s1.active := rfl
    rw [if_pos ha]
  set s2 : State := { s1 with
      targets := fun i => s1.targets i + ⟨1, 0⟩
      pos := Function.update s1.pos 0 (s1.pos 0 + ⟨1, 0⟩) } with hs2
  have hlock : s2.locks 0 = 1 := rfl
  have e3 := release_last (s := s2) (k := 0) (i := 0) rfl (by rw [hlock]; norm_num) rfl
  set s3 : State := { unlocked ({ s2 with live := [] } : State) 0 with count := 0 } with hs3
  have e1' : m.exec (.grab p) = .ok (s1, .handle 0) := by rw [← hp0]; exact e1
  have e : m.run [.grab p, .moveAnchor 0 ⟨1, 0⟩, .release 0] = .ok (s3, [.handle 0, .none, .none]) := by
    simp only [State.run, e1', e2, e3, bind_ok]
  have hpos : ∀ i, s3.pos i = positionArray p s3.tile i + (if i = 0 then ⟨1, 0⟩ else 0) := by
    intro i
    show Function.update m.pos 0 (m.pos 0 + ⟨1, 0⟩) i = positionArray p m.tile i + _
    by_cases hi : i = 0
    · subst hi
      rw [Function.update_self, if_pos rfl]
      rfl
    · rw [Function.update_of_ne hi, if_neg hi]
      show positionArray p m.tile i = _
      ext <;> simp
  have hmore : ∀ n, settleMore s3.settleEnv ⟨s3.pos, s3.vel⟩ n := by
    refine too_weak hpos (fun _ => rfl) (fun i => ?_) ⟨(0, 1, false), by rw [baseEdges_list]; decide, ?_⟩
    · have hkk : s3.settings.springConstant = x.springConstant := rfl
      rw [hkk]
      have h1 : (fun j : Idx => ((if j = 0 then ⟨1, 0⟩ else 0 : Pt)).x) = fun j => if j = 0 then 1 else 0 := by
        funext j
        split_ifs <;> rfl
      have h2 : (fun j : Idx => ((if j = 0 then ⟨1, 0⟩ else 0 : Pt)).y) = fun _ => 0 := by
        funext j
        split_ifs <;> rfl
      rw [h1, h2, lineForce_zero]
      exact ⟨corner_force _ hk i, by norm_num⟩
    · simp
  have hset : s3.targetByFullIntegration = .diverges := settle_diverges.2 hmore
  have hact : ({ s3 with unequal := True } : State).activate = .diverges := by
    unfold State.activate
    simp only
    rw [if_pos (by rfl)]
    unfold State.recalc
    have : State.targetByFullIntegration { ({ s3 with unequal := True } : State) with count := s3.count + 1 } = .diverges := hset
    simp only at this ⊢
    rw [this]
    rfl
  refine ⟨s3, _, e, rfl, hang_of hw hh (by show (0 : ℕ) ≠ 1; norm_num) hmore,
    neverSettles_history e (allAlong_of (fun op hop s' => ?_) _) (noneInserted_nil rfl) (by simp [hs3, unlocked]) hmore,
    fun q => ?_, fun q hq => ?_⟩
  · simp only [List.mem_cons, List.not_mem_nil, or_false] at hop
    rcases hop with rfl | rfl | rfl <;> trivial
  · simp only [State.exec, State.insert]
    rw [hact]
    rfl
  · have hrep : ∀ i, Representable (s3.pos i) := by
      intro i
      by_cases hi : i = 0
      · subst hi
        have : s3.pos 0 = p + ⟨1, 0⟩ := by
          show Function.update m.pos 0 (m.pos 0 + ⟨1, 0⟩) 0 = _
          rw [Function.update_self, hp0]
        rw [this]
        exact hp
      · have : s3.pos i = m.pos i := by
          show Function.update m.pos 0 (m.pos 0 + ⟨1, 0⟩) i = _
          rw [Function.update_of_ne hi]
        rw [this]
        exact hz i
    obtain ⟨i, hi, -⟩ := closest_of_representable hrep hq
    simp only [State.exec, State.grab, hi]
    rw [hact]
    rfl

example : (∀ i, Representable ((State.new ⟨0, 0⟩ 300 300 ⟨1, 3, 500⟩ 0).pos i)) ∧
    Representable (⟨0, 0⟩ + ⟨1, 0⟩ : Pt) ∧ |(⟨1, 3, 500⟩ : Settings).springConstant| < 3 / 2 :=
  ⟨demo_rep, rep_small (by norm_num) (by norm_num), by norm_num [abs_of_pos]⟩

/-- The four calls that push the top row up by one pixel. -/
theorem push_row {m s : State} (hH : Holding m s [0, 1, 2, 3]) :
    ∃ s', s.run [.moveAnchor 0 ⟨0, -1⟩, .moveAnchor 1 ⟨0, -1⟩, .moveAnchor 2 ⟨0, -1⟩, .moveAnchor 3 ⟨0, -1⟩] =
        .ok (s', [.none, .none, .none, .none]) ∧
      s' = { s with pos := fun i => m.pos i + (if i.val < 4 then ⟨0, -1⟩ else 0) } := by
  have hl : s.live = [⟨0, .grab 0⟩, ⟨1, .grab 1⟩, ⟨2, .grab 2⟩, ⟨3, .grab 3⟩] := hH.live
  have hc : s.count ≠ 1 := by rw [hH.count]; simp
  have one : ∀ (k : ℕ) (i : Idx) (P : Mesh), [(⟨0, .grab 0⟩ : Live), ⟨1, .grab 1⟩, ⟨2, .grab 2⟩, ⟨3, .grab 3⟩].find?
        (fun a => decide (a.hid = k)) = some ⟨k, .grab i⟩ →
      ({ s with pos := P } : State).exec (.moveAnchor k ⟨0, -1⟩) =
        .ok ({ s with pos := Function.update P i (P i + ⟨0, -1⟩) }, .none) := by
    intro k i P hf
    exact moveAnchor_grab_inactive (s := { s with pos := P }) hc (by rw [← hl] at hf; exact hf)
  have h0 := one 0 0 s.pos rfl
  have h1 := fun P => one 1 1 P rfl
  have h2 := fun P => one 2 2 P rfl
  have h3 := fun P => one 3 3 P rfl
  have h0' : s.exec (.moveAnchor 0 ⟨0, -1⟩) = .ok ({ s with pos := Function.update s.pos 0 (s.pos 0 + ⟨0, -1⟩) }, .none) := h0
  refine ⟨_, ?_, rfl⟩
  simp only [State.run, h0', h1, h2, h3, bind_ok, Outcome.ok.injEq, Prod.mk.injEq, and_true, State.mk.injEq, true_and]
  rw [hH.pos]
  funext i
  fin_cases i <;> simp [Function.update] <;> ext <;> simp

/-- **C41 (negation).** With a spring constant below 3: hold the four points of the top row, push each up by one
pixel and release two of them. These calls return. Releasing the third one, `MoveModelTo` and `ResizeModel` never
do, and `Step` always answers that something moves. -/
theorem C41_soft_springs (p : Pt) {w h : ℝ} (x : Settings) (b : ℕ) (hw : w ≠ 0) (hh : h ≠ 0)
    (hz : ∀ i, Representable ((State.new p w h x b).pos i)) (hk : |x.springConstant| < 3) :
    ∃ s rs, (State.new p w h x b).run ([0, 1, 2, 3].map (fun i => .grab ((State.new p w h x b).pos i)) ++
        [.moveAnchor 0 ⟨0, -1⟩, .moveAnchor 1 ⟨0, -1⟩, .moveAnchor 2 ⟨0, -1⟩, .moveAnchor 3 ⟨0, -1⟩,
         .release 0, .release 1]) = .ok (s, rs) ∧
      SettlingHangs s ∧ NeverSettles s ∧ s.exec (.release 2) = .diverges := by
  set m := State.new p w h x b with hm
  obtain ⟨s1, rs1, e1, hH⟩ := hold_points p x b hw hh hz [0, 1, 2, 3]
  obtain ⟨s2, e2, hs2⟩ := push_row hH
  have hl1 : s1.live = [⟨0, .grab 0⟩, ⟨1, .grab 1⟩, ⟨2, .grab 2⟩, ⟨3, .grab 3⟩] := hH.live
  have hl2 : s2.live = [⟨0, .grab 0⟩, ⟨1, .grab 1⟩, ⟨2, .grab 2⟩, ⟨3, .grab 3⟩] := by rw [hs2]; exact hl1
  have hlk : ∀ i, s2.locks i = [0, 1, 2, 3].count i := by rw [hs2]; exact hH.locks
  have hc2 : s2.count = 4 := by rw [hs2]; exact hH.count
  have e3 := release_grab_many (s := s2) (k := 0) (i := 0) (by rw [hl2]; rfl) (by rw [hlk]; decide) (by omega)
  set s3 : State := { unlocked ({ s2 with live := s2.live.filter fun a => a.hid ≠ 0 } : State) 0 with
    count := s2.count - 1 } with hs3
  have hl3 : s3.live = [⟨1, .grab 1⟩, ⟨2, .grab 2⟩, ⟨3, .grab 3⟩] := by
    show s2.live.filter _ = _
    rw [hl2]
    rfl
  have hlk3 : ∀ i, i ≠ 0 → s3.locks i = s2.locks i := fun i hi => by
    show Function.update s2.locks 0 (s2.locks 0 - 1) i = _
    rw [Function.update_of_ne hi]
  have hc3 : s3.count = 3 := by show s2.count - 1 = 3; omega
  have e4 := release_grab_many (s := s3) (k := 1) (i := 1) (by rw [hl3]; rfl)
    (by rw [hlk3 1 (by decide), hlk]; decide) (by omega)
  set s4 : State := { unlocked ({ s3 with live := s3.live.filter fun a => a.hid ≠ 1 } : State) 1 with
    count := s3.count - 1 } with hs4
  have hl4 : s4.live = [⟨2, .grab 2⟩, ⟨3, .grab 3⟩] := by
    show s3.live.filter _ = _
    rw [hl3]
    rfl
  have hc4 : s4.count = 2 := by show s3.count - 1 = 2; omega
  have hlk4 : s4.locks 2 ≠ 0 := by
    have : s4.locks 2 = s2.locks 2 := by
      show Function.update s3.locks 1 (s3.locks 1 - 1) 2 = _
      rw [Function.update_of_ne (by decide), hlk3 2 (by decide)]
    rw [this, hlk]
    decide
  have hpos : ∀ i, s4.pos i = positionArray p m.tile i + (if i.val < 4 then ⟨0, -1⟩ else 0) := by
    intro i
    show s2.pos i = _
    rw [hs2]
    rfl
  have htile : s4.tile = m.tile := by
    show s2.tile = _
    rw [hs2]
    simp only [State.tile, hH.size]
    rfl
  have hvel : ∀ i, s4.vel i = 0 := by
    intro i
    show s2.vel i = 0
    rw [hs2]
    simp only
    rw [hH.vel]
    rfl
  have hset : s4.settings = x := by
    show s2.settings = x
    rw [hs2]
    exact hH.settings
  have hweak : ∀ z : State, z.pos = s4.pos → z.vel = s4.vel → z.width = s4.width → z.height = s4.height →
      z.settings = s4.settings → ∀ n, settleMore z.settleEnv ⟨z.pos, z.vel⟩ n := by
    intro z h1 h2 h3 h4 h5
    have hzt : z.tile = m.tile := by
      rw [← htile]
      simp only [State.tile, h3, h4]
    refine too_weak (p := p) (disp := fun i => if i.val < 4 then ⟨0, -1⟩ else 0) (fun i => by rw [h1, hzt]; exact hpos i)
      (fun i => by rw [h2]; exact hvel i) (fun i => ?_) ⟨(0, 4, true), by rw [baseEdges_list]; decide, by simp⟩
    rw [h5, hset]
    have h1 : (fun j : Idx => ((if j.val < 4 then ⟨0, -1⟩ else 0 : Pt)).x) = fun _ => 0 := by
      funext j
      split_ifs <;> rfl
    have h2 : (fun j : Idx => ((if j.val < 4 then ⟨0, -1⟩ else 0 : Pt)).y) = fun j => if j.val < 4 then -1 else 0 := by
      funext j
      split_ifs <;> rfl
    rw [h1, h2, lineForce_zero]
    exact ⟨by norm_num, row_force _ hk i⟩
  have e : m.run ([0, 1, 2, 3].map (fun i => .grab (m.pos i)) ++
        [.moveAnchor 0 ⟨0, -1⟩, .moveAnchor 1 ⟨0, -1⟩, .moveAnchor 2 ⟨0, -1⟩, .moveAnchor 3 ⟨0, -1⟩,
         .release 0, .release 1]) = .ok (s4, rs1 ++ [.none, .none, .none, .none] ++ [.none] ++ [.none]) := by
    have h := run_snoc (run_snoc (ops := [0, 1, 2, 3].map (fun i => .grab (m.pos i)) ++
        [.moveAnchor 0 ⟨0, -1⟩, .moveAnchor 1 ⟨0, -1⟩, .moveAnchor 2 ⟨0, -1⟩, .moveAnchor 3 ⟨0, -1⟩])
        (rs := rs1 ++ [.none, .none, .none, .none]) (s := m) (s1 := s2) (by
      rw [run_append, e1, bind_ok]
      simp only
      rw [e2, bind_ok]) e3) e4
    exact h
  have hw4 : s4.width = w := by
    show s2.width = w
    rw [hs2]
    exact hH.size.1
  have hh4 : s4.height = h := by
    show s2.height = h
    rw [hs2]
    exact hH.size.2
  refine ⟨s4, _, e, hang_of (by rw [hw4]; exact hw) (by rw [hh4]; exact hh) (by rw [hc4]; norm_num)
      (hweak s4 rfl rfl rfl rfl rfl),
    neverSettles_history e (allAlong_of (fun op hop s' => ?_) _) ?_ (by rw [hl4]; simp) (hweak s4 rfl rfl rfl rfl rfl), ?_⟩
  · simp only [List.map_cons, List.map_nil, List.cons_append, List.nil_append, List.mem_cons, List.not_mem_nil,
      or_false] at hop
    rcases hop with rfl | rfl | rfl | rfl | rfl | rfl | rfl | rfl | rfl | rfl <;> trivial
  · intro a ha
    rw [hl4] at ha
    simp only [List.mem_cons, List.not_mem_nil, or_false] at ha
    rcases ha with rfl | rfl <;> rintro ⟨_, _, _, _, h⟩ <;> simp at h
  · simp only [State.exec, State.release]
    have hf : s4.live.find? (fun a => decide (a.hid = 2)) = some ⟨2, .grab 2⟩ := by rw [hl4]; rfl
    rw [hf]
    simp only [State.releaseKind, State.unlock]
    rw [if_neg hlk4]
    simp only [bind_ok, State.deactivate]
    rw [if_neg (by omega), if_pos (by omega)]
    have key : ∀ z : State, z.pos = s4.pos → z.vel = s4.vel → z.width = s4.width → z.height = s4.height →
        z.settings = s4.settings → z.recalc = .diverges := by
      intro z h1 h2 h3 h4 h5
      unfold State.recalc State.targetByFullIntegration
      rw [settle_diverges.2 (hweak z h1 h2 h3 h4 h5)]
      rfl
    rw [key]
    all_goals rfl

example : |(⟨2.9, 3, 500⟩ : Settings).springConstant| < 3 := by norm_num [abs_of_pos]

/-! ## Default settings -/

/-- **C41 (negation).** With the default spring constant and friction: hold the four neighbours of an inner point and
the point itself, move the point by one pixel (anything up to 1.03), release it. These calls return. From then on the
point swings between its neighbours for ever: `MoveModelTo` and `ResizeModel` never return, and `Step` always answers
that something moves. -/
theorem C41_default_settings (p : Pt) {w h : ℝ} (x : Settings) (b : ℕ) (hw : w ≠ 0) (hh : h ≠ 0)
    (hz : ∀ i, Representable ((State.new p w h x b).pos i)) (hk : x.springConstant = 8) (hf : x.friction = 3)
    {y : ℝ} (hy1 : 1 ≤ y) (hy2 : y ≤ 1.03) :
    ∃ s rs, (State.new p w h x b).run ([1, 4, 6, 9, 5].map (fun i => .grab ((State.new p w h x b).pos i)) ++
        [.moveAnchor 4 ⟨y, 0⟩, .release 4]) = .ok (s, rs) ∧ SettlingHangs s ∧ NeverSettles s := by
  set m := State.new p w h x b with hm
  obtain ⟨s1, rs1, e1, hH⟩ := hold_points p x b hw hh hz [1, 4, 6, 9, 5]
  have hl1 : s1.live = [⟨0, .grab 1⟩, ⟨1, .grab 4⟩, ⟨2, .grab 6⟩, ⟨3, .grab 9⟩, ⟨4, .grab 5⟩] := hH.live
  have hc1 : s1.count = 5 := hH.count
  have e2 := moveAnchor_grab_inactive (s := s1) (k := 4) (i := 5) (d := ⟨y, 0⟩) (by omega) (by rw [hl1]; rfl)
  set s2 : State := { s1 with pos := Function.update s1.pos 5 (s1.pos 5 + ⟨y, 0⟩) } with hs2
  have hlk2 : ∀ i, s2.locks i = [1, 4, 6, 9, 5].count i := hH.locks
  have e3 := release_grab_many (s := s2) (k := 4) (i := 5) (by show s1.live.find? _ = _; rw [hl1]; rfl)
    (by rw [hlk2]; decide) (by show 3 ≤ s1.count; omega)
  set s3 : State := { unlocked ({ s2 with live := s2.live.filter fun a => a.hid ≠ 4 } : State) 5 with
    count := s2.count - 1 } with hs3
  have hl3 : s3.live = [⟨0, .grab 1⟩, ⟨1, .grab 4⟩, ⟨2, .grab 6⟩, ⟨3, .grab 9⟩] := by
    show s1.live.filter _ = _
    rw [hl1]
    rfl
  have hc3 : s3.count = 4 := by show s1.count - 1 = 4; omega
  have hlk3 : ∀ i, i ≠ 5 → s3.locks i = [1, 4, 6, 9, 5].count i := fun i hi => by
    show Function.update s2.locks 5 (s2.locks 5 - 1) i = _
    rw [Function.update_of_ne hi, hlk2]
  have hlk5 : s3.locks 5 = 0 := by
    show Function.update s2.locks 5 (s2.locks 5 - 1) 5 = _
    rw [Function.update_self, hlk2]
    decide
  have htile : s3.tile = m.tile := by
    show s1.tile = _
    simp only [State.tile, hH.size]
    rfl
  have hq : (⟨s3.pos, s3.vel⟩ : Phys) = oscPhys p s3.tile (y, 0) := by
    rw [htile]
    ext1
    · funext i
      show Function.update s1.pos 5 (s1.pos 5 + ⟨y, 0⟩) i = positionArray p m.tile i + oneOff y i
      rw [hH.pos]
      by_cases hi : i = 5
      · subst hi
        rw [Function.update_self]
        simp only [oneOff, if_true]
        rfl
      · rw [Function.update_of_ne hi]
        simp only [oneOff, if_neg hi]
        show positionArray p m.tile i = _
        ext <;> simp
    · funext i
      show s1.vel i = oneOff 0 i
      rw [hH.vel]
      unfold oneOff
      split_ifs <;> rfl
  have hmore : ∀ n, settleMore s3.settleEnv ⟨s3.pos, s3.vel⟩ n := by
    rw [hq]
    have hset : s3.settings = x := hH.settings
    have hpos : ∀ i, i ≠ 5 → 0 < [1, 4, 6, 9, 5].count i → s3.settleEnv.locks i > 0 := fun i h1 h2 =>
      lt_of_lt_of_eq h2 (hlk3 i h1).symm
    refine osc_settles_never (e := s3.settleEnv) (b := s3.lastId) ?_ ?_ rfl (hpos 1 (by decide) (by decide))
      (hpos 4 (by decide) (by decide)) (hpos 6 (by decide) (by decide)) (hpos 9 (by decide) (by decide)) hlk5 hy1 hy2
    · show s3.settings.springConstant = 8
      rw [hset, hk]
    · show s3.settings.friction = 3
      rw [hset, hf]
  have e := run_snoc (run_snoc e1 e2) e3
  rw [List.append_assoc] at e
  refine ⟨s3, _, e, hang_of (by show s1.width ≠ 0; rw [hH.size.1]; exact hw) (by show s1.height ≠ 0; rw [hH.size.2]; exact hh)
      (by rw [hc3]; norm_num) hmore,
    neverSettles_history e (allAlong_of (fun op hop s' => ?_) _) ?_ (by rw [hl3]; simp) hmore⟩
  · simp only [List.map_cons, List.map_nil, List.cons_append, List.nil_append, List.mem_cons, List.not_mem_nil,
      or_false] at hop
    rcases hop with rfl | rfl | rfl | rfl | rfl | rfl | rfl <;> trivial
  · intro a ha
    rw [hl3] at ha
    simp only [List.mem_cons, List.not_mem_nil, or_false] at ha
    rcases ha with rfl | rfl | rfl | rfl <;> rintro ⟨_, _, _, _, h⟩ <;> simp at h

example : defaultSettings.springConstant = 8 ∧ defaultSettings.friction = 3 ∧ (1 : ℝ) ≤ 1.01 ∧ (1.01 : ℝ) ≤ 1.03 := by
  norm_num [defaultSettings]

/-! ## When the calls do return -/

/-- **C41 (partial).** On a resting model `MoveModelTo`, `ResizeModel` (from and to positive sizes), `GrabAnchor` (with
representable coordinates) and every release of an anchor return. Missing: models in motion. -/
theorem C41_rest_returns_partial (e : (State.new p w h x b).run ops = .ok (s, rs)) {q0 : Pt} (hq : RestsAt q0 s) :
    (∀ q, ∃ r, s.exec (.moveTo q) = .ok r) ∧
    (0 < s.width → 0 < s.height → ∀ w' h', 0 < w' → 0 < h' → ∃ r, s.exec (.resize w' h') = .ok r) ∧
    ((∀ i, Representable (s.pos i)) → ∀ q, Representable q → ∃ r, s.exec (.grab q) = .ok r) ∧
    ∀ k, ∃ r, s.exec (.release k) = .ok r := by
  have hR := (atRest_of hq).1
  have ht : ∃ z, s.targetPosition = .ok z := by
    by_cases ha : s.active
    · unfold State.targetPosition
      rw [if_pos ha]
      exact ⟨_, rfl⟩
    · exact ⟨_, hR.targetPosition ha⟩
  obtain ⟨z, hz⟩ := ht
  refine ⟨fun q => ?_, fun hw hh w' h' hw' hh' => ?_, fun hz q hq => ?_, fun k => ?_⟩
  · simp only [State.exec, State.moveTo]
    rw [hz]
    exact ⟨_, rfl⟩
  · simp only [State.exec, State.resize]
    rw [if_neg (by simp [hw', hh']), if_neg (by simp [hw.ne', hh.ne']), hz]
    split_ifs
    · exact ⟨_, rfl⟩
    · exact ⟨_, rfl⟩
  · obtain ⟨i, t, n, -, h, -⟩ := grab_atRest hR hz hq
    exact ⟨_, h⟩
  · rcases C46_no_underflow e k with h | h
    · exact h
    · exfalso
      have hno : ∀ (z : State) (g : State → Outcome (State × Res)), z.deactivate.bind g = .diverges →
          (∀ y, g y ≠ .diverges) → z.pos = s.pos → z.vel = s.vel → z.width = s.width → z.height = s.height → False := by
        intro z g hd hg h1 h2 h3 h4
        have hz : AtRest z := ⟨by simp only [h1, State.tile, h3, h4]; exact hR.pos, by rw [h2]; exact hR.vel⟩
        by_cases hc : z.count = 0
        · unfold State.deactivate at hd
          rw [if_pos hc] at hd
          simp [Outcome.bind] at hd
        · obtain ⟨t, n, ht, -⟩ := hz.deactivate hc
          rw [ht, bind_ok] at hd
          exact hg _ hd
      simp only [State.exec, State.release] at h
      cases hf : s.live.find? (fun a => decide (a.hid = k)) with
      | none =>
        rw [hf] at h
        simp at h
      | some a =>
        rw [hf] at h
        simp only at h
        cases hk : a.kind with
        | grab i =>
          rw [hk] at h
          simp only [State.releaseKind, State.unlock] at h
          by_cases hl : s.locks i = 0
          · rw [if_pos hl] at h
            simp [Outcome.bind] at h
          · rw [if_neg hl, bind_ok] at h
            exact hno _ _ h (by simp) rfl rfl rfl rfl
        | ins q st f g =>
          rw [hk] at h
          simp only [State.releaseKind, bind_ok] at h
          rw [removeTracked_eq, removeTracked_eq, replace_eq] at h
          exact hno _ _ h (by simp) rfl rfl rfl rfl

example : RestsAt ⟨0, 0⟩ demo := by
  have := (new_atRest ⟨0, 0⟩ 300 300 defaultSettings 0).restsAt
  have h0 : (State.new ⟨0, 0⟩ 300 300 defaultSettings 0).pos 0 = ⟨0, 0⟩ := positionArray_zero _ _
  rwa [h0] at this

/-- **C41 (partial).** With a spring constant of at least 3, the full integration never gets stuck in a motionless
state of a model without anchors: if a `Step (16)` changes no position and no velocity, it answers that nothing moves,
and `MoveModelTo` returns. Missing: that motion ends when friction is large enough (it need not, see
`C41_nothing_held`). -/
theorem C41_no_frozen_state_partial (e : (State.new p w h x b).run ops = .ok (s, rs))
    (hr : AllAlong ResizeAllowed (State.new p w h x b) ops) (hl : s.live = []) (hk : 3 ≤ s.settings.springConstant)
    {s' : State} {m : Prop} (es : s.exec (.step 16) = .ok (s', .more m)) (hp : s'.pos = s.pos) (hv : s'.vel = s.vel) :
    ¬ m ∧ ∀ q, ∃ r, s.exec (.moveTo q) = .ok r := by
  have hI := inv_run e
  have hB := baseLen_run hr e
  have hn := noneInserted_nil hl
  have hna : ¬ s.active := (not_active_iff e).1 (by rw [hl]; simp)
  have hfine := fine_of_perm (springs_perm hI hB hn)
  have h16 : stepCount 16 = 1 := by rw [stepCount_eq]
  have hfix : (springStep s.env ⟨s.pos, s.vel⟩).1 = ⟨s.pos, s.vel⟩ ∧ (m ↔ (springStep s.env ⟨s.pos, s.vel⟩).2) := by
    simp only [State.exec, State.step] at es
    rw [if_neg (fun h => hfine h.2), h16] at es
    simp only [State.integrate, round_inactive hna, bind_ok, Outcome.ok.injEq, Prod.mk.injEq, Res.more.injEq] at es
    obtain ⟨h1, h2⟩ := es
    rw [← h1] at hp hv
    simp only at hp hv
    rw [if_neg (fun h => hna h.2)] at hp
    refine ⟨?_, ?_⟩
    · ext1
      · exact hp
      · exact hv
    · rw [← h2]
      simp
  rw [← springStep_settleEnv hI hB hn] at hfix
  have hnot := not_frozen (e := s.settleEnv) (tile := s.tile) rfl hk (fun i j hi _ => by
    have hi' : s.locks i > 0 := hi
    rw [(C46_locks_count e i).2, hl] at hi'
    simp at hi') hfix.1
  refine ⟨fun hm => hnot (hfix.2.1 hm), fun q => ?_⟩
  have hset := settle_of (n := 0) (q := ⟨s.pos, s.vel⟩) (e := s.settleEnv) hnot (by simp)
  simp only [State.exec, State.moveTo, State.targetPosition]
  rw [if_neg hna]
  unfold State.targetByFullIntegration
  rw [hset]
  exact ⟨_, rfl⟩

/-- Such a model and such a `Step`. -/
example : 3 ≤ demo.settings.springConstant ∧ ∃ s' : State, demo.exec (.step 16) = .ok (s', .more False) ∧
    s'.pos = demo.pos ∧ s'.vel = demo.vel := by
  have hQ : Quiet demo := quiet_of_rest (b := 0) (List.Perm.refl _) (new_atRest _ _ _ _ _)
    (fun h => by simp [demo, State.new, State.active] at h)
  have := hQ.step 16
  simp only [ne_eq, OfNat.ofNat_ne_zero, not_false_eq_true, if_true] at this
  exact ⟨by norm_num [demo, State.new, defaultSettings], _, this, rfl, rfl⟩

end Verif.Props
