import Verif.Lemmas.WobblyBlock
import Verif.Props.WobblyHang

/-! Properties of `wobbly.h`, `wobbly.cpp` (C41): a model that nobody holds can swing for ever. -/

namespace Verif.Props

open Wobbly Spec Outcome

/-- The four calls that shift the points of the top left cell. -/
theorem shift_cell {m s : State} (hH : Holding m s [0, 1, 4, 5]) (y : ℝ) :
    s.run [.moveAnchor 0 ⟨y, 0⟩, .moveAnchor 1 ⟨-y, 0⟩, .moveAnchor 2 ⟨-y, 0⟩, .moveAnchor 3 ⟨y, 0⟩] =
        .ok ({ s with pos := fun i => m.pos i + ⟨block y i, 0⟩ }, [.none, .none, .none, .none]) := by
  have hl : s.live = [⟨0, .grab 0⟩, ⟨1, .grab 1⟩, ⟨2, .grab 4⟩, ⟨3, .grab 5⟩] := hH.live
  have hc : s.count ≠ 1 := by rw [hH.count]; simp
  have one : ∀ (k : ℕ) (i : Idx) (P : Mesh) (d : Pt), [(⟨0, .grab 0⟩ : Live), ⟨1, .grab 1⟩, ⟨2, .grab 4⟩, ⟨3, .grab 5⟩].find?
        (fun a => decide (a.hid = k)) = some ⟨k, .grab i⟩ →
      ({ s with pos := P } : State).exec (.moveAnchor k d) =
        .ok ({ s with pos := Function.update P i (P i + d) }, .none) := by
    intro k i P d hf
    exact moveAnchor_grab_inactive (s := { s with pos := P }) hc (by rw [← hl] at hf; exact hf)
  have h0 := one 0 0 s.pos ⟨y, 0⟩ rfl
  have h1 := fun P => one 1 1 P ⟨-y, 0⟩ rfl
  have h2 := fun P => one 2 4 P ⟨-y, 0⟩ rfl
  have h3 := fun P => one 3 5 P ⟨y, 0⟩ rfl
  have h0' : s.exec (.moveAnchor 0 ⟨y, 0⟩) = .ok ({ s with pos := Function.update s.pos 0 (s.pos 0 + ⟨y, 0⟩) }, .none) := h0
  simp only [State.run, h0', h1, h2, h3, bind_ok, Outcome.ok.injEq, Prod.mk.injEq, and_true, State.mk.injEq, true_and]
  rw [hH.pos]
  funext i
  fin_cases i <;> simp [Function.update, block] <;> ext <;> simp

/-- **C41 (negation).** Any model with spring constant 8 (the default) and friction 10: grab the four points of the
top left cell, pull them apart by about a pixel, release them and lower the friction to 0.5 (the documented range
starts at 0.05). These calls return and no anchor is left. From then on `MoveModelTo`, `ResizeModel`, `InsertAnchor`
and `GrabAnchor` never return, and `Step` always answers that something moves. -/
theorem C41_nothing_held (p : Pt) {w h : ℝ} (R : ℝ) (b : ℕ) (hw : w ≠ 0) (hh : h ≠ 0)
    (hz : ∀ i, Representable ((State.new p w h ⟨8, 10, R⟩ b).pos i)) {y : ℝ} (hy : 1 / 2 ≤ y) (hy' : y ≤ 0.619) :
    ∃ s rs, (State.new p w h ⟨8, 10, R⟩ b).run
        ([0, 1, 4, 5].map (fun i => .grab ((State.new p w h ⟨8, 10, R⟩ b).pos i)) ++
        [.moveAnchor 0 ⟨y, 0⟩, .moveAnchor 1 ⟨-y, 0⟩, .moveAnchor 2 ⟨-y, 0⟩, .moveAnchor 3 ⟨y, 0⟩,
         .release 3, .release 2, .release 1, .release 0, .setSettings ⟨8, 1 / 2, R⟩]) = .ok (s, rs) ∧
      s.live = [] ∧ SettlingHangs s ∧ NeverSettles s ∧ (∀ q, s.exec (.insert q) = .diverges) ∧
      ((∀ i, Representable (s.pos i)) → ∀ q, Representable q → s.exec (.grab q) = .diverges) := by
  norm_num at hy'
  set m := State.new p w h ⟨8, 10, R⟩ b with hm
  obtain ⟨s1, rs1, e1, hH⟩ := hold_points p ⟨8, 10, R⟩ b hw hh hz [0, 1, 4, 5]
  have e2 := shift_cell hH y
  have hl1 : s1.live = [⟨0, .grab 0⟩, ⟨1, .grab 1⟩, ⟨2, .grab 4⟩, ⟨3, .grab 5⟩] := hH.live
  have hlk : ∀ i, s1.locks i = [0, 1, 4, 5].count i := hH.locks
  have hc1 : s1.count = 4 := hH.count
  have hset1 : s1.settings = ⟨8, 10, R⟩ := hH.settings
  have htile1 : s1.tile = m.tile := by
    simp only [State.tile, hH.size]
    rfl
  have hvel1 : ∀ i, s1.vel i = 0 := fun i => by rw [hH.vel]; rfl
  set s2 : State := { s1 with pos := fun i => m.pos i + ⟨block y i, 0⟩ } with hs2
  have hl2 : s2.live = [⟨0, .grab 0⟩, ⟨1, .grab 1⟩, ⟨2, .grab 4⟩, ⟨3, .grab 5⟩] := hl1
  have hlk2 : ∀ i, s2.locks i = [0, 1, 4, 5].count i := hlk
  have e3 := release_grab_many (s := s2) (k := 3) (i := 5) (by rw [hl2]; rfl) (by rw [hlk2]; decide)
    (by show 3 ≤ s1.count; omega)
  set s3 : State := { unlocked ({ s2 with live := s2.live.filter fun a => a.hid ≠ 3 } : State) 5 with
    count := s2.count - 1 } with hs3
  have hl3 : s3.live = [⟨0, .grab 0⟩, ⟨1, .grab 1⟩, ⟨2, .grab 4⟩] := by
    show s2.live.filter _ = _
    rw [hl2]
    rfl
  have hlk3 : ∀ i, s3.locks i = [0, 1, 4].count i := fun i => by
    show Function.update s2.locks 5 (s2.locks 5 - 1) i = _
    have : s2.locks = fun i => [0, 1, 4, 5].count i := funext hlk2
    rw [this]
    revert i
    decide
  have hc3 : s3.count = 3 := by show s1.count - 1 = 3; omega
  have e4 := release_grab_many (s := s3) (k := 2) (i := 4) (by rw [hl3]; rfl) (by rw [hlk3]; decide) (by omega)
  set s4 : State := { unlocked ({ s3 with live := s3.live.filter fun a => a.hid ≠ 2 } : State) 4 with
    count := s3.count - 1 } with hs4
  have hl4 : s4.live = [⟨0, .grab 0⟩, ⟨1, .grab 1⟩] := by
    show s3.live.filter _ = _
    rw [hl3]
    rfl
  have hlk4 : ∀ i, s4.locks i = [0, 1].count i := fun i => by
    show Function.update s3.locks 4 (s3.locks 4 - 1) i = _
    have : s3.locks = fun i => [0, 1, 4].count i := funext hlk3
    rw [this]
    revert i
    decide
  have hc4 : s4.count = 2 := by show s3.count - 1 = 2; omega
  have hphys : (⟨s4.pos, s4.vel⟩ : Phys) = cornerPhys p m.tile (2 * y, 0) := by
    unfold cornerPhys slid
    ext1
    · funext i
      show m.pos i + _ = positionArray p m.tile i + _
      simp only [mul_div_cancel_left₀ y (two_ne_zero' ℝ)]
      rfl
    · funext i
      show s1.vel i = _
      rw [hvel1]
      simp [block]
      rfl
  have hlk5 : ∀ i, (unlocked s4 1).locks i = [0].count i := fun i => by
    show Function.update s4.locks 1 (s4.locks 1 - 1) i = _
    have : s4.locks = fun i => [0, 1].count i := funext hlk4
    rw [this]
    revert i
    decide
  obtain ⟨t, ht⟩ := held_settles (e := (unlocked s4 1).settleEnv) (p := p) (tile := m.tile) (b := s4.lastId) (d := 2 * y)
    (by show s1.settings.springConstant = 8; rw [hset1])
    (by show s1.settings.friction = 10; rw [hset1])
    (by show baseSprings s1.tile _ = _; rw [htile1]; rfl)
    (by show (unlocked s4 1).locks 0 > 0; rw [hlk5]; decide)
    (by
      intro i hi
      show ¬ (unlocked s4 1).locks i > 0
      rw [hlk5]
      revert i
      decide)
    (by linarith) (by norm_num; linarith)
  rw [← hphys] at ht
  have e5 := release_grab_two_of (s := s4) (k := 1) (i := 1) (by rw [hl4]; rfl) (by rw [hlk4]; decide) hc4 ht
  set s5 : State := { unlocked ({ s4 with live := s4.live.filter fun a => a.hid ≠ 1 } : State) 1 with
      count := 1
      targets := positionArray t s4.tile
      lastId := s4.lastId + springCount } with hs5
  have hl5 : s5.live = [⟨0, .grab 0⟩] := by
    show s4.live.filter _ = _
    rw [hl4]
    rfl
  have hlk6 : ∀ i, s5.locks i = [0].count i := hlk5
  have e6 := release_last (s := s5) (k := 0) (i := 0) hl5 (by rw [hlk6]; decide) rfl
  set s6 : State := { unlocked ({ s5 with live := [] } : State) 0 with count := 0 } with hs6
  have e7 : s6.exec (.setSettings ⟨8, 1 / 2, R⟩) = .ok ({ s6 with settings := ⟨8, 1 / 2, R⟩ }, .none) := rfl
  set s7 : State := { s6 with settings := ⟨8, 1 / 2, R⟩ } with hs7
  have e : m.run ([0, 1, 4, 5].map (fun i => .grab (m.pos i)) ++
        [.moveAnchor 0 ⟨y, 0⟩, .moveAnchor 1 ⟨-y, 0⟩, .moveAnchor 2 ⟨-y, 0⟩, .moveAnchor 3 ⟨y, 0⟩,
         .release 3, .release 2, .release 1, .release 0, .setSettings ⟨8, 1 / 2, R⟩]) =
        .ok (s7, rs1 ++ [.none, .none, .none, .none] ++ [.none] ++ [.none] ++ [.none] ++ [.none] ++ [.none]) := by
    have h := run_snoc (run_snoc (run_snoc (run_snoc (run_snoc (ops := [0, 1, 4, 5].map (fun i => .grab (m.pos i)) ++
        [.moveAnchor 0 ⟨y, 0⟩, .moveAnchor 1 ⟨-y, 0⟩, .moveAnchor 2 ⟨-y, 0⟩, .moveAnchor 3 ⟨y, 0⟩])
        (rs := rs1 ++ [.none, .none, .none, .none]) (s := m) (s1 := s2) (by
      rw [run_append, e1, bind_ok]
      simp only
      rw [e2, bind_ok]) e3) e4) e5) e6) e7
    exact h
  have hlock7 : ∀ i, ¬ s7.locks i > 0 := fun i => by
    show ¬ Function.update s5.locks 0 (s5.locks 0 - 1) i > 0
    have : s5.locks = fun i => [0].count i := funext hlk6
    rw [this]
    revert i
    decide
  have hmore : ∀ n, settleMore s7.settleEnv ⟨s7.pos, s7.vel⟩ n := by
    have h7 : (⟨s7.pos, s7.vel⟩ : Phys) = cornerPhys p m.tile (2 * y, 0) := hphys
    rw [h7]
    refine corner_settles_never (e := s7.settleEnv) (b := s7.lastId) ?_ hlock7 fun n => ?_
    · show baseSprings s1.tile _ = _
      rw [htile1]
    · exact corner_forever n (by linarith) (by norm_num; linarith)
  have hset : s7.targetByFullIntegration = .diverges := settle_diverges.2 hmore
  have hact : ({ s7 with unequal := True } : State).activate = .diverges := by
    unfold State.activate
    simp only
    rw [if_pos (by rfl)]
    unfold State.recalc
    have : State.targetByFullIntegration { ({ s7 with unequal := True } : State) with count := s7.count + 1 } = .diverges := hset
    simp only at this ⊢
    rw [this]
    rfl
  have hw7 : s7.width = w := hH.size.1
  have hh7 : s7.height = h := hH.size.2
  refine ⟨s7, _, e, rfl, hang_of (by rw [hw7]; exact hw) (by rw [hh7]; exact hh) (by show (0 : ℕ) ≠ 1; norm_num) hmore,
    neverSettles_history e (allAlong_of (fun op hop s' => ?_) _) (noneInserted_nil rfl) (by
      show ([] : List Live).length ≠ 1
      simp) hmore,
    fun q => ?_, fun hrep q hq => ?_⟩
  · simp only [List.map_cons, List.map_nil, List.cons_append, List.nil_append, List.mem_cons, List.not_mem_nil,
      or_false] at hop
    rcases hop with rfl | rfl | rfl | rfl | rfl | rfl | rfl | rfl | rfl | rfl | rfl | rfl | rfl <;> trivial
  · simp only [State.exec, State.insert]
    rw [hact]
    rfl
  · obtain ⟨i, hi, -⟩ := closest_of_representable hrep hq
    simp only [State.exec, State.grab, hi]
    rw [hact]
    rfl

example : (300 : ℝ) ≠ 0 ∧ (∀ i, Representable ((State.new ⟨0, 0⟩ 300 300 ⟨8, 10, 500⟩ 0).pos i)) ∧
    (1 / 2 : ℝ) ≤ 0.6 ∧ (0.6 : ℝ) ≤ 0.619 := ⟨by norm_num, demo_rep, by norm_num, by norm_num⟩

end Verif.Props
