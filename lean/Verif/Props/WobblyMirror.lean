import Verif.Lemmas.WobblyMirror
import Verif.Lemmas.WobblyPull
import Verif.Props.WobblyFlip

/-! # A wobbly model treats left and right, above and below alike (C125) -/

namespace Verif.Props

open Wobbly Spec Outcome

noncomputable section

/-- **C125.** The same history seen in a mirror, on a model made where the first one is seen in the mirror, returns the same
values and leads to the first model seen in the mirror, or fails in the same way. This holds for mirrors that exchange left
and right, above and below, or both, wherever they stand, as long as grabs have one nearest point and the model would rest
evenly whenever it is asked where it would rest. What is gained in size moves the mirror on, so that the image keeps its top
left corner when it is resized. -/
theorem C125_mirror (fx fy : Bool) (c p : Pt) (w h : ℝ) (x : Settings) (b : ℕ) (ops : List Op)
    (hn : AllAlong (Unbiased fx fy) (State.new p w h x b) ops) :
    Matches (fun r r' => r'.2 = r.2 ∧ Mirrored fx fy ⟨c.x + (r.1.width - w), c.y + (r.1.height - h)⟩ r.1 r'.1)
      ((State.new p w h x b).run ops)
      ((State.new (mirrorCorner fx fy c w h p) w h x b).run (mirrorOps fx fy c w h ops)) := by
  have h1 := run_mir (c := c) (w := w) (v := h) ops (inv_new p w h x b) (mir_new p w h x b) rfl rfl hn
  cases hx : (State.new p w h x b).run ops <;> rw [hx] at h1 <;>
    cases hy : (State.new (mirrorCorner fx fy c w h p) w h x b).run (mirrorOps fx fy c w h ops) <;> rw [hy] at h1 <;>
    first
    | exact ⟨h1.1, mirrored_of h1.2⟩
    | exact h1.elim
    | trivial

/-- A model of 300 by 600 pixels that is grabbed near its corner, moved to a place, dragged, watched, made smaller and watched
again. -/
example (fx fy : Bool) (x : Settings) (b : ℕ) : AllAlong (Unbiased fx fy) (State.new ⟨0, 0⟩ 300 600 x b)
    [.grab ⟨10, 20⟩, .moveTo ⟨7, 8⟩, .moveAnchor 0 ⟨30, 5⟩, .step 16, .resize 200 300, .step 32] := by
  have key : ∀ i, (∀ k, euclid ⟨10, 20⟩ ((State.new ⟨0, 0⟩ 300 600 x b).pos i) ≤
      euclid ⟨10, 20⟩ ((State.new ⟨0, 0⟩ 300 600 x b).pos k)) → i = 0 := by
    intro i h
    have h0 := sq_le_of_euclid (h 0)
    rw [wide_pos, wide_pos] at h0
    norm_num [show col 0 = 0 from rfl, show row 0 = 0 from rfl] at h0
    have hc : col i = 0 := by
      by_contra hne
      have : (1 : ℝ) ≤ col i := by exact_mod_cast Nat.one_le_iff_ne_zero.2 hne
      nlinarith [sq_nonneg ((20 : ℝ) - row i * 200)]
    have hr : row i = 0 := by
      by_contra hne
      have : (1 : ℝ) ≤ row i := by exact_mod_cast Nat.one_le_iff_ne_zero.2 hne
      nlinarith [sq_nonneg ((10 : ℝ) - col i * 100)]
    have hz : ∀ i : Idx, col i = 0 → row i = 0 → i = 0 := by decide
    exact hz i hc hr
  refine ⟨⟨fun i j hi hj => (key i hi).trans (key j hj).symm, fun _ => (new_atRest _ _ _ _ _).evenly⟩, fun s r e => ?_⟩
  obtain ⟨i, t, n, -, -, -, rfl, -⟩ := grab_ok e
  refine ⟨fun h => absurd rfl h, fun s1 r1 e1 => ⟨trivial, fun s2 r2 e2 => ⟨trivial, fun s3 r3 e3 => ⟨?_, fun _ _ _ =>
    ⟨trivial, fun _ _ _ => trivial⟩⟩⟩⟩⟩
  have c1 : s1.count = 1 := by
    simp only [State.exec, State.moveTo] at e1
    obtain ⟨z, hz, e1⟩ := size_of_bind e1
    unfold State.targetPosition at hz
    rw [if_pos (show (grabbed (State.new ⟨0, 0⟩ 300 600 x b) i t n).active from rfl)] at hz
    cases hz
    cases e1
    rfl
  have c2 : s2.count = 1 := by
    simp only [State.exec, State.moveAnchor] at e2
    split at e2
    · cases e2; exact c1
    · split at e2 <;> cases e2 <;> exact c1
  have c3 : s3.count = 1 := by
    simp only [State.exec, State.step] at e3
    by_cases hd : stepCount 16 ≠ 0 ∧ dangling s2.springs s2.live
    · rw [if_pos hd] at e3
      cases e3
    rw [if_neg hd] at e3
    obtain ⟨z, hz, he⟩ := size_of_bind e3
    cases he
    exact c2
  exact fun h => absurd c3 h

/-- **C125.** What `DeformTexcoords` returns is seen in the mirror too. Its first argument goes with the rows of the mesh,
from above to below. -/
theorem C125_reading {fx fy : Bool} {c : Pt} {s s' : State} (h : Mirrored fx fy c s s') (u v : ℝ) :
    deformTexcoords s'.pos ⟨if fy then 1 - u else u, if fx then 1 - v else v⟩ =
      mirrorPt fx fy c (deformTexcoords s.pos ⟨u, v⟩) :=
  deform_mir h.pos u v

/-- **C125.** A model that lies still in its regular mesh rests evenly, in every mirror. -/
theorem C125_rest_is_even (fx fy : Bool) {p : Pt} {s : State} (h : RestsAt p s) : RestsEvenly fx fy s :=
  (atRest_of h).1.evenly

example (x : Settings) (b : ℕ) : RestsAt ⟨5, 7⟩ (State.new ⟨5, 7⟩ 300 600 x b) := by
  have := (new_atRest ⟨5, 7⟩ 300 600 x b).restsAt
  have h0 : (State.new ⟨5, 7⟩ 300 600 x b).pos 0 = ⟨5, 7⟩ := by ext <;> simp [State.new, positionArray, row, col]
  rwa [h0] at this

/-- Holding two points of a new model, moving the first by half a pixel sideways and letting it go again: where the other
point is held, the model comes to rest where its top left point is. -/
theorem nudged_back (p : Pt) {w h : ℝ} (x : Settings) (b : ℕ) (hw : w ≠ 0) (hh : h ≠ 0)
    (hz : ∀ i, Representable ((State.new p w h x b).pos i)) (hr : 1 < x.maximumRange) {i j : Idx} (hij : i ≠ j) {d : ℝ}
    (hd : |d| = 1 / 2) :
    ∃ s rs, (State.new p w h x b).run [.grab ((State.new p w h x b).pos i), .grab ((State.new p w h x b).pos j),
        .moveAnchor 0 ⟨d, 0⟩, .release 0, .step 16] = .ok (s, rs) ∧
      ∀ k, s.pos k = (State.new p w h x b).pos k + (if i = 0 then ⟨d, 0⟩ else 0 : Pt) := by
  set m := State.new p w h x b with hm
  obtain ⟨s1, rs1, e1, hH⟩ := hold_points p x b hw hh hz [i, j]
  have hl1 : s1.live = [⟨0, .grab i⟩, ⟨1, .grab j⟩] := hH.live
  have hc1 : s1.count = 2 := hH.count
  have e2 := moveAnchor_grab_inactive (s := s1) (k := 0) (i := i) (d := ⟨d, 0⟩) (by omega) (by rw [hl1]; rfl)
  set s2 : State := { s1 with pos := Function.update s1.pos i (s1.pos i + ⟨d, 0⟩) } with hs2
  have htile : s2.tile = m.tile := by
    show (⟨s1.width / _, s1.height / _⟩ : Pt) = _
    rw [hH.size.1, hH.size.2]
    rfl
  have hpos2 : ∀ k, s2.pos k = positionArray p m.tile k + (if k = i then ⟨d, 0⟩ else 0 : Pt) := by
    intro k
    show Function.update s1.pos i (s1.pos i + ⟨d, 0⟩) k = _
    rw [hH.pos]
    by_cases hk : k = i
    · subst hk
      rw [Function.update_self, if_pos rfl]
      rfl
    · rw [Function.update_of_ne hk, if_neg hk]
      show positionArray p m.tile k = _
      ext <;> simp
  have hvel2 : ∀ k, s2.vel k = 0 := fun k => by
    show s1.vel k = 0
    rw [hH.vel]
    rfl
  have hdead : ∀ (e : Env) (n : ℕ), ∀ y ∈ baseSprings m.tile n, InDeadZone (e.at_ s2.pos) y := by
    intro e n y hy
    simp only [baseSprings, List.mem_map] at hy
    obtain ⟨z, hz, rfl⟩ := hy
    unfold InDeadZone
    have := deviation_disp (e := e) (b := n) hpos2 hz
    rw [this]
    have h1 : ∀ a b : Idx, |((if a = i then ⟨d, 0⟩ else 0 : Pt) - (if b = i then ⟨d, 0⟩ else 0 : Pt)).x| < 1 ∧
        |((if a = i then ⟨d, 0⟩ else 0 : Pt) - (if b = i then ⟨d, 0⟩ else 0 : Pt)).y| < 1 := by
      intro a b
      split_ifs <;> simp [hd] <;> norm_num
    exact h1 _ _
  have hlk : ∀ k, s2.locks k = [i, j].count k := hH.locks
  have e3 := release_grab_two (s := s2) (k := 0) (i := i) (by show s1.live.find? _ = _; rw [hl1]; rfl)
    (by rw [hlk]; simp) hc1 (by rw [htile]; exact hdead _ _) hvel2
  set s3 : State := { unlocked ({ s2 with live := s2.live.filter fun a => a.hid ≠ 0 } : State) i with
      count := 1
      targets := positionArray (s2.pos 0) s2.tile
      lastId := s2.lastId + springCount } with hs3
  have h3a : s3.active := rfl
  have h3s : s3.springs = baseSprings m.tile b := hH.springs
  have h3x : s3.settings = x := hH.settings
  have h3p : s3.pos = s2.pos := rfl
  have h3t : ∀ k, s3.targets k = positionArray p m.tile k + (if i = 0 then ⟨d, 0⟩ else 0 : Pt) := by
    intro k
    show positionArray (s2.pos 0) s2.tile k = _
    rw [htile, hpos2]
    by_cases hi : i = 0
    · rw [if_pos hi.symm, if_pos hi]
      ext <;> simp [positionArray, row, col] <;> ring
    · rw [if_neg (fun e => hi e.symm), if_neg hi]
      ext <;> simp [positionArray, row, col]
  have hin : ∀ k, Pt.distance (s3.targets k) (s3.pos k) < s3.settings.maximumRange := by
    intro k
    rw [h3x]
    refine lt_of_le_of_lt (Pt.distance_le _ _) ?_
    rw [h3t, h3p, hpos2]
    have : ∀ (P Q : Prop) [Decidable P] [Decidable Q] (a : Pt), |(a + (if P then ⟨d, 0⟩ else 0 : Pt)).x -
        (a + (if Q then ⟨d, 0⟩ else 0 : Pt)).x| + |(a + (if P then ⟨d, 0⟩ else 0 : Pt)).y -
        (a + (if Q then ⟨d, 0⟩ else 0 : Pt)).y| ≤ 1 := by
      intro P Q _ _ a
      split_ifs <;> simp [hd] <;> norm_num
    exact lt_of_le_of_lt (this _ _ _) hr
  have hround : s3.round ⟨s3.pos, s3.vel⟩ = .ok (⟨s3.pos, s3.vel⟩, False) := by
    have hco : constrain s3.settings.maximumRange s3.targets s3.pos = .ok (s3.pos, False) := by
      unfold constrain
      rw [if_neg (by rintro ⟨k, hk, -⟩; exact hk (hin k))]
      congr 2
      · funext k
        rw [if_pos (hin k)]
      · simp only [eq_iff_iff, iff_false]
        rintro ⟨k, hk⟩
        exact hk (hin k)
    have hss : springStep s3.env ⟨s3.pos, s3.vel⟩ = (⟨s3.pos, s3.vel⟩, False) := by
      refine springStep_rest ?_ hvel2
      intro y hy
      have hy' : y ∈ s3.springs := hy
      rw [h3s] at hy'
      exact hdead _ _ _ hy'
    unfold State.round
    rw [if_pos h3a]
    simp only [hco, bind_ok, hss, or_self]
  have e4 : ∃ s4 y, s3.exec (.step 16) = .ok (s4, y) ∧ s4.pos = s3.targets := by
    have hnd : ¬ (stepCount 16 ≠ 0 ∧ dangling s3.springs s3.live) := by
      rw [h3s]
      exact fun k => not_dangling_base k.2
    have hsc : stepCount 16 = 1 := by rw [stepCount_eq]
    simp only [State.exec, State.step]
    rw [if_neg hnd, hsc]
    simp only [State.integrate, hround, bind_ok]
    refine ⟨_, _, rfl, ?_⟩
    simp [h3a]
  obtain ⟨s4, y, e4, h4⟩ := e4
  refine ⟨s4, _, run_snoc (run_snoc (run_snoc e1 e2) e3) e4, fun k => ?_⟩
  rw [h4, h3t]
  rfl

/-- **C125 (negation).** Otherwise the top left corner decides. A model of any size, in any place, that is its own image:
hold the top left and the bottom right point, move the first half a pixel to the right, let it go, `Step (16)`. The whole
window, with the point that is held, ends half a pixel further to the right. Do the same seen in the mirror: the window ends
where it was. -/
theorem C125_corner_decides (p : Pt) {w h : ℝ} (x : Settings) (b : ℕ) (hw : w ≠ 0) (hh : h ≠ 0)
    (hz : ∀ i, Representable ((State.new p w h x b).pos i)) (hr : 1 < x.maximumRange) :
    ∃ ops s s' rs rs', mirrorCorner true false ⟨2 * p.x + w, 0⟩ w h p = p ∧ (State.new p w h x b).run ops = .ok (s, rs) ∧
      (State.new p w h x b).run (mirrorOps true false ⟨2 * p.x + w, 0⟩ w h ops) = .ok (s', rs') ∧
      (∀ i, s.pos i = (State.new p w h x b).pos i + ⟨1 / 2, 0⟩) ∧ (∀ i, s'.pos i = (State.new p w h x b).pos i) := by
  obtain ⟨s, rs, e, hs⟩ := nudged_back p x b hw hh hz hr (i := 0) (j := 15) (by decide) (d := 1 / 2) (by norm_num)
  obtain ⟨s', rs', e', hs'⟩ := nudged_back p x b hw hh hz hr (i := 3) (j := 12) (by decide) (d := -(1 / 2))
    (by rw [abs_neg]; norm_num)
  refine ⟨_, s, s', rs, rs', ?_, e, ?_, fun i => ?_, fun i => ?_⟩
  · ext <;> simp [mirrorCorner]
    ring
  · rw [← e']
    congr 1
    have h0 : mirrorPt true false ⟨2 * p.x + w, 0⟩ ((State.new p w h x b).pos 0) = (State.new p w h x b).pos 3 := by
      ext <;> simp [mirrorPt, State.new, positionArray, row, col]
      ring
    have h15 : mirrorPt true false ⟨2 * p.x + w, 0⟩ ((State.new p w h x b).pos 15) = (State.new p w h x b).pos 12 := by
      ext <;> simp [mirrorPt, State.new, positionArray, row, col]
      ring
    simp only [mirrorOps, mirrorOp, h0, h15, mirrorVec]
    simp
  · rw [hs, if_pos rfl]
  · rw [hs', if_neg (by decide)]
    ext <;> simp

/-- The springs of a new model and where they begin and end, in a square of side `3 t`. -/
theorem square_edge {p : Pt} {t : ℝ} {x : Settings} {b : ℕ} {y : Spring} (hy : y ∈ (State.new p (3 * t) (3 * t) x b).springs) :
    ∃ e ∈ baseEdges, y.a = .mesh e.1 ∧ y.b = .mesh e.2.1 := by
  have hy' : y ∈ baseSprings ⟨3 * t / (4 - 1), 3 * t / (4 - 1)⟩ b := hy
  simp only [baseSprings, List.mem_map] at hy'
  obtain ⟨⟨e, n⟩, he, rfl⟩ := hy'
  exact ⟨e, (List.mem_zipIdx he).2.2 ▸ List.getElem_mem _, rfl, rfl⟩

theorem square_edge' (p : Pt) (t : ℝ) (x : Settings) (b : ℕ) {e : Idx × Idx × Bool} (he : e ∈ baseEdges) :
    ∃ y ∈ (State.new p (3 * t) (3 * t) x b).springs, y.a = .mesh e.1 ∧ y.b = .mesh e.2.1 := by
  obtain ⟨n, hn, rfl⟩ := List.mem_iff_getElem.1 he
  show ∃ y ∈ baseSprings _ b, _
  simp only [baseSprings, List.mem_map]
  refine ⟨_, ⟨(baseEdges[n], n), ?_, rfl⟩, rfl, rfl⟩
  rw [List.mk_mem_zipIdx_iff_getElem?]
  exact List.getElem?_eq_getElem hn

theorem square_pos (p : Pt) (t : ℝ) (x : Settings) (b : ℕ) (i : Idx) :
    (State.new p (3 * t) (3 * t) x b).pos i = ⟨p.x + col i * t, p.y + row i * t⟩ := by
  have : 3 * t / (4 - 1) = t := by ring
  ext <;> simp [State.new, positionArray, this]

/-- A square model is pulled at a place of its upper border a tenth of a tile away from point `i`, where `z` is the nearest
of the springs that begin at `i`. -/
theorem square_pull (p : Pt) {t : ℝ} (ht : 0 < t) (x : Settings) (b : ℕ)
    (hz : ∀ i, Representable ((State.new p (3 * t) (3 * t) x b).pos i)) {a d : ℝ}
    (hq : Representable ⟨p.x + a * t, p.y⟩) (hr : |d| < x.maximumRange) (hd : 1 ≤ |d|)
    (hv : 1 / 10 ≤ |x.springConstant * d / 30|) {e : Idx × Idx × Bool} (he : e ∈ baseEdges)
    (h1 : ∀ z ∈ baseEdges, z.1 ≠ e.1 →
      ((col e.1 : ℝ) - a) ^ 2 + (row e.1 : ℝ) ^ 2 < ((col z.1 : ℝ) - a) ^ 2 + (row z.1 : ℝ) ^ 2)
    (h2 : ∀ z ∈ baseEdges, z.1 = e.1 → z.2.1 ≠ e.2.1 →
      ((col e.2.1 : ℝ) - a) ^ 2 + (row e.2.1 : ℝ) ^ 2 < ((col z.2.1 : ℝ) - a) ^ 2 + (row z.2.1 : ℝ) ^ 2) :
    ∃ s rs, (State.new p (3 * t) (3 * t) x b).run [.insert ⟨p.x + a * t, p.y⟩, .moveAnchor 0 ⟨0, d⟩, .step 16] = .ok (s, rs) ∧
      ∀ i, s.pos i = (State.new p (3 * t) (3 * t) x b).pos i +
        (if i = e.1 ∨ i = e.2.1 then ⟨0, x.springConstant * d / 60⟩ else 0 : Pt) := by
  obtain ⟨found, hf, m1, m2, s, rs, er, hs⟩ := insert_pull p (3 * t) (3 * t) x b hz hq hr hd hv
  obtain ⟨z, hz', za, zb⟩ := square_edge hf
  obtain ⟨y, hy, ya, yb⟩ := square_edge' p t x b he
  have dist : ∀ i j : Idx, euclid ((State.new p (3 * t) (3 * t) x b).pos i) ⟨p.x + a * t, p.y⟩ ≤
      euclid ((State.new p (3 * t) (3 * t) x b).pos j) ⟨p.x + a * t, p.y⟩ →
      ((col i : ℝ) - a) ^ 2 + (row i : ℝ) ^ 2 ≤ ((col j : ℝ) - a) ^ 2 + (row j : ℝ) ^ 2 := by
    intro i j h
    have := sq_le_of_euclid h
    rw [square_pos, square_pos] at this
    simp only at this
    have hp : 0 < t ^ 2 := by positivity
    refine le_of_mul_le_mul_left ?_ hp
    nlinarith [this]
  have k1 : z.1 = e.1 := by
    by_contra hne
    have := m1 y hy
    rw [za, ya] at this
    exact absurd (dist _ _ this) (not_le.2 (h1 z hz' hne))
  have k2 : z.2.1 = e.2.1 := by
    by_contra hne
    have := m2 y hy (by rw [za, ya, k1])
    rw [zb, yb] at this
    exact absurd (dist _ _ this) (not_le.2 (h2 z hz' k1 hne))
  refine ⟨s, rs, er, fun i => ?_⟩
  rw [hs, za, zb, k1, k2]
  simp only [Node.mesh.injEq, eq_comm]

/-- **C125 (negation).** `InsertAnchor` is left out because it looks for the spring to be split by its left or upper end. A
square model with tiles of `t` pixels that is its own image: insert an anchor into the upper border, a tenth of a tile to the
left of the second point, pull it up or down, `Step (16)`. The second point and the one below it move. Do the same seen in
the mirror: the third and the fourth point of the border move. -/
theorem C125_insertion (p : Pt) {t : ℝ} (ht : 0 < t) (x : Settings) (b : ℕ)
    (hz : ∀ i, Representable ((State.new p (3 * t) (3 * t) x b).pos i)) {d : ℝ}
    (hr : |d| < x.maximumRange) (hd : 1 ≤ |d|) (hv : 1 / 10 ≤ |x.springConstant * d / 30|) :
    ∃ ops s s' rs rs', ops = [.insert ⟨p.x + 9 / 10 * t, p.y⟩, .moveAnchor 0 ⟨0, d⟩, .step 16] ∧
      (State.new p (3 * t) (3 * t) x b).run ops = .ok (s, rs) ∧
      mirrorCorner true false ⟨2 * p.x + 3 * t, 0⟩ (3 * t) (3 * t) p = p ∧
      (State.new p (3 * t) (3 * t) x b).run (mirrorOps true false ⟨2 * p.x + 3 * t, 0⟩ (3 * t) (3 * t) ops) =
        .ok (s', rs') ∧
      (∀ i, s.pos i = (State.new p (3 * t) (3 * t) x b).pos i +
        (if i = 1 ∨ i = 5 then ⟨0, x.springConstant * d / 60⟩ else 0 : Pt)) ∧
      (∀ i, s'.pos i = (State.new p (3 * t) (3 * t) x b).pos i +
        (if i = 2 ∨ i = 3 then ⟨0, x.springConstant * d / 60⟩ else 0 : Pt)) := by
  have hrep : ∀ a : ℝ, 0 ≤ a → a ≤ 3 → Representable ⟨p.x + a * t, p.y⟩ := by
    intro a h0 h3
    have z0 := hz 0
    have z3 := hz 3
    rw [square_pos] at z0 z3
    have c3 : (col 3 : ℝ) = 3 := by norm_num [show col 3 = 3 from rfl]
    have c0 : (col 0 : ℝ) = 0 := by norm_num [show col 0 = 0 from rfl]
    have r3 : (row 3 : ℝ) = 0 := by norm_num [show row 3 = 0 from rfl]
    unfold Representable at z0 z3 ⊢
    simp only [c3, c0, r3, zero_mul, add_zero, abs_le] at z0 z3 ⊢
    have := mul_le_mul_of_nonneg_right h3 ht.le
    have := mul_nonneg h0 ht.le
    refine ⟨⟨?_, ?_⟩, z3.2⟩ <;> linarith [z0.1.1, z3.1.2]
  have hsq : ∀ i : Idx, ((col i : ℝ) = 0 ∨ (col i : ℝ) = 1 ∨ (col i : ℝ) = 2 ∨ (col i : ℝ) = 3) := by
    intro i
    have : ∀ i : Idx, col i = 0 ∨ col i = 1 ∨ col i = 2 ∨ col i = 3 := by decide
    rcases this i with h | h | h | h <;> rw [h] <;> norm_num
  obtain ⟨s, rs, e, hs⟩ := square_pull p ht x b hz (a := 9 / 10) (hrep _ (by norm_num) (by norm_num)) hr hd hv
    (e := (1, 5, true)) (by decide)
    (by
      have key : ∀ i : Idx, i ≠ 1 → (col i = 1 ∧ 1 ≤ row i) ∨ col i ≠ 1 := by decide
      intro z hz' hne
      rw [show col (1 : Idx) = 1 from rfl, show row (1 : Idx) = 0 from rfl]
      rcases key z.1 hne with ⟨h, h'⟩ | h
      · have : (1 : ℝ) ≤ row z.1 := by exact_mod_cast h'
        rw [h]
        norm_num
        nlinarith
      · have hc : (col z.1 : ℝ) ≠ 1 := by exact_mod_cast h
        rcases hsq z.1 with h | h | h | h
        · rw [h]; norm_num; nlinarith [sq_nonneg (row z.1 : ℝ)]
        · exact absurd h hc
        · rw [h]; norm_num; nlinarith [sq_nonneg (row z.1 : ℝ)]
        · rw [h]; norm_num; nlinarith [sq_nonneg (row z.1 : ℝ)])
    (by
      have key : ∀ z ∈ baseEdges, z.1 = 1 → z.2.1 ≠ 5 → z.2.1 = 2 := by
        set_option maxRecDepth 20000 in decide
      intro z hz' h1 h2
      rw [key z hz' h1 h2]
      norm_num [col, row])
  obtain ⟨s', rs', e', hs'⟩ := square_pull p ht x b hz (a := 21 / 10) (hrep _ (by norm_num) (by norm_num)) hr hd hv
    (e := (2, 3, false)) (by decide)
    (by
      have key : ∀ i : Idx, i ≠ 2 → (col i = 2 ∧ 1 ≤ row i) ∨ col i ≠ 2 := by decide
      intro z hz' hne
      rw [show col (2 : Idx) = 2 from rfl, show row (2 : Idx) = 0 from rfl]
      rcases key z.1 hne with ⟨h, h'⟩ | h
      · have : (1 : ℝ) ≤ row z.1 := by exact_mod_cast h'
        rw [h]
        norm_num
        nlinarith
      · have hc : (col z.1 : ℝ) ≠ 2 := by exact_mod_cast h
        rcases hsq z.1 with h | h | h | h
        · rw [h]; norm_num; nlinarith [sq_nonneg (row z.1 : ℝ)]
        · rw [h]; norm_num; nlinarith [sq_nonneg (row z.1 : ℝ)]
        · exact absurd h hc
        · rw [h]; norm_num; nlinarith [sq_nonneg (row z.1 : ℝ)])
    (by
      have key : ∀ z ∈ baseEdges, z.1 = 2 → z.2.1 ≠ 3 → z.2.1 = 6 := by
        set_option maxRecDepth 20000 in decide
      intro z hz' h1 h2
      rw [key z hz' h1 h2]
      norm_num [col, row])
  refine ⟨_, s, s', rs, rs', rfl, e, ?_, ?_, hs, hs'⟩
  · ext <;> simp [mirrorCorner]
    ring
  rw [← e']
  have h1 : mirrorPt true false ⟨2 * p.x + 3 * t, 0⟩ ⟨p.x + 9 / 10 * t, p.y⟩ = ⟨p.x + 21 / 10 * t, p.y⟩ := by
    ext <;> simp [mirrorPt]
    ring
  have h2 : mirrorVec true false ⟨0, d⟩ = ⟨0, d⟩ := by ext <;> simp [mirrorVec]
  simp only [mirrorOps, mirrorOp, h1, h2]

/-- A model of 300 by 300 pixels with the default settings, pulled up by 30 pixels: two points move by 4 pixels. -/
example : (∀ i, Representable ((State.new ⟨0, 0⟩ (3 * 100) (3 * 100) defaultSettings 0).pos i)) ∧ (0 : ℝ) < 100 ∧
    |(-30 : ℝ)| < defaultSettings.maximumRange ∧ 1 ≤ |(-30 : ℝ)| ∧
    1 / 10 ≤ |defaultSettings.springConstant * (-30) / 30| ∧ defaultSettings.springConstant * (-30) / 60 = -4 := by
  refine ⟨fun i => ?_, ?_⟩
  · rw [show (3 * 100 : ℝ) = 300 by norm_num]
    exact demo_rep i
  · norm_num [defaultSettings]

/-- **C125 (negation).** Nor with several points equally near: a grab on the axis of a model is its own image, the model it
leads to is not. -/
theorem C125_ties (p q : Pt) {w h : ℝ} (x : Settings) (b : ℕ) (hz : ∀ i, Representable ((State.new p w h x b).pos i))
    (hq : Representable q) (ha : q.x = p.x + w / 2) :
    ∃ s rs, (State.new p w h x b).run [.grab q] = .ok (s, rs) ∧
      mirrorOps true false ⟨2 * p.x + w, 0⟩ w h [.grab q] = [.grab q] ∧
      ¬ Mirrored true false ⟨2 * p.x + w, 0⟩ s s := by
  obtain ⟨i, t, n, hi, e, -⟩ := grab_atRest (new_atRest p w h x b) hz hq
  refine ⟨_, _, by rw [State.run]; simp only [State.exec, e]; rfl, ?_, ?_⟩
  · simp only [mirrorOps, mirrorOp, mirrorPt]
    congr 2
    ext
    · simp [ha]
      ring
    · simp
  · intro hM
    have h1 := hM.locks i
    have hne : ∀ i : Idx, mirrorPlace true false i ≠ i := by decide
    have hl : ∀ k, (grabbed (State.new p w h x b) i t n).locks k = Function.update (fun _ => 0) i 1 k := fun _ => rfl
    rw [hl, hl, Function.update_self, Function.update_of_ne (hne i)] at h1
    exact absurd h1 (by norm_num)

end

end Verif.Props
