import Verif.Lemmas.WobblyNearest
import Verif.Props.WobblyLaw
import Verif.Props.WobblyBook

/-! # Wobbly: what GrabAnchor and InsertAnchor take hold of in double precision (C129)

`run R.rnd (Rounded.new R.rnd p w h x b) ops = .ok (s, rs)` says: in `double` arithmetic with the rounding `R` a model is made
at `p` with size `w` by `h` and settings `x`, the calls `ops` all return, giving `rs`, and `s` is the state reached. -/

namespace Verif.Props

open Wobbly Wobbly.Rounded Spec Outcome Classical

noncomputable section

variable {R : Rounding64} {r : ℝ → ℝ} {p : Pt} {w h : ℝ} {x : Settings} {b : ℕ} {ops : List Op} {rs : List Res} {s : State}

/-- **C129.** In `double` arithmetic `GrabAnchor (q)` pins (adds one lock to) a mesh point that is the nearest to `q` up to a
relative error of `2 ^ -48` and an absolute one of `2 ^ -90`. No mesh point before it in row-major order is at the same place.
No point moves and no other point is pinned. The new anchor holds that point. -/
theorem C129_grab {s' : State} {q : Pt} {y : Res} (e : exec R.rnd s (.grab q) = .ok (s', y)) :
    ∃ i, (∀ j, euclid q (s.pos i) ≤ euclid q (s.pos j) * (1 + 1 / 2 ^ 48) + 1 / 2 ^ 90) ∧
      (∀ j, j < i → s.pos j ≠ s.pos i) ∧
      s'.locks i = s.locks i + 1 ∧ (∀ j, j ≠ i → s'.locks j = s.locks j) ∧
      s'.pos = s.pos ∧ s'.vel = s.vel ∧ y = .handle s.nextHid ∧ s'.live = s.live ++ [⟨s.nextHid, .grab i⟩] := by
  obtain ⟨i, t, n, hi, -, rfl, rfl⟩ := Wobbly.Rounded.grab_fields e
  unfold Wobbly.Rounded.closestIndex at hi
  rcases first_fold (r := R.rnd) s.pos q (List.finRange 16) (List.pairwise_lt_finRange 16) with
    ⟨h1, -⟩ | ⟨k, -, h1, -, h2, h3⟩
  · rw [h1] at hi
    cases hi
  · rw [h1] at hi
    obtain rfl : k = i := by simpa using hi
    refine ⟨k, fun j => nearer R (h2 j (List.mem_finRange j)), fun j hj he => ?_, by simp [grabbed, State.lock], fun j hj => ?_,
      rfl, rfl, rfl, rfl⟩
    · have := h3 j (List.mem_finRange j) hj
      rw [he] at this
      exact absurd this (lt_irrefl _)
    · simp [grabbed, State.lock, Function.update_of_ne hj]

/-- **C129.** So a mesh point that is clearly the nearest is the one that is pinned. -/
theorem C129_grab_clear {s' : State} {q : Pt} {y : Res} (e : exec R.rnd s (.grab q) = .ok (s', y)) {i : Idx}
    (hi : ∀ j, j ≠ i → euclid q (s.pos i) * (1 + 1 / 2 ^ 48) + 1 / 2 ^ 90 < euclid q (s.pos j)) :
    s'.live = s.live ++ [⟨s.nextHid, .grab i⟩] := by
  obtain ⟨k, h1, -, -, -, -, -, -, h2⟩ := C129_grab e
  by_cases hk : k = i
  · rw [← hk]
    exact h2
  · exact absurd (h1 i) (not_le.2 (hi k hk))

/-- **C129.** With coordinates up to `2 ^ 500` a grab never fails: it returns, or the settling loop it starts runs
forever. -/
theorem C129_grab_defined {q : Pt} (hm : ∀ i, |(s.pos i).x| ≤ 2 ^ 500 ∧ |(s.pos i).y| ≤ 2 ^ 500)
    (hq : |q.x| ≤ 2 ^ 500 ∧ |q.y| ≤ 2 ^ 500) :
    (∃ y, exec R.rnd s (.grab q) = .ok y) ∨ exec R.rnd s (.grab q) = .diverges := by
  obtain ⟨i, hi, -⟩ := closest_some (R := R) (m := s.pos) (p := q) (far_distance R hq.1 hq.2 (hm 0).1 (hm 0).2)
  simp only [exec, grab, hi]
  rcases activate_returns (r := R.rnd) { s with unequal := True } with ⟨z, hz⟩ | hz
  · rw [hz]
    exact .inl ⟨_, rfl⟩
  · rw [hz]
    exact .inr rfl

/-- **C129.** In `double` arithmetic `InsertAnchor (q)` takes out a spring whose first end is, up to the same errors, as near to
`q` as that of any spring; among the springs that begin at the same place its second end is, up to the same errors, nearest.
Two springs take its place, from the new anchor, which is at `q`, to the ends of the old one. No mesh point moves. If
other anchors are live, their lengths are the rounded differences between those ends and `q`. -/
theorem C129_insert (hrun : run R.rnd (Rounded.new R.rnd p w h x b) ops = .ok (s, rs)) {s' : State} {q : Pt} {y : Res}
    (hz : ∀ y ∈ s.springs, ∀ n, n = y.a ∨ n = y.b → |(endAt s s.pos n).x| ≤ 2 ^ 500 ∧ |(endAt s s.pos n).y| ≤ 2 ^ 500)
    (hq : |q.x| ≤ 2 ^ 500 ∧ |q.y| ≤ 2 ^ 500) (e : exec R.rnd s (.insert q) = .ok (s', y)) :
    ∃ found ∈ s.springs, ∃ k,
      (∀ y ∈ s.springs,
        euclid (endAt s s.pos found.a) q ≤ euclid (endAt s s.pos y.a) q * (1 + 1 / 2 ^ 48) + 1 / 2 ^ 90) ∧
      (∀ y ∈ s.springs, endAt s s.pos y.a = endAt s s.pos found.a →
        euclid (endAt s s.pos found.b) q ≤ euclid (endAt s s.pos y.b) q * (1 + 1 / 2 ^ 48) + 1 / 2 ^ 90) ∧
      y = .handle k ∧ anchorData s'.live k = some q ∧ s'.pos = s.pos ∧
      ∃ x1 x2 : Spring, s'.springs = s.springs.filter (fun y => y.id ≠ found.id) ++ [x1, x2] ∧
        x1.a = .anchor k ∧ x1.b = found.a ∧ x2.a = .anchor k ∧ x2.b = found.b ∧
        (s.live ≠ [] →
          x1.desired = ⟨R.rnd ((endAt s s.pos found.a).x - q.x), R.rnd ((endAt s s.pos found.a).y - q.y)⟩ ∧
          x2.desired = ⟨R.rnd ((endAt s s.pos found.b).x - q.x), R.rnd ((endAt s s.pos found.b).y - q.y)⟩) := by
  have B := run_book hrun
  rw [endAt_eq] at *
  obtain ⟨t, n, found, d1, d2, -, hf, h1, h2, rfl, rfl⟩ := insert_found e
  obtain ⟨f, hm, hfold, m1, m2⟩ := split_both (r := R.rnd) (s.env.at_ s.pos) q s.springs B.springs_ne
    (fun y hy => far_distance R (hz y hy _ (.inl rfl)).1 (hz y hy _ (.inl rfl)).2 hq.1 hq.2)
    (fun y hy => far_distance R (hz y hy _ (.inr rfl)).1 (hz y hy _ (.inr rfl)).2 hq.1 hq.2)
  obtain rfl : f = found := by
    unfold Wobbly.Rounded.findSpringToSplit at hf
    rw [hfold] at hf
    simpa using hf
  refine ⟨f, hm, s.nextHid, fun y hy => nearer R (m1 y hy), fun y hy hya => nearer R (m2 y hy (by rw [hya])), rfl, ?_, rfl,
    _, _, rfl, rfl, rfl, rfl, rfl, ?_⟩
  · unfold anchorData
    simp only [Wobbly.Rounded.install, preInsert, List.findSome?_append]
    rw [List.findSome?_eq_none_iff.2]
    · simp
    · intro a ha
      have hids : ∀ a ∈ (flat s).live, a.hid < (flat s).nextHid := B.inv.hidsLt
      have hlt : a.hid < s.nextHid := hids a ha
      cases a.kind with
      | grab i => rfl
      | ins _ _ _ _ => exact if_neg (by omega)
  · intro hl
    have hact : ¬ (preInsert s t n).active := by
      intro h
      have h : s.count + 1 = 1 := h
      have hc : s.count = s.live.length := B.inv.count
      have := List.length_pos_iff.2 hl
      omega
    unfold State.preferred at h1 h2
    rw [if_neg hact] at h1 h2
    simp only [Outcome.ok.injEq] at h1 h2
    rw [← h1, ← h2]
    exact ⟨rfl, rfl⟩

/-- **C129.** Whatever the rounding, in every reachable state `InsertAnchor` finds the spring ends it looks up and does not
throw. -/
theorem C129_insert_never_throws (e : run r (Rounded.new r p w h x b) ops = .ok (s, rs)) (q : Pt) :
    exec r s (.insert q) ≠ .throws := by
  rcases (run_book e).insert_cases (r := r) q with ⟨y, h⟩ | h | ⟨h, -⟩ <;> rw [h] <;> simp

/-- **C129.** With coordinates up to `2 ^ 500`, and as long as every spring ends at an anchor the program still owns or in
the mesh, an insertion returns, or the settling loop it starts runs forever. -/
theorem C129_insert_defined (e : run R.rnd (Rounded.new R.rnd p w h x b) ops = .ok (s, rs)) (hd : EndsOwned s) {q : Pt}
    (hz : ∀ y ∈ s.springs, |(endAt s s.pos y.a).x| ≤ 2 ^ 500 ∧ |(endAt s s.pos y.a).y| ≤ 2 ^ 500)
    (hq : |q.x| ≤ 2 ^ 500 ∧ |q.y| ≤ 2 ^ 500) :
    (∃ y, exec R.rnd s (.insert q) = .ok y) ∨ exec R.rnd s (.insert q) = .diverges := by
  have B := run_book e
  rw [endAt_eq] at hz
  rcases B.insert_cases (r := R.rnd) q with h | h | ⟨-, h | h⟩
  · exact .inl h
  · exact .inr h
  · exact absurd h (not_dangling hd)
  · obtain ⟨y, hy⟩ := List.exists_mem_of_ne_nil _ B.springs_ne
    obtain ⟨f, hf, -⟩ := found_nearest (r := R.rnd) (at_ := s.env.at_ s.pos) (p := q) (l := s.springs)
      ⟨y, hy, far_distance R (hz y hy).1 (hz y hy).2 hq.1 hq.2⟩
    rw [h] at hf
    cases hf

theorem whole_in_range (i : Idx) : |(wholeMesh i).x| ≤ 2 ^ 500 ∧ |(wholeMesh i).y| ≤ 2 ^ 500 := by
  obtain ⟨h1, h2⟩ := wholeMesh_small i
  have hp : (2 : ℝ) ^ 10 ≤ 2 ^ 500 := pow_le_pow_right₀ (by norm_num) (by norm_num)
  have c0 : (0 : ℝ) ≤ col i := Nat.cast_nonneg _
  have r0 : (0 : ℝ) ≤ row i := Nat.cast_nonneg _
  simp only [wholeMesh]
  rw [abs_of_nonneg (by positivity), abs_of_nonneg (by positivity)]
  norm_num at hp
  constructor <;> refine le_trans ?_ hp <;> linarith

/-- The hypotheses of `C129_grab`, `C129_grab_clear` and `C129_grab_defined`. -/
example (b : ℕ) (i : Idx) :
    (∀ j, |((Rounded.new R.rnd ⟨0, 0⟩ 300 300 ⟨8, 5, 500⟩ b).pos j).x| ≤ 2 ^ 500 ∧
      |((Rounded.new R.rnd ⟨0, 0⟩ 300 300 ⟨8, 5, 500⟩ b).pos j).y| ≤ 2 ^ 500) ∧
    ∃ s' y, exec R.rnd (Rounded.new R.rnd ⟨0, 0⟩ 300 300 ⟨8, 5, 500⟩ b) (.grab (wholeMesh i)) = .ok (s', y) ∧
      ∀ j, j ≠ i → euclid (wholeMesh i) ((Rounded.new R.rnd ⟨0, 0⟩ 300 300 ⟨8, 5, 500⟩ b).pos i) * (1 + 1 / 2 ^ 48) +
        1 / 2 ^ 90 < euclid (wholeMesh i) ((Rounded.new R.rnd ⟨0, 0⟩ 300 300 ⟨8, 5, 500⟩ b).pos j) := by
  obtain ⟨h1, -, -⟩ := whole_new R ⟨8, 5, 500⟩ b
  rw [h1]
  refine ⟨whole_in_range, ?_⟩
  obtain ⟨s, e, -⟩ := whole_grab R (b := b) (x := ⟨8, 5, 500⟩) (by norm_num) (by norm_num) i
  refine ⟨s, _, e, fun j hj => ?_⟩
  have h0 : euclid (wholeMesh i) (wholeMesh i) = 0 := by
    rw [euclid_eq]
    simp
  rw [h0, zero_mul, zero_add, euclid_eq]
  refine lt_of_lt_of_le (by norm_num : (1 : ℝ) / 2 ^ 90 < 1) ?_
  rw [Real.one_le_sqrt]
  simp only [wholeMesh]
  have hne : col i ≠ col j ∨ row i ≠ row j := by
    by_contra hcon
    push Not at hcon
    apply hj
    have hc : j.val % 4 = i.val % 4 := hcon.1.symm
    have hr : j.val / 4 = i.val / 4 := hcon.2.symm
    exact Fin.ext (by omega)
  have key : ∀ a b : ℕ, a ≠ b → (1 : ℝ) ≤ (100 * (a : ℝ) - 100 * b) ^ 2 := by
    intro a b hab
    rcases Nat.lt_or_gt_of_ne hab with h | h
    · have : (a : ℝ) + 1 ≤ b := by exact_mod_cast h
      nlinarith
    · have : (b : ℝ) + 1 ≤ a := by exact_mod_cast h
      nlinarith
  rcases hne with h | h
  · have := key _ _ h
    nlinarith [sq_nonneg ((100 : ℝ) * row i - 100 * row j)]
  · have := key _ _ h
    nlinarith [sq_nonneg ((100 : ℝ) * col i - 100 * col j)]

/-- Those of the theorems about insertion, with another anchor live. -/
example (b : ℕ) (i : Idx) : ∃ s rs s' y,
    run R.rnd (Rounded.new R.rnd ⟨0, 0⟩ 300 300 ⟨8, 5, 500⟩ b) [.grab (wholeMesh i)] = .ok (s, rs) ∧ EndsOwned s ∧
    (∀ y ∈ s.springs, ∀ n, n = y.a ∨ n = y.b → |(endAt s s.pos n).x| ≤ 2 ^ 500 ∧ |(endAt s s.pos n).y| ≤ 2 ^ 500) ∧
    s.live ≠ [] ∧ exec R.rnd s (.insert ⟨50, 60⟩) = .ok (s', y) := by
  obtain ⟨s, e, hp, hv, -, hw, hh, hx, hsp, hl, -⟩ :=
    whole_grab R (b := b) (x := ⟨8, 5, 500⟩) (by norm_num) (by norm_num) i
  have er : run R.rnd (Rounded.new R.rnd ⟨0, 0⟩ 300 300 ⟨8, 5, 500⟩ b) [.grab (wholeMesh i)] = .ok (s, [.handle 0]) := by
    simp only [run, e, bind_ok]
  have hm : ∀ y ∈ s.springs, (∃ i, y.a = .mesh i) ∧ ∃ j, y.b = .mesh j := by
    rw [hsp]
    exact fun y hy => baseSprings_mesh hy
  have hz : ∀ y ∈ s.springs, ∀ n, n = y.a ∨ n = y.b → |(endAt s s.pos n).x| ≤ 2 ^ 500 ∧ |(endAt s s.pos n).y| ≤ 2 ^ 500 := by
    intro y hy n hn
    obtain ⟨⟨i1, h1⟩, i2, h2⟩ := hm y hy
    rcases hn with rfl | rfl
    · rw [h1]
      show |(s.pos i1).x| ≤ _ ∧ |(s.pos i1).y| ≤ _
      rw [hp]
      exact whole_in_range i1
    · rw [h2]
      show |(s.pos i2).x| ≤ _ ∧ |(s.pos i2).y| ≤ _
      rw [hp]
      exact whole_in_range i2
  have hd : EndsOwned s := by
    intro y hy k hk
    obtain ⟨⟨i1, h1⟩, i2, h2⟩ := hm y hy
    rw [h1, h2] at hk
    rcases hk with hk | hk <;> cases hk
  have hslow : WellSlow s := by
    refine slow_near (d := fun _ => 0) (fun i => ?_) hw hh (by rw [hx]; norm_num) (by rw [hx]; norm_num) (fun i => by simp)
      fun i j hij => ?_
    · rw [hp]
      ext <;> simp
    · rw [hv, hv]
      show KeepsWellWithinOne _ _ 0 0 0 ∧ KeepsWellWithinOne _ _ 0 0 0
      simp only [KeepsWellWithinOne, farthest_zero]
      norm_num
  have hbig : (100 : ℝ) ≤ 2 ^ 500 := by
    have hp : (2 : ℝ) ^ 10 ≤ 2 ^ 500 := pow_le_pow_right₀ (by norm_num) (by norm_num)
    refine le_trans ?_ hp
    norm_num
  rcases C129_insert_defined er hd (q := ⟨50, 60⟩) (fun y hy => hz y hy _ (.inl rfl))
    ⟨by rw [abs_of_pos (by norm_num)]; exact le_trans (by norm_num) hbig,
      by rw [abs_of_pos (by norm_num)]; exact le_trans (by norm_num) hbig⟩ with ⟨⟨s', y⟩, h⟩ | h
  · exact ⟨s, _, s', y, er, hd, hz, by rw [hl]; simp, h⟩
  · exact absurd h (C124_no_hang R er hslow _)

end

end Verif.Props
