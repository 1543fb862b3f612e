import Verif.Spec.TickDouble
import Verif.Lemmas.WobblyNearest

/-! # One tick in double precision -/

namespace Verif.Wobbly.Rounded

open Wobbly Spec Outcome Classical

noncomputable section

/-! ### Desired lengths are doubles -/

/-- The desired lengths of all springs, also of those that are put aside, are doubles. -/
structure LengthsDouble (s : State) : Prop where
  springs : ∀ y ∈ s.springs, Double y.desired.x ∧ Double y.desired.y
  stored : ∀ a ∈ s.live, ∀ p y f g, a.kind = .ins p y f g → Double y.desired.x ∧ Double y.desired.y

section

variable {R : Rounding64} {s : State}

theorem LengthsDouble.same {s' : State} (h : LengthsDouble s) (h1 : s'.springs = s.springs) (h2 : s'.live = s.live) :
    LengthsDouble s' := ⟨by rw [h1]; exact h.springs, by rw [h2]; exact h.stored⟩

theorem recalc_lengths {s' : State} (h : LengthsDouble s) (e : recalc R.rnd s = .ok s') : LengthsDouble s' := by
  unfold recalc at e
  rw [bind_eq_ok] at e
  obtain ⟨p, -, e⟩ := e
  simp only [Outcome.ok.injEq] at e
  rw [← e]
  exact h.same rfl rfl

theorem activate_lengths {s' : State} (h : LengthsDouble s) (e : activate R.rnd s = .ok s') : LengthsDouble s' := by
  unfold activate at e
  dsimp only at e
  split_ifs at e
  · exact recalc_lengths (s := { s with count := s.count + 1 }) (h.same rfl rfl) e
  · simp only [Outcome.ok.injEq] at e
    rw [← e]
    exact h.same rfl rfl

theorem deactivate_lengths {s' : State} (h : LengthsDouble s) (e : deactivate R.rnd s = .ok s') : LengthsDouble s' := by
  unfold deactivate at e
  dsimp only at e
  split_ifs at e
  · exact recalc_lengths (s := { s with count := s.count - 1 }) (h.same rfl rfl) e
  · simp only [Outcome.ok.injEq] at e
    rw [← e]
    exact h.same rfl rfl

theorem target_lengths {a : State × Pt} (h : LengthsDouble s) (e : targetPosition R.rnd s = .ok a) : LengthsDouble a.1 := by
  unfold targetPosition at e
  split_ifs at e
  · simp only [Outcome.ok.injEq] at e
    rw [← e]
    exact h
  · rw [bind_eq_ok] at e
    obtain ⟨p, -, e⟩ := e
    simp only [Outcome.ok.injEq] at e
    rw [← e]
    exact h.same rfl rfl

theorem removeTracked_lengths (h : LengthsDouble s) (id : ℕ) : LengthsDouble (s.removeTracked id) := by
  unfold State.removeTracked
  split_ifs
  · exact ⟨fun y hy => h.springs y (List.mem_filter.1 hy).1, h.stored⟩
  · exact h.same rfl rfl

theorem replace_lengths (h : LengthsDouble s) {x : Spring} (hx : Double x.desired.x ∧ Double x.desired.y) :
    LengthsDouble (s.replace x) := by
  unfold State.replace
  split_ifs
  · exact h.same rfl rfl
  · refine ⟨fun y hy => ?_, h.stored⟩
    rcases List.mem_append.1 hy with hy | hy
    · exact h.springs y hy
    · rw [List.mem_singleton.1 hy]
      exact hx

theorem shift_stored {l : List Live} {d : Pt} {c : Live → Prop} [DecidablePred c]
    (h : ∀ a ∈ l, ∀ p y f g, a.kind = .ins p y f g → Double y.desired.x ∧ Double y.desired.y) :
    ∀ a ∈ l.map (fun b => if c b then ⟨b.hid, shift R.rnd d b.kind⟩ else b), ∀ p y f g, a.kind = .ins p y f g →
      Double y.desired.x ∧ Double y.desired.y := by
  intro a ha p y f g hk
  obtain ⟨z, hz, rfl⟩ := List.mem_map.1 ha
  split_ifs at hk
  · cases hz' : z.kind with
    | grab i => simp [hz', shift] at hk
    | ins p' y' f' g' =>
      simp only [hz', shift, Kind.ins.injEq] at hk
      rw [← hk.2.1]
      exact h z hz _ _ _ _ hz'
  · exact h z hz _ _ _ _ hk

theorem moveBy_lengths (h : LengthsDouble s) (d : Pt) : LengthsDouble (moveBy R.rnd s d) := by
  refine ⟨h.springs, ?_⟩
  have := shift_stored (R := R) (d := d) (c := fun _ => True) h.stored
  simp only [if_true] at this
  exact this

theorem exec_lengths {s' : State} {op : Op} {y : Res} (h : LengthsDouble s) (e : exec R.rnd s op = .ok (s', y)) :
    LengthsDouble s' := by
  cases op with
  | grab p =>
    simp only [exec, grab] at e
    split at e
    · cases e
    rw [bind_eq_ok] at e
    obtain ⟨s1, e1, e⟩ := e
    simp only [Outcome.ok.injEq, Prod.mk.injEq] at e
    obtain ⟨rfl, -⟩ := e
    have := activate_lengths (s := { s with unequal := True }) (h.same rfl rfl) e1
    refine ⟨this.springs, fun a ha => ?_⟩
    rcases List.mem_append.1 ha with ha | ha
    · exact this.stored a ha
    · rw [List.mem_singleton.1 ha]
      intro p y f g hk
      cases hk
  | insert p =>
    simp only [exec, insert, bind_eq_ok] at e
    obtain ⟨s1, e1, s2, e2, e⟩ := e
    simp only [Outcome.ok.injEq, Prod.mk.injEq] at e
    obtain ⟨rfl, -⟩ := e
    have := activate_lengths (s := { s with unequal := True }) (h.same rfl rfl) e1
    unfold insertSprings at e2
    split_ifs at e2
    split at e2
    · cases e2
    rename_i found hf
    simp only [bind_eq_ok, Outcome.ok.injEq] at e2
    obtain ⟨d1, -, d2, -, rfl⟩ := e2
    refine ⟨fun y hy => ?_, fun a ha => ?_⟩
    · rcases List.mem_append.1 hy with hy | hy
      · exact this.springs y (List.mem_filter.1 hy).1
      · rcases List.mem_cons.1 hy with rfl | hy
        · exact ⟨R.double _, R.double _⟩
        · rw [List.mem_singleton.1 hy]
          exact ⟨R.double _, R.double _⟩
    · rcases List.mem_append.1 ha with ha | ha
      · exact this.stored a ha
      · rw [List.mem_singleton.1 ha]
        intro p y f g hk
        simp only [Kind.ins.injEq] at hk
        rw [← hk.2.1]
        exact this.springs _ (found_mem _ _ _ _ hf)
  | moveAnchor hid d =>
    simp only [exec, moveAnchor] at e
    split at e
    · simp only [Outcome.ok.injEq, Prod.mk.injEq] at e
      obtain ⟨rfl, -⟩ := e
      exact h
    split at e
    · simp only [Outcome.ok.injEq, Prod.mk.injEq] at e
      obtain ⟨rfl, -⟩ := e
      exact h.same rfl rfl
    · simp only [Outcome.ok.injEq, Prod.mk.injEq] at e
      obtain ⟨rfl, -⟩ := e
      exact ⟨h.springs, shift_stored h.stored⟩
  | release hid =>
    simp only [exec, release] at e
    split at e
    · simp only [Outcome.ok.injEq, Prod.mk.injEq] at e
      obtain ⟨rfl, -⟩ := e
      exact h
    rename_i a ha
    simp only [bind_eq_ok, Outcome.ok.injEq, Prod.mk.injEq] at e
    obtain ⟨s1, e1, s2, e2, rfl, -⟩ := e
    refine deactivate_lengths ?_ e2
    have h0 : LengthsDouble { s with live := s.live.filter fun b => b.hid ≠ hid } :=
      ⟨h.springs, fun a ha => h.stored a (List.mem_filter.1 ha).1⟩
    cases hk : a.kind with
    | grab i =>
      simp only [hk, State.releaseKind, State.unlock] at e1
      split_ifs at e1
      all_goals
        simp only [Outcome.ok.injEq] at e1
        rw [← e1]
        exact h0.same rfl rfl
    | ins p st f g =>
      simp only [hk, State.releaseKind, Outcome.ok.injEq] at e1
      rw [← e1]
      exact replace_lengths (removeTracked_lengths (removeTracked_lengths h0 _) _)
        (h.stored a (List.mem_of_find?_eq_some ha) _ _ _ _ hk)
  | step t =>
    simp only [exec, step] at e
    split at e
    · cases e
    rw [bind_eq_ok] at e
    obtain ⟨a, -, e⟩ := e
    simp only [Outcome.ok.injEq, Prod.mk.injEq] at e
    obtain ⟨rfl, -⟩ := e
    exact h.same rfl rfl
  | moveBy d =>
    simp only [exec, Outcome.ok.injEq, Prod.mk.injEq] at e
    obtain ⟨rfl, -⟩ := e
    exact moveBy_lengths h d
  | moveTo p =>
    simp only [exec, moveTo, bind_eq_ok, Outcome.ok.injEq, Prod.mk.injEq] at e
    obtain ⟨a, ea, rfl, -⟩ := e
    exact moveBy_lengths (target_lengths h ea) _
  | resize w hh =>
    simp only [exec, resize] at e
    split_ifs at e
    · simp only [Outcome.ok.injEq, Prod.mk.injEq] at e
      obtain ⟨rfl, -⟩ := e
      exact h
    · simp only [bind_eq_ok, Outcome.ok.injEq, Prod.mk.injEq] at e
      obtain ⟨a, ea, rfl, -⟩ := e
      have h1 := target_lengths h ea
      refine ⟨fun y hy => ?_, fun b hb p y f g hk => ?_⟩
      · obtain ⟨z, -, rfl⟩ := List.mem_map.1 hy
        exact ⟨R.double _, R.double _⟩
      · obtain ⟨z, hz, rfl⟩ := List.mem_map.1 hb
        cases hz' : z.kind with
        | grab i => simp [hz', scaleKind] at hk
        | ins p' y' f' g' =>
          simp only [hz', scaleKind, Kind.ins.injEq] at hk
          rw [← hk.2.1]
          exact h1.stored z hz _ _ _ _ hz'
  | setSettings x =>
    simp only [exec, Outcome.ok.injEq, Prod.mk.injEq] at e
    obtain ⟨rfl, -⟩ := e
    exact h.same rfl rfl
  | elsewhere n =>
    simp only [exec, Outcome.ok.injEq, Prod.mk.injEq] at e
    obtain ⟨rfl, -⟩ := e
    exact h.same rfl rfl

theorem run_lengths {s' : State} {ops : List Op} {ys : List Res} (h : LengthsDouble s)
    (e : run R.rnd s ops = .ok (s', ys)) : LengthsDouble s' := by
  induction ops generalizing s ys with
  | nil =>
    simp only [run, Outcome.ok.injEq, Prod.mk.injEq] at e
    obtain ⟨rfl, -⟩ := e
    exact h
  | cons op ops ih =>
    simp only [run, bind_eq_ok, Outcome.ok.injEq, Prod.mk.injEq] at e
    obtain ⟨a, ea, c, ec, rfl, -⟩ := e
    exact ih (exec_lengths h ea) ec

theorem new_lengths (R : Rounding64) (p : Pt) (w h : ℝ) (x : Settings) (b : ℕ) :
    LengthsDouble (Rounded.new R.rnd p w h x b) := by
  refine ⟨fun y hy => ?_, fun a ha => absurd ha List.not_mem_nil⟩
  simp only [Rounded.new, baseSprings, List.mem_map] at hy
  obtain ⟨z, -, rfl⟩ := hy
  dsimp only
  split_ifs
  · exact ⟨double_zero, R.double _⟩
  · exact ⟨R.double _, double_zero⟩

end

variable (R : Rounding64)

theorem errPow (k : ℕ) {x : ℝ} (h : |x| ≤ 2 ^ k) : |R.rnd x - x| ≤ 2 ^ k / 2 ^ 54 := by
  have := R.error (x := x) (k := (k : ℤ)) (by omega) (by exact_mod_cast h)
  rwa [zpow_sub₀ (by norm_num : (2 : ℝ) ≠ 0), zpow_natCast] at this

/-! ### The measured length of a spring -/

theorem measure (hodd : Symmetric R) {a b d : ℝ} (ha : |a| ≤ 32769) (hb : |b| ≤ 32769) (hd : |d| ≤ 32768) (hD : Double d) :
    clip (1 / 2) (R.rnd (1 / 2 * R.rnd (R.rnd (a - b) + d))) =
      -clip (1 / 2) (R.rnd (1 / 2 * R.rnd (R.rnd (b - a) + R.rnd (d * -1)))) ∧
    Measured (b - a - d) (2 * clip (1 / 2) (R.rnd (1 / 2 * R.rnd (R.rnd (b - a) + R.rnd (d * -1))))) ∧
    |clip (1 / 2) (R.rnd (1 / 2 * R.rnd (R.rnd (b - a) + R.rnd (d * -1))))| ≤ 49155 := by
  have hn : R.rnd (d * -1) = -d := by rw [mul_neg_one, hodd, R.exact hD]
  rw [hn]
  have hba : R.rnd (a - b) = -R.rnd (b - a) := by rw [← hodd, neg_sub]
  have hin : R.rnd (1 / 2 * R.rnd (R.rnd (a - b) + d)) = -R.rnd (1 / 2 * R.rnd (R.rnd (b - a) + -d)) := by
    rw [hba, show -R.rnd (b - a) + d = -(R.rnd (b - a) + -d) by ring, hodd, mul_neg, hodd]
  have a1 := abs_le.1 ha
  have b1 := abs_le.1 hb
  have d1 := abs_le.1 hd
  have e1 := abs_le.1 (errPow R 17 (x := b - a) (abs_le.2 ⟨by linarith, by linarith⟩))
  set u := R.rnd (b - a)
  have e2 := errPow R 17 (x := u + -d) (abs_le.2 ⟨by linarith, by linarith⟩)
  norm_num at e1 e2
  have e2 := abs_le.1 e2
  set z := R.rnd (u + -d)
  have e3 := errPow R 16 (x := 1 / 2 * z) (abs_le.2 ⟨by linarith, by linarith⟩)
  norm_num at e3
  have e3 := abs_le.1 e3
  refine ⟨?_, ?_⟩
  · rw [hin]
    unfold clip
    rw [abs_neg]
    split_ifs <;> simp
  · norm_num
    set c := R.rnd (1 / 2 * z)
    unfold clip Measured
    split_ifs with h
    · refine ⟨.inl ⟨by simp, ?_⟩, by norm_num⟩
      have := abs_lt.1 h
      exact abs_lt.2 ⟨by norm_num; linarith, by norm_num; linarith⟩
    · refine ⟨.inr ⟨?_, ?_⟩, ?_⟩
      · rw [abs_mul, abs_of_pos (by norm_num : (0 : ℝ) < 2)]
        have := not_lt.1 h
        linarith
      · exact abs_le.2 ⟨by norm_num; linarith, by norm_num; linarith⟩
      · exact abs_le.2 ⟨by linarith, by linarith⟩

/-! ### Forces -/

theorem one_force {F A k : ℝ} (hF : |F| + 786481 ≤ 2 ^ 27) (hA : |A| ≤ 49155) (hk : |k| ≤ 16) :
    |R.rnd (F + R.rnd (A * k)) - (F + A * k)| ≤ 1 / 2 ^ 27 + 1 / 2 ^ 34 ∧ |R.rnd (F + R.rnd (A * k))| ≤ |F| + 786481 := by
  have hAk : |A * k| ≤ 786480 := by
    rw [abs_mul]
    have := mul_le_mul hA hk (abs_nonneg _) (by norm_num)
    linarith
  have e1 := errPow R 20 (x := A * k) (by linarith)
  norm_num at e1 hF
  have e1 := abs_le.1 e1
  have h1 := abs_le.1 hAk
  set u := R.rnd (A * k)
  have f1 := neg_abs_le F
  have f2 := le_abs_self F
  have e2 := errPow R 27 (x := F + u) (abs_le.2 ⟨by linarith, by linarith⟩)
  norm_num at e2
  have e2 := abs_le.1 e2
  refine ⟨abs_le.2 ⟨by norm_num; linarith, by norm_num; linarith⟩, abs_le.2 ⟨by linarith, by linarith⟩⟩

/-- One spring's part in the force on mesh point `i`, in one coordinate. -/
def slot (r : ℝ → ℝ) (k : ℝ) (A B : Spring → ℝ) (i : Idx) (F : ℝ) (y : Spring) : ℝ :=
  let F1 := if Node.mesh i = y.a then r (F + r (A y * k)) else F
  if Node.mesh i = y.b then r (F1 + r (B y * k)) else F1

theorem slot_x (r : ℝ → ℝ) (k : ℝ) (at_ : Node → Pt) (i : Idx) (l : List Spring) (acc : (Node → Pt) × Prop) :
    ((l.foldl (fun acc s => let f := applyForces r s k at_ acc.1; (f.1, acc.2 ∨ f.2)) acc).1 (.mesh i)).x =
      l.foldl (slot r k (fun y => (deltaA r y at_).x) (fun y => (deltaB r y at_).x) i) (acc.1 (.mesh i)).x := by
  induction l generalizing acc with
  | nil => rfl
  | cons y l ih =>
    rw [List.foldl_cons, List.foldl_cons, ih]
    congr 1
    simp only [applyForces, addForce, slot]
    split_ifs <;> rfl

theorem slot_y (r : ℝ → ℝ) (k : ℝ) (at_ : Node → Pt) (i : Idx) (l : List Spring) (acc : (Node → Pt) × Prop) :
    ((l.foldl (fun acc s => let f := applyForces r s k at_ acc.1; (f.1, acc.2 ∨ f.2)) acc).1 (.mesh i)).y =
      l.foldl (slot r k (fun y => (deltaA r y at_).y) (fun y => (deltaB r y at_).y) i) (acc.1 (.mesh i)).y := by
  induction l generalizing acc with
  | nil => rfl
  | cons y l ih =>
    rw [List.foldl_cons, List.foldl_cons, ih]
    congr 1
    simp only [applyForces, addForce, slot]
    split_ifs <;> rfl

theorem slots {k : ℝ} {A B : Spring → ℝ} {i : Idx} (hk : |k| ≤ 16) (l : List Spring) (hA : ∀ y ∈ l, |A y| ≤ 49155)
    (hB : ∀ y ∈ l, B y = -A y) (F : ℝ) (hF : |F| + l.length * 1572962 ≤ 2 ^ 27) :
    |l.foldl (slot R.rnd k A B i) F - (F + (l.map fun y =>
      (if y.a = .mesh i then k / 2 * (2 * A y) else 0) - (if y.b = .mesh i then k / 2 * (2 * A y) else 0)).sum)| ≤
        l.length * (1 / 2 ^ 26 + 1 / 2 ^ 33) ∧
    |l.foldl (slot R.rnd k A B i) F| ≤ |F| + l.length * 1572962 := by
  induction l generalizing F with
  | nil => simp
  | cons y l ih =>
    have hAy := hA y (by simp)
    have hBy := hB y (by simp)
    have hn : (0 : ℝ) ≤ l.length := Nat.cast_nonneg _
    rw [List.length_cons] at hF ⊢
    push_cast at hF ⊢
    -- the first end
    set F1 := if Node.mesh i = y.a then R.rnd (F + R.rnd (A y * k)) else F with hF1
    have h1 : |F1 - (F + if y.a = .mesh i then k / 2 * (2 * A y) else 0)| ≤ 1 / 2 ^ 27 + 1 / 2 ^ 34 ∧ |F1| ≤ |F| + 786481 := by
      rw [hF1]
      by_cases hc : Node.mesh i = y.a
      · rw [if_pos hc, if_pos hc.symm, show k / 2 * (2 * A y) = A y * k by ring]
        exact one_force R (by linarith) hAy hk
      · rw [if_neg hc, if_neg fun h => hc h.symm]
        constructor
        · simp
          positivity
        · linarith
    have h2 : |slot R.rnd k A B i F y - (F1 - if y.b = .mesh i then k / 2 * (2 * A y) else 0)| ≤ 1 / 2 ^ 27 + 1 / 2 ^ 34 ∧
        |slot R.rnd k A B i F y| ≤ |F1| + 786481 := by
      unfold slot
      dsimp only
      rw [← hF1]
      by_cases hc : Node.mesh i = y.b
      · rw [if_pos hc, if_pos hc.symm, show F1 - k / 2 * (2 * A y) = F1 + B y * k by rw [hBy]; ring]
        exact one_force R (by linarith [h1.2]) (by rw [hBy, abs_neg]; exact hAy) hk
      · rw [if_neg hc, if_neg fun h => hc h.symm]
        constructor
        · simp
          positivity
        · linarith
    obtain ⟨i1, i2⟩ := ih (fun z hz => hA z (by simp [hz])) (fun z hz => hB z (by simp [hz])) (slot R.rnd k A B i F y)
      (by linarith [h1.2, h2.2])
    rw [List.foldl_cons, List.map_cons, List.sum_cons]
    refine ⟨?_, by linarith [h1.2, h2.2]⟩
    have j1 := abs_le.1 h1.1
    have j2 := abs_le.1 h2.1
    have j3 := abs_le.1 i1
    norm_num at j1 j2 j3 ⊢
    exact abs_le.2 ⟨by linarith, by linarith⟩

/-! ### Integration -/

theorem euler_near {f v F G : ℝ} (h0 : 0 ≤ f) (h1 : f ≤ 15) (hv : |v| ≤ 32768) (hG : |G - F| ≤ 1 / 2 ^ 20 + 1 / 2 ^ 27) (hb : |G| ≤ 100669568) :
    NearVelocity f v F (eulerVelocity R.rnd 1 f mass v G) ∧ |eulerVelocity R.rnd 1 f mass v G| ≤ 7000000 := by
  have v1 := abs_le.1 hv
  have e1 := abs_le.1 (errPow R 15 (x := 0 + v) (by rw [zero_add]; linarith))
  unfold eulerVelocity
  set a := R.rnd (0 + v)
  norm_num at e1
  have ha : |a * f - v * f| ≤ 15 / 2 ^ 39 := by
    rw [← sub_mul, abs_mul, abs_of_nonneg h0]
    have : |a - v| ≤ 1 / 2 ^ 39 := abs_le.2 ⟨by norm_num; linarith [e1.1], by norm_num; linarith [e1.2]⟩
    nlinarith [abs_nonneg (a - v)]
  have hvf : |v * f| ≤ 491520 := by
    rw [abs_mul, abs_of_nonneg h0]
    nlinarith [abs_nonneg v]
  have ha := abs_le.1 ha
  have hvf := abs_le.1 hvf
  norm_num at ha
  have e2 := errPow R 19 (x := a * f) (abs_le.2 ⟨by linarith, by linarith⟩)
  norm_num at e2
  have e2 := abs_le.1 e2
  set c := R.rnd (a * f)
  have g1 := abs_le.1 hb
  have e3 := errPow R 27 (x := G - c) (abs_le.2 ⟨by linarith, by linarith⟩)
  norm_num at e3
  have e3 := abs_le.1 e3
  set d := R.rnd (G - c)
  have e4 := R.error (x := 1 / mass) (k := -3) (by norm_num) (by unfold mass; norm_num [abs_of_pos])
  set m := R.rnd (1 / mass)
  have hm : |m - 1 / 15| ≤ 1 / 2 ^ 57 := by
    unfold mass at e4
    norm_num at e4 ⊢
    exact e4
  have hd : |d| ≤ 101200000 := abs_le.2 ⟨by linarith, by linarith⟩
  have hdm : |d * m - d / 15| ≤ 101200000 / 2 ^ 57 := by
    rw [show d * m - d / 15 = d * (m - 1 / 15) by ring, abs_mul]
    calc |d| * |m - 1 / 15| ≤ 101200000 * (1 / 2 ^ 57) := mul_le_mul hd hm (abs_nonneg _) (by norm_num)
      _ = _ := by ring
  have hdm := abs_le.1 hdm
  have hd := abs_le.1 hd
  norm_num at hdm
  have e5 := errPow R 23 (x := d * m) (abs_le.2 ⟨by linarith, by linarith⟩)
  norm_num at e5
  have e5 := abs_le.1 e5
  rw [mul_one, R.exact (R.double _)]
  set n := R.rnd (d * m)
  have e6 := errPow R 23 (x := v + n) (abs_le.2 ⟨by linarith, by linarith⟩)
  norm_num at e6
  have e6 := abs_le.1 e6
  have e7 := R.error (x := 1 / 10) (k := -3) (by norm_num) (by norm_num [abs_of_pos])
  have e7 := abs_le.1 e7
  norm_num at e7
  norm_num
  set t := R.rnd (1 / 10)
  set z := R.rnd (v + n)
  have hG := abs_le.1 hG
  norm_num at hG
  have near : |z - freeVelocity f v F| ≤ 1 / 2 ^ 22 / 2 := by
    unfold freeVelocity
    rw [show (F - f * v) / 15 = F / 15 - v * f / 15 by ring]
    norm_num
    exact abs_le.2 ⟨by linarith, by linarith⟩
  unfold NearVelocity clip
  split_ifs with hc
  · refine ⟨.inl ⟨rfl, ?_⟩, by norm_num⟩
    have := abs_lt.1 hc
    have := abs_le.1 near
    norm_num at this ⊢
    exact abs_lt.2 ⟨by linarith, by linarith⟩
  · refine ⟨.inr ⟨?_, near.trans (by norm_num)⟩, ?_⟩
    · have := not_lt.1 hc
      norm_num
      linarith
    · exact abs_le.2 ⟨by linarith, by linarith⟩

theorem move_near {p v : ℝ} (hp : |p| ≤ 32769) (hv : |v| ≤ 7000000) :
    |R.rnd (p + R.rnd (v * R.rnd (1 / 2))) - (p + v / 2)| ≤ 1 / 2 ^ 30 := by
  rw [rnd_half]
  have p1 := abs_le.1 hp
  have v1 := abs_le.1 hv
  have e1 := errPow R 22 (x := v * (1 / 2)) (abs_le.2 ⟨by linarith, by linarith⟩)
  norm_num at e1
  have e1 := abs_le.1 e1
  norm_num
  set u := R.rnd (v * (1 / 2))
  have e2 := errPow R 22 (x := p + u) (abs_le.2 ⟨by linarith, by linarith⟩)
  norm_num at e2
  have e2 := abs_le.1 e2
  exact abs_le.2 ⟨by linarith, by linarith⟩

/-! ### Bringing back -/

theorem quotient_near {ρ σ c x : ℝ} (h1 : 1 / 2 ≤ ρ) (h2 : |σ - ρ| ≤ ρ / 2 ^ 48) (h3 : |c - x| ≤ |x| / 2 ^ 53 + 1 / 2 ^ 200)
    (h4 : |x| ≤ ρ) : |c / σ - x / ρ| ≤ 1 / 2 ^ 47 := by
  have s1 := abs_le.1 h2
  norm_num at s1
  have hσ : 0 < σ := by linarith
  have hρ : 0 < ρ := by linarith
  rw [div_sub_div _ _ hσ.ne' hρ.ne', abs_div, abs_of_pos (mul_pos hσ hρ), div_le_iff₀ (mul_pos hσ hρ),
    show c * ρ - σ * x = (c - x) * ρ - (σ - ρ) * x by ring]
  have t1 : |(c - x) * ρ| ≤ (ρ / 2 ^ 53 + 1 / 2 ^ 200) * ρ := by
    rw [abs_mul, abs_of_pos hρ]
    refine mul_le_mul_of_nonneg_right (h3.trans ?_) hρ.le
    have : |x| / 2 ^ 53 ≤ ρ / 2 ^ 53 := by gcongr
    linarith
  have t2 : |(σ - ρ) * x| ≤ ρ / 2 ^ 48 * ρ := by
    rw [abs_mul]
    exact mul_le_mul h2 h4 (abs_nonneg _) (by positivity)
  have t3 := abs_sub ((c - x) * ρ) ((σ - ρ) * x)
  have t4 : 99 / 100 * (ρ * ρ) ≤ σ * ρ := by nlinarith
  have t5 : ρ ≤ 2 * (ρ * ρ) := by nlinarith
  generalize |(c - x) * ρ - (σ - ρ) * x| = g at *
  generalize |(c - x) * ρ| = u at *
  generalize |(σ - ρ) * x| = w at *
  rw [show (ρ / 2 ^ 53 + 1 / 2 ^ 200) * ρ = ρ * ρ / 2 ^ 53 + ρ / 2 ^ 200 by ring] at t1
  rw [show ρ / 2 ^ 48 * ρ = ρ * ρ / 2 ^ 48 by ring] at t2
  generalize ρ * ρ = a at *
  generalize σ * ρ = b at *
  norm_num at t1 t2 ⊢
  linarith

theorem bring_near {d t p ρ σ : ℝ} (ht : |t| ≤ 32768) (h1 : 1 ≤ d) (h2 : d ≤ 32768) (hσ : d ≤ σ)
    (hs : |σ - ρ| ≤ ρ / 2 ^ 48) (hx : |t - p| ≤ ρ) :
    |R.rnd (t - R.rnd (min d σ * R.rnd (R.rnd (t - p) / σ))) - (t + d / ρ * (p - t))| ≤ 1 / 2 ^ 30 := by
  rw [min_eq_left hσ]
  have s1 := abs_le.1 hs
  norm_num at s1
  have hρ : 1 / 2 ≤ ρ := by linarith
  have q := abs_le.1 (quotient_near hρ hs (R.error_rel (t - p)) hx)
  set c := R.rnd (t - p) / σ
  set e := (t - p) / ρ with he
  have e1 : |e| ≤ 1 := by
    rw [he, abs_div, abs_of_pos (by linarith : 0 < ρ), div_le_one (by linarith)]
    exact hx
  have e1 := abs_le.1 e1
  norm_num at q
  have r1 := errPow R 1 (x := c) (abs_le.2 ⟨by linarith, by linarith⟩)
  norm_num at r1
  have r1 := abs_le.1 r1
  set g := R.rnd c
  have hg : |d * g - d * e| ≤ 32768 * (1 / 2 ^ 46) := by
    rw [← mul_sub, abs_mul, abs_of_pos (by linarith)]
    refine mul_le_mul h2 ?_ (abs_nonneg _) (by norm_num)
    norm_num
    exact abs_le.2 ⟨by linarith, by linarith⟩
  have hde : |d * e| ≤ 32768 := by
    rw [abs_mul, abs_of_pos (by linarith)]
    have := mul_le_mul h2 (abs_le.2 e1) (abs_nonneg e) (by norm_num : (0 : ℝ) ≤ 32768)
    linarith
  have hg := abs_le.1 hg
  have hde := abs_le.1 hde
  norm_num at hg
  have r2 := errPow R 16 (x := d * g) (abs_le.2 ⟨by linarith, by linarith⟩)
  norm_num at r2
  have r2 := abs_le.1 r2
  set z := R.rnd (d * g)
  have t1 := abs_le.1 ht
  have r3 := errPow R 17 (x := t - z) (abs_le.2 ⟨by linarith, by linarith⟩)
  norm_num at r3
  have r3 := abs_le.1 r3
  have key : d / ρ * (p - t) = -(d * e) := by rw [he]; ring
  rw [key]
  norm_num
  exact abs_le.2 ⟨by linarith, by linarith⟩

theorem between {d t p ρ : ℝ} (ht : |t| ≤ 32768) (hp : |p| ≤ 32768) (h0 : 0 ≤ d) (hρ : 1 / 2 ≤ ρ) (h : d ≤ ρ + 1 / 2 ^ 30)
    (hx : |t - p| ≤ ρ) : |t + d / ρ * (p - t)| ≤ 32768 + 1 / 2 ^ 30 := by
  have hρ0 : 0 < ρ := by linarith
  rcases le_or_gt d ρ with hd | hd
  · have l1 : d / ρ ≤ 1 := (div_le_one hρ0).2 hd
    have l0 : 0 ≤ d / ρ := div_nonneg h0 hρ0.le
    generalize d / ρ = l at *
    have t1 := abs_le.1 ht
    have p1 := abs_le.1 hp
    have : |t + l * (p - t)| ≤ 32768 := abs_le.2 ⟨by nlinarith, by nlinarith⟩
    exact this.trans (by norm_num)
  · have : t + d / ρ * (p - t) = p + (d - ρ) * ((p - t) / ρ) := by field_simp; ring
    rw [this]
    refine (abs_add_le _ _).trans ?_
    rw [abs_mul, abs_of_pos (by linarith : 0 < d - ρ), abs_div, abs_of_pos hρ0]
    have h1 : |p - t| / ρ ≤ 1 := (div_le_one hρ0).2 (by rw [abs_sub_comm]; exact hx)
    have h2 : 0 ≤ |p - t| / ρ := by positivity
    nlinarith

theorem euclid_coord (t p : Pt) : |t.x - p.x| ≤ euclid t p ∧ |t.y - p.y| ≤ euclid t p := by
  unfold euclid
  constructor <;> rw [← Real.sqrt_sq_eq_abs] <;> apply Real.sqrt_le_sqrt <;> nlinarith [sq_nonneg (t.x - p.x), sq_nonneg (t.y - p.y)]

/-- What the constraint does to one point. -/
theorem brought {d : ℝ} {t p : Pt} (ht : |t.x| ≤ 32768 ∧ |t.y| ≤ 32768) (hp : |p.x| ≤ 32768 ∧ |p.y| ≤ 32768) (h1 : 1 ≤ d)
    (h2 : d ≤ 32768) :
    NearlyBrought d t p (if distance R.rnd t p < d then p else constrainPoint R.rnd d t p) (¬ distance R.rnd t p < d) ∧
    |(if distance R.rnd t p < d then p else constrainPoint R.rnd d t p).x| ≤ 32769 ∧
    |(if distance R.rnd t p < d then p else constrainPoint R.rnd d t p).y| ≤ 32769 := by
  obtain ⟨n1, n2⟩ := distance_near R t p
  norm_num at n1 n2
  split_ifs with hc
  · refine ⟨.inl ⟨fun h => h hc, rfl, ?_⟩, by linarith [hp.1], by linarith [hp.2]⟩
    norm_num
    linarith
  · have hd := not_lt.1 hc
    have hρ : d ≤ euclid t p + 1 / 2 ^ 30 := by
      obtain ⟨x1, x2⟩ := abs_le.1 ht.1
      obtain ⟨y1, y2⟩ := abs_le.1 hp.1
      norm_num
      by_contra hcon
      push Not at hcon
      linarith
    have hs : |distance R.rnd t p - euclid t p| ≤ euclid t p / 2 ^ 48 := by
      norm_num at hρ ⊢
      exact abs_le.2 ⟨by linarith, by linarith⟩
    obtain ⟨c1, c2⟩ := euclid_coord t p
    have b1 : |(constrainPoint R.rnd d t p).x - (t.x + d / euclid t p * (p.x - t.x))| ≤ 1 / 2 ^ 30 :=
      bring_near R ht.1 h1 h2 hd hs c1
    have b2 : |(constrainPoint R.rnd d t p).y - (t.y + d / euclid t p * (p.y - t.y))| ≤ 1 / 2 ^ 30 :=
      bring_near R ht.2 h1 h2 hd hs c2
    have hh : 1 / 2 ≤ euclid t p := by norm_num at hρ; linarith
    refine ⟨.inr ⟨hc, hρ, b1, b2⟩, ?_, ?_⟩
    · have := between ht.1 hp.1 (by linarith) hh hρ c1
      have b1 := abs_le.1 b1
      have := abs_le.1 this
      norm_num at this b1
      exact abs_le.2 ⟨by linarith, by linarith⟩
    · have := between ht.2 hp.2 (by linarith) hh hρ c2
      have b2 := abs_le.1 b2
      have := abs_le.1 this
      norm_num at this b2
      exact abs_le.2 ⟨by linarith, by linarith⟩

end

end Verif.Wobbly.Rounded
