import Verif.Lemmas.WobblyBook
import Verif.Lemmas.WobblyBookSlow
import Verif.Lemmas.WobblySwing
import Verif.Lemmas.WobblyFineWeb

/-! # Which springs are at a mesh point as long as `Step` is defined, whatever the rounding (for C138) -/

namespace Verif.Wobbly

open Spec Outcome Classical

/-- A spring that will not come back ends at an anchor that has been released. -/
def Loose (s : State) : Prop :=
  ∀ y ∈ stolens s.live, y.id ∈ s.pending → ∃ k, HasEnd y k ∧ ∀ c ∈ s.live, c.hid ≠ k

theorem loose_frame {s s' : State} (h : Loose s) {g : Live → Live} (hg : KeepsSkel g) (hlive : s'.live = s.live.map g)
    (hp : s'.pending = s.pending) : Loose s' := by
  intro y hy hyp
  rw [hlive, hg.stolens_map] at hy
  rw [hp] at hyp
  obtain ⟨k, h1, h2⟩ := h y hy hyp
  refine ⟨k, h1, fun c hc => ?_⟩
  rw [hlive] at hc
  obtain ⟨c', hc', rfl⟩ := List.mem_map.1 hc
  rw [hg.hid]
  exact h2 c' hc'

theorem mem_pendingAfter {l : List Spring} {p : List ℕ} {id n : ℕ} (h : n ∈ pendingAfter l p id) : n ∈ p ∨ n = id := by
  unfold pendingAfter at h
  split_ifs at h
  · exact .inl h
  · rcases List.mem_append.1 h with h | h
    · exact .inl h
    · exact .inr (List.mem_singleton.1 h)

namespace Rounded

variable {r : ℝ → ℝ} {b : ℕ} {s s' : State} {op : Op} {y : Res}

theorem exec_loose (B : Book b s) (h : Loose s) (e : exec r s op = .ok (s', y)) : Loose s' := by
  cases op with
  | grab p =>
    obtain ⟨i, t, n, -, hn, rfl, -⟩ := grab_fields e
    intro z hz hzp
    have hz' : z ∈ stolens s.live := by simpa [grabbed, State.lock, Kind.stolenOf] using hz
    obtain ⟨k, h1, h2⟩ := h z hz' hzp
    refine ⟨k, h1, fun c hc => ?_⟩
    simp only [grabbed, State.lock, List.mem_append, List.mem_singleton] at hc
    rcases hc with hc | rfl
    · exact h2 c hc
    · exact (B.ends.lt z (List.mem_append_right _ hz') k h1).ne'
  | insert p =>
    obtain ⟨t, n, found, d1, d2, hn, hf, rfl, -⟩ := insert_fields e
    intro z hz hzp
    simp only [State.install, preInsert, stolens_append, stolens_single, Kind.stolenOf, List.mem_append, List.mem_singleton] at hz hzp
    have hz' : z ∈ stolens s.live := by
      rcases hz with hz | rfl
      · exact hz
      · exfalso
        have h1 : 0 < s.pending.count z.id := List.count_pos_iff.2 hzp
        have h2 : s.pending.count z.id ≤ ((stolens s.live).map Spring.id).count z.id := B.inv.pend z.id
        have h3 : (s.springs.map Spring.id).count z.id + ((stolens s.live).map Spring.id).count z.id ≤ 1 := B.inv.uniq z.id
        have h4 : 0 < (s.springs.map Spring.id).count z.id := List.count_pos_iff.2 (List.mem_map.2 ⟨z, hf, rfl⟩)
        omega
    obtain ⟨k, h1, h2⟩ := h z hz' hzp
    refine ⟨k, h1, fun c hc => ?_⟩
    simp only [State.install, preInsert, List.mem_append, List.mem_singleton] at hc
    rcases hc with hc | rfl
    · exact h2 c hc
    · exact (B.ends.lt z (List.mem_append_right _ hz') k h1).ne'
  | moveAnchor k d =>
    obtain ⟨-, ⟨t, m, rfl⟩ | ⟨t, rfl⟩⟩ := moveAnchor_fields e
    · exact loose_frame h keeps_id (by simp) rfl
    · exact loose_frame h (keeps_shiftR_one k d) rfl rfl
  | release k =>
    rcases release_fields e with ⟨-, rfl, -⟩ | ⟨a, s1, t, n, ha, h1, h0, hn, rfl, -⟩
    · exact h
    have ham : a ∈ s.live := List.mem_of_find?_eq_some ha
    have hak : a.hid = k := by simpa using List.find?_some ha
    have hsub : ∀ x ∈ s.live.filter (fun b => b.hid ≠ k), x ∈ s.live ∧ x.hid ≠ k := by
      intro x hx
      simpa using hx
    have hst : ∀ x ∈ stolens (s.live.filter fun b => b.hid ≠ k), x ∈ stolens s.live := by
      intro x hx
      obtain ⟨c, hc, hx⟩ := mem_stolens.1 hx
      exact mem_stolens.2 ⟨c, (hsub c hc).1, hx⟩
    cases hkind : a.kind with
    | grab i =>
      rw [hkind] at h1
      obtain ⟨-, rfl⟩ := unlock_ok h1
      intro z hz hzp
      obtain ⟨j, g1, g2⟩ := h z (hst z hz) hzp
      exact ⟨j, g1, fun c hc => g2 c (hsub c hc).1⟩
    | ins p0 st f g =>
      rw [hkind] at h1
      simp only [State.releaseKind, Outcome.ok.injEq] at h1
      rw [removeTracked_eq, removeTracked_eq, replace_eq] at h1
      subst h1
      intro z hz hzp
      simp only at hz hzp
      have hz' := hst z hz
      have hzp' := List.mem_of_mem_filter hzp
      rcases mem_pendingAfter hzp' with q | q
      · rcases mem_pendingAfter q with q | q
        · obtain ⟨j, g1, g2⟩ := h z hz' q
          exact ⟨j, g1, fun c hc => g2 c (hsub c hc).1⟩
        · have := (B.ends.own a ham p0 st f g hkind z (List.mem_append_right _ hz')).2 q
          exact ⟨k, .inl (by rw [this.1, hak]), fun c hc => (hsub c hc).2⟩
      · have := (B.ends.own a ham p0 st f g hkind z (List.mem_append_right _ hz')).1 q
        exact ⟨k, .inl (by rw [this.1, hak]), fun c hc => (hsub c hc).2⟩
  | step t =>
    obtain ⟨pos, vel, more, rfl, -⟩ := step_fields e
    exact loose_frame h keeps_id (by simp) rfl
  | moveBy d =>
    simp only [exec, Outcome.ok.injEq, Prod.mk.injEq] at e
    rw [← e.1]
    exact loose_frame h (keeps_shiftR d) rfl rfl
  | moveTo p =>
    obtain ⟨n, d, hn, rfl, -⟩ := moveTo_fields e
    exact loose_frame h (keeps_shiftR d) rfl rfl
  | resize w h' =>
    obtain ⟨-, rfl | ⟨n, pos, t, f, q, hn, rfl⟩⟩ := resize_fields e
    · exact h
    · exact loose_frame h (keeps_scaleR f q) rfl rfl
  | setSettings x =>
    simp only [exec, Outcome.ok.injEq, Prod.mk.injEq] at e
    rw [← e.1]
    exact loose_frame h keeps_id (by simp) rfl
  | elsewhere n =>
    simp only [exec, Outcome.ok.injEq, Prod.mk.injEq] at e
    rw [← e.1]
    exact loose_frame h keeps_id (by simp) rfl

theorem run_loose {p : Pt} {w h : ℝ} {x : Settings} {ops : List Op} {rs : List Res}
    (e : run r (Rounded.new r p w h x b) ops = .ok (s, rs)) : Loose s :=
  (run_keeps (P := fun s => Book b s ∧ Loose s) (fun _ _ _ _ h e => ⟨exec_book h.1 e, exec_loose h.1 h.2 e⟩)
    ⟨book_new p w h x b, fun y hy => by simp [Rounded.new] at hy⟩ e).2

/-- If `Step` is defined then every spring that was taken out comes back. -/
theorem loose_none (B : Book b s) (h : Loose s) (hd : ¬ dangling s.springs s.live) : s.pending = [] := by
  have he : Ends (flat s) := B.ends.frame keeps_id (by simp [flat]) rfl rfl
  have hiff := dangling_iff_stolen B.inv he
  by_contra hne
  obtain ⟨n, hn⟩ := List.exists_mem_of_ne_nil _ hne
  have h1 : 0 < s.pending.count n := List.count_pos_iff.2 hn
  have h2 : s.pending.count n ≤ ((stolens s.live).map Spring.id).count n := B.inv.pend n
  have h3 : 0 < ((stolens s.live).map Spring.id).count n := by omega
  obtain ⟨z, hz, rfl⟩ := List.mem_map.1 (List.count_pos_iff.1 h3)
  obtain ⟨k, h4, h5⟩ := h z hz hn
  obtain ⟨a, ha, hza⟩ := mem_stolens.1 hz
  exact hd (hiff.2 ⟨a, ha, z, hza, k, h4, h5⟩)

end Rounded

/-! ## The web -/

theorem tracked_sum (val : ℕ → ℕ) (l : List Live) :
    ((tracked l).map val).sum = (l.map fun a => (a.kind.trackedOf.map val).sum).sum := by
  induction l with
  | nil => rfl
  | cons a l ih =>
    have : tracked (a :: l) = a.kind.trackedOf ++ tracked l := by simp [tracked]
    rw [this, List.map_append, List.sum_append, ih, List.map_cons, List.sum_cons]

theorem stolens_sum (v : Spring → ℕ) (l : List Live) :
    ((stolens l).map v).sum = (l.map fun a => (a.kind.stolenOf.map v).sum).sum := by
  induction l with
  | nil => rfl
  | cons a l ih =>
    have : stolens (a :: l) = a.kind.stolenOf ++ stolens l := by simp [stolens]
    rw [this, List.map_append, List.sum_append, ih, List.map_cons, List.sum_cons]

/-- What depends on a spring depends on its identity. -/
theorem byId {l : List Spring} (hnd : (l.map Spring.id).Nodup) (v : Spring → ℕ) : ∃ val : ℕ → ℕ, ∀ x ∈ l, val x.id = v x := by
  refine ⟨fun n => if h : ∃ x ∈ l, x.id = n then v h.choose else 0, fun x hx => ?_⟩
  have h : ∃ z ∈ l, z.id = x.id := ⟨x, hx, rfl⟩
  simp only [dif_pos h]
  rw [List.inj_on_of_nodup_map hnd h.choose_spec.1 hx h.choose_spec.2]

/-- If every spring that was taken out comes back, the springs form a web. -/
theorem web_of_ends {b : ℕ} {s : State} (hs : Inv b s) (he : Ends s) (hp : s.pending = []) : Web s := by
  refine ⟨hp, fun a ha st f g h1 h2 x hx => ?_, fun i => ?_⟩
  · cases hk : a.kind with
    | grab j =>
      rw [hk] at h1
      simp [Kind.stolenOf] at h1
    | ins q st' f' g' =>
      rw [hk] at h1 h2
      simp only [Kind.stolenOf, Kind.trackedOf, List.cons.injEq, and_true] at h1 h2
      subst h1
      obtain ⟨rfl, rfl⟩ := h2
      have := he.own a ha q st' f' g' hk x hx
      refine ⟨fun e => ?_, fun e => ?_⟩
      · obtain ⟨h3, h4⟩ := this.1 e
        exact ⟨by rw [h3]; simp [Node.isMesh], h4⟩
      · obtain ⟨h3, h4⟩ := this.2 e
        exact ⟨by rw [h3]; simp [Node.isMesh], h4⟩
  · set l := s.springs ++ stolens s.live with hl
    have hnd : (l.map Spring.id).Nodup := by
      rw [List.nodup_iff_count_le_one]
      intro x
      rw [hl, List.map_append, List.count_append]
      exact hs.uniq x
    have hids : (l.map Spring.id).Perm (baseIds b ++ tracked s.live) := by
      rw [List.perm_iff_count]
      intro x
      have := hs.book x
      rw [hp, List.count_nil, add_zero] at this
      rw [hl, List.map_append, List.count_append, List.count_append]
      exact this
    obtain ⟨val, hval⟩ := byId hnd (tiedAt i)
    have e1 : (l.map (tiedAt i)).sum = ((baseIds b).map val).sum + ((tracked s.live).map val).sum := by
      rw [← List.sum_append, ← List.map_append, ← (hids.map val).sum_eq, List.map_map]
      exact congrArg List.sum (List.map_congr_left fun x hx => (hval x hx).symm)
    have hmem : ∀ n ∈ baseIds b ++ tracked s.live, ∃ x ∈ l, x.id = n := by
      intro n hn
      rw [← hids.mem_iff] at hn
      exact List.mem_map.1 hn
    have e2 : ((baseIds b).map val).sum = 0 := by
      refine List.sum_eq_zero fun v hv => ?_
      obtain ⟨n, hn, rfl⟩ := List.mem_map.1 hv
      obtain ⟨x, hx, rfl⟩ := hmem n (List.mem_append_left _ hn)
      rw [hval x hx]
      rcases hs.shape x hx with h | ⟨h, -⟩
      · obtain ⟨-, ⟨j, hj⟩, -⟩ := baseEnds_mesh h
        simp only at hj
        unfold tiedAt
        rw [hj]
        simp [Node.isMesh]
      · have := (mem_baseIds.1 hn).2
        omega
    have e3 : ((tracked s.live).map val).sum = ((stolens s.live).map (endsAt i)).sum := by
      rw [tracked_sum, stolens_sum]
      refine congrArg List.sum (List.map_congr_left fun a ha => ?_)
      cases hk : a.kind with
      | grab j => rfl
      | ins q st f g =>
        have hf : f ∈ tracked s.live := List.mem_flatMap.2 ⟨a, ha, by rw [hk]; simp [Kind.trackedOf]⟩
        have hg : g ∈ tracked s.live := List.mem_flatMap.2 ⟨a, ha, by rw [hk]; simp [Kind.trackedOf]⟩
        obtain ⟨x, hx, ex⟩ := hmem f (List.mem_append_right _ hf)
        obtain ⟨y, hy, ey⟩ := hmem g (List.mem_append_right _ hg)
        have ox := (he.own a ha q st f g hk x hx).1 ex
        have oy := (he.own a ha q st f g hk y hy).2 ey
        simp only [Kind.trackedOf, Kind.stolenOf, List.map_cons, List.map_nil, List.sum_cons, List.sum_nil, add_zero]
        rw [← ex, ← ey, hval x hx, hval y hy]
        unfold tiedAt endsAt
        rw [ox.1, ox.2, oy.1, oy.2]
        simp [Node.isMesh, eq_comm]
    have e4 : ((stolens s.live).map (endsAt i)).sum =
        ((stolens s.live).map (plainAt i)).sum + ((stolens s.live).map (tiedAt i)).sum := by
      rw [← List.sum_map_add]
      exact congrArg List.sum (List.map_congr_left fun x _ => endsAt_eq i x)
    have e5 : (l.map (tiedAt i)).sum = (s.springs.map (tiedAt i)).sum + ((stolens s.live).map (tiedAt i)).sum := by
      rw [hl, List.map_append, List.sum_append]
    omega

/-- An inserted anchor adds one spring. -/
theorem web_length {b : ℕ} {s : State} (hs : Inv b s) (hp : s.pending = []) : s.springs.length ≤ 24 + s.live.length := by
  have hids : ((s.springs ++ stolens s.live).map Spring.id).Perm (baseIds b ++ tracked s.live) := by
    rw [List.perm_iff_count]
    intro x
    have := hs.book x
    rw [hp, List.count_nil, add_zero] at this
    rw [List.map_append, List.count_append, List.count_append]
    exact this
  have h1 := hids.length_eq
  rw [List.length_map, List.length_append, List.length_append, baseIds_eq, List.length_range'] at h1
  have h2 : (tracked s.live).length = 2 * (stolens s.live).length ∧ (stolens s.live).length ≤ s.live.length := by
    clear h1 hids hs hp
    induction s.live with
    | nil => exact ⟨rfl, le_refl _⟩
    | cons a l ih =>
      have e1 : tracked (a :: l) = a.kind.trackedOf ++ tracked l := by simp [tracked]
      have e2 : stolens (a :: l) = a.kind.stolenOf ++ stolens l := by simp [stolens]
      rw [e1, e2, List.length_append, List.length_append, List.length_cons]
      cases a.kind with
      | grab i =>
        simp only [Kind.trackedOf, Kind.stolenOf, List.length_nil]
        omega
      | ins q st f g =>
        simp only [Kind.trackedOf, Kind.stolenOf, List.length_cons, List.length_nil]
        omega
  omega

/-- No two mesh points are more than six edges apart. -/
theorem near_edges {g : Idx → ℝ} {B : ℝ} (h : ∀ z ∈ baseEdges, |g z.2.1 - g z.1| ≤ B) (i j : Idx) : |g i - g j| ≤ 6 * B := by
  let at_ : Fin 4 → Fin 4 → Idx := fun a c => ⟨4 * a.val + c.val, by omega⟩
  have hi : ∀ i : Idx, ∃ a c, i = at_ a c := fun i => ⟨⟨i.val / 4, by omega⟩, ⟨i.val % 4, by omega⟩, by
    ext
    simp only [at_]
    omega⟩
  rw [baseEdges_list] at h
  simp only [List.mem_cons, List.not_mem_nil, or_false, forall_eq_or_imp, forall_eq, abs_le] at h
  obtain ⟨h1, h2, h3, h4, h5, h6, h7, h8, h9, h10, h11, h12, h13, h14, h15, h16, h17, h18, h19, h20, h21, h22, h23, h24⟩ := h
  have line : ∀ u : Fin 4 → ℝ, -B ≤ u 1 - u 0 ∧ u 1 - u 0 ≤ B → -B ≤ u 2 - u 1 ∧ u 2 - u 1 ≤ B →
      -B ≤ u 3 - u 2 ∧ u 3 - u 2 ≤ B → ∀ a c, |u a - u c| ≤ 3 * B := by
    intro u h1 h2 h3 a c
    rw [abs_le]
    fin_cases a <;> fin_cases c <;> simp only [Fin.zero_eta, Fin.mk_one, Fin.reduceFinMk] <;> constructor <;>
      linarith [h1.1, h1.2, h2.1, h2.2, h3.1, h3.2]
  have hrow : ∀ a c c', |g (at_ a c) - g (at_ a c')| ≤ 3 * B := by
    intro a
    refine line (fun c => g (at_ a c)) ?_ ?_ ?_ <;> fin_cases a <;> assumption
  have hcol : ∀ c a a', |g (at_ a c) - g (at_ a' c)| ≤ 3 * B := by
    intro c
    refine line (fun a => g (at_ a c)) ?_ ?_ ?_ <;> fin_cases c <;> assumption
  obtain ⟨a, c, rfl⟩ := hi i
  obtain ⟨a', c', rfl⟩ := hi j
  have k1 := hrow a c c'
  have k2 := hcol c' a a'
  rw [abs_le] at k1 k2 ⊢
  constructor <;> linarith [k1.1, k1.2, k2.1, k2.2]

/-- With an anchor, the springs hold every free point. -/
theorem web_firm {b : ℕ} {s : State} (hs : Inv b s) (hw : Web s) (hl : s.live ≠ []) {c : ℝ} (hc : 1 / 300 ≤ c) :
    Firm s.springs c fun i => ¬ s.locks i > 0 := by
  intro y hy
  set Q := (s.springs.map fun z => (ground y z.a - ground y z.b) * (ground y z.a - ground y z.b)).sum with hQ
  have Q0 : 0 ≤ Q := list_nonneg _ _ fun z _ => mul_self_nonneg _
  set E := Real.sqrt Q with hE
  have E0 : 0 ≤ E := Real.sqrt_nonneg _
  have hE' : ∀ z ∈ s.springs, |ground y z.b - ground y z.a| ≤ E := by
    intro z hz
    refine Real.abs_le_sqrt ?_
    have k : (ground y z.a - ground y z.b) * (ground y z.a - ground y z.b) ≤ Q :=
      List.single_le_sum (fun v hv => by
        obtain ⟨z, -, rfl⟩ := List.mem_map.1 hv
        exact mul_self_nonneg _) _ (List.mem_map.2 ⟨z, hz, rfl⟩)
    nlinarith
  have htied : ∀ i, TiedTo s i → |y i| ≤ E := by
    rintro i ⟨z, hz, ha, hb⟩
    have k := hE' z hz
    rw [hb] at k
    cases hza : z.a with
    | mesh j => exact absurd (by rw [hza]; trivial) ha
    | anchor j =>
      rw [hza] at k
      exact (sub_zero (y i)) ▸ k
  have hedge : ∀ z ∈ baseEdges, |y z.2.1 - y z.1| ≤ 2 * E := by
    intro z hz
    rcases hw.edges hs hz with ⟨u, hu, ha, hb⟩ | ⟨h1, h2⟩
    · have k := hE' u hu
      rw [ha, hb] at k
      exact (show |y z.2.1 - y z.1| ≤ E from k).trans (by linarith)
    · have k1 := htied _ h1
      have k2 := htied _ h2
      rw [abs_le] at k1 k2 ⊢
      constructor <;> linarith [k1.1, k1.2, k2.1, k2.2]
  have base : ∃ j, |y j| ≤ E := by
    obtain ⟨a, ha⟩ := List.exists_mem_of_ne_nil _ hl
    by_cases hi : IsInserted a
    · obtain ⟨j, hj⟩ := hw.some_tied hs ha hi
      exact ⟨j, htied j hj⟩
    · cases hkk : a.kind with
      | ins p st f g => exact absurd ⟨p, st, f, g, hkk⟩ hi
      | grab j =>
        have hlock : s.locks j > 0 := by
          rw [hs.locks, grabs, gt_iff_lt, List.countP_pos_iff]
          exact ⟨a, ha, by rw [hkk]; simp [Kind.isGrab]⟩
        exact ⟨j, by rw [hy j (not_not.2 hlock), abs_zero]; exact E0⟩
  obtain ⟨j, hj⟩ := base
  have hyi : ∀ i, y i ^ 2 ≤ 169 * Q := by
    intro i
    have k := near_edges hedge i j
    have k' : |y i| ≤ 13 * E := by
      rw [abs_le] at hj k ⊢
      constructor <;> linarith [k.1, k.2, hj.1, hj.2]
    have k2 := pow_le_pow_left₀ (abs_nonneg _) k' 2
    rw [sq_abs, mul_pow, Real.sq_sqrt Q0] at k2
    linarith
  have hsum : ∑ i, y i ^ 2 ≤ 16 * (169 * Q) := by
    calc ∑ i, y i ^ 2 ≤ ∑ _i : Fin 16, 169 * Q := Finset.sum_le_sum fun i _ => hyi i
      _ = _ := by simp
  have k := mul_le_mul_of_nonneg_right hc Q0
  norm_num
  linarith

/-- The same without rounding: what any calls leave, if `Step` is defined. -/
theorem web_run {p : Pt} {w h : ℝ} {x : Settings} {b : ℕ} {ops : List Op} {s : State} {rs : List Res}
    (e : (State.new p w h x b).run ops = .ok (s, rs)) (hu : s.exec (.step 16) ≠ .ub) : Web s ∧ ¬ dangling s.springs s.live := by
  rw [← Rounded.run_exact, ← Rounded.new_exact] at e
  rw [← Rounded.exec_exact] at hu
  have B := Rounded.run_book e
  have hd : ¬ dangling s.springs s.live := fun h => hu ((Rounded.step_undefined_iff s (by norm_num)).2 h)
  have he : Ends (Rounded.flat s) := B.ends.frame keeps_id (by simp [Rounded.flat]) rfl rfl
  have hp : s.pending = [] := Rounded.loose_none B (Rounded.run_loose e) hd
  have W := web_of_ends B.inv he hp
  exact ⟨⟨W.1, W.2, W.3⟩, hd⟩

theorem step_defined {s : State} (hd : ¬ dangling s.springs s.live) : s.exec (.step 16) ≠ .ub := by
  rw [← Rounded.exec_exact]
  exact fun h => hd ((Rounded.step_undefined_iff s (by norm_num)).1 h)

end Verif.Wobbly
