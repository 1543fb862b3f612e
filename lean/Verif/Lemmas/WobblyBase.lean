import Verif.Lemmas.WobblyRest

/-! Lengths of the base springs, and what happens once nothing inserted is left. -/

namespace Verif.Wobbly

open Spec Outcome

theorem run_induction_along {Q : State → Op → Prop} {P : State → Prop}
    (hP : ∀ s op s' r, P s → Q s op → s.exec op = .ok (s', r) → P s') {s s' : State}
    {ops : List Op} {rs : List Res} (h0 : P s) (hQ : AllAlong Q s ops) (h : s.run ops = .ok (s', rs)) : P s' := by
  induction ops generalizing s rs with
  | nil =>
    simp only [State.run, Outcome.ok.injEq, Prod.mk.injEq] at h
    rw [← h.1]
    exact h0
  | cons op ops ih =>
    unfold State.run at h
    rw [bind_eq_ok] at h
    obtain ⟨⟨s1, r1⟩, h1, h⟩ := h
    rw [bind_eq_ok] at h
    obtain ⟨⟨s2, r2⟩, h2, h⟩ := h
    simp only [Outcome.ok.injEq, Prod.mk.injEq] at h
    rw [h.1] at h2
    exact ih (hP s op s1 r1 h0 hQ.1 h1) (hQ.2 s1 r1 h1) h2

theorem noneInserted_stolens {s : State} (h : NoneInserted s) : stolens s.live = [] ∧ tracked s.live = [] := by
  simp only [stolens, tracked, List.flatMap_eq_nil_iff]
  constructor <;> intro a ha <;> cases hk : a.kind with
  | grab i => rfl
  | ins p st f g => exact absurd ⟨p, st, f, g, hk⟩ (h a ha)

/-- Base springs have the length of the current tile. -/
def BaseLen (b : ℕ) (s : State) : Prop :=
  ∀ x ∈ s.springs ++ stolens s.live, x.id ∈ baseIds b → x ∈ baseSprings s.tile b

theorem baseLen_new (p : Pt) (w h : ℝ) (x : Settings) (b : ℕ) : BaseLen b (State.new p w h x b) := by
  intro y hy _
  have hy' : y ∈ (State.new p w h x b).springs := by simpa [State.new] using hy
  exact hy'

theorem baseLen_frame {b : ℕ} {s s' : State} (hs : BaseLen b s) (ht : s'.tile = s.tile)
    (hsub : ∀ x ∈ s'.springs ++ stolens s'.live, x ∈ s.springs ++ stolens s.live ∨ x.id ∉ baseIds b) :
    BaseLen b s' := by
  intro x hx hid
  rw [ht]
  rcases hsub x hx with h | h
  · exact hs x h hid
  · exact absurd hid h

theorem scale_base {tile f : Pt} {b : ℕ} {x : Spring} (hx : x ∈ baseSprings tile b) :
    x.scaleLength f ∈ baseSprings (tile.pscale f) b := by
  simp only [baseSprings, List.mem_map] at hx ⊢
  obtain ⟨y, hy, rfl⟩ := hx
  refine ⟨y, hy, ?_⟩
  simp only [Spring.scaleLength, Spring.mk.injEq, true_and]
  split_ifs <;> ext <;> simp

/-- Calls other than resizes leave base springs as they are. -/
theorem base_kept {b : ℕ} {s : State} {op : Op} {s' : State} {r : Res} (hs : Inv b s)
    (hop : ∀ w h, op ≠ .resize w h) (h : s.exec op = .ok (s', r)) : s'.tile = s.tile ∧
    ∀ x ∈ s'.springs ++ stolens s'.live, x ∈ s.springs ++ stolens s.live ∨ x.id ∉ baseIds b := by
  cases op with
  | grab p =>
    obtain ⟨i, t, n, -, hn, ht, rfl, -⟩ := grab_ok h
    refine ⟨rfl, fun x hx => Or.inl ?_⟩
    simpa [grabbed, State.lock, stolens, Kind.stolenOf] using hx
  | insert p =>
    obtain ⟨t, n, found, d1, d2, hn, ht, -, hf, -, -, rfl, -⟩ := insert_ok h
    have hfm := splitStep_mem _ _ _ _ hf
    have hb := hs.baseLe
    refine ⟨rfl, fun x hx => ?_⟩
    simp only [State.install, preInsert, stolens_append, List.mem_append, List.mem_cons, List.not_mem_nil,
      or_false] at hx
    rcases hx with (hx | rfl | rfl) | hx | hx
    · exact Or.inl (List.mem_append_left _ (List.mem_of_mem_filter hx))
    · right
      rw [mem_baseIds]
      simp only
      omega
    · right
      rw [mem_baseIds]
      simp only
      omega
    · exact Or.inl (List.mem_append_right _ hx)
    · left
      simp only [stolens, List.flatMap_cons, Kind.stolenOf, List.flatMap_nil, List.append_nil,
        List.mem_singleton] at hx
      rw [hx]
      exact List.mem_append_left _ hfm
  | moveAnchor k d =>
    obtain ⟨-, ⟨-, rfl⟩ | ⟨a, -, ⟨i, -, rfl⟩ | ⟨-, rfl⟩⟩⟩ := moveAnchor_ok h
    · exact ⟨rfl, fun x hx => Or.inl hx⟩
    · exact ⟨rfl, fun x hx => Or.inl hx⟩
    · refine ⟨rfl, fun x hx => Or.inl ?_⟩
      rw [(keeps_shift_one k d).stolens_map] at hx
      exact hx
  | release k =>
    rcases release_ok h with ⟨-, rfl, -⟩ | ⟨a, s1, t, n, ha, h1, h0, hn, ht, rfl, -⟩
    · exact ⟨rfl, fun x hx => Or.inl hx⟩
    have hm := List.mem_of_find?_eq_some ha
    have hsub : ∀ x ∈ stolens (s.live.filter fun b => b.hid ≠ k), x ∈ stolens s.live := by
      intro x hx
      simp only [stolens, List.mem_flatMap] at hx ⊢
      obtain ⟨c, hc, hx⟩ := hx
      exact ⟨c, List.mem_of_mem_filter hc, hx⟩
    cases hkind : a.kind with
    | grab i =>
      rw [hkind] at h1
      obtain ⟨-, rfl⟩ := unlock_ok h1
      refine ⟨rfl, fun x hx => Or.inl ?_⟩
      rcases List.mem_append.1 hx with hx | hx
      · exact List.mem_append_left _ hx
      · exact List.mem_append_right _ (hsub x hx)
    | ins p0 st f g =>
      rw [hkind] at h1
      simp only [State.releaseKind, Outcome.ok.injEq] at h1
      rw [removeTracked_eq, removeTracked_eq, replace_eq] at h1
      subst h1
      refine ⟨rfl, fun x hx => Or.inl ?_⟩
      rcases List.mem_append.1 hx with hx | hx
      · have : x ∈ removeId (removeId s.springs g) f ∨ x = st := by
          simp only [springsAfter] at hx
          split_ifs at hx
          · exact Or.inl hx
          · simpa using hx
        rcases this with hx | rfl
        · exact List.mem_append_left _ (List.mem_of_mem_filter (List.mem_of_mem_filter hx))
        · refine List.mem_append_right _ ?_
          simp only [stolens, List.mem_flatMap]
          exact ⟨a, hm, by simp [hkind, Kind.stolenOf]⟩
      · exact List.mem_append_right _ (hsub x hx)
  | step t =>
    obtain ⟨pos, vel, more, rfl, -⟩ := step_ok h
    exact ⟨rfl, fun x hx => Or.inl hx⟩
  | moveBy d =>
    simp only [State.exec, Outcome.ok.injEq, Prod.mk.injEq] at h
    rw [← h.1]
    refine ⟨rfl, fun x hx => Or.inl ?_⟩
    simp only [State.moveBy] at hx
    rw [(keeps_shift d).stolens_map] at hx
    exact hx
  | moveTo p =>
    obtain ⟨n, d, hn, rfl, -⟩ := moveTo_ok h
    refine ⟨rfl, fun x hx => Or.inl ?_⟩
    simp only [State.moveBy] at hx
    rw [(keeps_shift d).stolens_map] at hx
    exact hx
  | resize w h' => exact absurd rfl (hop w h')
  | setSettings x =>
    simp only [State.exec, Outcome.ok.injEq, Prod.mk.injEq] at h
    rw [← h.1]
    exact ⟨rfl, fun x hx => Or.inl hx⟩
  | elsewhere n =>
    simp only [State.exec, Outcome.ok.injEq, Prod.mk.injEq] at h
    rw [← h.1]
    exact ⟨rfl, fun x hx => Or.inl hx⟩

theorem baseLen_exec {b : ℕ} (s : State) (op : Op) (s' : State) (r : Res) (hI : Inv b s ∧ BaseLen b s)
    (hop : ResizeAllowed s op) (h : s.exec op = .ok (s', r)) : Inv b s' ∧ BaseLen b s' := by
  refine ⟨inv_exec s op s' r hI.1 h, ?_⟩
  obtain ⟨hs, hl⟩ := hI
  by_cases hres : ∀ w h, op ≠ .resize w h
  · obtain ⟨ht, hk⟩ := base_kept hs hres h
    exact baseLen_frame hl ht hk
  push Not at hres
  obtain ⟨w, h', rfl⟩ := hres
  obtain ⟨-, -, hw, hh, -, ⟨-, -, rfl⟩ | ⟨n, q, hn, -, -, rfl⟩⟩ := resize_ok h
  · exact hl
  · intro x hx hid
    simp only [resized] at hx
    rw [(keeps_scale _ _).stolens_map, (noneInserted_stolens hop).1, List.append_nil] at hx
    obtain ⟨y, hy, rfl⟩ := List.mem_map.1 hx
    have := scale_base (f := ⟨w / s.width, h' / s.height⟩) (hl y (List.mem_append_left _ hy) hid)
    have e : s.tile.pscale ⟨w / s.width, h' / s.height⟩ =
        (resized { s with lastId := n } w h' q).tile := by
      ext
      · simp only [State.tile, Pt.pscale_x, resized]
        field_simp
      · simp only [State.tile, Pt.pscale_y, resized]
        field_simp
    rw [e] at this
    exact this

theorem baseLen_run {p : Pt} {w h : ℝ} {x : Settings} {b : ℕ} {ops : List Op} {s : State} {rs : List Res}
    (hops : AllAlong ResizeAllowed (State.new p w h x b) ops)
    (e : (State.new p w h x b).run ops = .ok (s, rs)) : BaseLen b s :=
  (run_induction_along (P := fun s => Inv b s ∧ BaseLen b s) baseLen_exec
    ⟨inv_new p w h x b, baseLen_new p w h x b⟩ hops e).2

/-- With nothing inserted, the identifiers are those of the base springs. -/
theorem ids_perm {b : ℕ} {s : State} (hs : Inv b s) (h : NoneInserted s) :
    s.pending = [] ∧ (s.springs.map Spring.id).Perm (baseIds b) := by
  obtain ⟨h1, h2⟩ := noneInserted_stolens h
  have hp : s.pending = [] := by
    rw [List.eq_nil_iff_forall_not_mem]
    intro x hx
    have h3 := hs.pend x
    rw [h1] at h3
    have h4 := List.count_pos_iff.2 hx
    simp only [List.map_nil, List.count_nil] at h3
    omega
  refine ⟨hp, ?_⟩
  rw [List.perm_iff_count]
  intro x
  have := hs.book x
  rw [h1, h2, hp] at this
  simpa using this

theorem ends_mem {b : ℕ} {s : State} (hs : Inv b s) (h : NoneInserted s) {x : Spring} (hx : x ∈ s.springs) :
    (x.id, x.a, x.b) ∈ baseEnds b := by
  have hid : x.id ∈ baseIds b := (ids_perm hs h).2.mem_iff.1 (List.mem_map.2 ⟨x, hx, rfl⟩)
  rcases hs.shape x (List.mem_append_left _ hx) with h' | ⟨h', -⟩
  · exact h'
  · have := (mem_baseIds.1 hid).2
    omega

theorem baseSprings_nodup (t : Pt) (b : ℕ) : (baseSprings t b).Nodup := by
  have := baseIds_nodup b
  rw [← baseSprings_ids t b] at this
  exact List.Nodup.of_map _ this

theorem baseSprings_inj {t : Pt} {b : ℕ} {x y : Spring} (hx : x ∈ baseSprings t b) (hy : y ∈ baseSprings t b)
    (h : x.id = y.id) : x = y := by
  have := baseIds_nodup b
  rw [← baseSprings_ids t b] at this
  exact List.inj_on_of_nodup_map this hx hy h

theorem springs_perm_of {b : ℕ} {l : List Spring} {t : Pt} (hp : (l.map Spring.id).Perm (baseIds b))
    (hm : ∀ x ∈ l, x ∈ baseSprings t b) : l.Perm (baseSprings t b) := by
  have hn : (l.map Spring.id).Nodup := hp.nodup_iff.2 (baseIds_nodup b)
  rw [List.perm_ext_iff_of_nodup (List.Nodup.of_map _ hn) (baseSprings_nodup t b)]
  intro x
  refine ⟨hm x, fun hx => ?_⟩
  have : x.id ∈ l.map Spring.id := by
    rw [hp.mem_iff, ← baseSprings_ids t b]
    exact List.mem_map.2 ⟨x, hx, rfl⟩
  obtain ⟨y, hy, e⟩ := List.mem_map.1 this
  rw [← baseSprings_inj (hm y hy) hx e]
  exact hy

/-- With nothing inserted and no resize while something was, the springs are the base springs. -/
theorem springs_perm {b : ℕ} {s : State} (hs : Inv b s) (hl : BaseLen b s) (h : NoneInserted s) :
    s.springs.Perm (baseSprings s.tile b) := by
  refine springs_perm_of (ids_perm hs h).2 fun x hx => ?_
  exact hl x (List.mem_append_left _ hx) ((ids_perm hs h).2.mem_iff.1 (List.mem_map.2 ⟨x, hx, rfl⟩))

/-- Up to lengths they are base springs in any case. -/
theorem ends_perm {b : ℕ} {s : State} (hs : Inv b s) (h : NoneInserted s) :
    (s.springs.map fun x => (x.id, x.a, x.b)).Perm (baseEnds b) := by
  have e : s.springs.map (fun x => (x.id, x.a, x.b)) =
      (s.springs.map fun x => ({ x with desired := 0 } : Spring)).map fun x => (x.id, x.a, x.b) := by
    simp [Function.comp_def]
  rw [e]
  refine List.Perm.map _ (springs_perm_of (b := b) (t := 0) ?_ ?_)
  · simpa [Function.comp_def] using (ids_perm hs h).2
  · intro x hx
    obtain ⟨y, hy, rfl⟩ := List.mem_map.1 hx
    have := ends_mem hs h hy
    simp only [baseEnds, List.mem_map] at this
    obtain ⟨z, hz, ez⟩ := this
    have hd : z.desired = 0 := by
      simp only [baseSprings, List.mem_map] at hz
      obtain ⟨u, -, rfl⟩ := hz
      simp only
      split_ifs <;> rfl
    simp only [Prod.mk.injEq] at ez
    have : ({ y with desired := 0 } : Spring) = z := by
      cases z
      cases y
      simp_all
    rw [this]
    exact hz

end Verif.Wobbly
