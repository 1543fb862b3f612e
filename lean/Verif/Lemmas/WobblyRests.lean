import Verif.Lemmas.WobblyDangle

/-! Where the springs of inserted anchors end, over all histories. -/

namespace Verif.Wobbly

open Spec Outcome

/-- The springs an inserted anchor put in run from it to the ends of the spring it took out, and no spring ends at the
number of a grab. -/
structure Ends (s : State) : Prop where
  own : ∀ a ∈ s.live, ∀ p st f g, a.kind = .ins p st f g → ∀ y ∈ s.springs ++ stolens s.live,
    (y.id = f → y.a = .anchor a.hid ∧ y.b = st.a) ∧ (y.id = g → y.a = .anchor a.hid ∧ y.b = st.b)
  lt : ∀ y ∈ s.springs ++ stolens s.live, ∀ k, HasEnd y k → k < s.nextHid
  ins : ∀ y ∈ s.springs ++ stolens s.live, ∀ k, HasEnd y k → ∀ c ∈ s.live, c.hid = k → IsInserted c

theorem ends_new (p : Pt) (w h : ℝ) (x : Settings) (b : ℕ) : Ends (State.new p w h x b) where
  own := by simp [State.new]
  lt := by
    intro y hy k hk
    exfalso
    have hy' : y ∈ baseSprings ⟨w / (4 - 1), h / (4 - 1)⟩ b := by
      simpa [State.new] using hy
    simp only [baseSprings, List.mem_map] at hy'
    obtain ⟨e, -, rfl⟩ := hy'
    rcases hk with hk | hk <;> simp at hk
  ins := by simp [State.new]

/-- Fewer springs and fewer anchors. -/
theorem Ends.sub {s s' : State} (hs : Ends s) (hl : ∀ a ∈ s'.live, a ∈ s.live)
    (hsp : ∀ y ∈ s'.springs, y ∈ s.springs ++ stolens s.live) (hn : s'.nextHid = s.nextHid) : Ends s' := by
  have hall : ∀ y ∈ s'.springs ++ stolens s'.live, y ∈ s.springs ++ stolens s.live := by
    intro y hy
    rcases List.mem_append.1 hy with hy | hy
    · exact hsp y hy
    · obtain ⟨c, hc, hy⟩ := mem_stolens.1 hy
      exact List.mem_append_right _ (mem_stolens.2 ⟨c, hl c hc, hy⟩)
  exact ⟨fun a ha p st f g hk y hy => hs.own a (hl a ha) p st f g hk y (hall y hy),
    fun y hy k hk => hn ▸ hs.lt y (hall y hy) k hk,
    fun y hy k hk c hc hck => hs.ins y (hall y hy) k hk c (hl c hc) hck⟩

theorem skel_kind {g : Live → Live} (hg : KeepsSkel g) {a : Live} {p : Pt} {st : Spring} {u v : ℕ}
    (hk : (g a).kind = .ins p st u v) : ∃ q, a.kind = .ins q st u v := by
  have h1 := hg.stolen a
  have h2 := hg.tracked a
  rw [hk] at h1 h2
  cases hc : a.kind with
  | grab i =>
    rw [hc] at h1
    simp [Kind.stolenOf] at h1
  | ins q st' u' v' =>
    rw [hc] at h1 h2
    simp only [Kind.stolenOf, Kind.trackedOf, List.cons.injEq, and_true] at h1 h2
    exact ⟨q, by rw [h1, h2.1, h2.2]⟩

theorem Ends.frame {s s' : State} (hs : Ends s) {g : Live → Live} (hg : KeepsSkel g)
    (hlive : s'.live = s.live.map g)
    (hsp : s'.springs.map (fun x => (x.id, x.a, x.b)) = s.springs.map (fun x => (x.id, x.a, x.b)))
    (hn : s'.nextHid = s.nextHid) : Ends s' := by
  have key : ∀ x ∈ s'.springs ++ stolens s'.live, ∃ y ∈ s.springs ++ stolens s.live,
      y.id = x.id ∧ y.a = x.a ∧ y.b = x.b := by
    intro x hx
    rcases List.mem_append.1 hx with hx | hx
    · have : (x.id, x.a, x.b) ∈ s.springs.map (fun x => (x.id, x.a, x.b)) := by
        rw [← hsp]
        exact List.mem_map.2 ⟨x, hx, rfl⟩
      obtain ⟨y, hy, e⟩ := List.mem_map.1 this
      simp only [Prod.mk.injEq] at e
      exact ⟨y, List.mem_append_left _ hy, e⟩
    · rw [hlive, hg.stolens_map] at hx
      exact ⟨x, List.mem_append_right _ hx, rfl, rfl, rfl⟩
  refine ⟨fun a ha p st u v hk x hx => ?_, fun x hx k hk => ?_, fun x hx k hk c hc hck => ?_⟩
  · rw [hlive] at ha
    obtain ⟨a', ha', rfl⟩ := List.mem_map.1 ha
    obtain ⟨q, hq⟩ := skel_kind hg hk
    obtain ⟨y, hy, e1, e2, e3⟩ := key x hx
    have := hs.own a' ha' q st u v hq y hy
    rw [e1, e2, e3] at this
    rw [hg.hid]
    exact this
  · obtain ⟨y, hy, e1, e2, e3⟩ := key x hx
    rw [hn]
    refine hs.lt y hy k ?_
    unfold HasEnd at hk ⊢
    rw [e2, e3]
    exact hk
  · obtain ⟨y, hy, e1, e2, e3⟩ := key x hx
    rw [hlive] at hc
    obtain ⟨c', hc', rfl⟩ := List.mem_map.1 hc
    rw [hg.hid] at hck
    have h1 : ∀ c : Live, IsInserted c ↔ c.kind.trackedOf ≠ [] := by
      intro c
      rw [isInserted_iff]
      cases c.kind <;> simp [Kind.isIns, Kind.trackedOf]
    rw [h1, hg.tracked, ← h1]
    refine hs.ins y hy k ?_ c' hc' hck
    unfold HasEnd at hk ⊢
    rw [e2, e3]
    exact hk

theorem id_le {b : ℕ} {s : State} (hs : Inv b s) {y : Spring} (hy : y ∈ s.springs ++ stolens s.live) :
    y.id ≤ s.lastId := by
  refine (hs.idsLe y.id ?_).2
  rw [← List.count_append, ← List.map_append]
  exact List.count_pos_iff.2 (List.mem_map_of_mem hy)

theorem count_tracked_pos {l : List Live} {a : Live} (ha : a ∈ l) {f : ℕ} (hf : f ∈ a.kind.trackedOf) :
    0 < (tracked l).count f := by
  rw [List.count_pos_iff]
  unfold tracked
  rw [List.mem_flatMap]
  exact ⟨a, ha, hf⟩

theorem tracked_le {b : ℕ} {s : State} (hs : Inv b s) {a : Live} (ha : a ∈ s.live) {f : ℕ}
    (hf : f ∈ a.kind.trackedOf) : f ≤ s.lastId := by
  have h1 := count_tracked_pos ha hf
  have h2 := hs.book f
  exact (hs.idsLe f (by omega)).2

theorem ends_grabbed {s : State} (hl : Ends s) (i : Idx) (t : Mesh) (n : ℕ) : Ends (grabbed s i t n) := by
  have hx' : ∀ x, x ∈ (grabbed s i t n).springs ++ stolens (grabbed s i t n).live → x ∈ s.springs ++ stolens s.live := by
    intro x hx
    simpa [grabbed, State.lock, stolens, Kind.stolenOf] using hx
  refine ⟨fun a ha p st u v hk x hx => ?_, fun x hx k hk => ?_, fun x hx k hk c hc hck => ?_⟩
  · rcases List.mem_append.1 ha with ha | ha
    · exact hl.own a ha p st u v hk x (hx' x hx)
    · rw [List.mem_singleton.1 ha] at hk
      simp at hk
  · exact (hl.lt x (hx' x hx) k hk).trans (Nat.lt_succ_self _)
  · rcases List.mem_append.1 hc with hc | hc
    · exact hl.ins x (hx' x hx) k hk c hc hck
    · rw [List.mem_singleton.1 hc] at hck
      have := hl.lt x (hx' x hx) k hk
      simp only at hck
      omega

theorem ends_installed {b : ℕ} {s : State} (hs : Inv b s) (hl : Ends s) {t : Mesh} {n : ℕ} (hn : s.lastId ≤ n) {p d1 d2 : Pt}
    {found : Spring} (hfm : found ∈ s.springs) : Ends ((preInsert s t n).install p found d1 d2) := by
  have hmem : ∀ x, x ∈ ((preInsert s t n).install p found d1 d2).springs ++
      stolens ((preInsert s t n).install p found d1 d2).live → x ∈ s.springs ++ stolens s.live ∨
      x = ⟨n + 1, .anchor s.nextHid, found.a, d1 - p⟩ ∨ x = ⟨n + 2, .anchor s.nextHid, found.b, d2 - p⟩ := by
    intro x hx
    simp only [State.install, preInsert, stolens_append, List.mem_append, List.mem_cons, List.not_mem_nil,
      or_false] at hx
    rcases hx with (hx | hx | hx) | hx | hx
    · exact .inl (List.mem_append_left _ (List.mem_of_mem_filter hx))
    · exact .inr (.inl hx)
    · exact .inr (.inr hx)
    · exact .inl (List.mem_append_right _ hx)
    · simp only [stolens, List.flatMap_cons, Kind.stolenOf, List.flatMap_nil, List.append_nil,
        List.mem_singleton] at hx
      rw [hx]
      exact .inl (List.mem_append_left _ hfm)
  have hnew : ∀ x : Spring, x = ⟨n + 1, .anchor s.nextHid, found.a, d1 - p⟩ ∨
      x = ⟨n + 2, .anchor s.nextHid, found.b, d2 - p⟩ → ∀ k, HasEnd x k → k = s.nextHid ∨ HasEnd found k := by
    rintro x (rfl | rfl) k (hk | hk)
    · exact .inl (by simpa using hk.symm)
    · exact .inr (.inl hk)
    · exact .inl (by simpa using hk.symm)
    · exact .inr (.inr hk)
  have hf' : found ∈ s.springs ++ stolens s.live := List.mem_append_left _ hfm
  refine ⟨fun a ha q st u v hk x hx => ?_, fun x hx k hk => ?_, fun x hx k hk c hc hck => ?_⟩
  · rcases List.mem_append.1 ha with ha | ha
    · rcases hmem x hx with hx | hx | hx
      · exact hl.own a ha q st u v hk x hx
      · have hu := tracked_le hs ha (f := u) (by simp [hk, Kind.trackedOf])
        have hv := tracked_le hs ha (f := v) (by simp [hk, Kind.trackedOf])
        rw [hx]
        exact ⟨fun e => absurd e (by simp only; omega), fun e => absurd e (by simp only; omega)⟩
      · have hu := tracked_le hs ha (f := u) (by simp [hk, Kind.trackedOf])
        have hv := tracked_le hs ha (f := v) (by simp [hk, Kind.trackedOf])
        rw [hx]
        exact ⟨fun e => absurd e (by simp only; omega), fun e => absurd e (by simp only; omega)⟩
    · rw [List.mem_singleton.1 ha] at hk ⊢
      simp only [Kind.ins.injEq, preInsert] at hk
      obtain ⟨-, rfl, rfl, rfl⟩ := hk
      rcases hmem x hx with hx | hx | hx
      · have := id_le hs hx
        exact ⟨fun e => by omega, fun e => by omega⟩
      · rw [hx]
        exact ⟨fun _ => ⟨rfl, rfl⟩, fun e => absurd e (by simp)⟩
      · rw [hx]
        exact ⟨fun e => absurd e (by simp), fun _ => ⟨rfl, rfl⟩⟩
  · show k < s.nextHid + 1
    rcases hmem x hx with hx | hx
    · exact (hl.lt x hx k hk).trans (Nat.lt_succ_self _)
    · rcases hnew x hx k hk with rfl | hk
      · exact Nat.lt_succ_self _
      · exact (hl.lt found hf' k hk).trans (Nat.lt_succ_self _)
  · rcases List.mem_append.1 hc with hc | hc
    · have hlt := hs.hidsLt c hc
      rcases hmem x hx with hx | hx
      · exact hl.ins x hx k hk c hc hck
      · rcases hnew x hx k hk with rfl | hk
        · omega
        · exact hl.ins found hf' k hk c hc hck
    · rw [List.mem_singleton.1 hc]
      exact ⟨_, _, _, _, rfl⟩

theorem ends_released {s s1 : State} (hl : Ends s) {k n m : ℕ} {a : Live} {t : Mesh}
    (ha : s.live.find? (fun a => a.hid = k) = some a)
    (h1 : ({ s with live := s.live.filter fun b => b.hid ≠ k } : State).releaseKind a.kind = .ok s1) :
    Ends { s1 with count := m, targets := t, lastId := n } := by
  have hm := List.mem_of_find?_eq_some ha
  cases hkind : a.kind with
  | grab i =>
    rw [hkind] at h1
    obtain ⟨-, rfl⟩ := unlock_ok h1
    exact hl.sub (fun c hc => List.mem_of_mem_filter hc) (fun y hy => List.mem_append_left _ hy) rfl
  | ins p0 st f g =>
    rw [hkind] at h1
    simp only [State.releaseKind, Outcome.ok.injEq] at h1
    rw [removeTracked_eq, removeTracked_eq, replace_eq] at h1
    subst h1
    refine hl.sub (fun c hc => List.mem_of_mem_filter hc) (fun y hy => ?_) rfl
    have : y ∈ removeId (removeId s.springs g) f ∨ y = st := by
      simp only [springsAfter] at hy
      split_ifs at hy
      · exact Or.inl hy
      · simpa using hy
    rcases this with hy | rfl
    · exact List.mem_append_left _ (List.mem_of_mem_filter (List.mem_of_mem_filter hy))
    · exact List.mem_append_right _ (mem_stolens.2 ⟨a, hm, by simp [hkind, Kind.stolenOf]⟩)

theorem ends_exec {b : ℕ} (s : State) (op : Op) (s' : State) (r : Res) (hI : Inv b s ∧ Ends s)
    (h : s.exec op = .ok (s', r)) : Inv b s' ∧ Ends s' := by
  refine ⟨inv_exec s op s' r hI.1 h, ?_⟩
  obtain ⟨hs, hl⟩ := hI
  cases op with
  | grab p =>
    obtain ⟨i, t, n, -, hn, ht, rfl, -⟩ := grab_ok h
    exact ends_grabbed hl i t n
  | insert p =>
    obtain ⟨t, n, found, d1, d2, hn, ht, -, hf, -, -, rfl, -⟩ := insert_ok h
    exact ends_installed hs hl hn (splitStep_mem _ _ _ _ hf)
  | moveAnchor k d =>
    obtain ⟨-, ⟨-, rfl⟩ | ⟨a, -, ⟨i, -, rfl⟩ | ⟨-, rfl⟩⟩⟩ := moveAnchor_ok h
    · exact hl
    · exact hl.frame keeps_id (by simp) rfl rfl
    · exact hl.frame (keeps_shift_one k d) rfl rfl rfl
  | release k =>
    rcases release_ok h with ⟨-, rfl, -⟩ | ⟨a, s1, t, n, ha, h1, h0, hn, ht, rfl, -⟩
    · exact hl
    · exact ends_released hl ha h1
  | step t =>
    obtain ⟨pos, vel, more, rfl, -⟩ := step_ok h
    exact hl.sub (fun _ hc => hc) (fun y hy => List.mem_append_left _ hy) rfl
  | moveBy d =>
    simp only [State.exec, Outcome.ok.injEq, Prod.mk.injEq] at h
    rw [← h.1]
    exact hl.frame (keeps_shift d) rfl rfl rfl
  | moveTo p =>
    obtain ⟨n, d, hn, rfl, -⟩ := moveTo_ok h
    exact hl.frame (keeps_shift d) rfl rfl rfl
  | resize w h' =>
    obtain ⟨-, -, hw, hh, -, ⟨-, -, rfl⟩ | ⟨n, q, hn, -, -, rfl⟩⟩ := resize_ok h
    · exact hl
    · refine hl.frame (keeps_scale _ _) rfl ?_ rfl
      simp [resized, Spring.scaleLength, Function.comp_def]
  | setSettings x =>
    simp only [State.exec, Outcome.ok.injEq, Prod.mk.injEq] at h
    rw [← h.1]
    exact hl.sub (fun _ hc => hc) (fun y hy => List.mem_append_left _ hy) rfl
  | elsewhere n =>
    simp only [State.exec, Outcome.ok.injEq, Prod.mk.injEq] at h
    rw [← h.1]
    exact hl.sub (fun _ hc => hc) (fun y hy => List.mem_append_left _ hy) rfl

theorem ends_run {p : Pt} {w h : ℝ} {x : Settings} {b : ℕ} {ops : List Op} {s : State} {rs : List Res}
    (e : (State.new p w h x b).run ops = .ok (s, rs)) : Inv b s ∧ Ends s :=
  run_induction (P := fun s => Inv b s ∧ Ends s) ends_exec ⟨inv_new p w h x b, ends_new p w h x b⟩ e

/-- A spring of the mesh that ends at an anchor was put in by a live anchor. -/
theorem put_in {b : ℕ} {s : State} (hs : Inv b s) {y : Spring} (hy : y ∈ s.springs) {k : ℕ} (hk : HasEnd y k) :
    ∃ a ∈ s.live, y.id ∈ a.kind.trackedOf := by
  have h1 : 0 < (s.springs.map Spring.id).count y.id := List.count_pos_iff.2 (List.mem_map_of_mem hy)
  have h2 := hs.book y.id
  have h3 := hs.uniq y.id
  have h4 := hs.pend y.id
  have h5 : (baseIds b).count y.id = 0 := by
    rw [List.count_eq_zero, mem_baseIds]
    rcases hs.shape y (List.mem_append_left _ hy) with hb | ⟨hb, -⟩
    · exfalso
      obtain ⟨-, ⟨i, hi⟩, j, hj⟩ := baseEnds_mesh hb
      simp only at hi hj
      rcases hk with hk | hk
      · rw [hi] at hk
        cases hk
      · rw [hj] at hk
        cases hk
    · omega
  have h6 : 0 < (tracked s.live).count y.id := by omega
  rw [List.count_pos_iff] at h6
  unfold tracked at h6
  rwa [List.mem_flatMap] at h6

/-- Both springs of a live anchor are in the mesh or held by another anchor. -/
theorem put_in_exists {b : ℕ} {s : State} (hs : Inv b s) {a : Live} (ha : a ∈ s.live) {f : ℕ}
    (hf : f ∈ a.kind.trackedOf) : ∃ y ∈ s.springs ++ stolens s.live, y.id = f := by
  have h1 := count_tracked_pos ha hf
  have h2 := hs.book f
  have h3 : 0 < ((s.springs ++ stolens s.live).map Spring.id).count f := by
    rw [List.map_append, List.count_append]
    omega
  obtain ⟨y, hy, e⟩ := List.mem_map.1 (List.count_pos_iff.1 h3)
  exact ⟨y, hy, e⟩

/-- The end of a spring that an anchor took out is the end of a spring of the mesh. -/
theorem end_in_mesh {b : ℕ} {s : State} (hs : Inv b s) (he : Ends s) {k : ℕ} (n : ℕ) :
    ∀ a ∈ s.live, ∀ st ∈ a.kind.stolenOf, s.lastId - st.id = n → HasEnd st k → ∃ y ∈ s.springs, HasEnd y k := by
  induction n using Nat.strong_induction_on with
  | _ n ih =>
    intro a ha st hst hn hk
    have hle := id_le hs (List.mem_append_right s.springs (mem_stolens.2 ⟨a, ha, hst⟩))
    cases hkind : a.kind with
    | grab i => simp [hkind, Kind.stolenOf] at hst
    | ins p st' f g =>
      have hst' : st = st' := by simpa [hkind, Kind.stolenOf] using hst
      subst hst'
      have : ∃ y ∈ s.springs ++ stolens s.live, HasEnd y k ∧ st.id < y.id := by
        rcases hk with hk | hk
        · have hf : f ∈ a.kind.trackedOf := by simp [hkind, Kind.trackedOf]
          obtain ⟨y, hy, e⟩ := put_in_exists hs ha hf
          exact ⟨y, hy, .inr (((he.own a ha p st f g hkind y hy).1 e).2.trans hk), e ▸ hs.order a ha st hst f hf⟩
        · have hg : g ∈ a.kind.trackedOf := by simp [hkind, Kind.trackedOf]
          obtain ⟨y, hy, e⟩ := put_in_exists hs ha hg
          exact ⟨y, hy, .inr (((he.own a ha p st f g hkind y hy).2 e).2.trans hk), e ▸ hs.order a ha st hst g hg⟩
      obtain ⟨y, hy, hyk, hlt⟩ := this
      have hyle := id_le hs hy
      rcases List.mem_append.1 hy with hy | hy
      · exact ⟨y, hy, hyk⟩
      · obtain ⟨c, hc, hy⟩ := mem_stolens.1 hy
        exact ih (s.lastId - y.id) (by omega) c hc y hy rfl hyk

/-- A spring refers to a released anchor exactly if an anchor sits on a spring that does. -/
theorem dangling_iff_stolen {b : ℕ} {s : State} (hs : Inv b s) (he : Ends s) :
    dangling s.springs s.live ↔ ∃ a ∈ s.live, ∃ x ∈ a.kind.stolenOf, ∃ k, HasEnd x k ∧ ∀ c ∈ s.live, c.hid ≠ k := by
  rw [dangling_iff]
  constructor
  · rintro ⟨y, hy, k, hk, hn⟩
    obtain ⟨a, ha, hf⟩ := put_in hs hy hk
    have hins := tracked_isInserted hf
    have hak : a.hid ≠ k := fun e => hn ⟨a, ha, e, hins⟩
    obtain ⟨p, st, f, g, hkind⟩ := hins
    have how := he.own a ha p st f g hkind y (List.mem_append_left _ hy)
    have hst : HasEnd st k := by
      rw [hkind] at hf
      simp only [Kind.trackedOf, List.mem_cons, List.not_mem_nil, or_false] at hf
      rcases hf with e | e
      · obtain ⟨h1, h2⟩ := how.1 e
        rcases hk with hk | hk
        · rw [h1] at hk
          exact absurd (by simpa using hk) hak
        · exact .inl (h2 ▸ hk)
      · obtain ⟨h1, h2⟩ := how.2 e
        rcases hk with hk | hk
        · rw [h1] at hk
          exact absurd (by simpa using hk) hak
        · exact .inr (h2 ▸ hk)
    have hmem : st ∈ a.kind.stolenOf := by simp [hkind, Kind.stolenOf]
    exact ⟨a, ha, st, hmem, k, hst, fun c hc e =>
      hn ⟨c, hc, e, he.ins st (List.mem_append_right _ (mem_stolens.2 ⟨a, ha, hmem⟩)) k hst c hc e⟩⟩
  · rintro ⟨a, ha, x, hx, k, hk, hn⟩
    obtain ⟨y, hy, hyk⟩ := end_in_mesh hs he _ a ha x hx rfl hk
    exact ⟨y, hy, k, hyk, fun ⟨c, hc, e, _⟩ => hn c hc e⟩

end Verif.Wobbly
