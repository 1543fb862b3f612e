import Verif.Lemmas.WobblyBase

/-! Anchors a program owns, and springs that refer to them. -/

namespace Verif.Wobbly

open Spec Outcome

theorem isInserted_iff (a : Live) : IsInserted a ↔ a.kind.isIns = true := by
  unfold IsInserted
  cases a.kind <;> simp [Kind.isIns]

theorem tracked_isInserted {a : Live} {f : ℕ} (h : f ∈ a.kind.trackedOf) : IsInserted a := by
  cases hk : a.kind with
  | grab i => simp [hk, Kind.trackedOf] at h
  | ins p st f g => exact ⟨p, st, f, g, hk⟩

theorem stolen_isInserted {a : Live} {x : Spring} (h : x ∈ a.kind.stolenOf) : IsInserted a := by
  cases hk : a.kind with
  | grab i => simp [hk, Kind.stolenOf] at h
  | ins p st f g => exact ⟨p, st, f, g, hk⟩

theorem putInBy_iff (a : Live) (x : Spring) : PutInBy a x ↔ x.id ∈ a.kind.trackedOf := by
  unfold PutInBy
  cases a.kind with
  | grab i => simp [Kind.trackedOf]
  | ins p st f g =>
    simp only [Kind.trackedOf, List.mem_cons, List.not_mem_nil, or_false, Kind.ins.injEq]
    constructor
    · rintro ⟨_, _, _, _, ⟨rfl, rfl, rfl, rfl⟩, h⟩
      exact h
    · intro h
      exact ⟨p, st, f, g, ⟨rfl, rfl, rfl, rfl⟩, h⟩

theorem takenOutBy_iff (a : Live) (x : Spring) : TakenOutBy a x ↔ x ∈ a.kind.stolenOf := by
  unfold TakenOutBy
  cases a.kind with
  | grab i => simp [Kind.stolenOf]
  | ins p st f g =>
    simp only [Kind.stolenOf, List.mem_singleton, Kind.ins.injEq]
    constructor
    · rintro ⟨_, _, _, rfl, rfl, rfl, rfl⟩
      rfl
    · rintro rfl
      exact ⟨p, f, g, rfl, rfl, rfl, rfl⟩

theorem anchorData_cons (a : Live) (l : List Live) (k : ℕ) :
    anchorData (a :: l) k = (match a.kind with
      | .ins p _ _ _ => if a.hid = k then some p else anchorData l k
      | .grab _ => anchorData l k) := by
  unfold anchorData
  rw [List.findSome?_cons]
  cases a.kind with
  | grab i => rfl
  | ins p st f g =>
    simp only
    by_cases h : a.hid = k
    · rw [if_pos h, if_pos h]
    · rw [if_neg h, if_neg h]

theorem anchorData_of_mem {l : List Live} (hn : (l.map Live.hid).Nodup) {a : Live} (ha : a ∈ l) {p : Pt} {st : Spring}
    {f g : ℕ} (hk : a.kind = .ins p st f g) : anchorData l a.hid = some p := by
  induction l with
  | nil => simp at ha
  | cons c l ih =>
    rw [anchorData_cons]
    simp only [List.map_cons, List.nodup_cons, List.mem_map, not_exists, not_and] at hn
    rcases List.mem_cons.1 ha with rfl | ha
    · rw [hk]
      exact if_pos rfl
    · have hne : c.hid ≠ a.hid := fun h => hn.1 a ha h.symm
      cases c.kind with
      | grab i => exact ih hn.2 ha
      | ins p st f g =>
        simp only
        rw [if_neg hne]
        exact ih hn.2 ha

theorem anchorData_map_kind (l : List Live) (φ : ℕ → Kind → Kind) (ψ : ℕ → Pt → Pt)
    (h : ∀ (j : ℕ) (k : Kind), match k with
      | .grab i => φ j k = .grab i
      | .ins p st f g => φ j k = .ins (ψ j p) st f g) (k : ℕ) :
    anchorData (l.map fun b => ⟨b.hid, φ b.hid b.kind⟩) k = (anchorData l k).map (ψ k) := by
  induction l with
  | nil => rfl
  | cons c l ih =>
    rw [List.map_cons, anchorData_cons, anchorData_cons]
    have := h c.hid c.kind
    cases hc : c.kind with
    | grab i =>
      rw [hc] at this
      simp only [this]
      exact ih
    | ins p st f g =>
      rw [hc] at this
      simp only at this
      simp only [this]
      by_cases hk : c.hid = k
      · rw [if_pos hk, if_pos hk, hk]
        rfl
      · rw [if_neg hk, if_neg hk]
        exact ih

theorem anchorData_move (l : List Live) (h : ℕ) (d : Pt) (k : ℕ) :
    anchorData (l.map fun b => if b.hid = h then ⟨b.hid, b.kind.shift d⟩ else b) k =
      if k = h then (anchorData l k).map (· + d) else anchorData l k := by
  have := anchorData_map_kind l (fun j x => if j = h then x.shift d else x) (fun j p => if j = h then p + d else p)
    (by
      intro j x
      cases x <;> simp only [Kind.shift] <;> split_ifs <;> rfl) k
  have e : (l.map fun b => if b.hid = h then (⟨b.hid, b.kind.shift d⟩ : Live) else b) =
      l.map fun b => ⟨b.hid, if b.hid = h then b.kind.shift d else b.kind⟩ := by
    apply List.map_congr_left
    intro b _
    split_ifs <;> rfl
  rw [e, this]
  split_ifs
  · rfl
  · simp

theorem anchorData_isSome (l : List Live) (h : ℕ) :
    (anchorData l h).isSome ↔ ∃ a ∈ l, a.hid = h ∧ IsInserted a := by
  unfold anchorData
  rw [List.findSome?_isSome_iff]
  apply exists_congr
  intro a
  apply and_congr Iff.rfl
  rw [isInserted_iff]
  cases a.kind with
  | grab i => simp [Kind.isIns]
  | ins p st f g =>
    simp only [Kind.isIns, and_true]
    split_ifs with hh <;> simp [hh]

/-- The spring has an end on the storage of anchor `h`. -/
def HasEnd (x : Spring) (h : ℕ) : Prop := x.a = .anchor h ∨ x.b = .anchor h

theorem dangling_iff (springs : List Spring) (l : List Live) :
    dangling springs l ↔ ∃ x ∈ springs, ∃ h, HasEnd x h ∧ ¬ ∃ a ∈ l, a.hid = h ∧ IsInserted a := by
  have alive : ∀ n : Node, n.alive l ↔ ∀ h, n = .anchor h → ∃ a ∈ l, a.hid = h ∧ IsInserted a := by
    intro n
    cases n with
    | mesh i => simp [Node.alive]
    | anchor h => simp [Node.alive, anchorData_isSome]
  unfold dangling HasEnd
  apply exists_congr
  intro x
  apply and_congr Iff.rfl
  rw [alive, alive, not_and_or, not_forall, not_forall, ← exists_or]
  apply exists_congr
  intro h
  rw [Classical.not_imp, Classical.not_imp]
  tauto

/-- What keeps springs from dangling. -/
def Anchored (s : State) : Prop :=
  ∀ x ∈ s.springs ++ stolens s.live, ∀ h, HasEnd x h →
    (∃ c ∈ s.live, c.hid = h ∧ IsInserted c) ∧
    ∃ a ∈ s.live, x.id ∈ a.kind.trackedOf ∧ (h = a.hid ∨ ∃ st ∈ a.kind.stolenOf, HasEnd st h)

theorem Anchored.not_dangling {s : State} (h : Anchored s) : ¬ dangling s.springs s.live := by
  rw [dangling_iff]
  rintro ⟨x, hx, k, hk, hn⟩
  exact hn (h x (List.mem_append_left _ hx) k hk).1

theorem mem_stolens {l : List Live} {x : Spring} : x ∈ stolens l ↔ ∃ a ∈ l, x ∈ a.kind.stolenOf := by
  simp [stolens]

/-- An anchor whose storage is used by a spring that another anchor holds has such an anchor directly on
one of its own springs. -/
theorem Anchored.direct {b : ℕ} {s : State} (hs : Inv b s) (h : Anchored s) {k : ℕ} (n : ℕ) :
    ∀ a ∈ s.live, ∀ st ∈ a.kind.stolenOf, st.id = n → HasEnd st k →
      ∃ c ∈ s.live, ∃ x ∈ c.kind.stolenOf, ∃ o ∈ s.live, o.hid = k ∧ x.id ∈ o.kind.trackedOf := by
  induction n using Nat.strong_induction_on with
  | _ n ih =>
    intro a ha st hst hn hk
    obtain ⟨-, a2, ha2, ht, hcase⟩ :=
      h st (List.mem_append_right _ (mem_stolens.2 ⟨a, ha, hst⟩)) k hk
    rcases hcase with e | ⟨st2, hst2, hk2⟩
    · exact ⟨a, ha, st, hst, a2, ha2, e.symm, ht⟩
    · have hlt := hs.order a2 ha2 st2 hst2 st.id ht
      exact ih st2.id (hn ▸ hlt) a2 ha2 st2 hst2 rfl hk2

theorem anchored_new (p : Pt) (w h : ℝ) (x : Settings) (b : ℕ) : Anchored (State.new p w h x b) := by
  intro y hy k hk
  have hy' : y ∈ baseSprings ⟨w / (4 - 1), h / (4 - 1)⟩ b := by
    simpa [State.new] using hy
  simp only [baseSprings, List.mem_map] at hy'
  obtain ⟨e, -, rfl⟩ := hy'
  rcases hk with hk | hk <;> simp at hk

theorem anchored_frame {s s' : State} (hs : Anchored s) {g : Live → Live} (hg : KeepsSkel g)
    (hlive : s'.live = s.live.map g)
    (hsp : s'.springs.map (fun x => (x.id, x.a, x.b)) = s.springs.map (fun x => (x.id, x.a, x.b))) :
    Anchored s' := by
  have hins : ∀ a, IsInserted (g a) ↔ IsInserted a := by
    intro a
    have h1 : ∀ c : Live, IsInserted c ↔ c.kind.trackedOf ≠ [] := by
      intro c
      rw [isInserted_iff]
      cases c.kind <;> simp [Kind.isIns, Kind.trackedOf]
    rw [h1, h1, hg.tracked]
  have key : ∀ x ∈ s'.springs ++ stolens s'.live, ∃ y ∈ s.springs ++ stolens s.live,
      y.id = x.id ∧ y.a = x.a ∧ y.b = x.b := by
    intro x hx
    rcases List.mem_append.1 hx with hx | hx
    · have : (x.id, x.a, x.b) ∈ s.springs.map (fun x => (x.id, x.a, x.b)) := by
        rw [← hsp]
        exact List.mem_map.2 ⟨x, hx, rfl⟩
      obtain ⟨y, hy, e⟩ := List.mem_map.1 this
      simp only [Prod.mk.injEq] at e
      exact ⟨y, List.mem_append_left _ hy, e⟩
    · rw [hlive, hg.stolens_map] at hx
      exact ⟨x, List.mem_append_right _ hx, rfl, rfl, rfl⟩
  intro x hx k hk
  obtain ⟨y, hy, e1, e2, e3⟩ := key x hx
  obtain ⟨⟨c, hc, hck, hci⟩, a, ha, hat, hor⟩ := hs y hy k (by unfold HasEnd at hk ⊢; rw [e2, e3]; exact hk)
  rw [hlive]
  refine ⟨⟨g c, List.mem_map_of_mem hc, by rw [hg.hid, hck], (hins c).2 hci⟩, g a, List.mem_map_of_mem ha, ?_, ?_⟩
  · rw [hg.tracked, ← e1]
    exact hat
  · rw [hg.hid, hg.stolen]
    exact hor

theorem hid_inj {l : List Live} (h : (l.map Live.hid).Nodup) {a c : Live} (ha : a ∈ l) (hc : c ∈ l)
    (e : a.hid = c.hid) : a = c := List.inj_on_of_nodup_map h ha hc e

theorem anchored_exec {b : ℕ} (s : State) (op : Op) (s' : State) (r : Res) (hI : Inv b s ∧ Anchored s)
    (hop : ReleaseNotUnder s op) (h : s.exec op = .ok (s', r)) : Inv b s' ∧ Anchored s' := by
  refine ⟨inv_exec s op s' r hI.1 h, ?_⟩
  obtain ⟨hs, hl⟩ := hI
  cases op with
  | grab p =>
    obtain ⟨i, t, n, -, hn, ht, rfl, -⟩ := grab_ok h
    intro x hx k hk
    have hx' : x ∈ s.springs ++ stolens s.live := by
      simpa [grabbed, State.lock, stolens, Kind.stolenOf] using hx
    obtain ⟨⟨c, hc, h1⟩, a, ha, h2⟩ := hl x hx' k hk
    exact ⟨⟨c, List.mem_append_left _ hc, h1⟩, a, List.mem_append_left _ ha, h2⟩
  | insert p =>
    obtain ⟨t, n, found, d1, d2, hn, ht, -, hf, -, -, rfl, -⟩ := insert_ok h
    have hfm := splitStep_mem _ _ _ _ hf
    intro x hx k hk
    simp only [State.install, preInsert, stolens_append, List.mem_append, List.mem_cons, List.not_mem_nil,
      or_false] at hx ⊢
    have old : ∀ y ∈ s.springs ++ stolens s.live, HasEnd y k →
        (∃ c, (c ∈ s.live ∨ c = ⟨s.nextHid, Kind.ins p found (n + 1) (n + 2)⟩) ∧ c.hid = k ∧ IsInserted c) ∧
        ∃ a, (a ∈ s.live ∨ a = ⟨s.nextHid, Kind.ins p found (n + 1) (n + 2)⟩) ∧ y.id ∈ a.kind.trackedOf ∧
          (k = a.hid ∨ ∃ st ∈ a.kind.stolenOf, HasEnd st k) := by
      intro y hy hk
      obtain ⟨⟨c, hc, h1⟩, a, ha, h2⟩ := hl y hy k hk
      exact ⟨⟨c, Or.inl hc, h1⟩, a, Or.inl ha, h2⟩
    have new : ∀ y : Spring, (y.id = n + 1 ∨ y.id = n + 2) → y.a = .anchor s.nextHid →
        (y.b = found.a ∨ y.b = found.b) → HasEnd y k →
        (∃ c, (c ∈ s.live ∨ c = ⟨s.nextHid, Kind.ins p found (n + 1) (n + 2)⟩) ∧ c.hid = k ∧ IsInserted c) ∧
        ∃ a, (a ∈ s.live ∨ a = ⟨s.nextHid, Kind.ins p found (n + 1) (n + 2)⟩) ∧ y.id ∈ a.kind.trackedOf ∧
          (k = a.hid ∨ ∃ st ∈ a.kind.stolenOf, HasEnd st k) := by
      intro y hid hya hyb hk
      have htr : y.id ∈ (⟨s.nextHid, Kind.ins p found (n + 1) (n + 2)⟩ : Live).kind.trackedOf := by
        simpa [Kind.trackedOf] using hid
      by_cases e : k = s.nextHid
      · exact ⟨⟨_, Or.inr rfl, e.symm, ⟨_, _, _, _, rfl⟩⟩, _, Or.inr rfl, htr, Or.inl e⟩
      · have hfk : HasEnd found k := by
          rcases hk with hk | hk
          · rw [hya] at hk
            simp only [Node.anchor.injEq] at hk
            exact absurd hk.symm e
          · rcases hyb with h' | h'
            · exact Or.inl (h' ▸ hk)
            · exact Or.inr (h' ▸ hk)
        obtain ⟨⟨c, hc, h1⟩, -⟩ := hl found (List.mem_append_left _ hfm) k hfk
        exact ⟨⟨c, Or.inl hc, h1⟩, _, Or.inr rfl, htr, Or.inr ⟨found, by simp [Kind.stolenOf], hfk⟩⟩
    rcases hx with (hx | rfl | rfl) | hx | hx
    · exact old x (List.mem_append_left _ (List.mem_of_mem_filter hx)) hk
    · exact new _ (Or.inl rfl) rfl (Or.inl rfl) hk
    · exact new _ (Or.inr rfl) rfl (Or.inr rfl) hk
    · exact old x (List.mem_append_right _ hx) hk
    · simp only [stolens, List.flatMap_cons, Kind.stolenOf, List.flatMap_nil, List.append_nil,
        List.mem_singleton] at hx
      rw [hx] at hk ⊢
      exact old found (List.mem_append_left _ hfm) hk
  | moveAnchor k d =>
    obtain ⟨-, ⟨-, rfl⟩ | ⟨a, -, ⟨i, -, rfl⟩ | ⟨-, rfl⟩⟩⟩ := moveAnchor_ok h
    · exact hl
    · exact anchored_frame hl keeps_id (by simp) rfl
    · exact anchored_frame hl (keeps_shift_one k d) rfl rfl
  | release k =>
    rcases release_ok h with ⟨-, rfl, -⟩ | ⟨a, s1, t, n, ha, h1, h0, hn, ht, rfl, -⟩
    · exact hl
    have hm := List.mem_of_find?_eq_some ha
    have hak : a.hid = k := by
      have := List.find?_some ha
      simpa using this
    have hop' := hop a hm hak
    have mem_rest : ∀ c, c ∈ (s.live.filter fun b => decide (b.hid ≠ k)) ↔ c ∈ s.live ∧ c.hid ≠ k := by
      intro c
      simp
    have hst : ∀ x ∈ stolens (s.live.filter fun b => decide (b.hid ≠ k)), x ∈ stolens s.live := by
      intro x hx
      obtain ⟨c, hc, hx⟩ := mem_stolens.1 hx
      exact mem_stolens.2 ⟨c, ((mem_rest c).1 hc).1, hx⟩
    have main : ∀ x ∈ s.springs ++ stolens s.live, x.id ∉ a.kind.trackedOf → ∀ j, HasEnd x j →
        (∃ c ∈ s.live.filter (fun b => decide (b.hid ≠ k)), c.hid = j ∧ IsInserted c) ∧
        ∃ a ∈ s.live.filter (fun b => decide (b.hid ≠ k)), x.id ∈ a.kind.trackedOf ∧
          (j = a.hid ∨ ∃ st ∈ a.kind.stolenOf, HasEnd st j) := by
      intro x hx hna j hj
      obtain ⟨⟨c, hc, hcj, hci⟩, a', ha', hat, hor⟩ := hl x hx j hj
      have hne : a'.hid ≠ k := by
        intro e
        have := hid_inj hs.hids ha' hm (e.trans hak.symm)
        rw [this] at hat
        exact hna hat
      have hjk : j ≠ k := by
        rintro rfl
        rcases hor with e | ⟨st, hst', hend⟩
        · exact hne e.symm
        · obtain ⟨c2, hc2, y, hy, o, ho, hoj, hyo⟩ := Anchored.direct hs hl st.id a' ha' st hst' rfl hend
          have := hid_inj hs.hids ho hm (hoj.trans hak.symm)
          rw [this] at hyo
          exact hop' c2 hc2 y ((takenOutBy_iff _ _).2 hy) ((putInBy_iff _ _).2 hyo)
      exact ⟨⟨c, (mem_rest c).2 ⟨hc, hcj ▸ hjk⟩, hcj, hci⟩, a', (mem_rest a').2 ⟨ha', hne⟩, hat, hor⟩
    have hstn : ∀ x ∈ stolens s.live, x.id ∉ a.kind.trackedOf := by
      intro x hx htr
      obtain ⟨c, hc, hx⟩ := mem_stolens.1 hx
      exact hop' c hc x ((takenOutBy_iff _ _).2 hx) ((putInBy_iff _ _).2 htr)
    cases hkind : a.kind with
    | grab i =>
      rw [hkind] at h1
      obtain ⟨-, rfl⟩ := unlock_ok h1
      intro x hx j hj
      refine main x ?_ ?_ j hj
      · rcases List.mem_append.1 hx with hx | hx
        · exact List.mem_append_left _ hx
        · exact List.mem_append_right _ (hst x hx)
      · simp [hkind, Kind.trackedOf]
    | ins p0 st f g =>
      rw [hkind] at h1
      simp only [State.releaseKind, Outcome.ok.injEq] at h1
      rw [removeTracked_eq, removeTracked_eq, replace_eq] at h1
      subst h1
      intro x hx j hj
      have hor : x ∈ removeId (removeId s.springs g) f ∨ x ∈ stolens s.live := by
        rcases List.mem_append.1 hx with hx | hx
        · have : x ∈ removeId (removeId s.springs g) f ∨ x = st := by
            simp only [springsAfter] at hx
            split_ifs at hx
            · exact Or.inl hx
            · simpa using hx
          rcases this with hx | rfl
          · exact Or.inl hx
          · exact Or.inr (mem_stolens.2 ⟨a, hm, by simp [hkind, Kind.stolenOf]⟩)
        · exact Or.inr (hst x hx)
      rcases hor with hx | hx
      · refine main x (List.mem_append_left _ (List.mem_of_mem_filter (List.mem_of_mem_filter hx))) ?_ j hj
        simp only [removeId, List.mem_filter] at hx
        simp only [hkind, Kind.trackedOf, List.mem_cons, List.not_mem_nil, or_false, not_or]
        simpa using And.intro hx.2 hx.1.2
      · exact main x (List.mem_append_right _ hx) (hstn x hx) j hj
  | step t =>
    obtain ⟨pos, vel, more, rfl, -⟩ := step_ok h
    exact hl
  | moveBy d =>
    simp only [State.exec, Outcome.ok.injEq, Prod.mk.injEq] at h
    rw [← h.1]
    exact anchored_frame hl (keeps_shift d) rfl rfl
  | moveTo p =>
    obtain ⟨n, d, hn, rfl, -⟩ := moveTo_ok h
    exact anchored_frame hl (keeps_shift d) rfl rfl
  | resize w h' =>
    obtain ⟨-, -, hw, hh, -, ⟨-, -, rfl⟩ | ⟨n, q, hn, -, -, rfl⟩⟩ := resize_ok h
    · exact hl
    · refine anchored_frame hl (keeps_scale _ _) rfl ?_
      simp [resized, Spring.scaleLength, Function.comp_def]
  | setSettings x =>
    simp only [State.exec, Outcome.ok.injEq, Prod.mk.injEq] at h
    rw [← h.1]
    exact hl
  | elsewhere n =>
    simp only [State.exec, Outcome.ok.injEq, Prod.mk.injEq] at h
    rw [← h.1]
    exact hl

/-- An anchor sits only on springs of anchors made before it. -/
def Ordered (s : State) : Prop :=
  ∀ a ∈ s.live, ∀ st ∈ a.kind.stolenOf, ∀ c ∈ s.live, st.id ∈ c.kind.trackedOf → c.hid < a.hid

theorem ordered_sub {s s' : State} (hs : Ordered s) (hsub : ∀ a ∈ s'.live, a ∈ s.live) : Ordered s' :=
  fun a ha st hst c hc h => hs a (hsub a ha) st hst c (hsub c hc) h

theorem ordered_frame {s s' : State} (hs : Ordered s) {g : Live → Live} (hg : KeepsSkel g)
    (hlive : s'.live = s.live.map g) : Ordered s' := by
  intro a ha st hst c hc h
  rw [hlive] at ha hc
  obtain ⟨a', ha', rfl⟩ := List.mem_map.1 ha
  obtain ⟨c', hc', rfl⟩ := List.mem_map.1 hc
  rw [hg.stolen] at hst
  rw [hg.tracked] at h
  rw [hg.hid, hg.hid]
  exact hs a' ha' st hst c' hc' h

theorem releaseKind_live {s s' : State} {k : Kind} (h : s.releaseKind k = .ok s') : s'.live = s.live := by
  cases k with
  | grab i =>
    obtain ⟨-, rfl⟩ := unlock_ok h
    rfl
  | ins p0 st f g =>
    simp only [State.releaseKind, Outcome.ok.injEq] at h
    rw [removeTracked_eq, removeTracked_eq, replace_eq] at h
    rw [← h]

theorem ordered_exec {b : ℕ} (s : State) (op : Op) (s' : State) (r : Res) (hI : Inv b s ∧ Ordered s)
    (h : s.exec op = .ok (s', r)) : Inv b s' ∧ Ordered s' := by
  refine ⟨inv_exec s op s' r hI.1 h, ?_⟩
  obtain ⟨hs, hl⟩ := hI
  cases op with
  | grab p =>
    obtain ⟨i, t, n, -, hn, ht, rfl, -⟩ := grab_ok h
    intro a ha st hst c hc h
    have ha' : a ∈ s.live := by
      rcases List.mem_append.1 ha with ha | ha
      · exact ha
      · rw [List.mem_singleton.1 ha] at hst
        simp [Kind.stolenOf] at hst
    have hc' : c ∈ s.live := by
      rcases List.mem_append.1 hc with hc | hc
      · exact hc
      · rw [List.mem_singleton.1 hc] at h
        simp [Kind.trackedOf] at h
    exact hl a ha' st hst c hc' h
  | insert p =>
    obtain ⟨t, n, found, d1, d2, hn, ht, -, hf, -, -, rfl, -⟩ := insert_ok h
    have hfm := splitStep_mem _ _ _ _ hf
    intro a ha st hst c hc h
    have hle : st.id ≤ n := by
      have : st ∈ s.springs ++ stolens s.live := by
        rcases List.mem_append.1 ha with ha | ha
        · exact List.mem_append_right _ (mem_stolens.2 ⟨a, ha, hst⟩)
        · rw [List.mem_singleton.1 ha] at hst
          simp only [Kind.stolenOf, List.mem_singleton] at hst
          rw [hst]
          exact List.mem_append_left _ hfm
      have hpos : 0 < (s.springs.map Spring.id).count st.id + ((stolens s.live).map Spring.id).count st.id := by
        rcases List.mem_append.1 this with h' | h'
        · have := List.count_pos_iff.2 (List.mem_map_of_mem (f := Spring.id) h')
          omega
        · have := List.count_pos_iff.2 (List.mem_map_of_mem (f := Spring.id) h')
          omega
      exact (hs.idsLe _ hpos).2.trans hn
    have hc' : c ∈ s.live := by
      rcases List.mem_append.1 hc with hc | hc
      · exact hc
      · rw [List.mem_singleton.1 hc] at h
        simp only [Kind.trackedOf, preInsert, List.mem_cons, List.not_mem_nil, or_false] at h
        omega
    rcases List.mem_append.1 ha with ha | ha
    · exact hl a ha st hst c hc' h
    · rw [List.mem_singleton.1 ha]
      exact hs.hidsLt c hc'
  | moveAnchor k d =>
    obtain ⟨-, ⟨-, rfl⟩ | ⟨a, -, ⟨i, -, rfl⟩ | ⟨-, rfl⟩⟩⟩ := moveAnchor_ok h
    · exact hl
    · exact hl
    · exact ordered_frame hl (keeps_shift_one k d) rfl
  | release k =>
    rcases release_ok h with ⟨-, rfl, -⟩ | ⟨a, s1, t, n, ha, h1, h0, hn, ht, rfl, -⟩
    · exact hl
    · refine ordered_sub hl fun c hc => ?_
      have hc' : c ∈ s1.live := hc
      rw [releaseKind_live h1] at hc'
      exact List.mem_of_mem_filter hc'
  | step t =>
    obtain ⟨pos, vel, more, rfl, -⟩ := step_ok h
    exact hl
  | moveBy d =>
    simp only [State.exec, Outcome.ok.injEq, Prod.mk.injEq] at h
    rw [← h.1]
    exact ordered_frame hl (keeps_shift d) rfl
  | moveTo p =>
    obtain ⟨n, d, hn, rfl, -⟩ := moveTo_ok h
    exact ordered_frame hl (keeps_shift d) rfl
  | resize w h' =>
    obtain ⟨-, -, hw, hh, -, ⟨-, -, rfl⟩ | ⟨n, q, hn, -, -, rfl⟩⟩ := resize_ok h
    · exact hl
    · exact ordered_frame hl (keeps_scale _ _) rfl
  | setSettings x =>
    simp only [State.exec, Outcome.ok.injEq, Prod.mk.injEq] at h
    rw [← h.1]
    exact hl
  | elsewhere n =>
    simp only [State.exec, Outcome.ok.injEq, Prod.mk.injEq] at h
    rw [← h.1]
    exact hl

theorem ordered_new (p : Pt) (w h : ℝ) (x : Settings) (b : ℕ) : Ordered (State.new p w h x b) := by
  intro a ha
  simp [State.new] at ha

/-- Releasing the latest first never releases an anchor another one sits on. -/
theorem notUnder_of_latest {s : State} (hs : Ordered s) {op : Op} (h : ReleaseLatestFirst s op) :
    ReleaseNotUnder s op := by
  cases op with
  | release k =>
    intro a ha hak c hc x hx hp
    rw [takenOutBy_iff] at hx
    rw [putInBy_iff] at hp
    have h1 := hs c hc x hx a ha hp
    have h2 := h a ha hak (tracked_isInserted hp) c hc (stolen_isInserted hx)
    omega
  | _ => trivial

/-! ### Owned anchors -/

theorem live_owned {s s' : State} {ops : List Op} {rs : List Res} (h : s.run ops = .ok (s', rs)) :
    s'.live.map Live.hid = owned (s.live.map Live.hid) ops rs := by
  induction ops generalizing s rs with
  | nil =>
    simp only [State.run, Outcome.ok.injEq, Prod.mk.injEq] at h
    obtain ⟨rfl, rfl⟩ := h
    simp [owned]
  | cons op ops ih =>
    unfold State.run at h
    rw [bind_eq_ok] at h
    obtain ⟨⟨s1, r1⟩, h1, h⟩ := h
    rw [bind_eq_ok] at h
    obtain ⟨⟨s2, r2⟩, h2, h⟩ := h
    simp only [Outcome.ok.injEq, Prod.mk.injEq] at h
    obtain ⟨rfl, rfl⟩ := h
    rw [ih h2]
    cases op with
    | grab p =>
      obtain ⟨i, t, n, -, hn, ht, rfl, rfl⟩ := grab_ok h1
      simp [owned, grabbed, State.lock]
    | insert p =>
      obtain ⟨t, n, found, d1, d2, hn, ht, -, hf, -, -, rfl, rfl⟩ := insert_ok h1
      simp [owned, State.install, preInsert]
    | moveAnchor k d =>
      obtain ⟨rfl, ⟨-, rfl⟩ | ⟨a, -, ⟨i, -, rfl⟩ | ⟨-, rfl⟩⟩⟩ := moveAnchor_ok h1
      · simp [owned]
      · simp [owned]
      · simp only [owned]
        rw [(keeps_shift_one k d).hids_map]
    | release k =>
      rcases release_ok h1 with ⟨hf, rfl, rfl⟩ | ⟨a, s1, t, n, ha, hrk, h0, hn, ht, rfl, rfl⟩
      · simp only [owned]
        congr 1
        symm
        rw [List.filter_eq_self]
        intro x hx
        rw [List.find?_eq_none] at hf
        obtain ⟨a, ha, rfl⟩ := List.mem_map.1 hx
        simpa using hf a ha
      · simp only [owned]
        congr 1
        rw [releaseKind_live hrk, List.filter_map]
        rfl
    | step t =>
      obtain ⟨pos, vel, more, rfl, rfl⟩ := step_ok h1
      simp [owned]
    | moveBy d =>
      simp only [State.exec, Outcome.ok.injEq, Prod.mk.injEq] at h1
      obtain ⟨rfl, rfl⟩ := h1
      simp only [owned, State.moveBy]
      rw [(keeps_shift d).hids_map]
    | moveTo p =>
      obtain ⟨n, d, hn, rfl, rfl⟩ := moveTo_ok h1
      simp only [owned, State.moveBy]
      rw [(keeps_shift d).hids_map]
    | resize w h' =>
      obtain ⟨-, -, hw, hh, rfl, ⟨-, -, rfl⟩ | ⟨n, q, hn, -, -, rfl⟩⟩ := resize_ok h1
      · simp [owned]
      · simp only [owned, resized]
        rw [(keeps_scale _ _).hids_map]
    | setSettings x =>
      simp only [State.exec, Outcome.ok.injEq, Prod.mk.injEq] at h1
      obtain ⟨rfl, rfl⟩ := h1
      simp [owned]
    | elsewhere n =>
      simp only [State.exec, Outcome.ok.injEq, Prod.mk.injEq] at h1
      obtain ⟨rfl, rfl⟩ := h1
      simp [owned]

end Verif.Wobbly
