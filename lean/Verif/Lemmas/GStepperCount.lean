import Verif.Lemmas.GStepper

/-! Reference counting of GObject steppers. -/

namespace Verif.GStep

open Spec

variable {P O S : Type} (N : AnimClass P O S) (out : O)

/-- The holder is alive and based on `r`. -/
def LiveOn (r : SRef) (h : Holder) : Prop := h.client + h.inner ≠ 0 ∧ h.base = some r

instance (r : SRef) (h : Holder) : Decidable (LiveOn r h) := by unfold LiveOn; infer_instance

/-- How many live reverse steppers are based on `r`. -/
def liveOn (w : World P O) (r : SRef) : ℕ := w.holders.countP fun h => decide (LiveOn r h)

/-- The references that reverse steppers hold on `r`. -/
def innerOf (w : World P O) : SRef → ℕ
  | .holder i => (w.holders[i]?).elim 0 Holder.inner
  | .wrapper k => (w.wrappers[k]?).elim 0 Wrapper.inner

/-- Counts agree, except that one more reference on `d` is yet to be dropped. -/
def Owed (w : World P O) (d : Option SRef) : Prop :=
  ∀ r, innerOf w r = liveOn w r + if d = some r then 1 else 0

theorem modify_eq_set {α : Type*} {l : List α} {i : ℕ} {a : α} (f : α → α) (e : l[i]? = some a) :
    l.modify i f = l.set i (f a) := by
  apply List.ext_getElem?
  intro k
  rw [List.getElem?_modify]
  by_cases hk : i = k
  · subst hk; rw [e]; simp [lt_of_getElem? e]
  · rw [List.getElem?_set_ne hk]; simp [hk]

theorem liveOn_set {w : World P O} {i : ℕ} {h : Holder} (h' : Holder) (e : w.holders[i]? = some h)
    (r : SRef) :
    liveOn { w with holders := w.holders.set i h' } r + (if LiveOn r h then 1 else 0) =
      liveOn w r + if LiveOn r h' then 1 else 0 := by
  have hi := lt_of_getElem? e
  have eg : w.holders[i] = h := by rw [List.getElem?_eq_getElem hi] at e; exact Option.some.inj e
  simp only [liveOn]
  rw [List.countP_set hi, eg]
  have hp : LiveOn r h → 0 < w.holders.countP fun h => decide (LiveOn r h) := fun hl =>
    List.countP_pos_iff.2 ⟨h, List.mem_of_getElem? e, by simpa using hl⟩
  simp only [decide_eq_true_eq]
  by_cases hl : LiveOn r h
  · have := hp hl
    simp only [hl, if_true]
    omega
  · simp [hl]

theorem innerOf_set {w : World P O} {i : ℕ} {h : Holder} (h' : Holder) (e : w.holders[i]? = some h)
    (r : SRef) : innerOf { w with holders := w.holders.set i h' } r =
      if r = .holder i then h'.inner else innerOf w r := by
  have hi := lt_of_getElem? e
  cases r with
  | wrapper k => rfl
  | holder m =>
    by_cases hm : i = m
    · subst hm; simp [innerOf, hi]
    · have : m ≠ i := fun h => hm h.symm
      simp [innerOf, List.getElem?_set_ne hm, this]

theorem innerOf_setW {w : World P O} {i : ℕ} {h : Wrapper} (h' : Wrapper) (e : w.wrappers[i]? = some h)
    (r : SRef) : innerOf { w with wrappers := w.wrappers.set i h' } r =
      if r = .wrapper i then h'.inner else innerOf w r := by
  have hi := lt_of_getElem? e
  cases r with
  | holder k => rfl
  | wrapper m =>
    by_cases hm : i = m
    · subst hm; simp [innerOf, hi]
    · have : m ≠ i := fun h => hm h.symm
      simp [innerOf, List.getElem?_set_ne hm, this]

theorem drop_counted : ∀ (fuel : ℕ) (w : World P O) (bc : Bool) (r : SRef) {w' : World P O},
    (bc = true → Owed w none ∧ w.holds r) → (bc = false → Owed w (some r)) →
    w.drop bc r fuel = .ok w' → Owed w' none := by
  intro fuel
  induction fuel with
  | zero => intro w bc r w' _ _ e; simp [World.drop] at e
  | succ fuel ih =>
    intro w bc r w' h1 h2 e
    cases r with
    | holder i =>
      cases hh : w.holders[i]? with
      | none => simp [World.drop, hh] at e
      | some h =>
        rw [drop_holder w bc hh] at e
        -- the holder is alive before
        have hlive : h.client + h.inner ≠ 0 := by
          cases bc with
          | true =>
            obtain ⟨x, ex, hx⟩ := (h1 rfl).2
            rw [hh] at ex; cases ex; omega
          | false =>
            have := h2 rfl (.holder i)
            simp only [innerOf, hh, Option.elim, if_true] at this
            omega
        -- the references between objects, after the decrement
        have hinner : ∀ r', innerOf { w with holders := w.holders.set i (dec bc h) } r' = liveOn w r' := by
          intro r'
          rw [innerOf_set _ hh]
          cases bc with
          | true =>
            have := (h1 rfl).1 r'
            split_ifs with hr
            · subst hr; simpa [innerOf, hh, dec] using this
            · simpa using this
          | false =>
            have := h2 rfl r'
            split_ifs with hr
            · subst hr
              simp only [innerOf, hh, Option.elim, if_true] at this
              simp only [dec, Bool.false_eq_true, if_false]
              omega
            · have hne : (some (SRef.holder i) : Option SRef) ≠ some r' := fun h => hr (by simpa using h.symm)
              simpa [hne] using this
        have hbase : (dec bc h).base = h.base := by cases bc <;> rfl
        split_ifs at e with hz
        · have hnot : ∀ r', ¬ LiveOn r' (dec bc h) := fun r' hl => hl.1 hz
          have hlive' : ∀ r', liveOn { w with holders := w.holders.set i (dec bc h) } r' +
              (if h.base = some r' then 1 else 0) = liveOn w r' := by
            intro r'
            have := liveOn_set (dec bc h) hh r'
            simp only [hnot r', if_false, add_zero] at this
            rw [← this]
            congr 1
            by_cases hb : h.base = some r'
            · rw [if_pos hb, if_pos ⟨hlive, hb⟩]
            · rw [if_neg hb, if_neg (fun hl => hb hl.2)]
          cases hb : h.base with
          | none =>
            rw [hb] at e; cases e
            intro r'
            have := hlive' r'
            rw [hinner r']
            simpa [hb] using this.symm
          | some b =>
            rw [hb] at e
            refine ih _ false b (by simp) (fun _ r' => ?_) e
            rw [hinner r', ← hlive' r', hb]
        · cases e
          intro r'
          rw [hinner r']
          have := liveOn_set (dec bc h) hh r'
          have e2 : LiveOn r' h ↔ LiveOn r' (dec bc h) := by
            simp only [LiveOn, hbase, hlive, hz, not_false_eq_true, ne_eq, true_and]
          simp only [e2] at this
          simp
          omega
    | wrapper k =>
      cases hh : w.wrappers[k]? with
      | none => simp [World.drop, hh] at e
      | some h =>
        rw [drop_wrapper w bc hh] at e
        split_ifs at e with hz
        cases e
        intro r'
        rw [innerOf_setW _ hh]
        show _ = liveOn w r' + _
        simp only [reduceCtorEq, if_false, add_zero]
        cases bc with
        | true =>
          have := (h1 rfl).1 r'
          split_ifs with hr
          · subst hr; simpa [innerOf, hh, decW] using this
          · simpa using this
        | false =>
          have := h2 rfl r'
          split_ifs with hr
          · subst hr
            simp only [innerOf, hh, Option.elim, if_true] at this
            simp only [decW, Bool.false_eq_true, if_false]
            omega
          · have hne : (some (SRef.wrapper k) : Option SRef) ≠ some r' := fun h => hr (by simpa using h.symm)
            simpa [hne] using this

/-- Changing a holder in a way that reference counting does not see. -/
theorem Owed.modify {w : World P O} (hw : Owed w none) {i : ℕ} {h : Holder} {f : Holder → Holder}
    (e : w.holders[i]? = some h) (hi : (f h).inner = h.inner) (hb : (f h).base = h.base)
    (hl : (f h).client + (f h).inner ≠ 0 ↔ h.client + h.inner ≠ 0) :
    Owed { w with holders := w.holders.modify i f } none := by
  intro r
  rw [modify_eq_set f e, innerOf_set _ e]
  have h1 := liveOn_set (f h) e r
  have e2 : LiveOn r h ↔ LiveOn r (f h) := by simp only [LiveOn, hb, hl]
  simp only [e2] at h1
  have h2 := hw r
  simp only [reduceCtorEq, if_false, add_zero] at h2 ⊢
  split_ifs with hr
  · subst hr
    simp only [innerOf, e, Option.elim] at h2
    omega
  · omega

theorem innerOf_append (w : World P O) {x : Holder} (hx : x.inner = 0) (r : SRef) :
    innerOf { w with holders := w.holders ++ [x] } r = innerOf w r := by
  cases r with
  | wrapper k => rfl
  | holder m =>
    simp only [innerOf]
    by_cases hm : m < w.holders.length
    · rw [List.getElem?_append_left hm]
    · rw [List.getElem?_append_right (by omega), List.getElem?_eq_none (l := w.holders) (by omega)]
      by_cases h0 : m - w.holders.length = 0
      · simp [h0, hx]
      · rw [List.getElem?_eq_none (by simp; omega)]

theorem liveOn_append (w : World P O) (x : Holder) (r : SRef) :
    liveOn { w with holders := w.holders ++ [x] } r = liveOn w r + if LiveOn r x then 1 else 0 := by
  simp [liveOn, List.countP_append, List.countP_singleton]

theorem addInner_owed {w : World P O} (hw : Owed w none) {r : SRef} (hr : w.holds r) :
    Owed (w.addInner r) (some r) := by
  intro r'
  have h0 := hw r'
  cases r with
  | holder i =>
    obtain ⟨h, e, hc⟩ := hr
    simp only [World.addInner]
    rw [modify_eq_set _ e, innerOf_set _ e]
    have h1 := liveOn_set { h with inner := h.inner + 1 } e r'
    have e2 : LiveOn r' h ↔ LiveOn r' { h with inner := h.inner + 1 } := by
      constructor
      · rintro ⟨-, hb⟩; exact ⟨by simp, hb⟩
      · rintro ⟨-, hb⟩; exact ⟨by omega, hb⟩
    simp only [e2] at h1
    by_cases hr' : r' = .holder i
    · subst hr'
      simp only [innerOf, e, Option.elim] at h0
      simp at h0 ⊢
      omega
    · have hne : (some (SRef.holder i) : Option SRef) ≠ some r' := fun h => hr' (by simpa using h.symm)
      simp only [hr', hne, if_false]
      simp at h0
      omega
  | wrapper k =>
    obtain ⟨h, e, hc⟩ := hr
    simp only [World.addInner]
    rw [modify_eq_set _ e, innerOf_setW _ e]
    show _ = liveOn w r' + _
    by_cases hr' : r' = .wrapper k
    · subst hr'
      simp only [innerOf, e, Option.elim] at h0
      simp at h0 ⊢
      omega
    · have hne : (some (SRef.wrapper k) : Option SRef) ≠ some r' := fun h => hr' (by simpa using h.symm)
      simp only [hr', hne, if_false]
      simpa using h0

theorem exec_counted {w w' : World P O} {op : Op P S} {res : Res} (h : Owed w none)
    (hx : exec N out w op = .ok (w', res)) : Owed w' none := by
  have app : ∀ x : Holder, x.inner = 0 → x.base = none →
      Owed { w with holders := w.holders ++ [x] } none := by
    intro x h0 hb r
    rw [innerOf_append w h0, liveOn_append, if_neg (fun hl : LiveOn r x => by simp [LiveOn, hb] at hl)]
    exact h r
  cases op with
  | newLinear L => cases hx; exact app _ rfl rfl
  | newReverse b =>
    cases b with
    | none => cases hx; exact app _ rfl rfl
    | some r =>
      simp only [exec] at hx
      split_ifs at hx with hr
      · obtain ⟨s, hs, hx⟩ := Outcome.bind_eq_ok.1 hx
        cases hx
        intro r'
        rw [innerOf_append _ rfl, liveOn_append, addInner_owed h hr r']
        simp [LiveOn]
      · cases hx; exact h
  | step r ms =>
    simp only [exec] at hx
    split_ifs at hx with hr
    · obtain ⟨s, hs, hx⟩ := Outcome.bind_eq_ok.1 hx
      cases hx
      cases r with
      | holder m =>
        obtain ⟨x, e, hc⟩ := hr
        exact h.modify e rfl rfl Iff.rfl
      | wrapper k =>
        simp only [World.write]
        split
        · exact h
        · exact h
    · cases hx; exact h
  | ref r =>
    simp only [exec] at hx
    split_ifs at hx with hr
    · cases hx
      cases r with
      | holder m =>
        obtain ⟨x, e, hc⟩ := hr
        refine h.modify e rfl rfl ?_
        simp only
        omega
      | wrapper k =>
        obtain ⟨x, e, hc⟩ := hr
        intro r'
        simp only [World.addClient]
        rw [modify_eq_set _ e, innerOf_setW _ e]
        have h0 := h r'
        show _ = liveOn w r' + _
        simp only [reduceCtorEq, if_false, add_zero] at h0 ⊢
        split_ifs with hr'
        · subst hr'
          simpa [innerOf, e] using h0
        · exact h0
    · cases hx; exact h
  | unref r =>
    simp only [exec] at hx
    split_ifs at hx with hr
    · obtain ⟨s, hs, hx⟩ := Outcome.bind_eq_ok.1 hx
      cases hx
      exact drop_counted _ _ _ _ (fun _ => ⟨h, hr⟩) (by simp) hs
    · cases hx; exact h
  | newAnim p r =>
    cases r with
    | none => cases hx; exact h
    | some r =>
      simp only [exec] at hx
      split_ifs at hx with hr
      · obtain ⟨s, hs, hx⟩ := Outcome.bind_eq_ok.1 hx
        cases hx; exact h
      · cases hx; exact h
  | setStepper j r =>
    simp only [exec] at hx
    split at hx
    · split_ifs at hx with hr
      · cases hx; exact h
      · obtain ⟨s, hs, hx⟩ := Outcome.bind_eq_ok.1 hx
        cases hx; exact h
    · cases hx; exact h
  | getStepper j =>
    simp only [exec] at hx
    split at hx
    · split_ifs at hx with hr
      · cases hx; exact h
      · cases hx
        intro r
        show _ = liveOn w r + _
        rw [← h r]
        cases r with
        | holder m => rfl
        | wrapper m =>
          simp only [innerOf]
          by_cases hm : m < w.wrappers.length
          · rw [List.getElem?_append_left hm]
          · rw [List.getElem?_append_right (by omega), List.getElem?_eq_none (l := w.wrappers) (by omega)]
            by_cases h0 : m - w.wrappers.length = 0
            · simp [h0]
            · rw [List.getElem?_eq_none (by simp; omega)]
    · cases hx; exact h
  | _ =>
    simp only [exec] at hx
    split at hx
    · split_ifs at hx with hr <;> (cases hx; exact h)
    · cases hx; exact h

theorem run_counted (ops : List (Op P S)) : ∀ {w w' : World P O} {rs : List Res}, Shape w → Owed w none →
    run N out w ops = .ok (w', rs) → Shape w' ∧ Owed w' none := by
  induction ops with
  | nil => intro w w' rs h1 h2 hx; cases hx; exact ⟨h1, h2⟩
  | cons op ops ih =>
    intro w w' rs h1 h2 hx
    obtain ⟨w1, r, rs', e1, e2, rfl⟩ := (run_cons N out).1 hx
    exact ih (exec_shape N out h1 e1) (exec_counted N out h2 e1) e2

theorem empty_shape : Shape (World.empty P O) := by
  intro i h b e; simp [World.empty] at e

theorem empty_owed : Owed (World.empty P O) none := by
  intro r
  cases r <;> simp [World.empty, innerOf, liveOn]

theorem empty_safe (G : ℕ → Prop) : Safe G (World.empty P O) :=
  ⟨empty_shape, by simp [World.empty], by simp [World.empty]⟩

end Verif.GStep
