import Verif.Spec.GStepper
import Verif.Lemmas.Outcome

/-! Auxiliary facts about GObject steppers. -/

namespace Verif.GStep

open Spec

variable {P O S : Type} (N : AnimClass P O S) (out : O)

/-- What dropping one reference keeps. -/
structure Keeps (bc : Bool) (r : SRef) (w w' : World P O) : Prop where
  anims : w'.anims = w.anims
  hlen : w'.holders.length = w.holders.length
  wlen : w'.wrappers.length = w.wrappers.length
  holders : ∀ (i : ℕ) (h : Holder), w.holders[i]? = some h → ∃ h', w'.holders[i]? = some h' ∧ h'.cell = h.cell ∧
    h'.base = h.base ∧ h'.client = if bc = true ∧ r = .holder i then h.client - 1 else h.client
  wrappers : ∀ (k : ℕ) (v : Wrapper), w.wrappers[k]? = some v → ∃ v', w'.wrappers[k]? = some v' ∧ v'.anim = v.anim ∧
    v'.client = if bc = true ∧ r = .wrapper k then v.client - 1 else v.client

theorem Keeps.trans_false {bc : Bool} {r b : SRef} {w w' w'' : World P O} (h : Keeps bc r w w')
    (h' : Keeps false b w' w'') : Keeps bc r w w'' where
  anims := h'.anims.trans h.anims
  hlen := h'.hlen.trans h.hlen
  wlen := h'.wlen.trans h.wlen
  holders i x e := by
    obtain ⟨y, e1, e2, e3, e4⟩ := h.holders i x e
    obtain ⟨z, f1, f2, f3, f4⟩ := h'.holders i y e1
    exact ⟨z, f1, f2.trans e2, f3.trans e3, by rw [f4]; simpa using e4⟩
  wrappers i x e := by
    obtain ⟨y, e1, e2, e4⟩ := h.wrappers i x e
    obtain ⟨z, f1, f2, f4⟩ := h'.wrappers i y e1
    exact ⟨z, f1, f2.trans e2, by rw [f4]; simpa using e4⟩

/-- The counter that goes down. -/
def dec (bc : Bool) (h : Holder) : Holder :=
  if bc then { h with client := h.client - 1 } else { h with inner := h.inner - 1 }

/-- The counter that goes down. -/
def decW (bc : Bool) (h : Wrapper) : Wrapper :=
  if bc then { h with client := h.client - 1 } else { h with inner := h.inner - 1 }

theorem keeps_dec (w : World P O) (bc : Bool) {i : ℕ} {h : Holder} (e : w.holders[i]? = some h) :
    Keeps bc (.holder i) w { w with holders := w.holders.set i (dec bc h) } where
  anims := rfl
  hlen := by simp
  wlen := rfl
  holders k x ex := by
    have hi : i < w.holders.length := by
      by_contra hc; rw [List.getElem?_eq_none (by omega)] at e; simp at e
    by_cases hk : i = k
    · subst hk
      rw [e] at ex; cases ex
      refine ⟨dec bc h, by simp [hi], ?_⟩
      cases bc <;> simp [dec]
    · refine ⟨x, by simpa [List.getElem?_set, hk] using ex, rfl, rfl, ?_⟩
      simp [hk]
  wrappers k x ex := ⟨x, ex, rfl, by simp⟩

theorem keeps_decW (w : World P O) (bc : Bool) {i : ℕ} {h : Wrapper} (e : w.wrappers[i]? = some h) :
    Keeps bc (.wrapper i) w { w with wrappers := w.wrappers.set i (decW bc h) } where
  anims := rfl
  hlen := rfl
  wlen := by simp
  holders k x ex := ⟨x, ex, rfl, rfl, by simp⟩
  wrappers k x ex := by
    have hi : i < w.wrappers.length := by
      by_contra hc; rw [List.getElem?_eq_none (by omega)] at e; simp at e
    by_cases hk : i = k
    · subst hk
      rw [e] at ex; cases ex
      refine ⟨decW bc h, by simp [hi], ?_⟩
      cases bc <;> simp [decW]
    · refine ⟨x, by simpa [List.getElem?_set, hk] using ex, rfl, ?_⟩
      simp [hk]

theorem drop_holder (w : World P O) (bc : Bool) {i : ℕ} {h : Holder} (e : w.holders[i]? = some h)
    (fuel : ℕ) : w.drop bc (.holder i) (fuel + 1) =
      if (dec bc h).client + (dec bc h).inner = 0 then
        match h.base with
        | some b => World.drop { w with holders := w.holders.set i (dec bc h) } false b fuel
        | .none => .ok { w with holders := w.holders.set i (dec bc h) }
      else .ok { w with holders := w.holders.set i (dec bc h) } := by
  simp only [World.drop, e]
  rfl

theorem drop_wrapper (w : World P O) (bc : Bool) {i : ℕ} {h : Wrapper} (e : w.wrappers[i]? = some h)
    (fuel : ℕ) : w.drop bc (.wrapper i) (fuel + 1) =
      if (decW bc h).client + (decW bc h).inner = 0 then .ub
      else .ok { w with wrappers := w.wrappers.set i (decW bc h) } := by
  simp only [World.drop, e]
  rfl

theorem drop_keeps : ∀ (fuel : ℕ) (w : World P O) (bc : Bool) (r : SRef) {w' : World P O},
    w.drop bc r fuel = .ok w' → Keeps bc r w w' := by
  intro fuel
  induction fuel with
  | zero => intro w bc r w' e; simp [World.drop] at e
  | succ fuel ih =>
    intro w bc r w' e
    cases r with
    | holder i =>
      cases hh : w.holders[i]? with
      | none => simp [World.drop, hh] at e
      | some h =>
        rw [drop_holder w bc hh] at e
        split_ifs at e with hz
        · cases hb : h.base with
          | none => rw [hb] at e; cases e; exact keeps_dec w bc hh
          | some b => rw [hb] at e; exact (keeps_dec w bc hh).trans_false (ih _ _ _ e)
        · cases e; exact keeps_dec w bc hh
    | wrapper k =>
      cases hh : w.wrappers[k]? with
      | none => simp [World.drop, hh] at e
      | some h =>
        rw [drop_wrapper w bc hh] at e
        split_ifs at e with hz
        cases e
        exact keeps_decW w bc hh

theorem lt_of_getElem? {α : Type*} {l : List α} {i : ℕ} {a : α} (e : l[i]? = some a) : i < l.length := by
  by_contra hc; rw [List.getElem?_eq_none (by omega)] at e; simp at e

/-- The time a call adds to stepper `r`. -/
def ownTime (r : SRef) : Op P S → List ℕ
  | .step r' ms => if r' = r then [ms] else []
  | _ => []

theorem stepTimes_cons (r : SRef) (op : Op P S) (ops : List (Op P S)) :
    stepTimes r (op :: ops) = ownTime r op ++ stepTimes r ops := by
  cases op <;> simp [stepTimes, ownTime]
  split_ifs <;> simp

theorem advance_append (s : Stepper) (l l' : List ℕ) : advance s (l ++ l') = advance (advance s l) l' := by
  induction l generalizing s with
  | nil => rfl
  | cons m l ih => exact ih _

theorem getElem?_append_of_some {α : Type*} {l : List α} {i : ℕ} {a b : α} (e : l[i]? = some a) :
    (l ++ [b])[i]? = some a := by
  rw [List.getElem?_append_left (lt_of_getElem? e)]; exact e

/-- What one call does to a holder the program keeps a reference on. -/
theorem exec_holder {w w' : World P O} {op : Op P S} {res : Res} {i : ℕ} {h : Holder}
    (e : w.holders[i]? = some h) (hc : h.client ≠ 0) (ho : op ≠ .unref (.holder i))
    (hx : exec N out w op = .ok (w', res)) :
    ∃ h', w'.holders[i]? = some h' ∧ h'.client ≠ 0 ∧ h'.cell = advance h.cell (ownTime (.holder i) op) ∧
      h'.base = h.base := by
  have same : w'.holders = w.holders → ownTime (.holder i) op = [] →
      ∃ h', w'.holders[i]? = some h' ∧ h'.client ≠ 0 ∧ h'.cell = advance h.cell (ownTime (.holder i) op) ∧
      h'.base = h.base := fun h1 h2 =>
    ⟨h, by rw [h1, e], hc, by rw [h2]; rfl, rfl⟩
  have app : ∀ x, w'.holders = w.holders ++ [x] → ownTime (.holder i) op = [] →
      ∃ h', w'.holders[i]? = some h' ∧ h'.client ≠ 0 ∧ h'.cell = advance h.cell (ownTime (.holder i) op) ∧
      h'.base = h.base := fun x h1 h2 =>
    ⟨h, by rw [h1, getElem?_append_of_some e], hc, by rw [h2]; rfl, rfl⟩
  cases op with
  | newLinear L => cases hx; exact app _ rfl rfl
  | newReverse b =>
    cases b with
    | none => cases hx; exact app _ rfl rfl
    | some r =>
      simp only [exec] at hx
      split_ifs at hx with hr
      · obtain ⟨s, hs, hx⟩ := Outcome.bind_eq_ok.1 hx
        cases hx
        cases r with
        | wrapper k => exact app _ rfl rfl
        | holder m =>
          by_cases hm : m = i
          · subst hm
            refine ⟨{ h with inner := h.inner + 1 }, ?_, hc, rfl, rfl⟩
            apply getElem?_append_of_some
            simp [World.addInner, e]
          · refine ⟨h, ?_, hc, rfl, rfl⟩
            apply getElem?_append_of_some
            simp [World.addInner, List.getElem?_modify, hm, e]
      · cases hx; exact same rfl rfl
  | step r ms =>
    simp only [exec] at hx
    split_ifs at hx with hr
    · obtain ⟨s, hs, hx⟩ := Outcome.bind_eq_ok.1 hx
      cases hx
      cases r with
      | wrapper k =>
        apply same _ (by simp [ownTime])
        simp only [World.write]
        split <;> rfl
      | holder m =>
        by_cases hm : m = i
        · subst hm
          have hne : h.client + h.inner ≠ 0 := by omega
          simp only [World.read, e, hne, if_false, Outcome.ok.injEq] at hs
          subst hs
          exact ⟨{ h with cell := h.cell.after ms }, by simp [World.write, e], hc,
            by simp [ownTime, advance, Stepper.after], rfl⟩
        · refine ⟨h, by simp [World.write, List.getElem?_modify, hm, e], hc, ?_, rfl⟩
          simp [ownTime, hm, advance]
    · cases hx
      apply same rfl
      simp only [ownTime]
      split_ifs with h1
      · subst h1
        exact absurd ⟨h, e, hc⟩ hr
      · rfl
  | ref r =>
    simp only [exec] at hx
    split_ifs at hx with hr
    · cases hx
      cases r with
      | wrapper k => exact same rfl rfl
      | holder m =>
        by_cases hm : m = i
        · subst hm
          exact ⟨{ h with client := h.client + 1 }, by simp [World.addClient, e], by simp, rfl, rfl⟩
        · exact ⟨h, by simp [World.addClient, List.getElem?_modify, hm, e], hc, rfl, rfl⟩
    · cases hx; exact same rfl rfl
  | unref r =>
    simp only [exec] at hx
    split_ifs at hx with hr
    · obtain ⟨s, hs, hx⟩ := Outcome.bind_eq_ok.1 hx
      cases hx
      obtain ⟨h', e1, e2, e3, e4⟩ := (drop_keeps _ _ _ _ hs).holders i h e
      refine ⟨h', e1, ?_, e2, e3⟩
      rw [e4, if_neg]
      · exact hc
      · rintro ⟨-, rfl⟩; exact ho rfl
    · cases hx; exact same rfl rfl
  | newAnim p r =>
    cases r with
    | none => cases hx; exact same rfl rfl
    | some r =>
      simp only [exec] at hx
      split_ifs at hx with hr
      · obtain ⟨s, hs, hx⟩ := Outcome.bind_eq_ok.1 hx
        cases hx; exact same rfl rfl
      · cases hx; exact same rfl rfl
  | setStepper j r =>
    simp only [exec] at hx
    split at hx
    · split_ifs at hx with hr
      · cases hx; exact same rfl rfl
      · obtain ⟨s, hs, hx⟩ := Outcome.bind_eq_ok.1 hx
        cases hx; exact same rfl rfl
    · cases hx; exact same rfl rfl
  | _ =>
    simp only [exec] at hx
    split at hx
    · split_ifs at hx with hr <;> (cases hx; exact same rfl rfl)
    · cases hx; exact same rfl rfl

theorem run_cons {w : World P O} {op : Op P S} {ops : List (Op P S)} {w' : World P O} {rs : List Res} :
    run N out w (op :: ops) = .ok (w', rs) ↔
      ∃ w1 r rs', exec N out w op = .ok (w1, r) ∧ run N out w1 ops = .ok (w', rs') ∧ rs = r :: rs' := by
  rw [run]
  constructor
  · intro h
    obtain ⟨⟨w1, r⟩, h1, h⟩ := Outcome.bind_eq_ok.1 h
    obtain ⟨⟨w2, rs'⟩, h2, h⟩ := Outcome.bind_eq_ok.1 h
    cases h
    exact ⟨w1, r, rs', h1, h2, rfl⟩
  · rintro ⟨w1, r, rs', h1, h2, rfl⟩
    rw [h1]; simp [h2]

/-- What a history does to a holder the program keeps its references on. -/
theorem run_holder {i : ℕ} (ops : List (Op P S)) (ho : Op.unref (.holder i) ∉ ops) :
    ∀ {w w' : World P O} {rs : List Res} {h : Holder}, w.holders[i]? = some h → h.client ≠ 0 →
      run N out w ops = .ok (w', rs) →
      ∃ h', w'.holders[i]? = some h' ∧ h'.client ≠ 0 ∧ h'.cell = advance h.cell (stepTimes (.holder i) ops) := by
  induction ops with
  | nil =>
    intro w w' rs h e hc hx
    cases hx
    exact ⟨h, e, hc, rfl⟩
  | cons op ops ih =>
    intro w w' rs h e hc hx
    obtain ⟨w1, r, rs', h1, h2, rfl⟩ := (run_cons N out).1 hx
    simp only [List.mem_cons, not_or] at ho
    obtain ⟨x, e1, e2, e3, -⟩ := exec_holder N out e hc (Ne.symm ho.1) h1
    obtain ⟨y, f1, f2, f3⟩ := ih ho.2 e1 e2 h2
    exact ⟨y, f1, f2, by rw [f3, e3, stepTimes_cons, advance_append]⟩

/-! ### Animations that are left alone -/

/-- A call that does not act on an unobserved animation leaves it alone. -/
theorem exec_anim {w w' : World P O} {op : Op P S} {res : Res} {j : ℕ} {a : AnimObj P O}
    (e : w.anims[j]? = some a) (hu : Unobserved w j) (ho : ¬ ActsOn j op)
    (hx : exec N out w op = .ok (w', res)) :
    (∃ a', w'.anims[j]? = some a' ∧ a'.native = a.native ∧ (op ≠ .unrefAnim j → a'.client = a.client)) ∧ Unobserved w' j := by
  have same : w'.anims = w.anims → w'.wrappers = w.wrappers →
      (∃ a', w'.anims[j]? = some a' ∧ a'.native = a.native ∧ (op ≠ .unrefAnim j → a'.client = a.client)) ∧ Unobserved w' j := fun h1 h2 =>
    ⟨⟨a, by rw [h1, e], rfl, fun _ => rfl⟩, fun k v hk => hu k v (h2 ▸ hk)⟩
  have app : ∀ x, w'.anims = w.anims ++ [x] → w'.wrappers = w.wrappers →
      (∃ a', w'.anims[j]? = some a' ∧ a'.native = a.native ∧ (op ≠ .unrefAnim j → a'.client = a.client)) ∧ Unobserved w' j := fun x h1 h2 =>
    ⟨⟨a, by rw [h1, getElem?_append_of_some e], rfl, fun _ => rfl⟩, fun k v hk => hu k v (h2 ▸ hk)⟩
  have other : ∀ j' x, j' ≠ j → w'.anims = w.anims.set j' x → w'.wrappers = w.wrappers →
      (∃ a', w'.anims[j]? = some a' ∧ a'.native = a.native ∧ (op ≠ .unrefAnim j → a'.client = a.client)) ∧ Unobserved w' j := fun j' x hj h1 h2 =>
    ⟨⟨a, by rw [h1, List.getElem?_set_ne hj, e], rfl, fun _ => rfl⟩, fun k v hk => hu k v (h2 ▸ hk)⟩
  have wmod : ∀ m (f : Wrapper → Wrapper), (∀ x, (f x).anim = x.anim) → w'.anims = w.anims →
      w'.wrappers = w.wrappers.modify m f →
      (∃ a', w'.anims[j]? = some a' ∧ a'.native = a.native ∧ (op ≠ .unrefAnim j → a'.client = a.client)) ∧ Unobserved w' j := by
    intro m f hf h1 h2
    refine ⟨⟨a, by rw [h1, e], rfl, fun _ => rfl⟩, fun k v hk => ?_⟩
    rw [h2, List.getElem?_modify] at hk
    cases hv : w.wrappers[k]? with
    | none => simp [hv] at hk
    | some v' =>
      have := hu k v' hv
      rw [hv] at hk
      simp only [Option.map_eq_map, Option.map_some, Option.some.injEq] at hk
      subst hk
      split_ifs
      · rwa [hf]
      · exact this
  cases op with
  | newLinear L => cases hx; exact same rfl rfl
  | newReverse b =>
    cases b with
    | none => cases hx; exact same rfl rfl
    | some r =>
      simp only [exec] at hx
      split_ifs at hx with hr
      · obtain ⟨s, hs, hx⟩ := Outcome.bind_eq_ok.1 hx
        cases hx
        cases r with
        | wrapper k => exact wmod k (fun h => { h with inner := h.inner + 1 }) (fun _ => rfl) rfl rfl
        | holder m => exact same rfl rfl
      · cases hx; exact same rfl rfl
  | step r ms =>
    simp only [exec] at hx
    split_ifs at hx with hr
    · obtain ⟨s, hs, hx⟩ := Outcome.bind_eq_ok.1 hx
      cases hx
      cases r with
      | wrapper k =>
        cases hv : w.wrappers[k]? with
        | none => exact same (by simp [World.write, hv]) (by simp [World.write, hv])
        | some v =>
          have hne := hu k v hv
          refine ⟨⟨a, ?_, rfl, fun _ => rfl⟩, ?_⟩
          · simp [World.write, hv, List.getElem?_modify, hne, e]
          · simp only [World.write, hv]; exact hu
      | holder m => exact same rfl rfl
    · cases hx; exact same rfl rfl
  | ref r =>
    simp only [exec] at hx
    split_ifs at hx with hr
    · cases hx
      cases r with
      | wrapper k => exact wmod k (fun h => { h with client := h.client + 1 }) (fun _ => rfl) rfl rfl
      | holder m => exact same rfl rfl
    · cases hx; exact same rfl rfl
  | unref r =>
    simp only [exec] at hx
    split_ifs at hx with hr
    · obtain ⟨s, hs, hx⟩ := Outcome.bind_eq_ok.1 hx
      cases hx
      have hk := drop_keeps _ _ _ _ hs
      refine ⟨⟨a, by rw [hk.anims, e], rfl, fun _ => rfl⟩, fun k v hv => ?_⟩
      have hlt := lt_of_getElem? hv
      rw [hk.wlen] at hlt
      obtain ⟨v', e1, e2, -⟩ := hk.wrappers k _ (List.getElem?_eq_getElem hlt)
      rw [e1] at hv; cases hv
      rw [e2]
      exact hu k _ (List.getElem?_eq_getElem hlt)
    · cases hx; exact same rfl rfl
  | newAnim p r =>
    cases r with
    | none => cases hx; exact app _ rfl rfl
    | some r =>
      simp only [exec] at hx
      split_ifs at hx with hr
      · obtain ⟨s, hs, hx⟩ := Outcome.bind_eq_ok.1 hx
        cases hx; exact app _ rfl rfl
      · cases hx; exact same rfl rfl
  | setStepper j' r =>
    simp only [exec] at hx
    split at hx
    · split_ifs at hx with hr
      · cases hx; exact same rfl rfl
      · obtain ⟨s, hs, hx⟩ := Outcome.bind_eq_ok.1 hx
        cases hx; exact other j' _ ho rfl rfl
    · cases hx; exact same rfl rfl
  | getStepper j' =>
    simp only [exec] at hx
    split at hx
    · split_ifs at hx with hr
      · cases hx; exact same rfl rfl
      · cases hx
        refine ⟨⟨a, e, rfl, fun _ => rfl⟩, fun k v hv => ?_⟩
        by_cases hk : k < w.wrappers.length
        · rw [List.getElem?_append_left hk] at hv
          exact hu k v hv
        · rw [List.getElem?_append_right (by omega)] at hv
          have := List.mem_of_getElem? hv
          simp only [List.mem_singleton] at this
          rw [this]
          exact ho
    · cases hx; exact same rfl rfl
  | unrefAnim j' =>
    simp only [exec] at hx
    split at hx
    · rename_i b hb
      split_ifs at hx with hr
      · cases hx; exact same rfl rfl
      · cases hx
        by_cases hj : j' = j
        · subst hj
          rw [e] at hb; cases hb
          exact ⟨⟨{ a with client := a.client - 1 }, by simp [lt_of_getElem? e], rfl, fun h => absurd rfl h⟩, hu⟩
        · exact other j' _ hj rfl rfl
    · cases hx; exact same rfl rfl
  | stepAnim j' ms =>
    simp only [exec] at hx
    split at hx
    · split_ifs at hx with hr
      · cases hx; exact same rfl rfl
      · cases hx; exact other j' _ ho rfl rfl
    · cases hx; exact same rfl rfl
  | setAnim j' s =>
    simp only [exec] at hx
    split at hx
    · split_ifs at hx with hr
      · cases hx; exact same rfl rfl
      · cases hx; exact other j' _ ho rfl rfl
    · cases hx; exact same rfl rfl

/-- A history that never acts on an unobserved animation leaves it alone. -/
theorem run_anim {j : ℕ} (ops : List (Op P S)) (ho : ∀ op ∈ ops, ¬ ActsOn j op) :
    ∀ {w w' : World P O} {rs : List Res} {a : AnimObj P O}, w.anims[j]? = some a → Unobserved w j →
      run N out w ops = .ok (w', rs) → ∃ a', w'.anims[j]? = some a' ∧ a'.native = a.native := by
  induction ops with
  | nil =>
    intro w w' rs a e hu hx
    cases hx
    exact ⟨a, e, rfl⟩
  | cons op ops ih =>
    intro w w' rs a e hu hx
    obtain ⟨w1, r, rs', h1, h2, rfl⟩ := (run_cons N out).1 hx
    obtain ⟨⟨x, e1, e2, -⟩, hu1⟩ := exec_anim N out e hu (ho op (by simp)) h1
    obtain ⟨y, f1, f2⟩ := ih (fun o h => ho o (List.mem_cons_of_mem _ h)) e1 hu1 h2
    exact ⟨y, f1, f2.trans e2⟩

/-- The time a call adds to animation `j`. -/
def animTime (j : ℕ) : Op P S → List ℕ
  | .stepAnim j' ms => if j' = j then [ms] else []
  | _ => []

theorem animTimes_cons (j : ℕ) (op : Op P S) (ops : List (Op P S)) :
    animTimes j (op :: ops) = animTime j op ++ animTimes j ops := by
  cases op <;> simp [animTimes, animTime]
  split_ifs <;> simp

/-- One call moves the stepper of an unobserved animation on by the time with which it is stepped. -/
theorem exec_times {w w' : World P O} {op : Op P S} {res : Res} {j : ℕ} {a : AnimObj P O}
    (e : w.anims[j]? = some a) (hc : a.client ≠ 0) (hu : Unobserved w j) (ho : ¬ MeddlesWith j op)
    (hx : exec N out w op = .ok (w', res)) :
    (∃ a', w'.anims[j]? = some a' ∧ a'.client ≠ 0 ∧
      a'.native.stepper = advance a.native.stepper (animTime j op)) ∧ Unobserved w' j := by
  by_cases ha : ActsOn j op
  · cases op with
    | stepAnim j' ms =>
      obtain rfl : j' = j := ha
      simp only [exec, e, if_neg hc] at hx
      cases hx
      exact ⟨⟨{ a with native := (N.step a.native ms).1 }, by simp [lt_of_getElem? e], hc,
        by simp only [animTime, if_pos, advance]; rfl⟩, hu⟩
    | setAnim j' s =>
      obtain rfl : j' = j := ha
      simp only [exec, e, if_neg hc] at hx
      cases hx
      exact ⟨⟨{ a with native := N.set a.native s }, by simp [lt_of_getElem? e], hc,
        by simp [animTime, advance, AnimClass.set]⟩, hu⟩
    | _ => first | exact absurd ha ho | exact ha.elim
  · obtain ⟨⟨a', e1, e2, e3⟩, hu'⟩ := exec_anim N out e hu ha hx
    refine ⟨⟨a', e1, ?_, ?_⟩, hu'⟩
    · rw [e3 (by rintro rfl; exact ho rfl)]
      exact hc
    · have : animTime j op = [] := by
        cases op with
        | stepAnim j' ms => simp only [animTime]; rw [if_neg (show ¬ j' = j from ha)]
        | _ => rfl
      rw [e2, this]
      rfl

/-- The stepper of an unobserved animation is moved on by stepping the animation, and by nothing else. -/
theorem run_times {j : ℕ} (ops : List (Op P S)) (ho : ∀ op ∈ ops, ¬ MeddlesWith j op) :
    ∀ {w w' : World P O} {rs : List Res} {a : AnimObj P O}, w.anims[j]? = some a → a.client ≠ 0 → Unobserved w j →
      run N out w ops = .ok (w', rs) → ∃ a', w'.anims[j]? = some a' ∧ a'.client ≠ 0 ∧
        a'.native.stepper = advance a.native.stepper (animTimes j ops) := by
  induction ops with
  | nil =>
    intro w w' rs a e hc hu hx
    cases hx
    exact ⟨a, e, hc, rfl⟩
  | cons op ops ih =>
    intro w w' rs a e hc hu hx
    obtain ⟨w1, r, rs', h1, h2, rfl⟩ := (run_cons N out).1 hx
    obtain ⟨⟨x, e1, e2, e3⟩, hu1⟩ := exec_times N out e hc hu (ho op (by simp)) h1
    obtain ⟨y, f1, f2, f3⟩ := ih (fun o h => ho o (List.mem_cons_of_mem _ h)) e1 e2 hu1 h2
    exact ⟨y, f1, f2, by rw [f3, e3, animTimes_cons, advance_append]⟩

/-- Every wrapper looks at an animation that has been made. -/
def Looks (w : World P O) : Prop := ∀ (k : ℕ) (v : Wrapper), w.wrappers[k]? = some v → v.anim < w.anims.length

theorem exec_looks {w w' : World P O} {op : Op P S} {res : Res} (h : Looks w) (hx : exec N out w op = .ok (w', res)) :
    Looks w' := by
  have same : w.anims.length ≤ w'.anims.length → w'.wrappers = w.wrappers → Looks w' := fun h1 h2 k v hk =>
    (h k v (h2 ▸ hk)).trans_le h1
  have wmod : ∀ m (f : Wrapper → Wrapper), (∀ x, (f x).anim = x.anim) → w'.anims = w.anims →
      w'.wrappers = w.wrappers.modify m f → Looks w' := by
    intro m f hf h1 h2 k v hk
    rw [h2, List.getElem?_modify] at hk
    cases hv : w.wrappers[k]? with
    | none => simp [hv] at hk
    | some v' =>
      have := h k v' hv
      rw [hv] at hk
      simp only [Option.map_eq_map, Option.map_some, Option.some.injEq] at hk
      subst hk
      rw [h1]
      split_ifs
      · rwa [hf]
      · exact this
  cases op with
  | newLinear L => cases hx; exact same le_rfl rfl
  | newReverse b =>
    cases b with
    | none => cases hx; exact same le_rfl rfl
    | some r =>
      simp only [exec] at hx
      split_ifs at hx with hr
      · obtain ⟨s, hs, hx⟩ := Outcome.bind_eq_ok.1 hx
        cases hx
        cases r with
        | wrapper k => exact wmod k (fun h => { h with inner := h.inner + 1 }) (fun _ => rfl) rfl rfl
        | holder m => exact same le_rfl rfl
      · cases hx; exact same le_rfl rfl
  | step r ms =>
    simp only [exec] at hx
    split_ifs at hx with hr
    · obtain ⟨s, hs, hx⟩ := Outcome.bind_eq_ok.1 hx
      cases hx
      cases r with
      | wrapper k =>
        cases hv : w.wrappers[k]? with
        | none => exact same (by simp [World.write, hv]) (by simp [World.write, hv])
        | some v => exact same (by simp [World.write, hv]) (by simp [World.write, hv])
      | holder m => exact same le_rfl rfl
    · cases hx; exact same le_rfl rfl
  | ref r =>
    simp only [exec] at hx
    split_ifs at hx with hr
    · cases hx
      cases r with
      | wrapper k => exact wmod k (fun h => { h with client := h.client + 1 }) (fun _ => rfl) rfl rfl
      | holder m => exact same le_rfl rfl
    · cases hx; exact same le_rfl rfl
  | unref r =>
    simp only [exec] at hx
    split_ifs at hx with hr
    · obtain ⟨s, hs, hx⟩ := Outcome.bind_eq_ok.1 hx
      cases hx
      have hk := drop_keeps _ _ _ _ hs
      intro k v hv
      have hlt := lt_of_getElem? hv
      rw [hk.wlen] at hlt
      obtain ⟨v', e1, e2, -⟩ := hk.wrappers k _ (List.getElem?_eq_getElem hlt)
      rw [e1] at hv; cases hv
      rw [e2, hk.anims]
      exact h k _ (List.getElem?_eq_getElem hlt)
    · cases hx; exact same le_rfl rfl
  | newAnim p r =>
    cases r with
    | none => cases hx; exact same (by simp) rfl
    | some r =>
      simp only [exec] at hx
      split_ifs at hx with hr
      · obtain ⟨s, hs, hx⟩ := Outcome.bind_eq_ok.1 hx
        cases hx; exact same (by simp) rfl
      · cases hx; exact same le_rfl rfl
  | setStepper j' r =>
    simp only [exec] at hx
    split at hx
    · split_ifs at hx with hr
      · cases hx; exact same le_rfl rfl
      · obtain ⟨s, hs, hx⟩ := Outcome.bind_eq_ok.1 hx
        cases hx; exact same (by simp) rfl
    · cases hx; exact same le_rfl rfl
  | getStepper j' =>
    simp only [exec] at hx
    split at hx
    · rename_i a ha
      split_ifs at hx with hr
      · cases hx; exact same le_rfl rfl
      · cases hx
        intro k v hv
        by_cases hk : k < w.wrappers.length
        · rw [List.getElem?_append_left hk] at hv
          exact h k v hv
        · rw [List.getElem?_append_right (by omega)] at hv
          have := List.mem_of_getElem? hv
          simp only [List.mem_singleton] at this
          rw [this]
          exact lt_of_getElem? ha
    · cases hx; exact same le_rfl rfl
  | unrefAnim j' =>
    simp only [exec] at hx
    split at hx
    · split_ifs at hx with hr
      · cases hx; exact same le_rfl rfl
      · cases hx; exact same (by simp) rfl
    · cases hx; exact same le_rfl rfl
  | stepAnim j' ms =>
    simp only [exec] at hx
    split at hx
    · split_ifs at hx with hr
      · cases hx; exact same le_rfl rfl
      · cases hx; exact same (by simp) rfl
    · cases hx; exact same le_rfl rfl
  | setAnim j' s =>
    simp only [exec] at hx
    split at hx
    · split_ifs at hx with hr
      · cases hx; exact same le_rfl rfl
      · cases hx; exact same (by simp) rfl
    · cases hx; exact same le_rfl rfl

theorem run_looks (ops : List (Op P S)) : ∀ {w w' : World P O} {rs : List Res}, Looks w →
    run N out w ops = .ok (w', rs) → Looks w' := by
  induction ops with
  | nil =>
    intro w w' rs h hx
    cases hx
    exact h
  | cons op ops ih =>
    intro w w' rs h hx
    obtain ⟨w1, r, rs', h1, h2, rfl⟩ := (run_cons N out).1 hx
    exact ih (exec_looks N out h h1) h2

/-! ### Bases are older than what is based on them -/

/-- `b` exists and is older than holder `i`. -/
def Below (w : World P O) (i : ℕ) : SRef → Prop
  | .holder m => m < i
  | .wrapper k => k < w.wrappers.length

/-- Every base is older. -/
def Shape (w : World P O) : Prop :=
  ∀ (i : ℕ) (h : Holder) b, w.holders[i]? = some h → h.base = some b → Below w i b

theorem Shape.keeps {w w' : World P O} {bc : Bool} {r : SRef} (h : Shape w) (hk : Keeps bc r w w') :
    Shape w' := by
  intro i x b e hb
  have hlt := lt_of_getElem? e
  rw [hk.hlen] at hlt
  obtain ⟨x', e1, e2, e3, -⟩ := hk.holders i _ (List.getElem?_eq_getElem hlt)
  rw [e1] at e; cases e
  have := h i _ b (List.getElem?_eq_getElem hlt) (e3 ▸ hb)
  cases b with
  | holder m => exact this
  | wrapper k => simpa [Below, hk.wlen] using this

theorem Shape.grow {w w' : World P O} (h : Shape w)
    (hh : ∀ (i : ℕ) (x : Holder), w'.holders[i]? = some x →
      ∃ y : Holder, w.holders[i]? = some y ∧ x.base = y.base)
    (hw : w.wrappers.length ≤ w'.wrappers.length) : Shape w' := by
  intro i x b e hb
  obtain ⟨y, e1, e2⟩ := hh i x e
  have := h i y b e1 (e2 ▸ hb)
  cases b with
  | holder m => exact this
  | wrapper k => exact lt_of_lt_of_le this hw

theorem Shape.append {w w' : World P O} (h : Shape w) {x : Holder} (hh : w'.holders = w.holders ++ [x])
    (hw : w.wrappers.length ≤ w'.wrappers.length)
    (hx : ∀ b, x.base = some b → Below w w.holders.length b) : Shape w' := by
  intro i y b e hb
  rw [hh] at e
  by_cases hi : i < w.holders.length
  · rw [List.getElem?_append_left hi] at e
    have := h i y b e hb
    cases b with
    | holder m => exact this
    | wrapper k => exact lt_of_lt_of_le this hw
  · have hlt := lt_of_getElem? e
    simp at hlt
    obtain rfl : i = w.holders.length := by omega
    simp at e
    subst e
    have := hx b hb
    cases b with
    | holder m => exact this
    | wrapper k => exact lt_of_lt_of_le this hw

theorem base_modify {l : List Holder} {m : ℕ} {f : Holder → Holder} (hf : ∀ x, (f x).base = x.base) :
    ∀ (i : ℕ) (x : Holder), (l.modify m f)[i]? = some x →
      ∃ y : Holder, l[i]? = some y ∧ x.base = y.base := by
  intro i x e
  rw [List.getElem?_modify] at e
  cases hy : l[i]? with
  | none => simp [hy] at e
  | some y =>
    rw [hy] at e
    simp only [Option.map_eq_map, Option.map_some, Option.some.injEq] at e
    subst e
    refine ⟨y, rfl, ?_⟩
    split_ifs
    · exact hf y
    · rfl

theorem holds_below {w : World P O} {r : SRef} (hr : w.holds r) : Below w w.holders.length r := by
  cases r with
  | holder m => obtain ⟨h, e, -⟩ := hr; exact lt_of_getElem? e
  | wrapper k => obtain ⟨h, e, -⟩ := hr; exact lt_of_getElem? e

theorem shape_addInner {w : World P O} (h : Shape w) (r : SRef) : Shape (w.addInner r) := by
  cases r with
  | holder m => exact h.grow (base_modify fun _ => rfl) le_rfl
  | wrapper k => exact h.grow (fun i x e => ⟨x, e, rfl⟩) (by simp [World.addInner])

theorem below_addInner {w : World P O} {r : SRef} {i : ℕ} {b : SRef} (h : Below w i b) :
    Below (w.addInner r) i b := by
  cases b with
  | holder m => exact h
  | wrapper k => cases r <;> simpa [Below, World.addInner] using h

theorem length_addInner (w : World P O) (r : SRef) : (w.addInner r).holders.length = w.holders.length := by
  cases r <;> simp [World.addInner]

theorem exec_shape {w w' : World P O} {op : Op P S} {res : Res} (h : Shape w)
    (hx : exec N out w op = .ok (w', res)) : Shape w' := by
  have id' : ∀ (i : ℕ) (x : Holder), w.holders[i]? = some x →
      ∃ y : Holder, w.holders[i]? = some y ∧ x.base = y.base :=
    fun i x e => ⟨x, e, rfl⟩
  cases op with
  | newLinear L => cases hx; exact h.append rfl le_rfl (by simp)
  | newReverse b =>
    cases b with
    | none => cases hx; exact h.append rfl le_rfl (by simp)
    | some r =>
      simp only [exec] at hx
      split_ifs at hx with hr
      · obtain ⟨s, hs, hx⟩ := Outcome.bind_eq_ok.1 hx
        cases hx
        refine (shape_addInner h r).append rfl le_rfl ?_
        intro b hb
        cases hb
        rw [length_addInner]
        exact below_addInner (holds_below hr)
      · cases hx; exact h
  | step r ms =>
    simp only [exec] at hx
    split_ifs at hx with hr
    · obtain ⟨s, hs, hx⟩ := Outcome.bind_eq_ok.1 hx
      cases hx
      cases r with
      | holder m => exact h.grow (base_modify fun _ => rfl) le_rfl
      | wrapper k =>
        simp only [World.write]
        split
        · exact h.grow id' le_rfl
        · exact h
    · cases hx; exact h
  | ref r =>
    simp only [exec] at hx
    split_ifs at hx with hr
    · cases hx
      cases r with
      | holder m => exact h.grow (base_modify fun _ => rfl) le_rfl
      | wrapper k => exact h.grow id' (by simp [World.addClient])
    · cases hx; exact h
  | unref r =>
    simp only [exec] at hx
    split_ifs at hx with hr
    · obtain ⟨s, hs, hx⟩ := Outcome.bind_eq_ok.1 hx
      cases hx
      exact h.keeps (drop_keeps _ _ _ _ hs)
    · cases hx; exact h
  | newAnim p r =>
    cases r with
    | none => cases hx; exact h.grow id' le_rfl
    | some r =>
      simp only [exec] at hx
      split_ifs at hx with hr
      · obtain ⟨s, hs, hx⟩ := Outcome.bind_eq_ok.1 hx
        cases hx; exact h.grow id' le_rfl
      · cases hx; exact h
  | setStepper j r =>
    simp only [exec] at hx
    split at hx
    · split_ifs at hx with hr
      · cases hx; exact h
      · obtain ⟨s, hs, hx⟩ := Outcome.bind_eq_ok.1 hx
        cases hx; exact h.grow id' le_rfl
    · cases hx; exact h
  | getStepper j =>
    simp only [exec] at hx
    split at hx
    · split_ifs at hx with hr
      · cases hx; exact h
      · cases hx; exact h.grow id' (by simp)
    · cases hx; exact h
  | _ =>
    simp only [exec] at hx
    split at hx
    · split_ifs at hx with hr <;> (cases hx; first | exact h | exact h.grow id' le_rfl)
    · cases hx; exact h

/-! ### Careful programs -/

/-- What a careful program maintains: `G` are the animations whose stepper it asks for. -/
structure Safe (G : ℕ → Prop) (w : World P O) : Prop where
  shape : Shape w
  wrappers : ∀ (k : ℕ) (v : Wrapper), w.wrappers[k]? = some v →
    v.client ≠ 0 ∧ G v.anim ∧ v.anim < w.anims.length
  anims : ∀ (j : ℕ) (a : AnimObj P O), w.anims[j]? = some a → G j → a.client ≠ 0

theorem drop_ok {G : ℕ → Prop} : ∀ (fuel : ℕ) (w : World P O) (bc : Bool) (r : SRef), Safe G w →
    (∀ i, r = .holder i → i < w.holders.length ∧ i + 1 < fuel) →
    (∀ k, r = .wrapper k → bc = false ∧ k < w.wrappers.length ∧ 0 < fuel) →
    ∃ w', w.drop bc r fuel = .ok w' := by
  intro fuel
  induction fuel with
  | zero =>
    intro w bc r _ h1 h2
    cases r with
    | holder i => have := (h1 i rfl).2; omega
    | wrapper k => have := (h2 k rfl).2.2; omega
  | succ fuel ih =>
    intro w bc r hs h1 h2
    cases r with
    | holder i =>
      obtain ⟨hi, hf⟩ := h1 i rfl
      have e := List.getElem?_eq_getElem hi
      rw [drop_holder w bc e]
      split_ifs with hz
      · cases hb : (w.holders[i]).base with
        | none => exact ⟨_, rfl⟩
        | some b =>
          have hk := keeps_dec w bc e
          have hbel := hs.shape i _ b e hb
          apply ih
          · refine ⟨hs.shape.keeps hk, ?_, ?_⟩
            · intro k v hv; exact hs.wrappers k v hv
            · intro j a ha; exact hs.anims j a ha
          · rintro m rfl
            have : m < i := hbel
            simp only [List.length_set]
            omega
          · rintro k rfl
            exact ⟨rfl, hbel, by omega⟩
      · exact ⟨_, rfl⟩
    | wrapper k =>
      obtain ⟨rfl, hk, hf⟩ := h2 k rfl
      have e := List.getElem?_eq_getElem hk
      rw [drop_wrapper w false e, if_neg]
      · exact ⟨_, rfl⟩
      · have := (hs.wrappers k _ e).1
        simp only [decW, Bool.false_eq_true, if_false]
        omega

theorem Safe.keeps {G : ℕ → Prop} {w w' : World P O} {bc : Bool} {i : ℕ} (h : Safe G w)
    (hk : Keeps bc (.holder i) w w') : Safe G w' := by
  refine ⟨h.shape.keeps hk, fun k v hv => ?_, fun j a ha => ?_⟩
  · have hlt := lt_of_getElem? hv
    rw [hk.wlen] at hlt
    obtain ⟨v', e1, e2, e3⟩ := hk.wrappers k _ (List.getElem?_eq_getElem hlt)
    rw [e1] at hv; cases hv
    have := h.wrappers k _ (List.getElem?_eq_getElem hlt)
    simp only [reduceCtorEq, and_false, if_false] at e3
    rw [e2, e3, hk.anims]
    exact this
  · rw [hk.anims] at ha
    exact h.anims j a ha

theorem Safe.read {G : ℕ → Prop} {w : World P O} (h : Safe G w) {r : SRef} (hr : w.holds r) :
    ∃ s, w.read r = .ok s := by
  cases r with
  | holder i =>
    obtain ⟨x, e, hc⟩ := hr
    exact ⟨x.cell, by simp only [World.read, e]; rw [if_neg (by omega)]⟩
  | wrapper k =>
    obtain ⟨x, e, hc⟩ := hr
    obtain ⟨-, hg, hl⟩ := h.wrappers k x e
    have ea := List.getElem?_eq_getElem hl
    have ha := h.anims _ _ ea hg
    exact ⟨_, by simp only [World.read, e, ea]; rw [if_neg (by omega), if_neg ha]⟩

/-- Only wrappers and reference counts of animations matter for safety, besides the shape. -/
theorem Safe.grow {G : ℕ → Prop} {w w' : World P O} (h : Safe G w) (hs : Shape w')
    (hw : ∀ (k : ℕ) (v : Wrapper), w'.wrappers[k]? = some v →
      ∃ v' : Wrapper, w.wrappers[k]? = some v' ∧ (v'.client ≠ 0 → v.client ≠ 0) ∧ v.anim = v'.anim)
    (hl : w.anims.length ≤ w'.anims.length)
    (ha : ∀ (j : ℕ) (a : AnimObj P O), w'.anims[j]? = some a → G j → (∃ a' : AnimObj P O,
      w.anims[j]? = some a' ∧ (a'.client ≠ 0 → a.client ≠ 0)) ∨ a.client ≠ 0) : Safe G w' := by
  refine ⟨hs, fun k v hv => ?_, fun j a hj hg => ?_⟩
  · obtain ⟨v', e1, e2, e3⟩ := hw k v hv
    obtain ⟨f1, f2, f3⟩ := h.wrappers k v' e1
    rw [e3]
    exact ⟨e2 f1, f2, by omega⟩
  · rcases ha j a hj hg with ⟨a', e1, e2⟩ | h1
    · exact e2 (h.anims j a' e1 hg)
    · exact h1

theorem client_modify {l : List Wrapper} {m : ℕ} {f : Wrapper → Wrapper}
    (hf : ∀ x : Wrapper, (x.client ≠ 0 → (f x).client ≠ 0) ∧ (f x).anim = x.anim) :
    ∀ (k : ℕ) (v : Wrapper), (l.modify m f)[k]? = some v →
      ∃ v' : Wrapper, l[k]? = some v' ∧ (v'.client ≠ 0 → v.client ≠ 0) ∧ v.anim = v'.anim := by
  intro i x e
  rw [List.getElem?_modify] at e
  cases hy : l[i]? with
  | none => simp [hy] at e
  | some y =>
    rw [hy] at e
    simp only [Option.map_eq_map, Option.map_some, Option.some.injEq] at e
    subst e
    refine ⟨y, rfl, ?_⟩
    split_ifs
    · exact hf y
    · exact ⟨id, rfl⟩

theorem anims_set {l : List (AnimObj P O)} {m : ℕ} {b a0 : AnimObj P O} (e0 : l[m]? = some a0)
    (hb : a0.client ≠ 0 → b.client ≠ 0) (j : ℕ) (a : AnimObj P O) (e : (l.set m b)[j]? = some a) :
    ∃ a' : AnimObj P O, l[j]? = some a' ∧ (a'.client ≠ 0 → a.client ≠ 0) := by
  by_cases hj : m = j
  · subst hj
    rw [List.getElem?_set_self (lt_of_getElem? e0)] at e
    cases e
    exact ⟨a0, e0, hb⟩
  · rw [List.getElem?_set_ne hj] at e
    exact ⟨a, e, id⟩

theorem exec_safe {G : ℕ → Prop} {w : World P O} {op : Op P S} (h : Safe G w)
    (h1 : ∀ k, op ≠ .unref (.wrapper k)) (h2 : ∀ j, op = .unrefAnim j → ¬ G j)
    (h3 : ∀ j, op = .getStepper j → G j) :
    ∃ w' res, exec N out w op = .ok (w', res) ∧ Safe G w' := by
  suffices hok : ∃ w' res, exec N out w op = .ok (w', res) ∧ (Shape w' → Safe G w') by
    obtain ⟨w', res, e, hs⟩ := hok
    exact ⟨w', res, e, hs (exec_shape N out h.shape e)⟩
  have wid : ∀ (k : ℕ) (v : Wrapper), w.wrappers[k]? = some v →
      ∃ v' : Wrapper, w.wrappers[k]? = some v' ∧ (v'.client ≠ 0 → v.client ≠ 0) ∧ v.anim = v'.anim :=
    fun k v e => ⟨v, e, id, rfl⟩
  have aid : ∀ (j : ℕ) (a : AnimObj P O), w.anims[j]? = some a → G j → (∃ a' : AnimObj P O,
      w.anims[j]? = some a' ∧ (a'.client ≠ 0 → a.client ≠ 0)) ∨ a.client ≠ 0 :=
    fun j a e _ => .inl ⟨a, e, id⟩
  have aapp : ∀ x : AnimObj P O, x.client ≠ 0 → ∀ (j : ℕ) (a : AnimObj P O),
      (w.anims ++ [x])[j]? = some a → G j → (∃ a' : AnimObj P O,
      w.anims[j]? = some a' ∧ (a'.client ≠ 0 → a.client ≠ 0)) ∨ a.client ≠ 0 := by
    intro x hx j a e _
    by_cases hj : j < w.anims.length
    · rw [List.getElem?_append_left hj] at e
      exact .inl ⟨a, e, id⟩
    · rw [List.getElem?_append_right (by omega)] at e
      have := List.mem_of_getElem? e
      simp only [List.mem_singleton] at this
      rw [this]
      exact .inr hx
  have keep : ∃ w' res, (Outcome.ok (w, Res.none) : Outcome (World P O × Res)) = .ok (w', res) ∧
      (Shape w' → Safe G w') := ⟨_, _, rfl, fun _ => h⟩
  cases op with
  | newLinear L => exact ⟨_, _, rfl, fun hs => h.grow hs wid le_rfl aid⟩
  | newReverse b =>
    cases b with
    | none => exact ⟨_, _, rfl, fun hs => h.grow hs wid le_rfl aid⟩
    | some r =>
      simp only [exec]
      split_ifs with hr
      · obtain ⟨s, hs⟩ := h.read hr
        rw [hs]
        refine ⟨_, _, rfl, fun hs => ?_⟩
        cases r with
        | holder m => exact h.grow hs wid le_rfl aid
        | wrapper k => exact h.grow hs (client_modify fun x => ⟨id, rfl⟩) le_rfl aid
      · exact keep
  | step r ms =>
    simp only [exec]
    split_ifs with hr
    · obtain ⟨s, hs⟩ := h.read hr
      rw [hs]
      refine ⟨_, _, rfl, fun hs => ?_⟩
      cases r with
      | holder m => exact h.grow hs wid le_rfl aid
      | wrapper k =>
        revert hs
        simp only [World.write]
        split
        · rename_i v hv
          intro hs
          refine h.grow hs wid (by simp) ?_
          intro j a e _
          simp only [List.getElem?_modify] at e
          cases hy : w.anims[j]? with
          | none => simp [hy] at e
          | some y =>
            rw [hy] at e
            simp only [Option.map_eq_map, Option.map_some, Option.some.injEq] at e
            subst e
            refine .inl ⟨y, rfl, fun hc => ?_⟩
            split_ifs <;> exact hc
        · intro _; exact h
    · exact keep
  | ref r =>
    simp only [exec]
    split_ifs with hr
    · refine ⟨_, _, rfl, fun hs => ?_⟩
      cases r with
      | holder m => exact h.grow hs wid le_rfl aid
      | wrapper k => exact h.grow hs (client_modify fun x => ⟨fun _ => by simp, rfl⟩) le_rfl aid
    · exact keep
  | unref r =>
    simp only [exec]
    split_ifs with hr
    · cases r with
      | wrapper k => exact absurd rfl (h1 k)
      | holder i =>
        have hi : i < w.holders.length := holds_below hr
        obtain ⟨w', hw⟩ := drop_ok (w.holders.length + 1) w true (.holder i) h
          (by rintro m hm; cases hm; omega) (by rintro k hk; cases hk)
        rw [hw]
        exact ⟨_, _, rfl, fun _ => h.keeps (drop_keeps _ _ _ _ hw)⟩
    · exact keep
  | newAnim p r =>
    cases r with
    | none => exact ⟨_, _, rfl, fun hs => h.grow hs wid (by simp) (aapp _ (by simp))⟩
    | some r =>
      simp only [exec]
      split_ifs with hr
      · obtain ⟨s, hs⟩ := h.read hr
        rw [hs]
        exact ⟨_, _, rfl, fun hs => h.grow hs wid (by simp) (aapp _ (by simp))⟩
      · exact keep
  | setStepper j r =>
    simp only [exec]
    split
    · rename_i a ha
      split_ifs with hr
      · exact keep
      · simp only [not_or, not_not] at hr
        obtain ⟨s, hs⟩ := h.read hr.2
        rw [hs]
        exact ⟨_, _, rfl, fun hs => h.grow hs wid (by simp)
          (fun j' a' e _ => .inl (anims_set ha (by exact fun hc => hc) j' a' e))⟩
    · exact keep
  | getStepper j =>
    simp only [exec]
    split
    · rename_i a ha
      split_ifs with hr
      · exact keep
      · refine ⟨_, _, rfl, fun hs => ⟨hs, fun k v hv => ?_, fun j a hj => h.anims j a hj⟩⟩
        by_cases hk : k < w.wrappers.length
        · rw [List.getElem?_append_left hk] at hv
          exact h.wrappers k v hv
        · rw [List.getElem?_append_right (by omega)] at hv
          have := List.mem_of_getElem? hv
          simp only [List.mem_singleton] at this
          rw [this]
          exact ⟨by simp, h3 j rfl, lt_of_getElem? ha⟩
    · exact keep
  | unrefAnim j =>
    simp only [exec]
    split
    · rename_i a ha
      split_ifs with hr
      · exact keep
      · refine ⟨_, _, rfl, fun hs => h.grow hs wid (by simp) ?_⟩
        intro j' a' e hg
        have hj : j ≠ j' := by rintro rfl; exact h2 j rfl hg
        rw [List.getElem?_set_ne hj] at e
        exact .inl ⟨a', e, id⟩
    · exact keep
  | stepAnim j ms =>
    simp only [exec]
    split
    · rename_i a ha
      split_ifs with hr
      · exact keep
      · exact ⟨_, _, rfl, fun hs => h.grow hs wid (by simp)
          (fun j' a' e _ => .inl (anims_set ha (by exact fun hc => hc) j' a' e))⟩
    · exact keep
  | setAnim j s =>
    simp only [exec]
    split
    · rename_i a ha
      split_ifs with hr
      · exact keep
      · exact ⟨_, _, rfl, fun hs => h.grow hs wid (by simp)
          (fun j' a' e _ => .inl (anims_set ha (by exact fun hc => hc) j' a' e))⟩
    · exact keep

theorem run_safe {G : ℕ → Prop} (ops : List (Op P S)) (h1 : ∀ k, Op.unref (.wrapper k) ∉ ops)
    (h2 : ∀ j, Op.unrefAnim j ∈ ops → ¬ G j) (h3 : ∀ j, Op.getStepper j ∈ ops → G j) :
    ∀ w : World P O, Safe G w → ∃ w' rs, run N out w ops = .ok (w', rs) := by
  induction ops with
  | nil => intro w _; exact ⟨_, _, rfl⟩
  | cons op ops ih =>
    intro w hs
    obtain ⟨w1, r, e1, hs1⟩ := exec_safe N out (op := op) hs
      (fun k e => h1 k (by simp [e])) (fun j e => h2 j (by simp [e])) (fun j e => h3 j (by simp [e]))
    obtain ⟨w2, rs, e2⟩ := ih (fun k e => h1 k (List.mem_cons_of_mem _ e))
      (fun j e => h2 j (List.mem_cons_of_mem _ e)) (fun j e => h3 j (List.mem_cons_of_mem _ e)) w1 hs1
    exact ⟨w2, r :: rs, (run_cons N out).2 ⟨w1, r, rs, e1, e2, rfl⟩⟩

end Verif.GStep
