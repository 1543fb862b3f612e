import Verif.Lemmas.Outcome
import Verif.Spec.Ledger
import Mathlib.Data.Finset.Card
import Mathlib.Tactic.Tauto

/-! Auxiliary facts about the memory behind boxed values. -/

namespace Verif.GMem

open Spec

/-- What is at an address. -/
def Heap.at (m : Heap) (a : ℕ) : Option Boxed := m[a]?.join

theorem Heap.at_lt {m : Heap} {a : ℕ} (h : m.at a ≠ none) : a < m.length := by
  by_contra c
  apply h
  unfold Heap.at
  rw [List.getElem?_eq_none (by omega)]
  rfl

theorem Heap.at_ge {m : Heap} {a : ℕ} (h : m.length ≤ a) : m.at a = none := by
  by_contra c
  have := Heap.at_lt c
  omega

theorem Heap.at_alloc (m : Heap) (v : Boxed) (a : ℕ) :
    Heap.at (m.alloc v).1 a = if a = m.length then some v else m.at a := by
  unfold Heap.at Heap.alloc
  dsimp only
  rcases lt_trichotomy a m.length with h | h | h
  · rw [List.getElem?_append_left h, if_neg (by omega)]
  · subst h
    simp
  · rw [List.getElem?_eq_none (by simp; omega), List.getElem?_eq_none (by omega), if_neg (by omega)]

theorem Heap.alloc_length (m : Heap) (v : Boxed) : ((m.alloc v).1 : Heap).length = m.length + 1 := by
  simp [Heap.alloc]

theorem Heap.at_set {m : Heap} {b : ℕ} (h : m.at b ≠ none) (v : Option Boxed) (a : ℕ) :
    Heap.at (m.set b v) a = if a = b then v else m.at a := by
  have hb := Heap.at_lt h
  unfold Heap.at
  by_cases c : a = b
  · subst c
    simp [hb]
  · rw [List.getElem?_set_ne (by omega), if_neg c]

theorem Heap.get_of_at {m : Heap} {a : ℕ} {v : Boxed} (h : m.at a = some v) : m[a]? = some (some v) := by
  unfold Heap.at at h
  cases e : m[a]? with
  | none => rw [e] at h; cases h
  | some o => rw [e] at h; simp only [Option.join_some] at h; rw [h]

theorem Heap.read_ok {m : Heap} {a : ℕ} {v : Boxed} (h : m.at a = some v) : m.read v.kind a = .ok v := by
  unfold Heap.read
  rw [Heap.get_of_at h]
  simp

theorem Heap.free_ok {m : Heap} {a : ℕ} (h : m.at a ≠ none) : m.free a = .ok (m.set a none) := by
  obtain ⟨v, hv⟩ := Option.ne_none_iff_exists'.mp h
  unfold Heap.free
  rw [Heap.get_of_at hv]

theorem Heap.write_ok {m : Heap} {a : ℕ} {u v : Boxed} (h : m.at a = some u) (k : u.kind = v.kind) :
    m.write a v = .ok (m.set a (some v)) := by
  unfold Heap.write
  rw [← k, Heap.read_ok h]
  rfl

theorem Heap.copy_ok {m : Heap} {a : ℕ} {v : Boxed} (h : m.at a = some v) : m.copy v.kind a = .ok (m.alloc v) := by
  unfold Heap.copy
  rw [Heap.read_ok h]
  rfl

theorem collect_some {m : Heap} {a : ℕ} {v : Boxed} {k : Kind} (h : m.at a = some v) (hk : v.kind = k) :
    collect m k (some a) = .ok ((m.alloc v).1, some m.length) := by
  subst hk
  show (m.copy v.kind a).bind _ = _
  rw [Heap.copy_ok h]
  rfl

/-- The value holds a copy of what the argument points to. -/
def Holds (f : ℕ → Option Boxed) (m' : Heap) : Option ℕ → Value → Prop
  | none, none => True
  | some a, some b => m'.at b = f a
  | _, _ => False

/-- The new blocks are those of the values and some others. -/
structure Package (m m' : Heap) (vs : List Value) (L : Finset ℕ) : Prop where
  len : m.length ≤ m'.length
  same : ∀ a, a < m.length → m'.at a = m.at a
  nodup : (vs.filterMap id).Nodup
  fresh : ∀ b, some b ∈ vs → m.length ≤ b ∧ m'.at b ≠ none
  lost : ∀ b, b ∈ L → m.length ≤ b ∧ m'.at b ≠ none ∧ some b ∉ vs
  only : ∀ a, m.length ≤ a → m'.at a ≠ none → some a ∈ vs ∨ a ∈ L

theorem collectAll_ok : ∀ (ss : List Slot) (as : List (Option ℕ)) (m : Heap) (f : ℕ → Option Boxed),
    (∀ b v, f b = some v → m.at b = some v) →
    List.Forall₂ (fun (s : Slot) (a : Option ℕ) => ∀ b, a = some b → ∃ v, f b = some v ∧ v.kind = s.kind) ss as →
    ∃ m' vs, collectAll m ss as = .ok (m', vs) ∧ Package m m' vs ∅ ∧ List.Forall₂ (Holds f m') as vs := by
  intro ss
  induction ss with
  | nil =>
    intro as m f hf h
    cases h
    exact ⟨m, [], rfl, ⟨le_rfl, fun _ _ => rfl, by simp, by simp, by simp, fun a h1 h2 => absurd (Heap.at_ge h1) h2⟩,
      .nil⟩
  | cons s ss ih =>
    intro as m f hf h
    cases h with
    | @cons _ a _ as ha has =>
      cases a with
      | none =>
        obtain ⟨m', vs, e, P, F⟩ := ih as m f hf has
        refine ⟨m', none :: vs, ?_, ⟨P.len, P.same, ?_, ?_, ?_, ?_⟩, .cons trivial F⟩
        · unfold collectAll
          simp only [List.head?_cons, Option.join_some, collect, Outcome.bind_ok, List.tail_cons, e]
        · simpa using P.nodup
        · intro b hb
          exact P.fresh b (by simpa using hb)
        · intro b hb
          simp at hb
        · intro a h1 h2
          rcases P.only a h1 h2 with h | h
          · exact .inl (by simp [h])
          · exact .inr h
      | some b =>
        obtain ⟨v, hfv, kv⟩ := ha b rfl
        have hv := hf b v hfv
        have hb := Heap.at_lt (m := m) (a := b) (by rw [hv]; simp)
        have old : ∀ c, c < m.length → Heap.at (m.alloc v).1 c = m.at c := by
          intro c hc
          rw [Heap.at_alloc, if_neg (by omega)]
        obtain ⟨m', vs, e, P, F⟩ := ih as (m.alloc v).1 f (fun c u hu => by
          have := hf c u hu
          rw [old c (Heap.at_lt (by rw [this]; simp))]
          exact this) has
        have Plen := P.len
        rw [Heap.alloc_length] at Plen
        have here : m'.at m.length = some v := by
          rw [P.same _ (by rw [Heap.alloc_length]; omega), Heap.at_alloc, if_pos rfl]
        refine ⟨m', some m.length :: vs, ?_, ⟨by omega, ?_, ?_, ?_, by simp, ?_⟩, .cons ?_ F⟩
        · unfold collectAll
          simp only [List.head?_cons, Option.join_some, collect_some hv kv, Outcome.bind_ok, List.tail_cons, e]
        · intro c hc
          rw [P.same c (by rw [Heap.alloc_length]; omega), old c hc]
        · simp only [List.filterMap_cons, id_eq, List.nodup_cons]
          refine ⟨?_, P.nodup⟩
          intro hin
          simp only [List.mem_filterMap, id_eq, exists_eq_right] at hin
          have := (P.fresh _ hin).1
          rw [Heap.alloc_length] at this
          omega
        · intro c hc
          simp only [List.mem_cons, Option.some.injEq] at hc
          rcases hc with hc | hc
          · subst hc
            exact ⟨le_rfl, by rw [here]; simp⟩
          · have := P.fresh c hc
            rw [Heap.alloc_length] at this
            exact ⟨by omega, this.2⟩
        · intro c h1 h2
          by_cases hc : c = m.length
          · exact .inl (by simp [hc])
          · rcases P.only c (by rw [Heap.alloc_length]; omega) h2 with h | h
            · exact .inl (by simp [h])
            · exact .inr h
        · show m'.at m.length = f b
          rw [here, hfv]

/-- What a value stands for. -/
def Stands (m : Heap) (s : Slot) : Value → Boxed → Prop
  | some a, x => m.at a = some x ∧ x.kind = s.kind
  | none, x => s.usual = some x ∧ s.nullOk = true

/-- What values stand for. -/
def StandAll (m : Heap) : List Slot → List Value → List Boxed → Prop
  | [], [], [] => True
  | s :: ss, v :: vs, x :: xs => Stands m s v x ∧ StandAll m ss vs xs
  | _, _, _ => False

theorem Stands.congr {m m' : Heap} {s : Slot} {v : Value} {x : Boxed} (e : ∀ a, m'.at a = m.at a)
    (h : Stands m s v x) : Stands m' s v x := by
  cases v with
  | none => exact h
  | some a => exact ⟨by rw [e]; exact h.1, h.2⟩

theorem StandAll.congr {m m' : Heap} (e : ∀ a, m'.at a = m.at a) : ∀ {ss : List Slot} {vs : List Value} {xs : List Boxed},
    StandAll m ss vs xs → StandAll m' ss vs xs
  | [], [], [], _ => trivial
  | _ :: _, _ :: _, _ :: _, h => ⟨h.1.congr e, StandAll.congr e h.2⟩

theorem readAll_ok {m : Heap} : ∀ {ss : List Slot} {vs : List Value} {xs : List Boxed}, StandAll m ss vs xs →
    readAll m ss vs = .ok xs
  | [], [], [], _ => rfl
  | s :: ss, v :: vs, x :: xs, h => by
    have ih := readAll_ok h.2
    have h1 := h.1
    unfold readAll
    cases v with
    | none =>
      simp only [h1.1, Outcome.bind_ok, ih]
    | some a =>
      have := Heap.read_ok h1.1
      rw [h1.2] at this
      simp only [this, Outcome.bind_ok, ih]

theorem setOne_ok {m : Heap} {s : Slot} {v : Value} {x : Boxed} (h : Stands m s v x) :
    ∃ m' o, setOne m s v = .ok (m', o) ∧ m.length ≤ m'.length ∧ (∀ a, m'.at a = m.at a) ∧
      o = (match v with | some _ => some x | none => none) := by
  cases v with
  | none =>
    refine ⟨m, none, ?_, le_rfl, fun _ => rfl, rfl⟩
    unfold setOne
    simp only [collect, Outcome.bind_ok, h.2, if_true, unset]
  | some a =>
    obtain ⟨h1, h2⟩ := h
    have here : Heap.at (m.alloc x).1 m.length = some x := by rw [Heap.at_alloc, if_pos rfl]
    have rd := Heap.read_ok here
    rw [h2] at rd
    have live : Heap.at (m.alloc x).1 m.length ≠ none := by rw [here]; simp
    refine ⟨((m.alloc x).1 : Heap).set m.length none, some x, ?_, by simp [Heap.alloc], ?_, rfl⟩
    · unfold setOne
      simp only [collect_some h1 h2, Outcome.bind_ok, rd, unset, Heap.free_ok live]
    · intro b
      rw [Heap.at_set live, Heap.at_alloc]
      by_cases c : b = m.length
      · simp [c, Heap.at_ge]
      · simp [c]

theorem setAll_ok : ∀ {ss : List Slot} {vs : List Value} {xs : List Boxed} {m : Heap}, StandAll m ss vs xs →
    ∃ m', setAll m ss vs xs = .ok (m', xs) ∧ m.length ≤ m'.length ∧ ∀ a, m'.at a = m.at a
  | [], [], [], m, _ => ⟨m, rfl, le_rfl, fun _ => rfl⟩
  | s :: ss, v :: vs, x :: xs, m, h => by
    obtain ⟨m1, o, e1, l1, a1, ho⟩ := setOne_ok h.1
    obtain ⟨m2, e2, l2, a2⟩ := setAll_ok (h.2.congr a1)
    refine ⟨m2, ?_, by omega, fun a => by rw [a2, a1]⟩
    unfold setAll
    simp only [e1, e2, Outcome.bind_ok]
    have : (if s.writable then o.getD x else x) = x := by
      subst ho
      cases v <;> simp
    rw [this]

theorem unsetAll_ok : ∀ {vs : List Value} {m : Heap}, (vs.filterMap id).Nodup → (∀ b, some b ∈ vs → m.at b ≠ none) →
    ∃ m', unsetAll m vs = .ok m' ∧ m'.length = m.length ∧ ∀ a, m'.at a = if some a ∈ vs then none else m.at a
  | [], m, _, _ => ⟨m, rfl, rfl, fun _ => by simp⟩
  | none :: vs, m, n, h => by
    obtain ⟨m', e, l, f⟩ := unsetAll_ok (vs := vs) (m := m) (by simpa using n) (fun b hb => h b (by simp [hb]))
    refine ⟨m', ?_, l, fun a => by rw [f]; simp⟩
    unfold unsetAll
    simp only [unset, Outcome.bind_ok, e]
  | some b :: vs, m, n, h => by
    simp only [List.filterMap_cons, id_eq, List.nodup_cons, List.mem_filterMap, exists_eq_right] at n
    have hb := h b (by simp)
    obtain ⟨m', e, l, f⟩ := unsetAll_ok (vs := vs) (m := m.set b none) n.2 (fun c hc => by
      rw [Heap.at_set hb, if_neg (by rintro rfl; exact n.1 hc)]
      exact h c (by simp [hc]))
    refine ⟨m', ?_, by rw [l]; simp, ?_⟩
    · unfold unsetAll
      simp only [unset, Heap.free_ok hb, Outcome.bind_ok, e]
    · intro a
      rw [f, Heap.at_set hb]
      by_cases c : a = b
      · simp [c]
      · simp [c]

theorem addRef_ok {l : List ℕ} {r : ℕ} (h : (l[r]?).getD 0 ≠ 0) :
    addRef l r = .ok (l.set r ((l[r]?).getD 0 + 1)) := by
  unfold addRef
  cases e : l[r]? with
  | none => rw [e] at h; simp at h
  | some n => rw [e] at h; simp only [Option.getD_some] at h ⊢; rw [if_neg h]

theorem dropRef_ok {l : List ℕ} {r : ℕ} (h : (l[r]?).getD 0 ≠ 0) :
    dropRef l r = .ok (l.set r ((l[r]?).getD 0 - 1)) := by
  unfold dropRef
  cases e : l[r]? with
  | none => rw [e] at h; simp at h
  | some n => rw [e] at h; simp only [Option.getD_some] at h ⊢; rw [if_neg h]

theorem refs_set {l : List ℕ} {r : ℕ} (h : r < l.length) (n q : ℕ) :
    ((l.set r n)[q]?).getD 0 = if q = r then n else (l[q]?).getD 0 := by
  by_cases c : q = r
  · subst c
    simp [h]
  · rw [List.getElem?_set_ne (by omega), if_neg c]

theorem refs_lt {l : List ℕ} {r : ℕ} (h : (l[r]?).getD 0 ≠ 0) : r < l.length := by
  by_contra c
  rw [List.getElem?_eq_none (by omega)] at h
  exact h rfl

theorem refs_push (l : List ℕ) (q : ℕ) : ((l ++ [1])[q]?).getD 0 = if q = l.length then 1 else (l[q]?).getD 0 := by
  rcases lt_trichotomy q l.length with h | h | h
  · rw [List.getElem?_append_left h, if_neg (by omega)]
  · subst h
    simp
  · rw [List.getElem?_eq_none (by simp; omega), List.getElem?_eq_none (by omega), if_neg (by omega)]

theorem takeStepper_ok {l : List ℕ} {o : Option ℕ} (h : ∀ r, o = some r → (l[r]?).getD 0 ≠ 0) :
    ∃ t l', takeStepper l o = .ok t ∧ dropRef t.1 t.2 = .ok l' ∧
      ∀ q, (l'[q]?).getD 0 = (l[q]?).getD 0 + if o = none ∧ q = l.length then 1 else 0 := by
  cases o with
  | some r =>
    have hr := h r rfl
    have lt := refs_lt hr
    have e2 : (((l.set r ((l[r]?).getD 0 + 1)))[r]?).getD 0 = (l[r]?).getD 0 + 1 := by
      rw [refs_set lt, if_pos rfl]
    refine ⟨(l.set r ((l[r]?).getD 0 + 1), r), _, ?_, dropRef_ok (by dsimp only; rw [e2]; omega), ?_⟩
    · show (addRef l r).bind _ = _
      rw [addRef_ok hr]
      rfl
    · intro q
      dsimp only
      rw [refs_set (by simpa using lt), e2, refs_set lt]
      by_cases c : q = r
      · simp [c]
      · simp [c]
  | none =>
    have e1 := refs_push l l.length
    rw [if_pos rfl] at e1
    have e2 : (((l ++ [1]).set l.length 2)[l.length]?).getD 0 = 2 := by
      rw [refs_set (by simp), if_pos rfl]
    refine ⟨((l ++ [1]).set l.length 2, l.length), _, ?_, dropRef_ok (by dsimp only; rw [e2]; omega), ?_⟩
    · show (addRef (l ++ [1]) l.length).bind _ = _
      rw [addRef_ok (by rw [e1]; omega), e1]
      rfl
    · intro q
      dsimp only
      rw [refs_set (by simp), e2, refs_set (by simp), refs_push]
      by_cases c : q = l.length
      · subst c
        simp
      · simp [c]

/-- A slot as the specification has it. -/
def Slot.feature (s : Slot) : Feature := ⟨s.kind, s.usual.orElse fun _ => s.fill, s.readable, s.writable⟩

theorem features_eq (c : Class) : features c = c.slots.map Slot.feature := by
  cases c <;> rfl

theorem stands_of {l : Ledger} {m : Heap} {s : Slot} {arg : Option ℕ} {v : Value} (P : l.Passes s.feature arg)
    (H : Holds l.mine m arg v) (hs : s.fill = none) (hn : s.usual ≠ none → s.nullOk = true) :
    ∃ x, Stands m s v x ∧ l.told s.feature arg = some x := by
  cases arg with
  | none =>
    cases v with
    | some b => exact absurd H id
    | none =>
      have P' : s.usual.orElse (fun _ => s.fill) ≠ none := P
      cases hu : s.usual with
      | none => rw [hu, hs] at P'; exact absurd rfl P'
      | some x => exact ⟨x, ⟨hu, hn (by rw [hu]; simp)⟩, by simp [Ledger.told, Slot.feature, hu]⟩
  | some a =>
    cases v with
    | none => exact absurd H id
    | some b =>
      obtain ⟨x, hx, kx⟩ := P
      exact ⟨x, ⟨H.trans hx, kx⟩, hx⟩

/-- What construction makes of the arguments. -/
structure Filled (l : Ledger) (m : Heap) (c : Class) (args : List (Option ℕ)) (m1 m2 : Heap) (vs vs' : List Value)
    (L : Finset ℕ) (xs : List Boxed) : Prop where
  collected : collectAll m c.slots args = .ok (m1, vs)
  filled : fillAll m1 c.slots vs = .ok (m2, vs')
  pack : Package m m2 vs' L
  stand : StandAll m2 c.slots vs' xs
  told : xs.map some = List.zipWith l.told (features c) args
  card : L.card = if c = .lamp ∧ args[2]? = some none then 1 else 0

theorem filled_ok {l : Ledger} {m : Heap} {c : Class} {args : List (Option ℕ)}
    (hm : ∀ b v, l.mine b = some v → m.at b = some v) (h : List.Forall₂ l.Passes (features c) args) :
    ∃ m1 m2 vs vs' L xs, Filled l m c args m1 m2 vs vs' L xs := by
  have h' := h
  rw [features_eq, List.forall₂_map_left_iff] at h'
  obtain ⟨m1, vs, e, P, F⟩ := collectAll_ok c.slots args m l.mine hm (h'.imp fun s a hp b hb => by
    subst hb
    exact hp)
  have easy : c ≠ .lamp → fillAll m1 c.slots vs = .ok (m1, vs) := by
    intro hc
    cases c with
    | lamp => exact absurd rfl hc
    | bounce =>
      rcases vs with _ | ⟨v1, vs⟩ <;> simp [Class.slots, boxSlot, fillAll]
    | glide =>
      rcases vs with _ | ⟨v1, vs⟩ <;> simp [Class.slots, boxSlot, fillAll]
    | zoom =>
      rcases vs with _ | ⟨v1, _ | ⟨v2, vs⟩⟩ <;> simp [Class.slots, boxSlot, fillAll]
    | wobbly =>
      rcases vs with _ | ⟨v1, _ | ⟨v2, vs⟩⟩ <;> simp [Class.slots, boxSlot, fillAll]
  cases c with
  | bounce =>
    simp only [Class.slots, List.forall₂_cons_left_iff, List.forall₂_nil_left_iff] at h'
    obtain ⟨a1, _, p1, rfl, rfl⟩ := h'
    simp only [List.forall₂_cons_left_iff, List.forall₂_nil_left_iff] at F
    obtain ⟨v1, _, f1, rfl, rfl⟩ := F
    obtain ⟨x1, s1, t1⟩ := stands_of p1 f1 rfl (fun _ => rfl)
    exact ⟨m1, m1, _, _, ∅, [x1], e, easy (by simp), P, ⟨s1, trivial⟩, by rw [features_eq]; simp [Class.slots, t1], by simp⟩
  | glide =>
    simp only [Class.slots, List.forall₂_cons_left_iff, List.forall₂_nil_left_iff] at h'
    obtain ⟨a1, _, p1, rfl, rfl⟩ := h'
    simp only [List.forall₂_cons_left_iff, List.forall₂_nil_left_iff] at F
    obtain ⟨v1, _, f1, rfl, rfl⟩ := F
    obtain ⟨x1, s1, t1⟩ := stands_of p1 f1 rfl (fun _ => rfl)
    exact ⟨m1, m1, _, _, ∅, [x1], e, easy (by simp), P, ⟨s1, trivial⟩, by rw [features_eq]; simp [Class.slots, t1], by simp⟩
  | zoom =>
    simp only [Class.slots, List.forall₂_cons_left_iff, List.forall₂_nil_left_iff] at h'
    obtain ⟨a1, _, p1, ⟨a2, _, p2, rfl, rfl⟩, rfl⟩ := h'
    simp only [List.forall₂_cons_left_iff, List.forall₂_nil_left_iff] at F
    obtain ⟨v1, _, f1, ⟨v2, _, f2, rfl, rfl⟩, rfl⟩ := F
    obtain ⟨x1, s1, t1⟩ := stands_of p1 f1 rfl (fun _ => rfl)
    obtain ⟨x2, s2, t2⟩ := stands_of p2 f2 rfl (fun _ => rfl)
    exact ⟨m1, m1, _, _, ∅, [x1, x2], e, easy (by simp), P, ⟨s1, s2, trivial⟩,
      by rw [features_eq]; simp [Class.slots, t1, t2], by simp⟩
  | wobbly =>
    simp only [Class.slots, List.forall₂_cons_left_iff, List.forall₂_nil_left_iff] at h'
    obtain ⟨a1, _, p1, ⟨a2, _, p2, rfl, rfl⟩, rfl⟩ := h'
    simp only [List.forall₂_cons_left_iff, List.forall₂_nil_left_iff] at F
    obtain ⟨v1, _, f1, ⟨v2, _, f2, rfl, rfl⟩, rfl⟩ := F
    obtain ⟨x1, s1, t1⟩ := stands_of p1 f1 rfl (fun h => absurd rfl h)
    obtain ⟨x2, s2, t2⟩ := stands_of p2 f2 rfl (fun h => absurd rfl h)
    exact ⟨m1, m1, _, _, ∅, [x1, x2], e, easy (by simp), P, ⟨s1, s2, trivial⟩,
      by rw [features_eq]; simp [Class.slots, t1, t2], by simp⟩
  | lamp =>
    simp only [Class.slots, List.forall₂_cons_left_iff, List.forall₂_nil_left_iff] at h'
    obtain ⟨a1, _, p1, ⟨a2, _, p2, ⟨a3, _, p3, rfl, rfl⟩, rfl⟩, rfl⟩ := h'
    simp only [List.forall₂_cons_left_iff, List.forall₂_nil_left_iff] at F
    obtain ⟨v1, _, f1, ⟨v2, _, f2, ⟨v3, _, f3, rfl, rfl⟩, rfl⟩, rfl⟩ := F
    obtain ⟨x1, s1, t1⟩ := stands_of p1 f1 rfl (fun _ => rfl)
    obtain ⟨x2, s2, t2⟩ := stands_of p2 f2 rfl (fun _ => rfl)
    cases a3 with
    | some b =>
      cases v3 with
      | none => exact absurd f3 id
      | some b' =>
        obtain ⟨x3, h3, k3⟩ := p3
        refine ⟨m1, m1, _, _, ∅, [x1, x2, x3], e, ?_, P, ⟨s1, s2, ⟨f3.trans h3, k3⟩, trivial⟩, ?_, by simp⟩
        · simp [Class.slots, boxSlot, fillAll]
        · rw [features_eq]
          show _ = [l.told (boxSlot true true).feature a1, l.told (boxSlot true false).feature a2, l.mine b]
          rw [t1, t2, h3]
          rfl
    | none =>
      cases v3 with
      | some b => exact absurd f3 id
      | none =>
        set u : Boxed := .vector (.fin 10) (.fin 10) with hu
        set m3 : Heap := (m1.alloc u).1 with h3
        set m4 : Heap := (m3.alloc u).1 with h4
        have len3 : m3.length = m1.length + 1 := Heap.alloc_length _ _
        have len4 : m4.length = m1.length + 2 := by rw [h4, Heap.alloc_length, len3]
        have at4 : ∀ a, m4.at a = if a = m1.length + 1 then some u else if a = m1.length then some u else m1.at a := by
          intro a
          rw [h4, Heap.at_alloc, len3, h3, Heap.at_alloc]
        have old : ∀ a, a < m1.length → m4.at a = m1.at a := by
          intro a ha
          rw [at4, if_neg (by omega), if_neg (by omega)]
        have keep : ∀ {s v x}, Stands m1 s v x → Stands m4 s v x := by
          intro s v x hs
          cases v with
          | none => exact hs
          | some a => exact ⟨by rw [old a (Heap.at_lt (by rw [hs.1]; simp))]; exact hs.1, hs.2⟩
        have in4 : m4.at (m1.length + 1) = some u := by rw [at4, if_pos rfl]
        have nxt : ∀ b, some b ∈ [v1, v2, none] → b < m1.length := fun b hb => Heap.at_lt (P.fresh b hb).2
        have Plen := P.len
        refine ⟨m1, m4, _, [v1, v2, some (m1.length + 1)], {m1.length}, [x1, x2, u], e, ?_, ⟨by omega, ?_, ?_, ?_, ?_, ?_⟩,
          ⟨keep s1, keep s2, ⟨in4, rfl⟩, trivial⟩, ?_, by simp⟩
        · have c3 : collect m3 .vector (some m1.length) = .ok (m4, some m3.length) :=
            collect_some (v := u) (by rw [h3, Heap.at_alloc, if_pos rfl]) rfl
          have c3' : collect (m1.alloc u).1 .vector (some (m1.alloc u).2) = .ok (m4, some m3.length) := c3
          simp only [Class.slots, boxSlot, fillAll]
          rw [c3']
          simp [fillAll, len3]
        · intro a ha
          rw [old a (by omega), P.same a ha]
        · have := P.nodup
          have n1 : ∀ b, v1 = some b → b < m1.length := fun b hb => nxt b (by simp [hb])
          have n2 : ∀ b, v2 = some b → b < m1.length := fun b hb => nxt b (by simp [hb])
          cases v1 with
          | none =>
            cases v2 with
            | none => simp
            | some b2 => have := n2 b2 rfl; simp; omega
          | some b1 =>
            have := n1 b1 rfl
            cases v2 with
            | none => simp; omega
            | some b2 =>
              have := n2 b2 rfl
              have q := P.nodup
              simp at q
              simp
              omega
        · intro b hb
          have : some b ∈ [v1, v2, none] ∨ b = m1.length + 1 := by
            simp only [List.mem_cons, Option.some.injEq, List.not_mem_nil, or_false] at hb ⊢
            tauto
          rcases this with g | g
          · have := P.fresh b g
            exact ⟨this.1, by rw [old b (nxt b g)]; exact this.2⟩
          · subst g
            exact ⟨by omega, by rw [in4]; simp⟩
        · intro b hb
          rw [Finset.mem_singleton] at hb
          subst hb
          refine ⟨P.len, by rw [at4, if_neg (by omega), if_pos rfl]; simp, ?_⟩
          intro hb
          have : some m1.length ∈ [v1, v2, none] := by
            simp only [List.mem_cons, Option.some.injEq, List.not_mem_nil, or_false] at hb ⊢
            rcases hb with h | h | h
            · tauto
            · tauto
            · omega
          have := nxt _ this
          omega
        · intro a h1 h2
          rw [at4] at h2
          by_cases c1 : a = m1.length + 1
          · left
            simp [c1]
          · by_cases c2 : a = m1.length
            · right
              simp [c2]
            · rw [if_neg c1, if_neg c2] at h2
              rcases P.only a h1 h2 with g | g
              · left
                simp only [List.mem_cons, List.not_mem_nil, or_false] at g ⊢
                rcases g with h | h | h
                · tauto
                · tauto
                · cases h
              · simp at g
        · rw [features_eq]
          show _ = [l.told (boxSlot true true).feature a1, l.told (boxSlot true false).feature a2, some u]
          rw [t1, t2]
          rfl

/-- An object as a program knows it. -/
def Obj.thing (o : Obj) : Thing := ⟨o.cls, o.refs, o.vals.map some⟩

/-- The account is right, with the lost blocks and the steppers with a lost reference. -/
structure Tally (w : World) (l : Ledger) (L S : Finset ℕ) : Prop where
  blocks : ∀ a, a ∉ L → w.heap.at a = l.mine a
  lost : ∀ a, a ∈ L → l.mine a = none ∧ w.heap.at a ≠ none
  steppers : ∀ r, references w r = l.owned r + if r ∈ S then 1 else 0
  things : ∀ j, (w.objects[j]?).map Obj.thing = l.things j
  kinds : ∀ o, o ∈ w.objects → o.vals.map Boxed.kind = (features o.cls).map Feature.kind
  cardL : L.card = l.unresolved
  cardS : S.card = l.unstepped

namespace Tally

variable {w : World} {l : Ledger} {L S : Finset ℕ}

theorem mine_at (T : Tally w l L S) {a : ℕ} {v : Boxed} (h : l.mine a = some v) : a ∉ L ∧ w.heap.at a = some v := by
  have : a ∉ L := fun c => by rw [(T.lost a c).1] at h; cases h
  exact ⟨this, by rw [T.blocks a this, h]⟩

theorem none_mine (T : Tally w l L S) {a : ℕ} (h : w.heap.at a = none) : l.mine a = none := by
  by_cases c : a ∈ L
  · exact (T.lost a c).1
  · rw [← T.blocks a c, h]

theorem ge_notin (T : Tally w l L S) {a : ℕ} (h : w.heap.length ≤ a) : a ∉ L :=
  fun c => (T.lost a c).2 (Heap.at_ge h)

theorem alive (T : Tally w l L S) {j : ℕ} {t : Thing} (h : l.things j = some t) (ht : t.refs ≠ 0) :
    ∃ o, w.objects[j]? = some o ∧ w.alive j = .ok o ∧ o.thing = t := by
  have := T.things j
  rw [h] at this
  cases e : w.objects[j]? with
  | none => rw [e] at this; cases this
  | some o =>
    rw [e] at this
    simp only [Option.map_some, Option.some.injEq] at this
    refine ⟨o, rfl, ?_, this⟩
    unfold World.alive
    rw [e]
    have : o.refs = t.refs := by rw [← this]; rfl
    simp only [this, if_neg ht]

/-- The heap and the ledger change at one address that is not lost. -/
theorem note (T : Tally w l L S) {m : Heap} {a : ℕ} {v : Option Boxed} (ha : a ∉ L)
    (hm : ∀ b, m.at b = if b = a then v else w.heap.at b) : Tally { w with heap := m } (l.note a v) L S := by
  refine ⟨?_, ?_, T.steppers, T.things, T.kinds, T.cardL, T.cardS⟩
  · intro b hb
    show m.at b = Function.update l.mine a v b
    rw [hm]
    by_cases c : b = a
    · subst c
      simp
    · rw [if_neg c, Function.update_of_ne c, T.blocks b hb]
  · intro b hb
    have hne : b ≠ a := fun c => ha (c ▸ hb)
    show Function.update l.mine a v b = none ∧ m.at b ≠ none
    rw [hm, if_neg hne, Function.update_of_ne hne]
    exact T.lost b hb

/-- The same heap by contents. -/
theorem reheap (T : Tally w l L S) {m : Heap} (hm : ∀ b, m.at b = w.heap.at b) : Tally { w with heap := m } l L S :=
  ⟨fun a ha => by show m.at a = _; rw [hm]; exact T.blocks a ha,
    fun a ha => by
      refine ⟨(T.lost a ha).1, ?_⟩
      show m.at a ≠ none
      rw [hm]
      exact (T.lost a ha).2,
    T.steppers, T.things, T.kinds, T.cardL, T.cardS⟩

/-- One object changes. -/
theorem learn (T : Tally w l L S) {j : ℕ} {o o' : Obj} {f : Thing → Thing} (h : w.objects[j]? = some o)
    (hf : o'.thing = f o.thing) (hk : o'.vals.map Boxed.kind = (features o'.cls).map Feature.kind) :
    Tally { w with objects := w.objects.set j o' } (l.learn j f) L S := by
  have lt : j < w.objects.length := by
    by_contra c
    rw [List.getElem?_eq_none (by omega)] at h
    cases h
  refine ⟨T.blocks, T.lost, T.steppers, ?_, ?_, T.cardL, T.cardS⟩
  · intro i
    show ((w.objects.set j o')[i]?).map Obj.thing = Function.update l.things j ((l.things j).map f) i
    by_cases c : i = j
    · subst c
      rw [Function.update_self, ← T.things i, h]
      simp [lt, hf]
    · rw [Function.update_of_ne c, List.getElem?_set_ne (by omega), T.things]
  · intro x hx
    rcases List.mem_or_eq_of_mem_set hx with g | g
    · exact T.kinds x g
    · subst g
      exact hk

theorem stepper_at (T : Tally w l L S) {r : ℕ} (h : l.owned r ≠ 0) : (w.steppers[r]?).getD 0 ≠ 0 := by
  have := T.steppers r
  unfold references at this
  omega

/-- The references change. -/
theorem restep (T : Tally w l L S) {n : List ℕ} {f : ℕ → ℕ} (h : ∀ r, (n[r]?).getD 0 = f r + if r ∈ S then 1 else 0) :
    Tally { w with steppers := n } { l with owned := f } L S :=
  ⟨T.blocks, T.lost, h, T.things, T.kinds, T.cardL, T.cardS⟩

end Tally

theorem kind_at {o : Obj} (h : o.vals.map Boxed.kind = (features o.cls).map Feature.kind) {k : ℕ} {f : Feature}
    (hk : (features o.cls)[k]? = some f) : ∃ x, o.vals[k]? = some x ∧ x.kind = f.kind := by
  have e : (o.vals.map Boxed.kind)[k]? = ((features o.cls).map Feature.kind)[k]? := by rw [h]
  rw [List.getElem?_map, List.getElem?_map, hk] at e
  cases g : o.vals[k]? with
  | none => rw [g] at e; cases e
  | some x => rw [g] at e; exact ⟨x, rfl, by simpa using e⟩

theorem kinds_set {o : Obj} (h : o.vals.map Boxed.kind = (features o.cls).map Feature.kind) {k : ℕ} {f : Feature}
    (hk : (features o.cls)[k]? = some f) {v : Boxed} (hv : v.kind = f.kind) :
    (o.vals.set k v).map Boxed.kind = (features o.cls).map Feature.kind := by
  rw [List.map_set, hv, h]
  apply List.ext_getElem?
  intro i
  by_cases c : i = k
  · subst c
    rw [List.getElem?_set_self']
    simp [hk]
  · rw [List.getElem?_set_ne (by omega)]

theorem slot_at {c : Class} {k : ℕ} {f : Feature} (h : (features c)[k]? = some f) :
    ∃ s, c.slots[k]? = some s ∧ s.feature = f := by
  rw [features_eq, List.getElem?_map] at h
  cases e : c.slots[k]? with
  | none => rw [e] at h; cases h
  | some s => rw [e] at h; exact ⟨s, rfl, by simpa using h⟩

theorem slot_null {c : Class} {k : ℕ} {s : Slot} (h : c.slots[k]? = some s) :
    (s.usual ≠ none ∨ s.fill ≠ none) → s.nullOk = true := by
  have hm : s ∈ c.slots := List.mem_of_getElem? h
  cases c <;> simp [Class.slots, boxSlot] at hm <;> aesop

theorem slot_kind {c : Class} {k : ℕ} {s : Slot} (h : c.slots[k]? = some s) : s.writable = true → s.fill = none := by
  have hm : s ∈ c.slots := List.mem_of_getElem? h
  cases c <;> simp [Class.slots, boxSlot] at hm <;> aesop

theorem knows_unique {l : Ledger} {j k : ℕ} {f g : Feature} (h : l.Knows j k f) (h' : l.Knows j k g) : f = g := by
  obtain ⟨t, h1, _, h3⟩ := h
  obtain ⟨t', h1', _, h3'⟩ := h'
  rw [h1] at h1'
  cases h1'
  rw [h3] at h3'
  cases h3'
  rfl

theorem slot_usual {c : Class} {s : Slot} (h : s ∈ c.slots) {u : Boxed} (hu : s.usual = some u) : u.kind = s.kind := by
  cases c <;> simp [Class.slots, boxSlot] at h <;> aesop

theorem StandAll.kinds {m : Heap} : ∀ {ss : List Slot} {vs : List Value} {xs : List Boxed}, StandAll m ss vs xs →
    (∀ s ∈ ss, ∀ u, s.usual = some u → u.kind = s.kind) → xs.map Boxed.kind = ss.map (Feature.kind ∘ Slot.feature)
  | [], [], [], _, _ => rfl
  | s :: ss, v :: vs, x :: xs, h, hu => by
    have ih := StandAll.kinds h.2 (fun t ht => hu t (by simp [ht]))
    have : x.kind = s.kind := by
      have h1 := h.1
      cases v with
      | none => exact hu s (by simp) x h1.1
      | some a => exact h1.2
    rw [List.map_cons, List.map_cons, ih, this]
    rfl

/-- The call does what it should and the account stays right. -/
def Goes (w : World) (l : Ledger) (op : Op) : Prop :=
  ∃ w' y, exec w op = .ok (w', y) ∧ l.Expects op y ∧ ∃ L' S', Tally w' (l.after op y) L' S'

section

variable {w : World} {l : Ledger} {L S : Finset ℕ}

theorem goes_make (T : Tally w l L S) (v : Boxed) : Goes w l (.make v) :=
  ⟨_, _, rfl, ⟨_, rfl, T.none_mine (Heap.at_ge le_rfl)⟩, L, S,
    T.note (T.ge_notin le_rfl) (fun b => Heap.at_alloc _ _ b)⟩

theorem goes_look (T : Tally w l L S) {k : Kind} {a : ℕ} (h : l.Has k a) : Goes w l (.look k a) := by
  obtain ⟨v, hv, rfl⟩ := h
  refine ⟨w, .value v, ?_, ⟨v, hv, rfl⟩, L, S, T⟩
  unfold exec
  dsimp only
  rw [Heap.read_ok (T.mine_at hv).2]
  rfl

theorem goes_put (T : Tally w l L S) {a : ℕ} {v : Boxed} (h : l.Has v.kind a) : Goes w l (.put a v) := by
  obtain ⟨u, hu, ku⟩ := h
  obtain ⟨n, e⟩ := T.mine_at hu
  refine ⟨{ w with heap := w.heap.set a (some v) }, .none, ?_, rfl, L, S,
    T.note n (fun b => Heap.at_set (by rw [e]; simp) _ b)⟩
  unfold exec
  dsimp only
  rw [Heap.write_ok e ku]
  rfl

theorem goes_copy (T : Tally w l L S) {k : Kind} {a : ℕ} (h : l.Has k a) : Goes w l (.copy k a) := by
  obtain ⟨v, hv, rfl⟩ := h
  refine ⟨{ w with heap := (w.heap.alloc v).1 }, .block w.heap.length, ?_,
    ⟨_, rfl, T.none_mine (Heap.at_ge le_rfl)⟩, L, S, T.note (T.ge_notin le_rfl) (fun b => ?_)⟩
  · unfold exec
    dsimp only
    rw [Heap.copy_ok (T.mine_at hv).2]
    rfl
  · rw [Heap.at_alloc, hv]

theorem goes_free (T : Tally w l L S) {a : ℕ} (h : l.mine a ≠ none) : Goes w l (.free a) := by
  obtain ⟨v, hv⟩ := Option.ne_none_iff_exists'.mp h
  obtain ⟨n, e⟩ := T.mine_at hv
  have live : w.heap.at a ≠ none := by rw [e]; simp
  refine ⟨{ w with heap := w.heap.set a none }, .none, ?_, rfl, L, S, T.note n (fun b => Heap.at_set live _ b)⟩
  unfold exec
  dsimp only
  rw [Heap.free_ok live]
  rfl

theorem goes_newStepper (T : Tally w l L S) : Goes w l .newStepper := by
  have z := T.steppers w.steppers.length
  unfold references at z
  rw [List.getElem?_eq_none le_rfl] at z
  simp only [Option.getD_none] at z
  refine ⟨_, _, rfl, ⟨_, rfl, by omega⟩, L, S, T.restep fun r => ?_⟩
  rw [refs_push]
  by_cases c : r = w.steppers.length
  · subst c
    rw [if_pos rfl, Function.update_self]
    omega
  · rw [if_neg c, Function.update_of_ne c]
    exact T.steppers r

theorem goes_refStepper (T : Tally w l L S) {r : ℕ} (h : l.owned r ≠ 0) : Goes w l (.refStepper r) := by
  have hr := T.stepper_at h
  refine ⟨{ w with steppers := w.steppers.set r ((w.steppers[r]?).getD 0 + 1) }, .none, ?_, rfl, L, S,
    T.restep fun q => ?_⟩
  · unfold exec
    dsimp only
    rw [addRef_ok hr]
    rfl
  · have z := T.steppers q
    unfold references at z
    rw [refs_set (refs_lt hr)]
    by_cases c : q = r
    · subst c
      rw [if_pos rfl, Function.update_self]
      omega
    · rw [if_neg c, Function.update_of_ne c]
      exact z

theorem goes_unrefStepper (T : Tally w l L S) {r : ℕ} (h : l.owned r ≠ 0) : Goes w l (.unrefStepper r) := by
  have hr := T.stepper_at h
  refine ⟨{ w with steppers := w.steppers.set r ((w.steppers[r]?).getD 0 - 1) }, .none, ?_, rfl, L, S,
    T.restep fun q => ?_⟩
  · unfold exec
    dsimp only
    rw [dropRef_ok hr]
    rfl
  · have z := T.steppers q
    unfold references at z
    rw [refs_set (refs_lt hr)]
    by_cases c : q = r
    · subst c
      rw [if_pos rfl, Function.update_self]
      omega
    · rw [if_neg c, Function.update_of_ne c]
      exact z

theorem goes_new (T : Tally w l L S) {c : Class} {args : List (Option ℕ)} {o : Option ℕ}
    (h : List.Forall₂ l.Passes (features c) args) (hs : ∀ r, o = some r → l.owned r ≠ 0 ∧ c ≠ .wobbly) :
    Goes w l (.new c args o) := by
  obtain ⟨m1, m2, vs, vs', N, xs, F⟩ := filled_ok (m := w.heap) (fun b v hb => (T.mine_at hb).2) h
  obtain ⟨m3, e3, l3, a3⟩ := setAll_ok F.stand
  obtain ⟨m4, e4, l4, a4⟩ := unsetAll_ok (m := m3) F.pack.nodup (fun b hb => by rw [a3]; exact (F.pack.fresh b hb).2)
  have steps : ∃ n, (if c.stepped then (takeStepper w.steppers o).bind fun t => dropRef t.1 t.2 else .ok w.steppers) = .ok n ∧
      ∀ q, (n[q]?).getD 0 = (w.steppers[q]?).getD 0 + if c ≠ .wobbly ∧ o = none ∧ q = w.steppers.length then 1 else 0 := by
    by_cases hc : c = .wobbly
    · subst hc
      exact ⟨_, rfl, fun q => by simp⟩
    · obtain ⟨t, n, e1, e2, e5⟩ := takeStepper_ok (l := w.steppers) (o := o) (fun r hr => T.stepper_at (hs r hr).1)
      refine ⟨n, ?_, fun q => by rw [e5]; simp [hc]⟩
      have : c.stepped = true := by cases c <;> first | rfl | exact absurd rfl hc
      rw [if_pos this, e1]
      exact e2
  obtain ⟨n, en, hn⟩ := steps
  have run : exec w (.new c args o) = .ok (⟨m4, n, w.objects ++ [⟨c, 1, xs⟩]⟩, .object w.objects.length) := by
    unfold exec
    simp only [F.collected, F.filled, readAll_ok F.stand, e3, e4, Outcome.bind_ok, en]
  have out : l.things w.objects.length = none := by
    rw [← T.things, List.getElem?_eq_none le_rfl]
    rfl
  have disj : ∀ a, a ∈ L → a < w.heap.length := fun a ha => Heap.at_lt (T.lost a ha).2
  have fin : ∀ a, m4.at a = if a ∈ N then m2.at a else w.heap.at a := by
    intro a
    rw [a4, a3]
    by_cases hv : some a ∈ vs'
    · have hN : a ∉ N := fun hN => (F.pack.lost a hN).2.2 hv
      rw [if_pos hv, if_neg hN, Heap.at_ge (F.pack.fresh a hv).1]
    · rw [if_neg hv]
      by_cases hN : a ∈ N
      · rw [if_pos hN]
      · rw [if_neg hN]
        by_cases hl : a < w.heap.length
        · exact F.pack.same a hl
        · rw [Heap.at_ge (m := w.heap) (by omega)]
          by_contra g
          rcases F.pack.only a (by omega) g with q | q
          · exact hv q
          · exact hN q
  refine ⟨_, _, run, ⟨_, rfl, out⟩, L ∪ N, (if c ≠ .wobbly ∧ o = none then insert w.steppers.length S else S), ?_⟩
  have newS : w.steppers.length ∉ S := by
    intro hS
    have z := T.steppers w.steppers.length
    unfold references at z
    rw [List.getElem?_eq_none le_rfl, if_pos hS] at z
    simp at z
  have zero : l.owned w.steppers.length = 0 := by
    have z := T.steppers w.steppers.length
    unfold references at z
    rw [List.getElem?_eq_none le_rfl] at z
    simp only [Option.getD_none] at z
    omega
  refine ⟨?_, ?_, ?_, ?_, ?_, ?_, ?_⟩
  · intro a ha
    rw [Finset.mem_union, not_or] at ha
    show m4.at a = l.mine a
    rw [fin, if_neg ha.2, T.blocks a ha.1]
  · intro a ha
    show l.mine a = none ∧ m4.at a ≠ none
    by_cases hN : a ∈ N
    · obtain ⟨q1, q2, _⟩ := F.pack.lost a hN
      rw [fin, if_pos hN]
      exact ⟨T.none_mine (Heap.at_ge q1), q2⟩
    · rw [fin, if_neg hN]
      rcases Finset.mem_union.mp ha with g | g
      · exact T.lost a g
      · exact absurd g hN
  · intro r
    show (n[r]?).getD 0 = l.owned r + _
    have z := T.steppers r
    unfold references at z
    rw [hn, z]
    by_cases hc : c ≠ .wobbly ∧ o = none
    · rw [if_pos hc]
      by_cases hr : r = w.steppers.length
      · subst hr
        simp [hc, newS]
      · simp [hc, hr]
    · rw [if_neg hc, if_neg (c := c ≠ .wobbly ∧ o = none ∧ r = w.steppers.length) (fun q => hc ⟨q.1, q.2.1⟩)]
      rfl
  · intro j
    show ((w.objects ++ [⟨c, 1, xs⟩])[j]?).map Obj.thing = Function.update l.things w.objects.length _ j
    rcases lt_trichotomy j w.objects.length with g | g | g
    · rw [List.getElem?_append_left g, Function.update_of_ne (by omega), T.things]
    · subst g
      rw [Function.update_self]
      simp only [List.getElem?_append_right le_rfl, Nat.sub_self, List.getElem?_cons_zero, Option.map_some, Obj.thing,
        F.told]
    · rw [List.getElem?_eq_none (by simp; omega), Function.update_of_ne (by omega), ← T.things j,
        List.getElem?_eq_none (by omega)]
  · intro x hx
    rcases List.mem_append.mp hx with g | g
    · exact T.kinds x g
    · rw [List.mem_singleton] at g
      subst g
      show xs.map Boxed.kind = _
      rw [features_eq, List.map_map]
      exact F.stand.kinds (fun s hs u hu => slot_usual hs hu)
  · show (L ∪ N).card = l.unresolved + _
    rw [Finset.card_union_of_disjoint, T.cardL, F.card]
    rw [Finset.disjoint_left]
    intro a ha hN
    have := disj a ha
    have := (F.pack.lost a hN).1
    omega
  · show _ = l.unstepped + _
    by_cases hc : c ≠ .wobbly ∧ o = none
    · rw [if_pos hc, if_pos hc, Finset.card_insert_of_notMem newS, T.cardS]
    · rw [if_neg hc, if_neg hc, T.cardS]
      rfl

theorem goes_set (T : Tally w l L S) {j k : ℕ} {f : Feature} {a : Option ℕ} (K : l.Knows j k f) (P : l.Passes f a) :
    Goes w l (.set j k a) := by
  obtain ⟨t, h1, h2, h3⟩ := id K
  obtain ⟨o, eo, ao, rfl⟩ := T.alive h1 h2
  obtain ⟨s, es, rfl⟩ := slot_at (c := o.cls) h3
  have ko := T.kinds o (List.mem_of_getElem? eo)
  by_cases hw : s.writable = true
  · have may : ∃ f, l.Knows j k f ∧ f.changeable := ⟨_, K, hw⟩
    cases a with
    | none =>
      have nk : s.nullOk = true := slot_null es (by
        have P' : s.usual.orElse (fun _ => s.fill) ≠ none := P
        cases hu : s.usual with
        | none => rw [hu] at P'; exact .inr P'
        | some x => exact .inl (by simp))
      refine ⟨⟨w.heap, w.steppers, w.objects.set j o⟩, .none, ?_, rfl, L, S, ?_⟩
      · unfold exec
        dsimp only
        rw [ao]
        simp only [Outcome.bind_ok, es, hw, if_true, collect, setOne, nk, unset]
      · have : w.objects.set j o = w.objects := by
          apply List.ext_getElem?
          intro i
          by_cases c : i = j
          · subst c
            rw [List.getElem?_set_self', eo]
            rfl
          · rw [List.getElem?_set_ne (by omega)]
        rw [this]
        exact T
    | some b =>
      obtain ⟨v, hv, kv⟩ := P
      have kv' : v.kind = s.kind := kv
      obtain ⟨nb, eb⟩ := T.mine_at hv
      have here : Heap.at (w.heap.alloc v).1 w.heap.length = some v := by rw [Heap.at_alloc, if_pos rfl]
      have st : Stands (w.heap.alloc v).1 s (some w.heap.length) v := ⟨here, kv'⟩
      obtain ⟨m', x, e2, l2, a2, hx⟩ := setOne_ok st
      have live : m'.at w.heap.length ≠ none := by rw [a2, here]; simp
      refine ⟨⟨m'.set w.heap.length none, w.steppers, w.objects.set j { o with vals := o.vals.set k v }⟩, .none, ?_, rfl,
        L, S, ?_⟩
      · unfold exec
        dsimp only
        rw [ao]
        simp only [Outcome.bind_ok, es, hw, if_true, collect_some eb kv', e2, unset, Heap.free_ok live, hx]
      · have e3 : l.after (.set j k (some b)) .none =
            l.learn j (fun t => { t with vals := t.vals.set k (l.mine b) }) := by
          unfold Ledger.after
          dsimp only
          rw [if_pos may]
        rw [e3]
        have T' : Tally { w with heap := m'.set w.heap.length none } l L S := T.reheap (fun c => by
          rw [Heap.at_set live, a2, Heap.at_alloc]
          by_cases g : c = w.heap.length
          · subst g
            simp [Heap.at_ge]
          · simp [g])
        refine T'.learn (o := o) eo ?_ (kinds_set ko h3 kv)
        unfold Obj.thing
        dsimp only
        rw [hv, List.map_set]
  · have may : ¬ ∃ f, l.Knows j k f ∧ f.changeable := by
      rintro ⟨g, hg, hc⟩
      rw [← knows_unique K hg] at hc
      exact hw hc
    refine ⟨w, .none, ?_, rfl, L, S, ?_⟩
    · unfold exec
      dsimp only
      rw [ao]
      simp only [Outcome.bind_ok, es, hw]
      rfl
    · have e3 : l.after (.set j k a) .none = l := by
        cases a with
        | none => rfl
        | some b =>
          unfold Ledger.after
          dsimp only
          rw [if_neg may]
      rw [e3]
      exact T

theorem believes_eq (T : Tally w l L S) {j k : ℕ} {o : Obj} {x : Boxed} (h : w.objects[j]? = some o)
    (hx : o.vals[k]? = some x) : l.believes j k = some x := by
  unfold Ledger.believes
  rw [← T.things j, h]
  simp [Obj.thing, hx]

theorem goes_get (T : Tally w l L S) {j k : ℕ} {f : Feature} (K : l.Knows j k f) : Goes w l (.get j k) := by
  obtain ⟨t, h1, h2, h3⟩ := id K
  obtain ⟨o, eo, ao, rfl⟩ := T.alive h1 h2
  obtain ⟨s, es, rfl⟩ := slot_at (c := o.cls) h3
  have ko := T.kinds o (List.mem_of_getElem? eo)
  obtain ⟨x, ex, kx⟩ := kind_at ko h3
  have kx' : x.kind = s.kind := kx
  by_cases hr : s.readable = true
  · set m1 : Heap := (w.heap.alloc x).1 with hm1
    have len1 : m1.length = w.heap.length + 1 := Heap.alloc_length _ _
    have here : m1.at w.heap.length = some x := by rw [hm1, Heap.at_alloc, if_pos rfl]
    have cp : m1.copy s.kind w.heap.length = .ok (m1.alloc x) := by rw [← kx']; exact Heap.copy_ok here
    have here2 : Heap.at (m1.alloc x).1 w.heap.length = some x := by
      rw [Heap.at_alloc, if_neg (by omega), here]
    have live : Heap.at (m1.alloc x).1 w.heap.length ≠ none := by rw [here2]; simp
    refine ⟨{ w with heap := ((m1.alloc x).1 : Heap).set w.heap.length none }, .block m1.length, ?_, ?_, L, S, ?_⟩
    · have cp' : Heap.copy (w.heap.alloc x).1 s.kind (w.heap.alloc x).2 = .ok (m1.alloc x) := cp
      have fr : Heap.free (m1.alloc x).1 (w.heap.alloc x).2 = .ok (((m1.alloc x).1 : Heap).set w.heap.length none) :=
        Heap.free_ok live
      unfold exec
      dsimp only
      rw [ao]
      simp only [Outcome.bind_ok, es, ex, hr, if_true, cp', unset, fr]
      rfl
    · intro g hg
      rw [← knows_unique K hg]
      have : s.feature.readable = true := hr
      rw [if_pos this]
      exact ⟨_, rfl, T.none_mine (Heap.at_ge (by omega))⟩
    · show Tally _ (l.note m1.length (l.believes j k)) L S
      rw [believes_eq T eo ex]
      refine T.note (T.ge_notin (by omega)) (fun b => ?_)
      rw [Heap.at_set live, Heap.at_alloc, hm1, Heap.at_alloc, ← hm1, len1]
      by_cases g1 : b = w.heap.length
      · subst g1
        simp [Heap.at_ge]
      · simp [g1]
  · refine ⟨w, .none, ?_, ?_, L, S, T⟩
    · unfold exec
      dsimp only
      rw [ao]
      simp only [Outcome.bind_ok, es, ex, hr]
      rfl
    · intro g hg
      rw [← knows_unique K hg]
      have : ¬ s.feature.readable = true := hr
      rw [if_neg this]

theorem goes_assign (T : Tally w l L S) {j k : ℕ} {f : Feature} {v : Boxed} (K : l.Knows j k f) (hv : v.kind = f.kind) :
    Goes w l (.assign j k v) := by
  obtain ⟨t, h1, h2, h3⟩ := id K
  obtain ⟨o, eo, ao, rfl⟩ := T.alive h1 h2
  have ko := T.kinds o (List.mem_of_getElem? eo)
  refine ⟨{ w with objects := w.objects.set j { o with vals := o.vals.set k v } }, .none, ?_, rfl, L, S,
    T.learn eo ?_ (kinds_set ko h3 hv)⟩
  · unfold exec
    dsimp only
    rw [ao]
    rfl
  · unfold Obj.thing
    dsimp only
    rw [List.map_set]

theorem goes_fetch (T : Tally w l L S) {j k : ℕ} {f : Feature} {a : Option ℕ} (K : l.Knows j k f)
    (ha : ∀ b, a = some b → l.Has f.kind b) : Goes w l (.fetch j k a) := by
  obtain ⟨t, h1, h2, h3⟩ := id K
  obtain ⟨o, eo, ao, rfl⟩ := T.alive h1 h2
  have ko := T.kinds o (List.mem_of_getElem? eo)
  obtain ⟨x, ex, kx⟩ := kind_at ko h3
  cases a with
  | none =>
    refine ⟨w, .none, ?_, rfl, L, S, T⟩
    unfold exec
    dsimp only
    rw [ao]
    rfl
  | some b =>
    obtain ⟨u, hu, ku⟩ := ha b rfl
    obtain ⟨nb, eb⟩ := T.mine_at hu
    refine ⟨{ w with heap := w.heap.set b (some x) }, .none, ?_, rfl, L, S, ?_⟩
    · unfold exec
      dsimp only
      rw [ao]
      simp only [Outcome.bind_ok, ex, Heap.write_ok eb (ku.trans kx.symm)]
    · show Tally _ (l.note b (l.believes j k)) L S
      rw [believes_eq T eo ex]
      exact T.note nb (fun c => Heap.at_set (by rw [eb]; simp) _ c)

theorem goes_ref (T : Tally w l L S) {j : ℕ} (K : l.Holds j) : Goes w l (.ref j) := by
  obtain ⟨t, h1, h2⟩ := id K
  obtain ⟨o, eo, ao, rfl⟩ := T.alive h1 h2
  have ko := T.kinds o (List.mem_of_getElem? eo)
  refine ⟨{ w with objects := w.objects.set j { o with refs := o.refs + 1 } }, .none, ?_, rfl, L, S, T.learn eo rfl ko⟩
  unfold exec
  dsimp only
  rw [ao]
  rfl

theorem goes_unref (T : Tally w l L S) {j : ℕ} (K : l.Holds j) : Goes w l (.unref j) := by
  obtain ⟨t, h1, h2⟩ := id K
  obtain ⟨o, eo, ao, rfl⟩ := T.alive h1 h2
  have ko := T.kinds o (List.mem_of_getElem? eo)
  refine ⟨{ w with objects := w.objects.set j { o with refs := o.refs - 1 } }, .none, ?_, rfl, L, S, T.learn eo rfl ko⟩
  unfold exec
  dsimp only
  rw [ao]
  rfl

theorem goes (T : Tally w l L S) {op : Op} (h : l.Allows op) : Goes w l op := by
  cases op with
  | make v => exact goes_make T v
  | look k a => exact goes_look T h
  | put a v => exact goes_put T h
  | copy k a => exact goes_copy T h
  | free a => exact goes_free T h
  | newStepper => exact goes_newStepper T
  | refStepper r => exact goes_refStepper T h
  | unrefStepper r => exact goes_unrefStepper T h
  | new c args o => exact goes_new T h.1 h.2
  | set j k a => obtain ⟨f, K, P⟩ := h; exact goes_set T K P
  | get j k => obtain ⟨f, K⟩ := h; exact goes_get T K
  | assign j k v => obtain ⟨f, K, _, P⟩ := h; exact goes_assign T K P
  | fetch j k a => obtain ⟨f, K, _, P⟩ := h; exact goes_fetch T K P
  | ref j => exact goes_ref T h
  | unref j => exact goes_unref T h

theorem tally_of {w : World} {l : Ledger} (h : Accounted w l) : ∃ L S, Tally w l L S := by
  induction h with
  | start =>
    exact ⟨∅, ∅, fun a _ => by simp [World.empty, Heap.at, Ledger.empty], by simp,
      fun r => by simp [references, World.empty, Ledger.empty], fun j => by simp [World.empty, Ledger.empty],
      by simp [World.empty], rfl, rfl⟩
  | @call w w' l op y _ may ran ih =>
    obtain ⟨L, S, T⟩ := ih
    obtain ⟨w1, y1, e, _, L', S', T'⟩ := goes T may
    rw [ran] at e
    cases e
    exact ⟨L', S', T'⟩

end

end Verif.GMem
