import Verif.Spec.GVisit
import Verif.Lemmas.GWobblyRounded
import Verif.Props.WobblyAttach

/-! Dragging an `AnimationWobblyModel` about in double precision. -/

namespace Verif.Props

open Wobbly Spec Outcome GWobbly Classical

noncomputable section

variable {R : Rounding64} {rd : ℝ → ℝ} {t : Track} {g : GState} {s : State} {o : Spot} {n : ℕ}

/-- The GObject layer is where the program's bookkeeping says, and the model is alive. -/
structure Stands (t : Track) (g : GState) (s : State) : Prop where
  rel : Rel t g s
  ok : Track.Ok t
  alive : t.alive = true

theorem Stands.model (S : Stands t g s) : g.model = some s := by rw [S.rel.model, if_pos S.alive]

/-- What the GObject call returns when the native call returns this. -/
def wrapRes (a : ℕ) : Res → GRes
  | .none => .none
  | .handle _ => .anchor a
  | .more b => .more b

/-- One call, one native call. -/
theorem Stands.one (S : Stands t g s) {op : GOp} {nop : Op} (ha : t.allows op) (hn : t.native op = [nop])
    (hk : (t.next op).alive = true)
    (hm : (t.next op).made = (match nop with | .grab _ | .insert _ => t.made + 1 | _ => t.made)) {s' : State} {y : Res}
    (e : Wobbly.Rounded.exec rd s nop = .ok (s', y)) :
    ∃ g', GWobbly.Rounded.exec rd g op = .ok (g', wrapRes t.made y) ∧ Stands (t.next op) g' s' := by
  have h := GWobbly.Rounded.exec_sim (rd := rd) S.rel S.ok ha
  rw [hn, GWobbly.Rounded.run_single, e, bind_ok] at h
  obtain ⟨⟨g', y'⟩, e', h1, -, h3, h4⟩ := matches_ok' h
  obtain ⟨-, -, hres⟩ := GWobbly.Rounded.exec_frame e
  refine ⟨g', ?_, h1, ok_next S.ok ha, hk⟩
  rw [e']
  congr 2
  rw [hm] at h4
  cases nop <;> simp only [opRes] at hres
  case grab p =>
    subst hres
    cases y' <;> simp [gStepAnswers, stepAnswers, gAnchors] at h3 h4
    subst h4
    rfl
  case insert p =>
    subst hres
    cases y' <;> simp [gStepAnswers, stepAnswers, gAnchors] at h3 h4
    subst h4
    rfl
  case step m =>
    obtain ⟨b, rfl⟩ := hres
    cases y' <;> simp [gStepAnswers, stepAnswers, gAnchors] at h3 h4
    have h3' : [_] = [b] := h3
    rw [(List.cons.inj h3').1]
    rfl
  all_goals
    subst hres
    cases y' <;> simp [gStepAnswers, stepAnswers, gAnchors] at h3 h4
    rfl

theorem Stands.none (S : Stands t g s) {op : GOp} (ha : t.allows op) (hn : t.native op = []) (hk : (t.next op).alive = true)
    (hm : (t.next op).made = t.made) :
    ∃ g', GWobbly.Rounded.exec rd g op = .ok (g', .none) ∧ Stands (t.next op) g' s := by
  have h := GWobbly.Rounded.exec_sim (rd := rd) S.rel S.ok ha
  rw [hn] at h
  obtain ⟨⟨g', y'⟩, e', h1, -, h3, h4⟩ := matches_ok' (b := (s, [])) h
  refine ⟨g', ?_, h1, ok_next S.ok ha, hk⟩
  rw [e']
  congr 2
  rw [if_pos hm] at h4
  cases y' <;> simp [gStepAnswers, stepAnswers, gAnchors] at h3 h4
  rfl

theorem asks_track {op : Wobbly.Rounded.FreeOp} {gop : GOp} (h : Asks op gop) (t : Track) :
    t.next gop = t ∧ t.native gop = [op.call] ∧ (t.allows gop ↔ t.alive = true) := by
  cases h <;> exact ⟨rfl, rfl, Iff.rfl⟩

theorem Stands.asked (S : Stands t g s) {op : Wobbly.Rounded.FreeOp} {gop : GOp} (h : Asks op gop) {s' : State} {y : Res}
    (e : Wobbly.Rounded.exec rd s op.call = .ok (s', y)) :
    ∃ g', GWobbly.Rounded.exec rd g gop = .ok (g', wrapRes t.made y) ∧ Stands t g' s' := by
  obtain ⟨h1, h2, h3⟩ := asks_track h t
  have := S.one (rd := rd) (op := gop) (h3.2 S.alive) h2 (by rw [h1]; exact S.alive) (by rw [h1]; cases op <;> rfl) e
  rwa [h1] at this

theorem held_track {a : ℕ} {held : List HeldOp} {ops : List GOp} (h : List.Forall₂ (AsksHeld a) held ops) (ht : t.alive = true)
    (ha : a < t.made) (hr : a ∉ t.released) (hg : a ∉ t.gone) :
    t.after ops = t ∧ nativeCalls t ops = held.map (HeldOp.call a) ∧ WellUsed t ops := by
  induction h with
  | nil => exact ⟨rfl, rfl, trivial⟩
  | @cons op gop held ops h _ ih =>
    obtain ⟨i1, i2, i3⟩ := ih
    have key : t.next gop = t ∧ t.native gop = [op.call a] ∧ t.allows gop := by
      cases h with
      | drag d => exact ⟨rfl, if_neg hr, ha, hg, Or.inl ht⟩
      | @model op gop h =>
        obtain ⟨h1, h2, h3⟩ := asks_track h t
        refine ⟨h1, ?_, h3.2 ht⟩
        rw [h2]
        cases op <;> rfl
    obtain ⟨k1, k2, k3⟩ := key
    refine ⟨?_, ?_, k3, by rw [k1]; exact i3⟩
    · show (t.next gop).after ops = t
      rw [k1]
      exact i1
    · simp only [nativeCalls, k1, k2, i2, List.map_cons, List.singleton_append]

theorem Stands.dragged (S : Stands t g s) {a : ℕ} {held : List HeldOp} {ops : List GOp} (h : List.Forall₂ (AsksHeld a) held ops)
    (ha : a < t.made) (hr : a ∉ t.released) (hg : a ∉ t.gone) {s' : State} {rs : List Res}
    (e : Wobbly.Rounded.run rd s (held.map (HeldOp.call a)) = .ok (s', rs)) :
    ∃ g' rs', GWobbly.Rounded.run rd g ops = .ok (g', rs') ∧ Stands t g' s' := by
  obtain ⟨h1, h2, h3⟩ := held_track h S.alive ha hr hg
  have hs := GWobbly.Rounded.run_sim (rd := rd) S.rel S.ok h3
  rw [h2, e] at hs
  obtain ⟨⟨g', rs'⟩, e', k, -⟩ := matches_ok' hs
  rw [h1] at k
  exact ⟨g', rs', e', k, S.ok, S.alive⟩

/-- Letting go of an anchor that is held. -/
theorem Stands.let_go (S : Stands t g s) {a : ℕ} {last : GOp} (h : LetsGo a last) (ha : a < t.made) (hr : a ∉ t.released)
    (hg : a ∉ t.gone) {s' : State} (e : Wobbly.Rounded.exec rd s (.release a) = .ok (s', .none)) :
    ∃ g', GWobbly.Rounded.exec rd g last = .ok (g', .none) ∧ Stands (t.next last) g' s' := by
  rcases h with rfl | rfl
  · exact S.one (rd := rd) (op := .anchorRelease a) ⟨ha, hg, Or.inl S.alive⟩ (if_neg hr) S.alive rfl e
  · exact S.one (rd := rd) (op := .anchorUnref a) ⟨ha, hg, Or.inl S.alive⟩ (if_neg hr) S.alive rfl e

/-- Nobody holds the model, and it is at rest at the spot. -/
structure Idle (t : Track) (g : GState) (s : State) (o : Spot) (n : ℕ) : Prop where
  stands : Stands t g s
  free : ∀ a, a < t.made → a ∈ t.released
  range : InRange s.settings
  quiet : Quiet s.settings s o n
  book : ∃ b, Wobbly.Rounded.Book b s

theorem range_mild {x : Settings} (h : InRange x) : Wobbly.Rounded.Mild x :=
  ⟨h.1.1, h.1.2, h.2.1.1, h.2.1.2, by linarith [h.2.2.1], h.2.2.2⟩

theorem letsGo_free {a : ℕ} {last : GOp} (h : LetsGo a last) (hf : ∀ c, c < t.made → c ∈ t.released ∨ c = a) :
    ∀ c, c < (t.next last).made → c ∈ (t.next last).released := by
  intro c hc
  have hm : (t.next last).made = t.made ∧ (t.next last).released = a :: t.released := by
    rcases h with rfl | rfl <;> exact ⟨rfl, rfl⟩
  rw [hm.1] at hc
  rw [hm.2]
  rcases hf c hc with h | rfl
  · exact List.mem_cons_of_mem _ h
  · exact List.mem_cons_self


theorem Stands.still (S : Stands t g s) (h : Still rd s) : GStill rd g := by
  intro m
  obtain ⟨g', e, S'⟩ := S.asked (rd := rd) (.step m) (h m)
  exact ⟨g', e, by rw [S'.model, S.model]⟩

/-- Dragging, from what the native model does. -/
theorem Stands.draggable {a : ℕ} {along : List HeldOp → GState → Prop} {still : List HeldOp → Prop} (S : Stands t g s)
    (ha : a < t.made) (hr : a ∉ t.released) (hg : a ∉ t.gone)
    (h : ∀ held, o.StaysHeld held → n + heldEdits held < 65536 →
      ∃ s2 rs, Wobbly.Rounded.run rd s (held.map (HeldOp.call a)) = .ok (s2, rs) ∧
        (∀ g2 : GState, g2.model = some s2 → along held g2) ∧
        ∀ m, m ≠ 0 → ∃ s3 more, Wobbly.Rounded.exec rd s2 (.step m) = .ok (s3, .more more) ∧
          (¬ more → (∀ j, Near ((n + heldEdits held + 1) / 262144) (s3.pos j) ((o.heldAll held).point j)) ∧ Still rd s3 ∧
            ∃ s4, Wobbly.Rounded.exec rd s3 (.release a) = .ok (s4, .none) ∧ s4.pos = s3.pos ∧ (still held → Still rd s4))) :
    GDraggable rd o n a g along still := by
  intro held ops hs hf hn
  obtain ⟨s2, rs, e2, hal, h2⟩ := h held hs hn
  obtain ⟨g2, rs', e2', S2⟩ := S.dragged hf ha hr hg e2
  refine ⟨g2, rs', e2', hal g2 S2.model, fun m hm => ?_⟩
  obtain ⟨s3, more, e3, h3⟩ := h2 m hm
  obtain ⟨g3, e3', S3⟩ := S2.asked (rd := rd) (.step m) e3
  refine ⟨g3, more, e3', fun hmore => ?_⟩
  obtain ⟨c3, st3, s4, e4, ep, st4⟩ := h3 hmore
  refine ⟨⟨s3, S3.model, c3⟩, S3.still st3, fun last hl => ?_⟩
  obtain ⟨g4, e4', S4⟩ := S3.let_go hl ha hr hg e4
  exact ⟨g4, e4', ⟨s3, s4, S3.model, S4.model, ep⟩, fun hst => S4.still (st4 hst)⟩

/-- The next anchor. -/
theorem Idle.fresh (I : Idle t g s o n) : t.made ∉ t.released ∧ t.made ∉ t.gone ∧ s.nextHid = t.made ∧ g.anchors.length = t.made :=
  ⟨fun h => absurd (I.stands.ok.released _ h) (lt_irrefl _), fun h => absurd (I.stands.ok.gone _ h) (lt_irrefl _), I.stands.rel.next,
    I.stands.rel.len⟩

theorem quiet_settings {x y : Settings} (Q : Quiet x s o n) : Quiet y { s with settings := y } o n := by
  obtain ⟨h1, h2, h3, h4, h5, h6, h7⟩ := Q
  exact ⟨⟨h1.live, h1.count, h1.locks, h1.ends⟩, ⟨h2.ox, h2.oy, h2.sw, h2.sh, h2.dw, h2.dh, h2.cx, h2.cy, h2.vel, h2.doubles,
    h2.unequal, h2.springs⟩, h3, h4, rfl, h6, h7⟩

/-- Setting a number. -/
theorem Idle.number (I : Idle t g s o n) {op : GOp} (h : SetsNumber op) :
    ∃ g' t' s', GWobbly.Rounded.exec rd g op = .ok (g', .none) ∧ Idle t' g' s' o n ∧ s'.pos = s.pos := by
  obtain ⟨b, B⟩ := I.book
  have key : ∀ y : Settings, InRange y → t.allows op → t.native op = [.setSettings y] → t.next op = { t with settings := y } →
      ∃ g' t' s', GWobbly.Rounded.exec rd g op = .ok (g', .none) ∧ Idle t' g' s' o n ∧ s'.pos = s.pos := by
    intro y hy ha hn ht
    obtain ⟨g', e, S⟩ := I.stands.one (rd := rd) (s' := { s with settings := y }) (y := .none) ha hn
      (by rw [ht]; exact I.stands.alive) (by rw [ht]) rfl
    refine ⟨g', _, _, e, ⟨S, ?_, hy, quiet_settings I.quiet, b, ?_⟩, rfl⟩
    · rw [ht]
      exact I.free
    · exact Wobbly.Rounded.exec_book (r := rd) (op := .setSettings y) B rfl
  have keep : t.allows op → t.native op = [] → t.next op = t →
      ∃ g' t' s', GWobbly.Rounded.exec rd g op = .ok (g', .none) ∧ Idle t' g' s' o n ∧ s'.pos = s.pos := by
    intro ha hn ht
    obtain ⟨g', e, S⟩ := I.stands.none (rd := rd) ha hn (by rw [ht]; exact I.stands.alive) (by rw [ht])
    exact ⟨g', _, s, e, ⟨S, by rw [ht]; exact I.free, I.range, I.quiet, I.book⟩, rfl⟩
  have hr := I.range
  rw [I.stands.rel.sett] at hr
  obtain ⟨v, rfl | rfl | rfl⟩ := h
  · by_cases hv : 1 / 10 ≤ v ∧ v ≤ 10
    · exact key { t.settings with springConstant := v } ⟨hv, hr.2.1, hr.2.2⟩ I.stands.alive (if_pos hv) (if_pos hv)
    · exact keep I.stands.alive (if_neg hv) (if_neg hv)
  · by_cases hv : 1 / 10 ≤ v ∧ v ≤ 10
    · exact key { t.settings with friction := v } ⟨hr.1, hv, hr.2.2⟩ I.stands.alive (if_pos hv) (if_pos hv)
    · exact keep I.stands.alive (if_neg hv) (if_neg hv)
  · by_cases hv : 10 ≤ v ∧ v ≤ 1000
    · exact key { t.settings with maximumRange := v } ⟨hr.1, hr.2.1, hv⟩ I.stands.alive (if_pos hv) (if_pos hv)
    · exact keep I.stands.alive (if_neg hv) (if_neg hv)

theorem Idle.sound (I : Idle t g s o n) (hs : rd = R.rnd ∨ Wobbly.Rounded.Agrees R rd) : Sound R s.settings rd ∧ 1 ≤ s.settings.maximumRange :=
  ⟨hs.imp id fun h => ⟨h, range_mild I.range⟩, (range_mild I.range).r1⟩

theorem Idle.dependable (I : Idle t g s o n) (hs : rd = R.rnd ∨ Wobbly.Rounded.Agrees R rd) : GDependable rd g o n := by
  obtain ⟨hS, hx⟩ := I.sound hs
  have D := I.quiet.dependable hS hx
  obtain ⟨f1, f2, f3, f4⟩ := I.fresh
  refine ⟨⟨s, I.stands.model, D.close⟩, I.stands.still D.still, fun op gop ha ho hn => ?_, fun op h => ?_, fun q qx qy => ?_⟩
  · obtain ⟨s', e⟩ := D.calls op ho hn
    obtain ⟨g', e', -⟩ := I.stands.asked ha e
    refine ⟨g', e'.trans ?_⟩
    cases op <;> rfl
  · obtain ⟨g', t', s', e, I', ep⟩ := I.number (rd := rd) h
    refine ⟨g', e, ⟨s, s', I.stands.model, I'.stands.model, ep⟩, I'.stands.still ?_⟩
    obtain ⟨hS', -⟩ := I'.sound hs
    exact I'.quiet.still hS'
  · obtain ⟨i, a, s1, e1, hj, hd⟩ := D.grabs q qx qy
    obtain ⟨-, -, hres⟩ := GWobbly.Rounded.exec_frame e1
    simp only [opRes, Res.handle.injEq] at hres
    subst hres
    rw [f3] at hd
    obtain ⟨g1, e1', S1⟩ := I.stands.one (rd := rd) (op := .grab q) I.stands.alive rfl I.stands.alive rfl e1
    have ep : s1.pos = s.pos := by
      obtain ⟨_, _, _, -, -, rfl, -⟩ := Wobbly.Rounded.grab_fields e1
      rfl
    rw [f4]
    refine ⟨g1, e1', ⟨s, s1, I.stands.model, S1.model, ep⟩, i, hj, S1.draggable (Nat.lt_succ_self _) f1 f2 fun held hs hn => ?_⟩
    obtain ⟨s2, rs, e2, hp, h2⟩ := hd held hs hn
    refine ⟨s2, rs, e2, fun g2 hg2 => ⟨s2, hg2, hp⟩, fun m hm => ?_⟩
    obtain ⟨s3, more, e3, h3⟩ := h2 m hm
    refine ⟨s3, more, e3, fun hmore => ?_⟩
    obtain ⟨k1, k2, s4, k3, k4, k5⟩ := h3 hmore
    exact ⟨k1, k2, s4, k3, k4, fun _ => k5⟩

theorem Idle.attachable (I : Idle t g s o n) (hs : rd = R.rnd ∨ Wobbly.Rounded.Agrees R rd) : GAttachable rd g o n := by
  obtain ⟨hS, hx⟩ := I.sound hs
  obtain ⟨b, B⟩ := I.book
  obtain ⟨f1, f2, f3, f4⟩ := I.fresh
  intro q hq
  obtain ⟨a, s1, A⟩ := I.quiet.attachable hS hx B hq
  have e1 := A.inserted
  obtain ⟨-, -, hres⟩ := GWobbly.Rounded.exec_frame e1
  simp only [opRes, Res.handle.injEq] at hres
  obtain ⟨g1, e1', S1⟩ := I.stands.one (rd := rd) (op := .insert q) I.stands.alive rfl I.stands.alive rfl e1
  rw [f3] at hres
  rw [f4]
  refine ⟨g1, e1', ⟨s, s1, I.stands.model, S1.model, A.unmoved⟩, fun m hm => ?_,
    S1.draggable (Nat.lt_succ_self _) f1 f2 fun held hs hn => ?_⟩
  · obtain ⟨s2, e2⟩ := A.calm m hm
    obtain ⟨g2, e2', -⟩ := S1.asked (rd := rd) (.step m) e2
    exact ⟨g2, e2'⟩
  · rw [← hres]
    obtain ⟨s2, rs, e2, h2⟩ := A.dragged held hs hn
    exact ⟨s2, rs, e2, fun _ _ => trivial, h2⟩

/-- A visit that went well, step by step. -/
theorem Quiet.visited {x : Settings} (hr : Sound R x rd) (hx : 1 ≤ x.maximumRange) (Q : Quiet x s o n) {s1 s2 s3 s4 : State}
    {a m : ℕ} {q : Pt} {held : List HeldOp} {rs : List Res} {y : Res} (qx : |q.x| ≤ 32768) (qy : |q.y| ≤ 32768)
    (grabbed : Wobbly.Rounded.exec rd s (.grab q) = .ok (s1, .handle a)) (on : o.StaysHeld held)
    (dragged : Wobbly.Rounded.run rd s1 (held.map (HeldOp.call a)) = .ok (s2, rs)) (hm : m ≠ 0)
    (rested : Wobbly.Rounded.exec rd s2 (.step m) = .ok (s3, .more False))
    (released : Wobbly.Rounded.exec rd s3 (.release a) = .ok (s4, y)) (hn : n + heldEdits held < 65536) :
    Quiet x s4 (o.heldAll held) (n + heldEdits held) := by
  obtain ⟨i, s1, e1, K, hr1, w1, h1, hj⟩ := Q.grab hr hx qx qy
  rw [e1] at grabbed
  obtain ⟨rfl, ea⟩ := Prod.mk.inj (Outcome.ok.inj grabbed)
  cases ea
  obtain ⟨s2, rs, e2, K2, w2, h2, hr2⟩ := kept_drag K hr1 w1 h1 on hn
  rw [e2] at dragged
  obtain ⟨rfl, -⟩ := Prod.mk.inj (Outcome.ok.inj dragged)
  obtain ⟨s3, more, e3, w3, h3, hm⟩ := kept_step K2 hr2 hm
  rw [e3] at rested
  obtain ⟨rfl, em⟩ := Prod.mk.inj (Outcome.ok.inj rested)
  obtain ⟨P, -⟩ := hm (by
    rw [Res.more.inj em]
    exact not_false)
  obtain ⟨s4, e4, -, Q4⟩ := parked_quiet (r := rd) P (w3.trans w2) (h3.trans h2) (stays_last on)
  rw [e4] at released
  obtain ⟨rfl, -⟩ := Prod.mk.inj (Outcome.ok.inj released)
  exact Q4

/-- A call that returned stood for native calls that returned. -/
theorem Stands.back (S : Stands t g s) {op : GOp} {nop : Op} {g' : GState} {y : GRes}
    (e : GWobbly.Rounded.exec rd g op = .ok (g', y)) (hn : t.native op = [nop]) (hk : (t.next op).alive = true) :
    ∃ s' y', Wobbly.Rounded.exec rd s nop = .ok (s', y') ∧ Stands (t.next op) g' s' ∧ stepAnswers [y'] = gStepAnswers [y] := by
  have ha : t.allows op := by
    by_contra ha
    rw [GWobbly.Rounded.exec_misuse S.rel ha] at e
    cases e
  have h := GWobbly.Rounded.exec_sim (rd := rd) S.rel S.ok ha
  rw [hn, GWobbly.Rounded.run_single, e] at h
  obtain ⟨⟨s', ys⟩, e', h1, -, h3, -⟩ := matches_ok h
  rw [bind_eq_ok] at e'
  obtain ⟨⟨s1, y1⟩, e1, e2⟩ := e'
  simp only [Outcome.ok.injEq, Prod.mk.injEq] at e2
  obtain ⟨rfl, rfl⟩ := e2
  exact ⟨s1, y1, e1, ⟨h1, ok_next S.ok ha, hk⟩, h3.symm⟩

theorem Stands.back_step (S : Stands t g s) {m : ℕ} {g' : GState} {b : Prop}
    (e : GWobbly.Rounded.exec rd g (.step m) = .ok (g', .more b)) :
    ∃ s', Wobbly.Rounded.exec rd s (.step m) = .ok (s', .more b) ∧ Stands t g' s' := by
  obtain ⟨s', y', e', S', h⟩ := S.back e rfl S.alive
  obtain ⟨-, -, c, rfl⟩ := GWobbly.Rounded.exec_frame e'
  have h' : [c] = [b] := h
  rw [(List.cons.inj h').1] at e'
  exact ⟨s', e', S'⟩

theorem Stands.back_run (S : Stands t g s) {a : ℕ} {held : List HeldOp} {ops : List GOp} (h : List.Forall₂ (AsksHeld a) held ops)
    (ha : a < t.made) (hr : a ∉ t.released) (hg : a ∉ t.gone) {g' : GState} {rs : List GRes}
    (e : GWobbly.Rounded.run rd g ops = .ok (g', rs)) :
    ∃ s' rs', Wobbly.Rounded.run rd s (held.map (HeldOp.call a)) = .ok (s', rs') ∧ Stands t g' s' := by
  obtain ⟨h1, h2, h3⟩ := held_track h S.alive ha hr hg
  have hs := GWobbly.Rounded.run_sim (rd := rd) S.rel S.ok h3
  rw [h2, e] at hs
  obtain ⟨⟨s', rs'⟩, e', k, -⟩ := matches_ok hs
  rw [h1] at k
  exact ⟨s', rs', e', k, S.ok, S.alive⟩

/-- Everything between getting an anchor and letting go of it, seen from the native model. -/
theorem Stands.back_visit (S : Stands t g s) {op : GOp} {nop : Op} (hn : t.native op = [nop])
    (ht : t.next op = { t with made := t.made + 1 }) (hg : (∃ q, nop = .grab q) ∨ ∃ q, nop = .insert q) {g1 g2 g3 g4 : GState}
    {a m : ℕ} {held : List HeldOp} {ops : List GOp} {last : GOp} {rs : List GRes} {y : GRes}
    (got : GWobbly.Rounded.exec rd g op = .ok (g1, .anchor a)) (asks : List.Forall₂ (AsksHeld a) held ops)
    (dragged : GWobbly.Rounded.run rd g1 ops = .ok (g2, rs)) (rested : GWobbly.Rounded.exec rd g2 (.step m) = .ok (g3, .more False))
    (lets : LetsGo a last) (released : GWobbly.Rounded.exec rd g3 last = .ok (g4, y))
    (hf : ∀ c, c < t.made → c ∈ t.released) :
    ∃ s1 s2 s3 s4 rs' y' t', Wobbly.Rounded.exec rd s nop = .ok (s1, .handle a) ∧
      Wobbly.Rounded.run rd s1 (held.map (HeldOp.call a)) = .ok (s2, rs') ∧
      Wobbly.Rounded.exec rd s2 (.step m) = .ok (s3, .more False) ∧
      Wobbly.Rounded.exec rd s3 (.release a) = .ok (s4, y') ∧ Stands t' g4 s4 ∧ ∀ c, c < t'.made → c ∈ t'.released := by
  have hal : (t.next op).alive = true := by rw [ht]; exact S.alive
  have haa : t.allows op := by
    by_contra ha
    rw [GWobbly.Rounded.exec_misuse S.rel ha] at got
    cases got
  obtain ⟨s1, y1, e1, S1, -⟩ := S.back got hn hal
  have hy : y1 = .handle t.made := by
    obtain ⟨-, -, hres⟩ := GWobbly.Rounded.exec_frame e1
    rw [← S.rel.next]
    rcases hg with ⟨q, rfl⟩ | ⟨q, rfl⟩ <;> exact hres
  subst hy
  have ea : a = t.made := by
    obtain ⟨g1', e1', -⟩ := S.one (rd := rd) haa hn hal (by rw [ht]; rcases hg with ⟨q, rfl⟩ | ⟨q, rfl⟩ <;> rfl) e1
    rw [got] at e1'
    have := (Prod.mk.inj (Outcome.ok.inj e1')).2
    simpa [wrapRes] using this
  subst ea
  rw [ht] at S1
  have f1 : t.made ∉ t.released := fun h => absurd (S.ok.released _ h) (lt_irrefl _)
  have f2 : t.made ∉ t.gone := fun h => absurd (S.ok.gone _ h) (lt_irrefl _)
  obtain ⟨s2, rs', e2, S2⟩ := S1.back_run asks (Nat.lt_succ_self _) f1 f2 dragged
  obtain ⟨s3, e3, S3⟩ := S2.back_step rested
  have hl : ({ t with made := t.made + 1 } : Track).native last = [.release t.made] ∧
      (({ t with made := t.made + 1 } : Track).next last).alive = true := by
    rcases lets with rfl | rfl
    · exact ⟨if_neg f1, S.alive⟩
    · exact ⟨if_neg f1, S.alive⟩
  obtain ⟨s4, y4, e4, S4, -⟩ := S3.back released hl.1 hl.2
  refine ⟨s1, s2, s3, s4, rs', y4, _, e1, e2, e3, e4, S4, letsGo_free lets fun c hc => ?_⟩
  have hc' : c < t.made + 1 := hc
  rcases Nat.lt_succ_iff_lt_or_eq.1 hc' with h | h
  · exact Or.inl (hf c h)
  · exact Or.inr h

/-- Where such a program gets. -/
theorem ghandled_idle (hs : rd = R.rnd ∨ Wobbly.Rounded.Agrees R rd)
    (H : GHandled rd g o n) (hn : n < 65536) : ∃ t s, Idle t g s o n := by
  induction H with
  | @new p w h k f m b g range on made =>
    rw [GWobbly.Rounded.new_ok, Outcome.ok.injEq] at made
    subst made
    have hb : builtSettings k f m = ⟨k, f, m⟩ := by
      obtain ⟨r1, r2, r3⟩ := range
      unfold builtSettings
      rw [if_pos r1, if_pos r2, if_pos r3]
    rw [hb]
    refine ⟨_, _, ⟨GWobbly.Rounded.rel_start p ⟨w, h⟩ ⟨k, f, m⟩ b, ok_start _, rfl⟩, fun a ha => absurd ha (Nat.not_lt_zero _),
      range, ?_, b, Wobbly.Rounded.book_new p w h _ b⟩
    exact peaceful_quiet (R := R) (hs.imp id fun h => ⟨h, range_mild range⟩) (range_mild range).r1 (.new on) hn
  | @elsewhere g g' o n k y before ran ih =>
    obtain ⟨t, s, I⟩ := ih hn
    obtain ⟨b, B⟩ := I.book
    obtain ⟨s', y', e, S, -⟩ := I.stands.back ran rfl I.stands.alive
    have B' := Wobbly.Rounded.exec_book B e
    obtain ⟨rfl, -⟩ := Prod.mk.inj (Outcome.ok.inj e)
    obtain ⟨h1, h2, h3, h4, h5, h6, h7⟩ := I.quiet
    exact ⟨_, _, S, I.free, I.range, ⟨⟨h1.live, h1.count, h1.locks, h1.ends⟩, ⟨h2.ox, h2.oy, h2.sw, h2.sh, h2.dw, h2.dh, h2.cx,
      h2.cy, h2.vel, h2.doubles, h2.unequal, h2.springs⟩, h3, h4, h5, h6, h7⟩, b, B'⟩
  | number before sets ran ih =>
    obtain ⟨t, s, I⟩ := ih hn
    obtain ⟨g', t', s', e, I', -⟩ := I.number (rd := rd) sets
    rw [e] at ran
    obtain ⟨rfl, -⟩ := Prod.mk.inj (Outcome.ok.inj ran)
    exact ⟨t', s', I'⟩
  | @stray g g' o n a op y before uses ran ih =>
    obtain ⟨t, s, I⟩ := ih hn
    have ha : t.allows op := by
      by_contra ha
      rw [GWobbly.Rounded.exec_misuse I.stands.rel ha] at ran
      cases ran
    have key : a ∈ t.released ∧ (t.next op).alive = true ∧ (t.next op).made = t.made ∧
        (∀ c ∈ t.released, c ∈ (t.next op).released) ∧ (a ∈ t.released → t.native op = []) := by
      rcases uses with ⟨d, rfl⟩ | rfl | rfl
      · exact ⟨I.free a ha.1, I.stands.alive, rfl, fun _ h => h, fun h => if_pos h⟩
      · exact ⟨I.free a ha.1, I.stands.alive, rfl, fun _ h => List.mem_cons_of_mem _ h, fun h => if_pos h⟩
      · exact ⟨I.free a ha.1, I.stands.alive, rfl, fun _ h => List.mem_cons_of_mem _ h, fun h => if_pos h⟩
    obtain ⟨k1, k2, k3, k4, k5⟩ := key
    obtain ⟨g1, e, S⟩ := I.stands.none (rd := rd) ha (k5 k1) k2 k3
    rw [e] at ran
    obtain ⟨rfl, -⟩ := Prod.mk.inj (Outcome.ok.inj ran)
    exact ⟨_, s, S, fun c hc => k4 c (I.free c (by rw [k3] at hc; exact hc)), I.range, I.quiet, I.book⟩
  | @call g g' o n op gop y before asks on ran ih =>
    obtain ⟨t, s, I⟩ := ih (by omega)
    obtain ⟨b, B⟩ := I.book
    obtain ⟨h1, h2, h3⟩ := asks_track asks t
    obtain ⟨s', y', e, S, -⟩ := I.stands.back ran h2 (by rw [h1]; exact I.stands.alive)
    rw [h1] at S
    obtain ⟨hS, hx⟩ := I.sound hs
    have B' := Wobbly.Rounded.exec_book B e
    obtain ⟨s1, e1, Q⟩ := I.quiet.call hS on hn
    rw [e1] at e
    obtain ⟨rfl, -⟩ := Prod.mk.inj (Outcome.ok.inj e)
    have es := Q.settings
    exact ⟨t, s1, S, I.free, by rw [es]; exact I.range, by rw [es]; exact Q, b, B'⟩
  | visit before qx qy grabbed on asks dragged some rested lets released ih =>
    obtain ⟨t, s, I⟩ := ih (by omega)
    obtain ⟨b, B⟩ := I.book
    obtain ⟨s1, s2, s3, s4, rs', y', t', e1, e2, e3, e4, S, hf⟩ := I.stands.back_visit (rd := rd) (nop := .grab _) rfl rfl
      (Or.inl ⟨_, rfl⟩) grabbed asks dragged rested lets released I.free
    obtain ⟨hS, hx⟩ := I.sound hs
    have Q := I.quiet.visited hS hx qx qy e1 on e2 some e3 e4 hn
    have B' := Wobbly.Rounded.exec_book (Wobbly.Rounded.exec_book (Wobbly.Rounded.run_keeps (fun _ _ _ _ => Wobbly.Rounded.exec_book)
      (Wobbly.Rounded.exec_book B e1) e2) e3) e4
    have es := Q.settings
    exact ⟨t', s4, S, hf, by rw [es]; exact I.range, by rw [es]; exact Q, b, B'⟩
  | attach before inside inserted on kept asks dragged some rested lets released ih =>
    obtain ⟨t, s, I⟩ := ih (by omega)
    obtain ⟨b, B⟩ := I.book
    obtain ⟨s1, s2, s3, s4, rs', y', t', e1, e2, e3, e4, S, hf⟩ := I.stands.back_visit (rd := rd) (nop := .insert _) rfl rfl
      (Or.inr ⟨_, rfl⟩) inserted asks dragged rested lets released I.free
    obtain ⟨hS, hx⟩ := I.sound hs
    have Q := I.quiet.attached hS hx B inside e1 on kept e2 some e3 e4 hn
    have B' := Wobbly.Rounded.exec_book (Wobbly.Rounded.exec_book (Wobbly.Rounded.run_keeps (fun _ _ _ _ => Wobbly.Rounded.exec_book)
      (Wobbly.Rounded.exec_book B e1) e2) e3) e4
    have es := Q.settings
    exact ⟨t', s4, S, hf, by rw [es]; exact I.range, by rw [es]; exact Q, b, B'⟩

end

end Verif.Props
