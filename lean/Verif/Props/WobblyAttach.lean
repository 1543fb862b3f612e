import Verif.Lemmas.WobblyAmple
import Verif.Props.WobblyVisit

/-! # Dragging a model by inserted anchors in double precision (C131) -/

namespace Verif.Props

open Wobbly Wobbly.Rounded Spec Outcome Classical

noncomputable section

variable {R : Rounding64} {r : ℝ → ℝ} {x : Settings} {s : State} {o : Spot} {n : ℕ}

theorem no_resize_size {held : List HeldOp} (h : NoResize held) (o : Spot) :
    (o.heldAll held).width = o.width ∧ (o.heldAll held).height = o.height := by
  induction held generalizing o with
  | nil => exact ⟨rfl, rfl⟩
  | cons op ops ih =>
    have h' : NoResize ops := fun w hh hm => h w hh (List.mem_cons_of_mem _ hm)
    obtain ⟨e1, e2⟩ := ih h' (o.held op)
    have e3 : (o.held op).width = o.width ∧ (o.held op).height = o.height := by
      rcases op with d | op
      · exact ⟨rfl, rfl⟩
      · rcases op with t | d | q | ⟨w, hh⟩
        · exact ⟨rfl, rfl⟩
        · exact ⟨rfl, rfl⟩
        · exact ⟨rfl, rfl⟩
        · exact absurd List.mem_cons_self (h w hh)
    exact ⟨e1.trans e3.1, e2.trans e3.2⟩

/-- A model with an inserted anchor; with room for everything if overflow matters. -/
theorem Quiet.insert (hr : Sound R x r) (hx : 1 ≤ x.maximumRange) (Q : Quiet x s o n) {g : Pt} (hg : o.Covers g) :
    ∃ st c s', exec r s (.insert g) = .ok (s', .handle s.nextHid) ∧ Hung x s.nextHid st o.place c (1 + n) s' ∧
      (r = R.rnd ∨ Agrees R r ∧ Ample x s.nextHid st o.place c (1 + n) s') ∧
      Fits o.width o.height (1 + n) st ∧ s'.width = o.width ∧ s'.height = o.height ∧ s'.pos = s.pos ∧ s'.vel = s.vel ∧
      ∀ j, Near (3 / 16) (s'.pos j) (s'.targets j) := by
  obtain ⟨st, c, s', e, H, hf, e1, e2, e3, e4, e5⟩ := insert_resting R Q.free Q.rest Q.width Q.height Q.on hg
    (by rw [Q.settings]; exact hx) Q.joined
  rw [Q.width, Q.height] at hf
  rcases hr with rfl | ⟨ha, M⟩
  · rw [Q.settings] at H
    exact ⟨st, c, s', e, H, Or.inl rfl, hf, e1.trans Q.width, e2.trans Q.height, e3, e4, e5⟩
  · obtain ⟨k1, k2⟩ := insert_ample ha Q.free Q.rest Q.on hg (by rw [Q.settings]; exact M) Q.joined e H
    rw [Q.settings] at H k2
    exact ⟨st, c, s', k1, H, Or.inr ⟨ha, k2⟩, hf, e1.trans Q.width, e2.trans Q.height, e3, e4, e5⟩

/-- Release of a model that has come to rest. -/
theorem settled_quiet {a b m : ℕ} {st : Spring} {c : Pt} (S : Settled x a st o.place c (1 + n) s) (B : Book b s)
    (ew : s.width = o.width) (eh : s.height = o.height) (on : o.OnScreen) :
    ∃ s', exec r s (.release a) = .ok (s', .none) ∧ s'.pos = s.pos ∧
      (m ≤ n → Fits o.width o.height (1 + m) st → Quiet x s' o n) := by
  obtain ⟨s', e, na, hj, e1, e2, e3, e4, e5, e6, hf⟩ := S.hung.release (r := r) B
  refine ⟨s', e, e1, fun hm hs => ⟨na, S.resting e1 e2 e3 e4 e5 fun y hy => ?_, e4.trans ew, e5.trans eh,
    e6.trans S.hung.settings, on, hj⟩⟩
  rcases hf y hy with rfl | hf
  · rw [ew, eh]
    have : (m : ℝ) ≤ n := by exact_mod_cast hm
    exact fits_mono on.widthMin on.heightMin (by linarith) hs
  · exact hf

theorem hung_drag {a : ℕ} {st : Spring} {c : Pt} {held : List HeldOp} (K : Hung x a st o.place c (1 + n) s)
    (hr : r = R.rnd ∨ Agrees R r ∧ Ample x a st o.place c (1 + n) s)
    (ew : s.width = o.width) (eh : s.height = o.height) (hs : o.StaysHeld held) (hn : n + heldEdits held < 65536) :
    ∃ s' rs, run r s (held.map (HeldOp.call a)) = .ok (s', rs) ∧
      Hung x a st (o.heldAll held).place c (1 + (n + heldEdits held : ℕ)) s' ∧
      (r = R.rnd ∨ Agrees R r ∧ Ample x a st (o.heldAll held).place c (1 + (n + heldEdits held : ℕ)) s') ∧
      s'.width = (o.heldAll held).width ∧ s'.height = (o.heldAll held).height := by
  have hn' : (1 : ℝ) + n + heldEdits held ≤ 65536 := by
    have : ((n + heldEdits held + 1 : ℕ) : ℝ) ≤ (65536 : ℕ) := by exact_mod_cast hn
    push_cast at this
    linarith
  have ev : (1 : ℝ) + (n + heldEdits held : ℕ) = 1 + n + heldEdits held := by push_cast; ring
  rw [ev]
  rcases hr with rfl | ⟨ha, A⟩
  · obtain ⟨s', rs, e, K', w, h⟩ := hung_run R K ew eh hs hn'
    exact ⟨s', rs, e, K', Or.inl rfl, w, h⟩
  · obtain ⟨s', rs, e, -, A', w, h⟩ := ample_run ha A ew eh hs hn'
    exact ⟨s', rs, e, A'.hung, Or.inr ⟨ha, A'⟩, w, h⟩

theorem hung_step {a : ℕ} {st : Spring} {p c : Pt} {v : ℝ} (K : Hung x a st p c v s)
    (hr : r = R.rnd ∨ Agrees R r ∧ Ample x a st p c v s) {t : ℕ} (ht : t ≠ 0) :
    ∃ s' more, exec r s (.step t) = .ok (s', .more more) ∧ s'.width = s.width ∧ s'.height = s.height ∧
      (¬ more → Settled x a st p c v s' ∧ Still r s') := by
  rcases hr with rfl | ⟨ha, A⟩
  · obtain ⟨s', more, e, -, w, h, hm⟩ := K.step (R := R) t
    exact ⟨s', more, e, w, h, fun hf => ⟨hm hf ht, fun t' => (hm hf ht).step t'⟩⟩
  · obtain ⟨s', more, e, A', w, h, hm⟩ := A.step (R := R) t
    exact ⟨s', more, (A.ag_step ha t).trans e, w, h, fun hf =>
      ⟨hm hf ht, fun t' => (A'.ag_step ha t').trans ((hm hf ht).step t')⟩⟩

theorem Quiet.attachable {b : ℕ} (hr : Sound R x r) (hx : 1 ≤ x.maximumRange) (Q : Quiet x s o n) (B : Book b s) {g : Pt}
    (hg : o.Covers g) : ∃ a s1, Attachable r s o n g a s1 := by
  obtain ⟨st, c, s1, e1, H, hr1, hf, w1, h1, ep, ev, near⟩ := Q.insert hr hx hg
  refine ⟨s.nextHid, s1, e1, ep, fun t ht => ?_, fun held hs hn => ?_⟩
  · obtain ⟨s2, e2, -⟩ := H.calm (R := R) near (by rw [ep]; exact Q.rest.doubles) (by rw [ev]; exact Q.rest.vel) ht
    rcases hr1 with rfl | ⟨ha, A⟩
    · exact ⟨s2, e2⟩
    · exact ⟨s2, (A.ag_step ha t).trans e2⟩
  obtain ⟨s2, rs, e2, H2, hr2, w2, h2⟩ := hung_drag H hr1 w1 h1 hs hn
  refine ⟨s2, rs, e2, fun t ht => ?_⟩
  obtain ⟨s3, more, e3, w3, h3, hm⟩ := hung_step H2 hr2 ht
  refine ⟨s3, more, e3, fun hf' => ?_⟩
  obtain ⟨S, still⟩ := hm hf'
  have B3 : Book b s3 := exec_book (op := .step t) (run_keeps (fun _ _ _ _ => exec_book) (exec_book B e1) e2) e3
  obtain ⟨s4, e4, ep4, hq⟩ := settled_quiet (r := r) (m := n) S B3 (w3.trans w2) (h3.trans h2) (stays_last hs)
  refine ⟨fun j => ?_, still, s4, e4, ep4, fun hk => ?_⟩
  · have := S.hung.aimed (w3.trans w2) (h3.trans h2) j
    rw [S.pos]
    push_cast at this
    rw [show (n : ℝ) + heldEdits held + 1 = 1 + (n + heldEdits held) by ring]
    exact this
  · obtain ⟨k1, k2⟩ := no_resize_size hk o
    exact (hq (by omega) (by rw [k1, k2]; exact hf)).still hr

/-- An anchor that was there for a while, step by step. -/
theorem Quiet.attached (hr : Sound R x r) (hx : 1 ≤ x.maximumRange) (Q : Quiet x s o n) {b : ℕ} (B : Book b s)
    {s1 s2 s3 s4 : State} {a m : ℕ} {q : Pt} {held : List HeldOp} {rs : List Res} {y : Res} (inside : o.Covers q)
    (inserted : exec r s (.insert q) = .ok (s1, .handle a)) (on : o.StaysHeld held) (kept : NoResize held)
    (dragged : run r s1 (held.map (HeldOp.call a)) = .ok (s2, rs)) (hm : m ≠ 0)
    (rested : exec r s2 (.step m) = .ok (s3, .more False))
    (released : exec r s3 (.release a) = .ok (s4, y)) (hn : n + heldEdits held < 65536) :
    Quiet x s4 (o.heldAll held) (n + heldEdits held) := by
  have B3 := exec_book (run_keeps (fun _ _ _ _ => exec_book) (exec_book B inserted) dragged) rested
  obtain ⟨st, c, s1, e1, H, hr1, hf, w1, h1, -⟩ := Q.insert hr hx inside
  rw [e1] at inserted
  obtain ⟨rfl, ea⟩ := Prod.mk.inj (Outcome.ok.inj inserted)
  cases ea
  obtain ⟨s2, rs, e2, H2, hr2, w2, h2⟩ := hung_drag H hr1 w1 h1 on hn
  rw [e2] at dragged
  obtain ⟨rfl, -⟩ := Prod.mk.inj (Outcome.ok.inj dragged)
  obtain ⟨s3, more, e3, w3, h3, hmm⟩ := hung_step H2 hr2 hm
  rw [e3] at rested
  obtain ⟨rfl, em⟩ := Prod.mk.inj (Outcome.ok.inj rested)
  obtain ⟨S, -⟩ := hmm (by
    rw [Res.more.inj em]
    exact not_false)
  obtain ⟨s4, e4, -, hq⟩ := settled_quiet (r := r) (m := n) S B3 (w3.trans w2) (h3.trans h2) (stays_last on)
  rw [e4] at released
  obtain ⟨rfl, -⟩ := Prod.mk.inj (Outcome.ok.inj released)
  obtain ⟨k1, k2⟩ := no_resize_size kept o
  exact hq (Nat.le_add_right _ _) (by rw [k1, k2]; exact hf)

theorem handled_quiet (hr : Sound R x r) (hx : 1 ≤ x.maximumRange) (H : Handled r x s o n) (hn : n < 65536) :
    Quiet x s o n ∧ ∃ b, Book b s := by
  induction H with
  | @new p w h b on => exact ⟨peaceful_quiet hr hx (.new on) hn, b, book_new p w h x b⟩
  | elsewhere before ran ih =>
    obtain ⟨⟨h1, h2, h3, h4, h5, h6, h7⟩, b, B⟩ := ih hn
    have B' := exec_book B ran
    obtain ⟨rfl, -⟩ := Prod.mk.inj (Outcome.ok.inj ran)
    exact ⟨⟨⟨h1.live, h1.count, h1.locks, h1.ends⟩, ⟨h2.ox, h2.oy, h2.sw, h2.sh, h2.dw, h2.dh, h2.cx, h2.cy, h2.vel, h2.doubles,
      h2.unequal, h2.springs⟩, h3, h4, h5, h6, h7⟩, b, B'⟩
  | call before on ran ih =>
    obtain ⟨Q0, b, B⟩ := ih (by omega)
    have B' := exec_book B ran
    obtain ⟨s', e, Q⟩ := Q0.call hr on hn
    rw [e] at ran
    obtain ⟨rfl, -⟩ := Prod.mk.inj (Outcome.ok.inj ran)
    exact ⟨Q, b, B'⟩
  | visit before gx gy grabbed on dragged some rested released ih =>
    obtain ⟨Q, b, B⟩ := ih (by omega)
    have B' := exec_book (exec_book (run_keeps (fun _ _ _ _ => exec_book) (exec_book B grabbed) dragged) rested) released
    obtain ⟨i, s1, e1, K, hr1, w1, h1, hj⟩ := Q.grab hr hx gx gy
    rw [e1] at grabbed
    obtain ⟨rfl, ea⟩ := Prod.mk.inj (Outcome.ok.inj grabbed)
    cases ea
    obtain ⟨s2, rs, e2, K2, w2, h2, hr2⟩ := kept_drag K hr1 w1 h1 on hn
    rw [e2] at dragged
    obtain ⟨rfl, -⟩ := Prod.mk.inj (Outcome.ok.inj dragged)
    obtain ⟨s3, more, e3, w3, h3, hm⟩ := kept_step K2 hr2 some
    rw [e3] at rested
    obtain ⟨rfl, em⟩ := Prod.mk.inj (Outcome.ok.inj rested)
    obtain ⟨P, -⟩ := hm (by
      rw [Res.more.inj em]
      exact not_false)
    obtain ⟨s4, e4, -, Q4⟩ := parked_quiet (r := r) P (w3.trans w2) (h3.trans h2) (stays_last on)
    rw [e4] at released
    obtain ⟨rfl, -⟩ := Prod.mk.inj (Outcome.ok.inj released)
    exact ⟨Q4, b, B'⟩
  | attach before inside inserted on kept dragged some rested released ih =>
    obtain ⟨Q, b, B⟩ := ih (by omega)
    exact ⟨Q.attached hr hx B inside inserted on kept dragged some rested released hn, b,
      exec_book (exec_book (run_keeps (fun _ _ _ _ => exec_book) (exec_book B inserted) dragged) rested) released⟩

variable (R)

/-- **C131.** In double precision, with coordinates and sizes of a screen and a maximum range of at least one pixel: a
program does what C115 allows, and besides inserts anchors into the model, each anywhere in its rectangle, drags them, steps
until `Step` answers false and releases them, without resizing in between. Then it may count on all that C115 promises.
An insertion moves nothing, and `Step` answers false until something is moved. Every call made while the anchor is there
returns. Once `Step` answers false every point is where it ought to be, to within 2^-18 pixels per call, and stays there;
so it does after the release. -/
theorem C131_inserted_in_doubles (hx : 1 ≤ x.maximumRange) (H : Handled R.rnd x s o n) (hn : n < 65536) :
    Dependable R.rnd s o n ∧ ∀ g, o.Covers g → ∃ a s1, Attachable R.rnd s o n g a s1 := by
  obtain ⟨Q, b, B⟩ := handled_quiet (R := R) (Or.inl rfl) hx H hn
  exact ⟨Q.dependable (R := R) (Or.inl rfl) hx, fun g hg => Q.attachable (R := R) (Or.inl rfl) hx B hg⟩

/-- **C131, overflow.** With spring constant and friction between 0.1 and 10 and maximum range between 1 and 1000 nothing
overflows: the same holds if the arithmetic yields whatever it likes once a result exceeds 2^500. -/
theorem C131_no_overflow (hr : ∀ x, |x| ≤ 2 ^ 500 → r x = R.rnd x) (k1 : 1 / 10 ≤ x.springConstant) (k2 : x.springConstant ≤ 10)
    (f1 : 1 / 10 ≤ x.friction) (f2 : x.friction ≤ 10) (x1 : 1 ≤ x.maximumRange) (x2 : x.maximumRange ≤ 1000)
    (H : Handled r x s o n) (hn : n < 65536) :
    Dependable r s o n ∧ ∀ g, o.Covers g → ∃ a s1, Attachable r s o n g a s1 := by
  have hS : Sound R x r := Or.inr ⟨hr, k1, k2, f1, f2, x1, x2⟩
  obtain ⟨Q, b, B⟩ := handled_quiet hS x1 H hn
  exact ⟨Q.dependable hS x1, fun g hg => Q.attachable hS x1 B hg⟩

/-- The hypotheses can be met: an anchor is inserted anywhere into a model that nobody holds and dragged by a sixteenth of a
pixel; the model comes to rest at once. -/
theorem nudge_attach (hx : 1 ≤ x.maximumRange) (H : Handled R.rnd x s o n) (hn : n < 4096) {g d : Pt} (hg : o.Covers g)
    (dx : |d.x| ≤ 1 / 16) (dy : |d.y| ≤ 1 / 16) (on : (o.held (.drag d)).OnScreen) :
    ∃ s', Handled R.rnd x s' (o.held (.drag d)) (n + 1) := by
  obtain ⟨Q, b, B⟩ := handled_quiet (R := R) (Or.inl rfl) hx H (by omega)
  obtain ⟨st, c, s1, e1, K, -, -, w1, h1, ep, ev, -⟩ := Q.insert (R := R) (Or.inl rfl) hx hg
  have hv : (1 : ℝ) + n ≤ 4096 := by exact_mod_cast (by omega : 1 + n ≤ 4096)
  obtain ⟨s2, e2, K2, w2, h2, ep2, ev2⟩ := K.drag R d (by linarith) on.placeX on.placeY
  have near : ∀ j, Near (3 / 16) (s2.pos j) (s2.targets j) := by
    intro j
    obtain ⟨c1, c2⟩ := K2.aimed (z := o.held (.drag d)) (w2.trans w1) (h2.trans h1) j
    have small : (1 + n + 1 : ℝ) / 262144 ≤ 1 / 32 := by linarith
    have small' : ((n : ℝ) + 1) / 262144 ≤ 1 / 64 := by linarith
    obtain ⟨q1, q2⟩ := Q.close j
    rw [ep2, ep]
    simp only [Spot.point, Spot.held] at q1 q2 c1 c2
    rw [abs_le] at q1 q2 c1 c2 dx dy
    constructor <;> rw [abs_le] <;> constructor <;> linarith
  obtain ⟨s3, e3, S⟩ := K2.calm (R := R) near (by rw [ep2, ep]; exact Q.rest.doubles) (by rw [ev2, ev]; exact Q.rest.vel)
    (t := 16) (by norm_num)
  have ran : run R.rnd s1 ([HeldOp.drag d].map (HeldOp.call s.nextHid)) = .ok (s2, [.none]) := by
    simp only [List.map_cons, List.map_nil, HeldOp.call, run, exec, e2, bind_ok]
  have B3 : Book b s3 := exec_book (op := .step 16) (run_keeps (fun _ _ _ _ => exec_book) (exec_book B e1) ran) e3
  obtain ⟨s4, e4, -⟩ := S.hung.release (r := R.rnd) B3
  refine ⟨s4, H.attach hg e1 (held := [.drag d]) (fun k => ?_) (fun w hh hm => ?_) ran (t := 16) (by norm_num) e3 e4⟩
  · rcases k with _ | k
    · exact Q.on
    · simpa [Spot.heldAll] using on
  · simp at hm

/-- Two anchors one after the other, with a resize in between. -/
example (hx : 1 ≤ x.maximumRange) : ∃ s, Handled R.rnd x s ⟨⟨1 / 16 - 1 / 32, 1 / 20⟩, 100, 50⟩ 3 := by
  have ok : ∀ (a c : ℝ) (m n : ℕ), |a| ≤ 1000 → |c| ≤ 1000 → 1 ≤ m → m ≤ 1000 → 1 ≤ n → n ≤ 1000 →
      Spot.OnScreen ⟨⟨a, c⟩, m, n⟩ := by
    intro a c m n ha hc m1 m2 n1 n2
    have m1' : (1 : ℝ) ≤ m := by exact_mod_cast m1
    have m2' : (m : ℝ) ≤ 1000 := by exact_mod_cast m2
    have n1' : (1 : ℝ) ≤ n := by exact_mod_cast n1
    have n2' : (n : ℝ) ≤ 1000 := by exact_mod_cast n2
    exact ⟨by show |a| ≤ _; linarith, by show |c| ≤ _; linarith, m1', by show (m : ℝ) ≤ _; linarith, double_nat (by omega), n1',
      by show (n : ℝ) ≤ _; linarith, double_nat (by omega)⟩
  have o0 := ok 0 0 300 200 (by norm_num) (by norm_num) (by norm_num) (by norm_num) (by norm_num) (by norm_num)
  have H0 : Handled R.rnd x (Rounded.new R.rnd ⟨0, 0⟩ (300 : ℕ) (200 : ℕ) x 0) ⟨⟨0, 0⟩, (300 : ℕ), (200 : ℕ)⟩ 0 := .new o0
  obtain ⟨s1, H1⟩ := nudge_attach R hx H0 (by decide) (g := ⟨151, 77⟩) (d := ⟨1 / 16, 1 / 20⟩)
    ⟨⟨by norm_num, by norm_num⟩, by norm_num, by norm_num⟩ (by norm_num [abs_le]) (by norm_num [abs_le])
    (ok (0 + 1 / 16) (0 + 1 / 20) 300 200 (by norm_num [abs_le]) (by norm_num [abs_le]) (by norm_num) (by norm_num) (by norm_num)
      (by norm_num))
  have o2 := ok (0 + 1 / 16) (0 + 1 / 20) 100 50 (by norm_num [abs_le]) (by norm_num [abs_le]) (by norm_num) (by norm_num)
    (by norm_num) (by norm_num)
  obtain ⟨s2, e2⟩ := (C131_inserted_in_doubles R hx H1 (by decide)).1.calls (.resize (100 : ℕ) (50 : ℕ)) o2 (by decide)
  have H2 := H1.call (op := .resize (100 : ℕ) (50 : ℕ)) o2 e2
  obtain ⟨s3, H3⟩ := nudge_attach R hx H2 (by decide) (g := ⟨1, 50⟩) (d := ⟨-(1 / 32), 0⟩)
    ⟨⟨by norm_num [Spot.after, Spot.held], by norm_num [Spot.after, Spot.held]⟩, by norm_num [Spot.after, Spot.held],
      by norm_num [Spot.after, Spot.held]⟩ (by norm_num [abs_le]) (by norm_num)
    (ok (0 + 1 / 16 + -(1 / 32)) (0 + 1 / 20 + 0) 100 50 (by norm_num [abs_le]) (by norm_num [abs_le]) (by norm_num) (by norm_num)
      (by norm_num) (by norm_num))
  refine ⟨s3, ?_⟩
  convert H3 using 1
  · simp only [Spot.held, Spot.after]
    norm_num
  · rfl

end

end Verif.Props
