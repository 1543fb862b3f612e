import Verif.Props.WobblyMotion
import Verif.Props.WobblyMesh

/-! # What a resize does to a moving model (C82) -/

namespace Verif.Props

open Wobbly Spec Outcome

noncomputable section

/-- The point that is `fx` times as far from `o` horizontally, and `fy` times as far vertically. -/
def stretchedFrom (o : Pt) (fx fy : ℝ) (p : Pt) : Pt :=
  ⟨o.x + fx * (p.x - o.x), o.y + fy * (p.y - o.y)⟩

/-- The place that `MoveModelTo` regards as the position of the model: moving it to `q` moves every mesh
point by `q - o`. -/
def PositionedAt (s : State) (o : Pt) : Prop :=
  ∀ q, ∃ s', s.exec (.moveTo q) = .ok (s', .none) ∧ ∀ i, s'.pos i = s.pos i + (q - o)

theorem deform_stretched (m : Mesh) (o : Pt) (fx fy : ℝ) (uv : Pt) :
    deformTexcoords (fun i => stretchedFrom o fx fy (m i)) uv =
      stretchedFrom o fx fy (deformTexcoords m uv) := by
  have h := weight_sum uv
  have aux : ∀ (c : Idx → ℝ) (a f : ℝ), ∑ i, weight uv i * (a + f * (c i - a)) =
      a + f * (∑ i, weight uv i * c i - a) := by
    intro c a f
    have : ∀ i, weight uv i * (a + f * (c i - a)) = weight uv i * (a - f * a) + f * (weight uv i * c i) := by
      intro i; ring
    simp only [this, Finset.sum_add_distrib, ← Finset.sum_mul, ← Finset.mul_sum, h]
    ring
  rw [deform_eq, deform_eq]
  simp only [stretchedFrom, aux]

/-- **C82.** Resizing a model, moving or not, with or without anchors, stretches everything that is shown
about the position of the model by the ratios of the sizes: mesh points, deformed unit coordinates and
inserted anchors. The desired lengths of the springs are stretched too. Velocities and pinned points stay as they are. -/
theorem C82_resize_stretches {s s' : State} {w h : ℝ} {r : Res} (hn : ¬ (w = s.width ∧ h = s.height))
    (e : s.exec (.resize w h) = .ok (s', r)) :
    ∃ o, PositionedAt s o ∧
      (∀ i, s'.pos i = stretchedFrom o (w / s.width) (h / s.height) (s.pos i)) ∧
      (∀ uv, deformTexcoords s'.pos uv =
        stretchedFrom o (w / s.width) (h / s.height) (deformTexcoords s.pos uv)) ∧
      (∀ a, anchorData s'.live a =
        (anchorData s.live a).map (stretchedFrom o (w / s.width) (h / s.height))) ∧
      (List.Forall₂ (fun x x' : Spring => x'.a = x.a ∧ x'.b = x.b ∧
        x'.desired = ⟨w / s.width * x.desired.x, h / s.height * x.desired.y⟩) s.springs s'.springs) ∧
      s'.vel = s.vel ∧ (∀ i, heldBy s' i = heldBy s i) ∧ s'.width = w ∧ s'.height = h := by
  simp only [State.exec, State.resize] at e
  split_ifs at e with h1 h2 h3
  · exfalso
    rw [Pt.equals_iff] at h3
    push_neg at h2
    refine hn ⟨?_, ?_⟩
    · have := congrArg Pt.x h3
      simpa [div_eq_one_iff_eq h2.1] using this
    · have := congrArg Pt.y h3
      simpa [div_eq_one_iff_eq h2.2] using this
  · obtain ⟨⟨s1, o⟩, et, e'⟩ := bind_eq_ok.1 e
    simp only [Outcome.ok.injEq, Prod.mk.injEq] at e'
    obtain ⟨rfl, -⟩ := e'
    have hs1 : s1 = s ∨ s1 = s.spend := by
      unfold State.targetPosition at et
      split_ifs at et
      · left
        simp only [Outcome.ok.injEq, Prod.mk.injEq] at et
        exact et.1.symm
      · right
        obtain ⟨_, _, e3⟩ := bind_eq_ok.1 et
        simp only [Outcome.ok.injEq, Prod.mk.injEq] at e3
        exact e3.1.symm
    have hpos : s1.pos = s.pos := by rcases hs1 with rfl | rfl <;> rfl
    have hlive : s1.live = s.live := by rcases hs1 with rfl | rfl <;> rfl
    have hspr : s1.springs = s.springs := by rcases hs1 with rfl | rfl <;> rfl
    have hvel : s1.vel = s.vel := by rcases hs1 with rfl | rfl <;> rfl
    have hres : ∀ p : Pt, rescale ⟨w / s.width, h / s.height⟩ o p =
        stretchedFrom o (w / s.width) (h / s.height) p := by
      intro p
      ext <;> simp [rescale, stretchedFrom, Pt.pscale] <;> ring
    refine ⟨o, fun q => ?_, fun i => ?_, fun uv => ?_, fun a => ?_, ?_, hvel, fun i => ?_, rfl, rfl⟩
    · refine ⟨_, by simp only [State.exec, State.moveTo, et]; rfl, fun i => ?_⟩
      simp only [State.moveBy, hpos]
    · rw [← hpos]; exact hres _
    · rw [← deform_stretched, ← hpos]
      simp only [hres]
    · rw [← hlive]
      exact anchorData_map_kind s1.live (fun _ k => k.scale ⟨w / s.width, h / s.height⟩ o)
        (fun _ => stretchedFrom o (w / s.width) (h / s.height))
        (fun _ k => by cases k <;> simp only [Kind.scale, hres]) a
    · rw [← hspr]
      simp only [List.forall₂_map_right_iff, List.forall₂_same]
      intro x _
      refine ⟨rfl, rfl, ?_⟩
      ext <;> simp [Spring.scaleLength, Pt.pscale, mul_comm]
    · unfold heldBy
      rw [← hlive, List.countP_map]
      congr 1
      funext a
      cases ha : a.kind <;> simp [ha, Kind.scale]

example : ∃ s' r, (State.new ⟨0, 0⟩ 300 300 defaultSettings 0).exec (.resize 600 450) = .ok (s', r) ∧
    ¬ ((600 : ℝ) = (State.new ⟨0, 0⟩ 300 300 defaultSettings 0).width ∧
      (450 : ℝ) = (State.new ⟨0, 0⟩ 300 300 defaultSettings 0).height) := by
  have hq : RestsAt ⟨0, 0⟩ (State.new ⟨0, 0⟩ 300 300 defaultSettings 0) := by
    have := (new_atRest ⟨0, 0⟩ 300 300 defaultSettings 0).restsAt
    have h0 : (State.new ⟨0, 0⟩ 300 300 defaultSettings 0).pos 0 = ⟨0, 0⟩ := positionArray_zero _ _
    rwa [h0] at this
  obtain ⟨s', rs', e, _⟩ := C43_rest_kept (p := ⟨0, 0⟩) (w := 300) (h := 300) (x := defaultSettings)
    (b := 0) (ops := []) rfl trivial rfl hq (by norm_num [State.new]) (by norm_num [State.new])
    (sizes := []) (by simp) (w' := 600) (h' := 450) (by norm_num) (by norm_num)
  simp only [List.nil_append, List.map_cons, List.map_nil, State.run] at e
  obtain ⟨⟨a, r⟩, e1, _⟩ := bind_eq_ok.1 e
  exact ⟨a, r, e1, by norm_num [State.new]⟩

end

end Verif.Props
