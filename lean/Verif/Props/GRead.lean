import Verif.Model.GRead
import Verif.Props.Transforms
import Verif.Props.LampGrid
import Verif.Props.WobblyMesh

/-! # Reading functions of the GObject layer (C76, C77) -/

namespace Verif.Props

open GRead Spec XR

noncomputable section

/-- A corner `(x, y)` drawn with the sixteen numbers of a column-major matrix, as OpenGL does it. -/
def drawn (m : Fin 16 → ℝ) (p : Pt) : Vec4 :=
  ⟨m 0 * p.x + m 4 * p.y + m 12, m 1 * p.x + m 5 * p.y + m 13, m 2 * p.x + m 6 * p.y + m 14,
   m 3 * p.x + m 7 * p.y + m 15⟩

/-- **C76.** The sixteen numbers of `animation_transform_animation_matrix` are a column-major matrix that
takes the given corners to exactly what `animation_transform_animation_extremes` writes, in the same
order, whatever was in the output before. -/
theorem C76_matrix_extremes {P : Type} (a : Anim P (Option Mat4)) (m : Fin 16 → ℝ)
    (h : matrix a = .ok m) (c : Fin 4 → Pt) (o : Fin 4 → Vec4) :
    extremes a (some c) (some o) = .ok (some fun i => drawn m (c i)) := by
  rcases ho : a.out with _ | M
  · simp [matrix, ho] at h
  have hm : m = valuePtr M := by
    simp only [matrix, ho, Outcome.ok.injEq] at h
    exact h.symm
  subst hm
  simp only [extremes, Anim.extremes, ho, Option.map_some, Outcome.ok.injEq, Option.some.injEq]
  funext i
  have e : Traits.assign gvector4 Traits.vector4 (o i) (transformPoint (c i) M) =
      transformPoint (c i) M := rfl
  have e' : drawn (valuePtr M) (c i) =
      ⟨M 0 0 * (c i).x + M 0 1 * (c i).y + M 0 3, M 1 0 * (c i).x + M 1 1 * (c i).y + M 1 3,
       M 2 0 * (c i).x + M 2 1 * (c i).y + M 2 3, M 3 0 * (c i).x + M 3 1 * (c i).y + M 3 3⟩ := rfl
  rw [e, e']
  simp [transformPoint, Matrix.mulVec, dotProduct, Fin.sum_univ_four]

example : ∃ m, matrix (⟨(), some 1, fin 0, linear 5⟩ : Anim Unit (Option Mat4)) = .ok m := ⟨_, rfl⟩

/-- **C76.** For a magic lamp the four unit corners deform to exactly the four extremes, which are flat
(depth 0, `w` 1), and neither depends on the corners passed in or on the old content of the outputs. -/
theorem C76_lamp_corners (a : Lamp) (g : MagicLamp.Grid) (V : ℕ → ℕ → Pt) (ha : a.out = .ok g)
    (hw : 2 ≤ a.params.gw) (hh : 2 ≤ a.params.gh)
    (h : HoldsGrid g a.params.gw a.params.gh fun i j => .ofPt (V i j)) (c : Fin 4 → Pt)
    (o : Fin 4 → XVec4) (d : MagicLamp.Vertex) :
    ∃ q : Fin 4 → MagicLamp.Vertex,
      gridExtremes a (some c) (some o) = .ok (some fun i => ⟨(q i).x, (q i).y, fin 0, fin 1⟩) ∧
      deformUV a (some ⟨0, 0⟩) (some d) = .ok (some (q 0)) ∧
      deformUV a (some ⟨1, 0⟩) (some d) = .ok (some (q 1)) ∧
      deformUV a (some ⟨0, 1⟩) (some d) = .ok (some (q 2)) ∧
      deformUV a (some ⟨1, 1⟩) (some d) = .ok (some (q 3)) := by
  obtain ⟨tl, tr, bl, br, e, e1, e2, e3, e4⟩ := C25_extremes_corners g _ _ V hw hh h
  refine ⟨![tl, tr, bl, br], ?_, ?_, ?_, ?_, ?_⟩
  · simp only [gridExtremes, ha, Outcome.bind, e, Outcome.ok.injEq, Option.some.injEq]
    funext i
    fin_cases i <;> rfl
  all_goals simp only [deformUV, Outcome.bind, *]; rfl

/-- A 2×2 magic lamp as in `grid22`. -/
def lamp22 : Lamp :=
  ⟨⟨⟨⟨0, 0⟩, ⟨10, 10⟩⟩, ⟨⟨0, 20⟩, ⟨5, 30⟩⟩, 2, 2, 1, 1, 0.5, 1⟩,
   .ok [.ofPt ⟨0, 0⟩, .ofPt ⟨10, 1⟩, .ofPt ⟨2, 7⟩, .ofPt ⟨12, 9⟩], fin 0, linear 5⟩

example : ∃ V : ℕ → ℕ → Pt, HoldsGrid [.ofPt ⟨0, 0⟩, .ofPt ⟨10, 1⟩, .ofPt ⟨2, 7⟩, .ofPt ⟨12, 9⟩]
    lamp22.params.gw lamp22.params.gh fun i j => .ofPt (V i j) := ⟨_, grid22⟩

/-- **C76.** The resolution written gives the vertices: dividing the unit square into that many columns
and rows and deforming each lattice point gives exactly the vertices of the grid. -/
theorem C76_resolution (a : Lamp) (g : MagicLamp.Grid) (V : ℕ → ℕ → Pt) (ha : a.out = .ok g)
    (hw : 2 ≤ a.params.gw) (hh : 2 ≤ a.params.gh)
    (h : HoldsGrid g a.params.gw a.params.gh fun i j => .ofPt (V i j)) (d : Pt) (d' : MagicLamp.Vertex) :
    ∃ n : Pt, resolution a (some d) = some n ∧ n.x * n.y = g.length ∧
      ∀ i j : ℕ, (i : ℝ) < n.x → (j : ℝ) < n.y →
        deformUV a (some ⟨i / (n.x - 1), j / (n.y - 1)⟩) (some d') = .ok (some (.ofPt (V i j))) := by
  refine ⟨_, rfl, ?_, fun i j hi hj => ?_⟩
  · rw [h.1]; push_cast; rfl
  · have hi' : i < a.params.gw := Nat.cast_lt.1 (show (i : ℝ) < (a.params.gw : ℝ) from hi)
    have hj' : j < a.params.gh := Nat.cast_lt.1 (show (j : ℝ) < (a.params.gh : ℝ) from hj)
    have k := C22_uv_lattice g _ _ V hw hh h i j hi' hj'
    simp only [deformUV, ha, Outcome.bind]
    rw [k]

/-- **C76.** What the wobbly reading functions write is determined by the model alone: each extreme asked
for is written, whichever others are asked for and whatever was there before; and every deformed unit
coordinate is inside the box of the extremes up to half a pixel. -/
theorem C76_wobbly (g : GWobbly.GState) (s : Wobbly.State) (hs : g.model = some s)
    (hb : ∀ i, |(s.pos i).x| ≤ maxDouble ∧ |(s.pos i).y| ≤ maxDouble) :
    ∃ l r t b : ℝ,
      (∀ tl tr bl br : Option Pt, queryExtremes g tl tr bl br =
        .ok (tl.map fun _ => ⟨l, t⟩, tr.map fun _ => ⟨r, t⟩, bl.map fun _ => ⟨l, b⟩,
          br.map fun _ => ⟨r, b⟩)) ∧
      ∀ (uv d : Pt), (0 ≤ uv.x ∧ uv.x ≤ 1) → (0 ≤ uv.y ∧ uv.y ≤ 1) →
        ∃ q : Pt, deformTexcoords g uv (some d) = .ok (some q) ∧
          l - 1 / 2 ≤ q.x ∧ q.x ≤ r + 1 / 2 ∧ t - 1 / 2 ≤ q.y ∧ q.y ≤ b + 1 / 2 := by
  obtain ⟨l, r, t, b, e, _⟩ := C57_extremes s.pos hb
  refine ⟨l, r, t, b, fun tl tr bl br => ?_, fun uv d hu hv => ?_⟩
  · simp only [queryExtremes, hs, e]
  · have k := C57_within_half_pixel s.pos hb _ (C56_in_hull s.pos uv hu hv)
    rw [e] at k
    exact ⟨_, by simp only [deformTexcoords, hs], k⟩

example (lastId : ℕ) (i : Wobbly.Idx) :
    |((Wobbly.State.new ⟨0, 0⟩ 1 1 ⟨8, 3, 500⟩ lastId).pos i).x| ≤ maxDouble ∧
    |((Wobbly.State.new ⟨0, 0⟩ 1 1 ⟨8, 3, 500⟩ lastId).pos i).y| ≤ maxDouble := by
  have h := Wobbly.maxDouble_one
  have aux : ∀ n : ℕ, n ≤ 3 → |(0 : ℝ) + n * (1 / (4 - 1))| ≤ maxDouble := by
    intro n hn
    have : (n : ℝ) ≤ 3 := by exact_mod_cast hn
    rw [abs_of_nonneg (by positivity)]
    linarith
  exact ⟨aux _ (by show i.val % 4 ≤ 3; omega), aux _ (by show i.val / 4 ≤ 3; omega)⟩

/-- **C76.** The progress functions show the progress the animation has: right after construction whatever the
program's stepper gave for no time at all, also outside 0 to 1, and after a step a value that is 0 or 1 exactly when
`Step` answered false. -/
theorem C76_progress {P O S : Type} (K : AnimClass P O S) (q : P) (o : O) (s : Stepper) (a : Anim P O) (ms : ℕ) :
    progress (K.new q o s).1 = s.value 0 ∧
    (¬ (K.step a ms).2 ↔ progress (K.step a ms).1 = fin 0 ∨ progress (K.step a ms).1 = fin 1) := by
  refine ⟨rfl, ?_⟩
  show ¬ (_ ∧ _) ↔ _
  rw [not_and_or, not_not, not_not]
  rfl

/-- A stepper that overshoots at the start is shown as such. -/
example {P O S : Type} (K : AnimClass P O S) (q : P) (o : O) :
    progress (K.new q o ⟨Unit, (), fun _ _ => (fin 2, ())⟩).1 = fin 2 := rfl

/-- **C77 (partial).** A `NULL` output (or `NULL` corners) is refused: nothing is written and nothing is
read. Missing: a `NULL` coordinate, for which the claim is false. -/
theorem C77_null_output_partial {P : Type} (a : Anim P (Option Mat4)) (l : Lamp) (g : GWobbly.GState)
    (hg : g.model.isSome) (c : Option (Fin 4 → Pt)) (o : Option (Fin 4 → Vec4))
    (o' : Option (Fin 4 → XVec4)) (uv : Option Pt) (p : Pt) :
    extremes a none o = .ok o ∧ extremes a c none = .ok none ∧
    gridExtremes l none o' = .ok o' ∧ gridExtremes l c none = .ok none ∧
    deformUV l uv none = .ok none ∧ resolution l none = none ∧
    deformTexcoords g p none = .ok none ∧
    queryExtremes g none none none none = .ok (none, none, none, none) := by
  obtain ⟨s, hs⟩ := Option.isSome_iff_exists.1 hg
  refine ⟨rfl, ?_, rfl, ?_, rfl, rfl, ?_, ?_⟩
  · cases c <;> rfl
  · cases c <;> rfl
  · simp only [deformTexcoords, hs]
  · simp only [queryExtremes, hs, Option.map_none]

/-- **C77 (negation).** A `NULL` unit coordinate is dereferenced, for every magic lamp. -/
theorem C77_null_uv (l : Lamp) (d : MagicLamp.Vertex) : deformUV l none (some d) = .ub := rfl

end

end Verif.Props
