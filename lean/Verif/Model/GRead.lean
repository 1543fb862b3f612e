import Verif.Model.Traits
import Verif.Model.GObject
import Verif.Model.GWobbly

/-!
# `animation-glib`: the functions that read an object

`animation-glib/transform/transform.cpp`, `animation-glib/grid/grid.cpp`, the reading functions of
`animation-glib/wobbly/model.cpp`, and `animation-glib/vector4d-internal.h`.

Results are written through pointers the caller passes. Here such a pointer is an `Option`: `none` for
`NULL`, otherwise what it points to; the result is what it points to afterwards.
-/

namespace Verif.GRead

open Traits

noncomputable section

/-- The `Dimension` trait for `AnimationVector4D` (animation-glib/vector4d-internal.h 30-95). -/
def gvector4 : Access Vec4 where
  dims := 4
  get
    | 0, p => p.x
    | 1, p => p.y
    | 2, p => p.z
    | 3, p => p.w
    | _, _ => 0
  set
    | 0, v, p => { p with x := v }
    | 1, v, p => { p with y := v }
    | 2, v, p => { p with z := v }
    | 3, v, p => { p with w := v }
    | _, _, p => p

/-! ## Transform animations -/

/-- `glm::value_ptr` (trusted): the entries column by column. -/
def valuePtr (M : Mat4) : Fin 16 → ℝ :=
  fun k => M (Fin.ofNat 4 (k.val % 4)) (Fin.ofNat 4 (k.val / 4))

/-- `animation_transform_animation_matrix` (transform.cpp 60-77) and `Matrix` of the three classes
(bounce.cpp 191-195, glide.cpp 207-211, zoom.cpp 192-196). -/
def matrix {P : Type} (a : Anim P (Option Mat4)) : Outcome (Fin 16 → ℝ) :=
  match a.out with
  | some M => .ok (valuePtr M)
  | none => .nonfinite

/-- `animation_transform_animation_extremes` (transform.cpp 79-113). -/
def extremes {P : Type} (a : Anim P (Option Mat4)) (corners : Option (Fin 4 → Pt))
    (out : Option (Fin 4 → Vec4)) : Outcome (Option (Fin 4 → Vec4)) :=
  match corners, out with
  | some c, some o =>
    match a.extremes c with
    | some e => .ok (some fun i => assign gvector4 vector4 (o i) (e i))
    | none => .nonfinite
  | _, o => .ok o

/-- `animation_transform_animation_progress` (transform.cpp 115-122) and
`animation_grid_animation_progress` (grid.cpp 152-159). -/
def progress {P O : Type} (a : Anim P O) : XR := a.progress

/-! ## Grid animations -/

/-- A grid animation is a magic lamp. -/
abbrev Lamp := Anim MagicLamp.Params (Outcome MagicLamp.Grid)

/-- `animation_grid_animation_deform_uv_to_model_space` (grid.cpp 60-86): the output is checked, `uv` is
dereferenced unchecked. -/
def deformUV (a : Lamp) (uv : Option Pt) (out : Option MagicLamp.Vertex) :
    Outcome (Option MagicLamp.Vertex) :=
  match out with
  | none => .ok none
  | some _ =>
    match uv with
    | none => .ub
    | some p => a.out.bind fun g =>
        (MagicLamp.interpolate p a.params.gw a.params.gh g).bind fun v => .ok (some v)

/-- `animation_grid_animation_resolution` (grid.cpp 88-112). -/
def resolution (a : Lamp) (out : Option Pt) : Option Pt :=
  match out with
  | none => none
  | some _ => some ⟨a.params.gw, a.params.gh⟩

/-- An `AnimationVector4D` with possibly non-finite coordinates. -/
structure XVec4 where
  x : XR
  y : XR
  z : XR
  w : XR

/-- The corner as built by the magic lamp's `Extremes` (magiclamp.cpp 251-260). -/
def corner (v : MagicLamp.Vertex) : XVec4 := ⟨v.x, v.y, .fin 0, .fin 1⟩

/-- `animation_grid_animation_extremes` (grid.cpp 114-150); the corners passed in are not used. -/
def gridExtremes (a : Lamp) (corners : Option (Fin 4 → Pt)) (out : Option (Fin 4 → XVec4)) :
    Outcome (Option (Fin 4 → XVec4)) :=
  match corners, out with
  | some _, some _ => a.out.bind fun g =>
      (MagicLamp.extremes a.params.gw a.params.gh g).bind fun e =>
      .ok (some ![corner e.1, corner e.2.1, corner e.2.2.1, corner e.2.2.2])
  | _, o => .ok o

/-! ## Wobbly -/

/-- `animation_wobbly_model_deform_texcoords` (model.cpp 145-174). -/
def deformTexcoords (g : GWobbly.GState) (uv : Pt) (out : Option Pt) : Outcome (Option Pt) :=
  match g.model with
  | none => .ub
  | some s =>
    match out with
    | none => .ok none
    | some _ => .ok (some (Wobbly.deformTexcoords s.pos uv))

/-- `animation_wobbly_model_query_extremes` (model.cpp 176-209). -/
def queryExtremes (g : GWobbly.GState) (tl tr bl br : Option Pt) :
    Outcome (Option Pt × Option Pt × Option Pt × Option Pt) :=
  match g.model with
  | none => .ub
  | some s =>
    let e := Wobbly.extremes s.pos
    .ok (tl.map fun _ => e.1, tr.map fun _ => e.2.1, bl.map fun _ => e.2.2.1, br.map fun _ => e.2.2.2)

end

end Verif.GRead
