import Verif.Model.Numeric

/-!
# Memory behind boxed values and default arguments

`animation-glib/vector.cpp`, `vector4d.cpp` and `box.cpp`: the structures `AnimationVector`, `AnimationVector4D` and
`AnimationBox` as boxed types; what `g_object_new`, `g_object_set` and `g_object_get` do with pointers to them; what the
constructors of the animations allocate for arguments that are `NULL`; and the counts of references on animations and
linear steppers.

All other properties are left out: `Model/GObject.lean` and `Model/GStepper.lean` have them. Blocks of memory are numbered
in the order of their allocation and a number is never used again.
-/

namespace Verif.GMem

noncomputable section

/-- The boxed types. -/
inductive Kind where
  | vector
  | vector4d
  | box
deriving DecidableEq

/-- An `AnimationVector` (animation-glib/vector.h 27-30), `AnimationVector4D` (vector4d.h 27-33) or `AnimationBox`
(box.h 30-33: first the top left corner, then the bottom right one). -/
inductive Boxed where
  | vector (x y : XR)
  | vector4d (x y z w : XR)
  | box (left top right bottom : XR)

/-- Which of them it is. -/
def Boxed.kind : Boxed → Kind
  | .vector .. => .vector
  | .vector4d .. => .vector4d
  | .box .. => .box

/-- The blocks allocated so far; `none` is a block that was freed. -/
abbrev Heap := List (Option Boxed)

namespace Heap

/-- `g_new0` and an assignment to what it returns. -/
def alloc (m : Heap) (v : Boxed) : Heap × ℕ := (m ++ [some v], m.length)

/-- Reading a structure through a pointer of type `k`. -/
def read (m : Heap) (k : Kind) (a : ℕ) : Outcome Boxed :=
  match m[a]? with
  | some (some v) => if v.kind = k then .ok v else .ub
  | _ => .ub

/-- Overwriting all members of a structure. -/
def write (m : Heap) (a : ℕ) (v : Boxed) : Outcome Heap := (m.read v.kind a).bind fun _ => .ok (m.set a (some v))

/-- `animation_vector_copy` (vector.cpp 26-35), `animation_vector4d_copy` (vector4d.cpp 25-34) and `animation_box_copy`
(box.cpp 26-35). -/
def copy (m : Heap) (k : Kind) (a : ℕ) : Outcome (Heap × ℕ) := (m.read k a).bind fun v => .ok (m.alloc v)

/-- `g_free`. -/
def free (m : Heap) (a : ℕ) : Outcome Heap :=
  match m[a]? with
  | some (some _) => .ok (m.set a none)
  | _ => .ub

end Heap

/-- A `GValue` of a boxed type: a pointer to a copy that it owns. -/
abbrev Value := Option ℕ

/-- `g_value_set_boxed` on an empty value, and how `g_object_new` and `g_object_set` turn an argument into a value. -/
def collect (m : Heap) (k : Kind) : Option ℕ → Outcome (Heap × Value)
  | none => .ok (m, none)
  | some a => (m.copy k a).bind fun r => .ok (r.1, some r.2)

/-- `g_value_unset`. -/
def unset (m : Heap) : Value → Outcome Heap
  | none => .ok m
  | some a => m.free a

/-- A property of a boxed type. -/
structure Slot where
  kind : Kind
  /-- What the native object gets for `NULL` at construction; `none` if the pointer is dereferenced. -/
  usual : Option Boxed
  /-- What the constructor allocates for `NULL`. -/
  fill : Option Boxed
  /-- `G_PARAM_READABLE`, and there is a getter function. -/
  readable : Bool
  /-- Not `G_PARAM_CONSTRUCT_ONLY`. -/
  writable : Bool
  /-- Whether `set_property` ignores `NULL`; otherwise it dereferences it. -/
  nullOk : Bool

/-- `animation_box_from_gvalue` for `NULL` (constructor-helpers.h 84-90). -/
def unitBox : Boxed := .box (.fin 0) (.fin 0) (.fin 1) (.fin 1)

/-- A property that is a box. -/
def boxSlot (readable writable : Bool) : Slot := ⟨.box, some unitBox, none, readable, writable, true⟩

/-- The classes. -/
inductive Class where
  | bounce
  | zoom
  | glide
  | lamp
  | wobbly
deriving DecidableEq

/-- The boxed properties: bounce.cpp 167-169, 198-205 and 304-310; zoom.cpp 144-153, 172-187 and 251-263; glide.cpp 180-182,
220-222 and 352-357; magiclamp.cpp 203-216, 248-263, 295-308 and 362-381; wobbly/model.cpp 321-326 and 428-440. The wobbly
model has no constructor of this kind: it keeps what `set_property` is given (371-383), which comes to the same. The native
magic lamp keeps the resolution as integers; it cannot be read. -/
def Class.slots : Class → List Slot
  | .bounce => [boxSlot true false]
  | .zoom => [boxSlot true true, boxSlot true false]
  | .glide => [boxSlot false false]
  | .lamp => [boxSlot true true, boxSlot true false,
      ⟨.vector, none, some (.vector (.fin 10) (.fin 10)), false, false, true⟩]
  | .wobbly => [⟨.vector, none, none, false, true, false⟩, ⟨.vector, none, none, false, true, false⟩]

/-- Whether there is a `stepper` property. -/
def Class.stepped : Class → Bool
  | .wobbly => false
  | _ => true

/-- An object: its class, the references on it, and what the native object has for the boxed properties. It is finalised,
and the native object deleted, when there are no references (transform.cpp 165-176, grid.cpp 198-209, wobbly/model.cpp
358-369). -/
structure Obj where
  cls : Class
  refs : ℕ
  vals : List Boxed

/-- All memory: boxed structures, references on linear steppers, objects. -/
structure World where
  heap : Heap
  steppers : List ℕ
  objects : List Obj

/-- No memory yet. -/
def World.empty : World := ⟨[], [], []⟩

/-- The calls. -/
inductive Op where
  /-- The program allocates a structure. -/
  | make (v : Boxed)
  /-- The program reads a structure of its own. -/
  | look (k : Kind) (a : ℕ)
  /-- The program overwrites a structure of its own. -/
  | put (a : ℕ) (v : Boxed)
  /-- `g_boxed_copy`. -/
  | copy (k : Kind) (a : ℕ)
  /-- `g_boxed_free`. -/
  | free (a : ℕ)
  /-- `animation_linear_stepper_new`. -/
  | newStepper
  /-- `g_object_ref` on a stepper. -/
  | refStepper (r : ℕ)
  /-- `g_object_unref` on a stepper. -/
  | unrefStepper (r : ℕ)
  /-- `g_object_new`, or `animation_*_new`, with pointers for the boxed properties and for the stepper. -/
  | new (c : Class) (args : List (Option ℕ)) (stepper : Option ℕ)
  /-- `g_object_set` with a pointer. -/
  | set (j k : ℕ) (a : Option ℕ)
  /-- `g_object_get`. -/
  | get (j k : ℕ)
  /-- A setter function, which takes the structure by value (`animation_zoom_animation_set_from`, ...). -/
  | assign (j k : ℕ) (v : Boxed)
  /-- A getter function, which writes to a structure of the caller (`animation_zoom_animation_get_from`, ...). -/
  | fetch (j k : ℕ) (a : Option ℕ)
  /-- `g_object_ref` on an object. -/
  | ref (j : ℕ)
  /-- `g_object_unref` on an object. -/
  | unref (j : ℕ)

/-- What a call returns. -/
inductive Res where
  | none
  | block (a : ℕ)
  | value (v : Boxed)
  | stepper (r : ℕ)
  | object (j : ℕ)

/-- The arguments become values, in order. -/
def collectAll (m : Heap) : List Slot → List (Option ℕ) → Outcome (Heap × List Value)
  | [], _ => .ok (m, [])
  | s :: ss, as =>
    (collect m s.kind as.head?.join).bind fun r =>
      (collectAll r.1 ss as.tail).bind fun rs => .ok (rs.1, r.2 :: rs.2)

/-- `replace_named_pointer_prop_in_construct_params_if_null` (constructor-helpers.cpp 132-155) for boxed properties
(magiclamp.cpp 295-308): a structure is allocated and the value set to it, which makes a copy. -/
def fillAll (m : Heap) : List Slot → List Value → Outcome (Heap × List Value)
  | s :: ss, v :: vs =>
    match v, s.fill with
    | none, some f =>
      let r := m.alloc f
      (collect r.1 s.kind (some r.2)).bind fun q =>
        (fillAll q.1 ss vs).bind fun rs => .ok (rs.1, q.2 :: rs.2)
    | _, _ => (fillAll m ss vs).bind fun rs => .ok (rs.1, v :: rs.2)
  | _, vs => .ok (m, vs)

/-- `animation_box_from_gvalue` and alike (constructor-helpers.h 82-117): what the native object is made with. -/
def readAll (m : Heap) : List Slot → List Value → Outcome (List Boxed)
  | s :: ss, v :: vs =>
    (match v, s.usual with
      | some a, _ => m.read s.kind a
      | none, some u => .ok u
      | none, none => .ub).bind fun x =>
    (readAll m ss vs).bind fun xs => .ok (x :: xs)
  | _, _ => .ok []

/-- `object_set_property` in GLib: the value is converted to a new one, `set_property` is called, and that one is unset.
The result is what `set_property` found. -/
def setOne (m : Heap) (s : Slot) (v : Value) : Outcome (Heap × Option Boxed) :=
  (collect m s.kind v).bind fun r =>
    (match r.2 with
      | some a => (r.1.read s.kind a).bind fun x => .ok (some x)
      | none => if s.nullOk then .ok none else .ub).bind fun x =>
    (unset r.1 r.2).bind fun m' => .ok (m', x)

/-- The construct properties are set; a property that can be written gets the value once more. -/
def setAll (m : Heap) : List Slot → List Value → List Boxed → Outcome (Heap × List Boxed)
  | s :: ss, v :: vs, x :: xs =>
    (setOne m s v).bind fun r =>
      (setAll r.1 ss vs xs).bind fun rs =>
        .ok (rs.1, (if s.writable then r.2.getD x else x) :: rs.2)
  | _, _, xs => .ok (m, xs)

/-- The values are unset at the end of `g_object_new`. -/
def unsetAll (m : Heap) : List Value → Outcome Heap
  | [] => .ok m
  | v :: vs => (unset m v).bind fun m' => unsetAll m' vs

/-- `g_object_ref`. -/
def addRef (l : List ℕ) (r : ℕ) : Outcome (List ℕ) :=
  match l[r]? with
  | some n => if n = 0 then .ub else .ok (l.set r (n + 1))
  | none => .ub

/-- `g_object_unref`. -/
def dropRef (l : List ℕ) (r : ℕ) : Outcome (List ℕ) :=
  match l[r]? with
  | some n => if n = 0 then .ub else .ok (l.set r (n - 1))
  | none => .ub

/-- The stepper that an animation is made with: the given one, on which the value holds a reference, or a new one
(bounce.cpp 219-226, zoom.cpp, glide.cpp and magiclamp.cpp alike), on which the value holds a reference besides the one
that `animation_linear_stepper_new` returned. -/
def takeStepper (l : List ℕ) : Option ℕ → Outcome (List ℕ × ℕ)
  | some r => (addRef l r).bind fun l' => .ok (l', r)
  | none => (addRef (l ++ [1]) l.length).bind fun l' => .ok (l', l.length)

/-- The object with number `j`, if there is a reference on it. -/
def World.alive (w : World) (j : ℕ) : Outcome Obj :=
  match w.objects[j]? with
  | some o => if o.refs = 0 then .ub else .ok o
  | none => .ub

/-- One call. -/
def exec (w : World) : Op → Outcome (World × Res)
  | .make v => .ok ({ w with heap := (w.heap.alloc v).1 }, .block (w.heap.alloc v).2)
  | .look k a => (w.heap.read k a).bind fun v => .ok (w, .value v)
  | .put a v => (w.heap.write a v).bind fun m => .ok ({ w with heap := m }, .none)
  | .copy k a => (w.heap.copy k a).bind fun r => .ok ({ w with heap := r.1 }, .block r.2)
  | .free a => (w.heap.free a).bind fun m => .ok ({ w with heap := m }, .none)
  | .newStepper => .ok ({ w with steppers := w.steppers ++ [1] }, .stepper w.steppers.length)
  | .refStepper r => (addRef w.steppers r).bind fun l => .ok ({ w with steppers := l }, .none)
  | .unrefStepper r => (dropRef w.steppers r).bind fun l => .ok ({ w with steppers := l }, .none)
  | .new c args stepper =>
    (collectAll w.heap c.slots args).bind fun r =>
      (fillAll r.1 c.slots r.2).bind fun q =>
        (readAll q.1 c.slots q.2).bind fun xs =>
          (setAll q.1 c.slots q.2 xs).bind fun p =>
            (unsetAll p.1 q.2).bind fun m =>
              (if c.stepped then
                (takeStepper w.steppers stepper).bind fun t => dropRef t.1 t.2
              else .ok w.steppers).bind fun l =>
                .ok (⟨m, l, w.objects ++ [⟨c, 1, p.2⟩]⟩, .object w.objects.length)
  -- a property that does not exist or can only be set at construction is refused with a warning
  | .set j k a =>
    (w.alive j).bind fun o =>
      match o.cls.slots[k]? with
      | some s =>
        if s.writable then
          (collect w.heap s.kind a).bind fun r =>
            (setOne r.1 s r.2).bind fun q =>
              (unset q.1 r.2).bind fun m =>
                .ok (⟨m, w.steppers, w.objects.set j
                  { o with vals := match q.2 with | some x => o.vals.set k x | none => o.vals }⟩, .none)
        else .ok (w, .none)
      | none => .ok (w, .none)
  -- a property that does not exist or cannot be read is refused with a warning; otherwise the value gets a copy of a local
  -- structure, the caller gets a copy of that, and the value is unset
  | .get j k =>
    (w.alive j).bind fun o =>
      match o.cls.slots[k]?, o.vals[k]? with
      | some s, some x =>
        if s.readable then
          let r := w.heap.alloc x
          (r.1.copy s.kind r.2).bind fun q =>
            (unset q.1 (some r.2)).bind fun m => .ok ({ w with heap := m }, .block q.2)
        else .ok (w, .none)
      | _, _ => .ok (w, .none)
  -- zoom.cpp 57-65, magiclamp.cpp 64-73, wobbly/model.cpp 218-230 and 259-271
  | .assign j k v =>
    (w.alive j).bind fun o => .ok ({ w with objects := w.objects.set j { o with vals := o.vals.set k v } }, .none)
  -- bounce.cpp 108-121, zoom.cpp 74-108, magiclamp.cpp 81-117
  | .fetch j k a =>
    (w.alive j).bind fun o =>
      match a, o.vals[k]? with
      | some a, some x => (w.heap.write a x).bind fun m => .ok ({ w with heap := m }, .none)
      | _, _ => .ok (w, .none)
  | .ref j => (w.alive j).bind fun o => .ok ({ w with objects := w.objects.set j { o with refs := o.refs + 1 } }, .none)
  | .unref j => (w.alive j).bind fun o => .ok ({ w with objects := w.objects.set j { o with refs := o.refs - 1 } }, .none)

end

end Verif.GMem
