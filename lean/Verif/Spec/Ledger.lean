import Verif.Model.GMemory

/-!
# What a program owns

A program that keeps account of the structures and references it was given, of what it wrote to the structures, and of what
it told the objects. It only uses what it owns. Twice it is noted that nothing was passed where the library then needs
something: a stepper, and the resolution of a magic lamp.
-/

namespace Verif.Spec

noncomputable section

open GMem

/-- What is documented of a boxed property: its type, its value if nothing is passed to the constructor (`none` if something
has to be passed), whether it can be read, and whether it can be changed later. -/
structure Feature where
  kind : Kind
  otherwise : Option Boxed
  readable : Bool
  changeable : Bool

/-- The box from (0, 0) to (1, 1). -/
def wholeBox : Boxed := .box (.fin 0) (.fin 0) (.fin 1) (.fin 1)

/-- The boxed properties of each class. -/
def features : Class → List Feature
  -- target
  | .bounce => [⟨.box, some wholeBox, true, false⟩]
  -- from, to
  | .zoom => [⟨.box, some wholeBox, true, true⟩, ⟨.box, some wholeBox, true, false⟩]
  -- target
  | .glide => [⟨.box, some wholeBox, false, false⟩]
  -- source, target, resolution
  | .lamp => [⟨.box, some wholeBox, true, true⟩, ⟨.box, some wholeBox, true, false⟩,
      ⟨.vector, some (.vector (.fin 10) (.fin 10)), false, false⟩]
  -- position, size
  | .wobbly => [⟨.vector, none, false, true⟩, ⟨.vector, none, false, true⟩]

/-- An object as the program knows it. -/
structure Thing where
  cls : Class
  refs : ℕ
  vals : List (Option Boxed)

/-- The account. -/
structure Ledger where
  /-- The structures that the program owns, with their contents. -/
  mine : ℕ → Option Boxed
  /-- The references on steppers that it owns. -/
  owned : ℕ → ℕ
  /-- The objects it made. -/
  things : ℕ → Option Thing
  /-- How often it made an animation without passing a stepper. -/
  unstepped : ℕ
  /-- How often it made a magic lamp without passing a resolution. -/
  unresolved : ℕ

namespace Ledger

/-- The account of a program that has not begun. -/
def empty : Ledger := ⟨fun _ => none, fun _ => 0, fun _ => none, 0, 0⟩

/-- The program owns a structure of this type. -/
def Has (l : Ledger) (k : Kind) (a : ℕ) : Prop := ∃ v, l.mine a = some v ∧ v.kind = k

/-- The program has a reference on an object, which has such a property. -/
def Knows (l : Ledger) (j k : ℕ) (f : Feature) : Prop :=
  ∃ t, l.things j = some t ∧ t.refs ≠ 0 ∧ (features t.cls)[k]? = some f

/-- The program has a reference on the object. -/
def Holds (l : Ledger) (j : ℕ) : Prop := ∃ t, l.things j = some t ∧ t.refs ≠ 0

/-- The pointer may be passed for the property: it points to something that the program owns, or `NULL` will do. -/
def Passes (l : Ledger) (f : Feature) : Option ℕ → Prop
  | some a => l.Has f.kind a
  | none => f.otherwise ≠ none

/-- The program may make this call. -/
def Allows (l : Ledger) : Op → Prop
  | .make _ => True
  | .look k a => l.Has k a
  | .put a v => l.Has v.kind a
  | .copy k a => l.Has k a
  | .free a => l.mine a ≠ none
  | .newStepper => True
  | .refStepper r => l.owned r ≠ 0
  | .unrefStepper r => l.owned r ≠ 0
  | .new c args stepper => List.Forall₂ l.Passes (features c) args ∧
      ∀ r, stepper = some r → l.owned r ≠ 0 ∧ c ≠ .wobbly
  | .set j k a => ∃ f, l.Knows j k f ∧ l.Passes f a
  | .get j k => ∃ f, l.Knows j k f
  | .assign j k v => ∃ f, l.Knows j k f ∧ f.changeable ∧ v.kind = f.kind
  | .fetch j k a => ∃ f, l.Knows j k f ∧ f.readable ∧ ∀ b, a = some b → l.Has f.kind b
  | .ref j => l.Holds j
  | .unref j => l.Holds j

/-- What the call has to return. Memory that is handed out is none that the program already owns. -/
def Expects (l : Ledger) : Op → Res → Prop
  | .make _, y => ∃ a, y = .block a ∧ l.mine a = none
  | .look _ a, y => ∃ v, l.mine a = some v ∧ y = .value v
  | .copy _ _, y => ∃ b, y = .block b ∧ l.mine b = none
  | .newStepper, y => ∃ r, y = .stepper r ∧ l.owned r = 0
  | .new .., y => ∃ j, y = .object j ∧ l.things j = none
  | .get j k, y => ∀ f, l.Knows j k f → if f.readable then ∃ a, y = .block a ∧ l.mine a = none else y = .none
  | _, y => y = .none

/-- A structure of the program gets contents, or is gone. -/
def note (l : Ledger) (a : ℕ) (v : Option Boxed) : Ledger := { l with mine := Function.update l.mine a v }

/-- What the program knows of an object changes. -/
def learn (l : Ledger) (j : ℕ) (f : Thing → Thing) : Ledger :=
  { l with things := Function.update l.things j ((l.things j).map f) }

/-- The contents that an object is told of. -/
def told (l : Ledger) (f : Feature) : Option ℕ → Option Boxed
  | some a => l.mine a
  | none => f.otherwise

/-- What the program believes a property to be. -/
def believes (l : Ledger) (j k : ℕ) : Option Boxed := (l.things j).bind fun t => t.vals[k]?.join

open Classical in
/-- The account after a call. -/
def after (l : Ledger) : Op → Res → Ledger
  | .make v, .block a => l.note a (some v)
  | .put a v, _ => l.note a (some v)
  | .copy _ a, .block b => l.note b (l.mine a)
  | .free a, _ => l.note a none
  | .newStepper, .stepper r => { l with owned := Function.update l.owned r 1 }
  | .refStepper r, _ => { l with owned := Function.update l.owned r (l.owned r + 1) }
  | .unrefStepper r, _ => { l with owned := Function.update l.owned r (l.owned r - 1) }
  | .new c args stepper, .object j =>
    { l with
      things := Function.update l.things j (some ⟨c, 1, List.zipWith l.told (features c) args⟩)
      unstepped := l.unstepped + if c ≠ .wobbly ∧ stepper = none then 1 else 0
      unresolved := l.unresolved + if c = .lamp ∧ args[2]? = some none then 1 else 0 }
  | .set j k (some a), _ =>
    if ∃ f, l.Knows j k f ∧ f.changeable then l.learn j fun t => { t with vals := t.vals.set k (l.mine a) } else l
  | .get j k, .block a => l.note a (l.believes j k)
  | .assign j k v, _ => l.learn j fun t => { t with vals := t.vals.set k (some v) }
  | .fetch j k (some a), _ => l.note a (l.believes j k)
  | .ref j, _ => l.learn j fun t => { t with refs := t.refs + 1 }
  | .unref j, _ => l.learn j fun t => { t with refs := t.refs - 1 }
  | _, _ => l

/-- The program owns nothing any more. -/
def Settled (l : Ledger) : Prop :=
  (∀ a, l.mine a = none) ∧ (∀ r, l.owned r = 0) ∧ ∀ j t, l.things j = some t → t.refs = 0

end Ledger

/-- The states of memory that such programs reach, with their accounts. -/
inductive Accounted : World → Ledger → Prop
  | start : Accounted World.empty Ledger.empty
  | call {w w' : World} {l : Ledger} {op : Op} {y : Res} (before : Accounted w l) (may : l.Allows op)
      (ran : exec w op = .ok (w', y)) : Accounted w' (l.after op y)

/-- The block holds a structure that was not freed. -/
def InUse (w : World) (a : ℕ) : Prop := ∃ v, w.heap[a]? = some (some v)

/-- How many references there are on a stepper. -/
def references (w : World) (r : ℕ) : ℕ := (w.steppers[r]?).getD 0

/-- Nothing is left: no structure, no stepper, no object. -/
def NothingLeft (w : World) : Prop :=
  (∀ a, ¬ InUse w a) ∧ (∀ r, references w r = 0) ∧ ∀ o ∈ w.objects, o.refs = 0

end

end Verif.Spec
