# Formal model of libanimation: design

The subject is `smspillaz/libanimation` (`/repo`, C++). The model is in Lean 4 under
`lean/Verif/`. Files:

| Layer | Files | Content |
|---|---|---|
| Model | `Verif/Model/*.lean` | the code, function by function, each definition citing file and lines |
| Spec | `Verif/Spec/*.lean` | small independent statements of what is promised, not using model helpers |
| Lemmas | `Verif/Lemmas/*.lean` | auxiliary proofs |
| Properties | `Verif/Props/*.lean` | the property theorems named in `MANIFEST.json`, each with a non-vacuity `example` |

## Trusted base

* Lean's kernel and the axioms `propext`, `Classical.choice`, `Quot.sound` (the only ones any
  property theorem depends on; `Verif/Audit.lean` prints them).
* The faithfulness of the hand translation from C++ to Lean, documented per definition.
* glm's `translate`, `scale`, `rotate` and matrix product are taken to be the textbook matrices.
* libm's `sin`, `cos`, `exp`, `sqrt` are taken to be the real functions.

### Numbers

`float`/`double`/`long double` are modelled by exact real numbers: rounding, overflow and signed
zero are **not** modelled, with these exceptions. `Model/Float32.lean` models the steppers in binary32 with
rounding to nearest after every operation (any rule for ties), denormalised numbers and overflow.
`Model/WobblyDouble.lean` models the wobbly model without anchors in binary64 with rounding to nearest after every
operation (any rule for ties; no fused multiply-add) and denormalised numbers, but without overflow.
`Model/WobblyRounded.lean` does this for the whole wobbly model, anchors included. C113, C115, C131, C138 and C139 show for
drags that nothing overflows, C145 for a mesh that was let go of, C146 and C147 for the GObject layer, C148 and C149 for reading: there the arithmetic may do anything beyond 2^500.
`Model/BezierDouble.lean` does the same for reading the mesh; `long double` is any rounding that keeps every `double` and whose
relative error is at most that of `double`, which covers the x87 format, binary128 and `double` itself.
`Model/TransformFloat.lean` models Bounce, Zoom and Glide in the mixture of binary32 and binary64 that the code uses
(`Model/GTransformFloat.lean` the GObjects over them, `Model/GLampFloat.lean` that of the magic lamp),
with denormalised numbers and overflow (no fused multiply-add); there the sums of products follow the generic code of
glm 0.9, and libm's functions are arbitrary with stated bounds. `Model/LampFloat.lean` does the same for the magic lamp;
`exp` is any function that is never negative and has a relative error of at most 10^-6 between -32 and 32, which covers both
the `double` and the `float` overload; a zero divisor counts as `+0`. Where special
values matter (steppers, clamping, the magic lamp) the type `XR` adds NaN and the two infinities, with IEEE rules for them and exact arithmetic otherwise.
`DBL_MAX` is the real number `(2^53-1)*2^971`. C `round` is round-half-away-from-zero.
`unsigned`/`size_t` counters are natural numbers: wrap-around after 2^32/2^64 live anchors or
spring identifiers is not modelled; unsigned *underflow* is modelled where it can happen
(grid width 0). The index into the magic lamp's grid is not reduced modulo 2^64 either: for coordinates of 2^64 divided by
the number of vertices and more the code may wrap around to an index inside the grid where the model reports `ub`.

### Outcomes

Model operations return `Outcome`: `ok`, `diverges` (the call never returns), `throws`, `ub`
(out-of-bounds access, use after free, failed assertion) or `nonfinite` (a division by zero took
the computation out of the finite numbers). Nothing is hidden by totalised division or default
look-ups: every such access is guarded by an explicit test in the model.

### What is modelled

* `animation/math.h`, `geometry.h`, `geometry_traits.h`, `box_calculation.h`,
  `transform_calculation.h`, `property.h`, `stepper/*.h`, `bounce`, `glide`, `zoom`, `magiclamp`: all
  functions.
* `animation/wobbly/wobbly.cpp`, `wobbly_internal.h`: all functions reachable from the public `Model`
  and `Anchor` API: position lattice, nearest point, springs, forces, integration, range constraint,
  targets, full integration, grab/insert/move/release of anchors, move, resize, step, extremes and
  Bezier deformation. Spring bookkeeping (steal, replace, pending removal) is modelled with its
  identifiers, and storage lifetime of inserted anchors is modelled so use-after-free is visible.
* `animation-glib/wobbly`: the model and anchor objects, their properties, reference counts and
  finalisers (`Model/GWobbly.lean`, and `Model/GWobblyRounded.lean` with rounding).
* `animation-glib/{bounce,zoom,glide,magiclamp}`: properties, construction, setter functions and
  `constructor-helpers.h` (`Model/GObject.lean`).
* `animation-glib/stepper`: linear, reverse, holder and wrapper with their ownership, next to animations
  of an arbitrary class (`Model/GStepper.lean`).
* `animation-glib/{transform,grid}` and the reading functions of `wobbly/model.cpp`
  (`Model/GRead.lean`). `glm::value_ptr` is trusted to list the entries column by column.

* `animation-glib/{vector,vector4d,box}.cpp` and the memory behind boxed properties: copies, frees, defaults that the
  constructors allocate, references on animations and linear steppers (`Model/GMemory.lean`). Numbers other than the boxed
  ones are left out there.
* Programs with several native models, `Anchor` variables (default constructed, moved, assigned, destroyed),
  destruction of a model, the spring counter and `Settings` structures that models share, and the
  setters of `wobbly/emscripten.cpp` (`Model/Process.lean`).
* `matchers/mathematical_model_matcher.h`: `SatisfiesModel` with `Linear` and `Parabolic`, `Eq` with its choice
  between geometries and other types, and `AlmostEq`; `matchers/within_geometry_matcher.h` (`Model/Matchers.lean`). `exponential::DecayModel` is left out: it calls a member `get` that `PointModel` does
  not have, and `SatisfiesModel` calls `Create` without the argument it needs, so no program can use it.

### What GObject is assumed to do

* Private instance data starts zeroed.
* A construct property is set exactly once during construction, to its default when no value is given.
* Setting a number outside the declared range prints a warning and does not call `set_property`.
  A class with its own `constructor` function sees the raw construct values before that check.
* Argument parsing in `g_object_new` stops at an unknown property name, and at a name given a second time. The internal
  property `interface` is left out: the constructors overwrite what is given for it.
* `g_value_get_*` on a value of another type returns 0 or NULL.
* An object is finalised when its reference count reaches zero, and not before.
* A program only uses objects on which it holds a reference. In `GStepper` a call that breaks this rule
  is skipped, so that theorems about all lists of calls speak about all programs that obey it.
* `g_object_new` and `g_object_set` copy boxed arguments and free the copies before they return; `g_object_get` hands out a
  copy. `g_value_set_boxed` copies and `g_value_set_object` takes a reference. A property is set from a converted copy of
  the value. Setting a construct-only property later, and getting one that is not readable, prints a warning and does nothing.
* `float` literals such as `0.1f` are exact.

### What is not modelled

GObject type machinery, signals and notifications, reference counting other than where stated,
the Emscripten binding machinery, tests and what matchers print, copying a native
`Model` (declared but defined nowhere), allocation failure,
`TopLeftPositionInSettledMesh` (unused), overflow of `double` in the wobbly model outside C113, C115, C131, C135, C138, C139,
C141, C145, C146, C147, C148 and C149.

## Per property plan

For each: what is modelled and how it is proved. "Neg" means the general claim is false for the code
and its negation is proved with a concrete witness; the corresponding positive result carries the
suffix `_partial`.

* C01, C02: generic animation state machine over an arbitrary stepper state machine with `XR` outputs;
  clamp with C `fmin`/`fmax` NaN rules; case analysis, lifted over step histories by induction.
* C03, C04: `Linear` as a state machine; induction over the list of deltas against `sum/length`.
* C05: `Reverse` as a state machine transformer; induction over call sequences.
* C06: steppers are values in the model (a `std::function` copy copies the closure state); two-copy
  interleavings are projected onto each copy by induction. The constructor's `stepper (0)` call on
  the caller's object is modelled.
* C07: Neg with an advanced `Linear`; partial: for `Linear` and `Reverse` exactly when the time used before is within the length.
* C08-C11: 4x4 real matrices (`Matrix (Fin 4) (Fin 4) ℝ`), entry-wise evaluation, bounds on `sin`.
  C10 Neg with witness n=3, scales 0.1 and 3, progress 1/2; `C10_every_count_iff` gives the exact bound on the scales.
* C12, C13: matrices again; history induction for the invariant that the `to` box has non-zero sides.
* C14, C17: histories of setters and steps; invariant on the last row of the matrix.
* C15, C16: rotation matrices; C15 Neg: depth after completion is `-1/screenWidth`.
* C18-C21: vertex computation in `XR`; equality with a finite real formula under the documented
  parameter ranges; endpoint and betweenness by monotonicity of the sigmoid; Neg witnesses, and exact
  conditions for C19 and C21 (`Props/LampExact.lean`).
* C22-C25: grid as a list with checked indices; nested write loops proved by induction; bilinear
  interpolation bounds; exact conditions for C24 (`C24_steps_iff`, `C24_extremes_iff`).
* C26, C27: direct.
* C28: fold over the 16 points; specification is a lexicographic argmin.
* C29-C37, C58: physics layer: springs over nodes, force accumulation as a fold, per-coordinate Euler
  step. C29 and C31 Neg with reachable witnesses, partial theorems under the stated conditions; for C31 also
  that two answers in a row are final in every state (`C31_twice`).
* C38-C40: simulation relation between a run and its translate, by induction over operation lists.
* C41: full integration is a partial function (`diverges` when the loop never stops). Neg by
  invariants: pinned points that stay apart, a motionless stuck state for spring constants below 3, and an
  endless oscillation with the default settings (`Lemmas/WobblyOscillator.lean`), and an endless swing of a
  model without anchors at friction 1/2 (`Lemmas/WobblyBlock.lean`). Partial: calls on a
  resting model return, and no motionless stuck state exists without anchors for a constant of at least 3.
* C42-C44: algebra of scaling; C44 Neg for the stolen spring.
* C45-C51: invariants over arbitrary operation histories (activation count, lock counts, identifiers,
  spring ownership). C49 Neg with a reachable use after free; partial for last-in-first-out release;
  `C49_undefined_iff` says exactly when a `Step` is undefined (`Lemmas/WobblyRests.lean`).
* C52-C54: at-rest invariant; lexicographic argmin; frame conditions.
* C55-C57: Bernstein polynomial identities; convex combination; rounding bound.
* C59, C60, C64, C65: the GObject wobbly model as a state machine that carries the native one; refinement
  of the native history, invariants over call lists. C64 and C65 Neg.
* C62, C66-C69: one generic description of a GObject class with a property table; the four classes are
  instances. Refinement of the native animation by induction over call lists. C62, C66, C68 Neg.
* C61, C70-C73, C105: a heap of stepper objects, wrappers and animations with reference counts. Frame theorems
  and a counting invariant (inner references equal live reverse steppers). C61, C71 Neg.
* C63: index arithmetic on a flat coordinate array.
* C74, C75: `geometry_traits.h` for an arbitrary type with the `Dimension` trait (`Model/Traits.lean`);
  induction over the coordinate recursion. Whether `get<D>` compiles for a type is part of the model (`Access.has`).
* C142, C143: the same model. C142 Neg for geometries of different dimensions (`C142_order_matters`). In C143 both operands
  are in the same memory (`vectorApplyShared`).
* C76, C77: the reading functions of `animation-glib` with optional output pointers (`Model/GRead.lean`),
  reduced to the native theorems. C77 Neg for a NULL unit coordinate.
* C78, C79: closed forms of the Glide and Bounce matrices compared with rotations and a sine.
* C80, C81: sums of hat functions; continuity of the closed forms.
* C82: algebra of scaling; affine invariance of the Bezier patch.
* C83-C86: a state machine of whole programs (`Model/Process.lean`) that runs the single-model machine for
  each model. C83: every call commutes with an injective renumbering of spring identifiers
  (`Lemmas/WobblyRelabel.lean`), and a model's part of a program is a history of that model alone. C84: invariant
  that every anchor in effect is held by exactly one variable. C85: case analysis with that invariant.
* C87-C90: the set of binary32 numbers and an arbitrary function to a nearest one (`someRounding` shows that there
  is one); monotonicity of rounding; error bound per step by induction over the time deltas. C89 and C90 have
  concrete witnesses that hold for every rule for ties.
* C91-C94: the closed form of the fitted line or power curve at a power of two; induction over coordinates for C94.
  libm `log` and `pow` follow IEEE 754 for special values.
* C95: the force fold as a sum over springs, then case analysis of one round. The specification is `Spec/Motion.lean`.
* C96, C97: binary64 rounding of the anchor-free model (`Model/WobblyDouble.lean`). `Lemmas/WobblyDoubleExact.lean`
  proves that with the identity in place of rounding it is the exact model. C96: an error budget per coordinate that
  grows by one unit per call, and the one-pixel dead zone of the springs absorbs it. C97: a clipped deviation is zero
  or at least one half, so an answer of false means that no force acts.
* C98: the matrix animations with rounding (`Model/TransformFloat.lean`), parameterised by a machine;
  `Lemmas/TransformFloat.lean` proves that the machine without rounding gives the exact transforms. At progress 1 every
  intermediate number is exact except the offset of the middle, which cancels. Neg for negative initial scales and for
  targets far from the origin.
* C99, C100: a number with an exact counterpart, a bound on its size and a bound on its error (`Lemmas/Approx.lean`),
  carried through every operation. C100 uses the relative error of the scale factor, whose size is not bounded by a
  small constant.
* C101-C103: the lamp with rounding (`Model/LampFloat.lean`), same method; the sigmoid is handled by a Lipschitz bound and a
  lower bound on `sigmoid(1) - sigmoid(0)`. C102 Neg: tops that differ but round to the same `float`. Reading: a cell index
  that is off by one is next to a grid line, where both cells agree up to the error (`Lemmas/LampUV.lean`).
* C104: the row heights before progress 1 (`Lemmas/LampRows.lean`). The divisor `1 - j/(gh-1)*stretch` can be tiny, so its
  relative error is large; but the product is cut off at 1, which bounds the effect. Not covered: the horizontal error
  before progress 1.
* C106: reading the mesh with rounding (`Model/BezierDouble.lean`, `Lemmas/BezierDouble.lean`): error of a coefficient, of one
  round of the loop, of the loop. Without rounding it is the exact model (`exact_deform`). The specification is the
  Bernstein form of the surface (`Spec/Patch.lean`).
* C107, C108: the place of a corner under Glide as two turns and a shift (`Spec/Glide.lean`), and the rounding error against
  it (`Lemmas/GlideRound.lean` for the entries of the matrix product, method of C99 for the bounds). Trusted: `sinf` and
  `cosf` are within 2^-23 of the functions for arguments up to 8.
* C109: the wobbly model with anchors and rounding (`Model/WobblyRounded.lean`). `Lemmas/WobblyRounded.lean` proves that
  without rounding it is the exact model, and that before the first grab it is the model of C96. `Lemmas/WobblyDrag.lean`
  has the invariant `Held`: one anchor, one spot pinned to its target, targets within the error budget of the lattice.
  The place where the model ought to be is `Spec/Drag.lean`. Not covered: several anchors and `InsertAnchor` in doubles.
* C110: after the constraint each point is within range of its target, so each of at most four springs pulls with at most
  `k R`; friction turns that into a speed limit, which is invariant (`Lemmas/WobblyBounded.lean`). `Lemmas/WobblyLimit.lean`
  does the same for springs that an inserted anchor has split, and for any springs with a bound that depends on them.
* C111: `Lemmas/WobblyStable.lean` finds, for one damped oscillator under the integrator of the code, a quadratic form that
  shrinks by a factor in each round, and carries it over to any symmetric system by the spectral theorem.
  `Lemmas/WobblyFree.lean` applies it to the mesh with any set of held points: the dead zone of the springs and the
  clipping of velocities are bounded disturbances. `Lemmas/WobblyTame.lean` connects it to the model. The matrix of the
  mesh has no eigenvalue above 8 because no point has more than four springs; that is where the limit of 10 comes from.
* C112: case analysis; monotonicity of rounding for `double`.
* C113: the invariant of C109 with bounds for velocities, as in C110; every intermediate result is bounded, and calls with
  the given arithmetic are shown equal to calls with rounding everywhere.
* C114: a full integration and repeated `Step` are the same iteration while nothing is inserted; the targets are then an
  invariant of the calls made with one anchor held.
* C115: `Spec/Visit.lean` says which programs are meant (an inductive predicate on states) and what they may count on. When
  `Step` answers false the mesh is put on the targets, which are within the error budget of the lattice, so all springs
  are in their dead zone; after the release the invariant of C96 holds again.
* C116: two invariants over all histories of the rounded model, that all coordinates are doubles and that the tracker
  counts the live anchors. A round that reports no movement then shows that nothing pulls at the very points it leaves
  behind, because adding a velocity of zero to a double is exact. `C116_once_is_not_enough` holds for every rounding to nearest:
  none of its operations meets a tie.
* C117: the stepper inside an animation after a history is the given one advanced by the deltas, so only their sum counts;
  the output is a function of parameters and progress (for the lamp, once the grid has its size).
* C118: the difference of a Bézier surface between two places on one parameter line is a combination, with weights that
  add up to three, of the differences between neighbouring mesh points. Two cones that meet in one point give
  injectivity; C110 gives a bound under which a dragged mesh stays in them.
* C119: exchanging rows and columns is a renaming of the sixteen points that also exchanges the coordinates. The springs of
  the exchanged model are the same springs in another order and with other numbers, so this builds on the relabelling of
  C83: a relation between two models up to a permutation of the springs, kept by every call. The search for the nearest
  point or spring is where order matters, hence `NoTie` (Spec/Flip.lean). `C119_ties` is a history that is its own exchange
  and still leads to a lopsided model. The same claim for left and right is not made: the
  settled position is read from point 0, which may be a little off when the model counts as settled.
* C120: what is shown is linear along a row and piecewise linear from row to row, so order and width need only be shown for
  the rows. Both factors of the deformation lie between 0 and 1 and shrink as progress grows, the vertical one grows down
  the window. All this needs a target that begins above the source and does not end below it (`GoesUp`, Spec/LampOrder.lean).
* C121: every operation of the lamp is monotone in the result of the one before, and so is rounding to nearest; the proof turns
  each computed number back into the nested roundings it came from. The hundredth of a pixel in `ClearlyUp` keeps the sign of
  the computed `yDelta`. That libm's `exp` never decreases is assumed, for the horizontal positions only.
* C122: no spring acts while every spring is in its dead zone, so friction alone decides; `stillToGo` is the sum of the
  geometric series of what is travelled. The invariant `Fading` says that distance travelled plus distance still to go never
  exceeds the distance to go at the start, which keeps every spring in its dead zone for ever (`Lemmas/WobblySlow.lean`).
  With one anchor the range constraint never acts for the same reason. This is the positive side of C41.
  Eight ticks are enough because t^7 (1 - t) is at most 7^7 / 8^8 on [0, 1].
* C123: the computed progress is close to the due one (C88), what is shown at a computed progress is close to the exact path
  there (C99, C100, C104, C108), and the exact path is Lipschitz in the progress. The three add up to the stated error.
  `DueAt` (Spec/OnTime.lean) says what is due without any rounding.
* C124: the same invariant with room for rounding (`Creeps` in Lemmas/WobblySlowDouble.lean): one tick shortens a velocity by
  at least as much as the room that `farthest` has over `stillToGo`, so rounding errors of the places are paid for by the
  velocities, and once these are below 0.1 they are cut to zero. The spring lengths are a tile to within an error that grows
  with the number of resizes (`Snug`). The example in motion uses that forces between whole pixels are exact
  (Lemmas/WobblyWhole.lean).
* C125: a mirror is a renaming of the sixteen points together with x -> c - x, y -> c - y or both. A spring along the mirrored
  axis has its ends exchanged and keeps its desired length; the pulls on its two ends are exchanged too, so the forces are
  those seen in the mirror (`calculateForces_mir`). The one place where the mesh is not treated evenly is
  `TargetPositionByFullIntegration`, which returns the settled place of the first point: its image is the settled place of
  another corner, and a lattice laid out from there is the image of the original exactly if the two corners are one size
  apart (`RestsEvenly` in Spec/Mirror.lean). `C125_corner_decides` is a short history where they are half a pixel off, within
  the dead zone of the springs. `ResizeModel` keeps the top left corner, so in the image it keeps the image of the top right
  corner: `mirrorOps` moves the mirror by the gain in size. `C125_insertion` shows why `InsertAnchor` is left out.
* C126: the exact invariant of C45 to C50 says where the targets are, which rounding spoils, and nothing else about numbers.
  `flat` puts the targets back on their lattice, so the rest of the invariant is the exact one about `flat s`; what a call
  with rounding does to the books is what the exact call does with other preferred points (`install_exact`). The rounding
  function need not even be a rounding (Lemmas/WobblyBook.lean). The use after free needs a state where insertion returns in
  double precision; a model at rest is slow (C124).
* C127: no property of rounding is used, because each claim is about which operations are done and on what, not about their
  results: a locked point is not integrated, `Integrate` is a loop over ticks that does not look at the time again, and every
  arithmetic operation on points is done coordinate by coordinate except the distance in `Constrain`, which only runs while
  exactly one anchor is owned (Lemmas/WobblyBits.lean).
* C128: C83 to C86 for the models with rounding (`Model/ProcessRounded.lean`). Spring numbers are only compared with each other
  there too, so every call commutes with renumbering them (Lemmas/WobblyRelabelRounded.lean), and the whole-program machine is
  followed statement by statement as before (Lemmas/ProcessRounded.lean, which also shows that without rounding it is the
  machine of `Model/Process.lean`).
* C129: the computed distance is the distance up to a relative error of 2^-49 unless tiny (`Lemmas/WobblyNearest.lean`); the folds
  that look for the nearest point and spring are the exact ones with another distance.
* C130: desired lengths are doubles in every reachable state, so with a symmetric rounding the two ends of a spring are measured
  exactly alike (`Lemmas/WobblyTick.lean`). Each spring adds at most 2^-26 + 2^-33 to the error of a force, by induction over
  the springs; the errors of the integration are added up operation by operation. `Ordinarily` collects the bounds.
* C131: `Spec/Attach.lean` extends the programs of C115 by inserted anchors. The anchor sits at fractional coordinates of the
  lattice; its two springs get the lengths these coordinates ask for, to within the rounding error. The invariant `Hung` says
  that anchor, targets and lengths agree with one lattice. That the release puts the split spring back, and nothing else,
  follows from the bookkeeping invariant of C126. `Ample` (`Lemmas/WobblyAmple.lean`) adds that there is room for everything, so
  that nothing overflows: velocities stay below 2^29, as in C139, and the distance to the targets below 2^32 model sizes per call.
* C132 and C133: the invariant `Tally` (`Lemmas/GMemory.lean`) says what is at every address: what the account has there, or
  one of the lost blocks, whose number is counted. Each call keeps it. Construction is followed through its five passes;
  `Package` says that the new blocks are those of the values, which are freed at the end, and the lost ones.
* C134: the simulation behind C59 to C65 again, over the native model with rounding (`Lemmas/GWobblyRounded.lean`).
* C135: the simulation carries C115 and C131 over to GObject calls. `Idle` (`Lemmas/GVisit.lean`) ties the object to a native
  model that nobody holds and whose settings are in range; every call of `GHandled` keeps it.
* C136: `Web` (`Lemmas/WobblyWeb.lean`) says how inserted anchors are tied in: a spring that was taken out leaves both of its
  ends tied to an anchor, and at most four springs end at a mesh point. That holds after every history after which `Step` is defined
  (`Lemmas/WobblyLoose.lean`). The springs then form a symmetric operator with anchors
  as ground (`Lemmas/WobblyTied.lean`), and the oscillators of C111 bound it. With one anchor the bound is that of C110.
* C137: the points that nothing pins swing like damped oscillators that are pushed by a bounded amount, whatever the push
  (`Lemmas/WobblySwing.lean`). Dragging an anchor moves no such point; it only changes the push. `Tugged`
  (`Lemmas/WobblyTug.lean`) follows the pinned points and the anchors through the calls.
* C138: `Lemmas/WobblyFine.lean` compares a tick in double precision with the exact tick of springs without a dead zone: they
  differ by a bounded amount plus 2^-53 times the size of the numbers. `Lemmas/WobblyDamped.lean` has an energy that such a
  tick shrinks by a fixed factor, more than the rounding can add. `Firm` (`Lemmas/WobblyFineWeb.lean`) is what the springs must
  do for that: hold every free point to a fixed one. `Lemmas/WobblyLoose.lean` shows that the springs do so whatever anchors there are, as long
  as `Step` is defined: then every spring that was taken out will come back (`loose_none`). `rounds_agree` (`Lemmas/WobblyTugAgree.lean`) shows that nothing
  overflows on the way.
* C139: `haul_constrain` (`Lemmas/WobblyHaul.lean`) shows that the range check brings every point within 4 M of 0 at the start of
  each tick, whatever the distance was. The forces are bounded then, and friction bounds the velocities.
* C140: `round_decay` (`Lemmas/WobblyDecay.lean`) is the tick of C138 with the rounding error in proportion to the energy there is:
  what rounding adds is less than half of what friction takes.
* C141: in the proof of C139 the bound on velocities need not be the same before and after a tick: what exceeds it loses a part in
  200 (`haul_swing`, `Lemmas/WobblyHaulDecay.lean`).
* C145: `Lemmas/WobblyAdrift.lean` takes the mean off positions and velocities. Springs between mesh points neither see nor change
  it, so `Gathers` is the energy of C138 for the rest. The mean velocity is bounded by friction, and the mean position by that times
  the number of ticks. Rounding errors grow with the position, hence the limit on the number of ticks.
* C144: `Eq` for two values of one type; the ordinary comparison of Google Mock is taken to be equality.
* C146: `Lemmas/GTug.lean` shows by induction over the calls on the GObject layer that the anchors the native model knows are those
  obtained and neither released nor dropped. What the program does afterwards reaches the native model as steps and drags, and a move
  of a released anchor does not reach it at all. The number of anchors held decides which of C145, C139 and C138 applies.
* C147: as C146, from C140 and C141. That several anchors stay within `M` under the rounding at hand follows from C138: nothing
  overflows within `V`, so up to each call the run is the one without a limit to exponents.
* C148: `Model/GReadRounded.lean` adds the reading function with rounding. A mesh close to a lattice on a screen is drawn close to its
  rectangle (`near_rectangle`, used for C106 too), `deform_agrees` shows that no result on the way reaches 2^500, and C135 says that
  the mesh is that close. The extremes are comparisons and rounding to whole numbers, which are exact in doubles.
* C149: from C113 in the same way, the distance from the lattice being that of C113.
* C150: `Model/GTransformFloat.lean` puts the GObject classes of Zoom, Bounce and Glide over the animations with rounding. `gcalls`
  (Props/GOnTime.lean) turns a history of GObject calls into native ones of the same length and times, and C123 does the rest. The
  stepper is set a second time while the object is made; a linear stepper called with 0 has not moved, so nothing is lost.
* C151: the same for the magic lamp (`Model/GLampFloat.lean`). The GObject has no setter for the resolution, so that stays, and the
  height of a row depends on nothing but the boxes, the resolution and the stretch (`glamp_params`). The limits of the properties are
  exact decimals here as in `Model/GObject.lean`; the defaults are rounded to `float`.
* C152: the calls become native ones as for C150, setters do not matter for the progress (`progress_deltas`), so C89 gives progress 1
  and C98 the corners. The side conditions are those of C98. For the magic lamp C101 takes the place of C98; the factors stay in
  their ranges because the properties refuse other numbers (`glamp_factors`).
* C153: `native_answer` takes the progress from C88 midway and from C89 when the time is over; C02 says what that makes the step answer.
  A reversed stepper that is over gives 1 - 1, which is exact (`over_reverse`). Within the margins nothing is said.

## Seeded faults

`seeded/LOG.jsonl` has one line per edit of the model that was tried in a scratch copy. A proof that stops compiling is
weaker evidence than a statement that becomes false: a script can break although the statement still holds. The
field `verdict` keeps these apart. "Inconclusive" means that only supporting lemmas stopped compiling, so the line
alone does not show that the property theorem notices the fault.

## Findings

Behaviour of the code that contradicts what a user would expect. Each has a theorem.

| Where | What | Theorem |
|---|---|---|
| all constructors | the first progress value is not clamped; a zero length gives NaN | `C07_constructor_not_clamped`, `C07_zero_length_is_nan` |
| steppers | in single precision an animation can need one frame more than its length | `C89_late` |
| steppers | in single precision a very long animation with short frames never ends | `C90_never_ends` |
| bounce | in single precision a negative initial scale can leave the finished surface too small by 2^-24 | `C98_bounce_negative` |
| zoom | a target without width at 2^54 leaves NaN, because adding 1 to its edge changes nothing | `C98_zoom_far` |
| bounce | several bounces can mirror the surface within the documented ranges | `C10_bounce_can_mirror` |
| glide | the surface ends at depth `-1/screenWidth` | `C15_glide_end_depth` |
| magic lamp | does not start at the source when the target is below it | `C19_lamp_start_not_source` |
| magic lamp | turns the window upside down on the way to a target far below it | `C120_upside_down` |
| magic lamp | shows lines of the texture out of order on the way to a target that begins above and ends far below the source | `C120_taller_target` |
| magic lamp | NaN at stretch 1, for one-wide grids, for equal tops | `C21_stretch_one_nan`, `C21_one_wide_nan`, `C21_equal_tops_nan` |
| magic lamp | NaN at the end when the tops differ but are the same `float` | `C102_close_tops`, `C102_close_tops_exist` |
| magic lamp | the clamped uv is not used, reads out of bounds | `C23_uv_out_of_bounds` |
| magic lamp | a larger resolution does not enlarge the storage | `C24_larger_resolution_ub` |
| geometry | four-vector assignment swaps z and w | `C26_vec4_assign_differs` |
| geometry | `==` and `distance` of a point and a four-vector depend on the order | `C142_order_matters` |
| wobbly | range constraint and snap move a grabbed point | `C29_snap_moves_grabbed`, `C29_range_moves_grabbed` |
| wobbly | a grabbed point at the end of its range keeps the model from ever settling | `C29_out_of_range_never_settles` |
| wobbly | a resize leaves a stolen spring at its old length | `C44_stale_length`, `C30_stale_spring` |
| wobbly | the snap can undo settling, so `Step` answers alternate | `C31_snap_unsettles` |
| wobbly | an anchor inserted where two mesh points coincide gets a spring of wrong length, so the model never stays at rest | `C114_coinciding_points` |
| wobbly | an inserted anchor pulls other points than its mirror image, because a spring is looked for by its left or upper end | `C125_insertion` |
| wobbly | where a window rests is decided by its top left point alone | `C125_corner_decides` |
| wobbly | with one anchor the motion depends on the frame rate | `C33_frame_rate` |
| wobbly | range 0 divides zero by zero | `C37_zero_range_nonfinite` |
| wobbly | moving, resizing or releasing can loop forever | `C41_stretched_anchors`, `C41_two_fingers`, `C41_weak_springs`, `C41_soft_springs`, `C41_default_settings`; with nothing held `C41_nothing_held` |
| wobbly | `MoveBy` on an empty or moved-from anchor is undefined behaviour | `C85_move_defined_iff`, `C85_moved_from` |
| wobbly | an anchor that outlives its model cannot even be destroyed | `C85_outliving` |
| wobbly | use after free when a nested inserted anchor outlives its host | `C49_use_after_free`, in double precision `C126_use_after_free` |
| wobbly | `Extremes` misses points by up to half a pixel | `C57_misses_point` |
| wobbly | u and v of the Bezier patch are exchanged (as in the project's tests) | `C55_linear_precision` |
| wobbly | in double precision a model moved very far away collapses | `C96_far_away` |
| glib wobbly | an anchor that outlives its model uses freed memory | `C64_outlived`, `C64_drop_order` |
| glib wobbly | setters ignore ranges; out-of-range construction leaves zero | `C65_unchecked`, `C65_construct_zero` |
| glib constructors | ignored or replaced arguments | `C62_zoom_current_ignored`, `C62_zoom_degenerate`, `C62_glide_length`, `C62_lamp_ignored` |
| glib magic lamp | negative resolution is undefined | `C62_lamp_negative_resolution` |
| glib magic lamp | a NULL unit coordinate is dereferenced | `C77_null_uv` |
| glib magic lamp | `stepper` cannot be read | `C66_lamp_stepper_unreadable` |
| glib animations | a NULL stepper crashes | `C67_null` |
| glib animations | setters and constructors ignore ranges | `C68_unchecked`, `C68_glide_zero_width` |
| glib steppers | dropping a stepper got from an animation frees a member | `C61_get_and_drop`, `C61_outlives` |
| glib steppers | length 0 is accepted | `C71_zero_length` |
| matchers | a parabola with coefficient zero is rejected; 31 samples read the lowest `int` | `C92_constant`, `C92_31_samples` |
| matchers | a tolerance of zero is undefined behaviour, for the sake of a message | `C93_defined_iff` |
| matchers | only powers of two are checked | `C91_blind` |
| matchers | `int` geometries with a zero coordinate are not equal to themselves | `C94_integers` |
| matchers | `Eq` accepts everything for types that are not geometries | `C144_unregistered` |
| matchers | `AlmostEq` drops the fraction of the tolerance on integers and wraps on unsigned ones | `C112_integers_never`, `C112_unsigned_above` |
| glib constructors | default steppers and the default resolution are never freed | `C133_not_returned`, `C133_in_use` |

Seen while reading but without a theorem: `animation_wobbly_anchor_finalize` and
`animation_reverse_stepper_dispose` do not chain up; the documentation of the stepper holder says that copying resets a stepper, which is wrong;
the default tolerance of `SatisfiesModel` is documented as nine decimal places but `10e-9` is eight;
`SolveForXCoeff` is not the solution of its equation unless the coefficient is one; the `apply_visitor` of a `Box` that is
not const uses `->` on a reference, so no program can call it.

Identifiers here follow `properties.jsonl`; `MANIFEST.json` holds the exact theorem names and status.
