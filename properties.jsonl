{"id": "C01", "title": "Progress stays in the unit interval after Step", "statement": "After any call to Step on a Bounce, Glide, Zoom or MagicLamp animation, Progress() is a number between 0 and 1 inclusive, whatever the user-supplied stepper returned, including values outside [0,1], infinities and NaN: it is what the stepper answered to this Step, limited to 0 and 1, NaN counting as 0.", "quantifier": "every stepper (any stateful function), every sequence of Step arguments", "why_tests_cant": "the stepper is an arbitrary callable; tests only exercise Linear with a few durations", "anchors": ["animation/bounce/bounce.cpp: BounceAnimation::Step", "animation/glide/glide.cpp: GlideAnimation::Step", "animation/zoom/zoom.cpp: ZoomAnimation::Step", "animation/magiclamp/magiclamp.cpp: MagicLampAnimation::Step", "animation/math.h: clamp", "animation/stepper/stepper.h: Stepper"]}
{"id": "C02", "title": "Step reports 'more frames needed' exactly in the open interval", "statement": "Step returns true exactly when the Progress() it leaves behind is strictly between 0 and 1.", "quantifier": "every animation kind, every stepper, every history of Steps", "why_tests_cant": "tests check a handful of progress values", "anchors": ["animation/bounce/bounce.cpp: BounceAnimation::Step", "animation/glide/glide.cpp: GlideAnimation::Step", "animation/zoom/zoom.cpp: ZoomAnimation::Step", "animation/magiclamp/magiclamp.cpp: MagicLampAnimation::Step"]}
{"id": "C03", "title": "Linear stepper only depends on total elapsed time", "statement": "After any sequence of calls a linear stepper of positive length returns (sum of the milliseconds so far) / length, so splitting, merging or reordering the time deltas does not change the result and the result never decreases.", "quantifier": "every length > 0 and every finite sequence of deltas", "why_tests_cant": "infinitely many sequences of deltas", "anchors": ["animation/stepper/linear.h: Linear"]}
{"id": "C04", "title": "A linear animation finishes on time and stays finished", "statement": "An animation driven by a fresh linear stepper of length L reports completion (Step returns false with Progress()=1) exactly at the first Step at which the total elapsed time reaches L, and every later Step also returns false with Progress()=1. The length has to be positive: with length 0 every Step returns false with Progress()=0, so the animation never shows its end.", "quantifier": "every positive length, every sequence of Step durations", "why_tests_cant": "unbounded histories", "anchors": ["animation/stepper/linear.h: Linear", "animation/bounce/bounce.cpp: BounceAnimation::Step"]}
{"id": "C05", "title": "Reverse complements the stepper it wraps", "statement": "Reverse(s) returns 1 minus what s would have returned to the same calls; reversing twice is the original stepper; the Progress() of an animation driven by Reverse(s) and that of one driven by s add up to 1 after every Step, as long as s returns no NaN. When s returns NaN, both are 0.", "quantifier": "every stepper and every sequence of deltas", "why_tests_cant": "arbitrary steppers and histories", "anchors": ["animation/stepper/reverse.h: Reverse"]}
{"id": "C06", "title": "Steppers handed to an animation are copied", "statement": "Giving a stepper to an animation copies its current state: stepping the animation does not change the caller's stepper or any other animation made from it, and the animation continues from the progress the stepper had reached.", "quantifier": "every interleaving of calls on the two copies", "why_tests_cant": "all interleavings", "anchors": ["animation/stepper/linear.h: Linear", "animation/bounce/bounce.cpp: BounceAnimation::BounceAnimation", "animation-glib/stepper/stepper-holder.cpp: animation_stepper_holder_new"]}
{"id": "C07", "title": "Progress is in the unit interval from construction on", "statement": "Progress() is between 0 and 1 immediately after construction, before the first Step, for every stepper. (Violated: the constructors do not clamp. It holds for fresh Linear and Reverse(Linear) steppers.)", "quantifier": "every stepper", "why_tests_cant": "tests only construct with fresh steppers", "anchors": ["animation/bounce/bounce.cpp: BounceAnimation::BounceAnimation", "animation/glide/glide.cpp: GlideAnimation::GlideAnimation", "animation/zoom/zoom.cpp: ZoomAnimation::ZoomAnimation", "animation/magiclamp/magiclamp.cpp: MagicLampAnimation::MagicLampAnimation"]}
{"id": "C08", "title": "Bounce starts at the initial scale and ends at identity", "statement": "At progress 1 the Bounce transform maps every point to itself. At progress 0 it scales every point uniformly about the middle of the target box by the initial scale.", "quantifier": "every target box, every initial/maximum scale, every number of bounces, every point", "why_tests_cant": "continuum of parameters", "anchors": ["animation/bounce/bounce.cpp: ComputeNBounceScaleFactor", "animation/bounce/bounce.cpp: ComputeBounceTransform"]}
{"id": "C09", "title": "Bounce scale stays inside its envelope", "statement": "At every progress p the Bounce scale factor is within (maximum-initial)(1-p) of the straight line from the initial scale to 1; with one bounce and initial <= maximum it is never below that line and never above the maximum of maximum scale and 1.", "quantifier": "every progress in [0,1], all scales and bounce counts", "why_tests_cant": "continuum of progress values", "anchors": ["animation/bounce/bounce.cpp: ComputeNBounceScaleFactor"]}
{"id": "C10", "title": "Bounce never mirrors the window", "statement": "The Bounce scale factor is positive throughout the animation, so the surface is never flipped. (Violated for two or more bounces inside the documented GObject parameter ranges; holds for one bounce.)", "quantifier": "every progress in [0,1], all in-range scales and bounce counts", "why_tests_cant": "needs an extremum over a continuum", "anchors": ["animation/bounce/bounce.cpp: ComputeNBounceScaleFactor", "animation-glib/bounce/bounce.cpp: animation_bounce_class_init"]}
{"id": "C11", "title": "Bounce keeps the middle of the surface still", "statement": "At every progress the middle of the target box (in surface coordinates) is mapped to itself, and the vector between the images of two points is the scale factor times the vector between the points.", "quantifier": "every progress, box, scales, bounce count and pair of points", "why_tests_cant": "continuum of inputs", "anchors": ["animation/bounce/bounce.cpp: ComputeBounceTransform", "animation/box_calculation.h: ComputeBoxCenterOffset"]}
{"id": "C12", "title": "Zoom interpolates the box linearly", "statement": "At every progress p the Zoom transform maps the surface of the 'to' box onto the box whose corners are (1-p) times the 'from' corners plus p times the 'to' corners (relative to the 'to' origin); in particular it is the 'from' box at 0 and the identity at 1.", "quantifier": "every progress and every pair of boxes accepted by the constructor", "why_tests_cant": "continuum of inputs", "anchors": ["animation/zoom/zoom.cpp: ComputeZoomTransform"]}
{"id": "C13", "title": "Zoom transform is always finite", "statement": "Whatever boxes the constructor is given, including empty and inverted ones, and whatever From box is set later, every Zoom step stores a transform with finite entries only: no division by zero enters it.", "quantifier": "every pair of boxes, every history of From changes and Steps", "why_tests_cant": "arbitrary degenerate boxes and histories", "anchors": ["animation/zoom/zoom.cpp: EnsureNonZeroArea", "animation/zoom/zoom.cpp: ZoomAnimation::ZoomAnimation", "animation/zoom/zoom.cpp: ComputeZoomTransform"]}
{"id": "C14", "title": "Extremes are the transformed corners and are affine", "statement": "For Bounce, Zoom and Glide, at every moment Extremes(corners) is Matrix() applied to each corner, and the fourth (w) coordinate of each result is 1, so no perspective divide is needed.", "quantifier": "every history of Steps and property changes, every four corners", "why_tests_cant": "all histories and all corners", "anchors": ["animation/bounce/bounce.cpp: BounceAnimation::Extremes", "animation/glide/glide.cpp: GlideAnimation::Extremes", "animation/zoom/zoom.cpp: ZoomAnimation::Extremes", "animation/transform_calculation.h"]}
{"id": "C15", "title": "Glide ends at identity", "statement": "At progress 1 the Glide transform maps every surface point (x,y,0) to itself. (Partly violated: x and y are exact, but the point ends at depth -1/screenWidth instead of 0.)", "quantifier": "every box, angle, distance, rotation axis, screen width and point", "why_tests_cant": "continuum of inputs; the test hides the error in its tolerance", "anchors": ["animation/glide/glide.cpp: ComputeGlideTransform", "animation/glide/glide.cpp: CreatePerspectiveDistortionMatrix"]}
{"id": "C16", "title": "Glide moves the surface rigidly", "statement": "At every progress the Glide transform preserves distances: the three-dimensional distance between the images of two surface points is the distance between the points.", "quantifier": "every progress, parameters and pair of points", "why_tests_cant": "continuum of inputs", "anchors": ["animation/glide/glide.cpp: ComputeGlideTransform"]}
{"id": "C17", "title": "Property changes take effect at the next Step only", "statement": "Setting any animation property leaves Matrix()/Extremes()/Progress() unchanged until the next Step, and that Step produces what it would have produced had the property had that value all along.", "quantifier": "every history of setter calls and Steps", "why_tests_cant": "all interleavings of setters and Steps", "anchors": ["animation/bounce/bounce.cpp: MaximumScale (ANIMATION_DEFINE_PROPERTY)", "animation/glide/glide.cpp", "animation/zoom/zoom.cpp", "animation/magiclamp/magiclamp.cpp"]}
{"id": "C18", "title": "Magic lamp ends at the target", "statement": "At progress 1 the magic lamp grid is exactly the regular lattice over the target box, so DeformUVToModelSpace maps the unit square linearly onto the target box.", "quantifier": "every source and target box, every in-range parameter and grid size", "why_tests_cant": "continuum of inputs", "anchors": ["animation/magiclamp/magiclamp.cpp: MoveGridVerticallyTowardsTargetWithXSigmoidDeformation"]}
{"id": "C19", "title": "Magic lamp starts at the source", "statement": "At progress 0 the magic lamp grid is exactly the regular lattice over the source box, so DeformUVToModelSpace maps the unit square linearly onto the source box. (Violated when the target lies below the source; holds when the source lies below the target.)", "quantifier": "every source and target box, every in-range parameter and grid size", "why_tests_cant": "tests use one geometry", "anchors": ["animation/magiclamp/magiclamp.cpp: MoveGridVerticallyTowardsTargetWithXSigmoidDeformation"]}
{"id": "C20", "title": "Magic lamp vertices stay between source and target", "statement": "At every progress, for a target above the source, each vertex's x and y lie between the corresponding source and target lattice coordinates.", "quantifier": "every progress in [0,1], every in-range parameter, every vertex", "why_tests_cant": "continuum of inputs", "anchors": ["animation/magiclamp/magiclamp.cpp: MoveGridVerticallyTowardsTargetWithXSigmoidDeformation", "animation/magiclamp/magiclamp.cpp: Sigmoid"]}
{"id": "C21", "title": "Magic lamp never produces NaN or infinity", "statement": "With a grid of at least 2x2, source and target tops at different heights and in-range parameters, every vertex coordinate computed by a Step is a finite number. (Violated at the boundary stretch factor 1.0 that the GObject range permits, for a 1-wide or 1-high grid, and for equal tops.)", "quantifier": "every progress, box and in-range parameter", "why_tests_cant": "special values arise only at exact boundary inputs", "anchors": ["animation/magiclamp/magiclamp.cpp: MoveGridVerticallyTowardsTargetWithXSigmoidDeformation", "animation-glib/magiclamp/magiclamp.cpp: animation_magiclamp_class_init"]}
{"id": "C22", "title": "DeformUVToModelSpace interpolates inside the grid", "statement": "For uv in the unit square DeformUVToModelSpace reads only existing vertices, returns a vertex exactly at lattice uv values, and otherwise returns a point whose coordinates lie between the smallest and largest vertex coordinates.", "quantifier": "every grid, every resolution of at least 2x2, every uv in [0,1]x[0,1]", "why_tests_cant": "continuum of uv values, all grid contents", "anchors": ["animation/magiclamp/magiclamp.cpp: InterpolateIntoGrid", "animation/magiclamp/magiclamp.cpp: MagicLampAnimation::DeformUVToModelSpace"]}
{"id": "C23", "title": "DeformUVToModelSpace is memory safe for every uv", "statement": "DeformUVToModelSpace clamps uv to the unit square and so never reads outside the grid. (Violated: the clamped value is computed but not used; uv outside the unit square reads out of bounds.)", "quantifier": "every uv", "why_tests_cant": "out-of-range inputs read whatever memory is there", "anchors": ["animation/magiclamp/magiclamp.cpp: InterpolateIntoGrid"]}
{"id": "C24", "title": "Changing grid resolution is memory safe", "statement": "After setting a new grid resolution, Step, DeformUVToModelSpace and Extremes access only existing vertices. (Violated: the vertex storage is not resized when the resolution grows.)", "quantifier": "every pair of resolutions and every later call", "why_tests_cant": "out-of-bounds accesses may silently succeed", "anchors": ["animation/magiclamp/magiclamp.cpp: GridResolution (ANIMATION_DEFINE_PROPERTY)", "animation/magiclamp/magiclamp.cpp: MoveGridVerticallyTowardsTargetWithXSigmoidDeformation"]}
{"id": "C25", "title": "Magic lamp extremes agree with DeformUVToModelSpace at the corners", "statement": "Extremes() equals DeformUVToModelSpace at (0,0), (1,0), (0,1) and (1,1).", "quantifier": "every grid content, every resolution of at least 2x2", "why_tests_cant": "all grids", "anchors": ["animation/magiclamp/magiclamp.cpp: MagicLampAnimation::Extremes", "animation/magiclamp/magiclamp.cpp: InterpolateIntoGrid"]}
{"id": "C26", "title": "Copying a vector keeps its coordinates", "statement": "Assigning one vector or point to another makes them equal. (Violated for the four-coordinate vector: assignment exchanges z and w. It holds for points.)", "quantifier": "every value", "why_tests_cant": "all values; tests do not assign Vector4D", "anchors": ["animation/geometry.h: Vector4DModel::operator=", "animation/geometry.h: Vector4DModel::swap", "animation/geometry_traits.h: assign"]}
{"id": "C27", "title": "Box containment is the closed rectangle", "statement": "A box contains a point exactly when the point is between its corners in both coordinates, edges included; moving box and point together does not change containment, inverted boxes contain nothing, and boxes are convex. ComputeRotationAxis gives the point that divides the width and the height in the proportions asked for, which is in the box, and ComputeBoxCenter the middle.", "quantifier": "every box and point", "why_tests_cant": "continuum of inputs", "anchors": ["animation/geometry.h: Box::contains"]}
{"id": "C28", "title": "Grab selects the nearest mesh point", "statement": "GrabAnchor(p) pins the mesh point closest to p in Euclidean distance, the first in row-major order on ties, provided coordinates are of representable size.", "quantifier": "every mesh configuration and every p", "why_tests_cant": "continuum of positions and ties", "anchors": ["animation/wobbly/wobbly_internal.h: ClosestIndexToPosition", "animation/wobbly/wobbly.cpp: Model::GrabAnchor"]}
{"id": "C29", "title": "A grabbed point only moves when told to", "statement": "While grabbed, a mesh point is unaffected by springs: Step leaves it in place and it carries no velocity. (Violated: with exactly one anchor live, the maximum-range constraint and the settle-snap may move it. It holds when two or more anchors are live and for the spring integration itself. With exactly one anchor and a positive maximum range, a grabbed point stays in place exactly if it was on its target, or Step answers true and it was not beyond the range; otherwise it jumps to its target when Step answers false, and is pulled back to the end of the range when it was beyond. From the end of the range on it never lets the model settle: every later Step answers true.)", "quantifier": "every state, every number of steps", "why_tests_cant": "all reachable states", "anchors": ["animation/wobbly/wobbly.cpp: Model::GrabAnchor", "animation/wobbly/wobbly_internal.h: AnchoredIntegration", "animation/wobbly/wobbly.cpp: ConstrainmentStep", "animation/wobbly/wobbly.cpp: Model::Step"]}
{"id": "C30", "title": "A model at rest stays at rest", "statement": "If no anchor is live, every velocity is zero and the mesh is the regular lattice, then no Step moves anything and every Step of non-zero time returns false. (Violated after a resize with an inserted anchor live, which leaves a spring of stale length, see C44. What holds after every history: it stays at rest exactly if no spring missed resizes that come to a pixel; otherwise every such Step returns true.)", "quantifier": "every size, position, settings and elapsed time", "why_tests_cant": "all parameters and any number of steps", "anchors": ["animation/wobbly/wobbly.cpp: Model::Step", "animation/wobbly/wobbly_internal.h: SpringStep"]}
{"id": "C31", "title": "Settling is stable", "statement": "Once Step with non-zero time returns false, every later Step returns false and the mesh does not move again until another operation is performed. (Violated when an anchor inserted alongside others becomes the only one left: the settle-snap moves the mesh off that anchor's springs. It holds with no anchor, with several, and with a single grab; and two such answers in a row are final in every state.)", "quantifier": "every reachable state, every later sequence of Steps", "why_tests_cant": "unbounded histories", "anchors": ["animation/wobbly/wobbly.cpp: Model::Step", "animation/wobbly/wobbly.cpp: Integrate"]}
{"id": "C32", "title": "Step with zero elapsed time is inert", "statement": "Step(0) moves no mesh point except for the settle-snap and returns whatever the last Step or grab left as pending.", "quantifier": "every reachable state", "why_tests_cant": "all states", "anchors": ["animation/wobbly/wobbly.cpp: Model::Step"]}
{"id": "C33", "title": "Step depends on time only in 16 ms ticks", "statement": "The effect of Step(t) depends only on the number of started 16 ms ticks in t; with no anchor or several anchors live, stepping for a+b ticks reaches the same mesh as stepping for a ticks and then b ticks. Calling Step(1) sixteen times is therefore sixteen ticks, not one. With exactly one anchor live the split of the ticks into Steps matters.", "quantifier": "every state, every pair of tick counts", "why_tests_cant": "all states and splits", "anchors": ["animation/wobbly/wobbly.cpp: Model::Step", "animation/wobbly/wobbly.cpp: Integrate"]}
{"id": "C34", "title": "Springs obey Newton's third law", "statement": "The two forces a spring applies are equal and opposite, and the spring forces over the whole mesh and inserted anchors sum to zero at every moment.", "quantifier": "every set of springs and every mesh configuration", "why_tests_cant": "continuum of configurations", "anchors": ["animation/wobbly/wobbly_internal.h: Spring::ApplyForces", "animation/wobbly/wobbly_internal.h: SpringStep::CalculateForces"]}
{"id": "C35", "title": "Forces vanish exactly inside the dead zone", "statement": "A spring exerts no force and does not ask for more steps exactly when it is within one pixel of its desired length in each coordinate; otherwise in each coordinate the force is springConstant/2 times the deviation, pulling towards the desired length.", "quantifier": "every spring, every configuration, every spring constant", "why_tests_cant": "continuum of configurations", "anchors": ["animation/wobbly/wobbly_internal.h: Spring::ApplyForces", "animation/wobbly/wobbly_internal.h: Spring::DeltaFromDesired"]}
{"id": "C36", "title": "Velocities are either zero or at least 0.1", "statement": "After every integration step each velocity coordinate is zero or at least 0.1 in magnitude, and the step asks for more exactly when some velocity is non-zero or some spring is outside its dead zone; with no force a moving point's speed never increases and it stops after finitely many steps.", "quantifier": "every state, positive friction up to the mass", "why_tests_cant": "all states and unbounded step counts", "anchors": ["animation/wobbly/wobbly_internal.h: EulerIntegrate", "animation/wobbly/wobbly_internal.h: SpringStep"]}
{"id": "C37", "title": "Maximum range is respected", "statement": "After the range constraint, every mesh point is within maximumRange of its target, points already within range are untouched, and the others are moved along the straight line to their target onto the circle of that range. So while exactly one anchor is owned, a Step that answers true leaves every mesh point within maximumRange of its target but for the movement of the last tick, and one that answers false leaves it on its target.", "quantifier": "every mesh, target and positive maximum range", "why_tests_cant": "continuum of configurations", "anchors": ["animation/wobbly/wobbly.cpp: ConstrainmentStep"]}
{"id": "C38", "title": "The model is translation invariant", "statement": "Performing the same history of grabs, inserts, anchor moves, releases, steps, relative moves and resizes on a model created elsewhere, with all absolute positions shifted by the same vector, gives the same return values and the same mesh shifted by that vector.", "quantifier": "every history of operations and every shift", "why_tests_cant": "all histories", "anchors": ["animation/wobbly/wobbly.cpp: Model"]}
{"id": "C39", "title": "Moving the model by a delta moves everything by that delta", "statement": "MoveModelBy(d) shifts every mesh point, the target mesh and inserted anchors by exactly d, leaving velocities, spring deviations (where they can be read at all, C49) and the result of later Steps (up to the shift) unchanged.", "quantifier": "every state and delta", "why_tests_cant": "all states", "anchors": ["animation/wobbly/wobbly.cpp: Model::MoveModelBy"]}
{"id": "C40", "title": "MoveModelTo puts the settled position at the requested point", "statement": "If MoveModelTo(p) returns, it has only shifted the model, which counts as being at p afterwards: MoveModelTo(p + d) then shifts it by d. With one live anchor or only grabs, stepping until Step returns false leaves the top-left mesh point exactly at p.", "quantifier": "every state and point", "why_tests_cant": "all states", "anchors": ["animation/wobbly/wobbly.cpp: Model::MoveModelTo", "animation/wobbly/wobbly.cpp: TargetPosition"]}
{"id": "C41", "title": "MoveModelTo and ResizeModel always return", "statement": "Calls that need the settled position (MoveModelTo, ResizeModel, and releasing or adding anchors) always return. (Violated: with two anchors pulled apart by 6 pixels, with a spring constant below 3, and with the default settings when an inner point is let go between four held neighbours, the settling loop never ends. It need not end with nothing held either: with spring constant 8 and friction 0.5, a corner cell that was pulled apart by one pixel swings for ever. Proved: on a resting model every such call returns; for spring constant >= 3 and no anchor there is no motionless state in which the loop spins.)", "quantifier": "every reachable state and every in-range setting", "why_tests_cant": "non-termination is not observable by a finite test", "anchors": ["animation/wobbly/wobbly.cpp: TargetPositionByFullIntegration", "animation/wobbly/wobbly.cpp: TargetMesh::Activate", "animation/wobbly/wobbly_internal.h: SpringStep"]}
{"id": "C42", "title": "Resizing to the current size does nothing", "statement": "ResizeModel with the current width and height leaves the whole model unchanged.", "quantifier": "every state of a model of positive width and height", "why_tests_cant": "all states", "anchors": ["animation/wobbly/wobbly.cpp: Model::ResizeModel"]}
{"id": "C43", "title": "Resizing a resting model gives a resting model of the new size", "statement": "Resizing a model at rest leaves it at rest at the same top-left position as the regular lattice of the new size, and resizing through an intermediate size gives the same result as resizing directly.", "quantifier": "every position, every pair or chain of positive sizes", "why_tests_cant": "continuum of sizes", "anchors": ["animation/wobbly/wobbly.cpp: Model::ResizeModel", "animation/wobbly/wobbly.cpp: SpringMesh::Scale"]}
{"id": "C44", "title": "Resizing with an inserted anchor scales every spring", "statement": "After ResizeModel every spring, including those replaced while an inserted anchor is live, has the desired length for the new size once the anchor is released. (Violated: the replaced spring keeps its old length. What does hold after every history: once no inserted anchor is live, each spring has its first length times the factors of those resizes that found it in the mesh; so all lengths are right exactly if the resizes each spring missed cancel out.)", "quantifier": "every history of inserts, releases and resizes", "why_tests_cant": "needs a particular interleaving", "anchors": ["animation/wobbly/wobbly.cpp: SpringMesh::Scale", "animation/wobbly/wobbly_internal.h: SpringVector::TakeMatching"]}
{"id": "C45", "title": "Target tracking is on exactly while one anchor is live", "statement": "At every point of every history the number of activations equals the number of live anchors, and the range constraint, target movement and snapping are in force exactly when that number is one.", "quantifier": "every history of grabs, inserts, moves and releases, in any release order", "why_tests_cant": "all histories", "anchors": ["animation/wobbly/wobbly.cpp: TargetMesh::Activate", "animation/wobbly/wobbly_internal.h: ConstrainingAnchor", "animation/wobbly/wobbly_internal.h: TargetMesh::Active"]}
{"id": "C46", "title": "Lock counts equal live grabs", "statement": "At every point of every history a mesh point is pinned exactly when at least one live grab holds it, each release undoes exactly one grab, and no count underflows.", "quantifier": "every history, every release order", "why_tests_cant": "all histories", "anchors": ["animation/wobbly/wobbly_internal.h: TrackedAnchors", "animation/wobbly/wobbly.cpp: GrabAnchor"]}
{"id": "C47", "title": "The first grabbed anchor is tracked correctly", "statement": "The remembered first anchor is a pinned mesh point whenever any mesh point is pinned, is none otherwise, and does not change while it stays pinned.", "quantifier": "every history", "why_tests_cant": "all histories", "anchors": ["animation/wobbly/wobbly_internal.h: TrackedAnchors::Lock", "animation/wobbly/wobbly_internal.h: TrackedAnchors::Unlock", "animation/wobbly/wobbly_internal.h: TrackedAnchors::WithFirstGrabbed"]}
{"id": "C48", "title": "Releasing all anchors restores the springs", "statement": "After every inserted anchor has been released, in any order, the mesh has exactly the original 24 springs and no bookkeeping left over.", "quantifier": "every history of inserts and releases, every release order", "why_tests_cant": "exponentially many orders", "anchors": ["animation/wobbly/wobbly_internal.h: SpringVector::TakeMatching", "animation/wobbly/wobbly_internal.h: SpringVector::EmplaceAndTrack", "animation/wobbly/wobbly.cpp: InsertedSprings"]}
{"id": "C49", "title": "No spring refers to a released anchor", "statement": "No Step ever reads or writes the storage of an anchor that has already been released. (Violated when an anchor inserted on another anchor's spring outlives it; holds when inserted anchors are released in reverse order.)", "quantifier": "every history of inserts and releases", "why_tests_cant": "use after free may go unnoticed", "anchors": ["animation/wobbly/wobbly.cpp: InsertedSprings", "animation/wobbly/wobbly.cpp: InstallAnchorSprings", "animation/wobbly/wobbly_internal.h: AnchorDataVector"]}
{"id": "C50", "title": "Spring identifiers are never reused", "statement": "No two live springs ever share an identity, so releasing an anchor can only affect its own springs.", "quantifier": "every history", "why_tests_cant": "all histories", "anchors": ["animation/wobbly/wobbly.cpp: NextSpringID", "animation/wobbly/wobbly_internal.h: ObjectIdentifier"]}
{"id": "C51", "title": "InsertAnchor never throws", "statement": "In every reachable state InsertAnchor finds the spring endpoints it needs and does not throw. With coordinates of representable size and where a Step would not read freed memory (C49), it returns, unless the settling loop that the first anchor starts runs forever (C41). Where a Step would read freed memory, so does InsertAnchor, unless that loop runs forever.", "quantifier": "every history", "why_tests_cant": "all histories", "anchors": ["animation/wobbly/wobbly.cpp: InsertPointStrategy", "animation/wobbly/wobbly.cpp: FindSpringToSplit"]}
{"id": "C52", "title": "Inserting an anchor into a resting model does not disturb it", "statement": "Inserting an anchor anywhere in a model at rest produces no force: Step returns false and moves nothing until the anchor is moved.", "quantifier": "every size, position and insertion point", "why_tests_cant": "continuum of insertion points", "anchors": ["animation/wobbly/wobbly.cpp: InsertPointStrategy", "animation/wobbly/wobbly.cpp: InstallAnchorSprings"]}
{"id": "C53", "title": "InsertAnchor splits the nearest spring", "statement": "The split spring minimises the distance from the insertion point to its first end, and among those the distance to its second end. It is replaced by two springs that run from the anchor to its two ends and stay so until the anchor is released.", "quantifier": "every list of springs and insertion point", "why_tests_cant": "all configurations and ties", "anchors": ["animation/wobbly/wobbly.cpp: FindSpringToSplit"]}
{"id": "C54", "title": "Moving an anchor moves exactly that anchor", "statement": "Anchor::MoveBy(d) moves the anchored point by d and no other mesh point; it also moves the targets by d exactly when it is the only live anchor.", "quantifier": "every state, anchor and delta", "why_tests_cant": "all states", "anchors": ["animation/wobbly/wobbly_internal.h: ConstrainingAnchor::MoveBy", "animation/wobbly/wobbly.cpp: GrabAnchor::MoveBy", "animation/wobbly/wobbly.cpp: TargetMesh::Activate"]}
{"id": "C55", "title": "Texture deformation reproduces the undeformed mesh", "statement": "DeformTexcoords is the bicubic Bezier surface whose control points are the sixteen mesh points. For a regular lattice it is affine: (u,v) maps to origin + (v*width, u*height), the convention used throughout the project's tests; for every mesh the four unit corners map to the four mesh corners.", "quantifier": "every u,v, every lattice, every mesh for the corners", "why_tests_cant": "continuum of inputs", "anchors": ["animation/wobbly/wobbly_internal.h: DeformUnitCoordsToMeshSpace"]}
{"id": "C56", "title": "Deformed texture coordinates stay inside the mesh hull", "statement": "For unit coordinates in [0,1] the deformed point is a convex combination of the mesh points, so it is inside the bounding box reported by Extremes up to the half-pixel rounding.", "quantifier": "every mesh and unit coordinates", "why_tests_cant": "continuum of inputs", "anchors": ["animation/wobbly/wobbly_internal.h: DeformUnitCoordsToMeshSpace", "animation/wobbly/wobbly.cpp: Model::Extremes"]}
{"id": "C57", "title": "Extremes is the bounding box of the mesh", "statement": "Extremes returns the axis-aligned bounding box of the mesh points with each bound rounded to the nearest integer, so every mesh point is within half a pixel of it. (The documented containment is violated by up to half a pixel: the box of every new model whose left side is more than half way between two pixels misses the left column of mesh points.)", "quantifier": "every mesh of representable coordinates", "why_tests_cant": "continuum of inputs", "anchors": ["animation/wobbly/wobbly.cpp: Model::Extremes", "animation/wobbly/wobbly.cpp: SetToExtreme"]}
{"id": "C58", "title": "Horizontal and vertical motion are independent without the range constraint", "statement": "With no anchor or several anchors live, the x coordinates after any Step depend only on the x coordinates before, and likewise for y, apart from the return value.", "quantifier": "every state", "why_tests_cant": "continuum of configurations", "anchors": ["animation/wobbly/wobbly_internal.h: SpringStep", "animation/wobbly/wobbly_internal.h: EulerIntegrate"]}
{"id": "C59", "title": "Released GObject anchors are inert", "statement": "Releasing a GObject anchor twice, or moving it after release, has no effect; each anchor releases its underlying anchor exactly once over its lifetime.", "quantifier": "every sequence of move, release and destruction", "why_tests_cant": "all call sequences", "anchors": ["animation-glib/wobbly/anchor.cpp: wobbly_anchor_release", "animation-glib/wobbly/anchor.cpp: wobbly_anchor_move_by", "animation-glib/wobbly/anchor.cpp: wobbly_anchor_finalize"]}
{"id": "C60", "title": "A GObject wobbly model follows position and size requests", "statement": "After any sequence of calls the stored position is the last absolute request (move_to or the write-only position property) plus the later relative ones, and the stored size the last one asked for. While no anchor is made every such sequence returns and leaves the mesh at rest as a regular lattice with that position and size.", "quantifier": "every call sequence", "why_tests_cant": "all call sequences", "anchors": ["animation-glib/wobbly/model.cpp: animation_wobbly_model_move_to", "animation-glib/wobbly/model.cpp: animation_wobbly_model_move_by", "animation-glib/wobbly/model.cpp: animation_wobbly_model_resize", "animation-glib/wobbly/model.cpp: animation_wobbly_model_set_property"]}
{"id": "C61", "title": "Reading the stepper property does not destroy it", "statement": "Getting an animation's stepper through the GObject interface and dropping the reference leaves the animation usable. (Violated: the wrapper frees a stepper it does not own.)", "quantifier": "every sequence of get, unref and step", "why_tests_cant": "memory errors may go unnoticed", "anchors": ["animation-glib/stepper/stepper-wrapper.cpp: animation_stepper_wrapper_finalize", "animation-glib/bounce/bounce.cpp: animation_bounce_get_stepper"]}
{"id": "C62", "title": "GObject constructors honour their arguments", "statement": "The GObject convenience constructors make the animation that the native constructor makes from the same arguments, with unit boxes and a 300 ms linear stepper standing for NULL. (Holds for bounce. Violated elsewhere: the glide length, the current progress of a zoom and four magic lamp parameters are ignored, a degenerate zoom start box is not replaced, a negative magic lamp resolution is undefined behaviour.)", "quantifier": "every argument value", "why_tests_cant": "all argument values", "anchors": ["animation-glib/bounce/bounce.cpp: animation_bounce_new", "animation-glib/zoom/zoom.cpp: animation_zoom_new", "animation-glib/glide/glide.cpp: animation_glide_new", "animation-glib/magiclamp/magiclamp.cpp: animation_magiclamp_new"]}
{"id": "C63", "title": "A point view reads and writes exactly its own point", "statement": "The view on point i of a coordinate array shows point i, also after conversion to a read-only view, and an in-place operation through it changes exactly the two coordinates of point i.", "quantifier": "every array, index and in-place operation", "why_tests_cant": "index arithmetic errors only show for particular layouts", "anchors": ["animation/geometry.h: PointView", "animation/geometry_traits.h: VectorApplyOntoRecursive"]}
{"id": "C64", "title": "A GObject anchor may outlive its model", "statement": "A program may drop its references to a wobbly model and to its anchors in any order. (Violated: an anchor that was not released keeps pointing into the freed model, so even dropping it reads freed memory.)", "quantifier": "every call sequence and order of dropping references", "why_tests_cant": "use after free is silent in most runs; all orders", "anchors": ["animation-glib/wobbly/anchor.cpp: animation_wobbly_anchor_finalize", "animation-glib/wobbly/model.cpp: animation_wobbly_model_finalize"]}
{"id": "C65", "title": "GObject wobbly settings stay within their declared ranges", "statement": "The spring-k, friction and movement-range properties always read back what was asked for and stay within their declared ranges. (Violated: the setter functions write any number, and a number out of range given to the constructor leaves the setting at zero.)", "quantifier": "every call sequence and argument value", "why_tests_cant": "all values and sequences", "anchors": ["animation-glib/wobbly/model.cpp: animation_wobbly_model_set_spring_k", "animation-glib/wobbly/model.cpp: animation_wobbly_model_set_property", "animation-glib/wobbly/model.cpp: animation_wobbly_model_new"]}
{"id": "C66", "title": "Writing and reading a GObject property agree", "statement": "Writing a value of the property's type and within its declared range and then reading the property gives the value written and leaves the other properties alone; a value out of range is refused and changes nothing. (Violated for the magic lamp's stepper, which cannot be read although it is declared readable.)", "quantifier": "every animation state, property and value", "why_tests_cant": "all values and states", "anchors": ["animation-glib/bounce/bounce.cpp: animation_bounce_set_property", "animation-glib/zoom/zoom.cpp: animation_zoom_set_property", "animation-glib/glide/glide.cpp: animation_glide_set_property", "animation-glib/magiclamp/magiclamp.cpp: animation_magiclamp_get_property"]}
{"id": "C67", "title": "A GObject animation behaves like its native animation", "statement": "Every sequence of calls on a GObject animation (steps, property writes, setter functions, new steppers) has the effect of the corresponding calls on the native animation, so all guarantees of the native animation carry over, such as progress within 0 and 1. Handing over a NULL stepper crashes.", "quantifier": "every animation and call sequence", "why_tests_cant": "all call sequences", "anchors": ["animation-glib/bounce/bounce.cpp: animation_bounce_step", "animation-glib/zoom/zoom.cpp: animation_zoom_step", "animation-glib/glide/glide.cpp: animation_glide_step", "animation-glib/magiclamp/magiclamp.cpp: animation_magiclamp_set_property"]}
{"id": "C68", "title": "GObject animation parameters stay within their declared ranges", "statement": "The numeric parameters of bounce, glide and magic lamp always lie in the ranges their properties declare. (Violated: setter functions and constructors take any number; a glide made with screen width 0 never has a finite matrix.)", "quantifier": "every construction and call sequence", "why_tests_cant": "all values and sequences", "anchors": ["animation-glib/bounce/bounce.cpp: animation_bounce_class_init", "animation-glib/glide/glide.cpp: animation_glide_class_init", "animation-glib/magiclamp/magiclamp.cpp: animation_magiclamp_class_init"]}
{"id": "C69", "title": "Construct-only properties never change", "statement": "The target of a bounce, the final box of a zoom, the target and screen width of a glide, and the target and resolution of a magic lamp stay what they were at construction.", "quantifier": "every animation and call sequence", "why_tests_cant": "all call sequences", "anchors": ["animation-glib/bounce/bounce.cpp: animation_bounce_class_init", "animation-glib/zoom/zoom.cpp: animation_zoom_class_init", "animation-glib/glide/glide.cpp: animation_glide_class_init", "animation-glib/magiclamp/magiclamp.cpp: animation_magiclamp_class_init"]}
{"id": "C70", "title": "Steppers are copied into animations", "statement": "Giving a GObject stepper to an animation, at construction or later, copies it: later steps of the stepper object do not move the animation, steps of the animation do not move the stepper object, and the stepper object may be dropped.", "quantifier": "every program using steppers and animations", "why_tests_cant": "all interleavings of calls on both objects", "anchors": ["animation-glib/bounce/bounce.cpp: animation_bounce_animation_set_stepper", "animation-glib/constructor-helpers.h: animation_stepper_from_gvalue", "animation-glib/stepper/stepper-holder.cpp: animation_stepper_holder_set_property"]}
{"id": "C71", "title": "What GObject steppers return", "statement": "A GObject linear stepper returns the share of its length used up by its own steps; a reverse stepper returns 1 minus what its base would have returned from the moment the reverse stepper was made. (Violated for length 0, which is accepted although the declared minimum is 1: NaN.)", "quantifier": "every length and program", "why_tests_cant": "all lengths and interleavings", "anchors": ["animation-glib/stepper/linear.cpp: animation_linear_stepper_new", "animation-glib/stepper/reverse.cpp: animation_reverse_stepper_new", "animation-glib/stepper/stepper.cpp: animation_stepper_step"]}
{"id": "C72", "title": "Stepper objects live exactly as long as they are needed", "statement": "A stepper made by a constructor is freed exactly when the program holds no reference on it and no existing reverse stepper is based on it; when the program has dropped all its references nothing leaks.", "quantifier": "every program that obeys the reference rules", "why_tests_cant": "leaks and early frees are silent; all orders of dropping", "anchors": ["animation-glib/stepper/stepper-holder.cpp: animation_stepper_holder_finalize", "animation-glib/stepper/reverse.cpp: animation_reverse_stepper_dispose"]}
{"id": "C73", "title": "A stepper got from an animation is the animation's own", "statement": "Stepping the stepper got from an animation returns what the animation's stepper returns and moves it on; the animation's progress only follows at its next step, which continues from there and answers whether the progress is neither 0 nor 1.", "quantifier": "every state and pair of steps", "why_tests_cant": "all states", "anchors": ["animation-glib/stepper/stepper-wrapper.cpp: animation_stepper_wrapper_step", "animation-glib/bounce/bounce.cpp: animation_bounce_animation_get_stepper"]}
{"id": "C74", "title": "Geometry helpers work coordinate by coordinate in any number of dimensions", "statement": "For every type that implements the Dimension trait, assign, assign_value, scale, pointwise_scale, pointwise_add, pointwise_subtract and for_each_coordinate act on every coordinate separately, distance is the Euclidean distance over all coordinates and equals holds exactly when all coordinates agree. pointwise_div undoes pointwise_scale unless a divisor is zero. Points, views on points and four-vectors implement the trait.", "quantifier": "every trait implementation and all values", "why_tests_cant": "all types with any number of coordinates", "anchors": ["animation/geometry_traits.h: assign", "animation/geometry_traits.h: pointwise_add", "animation/geometry_traits.h: distance", "animation/geometry.h: Vector4DModel"]}
{"id": "C75", "title": "A point assigned to a four-vector has zero depth and w", "statement": "Assigning a two-dimensional point to a four-vector keeps x and y and sets z and w to zero; assigning a four-vector to a point drops z and w, and going there and back keeps the point. Points, four-vectors and points seen through a PointView can be combined in every way but one: a program in which a four-vector comes first and a PointView second does not compile, so no program reads beyond the point of a view in this way.", "quantifier": "every point, view and four-vector", "why_tests_cant": "all points and views; a combination that does not compile cannot be tested", "anchors": ["animation/geometry_traits.h: assign", "animation/geometry.h: DimensionAccess"]}
{"id": "C76", "title": "GObject reading functions show the native object", "statement": "The sixteen numbers of animation_transform_animation_matrix are a column-major matrix that takes given corners to exactly what animation_transform_animation_extremes writes. For a magic lamp the unit corners deform to the extremes, which are flat, and dividing the unit square by the reported resolution gives the vertices. Each wobbly extreme asked for is written whichever others are asked for, and deformed unit coordinates are inside the extremes up to half a pixel. The progress functions show what the stepper gave for no time right after construction, and 0 or 1 after a step exactly when that step answered false.", "quantifier": "every animation, matrix, grid, corner and output", "why_tests_cant": "all values and all subsets of outputs", "anchors": ["animation-glib/transform/transform.cpp: animation_transform_animation_matrix", "animation-glib/transform/transform.cpp: animation_transform_animation_extremes", "animation-glib/grid/grid.cpp: animation_grid_animation_deform_uv_to_model_space", "animation-glib/grid/grid.cpp: animation_grid_animation_resolution", "animation-glib/wobbly/model.cpp: animation_wobbly_model_query_extremes", "animation-glib/vector4d-internal.h: DimensionAccess"]}
{"id": "C77", "title": "NULL arguments of reading functions are refused", "statement": "Passing NULL for an argument of a GObject reading function writes nothing and crashes nothing. (Violated for the unit coordinate of animation_grid_animation_deform_uv_to_model_space, which is dereferenced unchecked.)", "quantifier": "every object and combination of NULL arguments", "why_tests_cant": "all states and combinations", "anchors": ["animation-glib/grid/grid.cpp: animation_grid_animation_deform_uv_to_model_space", "animation-glib/transform/transform.cpp: animation_transform_animation_extremes", "animation-glib/wobbly/model.cpp: animation_wobbly_model_deform_texcoords"]}
{"id": "C78", "title": "Glide turns the surface about its axis point", "statement": "At progress p a Glide shows the surface turned about the axis point (the unit axis location scaled by the target size) by (1-p) times the y angle about y and then (1-p) times the x angle about x. The axis point itself keeps its screen place and comes forward from -initialDistance to 0, up to a distance of exactly 1/screenWidth.", "quantifier": "every Glide, progress, angle, axis and surface point", "why_tests_cant": "all real angles, positions and progress values", "anchors": ["animation/glide/glide.cpp: ComputeGlideTransform", "animation/box_calculation.h: ComputeRotationAxisOffset"]}
{"id": "C79", "title": "Bounce swings as often as asked", "statement": "Divide a Bounce with n bounces into n equal parts. At the ends of each part the scale is on the straight line from the initial scale to 1, in the first, third, ... part it is above the line, in the second, fourth, ... below it, and half way through a part it is off the line by exactly (maximum-initial)(1-p).", "quantifier": "every Bounce with initial below maximum and every progress", "why_tests_cant": "all real progress values and bounce counts", "anchors": ["animation/bounce/bounce.cpp: SampleSineWave", "animation/bounce/bounce.cpp: ComputeScaleFactorFromProgressParameters"]}
{"id": "C80", "title": "The magic lamp surface is bilinear between vertices", "statement": "For unit coordinates in [0,1] DeformUVToModelSpace is the sum of the vertices weighted by the products of two hat functions one cell wide, so it is exactly bilinear in each cell and continuous across cells.", "quantifier": "every grid content and unit coordinate", "why_tests_cant": "all coordinates and vertices", "anchors": ["animation/magiclamp/magiclamp.cpp: InterpolateIntoGrid"]}
{"id": "C81", "title": "Animations do not jump", "statement": "While its parameters stay the same, every surface point of an animation moves on a path that is continuous in the progress and depends on nothing else; so a small change of progress never makes the picture jump.", "quantifier": "every animation, parameter set, history, stepper and surface point", "why_tests_cant": "continuity cannot be sampled", "anchors": ["animation/bounce/bounce.cpp: ComputeBounceTransform", "animation/zoom/zoom.cpp: ComputeZoomTransform", "animation/glide/glide.cpp: ComputeGlideTransform", "animation/magiclamp/magiclamp.cpp: MoveGridVerticallyTowardsTargetWithXSigmoidDeformation"]}
{"id": "C82", "title": "Resizing stretches a moving model about its position", "statement": "ResizeModel stretches mesh points, deformed unit coordinates, inserted anchors and the desired lengths of the springs in the mesh by the ratios of the sizes about the position that MoveModelTo would move; velocities and pinned points stay as they are.", "quantifier": "every state in which ResizeModel returns", "why_tests_cant": "all states, moving or not, with any anchors", "anchors": ["animation/wobbly/wobbly.cpp: wobbly::Model::ResizeModel", "animation/wobbly/wobbly.cpp: wobbly::Model::MoveModelTo"]}
{"id": "C83", "title": "Models in one program do not disturb each other", "statement": "Each wobbly model goes through exactly the states, and each of its Step calls gives exactly the answers, that the calls made on it and its anchors and the writes to its settings would give on a model alone in its process. Using, making or destroying other models has no effect on it, although all share one counter of spring identifiers.", "quantifier": "every program over any number of models, anchors and settings", "why_tests_cant": "all interleavings of calls on all models", "anchors": ["animation/wobbly/wobbly.cpp: NextSpringID", "animation/wobbly/wobbly.cpp: wobbly::Model::GrabAnchor", "animation/wobbly/wobbly.cpp: wobbly::Model::Step"]}
{"id": "C84", "title": "An anchor lasts exactly as long as a variable holds it", "statement": "The anchors in effect on a model are exactly those held by Anchor variables of the program, each by one variable; overwriting, moving over or destroying the variable ends it. When no variable holds an anchor of a model, no point is pinned, the range constraint is off and the springs join the same points as in a new model. The range constraint is on exactly while one variable holds an anchor of the model.", "quantifier": "every program from its start", "why_tests_cant": "all sequences of moves, assignments and destructions", "anchors": ["animation/wobbly/wobbly.h: Anchor", "animation/wobbly/wobbly.cpp: wobbly::Anchor::Anchor", "animation/wobbly/wobbly.cpp: wobbly::Model::InsertAnchor"]}
{"id": "C85", "title": "When the use of an anchor variable is defined", "statement": "MoveBy on an Anchor variable is undefined behaviour exactly when the variable is empty (default constructed or moved from) or its model is gone. Destroying or overwriting the variable is undefined behaviour exactly when it holds an anchor of a model that is gone; an empty variable can always be destroyed or overwritten.", "quantifier": "every reachable program state and variable", "why_tests_cant": "all programs; undefined behaviour may go unnoticed in a test", "anchors": ["animation/wobbly/wobbly.cpp: wobbly::Anchor::MoveBy", "animation/wobbly/wobbly.cpp: MovableAnchorDeleter", "animation/wobbly/wobbly.h: Anchor"]}
{"id": "C86", "title": "Settings are shared, not copied", "statement": "A model uses its Settings structure as it is at each call. Writing to the structure changes the settings of exactly the models made with it, those made before the write included, and making a model before or after the write comes to the same. In particular the JavaScript setters affect all models made with the default settings.", "quantifier": "every program state, settings structure and model", "why_tests_cant": "all programs and numbers of models", "anchors": ["animation/wobbly/wobbly.cpp: wobbly::Model::DefaultSettings", "animation/wobbly/emscripten.cpp: SetSpringConstant", "animation/wobbly/emscripten.cpp: SetFriction", "animation/wobbly/emscripten.cpp: SetMaximumRange"]}
{"id": "C87", "title": "Rounding does not turn an animation around", "statement": "In single precision too, the progress of an animation with a Linear stepper never decreases from one Step to the next, and with Reverse (Linear) it never increases, whatever the length and the time deltas.", "quantifier": "every length above zero, every sequence of time deltas, every rounding to nearest", "why_tests_cant": "all sequences of float additions", "anchors": ["animation/stepper/linear.h: Linear", "animation/stepper/reverse.h: Reverse", "animation/bounce/bounce.cpp: BounceAnimation::Step"]}
{"id": "C88", "title": "Rounding errors of the progress stay small", "statement": "After n Steps of at most 2^24 ms, the progress of an animation with a Linear stepper computed in single precision differs from total time divided by length, limited to 1, by at most n times 2^-24; for Reverse (Linear) by at most (n + 1/2) times 2^-24 from one minus that.", "quantifier": "every length above zero, every sequence of time deltas, every rounding to nearest", "why_tests_cant": "all sequences of float additions", "anchors": ["animation/stepper/linear.h: Linear", "animation/stepper/reverse.h: Reverse"]}
{"id": "C89", "title": "A linear animation ends at most one frame late", "statement": "In single precision an animation with a Linear stepper may still ask for more frames when exactly its length has passed (192 ms in 12 frames of 16 ms). The next frame ends it, if that frame's share of the length is at least 2^-24 times the number of frames, and it does not end while less than 1 - n 2^-24 of its length has passed in n frames.", "quantifier": "every length above zero, every sequence of time deltas, every rounding to nearest", "why_tests_cant": "tests try a few lengths, most of which do not show the extra frame", "anchors": ["animation/stepper/linear.h: Linear", "animation/bounce/bounce.cpp: BounceAnimation::Step"]}
{"id": "C90", "title": "A linear animation ends", "statement": "An animation with a Linear stepper that is stepped for ever with frames of non-zero length ends. (Violated in single precision when each frame is less than about 2^-25 of the length, such as ten hours in frames of one millisecond: the progress stops at one half. It holds, with at most 2^26 frames, when each is more than about 2^-25 of the length, such as nine hours; about means a relative 2^-23.)", "quantifier": "every length above zero, every sequence of time deltas, every rounding to nearest", "why_tests_cant": "a test would have to run for hours", "anchors": ["animation/stepper/linear.h: Linear", "animation/bounce/bounce.cpp: BounceAnimation::Step"]}
{"id": "C91", "title": "SatisfiesModel (Linear) accepts every straight line and looks only at powers of two", "statement": "SatisfiesModel (Linear) accepts a function exactly if, at every power of two below 2^n (n the number of samples, at most 31), its value is within the tolerance (above zero) of the line through its values at 0 and 1. So every straight line is accepted. No other argument is looked at: a function that is a line except for an arbitrary value at 3 is accepted too.", "quantifier": "every function of an int, every number of samples up to 31, every tolerance above zero", "why_tests_cant": "a matcher is itself the judge of tests; its own verdict on all functions cannot be sampled", "anchors": ["matchers/mathematical_model_matcher.h: SatisfiesModel, MathematicalModelMatcher, CollectForPowerRange, Linear"]}
{"id": "C92", "title": "SatisfiesModel (Parabolic) accepts every power curve that is not constant", "statement": "For up to 30 samples SatisfiesModel (Parabolic) accepts every function a x^m + c with a not zero and m above zero, at every tolerance above zero. A constant function (a = 0) is rejected from two samples on. With 31 samples even the function x is rejected, because the last value is taken at the lowest int.", "quantifier": "every coefficient, exponent above zero, constant, number of samples and tolerance above zero", "why_tests_cant": "a matcher is itself the judge of tests; real exponents and coefficients cannot be enumerated", "anchors": ["matchers/mathematical_model_matcher.h: SatisfiesModel, MathematicalModelMatcher, Parabolic"]}
{"id": "C93", "title": "How many samples and which tolerance SatisfiesModel can take", "statement": "SatisfiesModel gives a verdict exactly for at most 31 samples and a tolerance above zero; with more samples it is undefined behaviour, and so it is with a tolerance of zero or below, because the number of digits to print is worked out as an int. With one sample or none, Linear and Parabolic accept every function. With two samples Linear accepts exactly the functions whose second difference at 0 is below the tolerance.", "quantifier": "every function of an int, every number of samples, every tolerance", "why_tests_cant": "undefined behaviour need not show in a test; all functions cannot be enumerated", "anchors": ["matchers/mathematical_model_matcher.h: WithSamples, CollectForPowerRange, MathematicalModelMatcher"]}
{"id": "C94", "title": "Eq for geometries compares coordinate by coordinate with a tolerance", "statement": "For float and double coordinates in any number of dimensions, matching Eq (y) against x accepts if every coordinate differs by less than 10e-7 minus 2^-126 and rejects if some coordinate differs by at least 10e-7 plus 2^-126; where no expected coordinate is zero it accepts exactly if every coordinate differs by less than 10e-7. So everything is equal to itself. This fails for int coordinates: a geometry with a zero coordinate is not equal to itself, because the smallest int is used where the smallest positive number is meant. For the same reason the comparison of a positive int with an expected zero is undefined, as is the comparison of two whose distance does not fit an int. With unsigned int coordinates exactly equal geometries are accepted.", "quantifier": "every type with the Dimension trait, every pair of values, every tolerance", "why_tests_cant": "tests compare a few points of doubles", "anchors": ["matchers/mathematical_model_matcher.h: GeometricallyEqualMatcher, is_small, close_at_tolerance, Eq"]}
{"id": "C95", "title": "One tick of a wobbly model obeys a law of motion", "statement": "Unless exactly one anchor is owned, Step (16) is one tick from where the mesh is: a pinned point stays and has no velocity; every other point gets velocity v + (F - friction v) / 15, or none if that is below 0.1, and moves by half its new velocity, where F is the sum over the springs attached to it of spring constant times half the deviation of the spring, deviations below a pixel counting as none. The answer is true exactly if some point has velocity or some spring is a pixel or more off. While exactly one anchor is owned, points out of the maximum range are first brought back onto the range circle around their target, in a straight line; then the same tick applies; when nothing moves the answer is false and every point jumps to its target.", "quantifier": "every program, settings and size; every state in which no spring ends at an anchor that is gone", "why_tests_cant": "tests compare a handful of trajectories with a tolerance; the law concerns every mesh, velocity and spring", "anchors": ["animation/wobbly/wobbly_internal.h: EulerIntegrate, CalculateForces, AnchoredIntegration", "animation/wobbly/wobbly.cpp: ConstrainmentStep, Step, Integrate"]}
{"id": "C96", "title": "A model that is only moved and resized keeps its shape in double precision", "statement": "In IEEE double arithmetic, for every way of breaking ties: a model without anchors that is only moved, resized and stepped, fewer than 65536 moves and resizes, with coordinates of its top left corner at most 32768 and sides between 1 and 32768 throughout, stays the lattice of its size at its place. Every call returns, every Step answers false and changes no point at all, and each coordinate is off by at most 2^-18 pixels for each call made (the constructor included). Beyond that range it fails: a resting model of side 9 moved by 2^60 loses its width and the next Step answers true.", "quantifier": "every sequence of calls in the range, every position, size, settings and tie-breaking rule", "why_tests_cant": "rounding errors accumulate over tens of thousands of calls; tests compare a few calls with a tolerance", "anchors": ["animation/wobbly/wobbly.cpp: MoveModelBy, MoveModelTo, ResizeModel, Step", "animation/wobbly/wobbly_internal.h: EulerIntegrate, CalculateForces"]}
{"id": "C97", "title": "Settling is final in double precision", "statement": "In IEEE double arithmetic, whatever a program without anchors called before and with whatever arguments: once a Step over a time that is not zero answers false, it left every point exactly where it was, and every later Step answers false and leaves every point exactly where it is. (Overflow to infinity is not modelled.)", "quantifier": "every sequence of calls with any arguments, settings and tie-breaking rule", "why_tests_cant": "a test sees a few settling runs; a slow creep or a late wake-up by rounding would show only after arbitrary many steps", "anchors": ["animation/wobbly/wobbly.cpp: Step, Integrate", "animation/wobbly/wobbly_internal.h: EulerIntegrate, CalculateForces"]}
{"id": "C98", "title": "A finished animation shows the surface exactly in place in single precision", "statement": "With every operation rounded to float or double as the C++ types ask for: when a Step of a Bounce, Zoom or Glide ends with progress 1, Extremes returns each corner exactly where it is, converted to float, at depth 0 (Glide: at the rounded -1 / screen width), and Matrix of Bounce and Zoom is exactly the identity. No rounding error is left over from the scales, the sine or the box. For Bounce this needs a float initial scale from 0 to 2^24 (an initial scale a little below -1/8 leaves the surface too small by 2^-24), and for Zoom a target with coordinates of at most 2^52 (a target without width at 2^54 leaves NaN).", "quantifier": "every box, source box history, scale, number of bounces, angle, distance, axis, stepper and corner in the stated ranges (2^100 where no smaller range is given), every rounding to nearest that treats signs alike and rounds 1 - 2^-25 to 1 (half-even and half-away do), every libm sine within -1 to 1", "why_tests_cant": "tests compare a few corners with a tolerance; a residue of one unit in the last place would blur a window for some sizes only", "anchors": ["animation/bounce/bounce.cpp: ComputeBounceTransform, ComputeScaleFactorFromProgressParameters, Extremes", "animation/zoom/zoom.cpp: ComputeZoomTransform, EnsureNonZeroArea, Extremes", "animation/glide/glide.cpp: ComputeGlideTransform, Extremes", "animation/transform_calculation.h: TransformFlattened2DPointBy3DMatrix"]}
{"id": "C99", "title": "A Bounce is accurate to a sixteenth of a pixel", "statement": "With every operation rounded to float or double as the C++ types ask for: after every Step of a Bounce each corner returned by Extremes is within 1/16 pixel, in each coordinate, of the corner scaled about the middle of the target by lerp (progress, initial scale, 1) + (maximum - initial) (1 - progress) sin (progress pi n) in exact arithmetic, at depth 0.", "quantifier": "every stepper and progress, scales from 0 to 2, at most 1000 bounces, target coordinates of at most 8192, corners of at most 16384, every rounding to nearest, every libm sine within 2^-30 of the sine for arguments up to 2^20", "why_tests_cant": "tests compare a few corners with a tolerance; the error has to be bounded for every progress, box and scale", "anchors": ["animation/bounce/bounce.cpp: ComputeBounceTransform, ComputeScaleFactorFromProgressParameters, SampleSineWave, Extremes", "animation/transform_calculation.h: TransformFlattened2DPointBy3DMatrix"]}
{"id": "C100", "title": "A Zoom is accurate to a thirty-second of a pixel", "statement": "With every operation rounded to float or double as the C++ types ask for: after every Step of a Zoom each corner of the surface returned by Extremes is within 1/32 pixel, in each coordinate, of its place in the box that is the fraction progress of the way from the source to the target in exact arithmetic, at depth 0. This holds also where the source is thousands of times larger than the target.", "quantifier": "every stepper and progress, every source and target with coordinates of at most 8192, the target at least a pixel wide and high, every point of the surface, every rounding to nearest", "why_tests_cant": "tests compare a few corners with a tolerance; with a small target the scale factor is large and multiplies the rounding errors, so that a sampled error says little", "anchors": ["animation/zoom/zoom.cpp: ComputeZoomTransform, Extremes", "animation/transform_calculation.h: TransformFlattened2DPointBy3DMatrix"]}
{"id": "C101", "title": "A finished magic lamp is in place, up to a small rounding error", "statement": "With every operation rounded to float or double as the C++ types ask for: whatever has been done before (short of changing the resolution), a Step that ends with progress 1 leaves every vertex within 1/256 pixel of its place in the regular lattice over the target box, on each axis, and the first vertex exactly at the top left corner of the target, converted to float. Where the window came from and how the lamp bends leave no trace: two finished lamps with the same target and resolution have exactly the same grid. DeformUVToModelSpace then takes every point of the unit square to within 1/32 pixel of its place in the target box.", "quantifier": "every history, stepper, source and target with double coordinates of at most 8192 whose tops are at least 0.01 apart, every bend from 1 to 20, offset from 0.1 to 1, stretch from 0.2 to below 1 and deform speed from 1 to 4, every resolution from 2 to 2^24 (to 2^16 for reading), every rounding to nearest, every libm exp with a relative error of at most one millionth", "why_tests_cant": "tests compare some vertices of one grid with a tolerance; the factors that should vanish at the end are differences of rounded sigmoids divided by a difference of rounded sigmoids", "anchors": ["animation/magiclamp/magiclamp.cpp: MoveGridVerticallyTowardsTargetWithXSigmoidDeformation, Sigmoid, InterpolateIntoGrid, Step, DeformUVToModelSpace"]}
{"id": "C102", "title": "Magic lamp vertices are numbers in single precision", "statement": "With every operation rounded to float or double as the C++ types ask for: whenever the lamp has no degenerate setting (stretch 1, a one-wide grid, or tops at the same height), every Step leaves numbers in every vertex, neither NaN nor infinite.", "quantifier": "every history that keeps the resolution, every stepper, source and target with double coordinates of at most 8192, every setting that the GObject properties permit, every rounding to nearest, every libm exp with a relative error of at most one millionth", "why_tests_cant": "a division by a rounded difference can be a division by zero for a few inputs among very many, which a test does not hit by chance", "anchors": ["animation/magiclamp/magiclamp.cpp: MoveGridVerticallyTowardsTargetWithXSigmoidDeformation, Sigmoid, Step"]}
{"id": "C103", "title": "Reading the magic lamp in floating point stays in the grid and close to the bilinear surface", "statement": "With every operation rounded to float or double as the C++ types ask for: for every uv in the unit square DeformUVToModelSpace reads only vertices that exist, although the cell is found by truncating a rounded product. The point returned is the bilinear interpolation of the four vertices around the exact uv, but for an error of at most B / 2^20 + w / 2^21 + h / 2^21, where B bounds the coordinates of the vertices, and w (h) is the number of cells in a row (column) times the largest distance between neighbours in a row (column).", "quantifier": "every resolution from 1 to below 2^53 (for the error: from 2 to 2^16), every grid and vertex position, every uv in the unit square, every rounding to nearest", "why_tests_cant": "the cell found by rounding can be the wrong one when uv is next to a grid line; tests do not try such points, and the read past the last vertex would only happen there", "anchors": ["animation/magiclamp/magiclamp.cpp: InterpolateIntoGrid, DeformUVToModelSpace"]}
{"id": "C104", "title": "The rows of a magic lamp keep to their schedule in single precision", "statement": "With every operation rounded to float or double as the C++ types ask for: after every Step, at progress r, each vertex of row j is at the height that is the fraction min ((1 - r) / (1 - stretch j / (rows - 1)), 1) of the way from its height over the target to its height over the source, up to an error of 1/64 pixel and 1/256 pixel for every row of the grid but one. This holds also for a stretch next to 1, where the divisor nearly vanishes.", "quantifier": "every history that keeps the resolution, every stepper and progress, source and target with double coordinates of at most 8192, every stretch from 0.2 to below 1, every grid with 2 to 2^20 rows, every bend, offset and deform speed, every rounding to nearest and every libm exp", "why_tests_cant": "for the last rows the time is divided by a rounded difference that can be as small as 2^-24, which multiplies every error before it; a few sampled rows and settings say nothing about the worst case", "anchors": ["animation/magiclamp/magiclamp.cpp: MoveGridVerticallyTowardsTargetWithXSigmoidDeformation, Step"]}
{"id": "C105", "title": "A GObject animation runs for the length of its stepper, 300 milliseconds without one", "statement": "Once a GObject animation has been stepped by t milliseconds in total, its progress is t / L, at most 1, and step has answered whether t is strictly between 0 and L. L is the length of the linear stepper given at construction, and 300 when there was none. Setting properties in between, stepping or dropping the stepper that was given, and whatever is done to other objects make no difference.", "quantifier": "every animation class, every program that does not give the animation another stepper, ask for its stepper or drop it, every positive length", "why_tests_cant": "tests step one animation in one order and do not interleave other objects", "anchors": ["animation-glib/constructor-helpers.h: animation_stepper_from_gvalue", "animation-glib/stepper/linear.cpp: animation_linear_stepper_new", "animation-glib/bounce/bounce.cpp: animation_bounce_animation_new"]}
{"id": "C106", "title": "Reading the wobbly mesh in double precision is accurate", "statement": "DeformTexcoords computes in doubles and long doubles. For unit coordinates in [0,1] the point it returns is at most B / 2^43 from the bicubic Bezier surface of the stored mesh in each coordinate, where B is at least 1 and bounds the coordinates of the mesh, and so lies inside the box spanned by the mesh up to that error. The four unit corners return the stored corner points of the mesh exactly. A model on a screen that is only moved, resized and stepped maps the unit square onto its rectangle, each coordinate being off by at most 2^-18 pixels per call made.", "quantifier": "every mesh without overflow, every unit coordinate, every rule for ties, long double as wide as double or wider, every list of moves, resizes and steps on a screen", "why_tests_cant": "tests compare a few points of a few meshes with a tolerance", "anchors": ["animation/wobbly/wobbly_internal.h: BezierMesh::DeformUnitCoordsToMeshSpace", "animation/wobbly/wobbly.cpp: Model::DeformTexcoords"]}
{"id": "C107", "title": "A Glide puts the surface where two turns and a shift put it", "statement": "After every Step of a Glide, at progress r, Extremes maps a corner (x, y) to this place: starting at (x, y) at depth -1 / screenWidth, turned about the vertical line through the axis location by the y angle times 1 - r, then about the horizontal line through the axis location by the x angle times 1 - r, then moved by the initial distance times 1 - r away in depth. The axis location is the axis unit times the width or height of the box, measured from the origin. The fourth coordinate is 1.", "quantifier": "every stepper and progress, every nonzero screen width, every angle, axis, distance, box and corner", "why_tests_cant": "continuum of inputs; the order of the turns and the sign of an angle only show for generic angles", "anchors": ["animation/glide/glide.cpp: ComputeGlideTransform, Step", "animation/transform_calculation.h: TransformFlattened2DPointBy3DMatrix"]}
{"id": "C108", "title": "A Glide is accurate to an eighth of a pixel", "statement": "With every operation rounded to float or double as the C++ types ask for: after every Step of a Glide each corner returned by Extremes is within 1/8 pixel, in each of the three coordinates, of the place exact arithmetic gives for the reported progress (C107).", "quantifier": "every stepper and progress, parameters in their documented ranges (angles up to 360 degrees either way, axis from 0 to 1, distance from -1 to 1, screen width at least 1), box coordinates of at most 8192, corners of at most 16384, every rounding to nearest, every libm sine and cosine within 2^-23 for arguments up to 8", "why_tests_cant": "tests compare a few corners with a tolerance; the rotations multiply an error in the angle by the distance to the axis", "anchors": ["animation/glide/glide.cpp: ComputeGlideTransform, degreesToRadians, Step", "animation/transform_calculation.h: TransformFlattened2DPointBy3DMatrix"]}
{"id": "C109", "title": "Dragging a window does not lose it, in doubles", "statement": "With every operation rounded to double: a wobbly model that was only moved, resized and stepped is grabbed with GrabAnchor. The grab takes the mesh point nearest to the place given, to within a pixel. From then on, whatever the program does with MoveBy on that anchor, MoveModelBy, MoveModelTo, ResizeModel and Step, every call returns, the grabbed point is where the moves and resizes put that lattice point, to within 2^-18 pixels for each call that is not Step, and whenever Step answers false the same holds for every point of the mesh.", "quantifier": "every number and order of Step calls and fewer than 65536 other calls, place and grab coordinates of at most 32768, sides between 1 and 32768, maximum range of at least 1, every spring constant and friction, every rounding to nearest", "why_tests_cant": "the error of a drag accumulates over thousands of calls; tests drag once and compare with a tolerance", "anchors": ["animation/wobbly/wobbly.cpp: Model::GrabAnchor, Model::MoveModelBy, Model::MoveModelTo, Model::ResizeModel, Model::Step", "animation/wobbly/wobbly_internal.h: AnchorArray, Spring, TargetMesh"]}
{"id": "C110", "title": "A mesh that is held cannot run away", "statement": "While a program owns exactly one anchor the integration cannot blow up, however stiff the springs: if Step returns at some moment, it keeps returning, and velocities and distances from the targets stay bounded, whatever is dragged, moved and stepped from then on. For an anchor made by GrabAnchor, and for one made by InsertAnchor when there was no other and no two mesh points were at the same place, the bound is known: with spring constant k, maximum range R and friction f, if V is at least 4kR/f and at least every velocity at some moment, then whatever is dragged, moved, resized and stepped from then on, Step returns, no velocity exceeds V and after every Step each mesh point is within R + V/2 of its target, in each coordinate. If nothing moved when the anchor was grabbed that is R(1 + 2k/f), less than 3167 pixels with the default settings.", "quantifier": "every history and every sequence of drags, moves and steps of any number and size (for the known bound resizes too, those of the history made while no inserted anchor was there), every non-negative spring constant, friction positive and at most 15, positive maximum range", "why_tests_cant": "explicit integration of stiff springs is known to blow up; whether the range constraint prevents it is a statement about all sequences of steps", "anchors": ["animation/wobbly/wobbly.cpp: Model::Step, ConstrainmentStep::operator()", "animation/wobbly/wobbly_internal.h: SpringStep, EulerIntegrate, SpringMesh::CalculateForces"]}
{"id": "C111", "title": "A mesh left to itself cannot run away within the documented settings", "statement": "With a spring constant and a friction above 0 and up to 10, the range of the GObject properties: while a program owns no anchor, or two or more, all made by GrabAnchor, the velocities and the deviations of the mesh from its resting shape stay bounded however long it is stepped, and with a held point so do the positions. There is a factor that depends on the two settings only: when the held points are up to D pixels as far apart as at rest, after long enough every velocity and deviation stays below that factor times 1 + D, so a mesh that nothing holds comes down to a fixed size of wobble however hard it was pulled. The C++ Settings are not checked: with a spring constant of 60 or more a point that is pulled a pixel off its held neighbours and let go swings further with every step, beyond every bound.", "quantifier": "every history, every sequence of steps of any number and size, every spring constant and friction above 0 and up to 10; the negation for every spring constant from 60 and friction above 0 and up to 15", "why_tests_cant": "stability of an explicit integrator is a statement about infinitely many rounds from every state and every set of held points", "anchors": ["animation/wobbly/wobbly.cpp: Model::Step", "animation/wobbly/wobbly_internal.h: SpringStep, EulerIntegrate, SpringMesh::CalculateForces", "animation-glib/wobbly/model.cpp: animation_wobbly_model_class_init"]}
{"id": "C112", "title": "AlmostEq and WithinGeometry accept what they say", "statement": "On double, what AlmostEq (value, tolerance) accepts differs from the value by less than the tolerance, and everything is accepted whose difference is at most some double below the tolerance, so the value itself always is; this holds with every way of rounding the difference. It fails for integers. On int the tolerance loses its fraction: a number is accepted exactly if the difference is below the whole part, so with a tolerance below 1 no number is almost equal to itself. On unsigned int numbers up to the expected one are compared that way, but one just above it is rejected although the one as far below is accepted. WithinGeometry accepts exactly the points between the corners of the box, edges included.", "quantifier": "every value, tolerance and box; for double every rounding to nearest", "why_tests_cant": "a matcher is itself the judge of tests; its own verdict on all values cannot be sampled", "anchors": ["matchers/mathematical_model_matcher.h: AlmostEqMatcher, AlmostEqTrait, close_at_tolerance", "matchers/within_geometry_matcher.h: WithinGeometryMatcher"]}
{"id": "C113", "title": "Dragging does not overflow, and speed and stretch stay bounded in double precision", "statement": "In double precision, with coordinates and sizes of a screen, a spring constant and friction from 0.1 to 10 and a maximum range R from 1 to 1000 pixels: when a model that was only moved, resized and stepped is grabbed at one point and then dragged, moved, resized and stepped, no number as large as 2^500 takes part in anything that is computed, so nothing overflows to infinity or NaN. No point moves faster than V = 4k(R + 1)/f in a coordinate, and after every Step of some length each point is within R + V/2 + 2 pixels of its place in the lattice in each coordinate.", "quantifier": "every place and size on a screen, every sequence of up to 65535 moves, resizes and drags and any number of steps, every rounding to nearest below 2^500 and any behaviour beyond", "why_tests_cant": "feedback of rounding errors over unboundedly many steps, and the absence of overflow on all of them, cannot be sampled", "anchors": ["animation/wobbly/wobbly.cpp: Model::Step, ConstrainmentStep::operator()", "animation/wobbly/wobbly_internal.h: SpringStep, EulerIntegrate, SpringMesh::CalculateForces", "animation/geometry_traits.h: dimension::distance"]}
{"id": "C114", "title": "Taking hold of a moving model keeps the place where it would have come to rest", "statement": "Take a model without anchors that is still moving, and suppose that calling Step until it answers that nothing moves would bring its top-left mesh point to c. If instead GrabAnchor or InsertAnchor is called (with representable coordinates), the call returns, and whatever the program then drags, moves, resizes and steps while it holds that one anchor: when Step answers that nothing moves, the mesh is the regular lattice of the model's size with its corner at c, carried along by the drags and moves. If stepping would never come to rest, the call never returns. The two springs of an anchor inserted first have the lengths that they have at rest: the resting place of the mesh point seen from the place of insertion.", "quantifier": "every history (without resizing while an anchor is inserted) that leaves no anchor, every place at which the model is taken hold of, every later sequence of drags, moves, resizes and steps", "why_tests_cant": "the resting place depends on unboundedly many steps of a dynamical system, and unit tests only take hold of models at rest", "anchors": ["animation/wobbly/wobbly.cpp: TargetMesh::Activate, Model::Private::TargetPositionByFullIntegration, Model::GrabAnchor, Model::InsertAnchor, InsertPointStrategy, getTarget", "animation/wobbly/wobbly_internal.h: TargetMesh"]}
{"id": "C115", "title": "A model that is let go only when at rest can be dragged again and again without losing its place, in double precision", "statement": "With the arithmetic of doubles, coordinates up to 32768, sizes between 1 and 32768 pixels and a maximum range of at least one pixel: a program creates a model, moves and resizes it, grabs it anywhere, drags, moves, resizes and steps it while it holds that anchor, releases the anchor right after a Step of some length has answered that nothing moves, and does all this again and again, while other models are created. As long as fewer than 65536 calls move, drag or resize, every call returns; whenever nobody holds the model, each mesh point is where the exact sum of all moves has it to within 2^-18 pixels per such call, and Step answers false and changes nothing; each grab takes the nearest point to within a pixel and that point follows the drags; and once Step has answered false while the model is held, it goes on to do so and changes nothing, also after the release. With spring constant and friction between 0.1 and 10 and a maximum range of at most 1000 pixels, no result anywhere exceeds 2^500, so nothing overflows.", "quantifier": "every such program, of any length, every way of rounding to nearest", "why_tests_cant": "rounding errors could add up over thousands of drags or leave a model that never reports rest; unit tests make one drag and compare with a tolerance", "anchors": ["animation/wobbly/wobbly.cpp: Model::Step, Model::GrabAnchor, Model::MoveModelBy, Model::MoveModelTo, Model::ResizeModel, TargetMesh, ConstrainmentStep", "animation/wobbly/wobbly_internal.h: AnchorArray, SpringStep, EulerIntegrate, SpringMesh::CalculateForces"]}
{"id": "C116", "title": "Settled for good, in double precision and with anchors", "statement": "In double precision, and whatever was called before on a model and its anchors: two Steps in a row over non-zero times that answer false are final. The second one changes nothing, and every later Step answers false and changes nothing. With no anchor or with several anchors a single answer is final and the Step that gave it moved no point. With exactly one anchor the Step that answers false puts every point on its target, and it is final exactly when the next Step answers false too. It need not be final: a model of 301.3125 by 300 pixels that is moved half a pixel to the left and 2^53 + 1024 pixels to the right and then grabbed answers false and then true.", "quantifier": "every construction, every history of calls with any arguments, any settings, every rounding to doubles, all later Steps", "why_tests_cant": "A test samples a few histories and stops stepping after a few calls; finality concerns all later Steps, and rounding could keep a mesh creeping by units in the last place long after it looks settled.", "anchors": ["animation/wobbly/wobbly.cpp: Model::Step, Integrate, PerformIntegration, ConstrainmentStep", "animation/wobbly/wobbly_internal.h: SpringStep, EulerIntegrate, AnchoredIntegration"]}
{"id": "C117", "title": "What an animation shows does not depend on the frame rate", "statement": "Take two animations of the same kind, each constructed with a copy of the same stepper, where the stepper is Linear with a positive length, or any stepper whose answers depend only on the total of the deltas it was called with, or Reverse of such a stepper. Call setters and Step on each in any way, without exchanging the stepper. If the properties of the two read the same before a Step that brings both to the same total time, then after that Step both show the same matrix (or grid) and the same progress, and the two Steps answer the same, however the time was cut into frames and wherever the setters were called in between. With a stepper that counts its calls this fails. (Exact arithmetic: C88 bounds what floats do to it. The magic lamp: while the grid resolution is not set after construction.)", "quantifier": "every pair of histories of setters and Steps of any deltas, every pair of constructions, every such stepper", "why_tests_cant": "all ways to cut a time into frames, times all placements of the setters", "anchors": ["animation/stepper/linear.h: Linear", "animation/stepper/reverse.h: Reverse", "animation/bounce/bounce.cpp: Step", "animation/glide/glide.cpp: Step", "animation/zoom/zoom.cpp: Step", "animation/magiclamp/magiclamp.cpp: Step"]}
{"id": "C118", "title": "The surface of a wobbly model follows its mesh and does not fold while the mesh is in order", "statement": "For unit coordinates DeformTexcoords follows the mesh: if no mesh point moves further than d, no place of the texture does; turning, stretching, shearing or moving the mesh does the same to the surface; each border of the texture goes by the four mesh points of that border alone. The texture is not torn: along a row (a column) the place shown moves on by at most three times the longest distance between neighbours in a row (a column) per unit of texture coordinate. If the points go from left to right in every row, so does the texture, and from top to bottom likewise. If moreover neighbours in a row lie more beside each other than below, and neighbours in a column more below each other than beside, then no two places of the texture are shown at the same place. A model w by h that is dragged by one anchor, taken when nothing moved, is in that state after every Step if 6 r (w + h) < w h, where r = R (1 + 2k/f) for maximum range R, spring constant k and friction f. (Before the next Step a dragged corner can be anywhere, also on top of another corner.)", "quantifier": "every mesh, all unit coordinates; every history and every sequence of drags, moves, resizes and steps, every non-negative spring constant, friction positive and at most 15, positive maximum range", "why_tests_cant": "all meshes and all pairs of places on the texture", "anchors": ["animation/wobbly/wobbly_internal.h: DeformUnitCoordsToMeshSpace", "animation/wobbly/wobbly.cpp: Model::DeformTexcoords", "animation/wobbly/wobbly.cpp: ConstrainmentStep"]}
{"id": "C119", "title": "A wobbly model treats rows and columns alike", "statement": "Make a second model with the two coordinates of the place, and width and height, exchanged, and make the same calls on it with all coordinates, widths and heights exchanged. Every call returns the same value (handle or not, moving or settled) or fails in the same way, and the second model stays the first with rows and columns exchanged: positions, velocities, settled positions, which point or anchor is held where and how often, settings and size. DeformTexcoords and Extremes of the second are those of the first exchanged. The condition is that what a grab or an insertion looks for there is only one of: one nearest mesh point for a grab, one nearest spring for an insertion (into a mesh with no two points in one place). Without it the claim is false: among equally near points the code takes the first row by row.", "quantifier": "every place, size, settings and every finite sequence of calls of the API in which no grab or insertion meets a tie", "why_tests_cant": "all histories of calls; a mistake in one axis of one of the many loops shows only in some histories", "anchors": ["animation/wobbly/wobbly.cpp: Model", "animation/wobbly/wobbly_internal.h: SpringMesh::InstallAnchorSprings", "animation/wobbly/wobbly_internal.h: DeformUnitCoordsToMeshSpace"]}
{"id": "C120", "title": "The magic lamp keeps the lines of the window level and in order", "statement": "After every Step, DeformUVToModelSpace shows every level line of the texture as a level line, evenly stretched. If the target box begins above the source box and does not end below it (both with width and height), the lines stay in order from top to bottom, each is no shorter than the narrower and no longer than the wider of the two boxes, different places of the texture are shown in different places, and nothing moves back: from a Step to any later one with the same settings and at least as much progress no vertex sinks, and each moves sideways only towards its place in the target. Otherwise the order can be lost: with a target far below the source, at progress equal to the stretch factor the whole top line is shown below the whole bottom line; with a target that begins above and ends far below the source a line can be shown below the bottom line.", "quantifier": "every sensible setting, every history of calls that keeps the resolution, every unit coordinate", "why_tests_cant": "all pairs of places on the surface at all moments of all animations", "anchors": ["animation/magiclamp/magiclamp.cpp: MoveGridVerticallyTowardsTargetWithXSigmoidDeformation", "animation/magiclamp/magiclamp.cpp: MagicLampAnimation::DeformUVToModelSpace"]}
{"id": "C121", "title": "The magic lamp as computed moves one way only", "statement": "With float and double rounding as the code has it: take three Steps with the same settings and growing progress. The height of every vertex at the second lies between its heights at the first and the third, without any tolerance and wherever the boxes are. If moreover the target box begins and ends at least a hundredth of a pixel above the source box and exp never decreases, no vertex ever sinks, and the horizontal position at the second Step lies between those at the first and the third, again without any tolerance. So rounding never makes a vertex jitter.", "quantifier": "every rounding to nearest in both formats, every box on a desktop, every setting but a stretch factor of 1, every history of calls that keeps the resolution, all progresses", "why_tests_cant": "all triples of moments, and all roundings of some thirty operations per vertex", "anchors": ["animation/magiclamp/magiclamp.cpp: MoveGridVerticallyTowardsTargetWithXSigmoidDeformation", "animation/magiclamp/magiclamp.cpp: Sigmoid", "animation/magiclamp/magiclamp.cpp: MagicLampAnimation::Step"]}
{"id": "C122", "title": "A slow wobbly model comes to rest", "statement": "Call how far a coordinate with velocity v can still go (15 - f) / (2 f) |v|, where f is the friction, positive and at most 15. A model is slow if neighbouring mesh points are one tile apart to within a pixel, in both coordinates, and stay so even if both use up all they can still go. On a slow model every MoveModelTo, every ResizeModel between positive sizes, every GrabAnchor and InsertAnchor with representable coordinates (insertions: if a Step would not read freed memory, C49) and every release returns, whatever anchors there are, and MoveModelTo (q) without tracking moves the mesh by q less a place no further from the top left point than that point can still go. A slow model with no anchor or several, none inserted, comes to rest: there is a mesh, no further from the present one than each point can still go, which every sequence of Steps reaches once it has n ticks, where n is such that |v| (1 - f / 15)^n < 0.1 for every velocity (n = 8, or 128 ms, always suffices), and from then on Step answers false and nothing moves. If it is held by a single grab and no point can still get out of the maximum range of its target, then after n ticks the next Step answers false and puts every point exactly on its target.", "quantifier": "every history of calls, every slow state reached by it, every friction above 0 and up to 15, every sequence of Steps", "why_tests_cant": "a test runs some Steps from some states; that motion ends and that calls return concerns all states in a region with 64 dimensions and all later Steps", "anchors": ["animation/wobbly/wobbly.cpp: Model::Step", "animation/wobbly/wobbly.cpp: Private::TargetPositionByFullIntegration", "animation/wobbly/wobbly_internal.h: EulerIntegrate", "animation/wobbly/wobbly_internal.h: Spring::ApplyForces"]}
{"id": "C123", "title": "A computed animation shows what is due at the time", "statement": "With every operation rounded to float or double as the C++ types ask for, let an animation with a Linear stepper, or Reverse (Linear), be stepped through n frames (with setters in between, but without exchanging the stepper), and let t be the progress due in exact arithmetic: total time by length, limited to 1, or one less that. Then each corner returned by Extremes is where exact arithmetic puts it at progress t: for a Zoom between the source box set last and the target box as they were given up to 1/32 + 3 (n + 1) / 1024 pixel, for a Bounce of b bounces up to 1/16 + (b + 1) (n + 1) / 100 pixel, for a Glide up to 1/8 + (n + 1) / 25 pixel, in depth as well. The rows of a magic lamp are at the height due at t, up to the error of C104 and (n + 1) / (1024 (1 - stretch)) pixel. So two animations of one kind with the same properties and copies of one stepper, brought to the same time in n and n' frames, show every corner in the same place up to the sum of the two bounds: frame rate and rounding together do not matter by more than that.", "quantifier": "every length above zero, every history, every number of frames of at most 2^24 ms each, parameters and boxes as in C99, C100, C104 and C108, every rounding to nearest, every libm as in C99 and C108", "why_tests_cant": "a test compares some frame rates on one machine; rounding errors pile up over all sequences of frames and depend on the rounding of ties and on libm", "anchors": ["animation/stepper/linear.h: Linear", "animation/stepper/reverse.h: Reverse", "animation/zoom/zoom.cpp: ComputeZoomTransform", "animation/bounce/bounce.cpp: ComputeBounceTransform", "animation/glide/glide.cpp: ComputeGlideTransform", "animation/magiclamp/magiclamp.cpp: MoveGridVerticallyTowardsTargetWithXSigmoidDeformation", "animation/transform_calculation.h: TransformFlattened2DPointBy3DMatrix"]}
{"id": "C124", "title": "A slow wobbly model comes to rest, in double precision", "statement": "With every operation rounded to double, friction f between 1/1000 and 15, sides and coordinates up to 32768: say that a coordinate with velocity v may still go (15 - f + 1/64) / (2 f) |v|, and that a model is slow if neighbouring mesh points are one tile apart to within 1 - 1/1024 pixel, in both coordinates, even if both go as far as they may. On a slow model no call hangs, whatever was called before and whatever anchors there are; MoveModelTo, ResizeModel between positive sizes, GrabAnchor at coordinates up to 32768 and the release of any anchor return, and so does InsertAnchor at such coordinates if no inserted anchor is live. Without tracking, MoveModelTo (q) adds to every point the rounded difference of q and a place no further from the top left point than that point may go. If the program inserted no anchors and resized less than 65536 times, to sides between 1 and 32768, and has no anchor or several, the model is at rest after eight ticks (128 ms), however they are divided into Steps: at a mesh where no point is further from its present place than it may go; from then on Step answers false and nothing moves, for ever. If it has one anchor, the targets are a lattice to within 1 - 1/1024 pixel, and no point may get out of the maximum range of its target (up to 1/512), then the first Step after eight ticks answers false and leaves every point exactly on its target, where it stays.", "quantifier": "every history of calls, every slow state reached by it, every friction from 1/1000 to 15, every sequence of Steps, every rounding to nearest", "why_tests_cant": "a test runs some Steps on one machine; rounding may keep a motion alive that exact arithmetic ends, in any state and after any number of Steps", "anchors": ["animation/wobbly/wobbly.cpp: Model::Step", "animation/wobbly/wobbly.cpp: Private::TargetPositionByFullIntegration", "animation/wobbly/wobbly_internal.h: EulerIntegrate", "animation/wobbly/wobbly_internal.h: Spring::ApplyForces"]}
{"id": "C125", "title": "A wobbly model treats left and right, above and below alike, as long as it rests evenly", "statement": "Take any history of GrabAnchor, Anchor::MoveBy, release of anchors, Step, MoveModelBy, MoveModelTo, ResizeModel and changes of the settings, and the same history seen in a mirror that exchanges left and right, above and below, or both, on a model made where the first one is seen in the mirror. Suppose that grabs have only one nearest mesh point, and that whenever the code has to find out where the model will rest (the first anchor is made, the last but one goes away, or MoveModelTo or ResizeModel is called without exactly one anchor) the model would rest with its corners exactly as far apart as its size says; a model that lies still in its regular mesh does. Then both histories return the same values and lead to models that are each other's images in mesh, velocities, targets, locks and anchors, or fail in the same way; and DeformTexcoords gives image points at image coordinates (a change of size keeps the top left corner of both, so the mirror moves on by half the gain). Without the second condition the claim is false: the top left point decides where a window rests. Hold the top left and the bottom right point of a new model, move the first half a pixel to the right, release it, Step (16): the whole window ends half a pixel further right, the held point with it; in the mirror it ends where it was. With two points equally near it is false too: a grab on the axis takes one of them. It is false for InsertAnchor, which looks for the spring to be split by its left or upper end: an anchor put into the upper border of a square model a tenth of a tile left of the second point moves that point and the one below it when pulled, its mirror image moves the third and the fourth point of the border.", "quantifier": "every place, size and settings of the model; every place of the mirror and all three kinds of mirror; every history of the calls listed", "why_tests_cant": "A test drags one corner and looks at one picture; that every history has its mirror image, and exactly what breaks it, quantifies over histories.", "anchors": ["animation/wobbly/wobbly.cpp: Model::GrabAnchor, Model::Step, Model::MoveModelTo, Model::Private::TargetPositionByFullIntegration, TargetMesh::Activate, GenerateBaseSpringMesh", "animation/wobbly/wobbly_internal.h: CalculatePositionArray, ClosestIndexToPosition, Spring::ApplyForces, EulerIntegration, BezierMesh::DeformUnitCoordsToMeshSpace"]}
{"id": "C126", "title": "The books about anchors and springs are kept whatever the rounding", "statement": "Let every result of an arithmetic operation of a wobbly model be changed in an arbitrary way, so that grabs take any mesh point, insertions any spring, and the mesh goes anywhere. After every history whose calls return: the tracking count is the number of anchors the program owns, and targets are in force exactly while that is one; every mesh point is locked exactly as often as a live anchor holds it; the remembered first anchor is a pinned point if there is one, none otherwise, and no call changes it while it stays pinned; no two springs share an identity; the two springs of an inserted anchor run from it to the ends of the spring it took out; releasing an anchor leaves the other anchors alone, gives back exactly its own lock or its own springs, and never fails, though settling may run forever; once no inserted anchor is live the 24 springs of the start are back with their identities and ends; and a Step over a time that is not zero reads freed memory exactly if the program owns an inserted anchor that sits on a spring of an anchor released since. In double precision that does happen: in a model of 300 by 300 pixels insert two anchors at (50, 50), release the first, Step.", "quantifier": "every function in place of the rounding (double, extended, fused operations, any compiler option), every place, size and settings, every history of calls that returns; the use after free for every rounding to nearest and every friction from 1/1000 to 15", "why_tests_cant": "a test follows one history on one machine with one compiler; that none of this bookkeeping hangs on the last bit of a coordinate quantifies over histories and roundings", "anchors": ["animation/wobbly/wobbly.cpp: Model::GrabAnchor", "animation/wobbly/wobbly.cpp: Model::InsertAnchor", "animation/wobbly/wobbly.cpp: Model::Step", "animation/wobbly/wobbly.cpp: SpringMesh::InstallAnchorSprings", "animation/wobbly/wobbly_internal.h: TrackedAnchors", "animation/wobbly/wobbly_internal.h: TargetMesh", "animation/wobbly/wobbly.cpp: InsertPointStrategy"]}
{"id": "C127", "title": "Held points, ticks and the two directions do not depend on rounding", "statement": "Let every result of an arithmetic operation of a wobbly model be changed in an arbitrary way. Then still, as equalities and not up to an error: a grabbed point has no velocity after a Step over a time that is not zero, and no Step moves it while another anchor is owned too, nor while it is the only one, its computed distance to its target is below the range and Step answers that something moves. After a Step over a time that is not zero each velocity coordinate is zero or at least the computed 0.1, and all are zero if Step answers that nothing moves. Step (0) changes no velocity and returns what is pending; it moves no point, except that with one anchor and nothing pending it puts the mesh on its targets. The effect of Step (t) depends on t only through the number of started 16 ms ticks. Unless exactly one anchor is owned, sequences of Steps with the same total of ticks give the same mesh and velocities and, if no time is zero, one of the first answers yes exactly if one of the second does; or both read freed memory. Then too two models that agree in all horizontal coordinates still do after any Steps, whatever the vertical ones are, and the other way round. Moving an anchor moves its own point and no other; moving the model moves every mesh point and inserted anchor by one vector, and resizing it stretches all of them about one point, from which MoveModelTo measures too; making or releasing anchors and changing settings moves nothing.", "quantifier": "every function in place of the rounding (double, extended, any compiler option), every place, size and settings, every history of calls that returns, every time and list of times", "why_tests_cant": "the frame times a program passes to Step vary from run to run; a test checks one split of one time on one machine up to a tolerance, while this says that no split, machine or compiler option makes a difference of one bit", "anchors": ["animation/wobbly/wobbly.cpp: Model::Step", "animation/wobbly/wobbly.cpp: Integrate", "animation/wobbly/wobbly.cpp: PerformIntegration", "animation/wobbly/wobbly_internal.h: AnchoredIntegration", "animation/wobbly/wobbly_internal.h: EulerIntegrate", "animation/wobbly/wobbly_internal.h: SpringStep", "animation/wobbly/wobbly.cpp: Model::MoveModelBy", "animation/wobbly/wobbly.cpp: Anchor::MoveBy"]}
{"id": "C128", "title": "Models, anchors and settings of one program do not interfere, whatever the rounding", "statement": "Let every result of an arithmetic operation of the wobbly models be changed in an arbitrary way. Then still each model of a program goes through exactly the states, bit for bit, and each of its Step calls gives exactly the answers, that the calls made on it and its anchors and the writes to its settings would give on a model alone in its process, although all models share one counter of spring identifiers. The anchors in effect on a model are exactly those held by Anchor variables, each by one variable; when none holds an anchor of a model, no point of it is pinned, its range constraint is off and its springs join the points they join in a new model; the range constraint is on exactly while one variable holds an anchor of it. Moving an anchor is undefined behaviour exactly when the variable is empty or its model is gone, destroying or overwriting the variable exactly when it holds an anchor of a model that is gone. Writing to a Settings structure changes the settings of exactly the models made with it, and making a model before or after the write comes to the same whatever the program does next.", "quantifier": "every function in place of the rounding, every program over any number of models, anchors and settings", "why_tests_cant": "a test runs one program with few models on one machine, and a difference in one bit caused by another model would be hidden by its tolerance", "anchors": ["animation/wobbly/wobbly.cpp: NextSpringID", "animation/wobbly/wobbly.cpp: Anchor::Anchor", "animation/wobbly/wobbly.cpp: Model::DefaultSettings", "animation/wobbly/wobbly.h: Anchor", "animation/wobbly/wobbly.h: Model::Settings"]}
{"id": "C129", "title": "What is nearest in double precision is nearest up to rounding", "statement": "In IEEE double arithmetic, for every way of breaking ties: GrabAnchor (p) pins a mesh point that is at most 1 + 2^-48 times as far from p as any other, plus 2^-90 pixels, with no earlier mesh point at the same place; so a point that is nearer than all others by more than that is the one that is pinned. It moves nothing, and with coordinates up to 2^500 it never fails, though settling may run forever. InsertAnchor (p) splits a spring whose first end is nearest to p up to the same errors and, among the springs that begin at the same place, whose second end is; the two new springs run from p to its ends, and with another anchor live their lengths are the rounded differences. Whatever the rounding, InsertAnchor does not throw; with coordinates up to 2^500 and no spring ending at a released anchor it returns or settles forever.", "quantifier": "every mesh, every point, every rounding to nearest; for insertions every history of calls; never throwing for every function in place of the rounding", "why_tests_cant": "distances are computed with squares, sums and a square root, each rounded, so what is found nearest may not be; tests look at points clearly nearest", "anchors": ["animation/wobbly/wobbly_internal.h: ClosestIndexToPosition", "animation/geometry_traits.h: dimension::distance", "animation/wobbly/wobbly.cpp: FindSpringToSplit, InstallAnchorSprings, GrabAnchor, InsertAnchor"]}
{"id": "C130", "title": "One tick in double precision obeys the law of motion up to rounding", "statement": "In IEEE double arithmetic with any tie rule that treats a number and its opposite alike, take a model whose coordinates, desired lengths and velocities are at most 32768, with at most 64 springs, a spring constant from 0 to 16 and friction from 0 to 15. Unless exactly one anchor is owned, Step (16) returns and is one tick from where the mesh is: every spring is measured to be off by its deviation to within 2^-34, or not at all if that is below a pixel to within 2^-34, and the two ends of a spring use exactly opposite measures; a pinned point stays and has no velocity; every other point gets velocity v + (F - friction v) / 15 to within 2^-22, where F is the exact force of the measured springs, or none if that is below 0.1 to within 2^-22, and moves by half its new velocity to within 2^-30. The answer is true exactly if some point has velocity or some spring was measured to be off. While exactly one anchor is owned and the maximum range is from 1 to 32768, points farther than that from their target are first brought to the point on the range circle in a straight line to within 2^-30; then the same tick applies; when nothing moves and nothing was out of range the answer is false and every point jumps exactly to its target. So with no anchor owned the sum of all velocities is multiplied by 1 - friction / 15 to within 1.6 + 2^-18.", "quantifier": "every symmetric rounding to nearest double; every program, settings and size within the stated bounds; every state in which no spring ends at an anchor that is gone", "why_tests_cant": "Tests compare with recorded values of a few runs; that rounding errors of dozens of operations stay below a fixed bound for all positions is a statement about all doubles", "anchors": ["animation/wobbly/wobbly_internal.h: EulerIntegrate, Spring::ApplyForces, DeltaFromDesired, SpringMesh::CalculateForces, AnchoredIntegration", "animation/wobbly/wobbly.cpp: Model::Step, ConstrainmentStep::operator()"]}
{"id": "C131", "title": "A model can also be dragged by inserted anchors without losing its place, in double precision", "statement": "With the arithmetic of doubles, coordinates up to 32768, sizes between 1 and 32768 pixels and a maximum range of at least one pixel: a program does all that C115 allows, and besides inserts an anchor anywhere in the rectangle of the model when nobody holds it, drags, moves and steps with that anchor, releases it right after a Step of some length has answered that nothing moves, and does all this again and again, in any order with grabs, moves and resizes. As long as fewer than 65536 calls move, drag or resize, all that C115 promises holds. An insertion returns, moves nothing, and Step answers false until something is moved. Every call made while the inserted anchor is there returns, resizes included; once Step has answered false every mesh point is where the exact sum of all moves has it to within 2^-18 pixels per call, and Step goes on to answer false and changes nothing; the release returns and moves nothing, and unless the model was resized while the anchor was there, Step still answers false and changes nothing. With spring constant and friction between 0.1 and 10 and a maximum range of at most 1000 pixels all this holds even if results beyond 2^500 are replaced by anything, so nothing overflows.", "quantifier": "every such program, of any length, every way of rounding to nearest", "why_tests_cant": "rounding errors could add up over thousands of drags, or split springs and their replacements could leave a model that pulls at itself; unit tests insert one anchor and compare with a tolerance", "anchors": ["animation/wobbly/wobbly.cpp: Model::InsertAnchor, Model::Step, Model::MoveModelBy, Model::MoveModelTo, Model::ResizeModel", "animation/wobbly/wobbly_internal.h: TemporaryOwner, SpringMesh::InstallAnchorSprings"]}
{"id": "C132", "title": "Boxed values given to objects and taken from them are copies", "statement": "A program allocates vectors and boxes, overwrites, copies and frees them, passes pointers to them when it makes animations and wobbly models and when it sets properties, gets properties, and calls the setter functions that take a structure by value and the getter functions that fill one of the caller, as long as it only uses structures it owns and objects on which it holds a reference. Then, after any such calls in any order, every further such call returns (nothing is read after being freed, nothing is freed twice), and the results are those of a program that keeps values: reading a structure gives what the program last put there, whatever was done to objects; getting a property gives a new structure that the program owns, which holds what the object was last told, even if the structure passed then has been overwritten or freed; a NULL pointer stands for the box from (0,0) to (1,1) or the resolution (10,10) at construction and changes nothing later.", "quantifier": "every program of such calls, of any length", "why_tests_cant": "tests free their arguments right after the call at most; an alias between a structure and an object shows only for particular orders of calls", "anchors": ["animation-glib/box.cpp: animation_box_copy", "animation-glib/vector.cpp: animation_vector_copy", "animation-glib/vector4d.cpp: animation_vector4d_copy", "animation-glib/constructor-helpers.h: animation_box_from_gvalue, animation_point_size_t_from_gvalue", "animation-glib/zoom/zoom.cpp: animation_zoom_animation_set_property, animation_zoom_animation_get_property, animation_zoom_animation_get_from", "animation-glib/magiclamp/magiclamp.cpp: animation_magiclamp_animation_get_source", "animation-glib/wobbly/model.cpp: animation_wobbly_model_set_property"]}
{"id": "C133", "title": "A program that gives back all it was given leaves nothing behind", "statement": "When a program as in C132 has freed every structure it owned and dropped every reference it held, no structure is left allocated, and no stepper or object is left alive. (False: each animation made without a stepper leaves one stepper alive for ever, and each magic lamp made without a resolution leaves one vector allocated for ever; nothing else is ever left, and programs that always pass both leave nothing.)", "quantifier": "every program of such calls, of any length", "why_tests_cant": "tests do not count what stays allocated; whether something stays depends on which arguments were left out", "anchors": ["animation-glib/constructor-helpers.cpp: replace_named_pointer_prop_in_construct_params_if_null", "animation-glib/magiclamp/magiclamp.cpp: animation_magiclamp_animation_constructor", "animation-glib/bounce/bounce.cpp: animation_bounce_animation_constructor", "animation-glib/zoom/zoom.cpp: animation_zoom_animation_constructor", "animation-glib/glide/glide.cpp: animation_glide_animation_constructor"]}
{"id": "C134", "title": "The GObject wrapper of the wobbly model does what the native model does, in double precision too", "statement": "A program makes an AnimationWobblyModel with animation_wobbly_model_new and then calls any of the functions and sets any of the properties of the model and its anchors in any order. Whatever the arithmetic rounds to: if the program uses only objects it still owns, every call gives what the native model computes with the same arithmetic for the same requests, and if a native call does not return neither does the GObject call; an anchor once released is inert for good; each native anchor is released exactly once if the anchor object is released or dropped, and never otherwise; the stored position is the last position set with the relative moves after it added one by one in that arithmetic, and the stored size is the last size set; the settings are what construction stored and later calls made of them; and an anchor that was not released before the model went away cannot be touched or dropped without reaching into freed memory.", "quantifier": "every rounding function, position, size, settings and sequence of calls", "why_tests_cant": "a test follows one sequence of calls with one set of numbers", "anchors": ["animation-glib/wobbly/model.cpp: animation_wobbly_model_grab_anchor, animation_wobbly_model_move_by, animation_wobbly_model_set_property, animation_wobbly_model_step", "animation-glib/wobbly/anchor.cpp: animation_wobbly_anchor_release, animation_wobbly_anchor_move_by, animation_wobbly_anchor_finalize"]}
{"id": "C135", "title": "An AnimationWobblyModel dragged about in double precision stays where it is told", "statement": "In double precision, with coordinates and sizes of a screen and settings in their declared ranges: a program makes a model with animation_wobbly_model_new, moves and resizes it by function or by property, sets its numbers by property, grabs it anywhere or inserts anchors into it, drags these, and releases or drops each anchor after animation_wobbly_model_step has answered false. (While an inserted anchor is there it does not resize.) It may go on using anchors it let go of. Then every call returns. Whenever it holds no anchor every point of the mesh lies where the requests put it, up to 2^-18 pixels for each call that moved, dragged or resized and once more for making it; steps then answer false and change nothing; and once a step answers false during a drag, the mesh lies where the drags and moves put it and letting go moves nothing. All this holds even if results beyond 2^500 are replaced by anything, so nothing overflows.", "quantifier": "every rounding to nearest in double precision and every such program of any length with fewer than 65536 calls that move, drag or resize", "why_tests_cant": "rounding errors add up over long sessions, and a test follows one session only", "anchors": ["animation-glib/wobbly/model.cpp: animation_wobbly_model_new, animation_wobbly_model_step, animation_wobbly_model_set_property", "animation-glib/wobbly/anchor.cpp: animation_wobbly_anchor_move_by, animation_wobbly_anchor_release", "animation/wobbly/wobbly.h, animation/wobbly/wobbly.cpp: wobbly::Model, wobbly::Anchor"]}
{"id": "C136", "title": "A mesh cannot run away, whatever anchors hold it", "statement": "A model has been through any calls, Step does not read freed memory now (C49 says when it does), and the program now owns any number of anchors, grabbed or inserted. With a spring constant and a friction above 0 and at most 10 and a positive maximum range, it may then call Step as often and with times as long as it likes. Every call returns. There is one bound that no velocity ever exceeds, that the distance between two points never exceeds and, if there is at least one anchor, that the distance of a point from where it is now never exceeds.", "quantifier": "every history of calls, every set of anchors and every sequence of steps", "why_tests_cant": "a blow-up can take any number of steps to show, and there are endlessly many ways to tie anchors into the mesh", "anchors": ["animation/wobbly/wobbly.h, animation/wobbly/wobbly.cpp: wobbly::Model::Step, wobbly::SpringMesh::InstallAnchorSprings, wobbly::EulerIntegration"]}
{"id": "C137", "title": "A mesh dragged by several anchors at once cannot run away", "statement": "A model has been through any calls, Step does not read freed memory now (C49 says when it does), and the program now owns two or more anchors, grabbed or inserted, or none. With a spring constant and a friction above 0 and at most 10 it may then drag its anchors, in any order and as often as it likes, as long as in each coordinate none is ever farther than D from where it is now, and step as often and as long as it likes in between. Every call returns. There is one bound, which depends on D and not on the calls, that no velocity ever exceeds, that the distance between two points never exceeds and, if there is an anchor, that the distance of a point from where it is now never exceeds.", "quantifier": "every history of calls, every set of anchors other than one, every distance D and every sequence of drags and steps that keeps to it", "why_tests_cant": "dragging to and fro can feed a resonance, and whether it grows for ever cannot be seen from finitely many drags", "anchors": ["animation/wobbly/wobbly.h, animation/wobbly/wobbly.cpp: wobbly::Model::Step, wobbly::Anchor::MoveBy, wobbly::EulerIntegration"]}
{"id": "C138", "title": "Dragging several anchors neither makes the mesh run away nor overflows, in double precision", "statement": "A model computes in double precision, has been through any calls, and the program now owns two or more anchors, grabbed or inserted. Step does not read freed memory now (which C126 says it does exactly if an inserted anchor is owned that was put on a spring of an anchor released since). Spring constant and friction are between 0.1 and 10. Positions, velocities and the lengths of springs are now within M in each coordinate, where M is at least 1 and at most 2^400. From here on the program drags its anchors and calls Step, in any order, as often and as long as it likes, in such a way that the grabbed points and the inserted anchors always stay within M. Then every call returns, and after every call all positions are within 2^45 M and all velocities within 2^36 M: rounding errors do not add up. If M is at most 2^200 and there are at most 40 anchors then no intermediate result overflows either: every call gives the same whatever the arithmetic does beyond 2^500.", "quantifier": "every way of rounding to nearest, every history of calls, every bound M and every sequence of drags and steps that keeps to it", "why_tests_cant": "rounding errors of millions of ticks could add up and feed a resonance until the positions overflow; no test runs that long", "anchors": ["animation/wobbly/wobbly.h, animation/wobbly/wobbly.cpp: wobbly::Model::Step, wobbly::Anchor::MoveBy, wobbly_internal.h: EulerIntegrate, Spring::ApplyForces"]}
{"id": "C139", "title": "Dragging a single anchor, however far, neither makes the mesh run away nor overflows, in double precision", "statement": "A model computes in double precision, has been through any calls, and the program now owns exactly one anchor, grabbed or inserted. Step does not read freed memory now (which C126 says it does exactly if an inserted anchor is owned that was put on a spring of an anchor released since). The spring constant is between 0 and 10, friction between 0.1 and 10, the maximum range between 1 and 1000. Positions, velocities and the lengths of springs are now within M in each coordinate, where M is at least the maximum range and at most 2^180. From here on the program drags the anchor and calls Step, in any order, as often and as long as it likes, in such a way that the grabbed point or inserted anchor and the places where the mesh points are to come to rest always stay within M. Then every call returns, after every call all positions and velocities are within 4096 M, and no intermediate result overflows: every call gives the same whatever the arithmetic does beyond 2^500.", "quantifier": "every way of rounding to nearest, every history of calls, every bound M and every sequence of drags and steps that keeps to it", "why_tests_cant": "the range is enforced by dividing by a distance computed in floating point from squares that may be far beyond any screen, and rounding errors of millions of ticks could add up; no test runs that long or goes that far", "anchors": ["animation/wobbly/wobbly.h, animation/wobbly/wobbly.cpp: wobbly::Model::Step, wobbly::Anchor::MoveBy, ConstrainmentStep::operator(), wobbly_internal.h: EulerIntegrate, Spring::ApplyForces"]}
{"id": "C140", "title": "However wildly a mesh swings, it comes down to the size its anchors and springs give it, in double precision", "statement": "A model computes in double precision, has been through any calls, and the program now owns two or more anchors, grabbed or inserted. Step does not read freed memory now (C126). Spring constant and friction are between 0.1 and 10. The lengths of springs are within M in each coordinate, where M is at least 1; positions and velocities are within V, where V is at least M and at most 2^390. From here on the program drags its anchors and calls Step, in any order, in such a way that the grabbed points and the inserted anchors always stay within M. V is at most 2^k M. Once the model has been stepped for 2^31 k + 16 milliseconds in all, all positions are within 2^46 M and all velocities within 2^36 M, and every call returns. So the swing is forgotten; rounding errors neither keep it alive nor feed it.", "quantifier": "every way of rounding to nearest, every history of calls, all bounds M and V and every sequence of drags and steps that keeps to M", "why_tests_cant": "friction takes energy away and rounding puts energy in, in proportion to how large the numbers are; which of the two wins cannot be seen from a run that ends", "anchors": ["animation/wobbly/wobbly.h, animation/wobbly/wobbly.cpp: wobbly::Model::Step, wobbly::Anchor::MoveBy, wobbly_internal.h: EulerIntegrate, Spring::ApplyForces"]}
{"id": "C141", "title": "The swing of a mesh dragged by a single anchor halves every 3.2 seconds until only the size of the model is left, in double precision", "statement": "A model computes in double precision, has been through any calls, and the program now owns exactly one anchor, grabbed or inserted. Step does not read freed memory now (C126). The spring constant is between 0 and 10, friction between 0.1 and 10, the maximum range between 1 and 1000. The lengths of springs are within M in each coordinate, where M is at least the maximum range; positions and velocities are within V, where V is at least M, at most 2^k M and at most 2^180. From here on the program drags its anchor and calls Step, in any order, in such a way that the grabbed point or inserted anchor and the places where the mesh points are to come to rest always stay within M. Then every call returns, and once the model has been stepped for 3200 k milliseconds in all, in whatever portions, all positions and velocities are within 2^14 M.", "quantifier": "every way of rounding to nearest, every history of calls, all bounds M and V and every sequence of drags and steps that keeps to M", "why_tests_cant": "the time is a bound for all states, all sequences of drags and all rounding errors along the way; a test can only time a few runs", "anchors": ["animation/wobbly/wobbly.h, animation/wobbly/wobbly.cpp: wobbly::Model::Step, wobbly::Anchor::MoveBy, ConstrainmentStep::operator(), wobbly_internal.h: EulerIntegrate, Spring::ApplyForces"]}
{"id": "C142", "title": "Equality and distance of geometries do not depend on the order", "statement": "For points, views on points, four-vectors and every other type with the Dimension trait, of the same number of dimensions: x == y exactly if y == x, the distance from x to y is that from y to x, it is zero exactly if x == y, equality is transitive, and the way over a third geometry is not shorter. (Violated for geometries of different dimensions: a point that comes first is compared with a four-vector by x and y only, while in the other order z and w must be zero as well, so p == v can hold although v == p does not, two different four-vectors can be equal to the same point, and the distance depends on the order.)", "quantifier": "every pair of types with the Dimension trait, every two or three values", "why_tests_cant": "a test compares a few points, mostly of the same type", "anchors": ["animation/geometry_traits.h: equals, distance, operator==, vector_reduce", "animation/geometry.h: DimensionAccess"]}
{"id": "C143", "title": "A mesh point can be combined with points of the same mesh", "statement": "The helpers that change a geometry in place work one coordinate after the other, and two views may look at the same array. When point i of a mesh is changed by assign, pointwise_add, pointwise_subtract, pointwise_scale or pointwise_div with point j of the same mesh, also if i is j, the result is the same as with a copy of point j: point i is made from the two old points and no other point changes. Every geometry can be combined with itself in this way.", "quantifier": "every array, every two indices, every operation on two coordinates, every type with the Dimension trait", "why_tests_cant": "whether a coordinate is read after it was overwritten depends on the layout and the order of the recursion; a test that uses two different points in different arrays cannot see it", "anchors": ["animation/geometry_traits.h: VectorApplyOntoRecursive, vector_map_onto", "animation/geometry.h: PointView"]}
{"id": "C144", "title": "Eq looks at the coordinates of the value under test and at nothing else", "statement": "Whether x matches Eq (y) depends only on the coordinates that the Dimension trait gives for the type of x. So a point matches a four-vector whatever the last two coordinates of the four-vector are, while a four-vector matches a point only if its own last two coordinates match zero. And for a type that does not implement the trait, such as int or std::string, Eq accepts every value: the trait of such a type names int as its data type, so it is taken for a geometry without coordinates. The ordinary comparison is made only for types whose data type is void.", "quantifier": "every type with any number of coordinates, every pair of values", "why_tests_cant": "a test that uses a matcher which accepts everything passes; the set of types is open", "anchors": ["matchers/mathematical_model_matcher.h: Eq, EqDispatch, Geo, GeometricallyEqualMatcher", "animation/geometry_traits.h: Dimension, DimensionAccess"]}
{"id": "C145", "title": "A mesh that was let go of neither runs away nor overflows, in double precision", "statement": "A model computes in double precision, has been through any calls, and the program now owns no anchor: it was let go of, perhaps while it swings. Spring constant and friction are between 0.1 and 10. Positions, velocities and the lengths of springs are now within M in each coordinate, where M is at least 1 and at most 2^190. From here on the program calls Step, in whatever portions, for fewer than 2^33 ticks in all, which is more than four years at one tick per 16 milliseconds. Then every call returns, after every call all positions are within 2^46 M and all velocities within 2^37 M, and no intermediate result overflows: every call gives the same whatever the arithmetic does beyond 2^500.", "quantifier": "every way of rounding to nearest, every history of calls after which no anchor is owned, every bound M and every sequence of fewer than 2^33 ticks", "why_tests_cant": "nothing holds the mesh, so rounding errors can push it along for ever; whether they feed the swing is not seen in a run of some seconds", "anchors": ["animation/wobbly/wobbly.h, animation/wobbly/wobbly.cpp: wobbly::Model::Step, wobbly::Anchor, wobbly_internal.h: EulerIntegrate, Spring::ApplyForces"]}
{"id": "C146", "title": "The mesh of an AnimationWobblyModel neither runs away nor overflows, however it was handled", "statement": "A program makes an AnimationWobblyModel with animation_wobbly_model_new, and the model computes in double precision. The program calls any of the functions, grabs and inserts anchors, releases or drops them, sets properties, and every call returns. It still has the model and holds at most 40 anchors: those it obtained and neither released nor dropped. Spring constant, friction and movement range are within the declared ranges of the properties. Positions, velocities and the lengths of springs are now within M in each coordinate, where M is at least 1000 and at most 2^180. If an anchor is held, a step does not read freed memory now. From here on the program steps the model and moves anchors that it has not dropped, in any order, also anchors that it has released; the anchors it holds always stay within M. With a single anchor held, the places where the mesh points are to come to rest stay within M as well; with none held, the steps take fewer than 2^33 ticks in all. Then every call returns, afterwards all positions are within 2^46 M and all velocities within 2^37 M, and nothing overflows: the mesh and all answers of animation_wobbly_model_step are the same whatever the arithmetic does beyond 2^500.", "quantifier": "every way of rounding to nearest, every history of calls on the GObject functions, any number of anchors up to 40, every bound M and every sequence of steps and drags that keeps to it", "why_tests_cant": "which anchors hold the mesh depends on everything that was grabbed, released and dropped before, and rounding errors of millions of steps could add up; no test runs such histories", "anchors": ["animation-glib/wobbly/model.cpp: animation_wobbly_model_new, animation_wobbly_model_step", "animation-glib/wobbly/anchor.cpp: animation_wobbly_anchor_move_by, animation_wobbly_anchor_release", "animation/wobbly/wobbly.cpp: wobbly::Model::Step"]}
{"id": "C147", "title": "However wildly the mesh of an AnimationWobblyModel swings, it comes down while anchors are held", "statement": "A program makes an AnimationWobblyModel with animation_wobbly_model_new, and the model computes in double precision. The program calls any of the functions, grabs and inserts anchors, releases or drops them, sets properties, and every call returns. It still has the model and holds between 1 and 40 anchors: those it obtained and neither released nor dropped. A step does not read freed memory now. Spring constant, friction and movement range are within the declared ranges of the properties. The lengths of springs are within M in each coordinate, where M is at least 1000; positions and velocities are within V, where V is at least M, at most 2^n M and at most 2^180. From here on the program steps the model and moves anchors that it has not dropped, in any order, also anchors that it has released; the anchors it holds always stay within M, and with a single anchor held so do the places where the mesh points are to come to rest. Then every call returns. With a single anchor held, once the model has been stepped for 3200 n milliseconds in all, all positions and velocities are within 2^14 M. With several, once it has been stepped for 2^31 n + 16 milliseconds, all positions are within 2^46 M and all velocities within 2^36 M. All this holds whatever the arithmetic does beyond 2^500.", "quantifier": "every way of rounding to nearest, every history of calls on the GObject functions, any number of anchors from 1 to 40, all bounds M and V and every sequence of steps and drags that keeps to M", "why_tests_cant": "which anchors hold the mesh depends on everything that was grabbed, released and dropped before, and whether rounding errors keep a swing alive is not seen in a short run", "anchors": ["animation-glib/wobbly/model.cpp: animation_wobbly_model_new, animation_wobbly_model_step", "animation-glib/wobbly/anchor.cpp: animation_wobbly_anchor_move_by, animation_wobbly_anchor_release", "animation/wobbly/wobbly.cpp: wobbly::Model::Step"]}
{"id": "C148", "title": "An AnimationWobblyModel is drawn on the rectangle it was told, in double precision", "statement": "Everything from making the model to reading it is computed in double precision, reading also in long double. A program makes an AnimationWobblyModel and moves, resizes, grabs, drags and lets go of it as in C135. Whenever it holds no anchor, animation_wobbly_model_deform_texcoords takes unit coordinates (u, v) in [0,1] to (x + v * width, y + u * height), where x, y, width and height are what the requests and drags add up to: each coordinate is off by at most 2^-18 pixels for each call that moved, dragged or resized, and twice more. animation_wobbly_model_query_extremes gives the four corners of one box with whole coordinates, which are the corners of that rectangle up to half a pixel and 2^-18 pixels for each such call and once more. The same holds while the program has an anchor, grabbed or inserted, once a step of some length has answered false. Nothing overflows: this holds even if results in double precision beyond 2^500 are replaced by anything, also while reading.", "quantifier": "every rounding to nearest in double precision, every long double that has all doubles and is at least as precise, every program of C135 of any length with fewer than 65536 calls that move, drag or resize, all unit coordinates", "why_tests_cant": "a test reads some places after some drags on one machine; that errors of moving, settling and reading stay below a bound for every program and every way of rounding needs a proof", "anchors": ["animation-glib/wobbly/model.cpp: animation_wobbly_model_deform_texcoords, animation_wobbly_model_query_extremes", "animation/wobbly/wobbly_internal.h: DeformUnitCoordsToMeshSpace", "animation/wobbly/wobbly.cpp: wobbly::BezierMesh::Extremes"]}
{"id": "C149", "title": "The picture of a model that is dragged stays near its rectangle, in double precision", "statement": "Moving, stepping and reading are computed in double precision, reading also in long double, with coordinates and sizes of a screen, a spring constant k and a friction f from 0.1 to 10 and a maximum range R from 1 to 1000 pixels. A model that was only moved, resized and stepped is grabbed at one point and then dragged, moved, resized and stepped. After every Step of some length DeformTexcoords takes unit coordinates (u, v) in [0,1] to within R + V/2 + 3 pixels, where V = 4k(R + 1)/f, of (x + v * width, y + u * height) in each coordinate, where x, y, width and height are what the moves, drags and resizes add up to. So the picture follows the pointer however it is dragged. Once that Step answers false each coordinate is off by at most 2^-18 pixels for each call that moved, dragged or resized, and twice more. This holds even if results in double precision beyond 2^500 are replaced by anything, so nothing overflows.", "quantifier": "every place and size on a screen, every sequence of up to 65535 moves, resizes and drags and any number of steps, all unit coordinates, every rounding to nearest below 2^500 and any behaviour beyond, every long double that has all doubles and is at least as precise", "why_tests_cant": "a test drags a few ways and reads a few places; how far the picture can lag behind under any drag, with the rounding of the integration and of the reading, is a statement about all of them", "anchors": ["animation/wobbly/wobbly.cpp: wobbly::Model::DeformTexcoords, wobbly::Model::Step", "animation/wobbly/wobbly_internal.h: DeformUnitCoordsToMeshSpace, ConstrainmentStep"]}
{"id": "C150", "title": "What the zoom, bounce and glide GObjects show is what is due at the time, with rounding", "statement": "An AnimationZoomAnimation is made with animation_zoom_new, an AnimationBounceAnimation with animation_bounce_new, or an AnimationGlideAnimation with g_object_new, with a linear stepper of L milliseconds or its reverse, or with NULL for one of 300 milliseconds. Boxes are given, or NULL for the unit square. Then properties are set, setter functions are called and the animation is stepped, in any order, but the stepper is left alone. All arithmetic is in float and double as the code has it. After every step the corners are where they are due. For the zoom that is on the line from the corner of the source box to the corner of the target box, the share T/L of the way after T milliseconds in total, within 1/32 pixel and 3/1024 for each frame; the source box is the one set last by function or property, NULL counting for nothing, and it may be flat. For the bounce that is the corner scaled about the middle of the target by the size due at T/L, within 1/16 pixel and a hundredth for each frame and each bounce; the numbers are those set last, a property set out of its range counting for nothing. For the glide it is the corner turned and moved back by the share of the angles and the distance that is left, within 1/8 pixel and 1/25 for each frame. A glide made with animation_glide_new is where it is due in 300 milliseconds whatever length was asked for.", "quantifier": "every L > 0, all boxes on a screen whose target has at least one pixel, scales from 0 to 2 and up to 1000 bounces, all glide numbers in their declared ranges, every history of calls with frames of at most 2^24 milliseconds, every corner, every rounding to nearest, any double sine accurate to 2^-30, any float sine and cosine accurate to 2^-23", "why_tests_cant": "a test steps one animation a few times with one order of calls; that properties, defaults and rounding errors never add up to a visible error is a statement about all histories", "anchors": ["animation-glib/zoom/zoom.cpp: animation_zoom_new, animation_zoom_animation_set_property, animation_zoom_animation_constructor", "animation-glib/bounce/bounce.cpp: animation_bounce_new, animation_bounce_animation_set_property, animation_bounce_animation_constructor", "animation-glib/glide/glide.cpp: animation_glide_new, animation_glide_animation_set_property, animation_glide_animation_constructor", "animation-glib/transform/transform.cpp: animation_transform_animation_step"]}
{"id": "C151", "title": "The rows of an AnimationMagicLampAnimation are at the height due at the time, with rounding", "statement": "An AnimationMagicLampAnimation is made with g_object_new and all its properties, or with animation_magiclamp_new, with a linear stepper of L milliseconds or its reverse, or with NULL for one of 300 milliseconds. Boxes are given, or NULL for the unit square; the resolution is given, or NULL for ten by ten. Then properties are set, setter functions are called and the animation is stepped, in any order, but the stepper is left alone. All arithmetic is in float and double as the code has it. After every step with T milliseconds in total every point of row j of the grid is at the height that row j is due at the share T/L of the way, within (rows - 1)/256 + 1/64 pixel and 1/(1024 (1 - stretch)) for each frame and two more. The source box is the one set last by function or property, NULL counting for nothing. The stretch factor is the one the object was made with until the setter function changes it: setting its property later does nothing, and animation_magiclamp_new makes every lamp with 0.45 whatever it is given.", "quantifier": "every L > 0, all boxes on a screen, every number of columns and 2 to 2^20 rows, every stretch from 0.2 to below 1 that is a float, all other factors, every history of calls with frames of at most 2^24 milliseconds, every point of the grid, every rounding to nearest, any exp", "why_tests_cant": "a test looks at one grid after a few steps; that neither the order of calls nor the rounding of the progress ever moves a row visibly is a statement about all histories", "anchors": ["animation-glib/magiclamp/magiclamp.cpp: animation_magiclamp_new, animation_magiclamp_animation_set_property, animation_magiclamp_animation_constructor", "animation-glib/grid/grid.cpp: animation_grid_animation_step", "animation/magiclamp/magiclamp.cpp: MoveGridVerticallyTowardsTargetWithXSigmoidDeformation, MagicLampAnimation::Step"]}
{"id": "C152", "title": "A GObject animation that is over shows the surface in place, with rounding", "statement": "An AnimationZoomAnimation is made with animation_zoom_new, an AnimationBounceAnimation with animation_bounce_new, or an AnimationGlideAnimation with g_object_new, with a linear stepper of L milliseconds or with NULL for one of 300 milliseconds. Then properties are set, setter functions are called and the animation is stepped, in any order, but the stepper is left alone. All arithmetic is in float and double as the code has it. Once L milliseconds have passed in total, the next step makes the progress exactly 1 and each corner is reported exactly where it is, converted to float, at depth 0 (for the glide at the rounded -1 / screen width). No trace is left of the rounding of the progress or of anything that was set on the way. A glide made with animation_glide_new is in place when 300 milliseconds are over, whatever length was asked for. An AnimationMagicLampAnimation made with g_object_new or animation_magiclamp_new then has every vertex within 1/256 pixel of its place in the regular lattice over the target box. The step must be at least (frames + 1)/2^24 of the length.", "quantifier": "every L > 0, every history of calls with frames of at most 2^24 milliseconds, every target with double coordinates of at most 2^52 (zoom) or coordinates of at most 2^100, source boxes and corners of at most 2^100, every float initial scale from 0 to 2^24, maximum scales, angles and distances of at most 2^100, axes of at most 2^20, every rounding to nearest that treats signs alike and rounds 1 - 2^-25 to 1 (half-even and half-away do), every sine within -1 to 1 that is 0 at 0, every cosine that is 1 at 0; for the lamp boxes on a screen whose tops are at least 0.01 apart in the end, 2 to 2^24 rows and columns, factors in their declared ranges with a float stretch below 1, and every exp with a relative error of at most one millionth", "why_tests_cant": "a test plays one animation to its end with one frame rate and compares with a tolerance; a progress that stops one unit short of 1 for some frame rates would leave a blurred window", "anchors": ["animation-glib/zoom/zoom.cpp: animation_zoom_new, animation_zoom_animation_set_property", "animation-glib/bounce/bounce.cpp: animation_bounce_new, animation_bounce_animation_set_property", "animation-glib/glide/glide.cpp: animation_glide_animation_set_property, animation_glide_animation_constructor", "animation-glib/magiclamp/magiclamp.cpp: animation_magiclamp_new, animation_magiclamp_animation_set_property, animation_magiclamp_animation_constructor", "animation/stepper/linear.h: Linear", "animation-glib/transform/transform.cpp: animation_transform_animation_step, animation_transform_animation_progress, animation_transform_animation_extremes"]}
{"id": "C153", "title": "The step of a GObject animation asks for more frames midway and for none when the time is over, with rounding", "statement": "A GObject animation (zoom, bounce, glide or magic lamp) is made with a linear stepper of L milliseconds or its reverse, or with NULL for one of 300 milliseconds. Then properties are set, setter functions are called and the animation is stepped, in any order, but the stepper is left alone. All arithmetic is in float as the code has it. animation_transform_animation_step and animation_grid_animation_step return TRUE when the time passed, with the step, is between 0 and L and clear of both by (frames + 1)/2^24 of the length, counting the step as a frame. They return FALSE when L milliseconds had passed before the step and the step is at least frames/2^24 of the length. So a caller that draws until FALSE, with a first step that is not within the margin of 0, stops at most the margin early and draws at most one frame too many. A glide made with animation_glide_new answers as one of 300 milliseconds, whatever length was asked for.", "quantifier": "every L > 0, every history of calls with frames of at most 2^24 milliseconds, all arguments of the constructors (a resolution that is not negative), every rounding to nearest", "why_tests_cant": "a test plays one animation with one frame rate; C89 has a frame rate for which the last frame comes late, and how late it can be for any is a statement about all of them", "anchors": ["animation-glib/transform/transform.cpp: animation_transform_animation_step", "animation-glib/grid/grid.cpp: animation_grid_animation_step", "animation/stepper/linear.h: Linear", "animation/stepper/reverse.h: Reverse", "animation-glib/constructor-helpers.h: animation_stepper_from_gvalue"]}
