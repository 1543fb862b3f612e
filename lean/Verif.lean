import Verif.Model.BezierDouble
import Verif.Model.Bounce
import Verif.Model.Float32
import Verif.Model.GLampFloat
import Verif.Model.GMemory
import Verif.Model.GObject
import Verif.Model.GRead
import Verif.Model.GReadRounded
import Verif.Model.GStepper
import Verif.Model.GTransformFloat
import Verif.Model.GWobbly
import Verif.Model.GWobblyRounded
import Verif.Model.Geometry
import Verif.Model.Glide
import Verif.Model.LampFloat
import Verif.Model.MagicLamp
import Verif.Model.Matchers
import Verif.Model.Numeric
import Verif.Model.Process
import Verif.Model.ProcessRounded
import Verif.Model.Stepper
import Verif.Model.Traits
import Verif.Model.TransformFloat
import Verif.Model.Wobbly
import Verif.Model.WobblyDouble
import Verif.Model.WobblyPhysics
import Verif.Model.WobblyRounded
import Verif.Model.Zoom
import Verif.Spec.Animation
import Verif.Spec.Attach
import Verif.Spec.Drag
import Verif.Spec.Flip
import Verif.Spec.Float
import Verif.Spec.FrameRate
import Verif.Spec.GDrawn
import Verif.Spec.GObject
import Verif.Spec.GOnTime
import Verif.Spec.GStepper
import Verif.Spec.GTug
import Verif.Spec.GVisit
import Verif.Spec.GWobbly
import Verif.Spec.GWobblyRounded
import Verif.Spec.Glide
import Verif.Spec.Lamp
import Verif.Spec.LampFloat
import Verif.Spec.LampOneWay
import Verif.Spec.LampOrder
import Verif.Spec.Ledger
import Verif.Spec.Mirror
import Verif.Spec.Motion
import Verif.Spec.OnTime
import Verif.Spec.Patch
import Verif.Spec.Process
import Verif.Spec.ProcessRounded
import Verif.Spec.Rest
import Verif.Spec.Slow
import Verif.Spec.SlowDouble
import Verif.Spec.Surface
import Verif.Spec.TickDouble
import Verif.Spec.Visit
import Verif.Spec.Wobbly
import Verif.Spec.WobblyBounds
import Verif.Spec.WobblyTug
import Verif.Lemmas.Approx
import Verif.Lemmas.BezierDouble
import Verif.Lemmas.Float32
import Verif.Lemmas.Float64
import Verif.Lemmas.GMemory
import Verif.Lemmas.GObject
import Verif.Lemmas.GStepper
import Verif.Lemmas.GStepperCount
import Verif.Lemmas.GTug
import Verif.Lemmas.GVisit
import Verif.Lemmas.GWobbly
import Verif.Lemmas.GWobblyHist
import Verif.Lemmas.GWobblyRounded
import Verif.Lemmas.Geometry
import Verif.Lemmas.GlideRound
import Verif.Lemmas.HalfEven
import Verif.Lemmas.Lamp
import Verif.Lemmas.LampFloat
import Verif.Lemmas.LampOneWay
import Verif.Lemmas.LampOrder
import Verif.Lemmas.LampRound
import Verif.Lemmas.LampRows
import Verif.Lemmas.LampUV
import Verif.Lemmas.LampVertex
import Verif.Lemmas.Outcome
import Verif.Lemmas.Process
import Verif.Lemmas.ProcessAlike
import Verif.Lemmas.ProcessAlikeRounded
import Verif.Lemmas.ProcessRounded
import Verif.Lemmas.TransformFloat
import Verif.Lemmas.WobblyAdrift
import Verif.Lemmas.WobblyAgree
import Verif.Lemmas.WobblyAmple
import Verif.Lemmas.WobblyAttach
import Verif.Lemmas.WobblyBase
import Verif.Lemmas.WobblyBits
import Verif.Lemmas.WobblyBlock
import Verif.Lemmas.WobblyBook
import Verif.Lemmas.WobblyBookSlow
import Verif.Lemmas.WobblyBounded
import Verif.Lemmas.WobblyDamped
import Verif.Lemmas.WobblyDangle
import Verif.Lemmas.WobblyDecay
import Verif.Lemmas.WobblyDemo
import Verif.Lemmas.WobblyDouble
import Verif.Lemmas.WobblyDoubleBounds
import Verif.Lemmas.WobblyDoubleExact
import Verif.Lemmas.WobblyDoubleRest
import Verif.Lemmas.WobblyDrag
import Verif.Lemmas.WobblyFine
import Verif.Lemmas.WobblyFineWeb
import Verif.Lemmas.WobblyFlip
import Verif.Lemmas.WobblyFree
import Verif.Lemmas.WobblyHang
import Verif.Lemmas.WobblyHaul
import Verif.Lemmas.WobblyHaulDecay
import Verif.Lemmas.WobblyInv
import Verif.Lemmas.WobblyKeep
import Verif.Lemmas.WobblyLengths
import Verif.Lemmas.WobblyLimit
import Verif.Lemmas.WobblyLoose
import Verif.Lemmas.WobblyMesh
import Verif.Lemmas.WobblyMirror
import Verif.Lemmas.WobblyNearest
import Verif.Lemmas.WobblyOps
import Verif.Lemmas.WobblyOscillator
import Verif.Lemmas.WobblyPaced
import Verif.Lemmas.WobblyPhysics
import Verif.Lemmas.WobblyPull
import Verif.Lemmas.WobblyQuiet
import Verif.Lemmas.WobblyRelabel
import Verif.Lemmas.WobblyRelabelRounded
import Verif.Lemmas.WobblyResize
import Verif.Lemmas.WobblyRest
import Verif.Lemmas.WobblyRests
import Verif.Lemmas.WobblyRoomy
import Verif.Lemmas.WobblyRoomyRest
import Verif.Lemmas.WobblyRounded
import Verif.Lemmas.WobblySettle
import Verif.Lemmas.WobblyShift
import Verif.Lemmas.WobblySlow
import Verif.Lemmas.WobblySlowDouble
import Verif.Lemmas.WobblySplit
import Verif.Lemmas.WobblyStable
import Verif.Lemmas.WobblyStep
import Verif.Lemmas.WobblySurface
import Verif.Lemmas.WobblySwing
import Verif.Lemmas.WobblyTame
import Verif.Lemmas.WobblyTick
import Verif.Lemmas.WobblyTied
import Verif.Lemmas.WobblyTug
import Verif.Lemmas.WobblyTugAgree
import Verif.Lemmas.WobblyTugDouble
import Verif.Lemmas.WobblyTwice
import Verif.Lemmas.WobblyVisit
import Verif.Lemmas.WobblyWeb
import Verif.Lemmas.WobblyWhole
import Verif.Lemmas.XR
import Verif.Props.AlmostEq
import Verif.Props.BezierDouble
import Verif.Props.FrameRate
import Verif.Props.GAnswer
import Verif.Props.GDecay
import Verif.Props.GDrawn
import Verif.Props.GFinished
import Verif.Props.GLampFinished
import Verif.Props.GLampOnTime
import Verif.Props.GMemory
import Verif.Props.GObject
import Verif.Props.GOnTime
import Verif.Props.GRead
import Verif.Props.GStepper
import Verif.Props.GTug
import Verif.Props.GVisit
import Verif.Props.GWobbly
import Verif.Props.GWobblyRounded
import Verif.Props.Geometry
import Verif.Props.GlideAccuracy
import Verif.Props.Lamp
import Verif.Props.LampEnds
import Verif.Props.LampExact
import Verif.Props.LampFloat
import Verif.Props.LampFloatUV
import Verif.Props.LampGrid
import Verif.Props.LampOneWay
import Verif.Props.LampOrder
import Verif.Props.LampRows
import Verif.Props.LampShape
import Verif.Props.MatcherEq
import Verif.Props.Matchers
import Verif.Props.NoJumps
import Verif.Props.OnTime
import Verif.Props.Process
import Verif.Props.ProcessRounded
import Verif.Props.Progress
import Verif.Props.Rounding
import Verif.Props.StepperCopy
import Verif.Props.Traits
import Verif.Props.TransformAccuracy
import Verif.Props.TransformFloat
import Verif.Props.TransformShapes
import Verif.Props.Transforms
import Verif.Props.WobblyAdrift
import Verif.Props.WobblyAnchors
import Verif.Props.WobblyAttach
import Verif.Props.WobblyBits
import Verif.Props.WobblyBook
import Verif.Props.WobblyBounded
import Verif.Props.WobblyDecay
import Verif.Props.WobblyDouble
import Verif.Props.WobblyDrag
import Verif.Props.WobblyDrawn
import Verif.Props.WobblyFar
import Verif.Props.WobblyFlip
import Verif.Props.WobblyHang
import Verif.Props.WobblyHaul
import Verif.Props.WobblyHaulDecay
import Verif.Props.WobblyHeld
import Verif.Props.WobblyInsert
import Verif.Props.WobblyKeep
import Verif.Props.WobblyLaw
import Verif.Props.WobblyMesh
import Verif.Props.WobblyMirror
import Verif.Props.WobblyMotion
import Verif.Props.WobblyNearest
import Verif.Props.WobblyPaced
import Verif.Props.WobblyResize
import Verif.Props.WobblySlow
import Verif.Props.WobblySlowDouble
import Verif.Props.WobblyStable
import Verif.Props.WobblySteps
import Verif.Props.WobblySurface
import Verif.Props.WobblyTick
import Verif.Props.WobblyTied
import Verif.Props.WobblyTug
import Verif.Props.WobblyTugDouble
import Verif.Props.WobblyTwice
import Verif.Props.WobblyUnheld
import Verif.Props.WobblyVisit
import Verif.Audit
