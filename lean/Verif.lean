import Verif.Props.Memory
import Verif.Props.Algo
import Verif.Props.BoundingBox
import Verif.Props.RTree
import Verif.Props.Matrix
import Verif.Props.Solver
import Verif.Props.Geometry
import Verif.Props.Barycentric
import Verif.Props.Transform
import Verif.Props.Body
import Verif.Props.BodyMotion
import Verif.Props.Constraint
import Verif.Props.Momentum
import Verif.Props.Equality
import Verif.Props.Limits
import Verif.Props.Jacobian
import Verif.Props.Manifold
import Verif.Props.Contact
import Verif.Props.ContactSolve
import Verif.Props.PositionSolve
import Verif.Props.ContactPosition
import Verif.Props.ContactPersist
import Verif.Props.Island
import Verif.Props.Sleep
import Verif.Props.Camera
import Verif.Props.Scene
import Verif.Props.Profiler
import Verif.Props.Renderer
import Verif.Props.Shapes
import Verif.Props.World
import Verif.Props.WorldLog
import Verif.Props.Grabber
import Verif.Model.Gjk
import Verif.Spec.Gjk
import Verif.Lemmas.Gjk
import Verif.Lemmas.Epa
import Verif.Lemmas.Separation
import Verif.Props.Gjk
import Verif.Spec.Triangulated
import Verif.Lemmas.Triangulated
import Verif.Props.Mass
import Verif.Lemmas.IslandRun
import Verif.Spec.IslandMomentum
import Verif.Lemmas.IslandMomentum
import Verif.Model.Library
import Verif.Spec.Library
import Verif.Lemmas.Library
import Verif.Props.IslandMomentum
import Verif.Props.Library
import Verif.Spec.IslandSound
import Verif.Lemmas.IslandSound
import Verif.Spec.LibrarySound
import Verif.Lemmas.LibrarySound
import Verif.Props.LibrarySound
import Verif.Props.Mouse
import Verif.Spec.IslandEnergy
import Verif.Lemmas.IslandEnergy
import Verif.Spec.LibraryEnergy
import Verif.Lemmas.LibraryEnergy
import Verif.Props.LibraryEnergy
import Verif.Model.Motion
import Verif.Spec.Motion
import Verif.Lemmas.Motion
import Verif.Props.Motion
import Verif.Spec.MotionEnergy
import Verif.Props.MotionEnergy
import Verif.Spec.IslandStill
import Verif.Lemmas.IslandStill
import Verif.Spec.LibraryStill
import Verif.Lemmas.LibraryStill
import Verif.Spec.MotionStill
import Verif.Props.MotionStill
import Verif.Spec.IslandTwin
import Verif.Lemmas.IslandTwin
import Verif.Spec.IslandFrames
import Verif.Props.IslandFrames
import Verif.Props.IslandTwin
import Verif.Spec.LibraryTwin
import Verif.Lemmas.LibraryTwin
import Verif.Props.LibraryTwin
import Verif.Spec.LibraryMoved
import Verif.Lemmas.LibraryMoved
import Verif.Lemmas.ContactMoved
import Verif.Props.LibraryMoved
import Verif.Model.Application
import Verif.Spec.Application
import Verif.Lemmas.Application
import Verif.Props.Application
import Verif.Model.Penetration
import Verif.Spec.Overlap
import Verif.Lemmas.Overlap
import Verif.Lemmas.Incident
import Verif.Lemmas.Contacting
import Verif.Props.Overlap
import Verif.Model.Assembly
import Verif.Spec.Assembly
import Verif.Props.Assembly
import Verif.Model.BodyHistory
import Verif.Spec.BodyHistory
import Verif.Lemmas.BodyHistory
import Verif.Props.BodyHistory
import Verif.Model.Spawner
import Verif.Spec.Spawner
import Verif.Props.Spawner
import Verif.Model.Demos
import Verif.Spec.Demos
import Verif.Lemmas.Demos
import Verif.Props.Demos
import Verif.Spec.WorldOrder
import Verif.Lemmas.WorldOrder
import Verif.Props.WorldOrder
import Verif.Model.WorldTree
import Verif.Spec.WorldTree
import Verif.Lemmas.WorldTree
import Verif.Props.WorldTree
import Verif.Spec.Picture
import Verif.Model.Visible
import Verif.Lemmas.Picture
import Verif.Props.Picture
import Verif.Spec.Controls
import Verif.Lemmas.Controls
import Verif.Props.Controls
import Verif.Spec.LibraryHeavier
import Verif.Lemmas.LibraryHeavier
import Verif.Lemmas.ContactHeavier
import Verif.Lemmas.StepHeavier
import Verif.Props.LibraryHeavier
import Verif.Model.RTreeHeap
import Verif.Lemmas.RTreeHeap
import Verif.Lemmas.RTreeHeapInsert
import Verif.Lemmas.RTreeHeapSearch
import Verif.Lemmas.RTreeHeapErase
import Verif.Lemmas.RTreeHeapOps
import Verif.Lemmas.RTreeHeapIter
import Verif.Lemmas.RTreeHeapRebuild
import Verif.Spec.RTreeHeap
import Verif.Lemmas.RTreeHeapClient
import Verif.Props.RTreeHeap
import Verif.Spec.JointOrder
import Verif.Lemmas.IslandTurned
import Verif.Lemmas.JointOrder
import Verif.Props.JointOrder
import Verif.Model.WorldSleep
import Verif.Spec.WorldSleep
import Verif.Lemmas.WorldSleep
import Verif.Props.WorldSleep
import Verif.Model.ExtBox
import Verif.Spec.ExtBox
import Verif.Props.ExtBox
import Verif.Model.Graphics
import Verif.Spec.Graphics
import Verif.Lemmas.Graphics
import Verif.Props.Graphics
import Verif.Model.Pool
import Verif.Spec.Pool
import Verif.Lemmas.Pool
import Verif.Props.Pool
import Verif.Spec.SlowMotion
import Verif.Lemmas.SlowMotion
import Verif.Lemmas.SlowMotionContact
import Verif.Lemmas.SlowMotionStep
import Verif.Props.SlowMotion
import Verif.Spec.Converged
import Verif.Lemmas.Converged
import Verif.Lemmas.ConvergedSweep
import Verif.Lemmas.ConvergedLimits
import Verif.Lemmas.ConvergedContact
import Verif.Lemmas.ConvergedIsland
import Verif.Props.Converged
import Verif.Spec.Unique
import Verif.Lemmas.Unique
import Verif.Lemmas.UniqueIsland
import Verif.Props.Unique
import Verif.Spec.Contract
import Verif.Lemmas.Contract
import Verif.Lemmas.ContractIsland
import Verif.Props.Contract
import Verif.Spec.Project
import Verif.Lemmas.Project
import Verif.Lemmas.ProjectKinds
import Verif.Lemmas.ProjectIsland
import Verif.Props.Project
import Verif.Spec.Standing
import Verif.Lemmas.Standing
import Verif.Lemmas.StandingIsland
import Verif.Lemmas.StandingLoop
import Verif.Props.Standing
import Verif.Spec.Slumber
import Verif.Props.Slumber
import Verif.Model.Tumbler
import Verif.Spec.Tumbler
import Verif.Lemmas.Tumbler
import Verif.Props.Tumbler
import Verif.Spec.Driven
import Verif.Lemmas.Driven
import Verif.Props.Driven
import Verif.Props.LimitSetting
import Verif.Spec.Push
import Verif.Props.Push
