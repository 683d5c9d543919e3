import Verif.Model.Modulation
import Verif.Model.RealInst
import Verif.Model.FloatInst
import Verif.Sanity
import Verif.Props.Math
import Verif.Props.Pose
import Verif.Props.Ellipsoid
import Verif.Props.Intersection
import Verif.Props.Env
import Verif.Props.Aggregation
import Verif.Props.AggregationHistory
import Verif.Props.Modulation
import Verif.Props.Trajectory
import Verif.Props.Combine
import Verif.Props.Moving
import Verif.Props.Order
import Verif.Props.Total
import Verif.Props.Planar
import Verif.Props.Agent
import Verif.Props.AgentQueries
import Verif.Props.Hull
import Verif.Props.HullQueries
import Verif.Props.HullDistance
import Verif.Props.AggregateQueries
import Verif.Props.HullSurface
import Verif.Props.Kinds
import Verif.Model.Dbl
import Verif.Props.Exceptional
import Verif.Lemmas.Euler
import Verif.Model.Loop
import Verif.Props.Loop
import Verif.Props.IntersectionDepth
import Verif.Model.Plotting
import Verif.Model.Configuration
import Verif.Model.Programs
import Verif.Model.Setters
import Verif.Model.HullBuild
import Verif.Spec.Setters
import Verif.Lemmas.Setters
import Verif.Props.Setters
import Verif.Props.Assign
import Verif.Props.LoopNeedle
import Verif.Props.HullBuild
import Verif.Model.Optimization
import Verif.Props.Plotting
import Verif.Lemmas.CombineMany
import Verif.Props.Many
import Verif.Lemmas.Oblique
import Verif.Props.Speed
import Verif.Props.MovingLoop
import Verif.Props.MovingProgram
import Verif.Model.Fp
import Verif.Model.Binary64
import Verif.Spec.Fp
import Verif.Lemmas.Fp
import Verif.Lemmas.FpGeom
import Verif.Lemmas.FpModulation
import Verif.Lemmas.FpWorld
import Verif.Lemmas.FpRegular
import Verif.Lemmas.Binary64
import Verif.Props.Rounding
import Verif.Props.RoundingLimits
import Verif.Spec.FpLoop
import Verif.Lemmas.FpFlat
import Verif.Lemmas.FpSingle
import Verif.Lemmas.FpRelaxed
import Verif.Lemmas.FpStep
import Verif.Props.RoundingLoop
import Verif.Model.Guard
import Verif.Props.Guard
import Verif.Model.Print
import Verif.Spec.Print
import Verif.Lemmas.Print
import Verif.Props.Print
import Verif.Props.Curvature
import Verif.Props.Configuration
import Verif.Props.Programs
import Verif.Props.HullWall
import Verif.Props.AggregateLoop
import Verif.Props.Convergence
import Verif.Props.ConvergenceEllipse
import Verif.Props.ConvergenceFree
import Verif.Props.Optimization
import Verif.Props.HullEnclosure
import Verif.Props.HullNeedle
import Verif.Props.AggregateTotal
import Verif.Props.Ownership
import Verif.Spec.Digits
import Verif.Model.Digits
import Verif.Lemmas.Digits
import Verif.Props.Digits
import Verif.Cases.Aggregation
import Verif.Cases.Hulls
import Verif.Cases.Basic
import Verif.Cases.Text
import Verif.Cases.Loops
import Verif.Spec.Alike
import Verif.Lemmas.Alike
import Verif.Lemmas.Lockstep
import Verif.Lemmas.AddressLoop
import Verif.Props.Address
import Verif.Props.AddressUpdate
import Verif.Props.AddressLoop
import Verif.Props.Updating
import Verif.Cases.Address
import Verif.Model.UnitTests
import Verif.Lemmas.UnitTests
import Verif.Lemmas.UnitTestsEnv
import Verif.Props.UnitTests
import Verif.Model.Exceptions
import Verif.Lemmas.NoThrow
import Verif.Props.Exceptions
import Verif.Cases.Exceptions
import Verif.Props.View
import Verif.Spec.Units
import Verif.Lemmas.Units
import Verif.Props.Units
import Verif.Spec.Origin
import Verif.Lemmas.Origin
import Verif.Lemmas.OriginUpdate
import Verif.Lemmas.OriginLoop
import Verif.Props.Origin
import Verif.Spec.Library
import Verif.Lemmas.Library
import Verif.Props.LocalSight
import Verif.Props.Library
import Verif.Props.LibrarySearch
import Verif.Spec.Finite
import Verif.Lemmas.DblHull
import Verif.Lemmas.DblUpdate
import Verif.Lemmas.DblScene
import Verif.Props.ExceptionalHull
import Verif.Spec.Sorting
import Verif.Props.Ties
import Verif.Props.Graze
import Verif.Spec.Continuity
import Verif.Lemmas.Limits
import Verif.Props.Continuity
import Verif.Spec.Recede
import Verif.Lemmas.Recede
import Verif.Props.Recede
import Verif.Spec.Mirror
import Verif.Props.Mirror
import Verif.Spec.UnitsHull
import Verif.Lemmas.UnitsHull
import Verif.Props.UnitsHull
import Verif.Props.HullMoving
import Verif.Props.Recovery
import Verif.Props.Duplicates
import Verif.Spec.Motion
import Verif.Props.Turned
import Verif.Props.Names
import Verif.Props.Trace
import Verif.Props.Renamed
import Verif.Props.Several
import Verif.Props.Faster
import Verif.Props.Hurry
import Verif.Props.Memory
