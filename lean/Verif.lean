import Verif.Props.State
import Verif.Props.Combinatorics
import Verif.Props.ContactGen
import Verif.Props.GenerateContact
import Verif.Props.GenContacts
import Verif.Props.Algorithm
import Verif.Props.Sound
import Verif.Props.Filter
import Verif.Props.Discretise
import Verif.Props.Interpolation
import Verif.Props.Goal
import Verif.Props.Candidates
import Verif.Props.IO
import Verif.Props.FullBody
import Verif.Props.Validation
import Verif.Props.PathValidation
import Verif.Props.Shooter
import Verif.Props.Support
import Verif.Props.SupportDegenerate
import Verif.Props.Hull
import Verif.Props.HullAligned
import Verif.Props.Triangle
import Verif.Props.Geom
import Verif.Props.GeomHull
import Verif.Props.GeomClip
import Verif.Props.GeomMisc
import Verif.Props.Stability
import Verif.Props.Kinematics
import Verif.Props.Reachability
import Verif.Props.Stopwatch
import Verif.Props.Analysis
import Verif.Props.HeuristicTools
import Verif.Props.Heuristic
import Verif.Props.Node
import Verif.Props.Optimise
import Verif.Props.Dynamic
import Verif.Props.Planner
import Verif.Props.Parabola
import Verif.Props.Paths
import Verif.Props.Interp
import Verif.Props.Effector
import Verif.Model.Joints
import Verif.Props.Joints
import Verif.Model.Projection
import Verif.Props.Projection
import Verif.Model.Tools
import Verif.Props.Tools
import Verif.Model.Device
import Verif.Props.Device
import Verif.Model.Restore
import Verif.Props.Restore
import Verif.Model.Factories
import Verif.Props.Factories
import Verif.Props.ReachabilityMore
import Verif.Props.InterpolationAbort
import Verif.Props.ShooterMore
import Verif.Model.Obstacles
import Verif.Props.Obstacles
import Verif.Model.RRT
import Verif.Props.RRT
import Verif.Model.Setup
import Verif.Props.Setup
import Verif.Model.Surfaces
import Verif.Props.Surfaces
import Verif.Model.DynamicPath
import Verif.Props.DynamicPath
import Verif.Model.Misc
import Verif.Props.Misc
import Verif.Model.Octree
import Verif.Props.Octree
import Verif.Model.Copies
import Verif.Props.Copies
import Verif.Model.RomNames
import Verif.Props.RomNames
import Verif.Props.Plan
import Verif.Props.Steps
import Verif.Model.Random
import Verif.Props.Random
import Verif.Props.Balance
import Verif.Props.Roadmap
import Verif.Props.Provenance
import Verif.Props.OnSurface
import Verif.Props.Equilibrium
import Verif.Model.Locked
import Verif.Props.Locked
import Verif.Props.Free
import Verif.Props.Crossing
import Verif.Props.Moving
import Verif.Props.Reposition
import Verif.Props.Needed
import Verif.Props.Initial
import Verif.Props.DeepContacts
import Verif.Props.Shift
import Verif.Model.Ownership
import Verif.Props.Ownership
import Verif.Model.ValidPart
import Verif.Model.Motion
import Verif.Props.ValidPart
import Verif.Props.SearchSize
import Verif.Props.Motion
import Verif.Props.CallTimes
import Verif.Props.Best
import Verif.Props.Exhaustive
import Verif.Props.Guide
import Verif.Props.ShootStanding
import Verif.Model.JumpCone
import Verif.Props.JumpCone
import Verif.Model.RandomJump
import Verif.Props.RandomJump
import Verif.Model.Steering
import Verif.Props.Steering
import Verif.Model.JumpFriction
import Verif.Props.JumpFriction
import Verif.Props.TreePaths
import Verif.Model.EffectorMotion
import Verif.Props.EffectorMotion
import Verif.Props.Clock
import Verif.Props.ClockValid
import Verif.Model.Profiler
import Verif.Props.Profiler
