import Verif.Model.Tools
import Verif.Model.Grid
import Verif.Model.Transfer
import Verif.Model.Remesh
import Verif.Model.Pbc
import Verif.Model.Step
import Verif.Lemmas.Spline
import Verif.Lemmas.Index
import Verif.Lemmas.Stencil
import Verif.Lemmas.Arange
import Verif.Lemmas.Remesh
import Verif.Lemmas.Accumulate
import Verif.Lemmas.P2G
import Verif.Lemmas.Euler
import Verif.Lemmas.Momentum
import Verif.Lemmas.Angular
import Verif.Lemmas.SplineDeriv
import Verif.Props.Spline
import Verif.Props.Grid
import Verif.Props.Transfer
import Verif.Props.Momentum
import Verif.Props.Reproduce
import Verif.Props.Bounds
import Verif.Props.Examples
import Verif.Props.Time
import Verif.Props.Periodic
import Verif.Props.Walls
import Verif.Props.Objects
import Verif.Props.Plastic
import Verif.Props.Mui
import Verif.Props.Search
import Verif.Props.CamClayMui
import Verif.Props.Stress
import Verif.Props.Sampling
import Verif.Props.Average
import Verif.Props.Run
import Verif.Props.FreeFall
import Verif.Props.Order
import Verif.Props.Shift
import Verif.Props.Bookkeeping
import Verif.Lemmas.PeriodicStep
import Verif.Props.PeriodicStep
import Verif.Props.PeriodicRun
import Verif.Props.WallMomentum
import Verif.Lemmas.Barrier
import Verif.Props.Containment
import Verif.Props.Yield
import Verif.Props.Coulomb
import Verif.Props.RunExamples
import Verif.Props.CoulombExamples
import Verif.Model.Input
import Verif.Props.Input
import Verif.Props.InputExamples
import Verif.Lemmas.GridFile
import Verif.Props.GridFile
import Verif.Props.GridWalls
import Verif.Props.GridExamples
import Verif.Props.Newton
import Verif.Props.NewtonVisc
import Verif.Props.NewtonImplicit
import Verif.Props.Spin
import Verif.Props.SpinExamples
import Verif.Props.Mobilised
import Verif.Props.MobilisedExamples
import Verif.Lemmas.Gradient
import Verif.Props.Inversion
import Verif.Props.InversionExamples
import Verif.Model.Files
import Verif.Lemmas.Files
import Verif.Props.Files
import Verif.Props.Directory
import Verif.Props.DirectoryExamples
import Verif.Props.Energy
import Verif.Props.EnergyRun
import Verif.Props.EnergyExamples
import Verif.Lemmas.Units
import Verif.Lemmas.UnitsStep
import Verif.Lemmas.UnitsPlastic
import Verif.Props.Units
import Verif.Props.UnitsExamples
import Verif.Props.Strength
import Verif.Props.Readme
import Verif.Props.Cube
import Verif.Props.StrengthExamples
import Verif.Lemmas.Mibf
import Verif.Props.OwnFriction
import Verif.Props.OwnFrictionExamples
import Verif.Props.BulkModulus
import Verif.Props.BulkModulusExamples
import Verif.Props.Memory
import Verif.Props.Reinsert
import Verif.Props.ReinsertExamples
import Verif.Lemmas.Swap
import Verif.Props.Limits
import Verif.Props.LimitsExamples
import Verif.Model.Vdb
import Verif.Props.Vdb
import Verif.Props.YieldExponent
import Verif.Props.YieldExponentExamples
import Verif.Lemmas.Local
import Verif.Props.Local
import Verif.Props.LocalExamples
import Verif.Model.Round
import Verif.Lemmas.Round
import Verif.Props.Round
import Verif.Model.RoundGrid
import Verif.Lemmas.RoundGrid
import Verif.Props.RoundGrid
import Verif.Model.RoundTransfer
import Verif.Lemmas.RoundTransfer
import Verif.Props.RoundTransfer
import Verif.Props.AnySvd
import Verif.Props.Motion
import Verif.Props.MotionExamples
import Verif.Props.NeoHookean
import Verif.Lemmas.Lattice
import Verif.Props.Patch
import Verif.Props.PatchExamples
import Verif.Lemmas.Permute
import Verif.Lemmas.PermutePlastic
import Verif.Props.Permute
import Verif.Spec.Mpm
import Verif.Lemmas.Textbook
import Verif.Props.Textbook
import Verif.Lemmas.Mirror
import Verif.Props.Mirror
import Verif.Props.WallOrder
import Verif.Props.Symmetry
import Verif.Props.MirrorExamples
import Verif.Props.Longer
import Verif.Props.Unused
import Verif.Props.Checks
import Verif.Model.Checks
import Verif.Lemmas.Boost
import Verif.Props.Galilei
import Verif.Props.Continue
import Verif.Model.LoadPly
import Verif.Props.LoadPly
import Verif.Props.Rotation
import Verif.Props.RotationExamples
import Verif.Lemmas.HenckyPower
import Verif.Props.TotalEnergy
import Verif.Props.Equilibrium
import Verif.Props.EquilibriumExamples
import Verif.Props.Dependence
import Verif.Props.DependenceExamples
import Verif.Model.RoundStep
import Verif.Lemmas.RoundStep
import Verif.Lemmas.RoundNode
import Verif.Props.RoundMomentum
import Verif.Lemmas.Crossing
import Verif.Props.Crossing
import Verif.Props.Seam
import Verif.Props.PlaneStrain
import Verif.Props.Smooth
import Verif.Props.Consistency
import Verif.Props.ConsistencyExamples
import Verif.Props.Geostatic
import Verif.Props.GeostaticExamples
import Verif.Props.Copies
import Verif.Props.CopiesExamples
import Verif.Props.Unreached
import Verif.Props.UnreachedExamples
import Verif.Props.MuiLimit
import Verif.Props.MuiLimitExamples
import Verif.Props.Kept
import Verif.Props.Recall
import Verif.Props.RecallExamples
import Verif.Props.Fresh
import Verif.Props.FreshExamples
import Verif.Props.Restart
import Verif.Props.Empty
import Verif.Props.EmptySampling
