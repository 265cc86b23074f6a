import Verif.Base.Status
import Verif.Base.OMap
import Verif.Data.Model
import Verif.Data.Curve
import Verif.Data.Rep
import Verif.Data.Submit
import Verif.Data.Ops
import Verif.Data.Init
import Verif.Data.Spec
import Verif.Data.Invariant
import Verif.Data.History
import Verif.Data.Check
import Verif.Data.Props
import Verif.Data.Queue
import Verif.Data.Props2
import Verif.Data.Sched
import Verif.Data.Confluence
import Verif.Data.Props3
import Verif.Driver.Container
import Verif.Driver.ContainerProps
import Verif.Driver.Steps
import Verif.Driver.StepsProps
import Verif.MPI.Protocol
import Verif.MPI.Invariant
import Verif.MPI.Exec
import Verif.MPI.ProtocolProps
import Verif.Driver.Jobs
import Verif.Driver.JobsProps
import Verif.Driver.Parallel
import Verif.Driver.ParallelProps
import Verif.Driver.Solve
import Verif.Driver.SolveInv
import Verif.Driver.SolveProps
import Verif.Driver.Serial
import Verif.Driver.SerialProps
import Verif.Driver.Finalize
import Verif.Driver.FinalizeProps
import Verif.MPI.Codec
import Verif.MPI.CodecProps
import Verif.ALM.Base
import Verif.ALM.Methods
import Verif.ALM.Hoare
import Verif.ALM.StepSpec
import Verif.ALM.Demo
import Verif.ALM.StepProps
import Verif.ALM.Frame
import Verif.ALM.GeoLaws
import Verif.ALM.CrisfieldSpec
import Verif.ALM.CrisfieldProps
import Verif.ALM.RealDemo
import Verif.ALM.RiksProps
import Verif.ALM.GuessProps
import Verif.ALM.Metric
import Verif.ALM.ModifiedRoots
import Verif.ALM.LoadControlProps
import Verif.ALM.Singular
import Verif.ALM.SingularSpec
import Verif.ALM.SingularProps
import Verif.Static.Base
import Verif.Static.Newton
import Verif.Static.NewtonSpec
import Verif.Static.NewtonProps
import Verif.Static.Convergence
import Verif.Static.DR
import Verif.Static.DRSpec
import Verif.Static.DRProps
import Verif.Static.Composite
import Verif.Static.CompositeProps
import Verif.Dynamic.Base
import Verif.Dynamic.Methods
import Verif.Dynamic.Trace
import Verif.Dynamic.StepProps
import Verif.Dynamic.Spec
import Verif.Dynamic.LinearProps
import Verif.Dynamic.Stability
import Verif.Dynamic.NonlinearSpec
import Verif.Dynamic.LoopSpec
import Verif.Dynamic.LoopProps
import Verif.Dynamic.AgreeProps
import Verif.Dynamic.RestProps
import Verif.Dynamic.Blind
import Verif.Dynamic.XBraid
import Verif.Eigen.Base
import Verif.Eigen.Props
import Verif.Eigen.PowerProps
import Verif.Tools.Output
import Verif.Tools.Fitter
import Verif.Tools.FitterProps
import Verif.Tools.Nearest
import Verif.Tools.SpaceTime
import Verif.Tools.Panels
import Verif.Stepping.Loop
import Verif.Stepping.ALM
import Verif.ALM.Config
import Verif.ALM.ConfigProps
import Verif.ALM.Flow
import Verif.ALM.Fresh
import Verif.ALM.Restart
import Verif.MPI.Guarded
import Verif.Driver.Agree
import Verif.ALM.Worker
import Verif.ALM.WorkerProps
import Verif.ALM.LinearRun
import Verif.ALM.LinearProps
import Verif.ALM.LinearNewton
import Verif.ALM.LinearDemo
import Verif.ALM.SingularTest
import Verif.ALM.SingularDemo
import Verif.ALM.CrisfieldMore
import Verif.ALM.CrisfieldDemo
import Verif.Static.Relaxation
import Verif.Base.Inertia
import Verif.Static.Indicator
import Verif.Static.IndicatorProps
import Verif.Stepping.Target
import Verif.Stepping.TargetProps
import Verif.Stepping.Control
import Verif.Dynamic.Programs
import Verif.Dynamic.UpdateProps
import Verif.Stepping.Bifurcation
import Verif.Stepping.BifurcationProps
import Verif.Stepping.Fixed
import Verif.Stepping.Adaptive
import Verif.Stepping.Wrinkling
import Verif.Static.Programs
import Verif.Static.ProgramsProps
import Verif.Eigen.Programs
import Verif.Eigen.ProgramsProps
import Verif.Driver.Output
import Verif.Driver.OutputProps
import Verif.Tools.Input
import Verif.Tools.InputProps
import Verif.Tools.Steps
import Verif.Tools.StepsProps
import Verif.ALM.Verbose
import Verif.ALM.VerboseSim
import Verif.ALM.VerboseStep
import Verif.ALM.VerboseSingular
import Verif.ALM.VerboseProps
import Verif.ALM.VerboseTable
import Verif.ALM.VerboseDemo
import Verif.ALM.VerboseBisection
import Verif.Dynamic.Taylor
import Verif.Dynamic.Converge
import Verif.Dynamic.ConvergeProps
import Verif.Dynamic.ConvergeEnergy
import Verif.Dynamic.Tube
import Verif.Dynamic.ConvergeSmooth
import Verif.ALM.Contraction
import Verif.ALM.NewtonStep
import Verif.ALM.NewtonProps
import Verif.ALM.LoadPath
import Verif.ALM.LoadSmooth
import Verif.ALM.NewtonDemo
import Verif.ALM.CrisfieldNewton
import Verif.ALM.CrisfieldPath
import Verif.ALM.CrisfieldWalk
import Verif.ALM.CrisfieldNewtonDemo
import Verif.Static.Verbose
import Verif.Static.VerboseNewton
import Verif.Static.VerboseDR
import Verif.Dynamic.Verbose
import Verif.Dynamic.VerboseProps
import Verif.Dynamic.VerboseTable
import Verif.Dynamic.VerboseTables
import Verif.Dynamic.NewtonLoop
import Verif.Dynamic.ConvergeNewton
import Verif.Dynamic.ConvergeNewtonProps
import Verif.Dynamic.EulerLoop
import Verif.Dynamic.ConvergeEulerProps
import Verif.Dynamic.BatheLoop
import Verif.Dynamic.ConvergeBathe
import Verif.Dynamic.ConvergeBatheProps
import Verif.Dynamic.BatheDrift
import Verif.Dynamic.ConvergeWilson
import Verif.Dynamic.ConvergeWilsonProps
import Verif.ALM.ExtendedNewton
import Verif.ALM.ExtendedLoop
import Verif.ALM.ExtendedSmooth
import Verif.ALM.ExtendedProps
import Verif.ALM.BisectionConverge
import Verif.ALM.BisectionPath
import Verif.ALM.PowerDirection
import Verif.ALM.BifurcationFound
import Verif.ALM.BifurcationProps
import Verif.Oracle.Uniaxial
import Verif.Oracle.UniaxialProps
import Verif.ALM.BisectionCrisfield
import Verif.ALM.BifurcationCrisfield
import Verif.Tools.BSpline
import Verif.Tools.Domains
import Verif.Tools.DomainKnots
import Verif.Tools.DomainProps
import Verif.Tools.DomainRound
import Verif.Tools.Lattice
import Verif.Tools.LatticeProps
import Verif.Oracle.Reference
import Verif.Oracle.ReferenceProps
import Verif.Oracle.ReferenceBeams
import Verif.Oracle.ReferenceFirst
import Verif.Oracle.ReferencePlate
import Verif.Oracle.ReferenceCircle
import Verif.Tools.PostProcess
import Verif.Tools.PostProcessProps
import Verif.Static.OptOptions
import Verif.Static.OptOptionsProps
import Verif.Dynamic.XBraidOptions
import Verif.Dynamic.XBraidOptionsProps
import Verif.Oracle.ReferenceStiffness
