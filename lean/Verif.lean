import Verif.Model.RunLoop
import Verif.Model.Output
import Verif.Props.RunLoop
import Verif.Props.Output
import Verif.Props.Splitting
import Verif.Props.Subcycle
import Verif.Props.LevelIntegrator
import Verif.Props.Context
import Verif.Props.IndexBox
import Verif.Props.Layout
import Verif.Props.Span
import Verif.Props.PatchIntegrator
import Verif.Props.StableDt
import Verif.Props.Amr
import Verif.Props.Counter
import Verif.Props.Util
import Verif.Props.Pool
import Verif.Props.Limiter
import Verif.Props.Flux
import Verif.Props.Burgers
import Verif.Props.Gas
import Verif.Props.GasHll
import Verif.Props.ShallowWater
import Verif.Props.Hllem
import Verif.Props.Boundary
import Verif.Props.Valve
import Verif.Props.Geometry
import Verif.Props.Tagging
import Verif.Props.Reconstruct
import Verif.Props.GasMix
import Verif.Props.GasExact
import Verif.Props.CutCell
import Verif.Props.CutWall
import Verif.Props.Kinetics
import Verif.Props.IgnitionTemp
import Verif.Props.Control
import Verif.Props.TurbineBoundary
import Verif.Props.MassflowJirasek
import Verif.Props.MassflowHll
import Verif.Props.MassflowExact
import Verif.Props.ShockData
import Verif.Props.AxialTube
import Verif.Props.Diffusion
import Verif.Props.AxiSymmetric
import Verif.Props.Ignition
import Verif.Props.Average
import Verif.Props.BlockInterpolate
import Verif.Props.MultiBlock
import Verif.Props.NodalHelm
import Verif.Props.NodalSmooth
import Verif.Props.LowMachAdvection
import Verif.Props.LowMach
import Verif.Props.MdLimiter
import Verif.Props.CutGradient
import Verif.Props.HGrid
import Verif.Props.GridOutput
import Verif.Props.Hdf5File
import Verif.Props.MusclGas
import Verif.Props.Burke
import Verif.Props.BurkeThermo
import Verif.Props.Reactor
import Verif.Props.ReactorText
import Verif.Props.Newton
import Verif.Props.BurkeEnergy
import Verif.Props.IdealGasMix
import Verif.Props.IdealGasMixFlux
import Verif.Props.KineticSource
import Verif.Props.OdeDriver
import Verif.Props.Logging
import Verif.Props.OmpLocal
import Verif.Props.Interpolate1d
import Verif.Props.Options
import Verif.Props.IdealSignals
import Verif.Props.IdealPredictor
import Verif.Props.IdealMuscl
import Verif.Props.IdealMuscl2
import Verif.Props.PatchSweep
import Verif.Props.Supplement
import Verif.Props.CutBoundary
import Verif.Props.IsentropicBoundary
import Verif.Props.NodalHelmLin
import Verif.Props.RegridData
import Verif.Props.MultiBlockRun
import Verif.Props.Checkpoint
import Verif.Props.DebugOutput
import Verif.Props.States
import Verif.Props.CutSweep
import Verif.Props.HGridPolygon
import Verif.Props.WallCoupling
import Verif.Props.CutAmr
import Verif.Props.ControlOutput
import Verif.Props.AxialAmr
import Verif.Props.MethodFactory
import Verif.Props.AxialSweep
import Verif.Props.Samrai
import Verif.Props.SamraiView
import Verif.Props.ValveFill
import Verif.Props.CutStable
import Verif.Props.CutRegular
import Verif.Props.CutComplete
import Verif.Props.NodalWall
import Verif.Props.NodalEnergy
import Verif.Props.GhostTiming
import Verif.Props.Feedback
import Verif.Props.TurbineFlow
import Verif.Props.NodalLevels
import Verif.Props.TwoLevelRhs
import Verif.Props.TwoLevelResid
import Verif.Props.JointFlux
import Verif.Props.ValveJoint
import Verif.Props.NodalRelax
import Verif.Props.ProbeRun
import Verif.Props.SplitGradient
import Verif.Props.NodalRelaxLin
import Verif.Props.TChem
import Verif.Props.TChemMex
import Verif.Props.MultiBlockFirst
import Verif.Props.MatlabGrid
import Verif.Props.MatlabText
import Verif.Props.SlantedConnection
import Verif.Props.MusclMasked
import Verif.Props.RegularSpace
import Verif.Props.CvodeDriver
import Verif.Props.OdeFactory
import Verif.Props.PatchTransmissive
import Verif.Props.AdvectiveFluxes
import Verif.Props.StateComponents
import Verif.Props.BlockGridding
import Verif.Props.ScratchLevels
import Verif.Audit
