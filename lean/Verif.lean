import Verif.Func.Props2
import Verif.Func.Props3
import Verif.Geom.Props3
import Verif.Inertia.Props
import Verif.Recorder.Props
import Verif.Mesh.Props
import Verif.Waves.Stretching
import Verif.Waves.AiryConv
import Verif.Waves.AiryOptim
import Verif.Waves.AirySetup
import Verif.Waves.Amplitudes
import Verif.Link.DofMask
import Verif.Core.Statics
import Verif.Core.Relax
import Verif.Waves.SeaPhases
import Verif.Waves.SeaSpectrum
import Verif.Waves.EnergyLimit
import Verif.Waves.HeightLimit
import Verif.Cable.CatenaryEnergy
import Verif.Cable.CatenaryBodies
import Verif.Hydro.PassiveBody
import Verif.Hydro.PassiveCases
import Verif.Link.SpringEnergy
import Verif.Hydro.LinkedBodies
import Verif.Hydro.Momentum
import Verif.Hydro.MomentumLine
import Verif.Waves.SeaResponse
import Verif.Seakeeping.ExcitationStatistics
import Verif.Waves.BandwidthExists
import Verif.Waves.IrregularDefault
import Verif.Link.SpringDamper
import Verif.Hydro.LinearTangent
import Verif.Hydro.LinearHeading
import Verif.Hydro.DatabaseHydrostatics
import Verif.Hydro.WaterlineStrip
import Verif.Hydro.StiffnessDerivative
import Verif.Hydro.Metacentre
import Verif.Link.ConstraintInit
import Verif.Mesh.Boundary
import Verif.Mesh.BoundaryCache
import Verif.Cable.CatenaryExists
import Verif.Hydro.EquilibriumConv
import Verif.Core.LogColumnsMore
import Verif.Cable.BuoyBody
import Verif.Func.Output
import Verif.Core.NodeAxes
import Verif.Waves.AmplitudeRange
import Verif.Core.LogColumns
import Verif.Link.Revolute
import Verif.Link.Link
import Verif.Core.Body
import Verif.Core.Force
import Verif.Core.Node
import Verif.Core.MassBody
import Verif.Core.Registry
import Verif.Env.Flow
import Verif.Hydro.Damping
import Verif.Env.PolarTable
import Verif.Env.PolarFile
import Verif.Env.FlowForce
import Verif.Mesh.Clipper
import Verif.Mesh.ClipperInv
import Verif.Mesh.ClipperProps
import Verif.Mesh.Integrals
import Verif.Mesh.IntegralsProps
import Verif.Mesh.MassProps
import Verif.Mesh.InertiaProps
import Verif.Mesh.BoxProps
import Verif.Mesh.MotionProps
import Verif.Hydro.HydroMesh
import Verif.Hydro.Buoyancy
import Verif.Hydro.Hydrostatics
import Verif.Hydro.EqFrame
import Verif.Hydro.LinearHydrostatics
import Verif.Hydro.EqFrameVariants
import Verif.Hydro.MeanMotion
import Verif.Hydro.Equilibrium
import Verif.Cable.Properties
import Verif.Cable.Catenary
import Verif.Cable.CatenaryLength
import Verif.Cable.CatenaryJacobian
import Verif.Cable.CatenarySolve
import Verif.Cable.CatenaryUnique
import Verif.Hydro.Morison
import Verif.Hydro.MorisonProps
import Verif.Hydro.MorisonGeometry
import Verif.Hydro.MorisonSplit
import Verif.Hydro.MorisonFlags
import Verif.Hydro.ITTC
import Verif.Seakeeping.Trapz
import Verif.Seakeeping.Mask
import Verif.Seakeeping.Database
import Verif.Seakeeping.Interp
import Verif.Seakeeping.Excitation
import Verif.Seakeeping.Drift
import Verif.Seakeeping.Radiation
import Verif.Seakeeping.RadiationEnergy
import Verif.Hydro.DepthDerivative
import Verif.Hydro.HydrostaticEnergy
import Verif.Hydro.EnergyCases
import Verif.Mesh.TriangleCut
import Verif.Mesh.ClipIntegrals
import Verif.Hydro.ClippedLoads
import Verif.Hydro.ClippedCases
import Verif.Seakeeping.GeneralizedMass
import Verif.Seakeeping.NonlinearFK
import Verif.Env.Ocean
import Verif.Env.Geographic
import Verif.Env.Time
import Verif.Core.Solids
import Verif.Cable.Buoy
import Verif.Core.Assembly
import Verif.Link.Constraint
import Verif.Link.Actuator
import Verif.Seakeeping.ConstraintCoupling
import Verif.Seakeeping.DatabaseFile
import Verif.Cable.LineAsset
import Verif.Cable.Dynamic
import Verif.Cable.DynamicProps
import Verif.Cable.DynamicMesh
import Verif.Cable.DynamicSystem
import Verif.Link.LockedBody
import Verif.Core.Simulation
import Verif.Core.SimulationProps
import Verif.Core.SimulationLogs
import Verif.Asset.Grid
import Verif.Asset.GridProps
import Verif.Asset.PolarGrid
import Verif.Asset.PolarGridProps
import Verif.Asset.GridLife
import Verif.Asset.Owner
import Verif.Asset.Glyphs
import Verif.Core.Settings
import Verif.Utils.Camera
import Verif.Utils.Config
import Verif.Core.BodyAccel
import Verif.Core.BodyDynamics
import Verif.Waves.IrregularSetup
import Verif.Waves.IrregularProps
import Verif.Waves.IrregularDirs
import Verif.Waves.IrregularFile
import Verif.Waves.FreeSurface
import Verif.Geom.Compare
