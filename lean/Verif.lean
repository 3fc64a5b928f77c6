import Verif.Model.TaskId
import Verif.Model.Sched
import Verif.Model.TaskGraph
import Verif.Model.Tree
import Verif.Spec.Tree
import Verif.Props.TaskId
import Verif.Props.Sched
import Verif.Props.SchedLive
import Verif.Props.TaskGraph
import Verif.Props.Tree
import Verif.Props.TreeNeighbor
import Verif.Props.TreePolar
import Verif.Props.TreeWalk
import Verif.Model.Smr
import Verif.Spec.Smr
import Verif.Spec.Migrate
import Verif.Props.TreeSmr
import Verif.Model.LoadBalance
import Verif.Props.LoadBalance
import Verif.Model.AmrFlag
import Verif.Props.AmrFlag
import Verif.Model.Adapt
import Verif.Model.Migrate
import Verif.Props.Adapt
import Verif.Props.MeshGen
import Verif.Props.Migrate
import Verif.Model.Array
import Verif.Model.Ran2
import Verif.Props.Array
import Verif.Props.Ran2
import Verif.Model.Neighbors
import Verif.Props.Neighbors
import Verif.Model.Params
import Verif.Spec.Params
import Verif.Props.Params
import Verif.Props.ParamTimes
import Verif.Model.Restart
import Verif.Spec.Restart
import Verif.Props.Restart
import Verif.Model.Integrator
import Verif.Spec.Integrator
import Verif.Props.Integrator
import Verif.Model.Grid
import Verif.Model.Flux
import Verif.Spec.Flux
import Verif.Props.Flux
import Verif.Model.CT
import Verif.Spec.CT
import Verif.Props.CT
import Verif.Model.Refine
import Verif.Spec.Refine
import Verif.Props.Refine
import Verif.Model.RefineField
import Verif.Spec.RefineField
import Verif.Props.RefineField
import Verif.Model.BoundaryFn
import Verif.Spec.BoundaryFn
import Verif.Props.BoundaryFn
import Verif.Model.Reconstruct
import Verif.Spec.Reconstruct
import Verif.Props.Reconstruct
import Verif.Model.Eos
import Verif.Spec.Eos
import Verif.Props.Eos
import Verif.Model.TimeStep
import Verif.Spec.TimeStep
import Verif.Props.TimeStep
import Verif.Props.BlockDt
import Verif.Model.Sts
import Verif.Spec.Sts
import Verif.Props.Sts
import Verif.Model.Riemann
import Verif.Spec.Riemann
import Verif.Lemmas.Riemann
import Verif.Props.Riemann
import Verif.Props.RiemannHllc
import Verif.Props.RiemannRoe
import Verif.Props.RiemannMirror
import Verif.Model.RiemannMhd
import Verif.Spec.RiemannMhd
import Verif.Lemmas.RiemannMhd
import Verif.Props.RiemannMhd
import Verif.Props.RiemannHlld
import Verif.Props.RiemannLhlld
import Verif.Props.RiemannHlldIso
import Verif.Model.RiemannMhdRoe
import Verif.Props.RiemannMhdRoe
import Verif.Props.RiemannMhdMirror
import Verif.Model.Ghost
import Verif.Spec.Ghost
import Verif.Lemmas.Ghost
import Verif.Lemmas.GhostMsg
import Verif.Props.Ghost
import Verif.Model.Exchange
import Verif.Spec.Exchange
import Verif.Lemmas.Exchange
import Verif.Props.Exchange
import Verif.Model.Scalars
import Verif.Spec.Scalars
import Verif.Lemmas.Scalars
import Verif.Props.Scalars
import Verif.Model.FluxMsg
import Verif.Spec.FluxMsg
import Verif.Lemmas.FluxMsg
import Verif.Lemmas.FluxMesh
import Verif.Lemmas.FluxGeom
import Verif.Props.FluxMsg
import Verif.Model.Coord
import Verif.Spec.Coord
import Verif.Lemmas.Coord
import Verif.Props.Coord
import Verif.Lemmas.CoordMesh
import Verif.Props.CoordMesh
import Verif.Model.CornerE
import Verif.Spec.CornerE
import Verif.Lemmas.CornerE
import Verif.Props.CornerE
import Verif.Model.SrcTerms
import Verif.Spec.SrcTerms
import Verif.Lemmas.SrcTerms
import Verif.Props.SrcTerms
import Verif.Model.Multigrid
import Verif.Model.MgCycle
import Verif.Spec.Multigrid
import Verif.Lemmas.Multigrid
import Verif.Lemmas.MultigridTransfer
import Verif.Lemmas.MgCycle
import Verif.Lemmas.MgPhys
import Verif.Lemmas.MgEnergy
import Verif.Props.Multigrid
import Verif.Model.MgFlux
import Verif.Lemmas.MgFlux
import Verif.Props.MgFlux
import Verif.Model.MgMultipole
import Verif.Spec.Multipole
import Verif.Lemmas.MgMultipole
import Verif.Props.MgMultipole
import Verif.Model.MgTasks
import Verif.Spec.MgTasks
import Verif.Lemmas.MgTasks
import Verif.Props.MgTasks
import Verif.Model.MgExchange
import Verif.Spec.MgExchange
import Verif.Lemmas.MgExchange
import Verif.Props.MgExchange
import Verif.Model.Orbital
import Verif.Spec.Orbital
import Verif.Lemmas.OrbitalRows
import Verif.Lemmas.OrbitalRemap
import Verif.Props.Orbital
import Verif.Model.Diffusion
import Verif.Spec.Diffusion
import Verif.Lemmas.Diffusion
import Verif.Props.Conduction
import Verif.Props.Viscosity
import Verif.Model.Resist
import Verif.Spec.Resist
import Verif.Lemmas.Resist
import Verif.Lemmas.Curl
import Verif.Lemmas.ResistMesh
import Verif.Props.Resist
import Verif.Props.ResistDecay
import Verif.Model.Charact
import Verif.Spec.Charact
import Verif.Lemmas.Charact
import Verif.Props.Charact
import Verif.Model.SrHydro
import Verif.Spec.SrHydro
import Verif.Lemmas.SrHydro
import Verif.Props.SrHydro
import Verif.Props.SrInvert
import Verif.Model.SrRiemann
import Verif.Spec.SrRiemann
import Verif.Lemmas.SrRiemann
import Verif.Props.SrRiemann
import Verif.Props.SrExists
import Verif.Props.SrHllc
import Verif.Spec.GrTensor
import Verif.Spec.GrFlux
import Verif.Model.GrMetric
import Verif.Model.GrFrame
import Verif.Lemmas.GrFluid
import Verif.Lemmas.GrMetric
import Verif.Lemmas.GrDeriv
import Verif.Lemmas.GrFrame
import Verif.Lemmas.GrFrames
import Verif.Lemmas.GrUserFrame
import Verif.Props.GrMetric
import Verif.Props.GrFrame
import Verif.Model.CosmicRay
import Verif.Spec.CosmicRay
import Verif.Lemmas.CosmicRay
import Verif.Props.CosmicRay
import Verif.Props.CosmicRayFlux
import Verif.Model.RadAngles
import Verif.Spec.RadAngles
import Verif.Lemmas.RadAngles
import Verif.Props.RadAngles
import Verif.Model.RadExchange
import Verif.Spec.RadExchange
import Verif.Lemmas.RadExchange
import Verif.Props.RadExchange
import Verif.Props.RadFrames
import Verif.Model.LinAlg
import Verif.Lemmas.LinAlg
import Verif.Props.LinAlg
import Verif.Model.ChemSolver
import Verif.Spec.ChemSolver
import Verif.Props.ChemSolver
import Verif.Model.ChemNetwork
import Verif.Spec.ChemNetwork
import Verif.Lemmas.ChemNetwork
import Verif.Props.ChemNetwork
import Verif.Model.EmfExchange
import Verif.Spec.EmfExchange
import Verif.Lemmas.EmfExchange
import Verif.Lemmas.EmfClosed
import Verif.Props.EmfExchange
import Verif.Model.FaceExchange
import Verif.Spec.FaceExchange
import Verif.Lemmas.FaceExchange
import Verif.Props.FaceExchange
import Verif.Model.History
import Verif.Spec.History
import Verif.Lemmas.History
import Verif.Props.History
import Verif.Model.Quartic
import Verif.Props.Quartic
import Verif.Model.Interp
import Verif.Spec.Interp
import Verif.Props.Interp
import Verif.Model.RadSource
import Verif.Spec.RadSource
import Verif.Props.RadSource
import Verif.Model.RadMulti
import Verif.Props.RadMulti
import Verif.Model.Hydrogen
import Verif.Props.Hydrogen
import Verif.Model.GenEos
import Verif.Props.GenEos
import Verif.Model.FreqMap
import Verif.Spec.FreqMap
import Verif.Lemmas.FreqMap
import Verif.Lemmas.FreqInverse
import Verif.Props.FreqMap
import Verif.Model.RadTransport
import Verif.Props.RadTransport
import Verif.Model.FreqGrid
import Verif.Props.FreqGrid
import Verif.Model.RadMoments
import Verif.Props.RadMoments
import Verif.Model.RadAngular
import Verif.Props.RadAngular
import Verif.Model.RadReflect
import Verif.Props.RadReflect
import Verif.Model.RadRotate
import Verif.Props.RadRotate
import Verif.Model.RadVacuum
import Verif.Props.RadVacuum
