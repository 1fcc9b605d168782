import Verif.Props.FemOperator
import Verif.Props.BasisMatrix
import Verif.Props.ComplexReal
import Verif.Props.LapackDecode
import Verif.Props.FunctionGraph
import Verif.Props.Discipline
import Verif.Props.Eigen
import Verif.Props.Sensitivity
import Verif.Props.Lifecycle
import Verif.Props.Assembly
import Verif.Props.Transient
import Verif.Props.Continuation
import Verif.Props.Coupled
import Verif.Props.OptFile
import Verif.Props.Optim
import Verif.Props.Coordinates
import Verif.Props.KinematicCoupling
import Verif.Props.Stress
import Verif.Props.StressAgg
import Verif.Props.Material
import Verif.Props.Orthotropic
import Verif.Props.Section2D
import Verif.Props.Section1D
import Verif.Props.Filter
import Verif.Props.CutCell
import Verif.Props.InterfaceDofs
import Verif.Props.ConstrainDofs
import Verif.Props.SubElemMesh
import Verif.Props.Flutter
import Verif.Props.FlutterSearch
import Verif.Props.FlutterScan
import Verif.Props.FlutterUntracked
import Verif.Props.PKFlutter
import Verif.Props.FluidPrim
import Verif.Props.FluidJac
import Verif.Props.FluidSens
import Verif.Props.FluidEig
import Verif.Props.FluidEntropy
import Verif.Props.FluidDiff
import Verif.Props.FluidStab
import Verif.Props.FluidStabVisc
import Verif.Props.Heat
import Verif.Props.HeatPhys
import Verif.Props.GeomElem
import Verif.Props.GeomDof
import Verif.Props.Piston
import Verif.Props.StructLoads
import Verif.Props.StructInertia
import Verif.Props.Shell
import Verif.Props.ShellTangent
import Verif.Props.ShellLoads
import Verif.Props.ShellThermal
import Verif.Props.Beam
import Verif.Props.BeamMore
import Verif.Props.BeamThermal
import Verif.Model.Solid
import Verif.Props.Solid
import Verif.Props.SolidMore
import Verif.Props.SolidThermal
import Verif.Model.StressRec
import Verif.Props.StressRec
import Verif.Props.StressRecBeam
import Verif.Model.Dkt
import Verif.Props.Dkt
import Verif.Model.LevelSetElem
import Verif.Props.LevelSetElem
import Verif.Props.LevelSetOut
import Verif.Model.Compliance
import Verif.Props.Compliance
import Verif.Model.Buckling
import Verif.Props.Buckling
import Verif.Model.ReducedOrder
import Verif.Props.ReducedOrder
import Verif.Model.NearNull
import Verif.Props.NearNull
import Verif.Model.StressAsm
import Verif.Props.StressAsm
import Verif.Model.CutAsm
import Verif.Props.CutAsm
import Verif.Props.CutOut
import Verif.Model.FluidElem
import Verif.Props.FluidElem
import Verif.Props.FluidVisc
import Verif.Props.FluidTau
import Verif.Props.FluidFar
import Verif.Props.FluidFree
import Verif.Props.FluidWall
import Verif.Model.FreqFluid
import Verif.Props.FreqFluid
import Verif.Model.PistonElem
import Verif.Props.PistonElem
import Verif.Model.ElemOps
import Verif.Props.ElemOps
import Verif.Model.VoidSol
import Verif.Props.VoidSol
import Verif.Model.MeshCoupling
import Verif.Props.MeshCoupling
import Verif.Model.NormalRot
import Verif.Props.NormalRot
import Verif.Model.Prestress
import Verif.Props.Prestress
import Verif.Model.ShellDot
import Verif.Props.ShellDot
import Verif.Props.ShellMove
import Verif.Model.ComplexSolve
import Verif.Props.ComplexSolve
import Verif.Model.TransientAsm
import Verif.Props.TransientAsm
import Verif.Model.ShiftTrac
import Verif.Props.ShiftTrac
import Verif.Model.UGScan
import Verif.Props.UGScan
import Verif.Model.EigScale
import Verif.Props.EigScale
import Verif.Model.FluidOps
import Verif.Props.FluidOps
import Verif.Model.FluidShock
import Verif.Props.FluidShock
import Verif.Model.Nastran
import Verif.Props.Nastran
import Verif.Model.SubCell
import Verif.Props.SubCell
import Verif.Model.CoupledSolve
import Verif.Props.CoupledSolve
import Verif.Model.TransientSens
import Verif.Props.TransientSens
import Verif.Model.ThermAdjoint
import Verif.Props.ThermAdjoint
import Verif.Model.DirichletCond
import Verif.Props.DirichletCond
import Verif.Model.TangentDot
import Verif.Props.TangentDot
import Verif.Model.FeData
import Verif.Props.FeData
import Verif.Model.SectionDeps
import Verif.Props.SectionDeps
import Verif.Model.HeatCard
import Verif.Props.HeatCard
import Verif.Model.SteadySens
import Verif.Props.SteadySens
import Verif.Model.SteadyStruct
import Verif.Props.SteadyStruct
import Verif.Model.ModalSens
import Verif.Props.ModalSens
import Verif.Model.SteadyLoads
import Verif.Props.SteadyLoads
import Verif.Model.ModalBase
import Verif.Props.ModalBase
import Verif.Model.ModalLoads
import Verif.Props.ModalLoads
import Verif.Model.Nearest
import Verif.Props.Nearest
import Verif.Model.SteadyCompliance
import Verif.Props.SteadyCompliance
import Verif.Model.SteadyStress
import Verif.Props.SteadyStress
import Verif.Model.SteadyStressAdj
import Verif.Props.SteadyStressAdj
import Verif.Model.SteadySolid
import Verif.Props.SteadySolid
import Verif.Model.StoredSol
import Verif.Props.StoredSol
import Verif.Model.TransientHeat
import Verif.Props.TransientHeat
import Verif.Model.CoupledCheck
import Verif.Props.CoupledCheck
import Verif.Model.FreqOps
import Verif.Props.FreqOps
import Verif.Model.FreqFlow
import Verif.Props.FreqFlow
import Verif.Model.SysInit
import Verif.Props.SysInit
import Verif.Model.March
import Verif.Props.March
