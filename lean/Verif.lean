import Verif.Cabinet.Props
import Verif.Stoich.Props
import Verif.Kinetics.Props
import Verif.Kinetics.JacProps
import Verif.Band.Props
import Verif.Util.CopyString
import Verif.Util.Factory
import Verif.Util.ValueCache
import Verif.Util.Funcs
import Verif.OneDim.Props
import Verif.Kinetics.Index
import Verif.Kinetics.MultiRate
import Verif.Thermo.Manager
import Verif.Thermo.Poly
import Verif.Thermo.Mu0
import Verif.Thermo.Instance
import Verif.Units.Props
import Verif.Rates.Plog
import Verif.Rates.Cheb
import Verif.Rates.Falloff
import Verif.Phase.Comp
import Verif.Phase.Surf
import Verif.Phase.EqRatio
import Verif.Phase.Tables
import Verif.Equil.MultiPhase
import Verif.Equil.Gibbs
import Verif.OneDim.Newton
import Verif.OneDim.TimeStep
import Verif.OneDim.Refine
import Verif.Func1.Tab
import Verif.Func1.Model
import Verif.Func1.Simp
import Verif.Func1.Deriv
import Verif.Text.Fp
import Verif.Text.CompString
import Verif.Reaction.Balance
import Verif.Reaction.Duplicates
import Verif.Reaction.DupProps
import Verif.Reaction.Equation
import Verif.Reaction.EqParse
import Verif.Reaction.EqProps
import Verif.Reaction.EqFindings
import Verif.ZeroD.Net
import Verif.ZeroD.Mass
import Verif.ZeroD.Conserve
import Verif.ZeroD.ConserveEx
import Verif.ZeroD.Energy
import Verif.ZeroD.Sens
import Verif.ZeroD.Advance
import Verif.ZeroD.State
import Verif.ZeroD.StateEx
import Verif.OneDim.Flow
import Verif.OneDim.FlowSums
import Verif.OneDim.FlowBC
import Verif.OneDim.FlowEx
import Verif.OneDim.FlowJac
import Verif.OneDim.FlowJacEx
import Verif.OneDim.FlowBal
import Verif.Rates.Arrhenius
import Verif.Kinetics.TempDeriv
import Verif.Kinetics.TempDerivProps
import Verif.Kinetics.DensDerivProps
import Verif.Kinetics.TempDerivEx
import Verif.Kinetics.Interface
import Verif.Kinetics.InterfaceLemmas
import Verif.Kinetics.InterfaceProps
import Verif.Kinetics.InterfaceFlow
import Verif.Kinetics.InterfaceJac
import Verif.Rates.Coverage
import Verif.Rates.Electro
import Verif.Rates.InterfaceData
import Verif.Thermo.Simplex
import Verif.Thermo.Margules
import Verif.Thermo.MargulesProps
import Verif.Thermo.RedlichKister
import Verif.Thermo.RedlichKisterProps
import Verif.Fluid.Cubic
import Verif.Fluid.CubicMix
import Verif.Fluid.RedlichKwong
import Verif.Fluid.RedlichKwongProps
import Verif.Fluid.PengRobinson
import Verif.Fluid.PengRobinsonProps
import Verif.Fluid.CubicSolver
import Verif.Fluid.CubicSolverProps
import Verif.Fluid.Density
import Verif.Fluid.DensityProps
import Verif.Fluid.Tables
import Verif.Fluid.TablesProps
import Verif.Transport.Mixture
import Verif.Transport.MixtureProps
import Verif.Transport.Multi
import Verif.Transport.MultiProps
import Verif.Transport.Cache
import Verif.Transport.CacheProps
import Verif.Transport.Dusty
import Verif.Transport.DustyProps
import Verif.Thermo.CovSurf
import Verif.Thermo.CovSurfProps
import Verif.Units.Parse
import Verif.Units.ParseLemmas
import Verif.Units.ParseProps
import Verif.Util.Dense
import Verif.Util.DenseProps
import Verif.Kinetics.ReactionPath
import Verif.Kinetics.ReactionPathLemmas
import Verif.Kinetics.ReactionPathFactor
import Verif.Kinetics.ReactionPathProps
import Verif.Thermo.SetState
import Verif.Thermo.SetStateProps
import Verif.Thermo.SetStateRuns
import Verif.Thermo.SetStateWitness
import Verif.Thermo.IdealGas
import Verif.Thermo.IdealGasProps
import Verif.Thermo.IdealSoln
import Verif.Thermo.IdealSolnProps
import Verif.Thermo.LatticeSolid
import Verif.Thermo.LatticeSolidProps
import Verif.Thermo.BinaryTab
import Verif.Thermo.BinaryTabProps
import Verif.Thermo.Molal
import Verif.Thermo.MolalProps
import Verif.Thermo.MolalCutProps
import Verif.Thermo.Pdss
import Verif.Thermo.PdssProps
import Verif.Thermo.Hkft
import Verif.Thermo.HkftProps
import Verif.Thermo.HkftWaterProps
import Verif.Thermo.Stoich
import Verif.Thermo.StoichProps
import Verif.Rates.LinearBurke
import Verif.Rates.LinearBurkeProps
import Verif.Thermo.DebyeHuckel
import Verif.Thermo.DebyeHuckelProps
import Verif.Thermo.DebyeHuckelProps2
import Verif.Util.Precon
import Verif.Util.PreconProps
import Verif.Equil.MPEquil
import Verif.Equil.MPEquilProps
import Verif.Equil.MPEquilProps2
import Verif.Thermo.IapwsPhi
import Verif.Thermo.IapwsPhiProps
import Verif.Thermo.IapwsPhiProps2
import Verif.Thermo.Iapws
import Verif.Thermo.IapwsProps
import Verif.Thermo.IapwsProps2
import Verif.Thermo.Plasma
import Verif.Thermo.PlasmaProps
import Verif.Thermo.PlasmaProps2
import Verif.Thermo.PlasmaProps3
import Verif.Equil.Basis
import Verif.Equil.BasisProps
import Verif.Equil.BasisProps2
import Verif.Equil.BasisProps3
import Verif.ZeroD.Pfr
import Verif.ZeroD.PfrProps
import Verif.ZeroD.PfrProps2
import Verif.Thermo.Tpx
import Verif.Thermo.TpxProps
import Verif.Thermo.TpxProps2
import Verif.Thermo.TpxProps3
import Verif.Thermo.TpxProps4
import Verif.Thermo.TpxProps5
import Verif.Thermo.TpxFluids
import Verif.Thermo.TpxFluidsProps
import Verif.Thermo.TpxFluidsProps2
import Verif.Thermo.TpxFluidsProps3
import Verif.Thermo.TpxFluidsProps4
import Verif.Thermo.TpxFluidsProps5
import Verif.Thermo.TpxFluidsProps6
import Verif.Thermo.TpxFluidsProps7
import Verif.Thermo.TpxFluidsProps8
import Verif.Thermo.PureFluid
import Verif.Thermo.PureFluidProps
import Verif.Thermo.PureFluidProps2
import Verif.Thermo.PureFluidProps3
import Verif.Kinetics.ImplicitSurf
import Verif.Kinetics.ImplicitSurfProps
import Verif.Kinetics.SolveSP
import Verif.Kinetics.SolveSPProps
import Verif.Kinetics.SolveSPProps2
import Verif.Thermo.WaterSSTP
import Verif.Thermo.WaterSSTPProps
import Verif.Transport.WaterTr
import Verif.Transport.WaterTrProps
import Verif.Thermo.VpssIdeal
import Verif.Thermo.VpssIdealProps
import Verif.Thermo.SpeciesData
import Verif.Thermo.SpeciesDataProps
import Verif.Transport.IonGas
import Verif.Transport.IonGasProps
import Verif.OneDim.IonFlow
import Verif.OneDim.IonFlowProps
import Verif.Transport.HighP
import Verif.Transport.HighPProps
import Verif.Transport.CollInt
import Verif.Transport.CollIntProps
import Verif.Equil.VolPhase
import Verif.Equil.VolPhaseProps
import Verif.Equil.ChemEq
import Verif.Equil.ChemEqProps
import Verif.Thermo.PhScale
import Verif.Thermo.PhScaleProps
import Verif.Thermo.ThermoFactory
import Verif.Thermo.ThermoFactoryProps
import Verif.Util.Solution
import Verif.Util.SolutionProps
