import Verif.Props.Split
import Verif.Props.AtomOrder
import Verif.Props.Dataset
import Verif.Props.DatasetObj
import Verif.Props.Construct
import Verif.Props.Sequential
import Verif.Props.Regression
import Verif.Props.CG
import Verif.Props.Weights
import Verif.Props.Rows
import Verif.Props.LearningCurve
import Verif.Props.Infile
import Verif.Props.DataLines
import Verif.Props.Params
import Verif.Props.Hybrid
import Verif.Props.Spins
import Verif.Props.GridOptimal
import Verif.Props.StrUtils
import Verif.Props.Phonopy
import Verif.Props.Supercell
import Verif.Props.Divide
import Verif.Props.Rotation
import Verif.Props.FC2
import Verif.Props.Formation
import Verif.Props.Neighbor
import Verif.Props.NeighborCell
import Verif.Props.MlpPoly
import Verif.Props.MlpEval
import Verif.Props.MlpFeat
import Verif.Props.MlpUnit
import Verif.Props.MlpGrad
import Verif.Props.MlpNlm
import Verif.Props.HybridEval
import Verif.Props.MlpFiles
import Verif.Props.MlpYaml
import Verif.Props.MlpYamlCxx
import Verif.Props.MlpLegacy
import Verif.Props.MlpYlm
import Verif.Model.MlpGtEval
import Verif.Spec.GtTable
import Verif.Spec.YlmRules
import Verif.Lemmas.MlpGtContract
import Verif.Lemmas.MlpGtChan
import Verif.Lemmas.MlpGtFeat
import Verif.Lemmas.MlpGtArray
import Verif.Lemmas.MlpGtSide
import Verif.Lemmas.MlpGtRows
import Verif.Props.MlpGtEval
import Verif.Props.MlpGtReal
import Verif.Spec.GtRotation
import Verif.Lemmas.MlpGtRot
import Verif.Props.MlpGtRot
import Verif.Spec.Rotate
import Verif.Props.MlpGtGrad
import Verif.Model.Poscar
import Verif.Spec.Poscar
import Verif.Props.Poscar
import Verif.Props.OptGeom
import Verif.Model.Sscha
import Verif.Spec.Sscha
import Verif.Props.Sscha
import Verif.Model.Md
import Verif.Spec.Md
import Verif.Props.Md
import Verif.Model.Elastic
import Verif.Spec.Elastic
import Verif.Props.Elastic
import Verif.Model.Polyfit
import Verif.Spec.Polyfit
import Verif.Props.Polyfit
import Verif.Model.Thermo
import Verif.Spec.Thermo
import Verif.Props.Thermo
import Verif.Spec.ThermoEq
import Verif.Props.ThermoEq
import Verif.Model.Eos
import Verif.Spec.Eos
import Verif.Props.Eos
import Verif.Model.StrGen
import Verif.Spec.StrGen
import Verif.Props.StrGen
import Verif.Model.TiLoad
import Verif.Spec.TiLoad
import Verif.Props.TiLoad
import Verif.Model.Accuracy
import Verif.Spec.Accuracy
import Verif.Props.Accuracy
import Verif.Model.DevApi
import Verif.Spec.DevApi
import Verif.Props.DevApi
import Verif.Props.DevApiHeap
import Verif.Model.CalcApi
import Verif.Spec.CalcApi
import Verif.Props.CalcApi
import Verif.Props.CalcApiRuns
import Verif.Model.Fc
import Verif.Spec.Fc
import Verif.Lemmas.History
import Verif.Props.Fc
import Verif.Model.GridSearch
import Verif.Spec.GridSearch
import Verif.Props.GridSearch
import Verif.Props.GridSearchRun
import Verif.Props.GridSearchHist
import Verif.Props.GridSearchFiles
import Verif.Model.Vasprun
import Verif.Spec.Vasprun
import Verif.Props.Vasprun
import Verif.Model.Openmx
import Verif.Spec.Openmx
import Verif.Props.Openmx
import Verif.Model.YamlData
import Verif.Spec.YamlData
import Verif.Props.YamlData
import Verif.Model.SschaFiles
import Verif.Spec.SschaFiles
import Verif.Props.SschaFiles
import Verif.Model.Harmonic
import Verif.Spec.HarmonicReal
import Verif.Props.HarmonicReal
import Verif.Model.SschaApi
import Verif.Spec.SschaApi
import Verif.Props.SschaApi
import Verif.Model.Ase
import Verif.Spec.Ase
import Verif.Props.Ase
import Verif.Model.MdApi
import Verif.Spec.MdApi
import Verif.Props.MdApi
import Verif.Model.Disorder
import Verif.Spec.Disorder
import Verif.Props.Disorder
import Verif.Props.DisorderRun
import Verif.Props.DisorderSession
import Verif.Model.Transition
import Verif.Spec.Transition
import Verif.Props.Transition
import Verif.Props.TransitionRun
import Verif.Props.PhaseBoundary
import Verif.Model.StructNeighbor
import Verif.Spec.StructNeighbor
import Verif.Props.StructNeighbor
import Verif.Props.StructDistances
import Verif.Model.SymCell
import Verif.Spec.SymCell
import Verif.Props.SymCell
import Verif.Model.StrGenSym
import Verif.Spec.StrGenSym
import Verif.Props.StrGenSym
import Verif.Model.Matcher
import Verif.Spec.Matcher
import Verif.Props.Matcher
import Verif.Model.CalcCli
import Verif.Spec.CalcCli
import Verif.Props.CalcCli
import Verif.Model.DevCli
import Verif.Spec.DevCli
import Verif.Props.DevCli
import Verif.Props.StrGenSymAll
import Verif.Model.AtomicEnergies
import Verif.Spec.AtomicEnergies
import Verif.Props.AtomicEnergies
import Verif.Model.Electron
import Verif.Spec.Electron
import Verif.Props.Electron
import Verif.Model.ElectronFiles
import Verif.Props.ElectronFiles
import Verif.Model.PolyInv
import Verif.Spec.PolyInv
import Verif.Props.PolyInv
import Verif.Model.Projector
import Verif.Spec.Projector
import Verif.Props.Projector
import Verif.Model.TensorSym
import Verif.Spec.TensorSym
import Verif.Props.TensorSym
import Verif.Model.AutoProto
import Verif.Spec.AutoProto
import Verif.Props.AutoProto
import Verif.Model.AutoDist
import Verif.Spec.AutoDist
import Verif.Props.AutoDist
import Verif.Model.Repository
import Verif.Spec.Repository
import Verif.Props.Repository
import Verif.Model.Phonon
import Verif.Spec.Phonon
import Verif.Props.Phonon
import Verif.Model.Recip
import Verif.Spec.Recip
import Verif.Props.Recip
import Verif.Model.Commands
import Verif.Spec.Commands
import Verif.Props.Commands
import Verif.Model.LammpsEval
import Verif.Spec.LammpsEval
import Verif.Props.LammpsEval
import Verif.Model.Cost
import Verif.Spec.Cost
import Verif.Props.Cost
import Verif.Model.Phono3py
import Verif.Spec.Phono3py
import Verif.Props.Phono3py
import Verif.Model.CGFit
import Verif.Props.CGConv
import Verif.Model.Kim
import Verif.Spec.Kim
import Verif.Props.Kim
import Verif.Model.LammpsFiles
import Verif.Spec.LammpsFiles
import Verif.Props.LammpsFiles
import Verif.Model.GtinvFiles
import Verif.Spec.GtinvFiles
import Verif.Props.GtinvFiles
import Verif.Model.CalcFeatures
import Verif.Spec.CalcFeatures
import Verif.Props.CalcFeatures
import Verif.Model.LegacyCxx
import Verif.Props.LegacyCxx
import Verif.Model.Crash
import Verif.Spec.Crash
import Verif.Lemmas.Crash
import Verif.Props.Crash
import Verif.Props.CrashRead
import Verif.Spec.Parallel
import Verif.Model.Parallel
import Verif.Lemmas.Parallel
import Verif.Props.Parallel
import Verif.Props.ParallelRows
import Verif.Spec.FeatAttr
import Verif.Model.FeatAttr
import Verif.Lemmas.FeatAttr
import Verif.Lemmas.FeatAttrGt
import Verif.Props.FeatAttr
import Verif.Props.FeatAttrGt
import Verif.Spec.SameCrystal
import Verif.Lemmas.SameCrystal
import Verif.Props.SameCrystal
import Verif.Props.SameCrystalEval
import Verif.Props.SameCrystalCases
import Verif.Spec.Turned
import Verif.Lemmas.TurnCell
import Verif.Lemmas.Euler
import Verif.Lemmas.MlpGtInversion
import Verif.Props.Turned
import Verif.Props.TurnedGt
import Verif.Props.TurnedSym
import Verif.Props.TurnedCases
import Verif.Model.MinimizeCg
import Verif.Spec.MinimizeCg
import Verif.Props.LineSearch
import Verif.Props.MinimizeCg
import Verif.Model.BasisFn
import Verif.Spec.BasisFn
import Verif.Props.BasisFn
import Verif.Model.Sgd
import Verif.Spec.Sgd
import Verif.Props.Sgd
import Verif.Model.Bader
import Verif.Spec.Bader
import Verif.Props.Bader
import Verif.Model.PhononBand
import Verif.Spec.PhononBand
import Verif.Props.PhononBand
import Verif.Model.YlmDep
import Verif.Lemmas.YlmDep
import Verif.Props.YlmDep
import Verif.Model.Ewald
import Verif.Spec.Ewald
import Verif.Lemmas.Ewald
import Verif.Props.Ewald
import Verif.Model.Verlet
import Verif.Spec.Verlet
import Verif.Props.Verlet
import Verif.Model.DisAn
import Verif.Spec.DisAn
import Verif.Props.DisAn
import Verif.Model.ChargeFeat
import Verif.Spec.ChargeFeat
import Verif.Props.ChargeFeat
import Verif.Model.NeighborTypes
import Verif.Props.NeighborTypes
