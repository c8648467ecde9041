import Verif.Model.Commands

/-!
# Specification of the command lines

What the options of a command line ask for, option by option.
-/

namespace Verif.Spec

open Commands

/-! ### `pypolymlp-structure` -/

/-- The samples that the options ask for. -/
inductive SampleAsked (a : Str.Args) : Str.Call → Prop
  | const {n d} : a.displacements = some n → a.constDistance = some d → SampleAsked a (.const n d)
  | sequential {n d} : a.displacements = some n → a.constDistance = none → a.maxDistance = some d →
      SampleAsked a (.sequential n (1 / 100) d a.nVolumes a.minVolume a.maxVolume)
  | isotropic {n} : a.isotropic = some n → SampleAsked a (.isotropic n a.minVolume a.maxVolume a.denseEquilibrium)
  | standard {n d} : a.standard = some n → a.maxDistance = some d → SampleAsked a (.standard n d)
  | low {n} : a.lowDensity = some n → SampleAsked a (.density n a.distanceDensity true)
  | high {n} : a.highDensity = some n → SampleAsked a (.density n a.distanceDensity false)

/-- Calls that make samples. -/
def MakesSamples : Str.Call → Prop
  | .const .. | .sequential .. | .isotropic .. | .standard .. | .density .. => True
  | _ => False

/-- Options of one group only: displacements, or volumes, or the algorithms with automatic supercells. -/
def OneGroup (a : Str.Args) : Prop :=
  (a.isotropic = none ∧ a.standard = none ∧ a.lowDensity = none ∧ a.highDensity = none) ∨
  (a.displacements = none ∧ a.standard = none ∧ a.lowDensity = none ∧ a.highDensity = none) ∨
  (a.displacements = none ∧ a.isotropic = none)

/-! ### `pypolymlp-sscha-structure` -/

/-- The samples that the options ask for; symmetric ones when nothing is asked for. -/
inductive SymAsked (a : SschaStr.Args) : SschaStr.Call → Prop
  | sym : a.sym = true ∨ (a.volume = false ∧ a.cell = false) → SymAsked a (.sym a.nSamples a.maxDeform a.maxDistance)
  | volume : a.volume = true → SymAsked a (.volumes a.nSamples a.minVolume a.maxVolume true none)
  | cell : a.cell = true → SymAsked a (.volumes a.nSamples a.minVolume a.maxVolume false (some a.maxDeform))

/-! ### `pypolymlp-sscha` -/

/-- The structure: of a restart file, or else of a POSCAR file. -/
inductive StructureAsked (a : Sscha.Args) : Sscha.Call → Prop
  | restart {y} : a.yaml = some y → StructureAsked a (.restart y)
  | poscar {p} : a.yaml = none → a.poscar = some p → StructureAsked a (.poscar p a.supercell)

/-- The calculation; the optimization is always that of the method `BFGS`. -/
inductive CalculationAsked (a : Sscha.Args) : Sscha.Call → Prop
  | geometry {t sym cell volume atoms} : a.geometry = true → a.temp = some t → (sym = true ↔ a.noSymmetry = false) →
      (cell = true ↔ a.fixCell = false) → (volume = true ↔ a.fixCell = false ∧ a.fixVolume = false) →
      (atoms = true ↔ a.fixAtom = false) →
      CalculationAsked a (.geometry t a.common sym cell volume atoms "BFGS" a.pressure a.gtol)
  | elastic {t} : a.elastic = true → a.temp = some t → CalculationAsked a (.elastic t a.common a.gtol)
  | run {p} : a.geometry = false → a.elastic = false → (p = true ↔ a.disablePrecondition = false) →
      CalculationAsked a (.run a.temp a.tempMin a.tempMax a.tempStep a.nTemp a.ascending a.common a.temporalCutoff p
        a.writePdos)

/-- Calls that calculate. -/
def Calculates : Sscha.Call → Prop
  | .geometry .. | .elastic .. | .run .. => True
  | _ => False

/-! ### `pypolymlp-utils` -/

/-- The jobs of the utilities. -/
inductive Job where
  | convert | electron | compress | cost | optimal | divide | supercell | symmetry | atomic | models
  deriving DecidableEq

/-- The job of a call. -/
def jobOf : Utils.Call → Job
  | .convert .. => .convert
  | .electron .. => .electron
  | .compress .. => .compress
  | .cost .. => .cost
  | .optimal .. => .optimal
  | .divide .. => .divide
  | .supercell .. => .supercell
  | .symmetry .. | .refine | .spacegroup => .symmetry
  | .atomicEnergies .. => .atomic
  | .models .. => .models

/-- The calls that the options ask for; the path of data sets is always that of the default. -/
inductive UtilAsked (a : Utils.Args) : Utils.Call → Prop
  | convert {f} : a.yamlConverter = some f → UtilAsked a (.convert f)
  | electron {l} : a.electronVasprun = some l → UtilAsked a (.electron l a.tempMax a.tempStep a.nJobs)
  | compress {l} : a.vasprunCompress = some l → UtilAsked a (.compress l a.nJobs)
  | cost : a.calcCost = true → a.supercell = none → UtilAsked a (.cost a.pot a.dirs a.poscar [4, 4, 4] a.nCalc)
  | costCell {s} : a.calcCost = true → a.supercell = some s → s.length = 3 →
      UtilAsked a (.cost a.pot a.dirs a.poscar s a.nCalc)
  | optimal {l} : a.findOptimal = some l → UtilAsked a (.optimal l a.key)
  | divide {l} : a.autoDataset = some l →
      UtilAsked a (.divide l a.elements a.nDivide a.atomicFunctional "../../polymlp_datasets")
  | supercell {s} : a.calcCost = false → a.supercell = some s → s.length = 3 ∨ s.length = 9 →
      UtilAsked a (.supercell a.poscar s)
  | symmetry : a.refineCell = true ∨ a.spaceGroup = true → UtilAsked a (.symmetry a.poscar a.symprec)
  | refine : a.refineCell = true → UtilAsked a .refine
  | spacegroup : a.spaceGroup = true → UtilAsked a .spacegroup
  | atomic : a.atomicElements ≠ none ∨ a.atomicFormula ≠ none →
      UtilAsked a (.atomicEnergies a.atomicElements a.atomicFormula a.atomicFunctional)
  | system {e} : a.generateModels = true → a.modelSystem = some e → UtilAsked a (.models e a.hybrid)
  | models {e} : a.generateModels = true → a.modelSystem = none → a.modelElements = some e →
      UtilAsked a (.models e a.hybrid)
  | elements {e} : a.generateModels = true → a.modelSystem = none → a.modelElements = none → a.elements = some e →
      UtilAsked a (.models e a.hybrid)

/-- Only one job is asked for. -/
def OneJob (a : Utils.Args) : Prop := ∀ c c', UtilAsked a c → UtilAsked a c' → jobOf c = jobOf c'

end Verif.Spec
