import Verif.Model.Py
import Mathlib.Data.Rat.Defs
import Mathlib.Algebra.Order.Ring.Rat

/-!
# The command lines that sample structures, run SSCHA, molecular dynamics, thermodynamics and the utilities

`/repo/src/pypolymlp/api/run_polymlp_str.py`, `run_polymlp_sscha_str.py`, `run_polymlp_sscha.py`, `run_polymlp_md.py`,
`run_polymlp_thermodynamics.py`, `run_polymlp_utils.py`, with the options of `api/common_args.py`.  A command line is a
list of calls of the API and, possibly, an exception that the program itself raises after them.  A call may raise an
exception that depends on all calls before it.  Not modelled: `argparse` (the options are given as a record with the
declared defaults) and the text that is printed.
-/

namespace Verif.Commands

/-- The calls of a program, and the exception that it raises after them. -/
abbrev Line (C : Type) := List C × Option Err

variable {C : Type}

/-- One part of a program after another; an exception ends the program. -/
def andThen (p q : Line C) : Line C :=
  match p.2 with
  | some _ => p
  | none => (p.1 ++ q.1, q.2)

/-- A part without exceptions of its own. -/
def calls (l : List C) : Line C := (l, none)

/-- `raise`. -/
def raise (e : Err) : Line C := ([], some e)

/-- Nothing. -/
def skip : Line C := ([], none)

/-- The calls that are made, when `ext` gives the exceptions of calls after the calls before them. -/
def exec (ext : List C → C → Option Err) : List C → Option Err → List C → List C × Except Err Unit
  | [], none, h => (h, .ok ())
  | [], some e, h => (h, .error e)
  | c :: l, o, h =>
    match ext h c with
    | some e => (h ++ [c], .error e)
    | none => exec ext l o (h ++ [c])

/-- A run of a program from its start. -/
def run (ext : List C → C → Option Err) (p : Line C) : List C × Except Err Unit := exec ext p.1 p.2 []

/-! ### `pypolymlp-structure` -/

namespace Str

/-- The options (`run_polymlp_str.py` 17-108). -/
structure Args where
  poscars : List String
  maxNatom : ℕ := 150
  displacements : Option ℕ := none
  isotropic : Option ℕ := none
  denseEquilibrium : Bool := false
  standard : Option ℕ := none
  lowDensity : Option ℕ := none
  highDensity : Option ℕ := none
  distanceDensity : ℚ := 1 / 5
  constDistance : Option ℚ := none
  maxDistance : Option ℚ := none
  supercell : ℕ × ℕ × ℕ := (1, 1, 1)
  nVolumes : ℕ := 1
  minVolume : ℚ := 4 / 5
  maxVolume : ℚ := 13 / 10

/-- The calls of `PypolymlpStructureGenerator`. -/
inductive Call where
  | load (poscars : List String)
  | supercell (size : ℕ × ℕ × ℕ)
  | supercellsAuto (maxNatom : ℕ)
  | const (n : ℕ) (distance : ℚ)
  | sequential (n : ℕ) (lower upper : ℚ) (nVolumes : ℕ) (lo hi : ℚ)
  | isotropic (n : ℕ) (lo hi : ℚ) (dense : Bool)
  | standard (n : ℕ) (maxDistance : ℚ)
  | density (n : ℕ) (distance : ℚ) (low : Bool)
  | save
  deriving DecidableEq

/-- Displacement mode (`run_polymlp_str.py` 116-135). -/
def displaced (a : Args) (n : ℕ) : Line Call :=
  match a.constDistance, a.maxDistance with
  | none, none => raise .runtimeError
  | some d, _ => calls [.supercell a.supercell, .const n d]
  | none, some d => calls [.supercell a.supercell, .sequential n (1 / 100) d a.nVolumes a.minVolume a.maxVolume]

/-- The standard algorithm (`run_polymlp_str.py` 148-161). -/
def standard (a : Args) : Line Call :=
  match a.standard, a.maxDistance with
  | none, _ => skip
  | some _, none => raise .runtimeError
  | some n, some d => calls [.standard n d]

/-- A density mode (`run_polymlp_str.py` 162-175). -/
def density (n : Option ℕ) (d : ℚ) (low : Bool) : Line Call :=
  match n with
  | none => skip
  | some n => calls [.density n d low]

/-- The three modes (`run_polymlp_str.py` 116-175). -/
def sample (a : Args) : Line Call :=
  match a.displacements, a.isotropic with
  | some n, _ => displaced a n
  | none, some n => calls [.supercell a.supercell, .isotropic n a.minVolume a.maxVolume a.denseEquilibrium]
  | none, none =>
    andThen (calls [.supercellsAuto 129]) (andThen (standard a)
      (andThen (density a.lowDensity a.distanceDensity true) (density a.highDensity a.distanceDensity false)))

/-- `run_polymlp_str.py` 113-176. -/
def main (a : Args) : Line Call :=
  andThen (calls [.load a.poscars]) (andThen (sample a) (calls [.save]))

end Str

/-! ### `pypolymlp-sscha-structure` -/

namespace SschaStr

/-- The options (`run_polymlp_sscha_str.py` 17-69). -/
structure Args where
  poscar : String
  sym : Bool := false
  volume : Bool := false
  cell : Bool := false
  nSamples : ℕ := 100
  maxDeform : ℚ := 1 / 10
  maxDistance : ℚ := 1 / 10
  minVolume : ℚ := 4 / 5
  maxVolume : ℚ := 13 / 10

/-- The calls of `PypolymlpSSCHAStructureGenerator`. -/
inductive Call where
  | load (poscar : String)
  | sym (n : ℕ) (maxDeform maxDistance : ℚ)
  | volumes (n : ℕ) (lo hi : ℚ) (fixAxis : Bool) (maxDeform : Option ℚ)
  | save
  deriving DecidableEq

/-- The sampling (`run_polymlp_sscha_str.py` 74-100). -/
def sample (a : Args) : List Call :=
  let sym := a.sym || (!a.volume && !a.cell)
  if sym then [.sym a.nSamples a.maxDeform a.maxDistance]
  else if a.volume then [.volumes a.nSamples a.minVolume a.maxVolume true none]
  else if a.cell then [.volumes a.nSamples a.minVolume a.maxVolume false (some a.maxDeform)]
  else []

/-- `run_polymlp_sscha_str.py` 74-102. -/
def main (a : Args) : Line Call := calls ([.load a.poscar] ++ sample a ++ [.save])

end SschaStr

/-! ### `pypolymlp-sscha` -/

namespace Sscha

/-- The options of a single SSCHA calculation (`common_args.py` 229-346). -/
structure Common where
  nSamples : Option (ℕ × ℕ) := none
  tol : ℚ := 1 / 200
  maxIter : ℕ := 50
  mixing : ℚ := 1 / 2
  mesh : ℕ × ℕ × ℕ := (10, 10, 10)
  init : String := "harmonic"
  initFile : Option String := none
  cutoff : Option ℚ := none
  mkl : Bool := true
  deriving DecidableEq

/-- The options (`common_args.py` 6-55, 159-204, 229-365; `run_polymlp_sscha.py` 116-132). -/
structure Args where
  pot : Option (List String) := none
  poscar : Option String := none
  supercell : ℕ × ℕ × ℕ := (2, 2, 2)
  yaml : Option String := none
  bornVasprun : Option String := none
  common : Common := {}
  temp : Option ℚ := none
  tempMin : ℚ := 100
  tempMax : ℚ := 2000
  tempStep : ℚ := 100
  nTemp : Option ℕ := none
  ascending : Bool := false
  temporalCutoff : Bool := false
  writePdos : Bool := false
  disablePrecondition : Bool := false
  geometry : Bool := false
  elastic : Bool := false
  pressure : ℚ := 0
  noSymmetry : Bool := false
  fixCell : Bool := false
  fixVolume : Bool := false
  fixAtom : Bool := false
  method : String := "BFGS"
  gtol : ℚ := 1 / 100

/-- The calls of `PypolymlpSSCHA`; `geometry` has the method as an argument with the default `BFGS`. -/
inductive Call where
  | potential (pot : List String)
  | restart (yaml : String)
  | poscar (file : String) (supercell : ℕ × ℕ × ℕ)
  | nac (vasprun : String)
  | geometry (temp : ℚ) (common : Common) (withSym cell volume positions : Bool) (method : String) (pressure gtol : ℚ)
  | elastic (temp : ℚ) (common : Common) (gtol : ℚ)
  | run (temp : Option ℚ) (tmin tmax tstep : ℚ) (nTemp : Option ℕ) (ascending : Bool) (common : Common)
      (temporalCutoff precondition pdos : Bool)
  deriving DecidableEq

/-- The structure (`run_polymlp_sscha.py` 22-27). -/
def structure_ (a : Args) : Line Call :=
  match a.yaml, a.poscar with
  | some y, _ => calls [.restart y]
  | none, some p => calls [.poscar p a.supercell]
  | none, none => raise .runtimeError

/-- The charges (`run_polymlp_sscha.py` 29-30). -/
def charges (a : Args) : Line Call :=
  match a.bornVasprun with
  | none => skip
  | some v => calls [.nac v]

/-- The optimization (`run_polymlp_sscha.py` 37-67): `fix_cell` fixes cell and volume, `fix_volume` the volume. -/
def geometry (a : Args) : Line Call :=
  match a.temp with
  | none => raise .runtimeError
  | some t =>
    let relaxCell := if a.fixCell then false else true
    let relaxVolume := if a.fixVolume then false else if a.fixCell then false else true
    calls [.geometry t a.common (!a.noSymmetry) relaxCell relaxVolume (!a.fixAtom) "BFGS" a.pressure a.gtol]

/-- The elastic constants (`run_polymlp_sscha.py` 68-86). -/
def elastic (a : Args) : Line Call :=
  match a.temp with
  | none => raise .runtimeError
  | some t => calls [.elastic t a.common a.gtol]

/-- The calculation (`run_polymlp_sscha.py` 37-109). -/
def calculation (a : Args) : Line Call :=
  if a.geometry then geometry a
  else if a.elastic then elastic a
  else calls [.run a.temp a.tempMin a.tempMax a.tempStep a.nTemp a.ascending a.common a.temporalCutoff
    (!a.disablePrecondition) a.writePdos]

/-- The potential (`run_polymlp_sscha.py` 137-138). -/
def potential (a : Args) : Line Call :=
  match a.pot with
  | none => skip
  | some p => calls [.potential p]

/-- `run_polymlp_sscha.py` 20-140. -/
def main (a : Args) : Line Call :=
  andThen (potential a) (andThen (structure_ a) (andThen (charges a) (calculation a)))

end Sscha

/-! ### `pypolymlp-md` -/

namespace Md

/-- The options (`run_polymlp_md.py` 27-100, `common_args.py` 6-55). -/
structure Args where
  pot : Option (List String) := none
  poscar : Option String := none
  supercell : ℕ × ℕ × ℕ := (2, 2, 2)
  thermostat : String := "Langevin"
  temp : ℚ := 300
  timeStep : ℚ := 1
  friction : ℚ := 1 / 100
  ttime : ℚ := 20
  nEq : ℕ := 2000
  nSteps : ℕ := 20000
  alpha : ℚ := 0
  fc2 : Option String := none
  potRef : Option (List String) := none
  ti : Bool := false
  nSamples : ℕ := 15
  maxAlpha : ℚ := 1
  fc2Path : Option String := none

/-- The calls of `PypolymlpMD` and of the file system. -/
inductive Call where
  | makedirs (path : String) (temp : ℚ)
  | load (poscar : String)
  | supercell (size : ℕ × ℕ × ℕ)
  | reference (path : String) (temp : ℚ)
  | potential (pot : Option (List String))
  | withFc2 (pot : Option (List String)) (fc2 : Option String) (alpha : ℚ)
  | withReference (pot : Option (List String)) (ref : List String) (alpha : ℚ)
  | copyFc2 (fc2 : Option String)
  | integrate (thermostat : String) (n : ℕ) (maxAlpha temp timeStep ttime friction : ℚ) (nEq nSteps : ℕ)
  | nvt (thermostat : String) (temp timeStep friction ttime : ℚ) (nEq nSteps : ℕ)
  | saveTi
  | saveMd
  deriving DecidableEq

/-- The attributes of the parsed options with three numbers: the option `--supercell` of `common_args.py` 48-54 gives
an attribute of its own name. -/
def attributes (a : Args) : List (String × (ℕ × ℕ × ℕ)) := [("supercell", a.supercell)]

/-- `md.set_supercell(args.supercell_size)` (`run_polymlp_md.py` 114, 143); a missing attribute is an
`AttributeError`. -/
def cell (a : Args) : Line Call :=
  match (attributes a).find? (fun kv => kv.1 == "supercell_size") with
  | none => raise .attributeError
  | some kv => calls [.supercell kv.2]

/-- The reference (`run_polymlp_md.py` 116-119); `found` is the file that `find_reference` returns. -/
def reference (a : Args) (found : String → ℚ → String) : List Call × Option String :=
  match a.fc2Path with
  | some p => ([.reference p a.temp], some (found p a.temp))
  | none => ([], a.fc2)

/-- Thermodynamic integration (`run_polymlp_md.py` 107-137). -/
def integration (a : Args) (found : String → ℚ → String) (path poscar : String) : Line Call :=
  let r := reference a found
  andThen (calls [.makedirs path a.temp, .load poscar]) (andThen (cell a) (calls (r.1 ++
    [.withFc2 a.pot r.2 0, .copyFc2 r.2,
      .integrate a.thermostat a.nSamples a.maxAlpha a.temp a.timeStep a.ttime a.friction a.nEq a.nSteps, .saveTi])))

/-- The forces (`run_polymlp_md.py` 145-160). -/
def forces (a : Args) : Call :=
  match a.fc2, a.potRef with
  | none, none => .potential a.pot
  | some f, _ => .withFc2 a.pot (some f) a.alpha
  | none, some r => .withReference a.pot r a.alpha

/-- Molecular dynamics (`run_polymlp_md.py` 138-175). -/
def dynamics (a : Args) (poscar : String) : Line Call :=
  andThen (calls [.load poscar]) (andThen (cell a) (calls
    [forces a, .nvt a.thermostat a.temp a.timeStep a.friction a.ttime a.nEq a.nSteps, .saveMd]))

/-- `run_polymlp_md.py` 106-175; `os.path.abspath(None)` is a `TypeError`. -/
def main (a : Args) (found : String → ℚ → String) (dir : String → String) : Line Call :=
  match a.poscar with
  | none => raise .typeError
  | some p => if a.ti then integration a found (dir p) p else dynamics a p

end Md

/-! ### `pypolymlp-thermodynamics` -/

namespace Thermo

/-- The options (`run_polymlp_thermodynamics.py` 19-60). -/
structure Args where
  sscha : Option (List String) := none
  electron : Option (List String) := none
  ti : Option (List String) := none
  electronPhonon : Option (List String) := none
  boundary : Option (String × String) := none
  refFc2 : Option (List String) := none

/-- The calls of `PypolymlpTransition` and `PypolymlpThermodynamics`. -/
inductive Call where
  | transition (a b : String)
  | findTransition
  | phaseBoundary
  | thermo (sscha : List String) (electron ti electronPhonon refFc2 : Option (List String))
  | run
  | save (path : String)
  deriving DecidableEq

/-- `run_polymlp_thermodynamics.py` 67-92; an empty list of yaml files is passed on. -/
def main (a : Args) : Line Call :=
  match a.boundary with
  | some b => calls [.transition b.1 b.2, .findTransition, .phaseBoundary]
  | none =>
    match a.sscha with
    | none => raise .runtimeError
    | some s => calls [.thermo s a.electron a.ti a.electronPhonon a.refFc2, .run, .save "polymlp_thermodynamics"]

end Thermo

/-! ### `pypolymlp-utils` -/

namespace Utils

/-- The options (`run_polymlp_utils.py` 19-211). -/
structure Args where
  yamlConverter : Option String := none
  vasprunCompress : Option (List String) := none
  nJobs : ℕ := 1
  electronVasprun : Option (List String) := none
  tempMax : ℚ := 1000
  tempStep : ℚ := 10
  autoDataset : Option (List String) := none
  nDivide : ℕ := 3
  elements : Option (List String) := none
  pathString : Option String := none
  atomicElements : Option (List String) := none
  atomicFormula : Option String := none
  atomicFunctional : String := "PBE"
  calcCost : Bool := false
  dirs : Option (List String) := none
  pot : List String := ["polymlp.yaml"]
  nCalc : ℕ := 20
  findOptimal : Option (List String) := none
  key : Option String := none
  generateModels : Bool := false
  modelElements : Option (List String) := none
  /-- `--generate_models_system`, split at the hyphens (`run_polymlp_utils.py` 296). -/
  modelSystem : Option (List String) := none
  hybrid : Bool := false
  poscar : Option String := none
  supercell : Option (List ℤ) := none
  symprec : ℚ := 1 / 10000
  refineCell : Bool := false
  spaceGroup : Bool := false

/-- The calls of `PypolymlpUtils`, and of the functions below it where it changes the arguments. -/
inductive Call where
  | convert (file : String)
  | electron (files : List String) (tmax tstep : ℚ) (nJobs : ℕ)
  | compress (files : List String) (nJobs : ℕ)
  | cost (pot : List String) (dirs : Option (List String)) (poscar : Option String) (supercell : List ℤ) (nCalc : ℕ)
  | optimal (dirs : List String) (key : Option String)
  | divide (files : List String) (elements : Option (List String)) (n : ℕ) (functional : String) (pathString : String)
  | supercell (poscar : Option String) (matrix : List ℤ)
  | symmetry (poscar : Option String) (symprec : ℚ)
  | refine
  | spacegroup
  | atomicEnergies (elements : Option (List String)) (formula : Option String) (functional : String)
  | models (elements : List String) (hybrid : Bool)
  deriving DecidableEq

/-- The cost (`run_polymlp_utils.py` 235-249). -/
def cost (a : Args) : Line Call :=
  match a.supercell with
  | none => calls [.cost a.pot a.dirs a.poscar [4, 4, 4] a.nCalc]
  | some s => if s.length = 3 then calls [.cost a.pot a.dirs a.poscar s a.nCalc] else raise .runtimeError

/-- `PypolymlpUtils.divide_dataset` (`pypolymlp_utils.py` 155-181) replaces the path that it is given. -/
def divide (a : Args) (files : List String) : Line Call :=
  let pathString := "../../polymlp_datasets"
  calls [.divide files a.elements a.nDivide a.atomicFunctional pathString]

/-- The supercell (`run_polymlp_utils.py` 263-272). -/
def cell (a : Args) (s : List ℤ) : Line Call :=
  if s.length = 9 then calls [.supercell a.poscar s]
  else if s.length = 3 then calls [.supercell a.poscar s]
  else raise .runtimeError

/-- The symmetry (`run_polymlp_utils.py` 274-281). -/
def symmetry (a : Args) : Line Call :=
  calls ([.symmetry a.poscar a.symprec] ++ (if a.refineCell then [.refine] else []) ++
    (if a.spaceGroup then [.spacegroup] else []))

/-- The models (`run_polymlp_utils.py` 292-306); the condition of the branch is always fulfilled. -/
def models (a : Args) : Line Call :=
  if a.elements = none ∧ a.modelSystem = none then raise .runtimeError
  else
    match a.modelSystem, a.modelElements, a.elements with
    | some s, _, _ => calls [.models s a.hybrid]
    | none, some e, _ => calls [.models e a.hybrid]
    | none, none, some e => calls [.models e a.hybrid]
    | none, none, none => raise .typeError

/-- What follows the optimal potentials (`run_polymlp_utils.py` 254-306). -/
def structures (a : Args) : Line Call :=
  match a.autoDataset, a.supercell with
  | some d, _ => divide a d
  | none, some (x :: s) => cell a (x :: s)
  | none, _ =>
    if a.refineCell || a.spaceGroup then symmetry a
    else if a.atomicElements.isSome || a.atomicFormula.isSome then
      calls [.atomicEnergies a.atomicElements a.atomicFormula a.atomicFunctional]
    else models a

/-- `run_polymlp_utils.py` 219-306. -/
def main (a : Args) : Line Call :=
  match a.yamlConverter, a.electronVasprun, a.vasprunCompress with
  | some f, _, _ => calls [.convert f]
  | none, some l, _ => calls [.electron l a.tempMax a.tempStep a.nJobs]
  | none, none, some l => calls [.compress l a.nJobs]
  | none, none, none =>
    if a.calcCost then cost a
    else
      match a.findOptimal with
      | some l => calls [.optimal l a.key]
      | none => structures a

end Utils

end Verif.Commands
