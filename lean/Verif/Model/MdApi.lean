import Verif.Model.Md
import Verif.Model.SschaFiles

/-!
# Sessions of molecular dynamics

`/repo/src/pypolymlp/calculator/md/api_md.py` (`PolymlpMD`), `/repo/src/pypolymlp/api/pypolymlp_md.py` (which hands its calls
on), `/repo/src/pypolymlp/calculator/md/ase_md.py` 104-181, 260-304, 417-474 (what is stored, averages, files) and
`/repo/src/pypolymlp/calculator/md/api_ti.py` (thermodynamic integration in a session, files).

Structures `S`, atoms of ASE `A`, potentials `P`, force constants `F` and forces `G` are arbitrary types; reading of files,
supercells, conversions and the dynamics of ASE are arbitrary functions.  Log files and printing are left out.
-/

namespace Verif.MdApi
open Verif.Md (average heatCapacityEV freeEnergyPerturb pRoots calcIntegral)
open Verif.SschaFiles (everyNth)

/-- The calculators of ASE that a session makes (`ase_calculator.py`, `ase_calculator_ref.py`). -/
inductive Kind (S P F : Type) where
  | plain (p : P)
  | fc2 (fc : F) (cell : S) (p : P)
  | ref (p pRef : P)
  | general (fc : F) (cell : S) (p pRef : P) (alphaFinal alphaRef : ℝ)

/-- A calculator with its attribute `alpha`.  The plain calculator has none until it is set. -/
structure Calc (S P F : Type) where
  kind : Kind S P F
  alpha : Option ℝ

variable {S A P F G : Type}

/-- `_use_reference` of the calculators (`ase_calculator.py` 46, `ase_calculator_ref.py` 70, 200, 328). -/
def Kind.useReference : Kind S P F → Bool
  | .plain _ => false
  | _ => true

/-- `_use_fc2` of the calculators (`ase_calculator.py` 47, `ase_calculator_ref.py` 71, 201, 329). -/
def Kind.useFc2 : Kind S P F → Bool
  | .fc2 .. => true
  | .general .. => true
  | _ => false

/-- Arguments of `run_md_nvt` (`api_md.py` 297-311), without those of the log file. -/
structure RunArgs where
  thermostat : String
  temperature : ℝ
  timeStep : ℝ
  friction : ℝ
  ttime : ℝ
  nEq : ℕ
  nSteps : ℕ
  saveForces : Option ℕ
  saveTrajectory : Option ℕ
  start : Bool

/-- What the observers see at one step (`ase_md.py` 112-178). -/
structure Frame (A G : Type) where
  energy : ℝ
  total : ℝ
  displacement : ℝ
  delta10 : ℝ
  delta1a : ℝ
  forces : G
  atoms : A

/-- A run of the dynamics of ASE: the frames at steps 0, 1, ..., the atoms afterwards, and the exception if it failed. -/
structure Outcome (A G : Type) where
  frames : List (Frame A G)
  atoms : A
  error : Option Err

/-- The averages of a run (`ase_md.py` 270-304). -/
structure Avg where
  energy : ℝ
  heatEV : ℝ
  total : ℝ
  displacement : Option ℝ
  delta10 : Option ℝ
  delta1a : Option ℝ
  perturb : Option ℝ

/-- What is not part of the session. -/
structure Ext (S A P F G : Type) where
  kb : ℝ
  poscar : String → Except Err S
  supercell : S → List ℕ → Except Err S
  toAtoms : S → Except Err A
  fromAtoms : A → Except Err S
  imaginary : String → Option (Except Err Bool)
  fc2 : String → Except Err F
  fits : F → S → Bool
  static : P → S → Except Err ℝ
  md : ℕ → Calc S P F → RunArgs → A → Outcome A G

/-- `IntegratorASE` after its run. -/
structure Integ (S A P F G : Type) where
  clc : Calc S P F
  args : RunArgs
  frames : List (Frame A G)
  avg : Option Avg

/-- `PolymlpMD` (`api_md.py` 34-52).  `runs` counts the runs, for the random numbers of the dynamics. -/
structure Session (S A P F G : Type) where
  clc : Option (Calc S P F) := none
  integ : Option (Integ S A P F G) := none
  unitcell : Option S := none
  supercell : Option S := none
  atoms : Option A := none
  matrix : Option (List ℕ) := none
  useReference : Bool := false
  fc2file : Option String := none
  runs : ℕ := 0

/-- `_calc_averages` (`ase_md.py` 270-304) with the observers of `activate_loggers` (183-202). -/
noncomputable def calcAvg (kb : ℝ) (k : Kind S P F) (a : RunArgs) (frames : List (Frame A G)) : Avg :=
  let l := frames.drop a.nEq
  { energy := average (l.map (·.energy))
    heatEV := heatCapacityEV kb a.temperature (l.map (·.energy))
    total := average (l.map (·.total))
    displacement := if k.useFc2 then some (average (l.map (·.displacement))) else none
    delta10 := if k.useReference then some (average (l.map (·.delta10))) else none
    delta1a := if k.useReference then some (average (l.map (·.delta1a))) else none
    perturb := if k.useReference then some (freeEnergyPerturb kb a.temperature (l.map (·.delta1a))) else none }

/-- `run_md_nvt` (`api_md.py` 195-345): a new integrator for the atoms and the calculator of the session.  The atoms are
moved by the run.  Other names of thermostats do nothing. -/
noncomputable def run (ext : Ext S A P F G) (s : Session S A P F G) (a : RunArgs) : Except Err Unit × Session S A P F G :=
  if a.thermostat = "Nose-Hoover" ∨ a.thermostat = "Langevin" then
    match s.atoms, s.clc with
    | none, _ => (.error .runtimeError, s)
    | some _, none => (.error .runtimeError, s)
    | some x, some c =>
      let o := ext.md s.runs c a x
      match o.error with
      | some e => (.error e, { s with integ := some ⟨c, a, o.frames, none⟩, atoms := some o.atoms, runs := s.runs + 1 })
      | none => (.ok (), { s with
          integ := some ⟨c, a, o.frames, some (calcAvg ext.kb c.kind a o.frames)⟩, atoms := some o.atoms, runs := s.runs + 1 })
  else (.ok (), s)

/-- The setter of `alpha` (`api_md.py` 432-438) for the calculator of the session and that of the last run. -/
def setAlpha (s : Session S A P F G) (a : ℝ) : Except Err Unit × Session S A P F G :=
  match s.clc with
  | none => (.error .attributeError, s)
  | some c => (.ok (), { s with
      clc := some { c with alpha := some a }
      integ := s.integ.map fun i => { i with clc := { i.clc with alpha := some a } } })

open Classical in
/-- `assert alpha >= 0.0`, `assert alpha <= 1.0` (`ase_calculator_ref.py` 77-83, 207-210, 337-343). -/
noncomputable def checkAlpha (a : ℝ) : Except Err Unit := if 0 ≤ a ∧ a ≤ 1 then .ok () else .error .assertionError

/-- The check of `_set_fc2` (`api_md.py` 56-61): results of SSCHA beside the file of force constants. -/
def checkImaginary (ext : Ext S A P F G) (file : String) : Except Err Unit :=
  match ext.imaginary file with
  | none => .ok ()
  | some (.error e) => .error e
  | some (.ok true) => .error .runtimeError
  | some (.ok false) => .ok ()

/-- The constructor of the calculator with harmonic reference (`ase_calculator_ref.py` 62-83). -/
noncomputable def mkFc2 (ext : Ext S A P F G) (fc : F) (cell : S) (p : P) (alpha : ℝ) : Except Err (Calc S P F) :=
  if ext.fits fc cell then do
    checkAlpha alpha
    let _ ← ext.static p cell
    return ⟨.fc2 fc cell p, some alpha⟩
  else .error .assertionError

/-- The constructor of the calculator with general reference (`ase_calculator_ref.py` 319-343). -/
noncomputable def mkGeneral (ext : Ext S A P F G) (fc : F) (cell : S) (p pRef : P) (alphaFinal alphaRef alpha : ℝ) :
    Except Err (Calc S P F) :=
  if ext.fits fc cell then do
    checkAlpha alphaFinal
    checkAlpha alphaRef
    checkAlpha alpha
    let _ ← ext.static pRef cell
    let _ ← ext.static p cell
    return ⟨.general fc cell p pRef alphaFinal alphaRef, some alpha⟩
  else .error .assertionError

/-- The calls with force constants (`api_md.py` 92-104, 153-168): the flag and the name of the file are stored before the file
is read and the calculator is made. -/
def withFc2 (ext : Ext S A P F G) (s : Session S A P F G) (file : String) (make : F → S → Except Err (Calc S P F)) :
    Except Err Unit × Session S A P F G :=
  match s.supercell with
  | none => (.error .runtimeError, s)
  | some cell =>
    match checkImaginary ext file with
    | .error e => (.error e, { s with useReference := true })
    | .ok () =>
      match ext.fc2 file with
      | .error e => (.error e, { s with useReference := true, fc2file := some file })
      | .ok fc =>
        match make fc cell with
        | .error e => (.error e, { s with useReference := true, fc2file := some file })
        | .ok c => (.ok (), { s with useReference := true, fc2file := some file, clc := some c })

/-- The operations of a session. -/
inductive Op (S P F : Type) where
  | loadPoscar (file : String)
  | setSupercell (size : List ℕ)
  | unitcell (st : S)
  | supercell (st : S)
  | plain (p : P)
  | fc2 (p : P) (file : String) (alpha : ℝ)
  | ref (p pRef : P) (alpha : ℝ)
  | general (p pRef : P) (file : String) (alphaFinal alphaRef alpha : ℝ)
  | calculator (c : Calc S P F)
  | alpha (a : ℝ)
  | run (a : RunArgs)

/-- `load_poscar` (`api_md.py` 170-176). -/
def loadPoscar (ext : Ext S A P F G) (s : Session S A P F G) (file : String) : Except Err Unit × Session S A P F G :=
  match ext.poscar file with
  | .error e => (.error e, s)
  | .ok st =>
    match ext.toAtoms st with
    | .error e => (.error e, { s with unitcell := some st })
    | .ok x => (.ok (), { s with unitcell := some st, supercell := some st, atoms := some x })

/-- `set_supercell` (`api_md.py` 178-193). -/
def setSupercell (ext : Ext S A P F G) (s : Session S A P F G) (size : List ℕ) : Except Err Unit × Session S A P F G :=
  match s.unitcell with
  | none => (.error .runtimeError, s)
  | some u =>
    if size.length ≠ 3 then (.error .runtimeError, s)
    else match ext.supercell u size with
      | .error e => (.error e, s)
      | .ok st =>
        match ext.toAtoms st with
        | .error e => (.error e, { s with supercell := some st })
        | .ok x => (.ok (), { s with supercell := some st, atoms := some x, matrix := some size })

/-- The setters of `unitcell` and `supercell` (`api_md.py` 373-388). -/
def setUnitcell (ext : Ext S A P F G) (s : Session S A P F G) (st : S) : Except Err Unit × Session S A P F G :=
  match ext.toAtoms st with
  | .error e => (.error e, { s with unitcell := some st })
  | .ok _ => (.ok (), { s with unitcell := some st })

@[inherit_doc setUnitcell]
def setCell (ext : Ext S A P F G) (s : Session S A P F G) (st : S) : Except Err Unit × Session S A P F G :=
  match ext.toAtoms st with
  | .error e => (.error e, { s with supercell := some st })
  | .ok x => (.ok (), { s with supercell := some st, atoms := some x })

/-- `set_ase_calculator_with_reference` (`api_md.py` 106-127). -/
noncomputable def setRef (s : Session S A P F G) (p pRef : P) (alpha : ℝ) : Except Err Unit × Session S A P F G :=
  match checkAlpha alpha with
  | .error e => (.error e, { s with useReference := true })
  | .ok () => (.ok (), { s with useReference := true, clc := some ⟨.ref p pRef, some alpha⟩ })

/-- One operation (`api_md.py` 67-345, 373-438). -/
noncomputable def step (ext : Ext S A P F G) (s : Session S A P F G) : Op S P F → Except Err Unit × Session S A P F G
  | .loadPoscar file => loadPoscar ext s file
  | .setSupercell size => setSupercell ext s size
  | .unitcell st => setUnitcell ext s st
  | .supercell st => setCell ext s st
  | .plain p => (.ok (), { s with clc := some ⟨.plain p, none⟩ })
  | .fc2 p file alpha => withFc2 ext s file fun fc cell => mkFc2 ext fc cell p alpha
  | .ref p pRef alpha => setRef s p pRef alpha
  | .general p pRef file af ar alpha => withFc2 ext s file fun fc cell => mkGeneral ext fc cell p pRef af ar alpha
  | .calculator c => (.ok (), { s with clc := some c, integ := s.integ.map fun i => { i with clc := c } })
  | .alpha a => setAlpha s a
  | .run a => run ext s a

/-- A history of operations; exceptions are caught. -/
noncomputable def history (ext : Ext S A P F G) (s : Session S A P F G) (ops : List (Op S P F)) : Session S A P F G :=
  ops.foldl (fun s o => (step ext s o).2) s

/-! ## What is shown -/

/-- `energies` (`api_md.py` 440-445, `ase_md.py` 327-330). -/
def energies (s : Session S A P F G) : Option (List ℝ) := s.integ.map fun i => i.frames.map (·.energy)

/-- `forces` (`api_md.py` 447-452, `ase_md.py` 126-133): every so many steps, if asked for. -/
def forces (s : Session S A P F G) : Option (List G) :=
  s.integ.bind fun i => i.args.saveForces.map fun n => (everyNth n i.frames).map (·.forces)

/-- `trajectory` (`api_md.py` 454-459): `None` cannot be iterated. -/
def trajectory (ext : Ext S A P F G) (s : Session S A P F G) : Except Err (Option (List S)) :=
  match s.integ with
  | none => .ok none
  | some i =>
    match i.args.saveTrajectory with
    | none => .error .typeError
    | some n => do
      let l ← (everyNth n i.frames).mapM fun f => ext.fromAtoms f.atoms
      return some l

/-- `average_energy` and the other averages (`api_md.py` 461-541). -/
def averages (s : Session S A P F G) : Option Avg := s.integ.bind (·.avg)

/-- `final_structure` (`api_md.py` 395-400). -/
def finalStructure (ext : Ext S A P F G) (s : Session S A P F G) : Except Err (Option S) :=
  match s.integ, s.atoms with
  | none, _ => .ok none
  | some _, none => .error .attributeError
  | some _, some x => do
    let st ← ext.fromAtoms x
    return some st

/-- `alpha` (`api_md.py` 424-430). -/
def alpha (s : Session S A P F G) : Option ℝ := s.clc.bind (·.alpha)

/-- The potentials that are named in a file (`ase_md.py` 446-451). -/
def potentials : Kind S P F → List P
  | .plain p => [p]
  | .fc2 _ _ p => [p]
  | .ref p q => [p, q]
  | .general _ _ p q _ _ => [p, q]

/-- What `save_yaml` writes (`api_md.py` 352-361, `ase_md.py` 417-474). -/
structure Saved (S P : Type) where
  unitcell : S
  matrix : Option (List ℕ)
  thermostat : String
  temperature : ℝ
  timeStep : ℝ
  nEq : ℕ
  nSteps : ℕ
  alpha : Option ℝ
  potentials : List P
  avg : Option Avg

/-- `save_yaml` (`api_md.py` 352-361).  The attribute `_alpha` is that of the calculators with a reference. -/
def saveYaml (s : Session S A P F G) : Except Err (Saved S P) :=
  match s.unitcell, s.integ with
  | none, _ => .error .attributeError
  | some _, none => .error .attributeError
  | some u, some i => .ok ⟨u, s.matrix, i.args.thermostat, i.args.temperature, i.args.timeStep, i.args.nEq, i.args.nSteps,
      if i.clc.kind.useReference then i.clc.alpha else none, potentials i.clc.kind, i.avg⟩

/-! ## Thermodynamic integration -/

/-- `PropertiesTI` (`api_ti.py` 15-32), filled by `_get_log` (158-169). -/
structure Log where
  alpha : Option ℝ
  energy : Option ℝ
  total : Option ℝ
  displacement : Option ℝ
  delta10 : Option ℝ
  perturb : Option ℝ
  order1 : Option ℝ

/-- `_get_log` (`api_ti.py` 158-169). -/
def getLog (s : Session S A P F G) : Log :=
  let a := averages s
  ⟨alpha s, a.map (·.energy), a.map (·.total), a.bind (·.displacement), a.bind (·.delta10), a.bind (·.perturb),
    a.bind (·.delta1a)⟩

/-- `_run` (`api_ti.py` 99-113). -/
noncomputable def tiStep (ext : Ext S A P F G) (a : RunArgs) (s : Session S A P F G) (al : ℝ) (mult : ℕ) :
    Except Err Log × Session S A P F G :=
  match setAlpha s al with
  | (.error e, s) => (.error e, s)
  | (.ok (), s) =>
    match run ext s { a with nSteps := a.nSteps * mult } with
    | (.error e, s) => (.error e, s)
    | (.ok (), s) => (.ok (getLog s), s)

/-- `[_run(alpha) for alpha in alphas]` (`api_ti.py` 117). -/
noncomputable def tiRuns (ext : Ext S A P F G) (a : RunArgs) : Session S A P F G → List ℝ → Except Err (List Log) × Session S A P F G
  | s, [] => (.ok [], s)
  | s, al :: als =>
    match tiStep ext a s al 1 with
    | (.error e, s) => (.error e, s)
    | (.ok l, s) =>
      match tiRuns ext a s als with
      | (.error e, s) => (.error e, s)
      | (.ok ls, s) => (.ok (l :: ls), s)

/-- The results of a thermodynamic integration (`api_ti.py` 41-54). -/
structure TiResult where
  log : List Log
  freeEnergy : ℝ
  energy : ℝ
  entropy : ℝ
  perturb : Option ℝ
  order1 : Option ℝ

/-- `_calc_energy_entropy` (`api_ti.py` 171-180) with values that may be `None`. -/
noncomputable def tiEnergy (temp freeEnergy : ℝ) (final ref : Option ℝ) : Except Err (ℝ × ℝ) :=
  if |temp| ≤ 1 / 10 ^ 8 then .ok (0, 0)
  else match final, ref with
    | some f, some r => .ok (f - r, (f - r - freeEnergy) / temp)
    | _, _ => .error .typeError

/-- The arithmetic of `run_thermodynamic_integration` after the runs (`api_ti.py` 119-128). -/
noncomputable def tiFinish (temp freeEnergy : ℝ) (logs : List Log) (first last : Log) : Except Err TiResult := do
  let es ← tiEnergy temp freeEnergy last.energy first.energy
  return ⟨first :: (logs ++ [last]), freeEnergy, es.1, es.2, last.perturb, last.order1⟩

/-- The runs at the end points (`api_ti.py` 122-128). -/
noncomputable def tiEnds (ext : Ext S A P F G) (a : RunArgs) (maxAlpha freeEnergy : ℝ) (logs : List Log) (s : Session S A P F G) :
    Except Err TiResult × Session S A P F G :=
  match tiStep ext a s 0 3 with
  | (.error e, s) => (.error e, s)
  | (.ok first, s) =>
    match tiStep ext a s maxAlpha 3 with
    | (.error e, s) => (.error e, s)
    | (.ok last, s) => (tiFinish a.temperature freeEnergy logs first last, s)

/-- `run_thermodynamic_integration` (`pypolymlp_md.py` 313-326, `api_ti.py` 56-132) with nodes and weights of the quadrature.
Thermostats and numbers of steps are those of `a`; forces and trajectories are not saved. -/
noncomputable def runTi (ext : Ext S A P F G) (s : Session S A P F G) (x w : List ℝ) (maxAlpha : ℝ) (a : RunArgs) :
    Except Err TiResult × Session S A P F G :=
  if s.clc.isNone ∨ s.unitcell.isNone ∨ s.useReference = false then (.error .runtimeError, s)
  else
    let r := pRoots x w 0 maxAlpha
    match tiRuns ext a s r.1 with
    | (.error e, s) => (.error e, s)
    | (.ok logs, s) =>
      match logs.mapM (·.delta10) with
      | none => (.error .typeError, s)
      | some de => tiEnds ext a maxAlpha (calcIntegral r.2 de 0 maxAlpha) logs s

/-- What `save_ti_yaml` writes (`api_ti.py` 211-277), without what `save_yaml` writes too. -/
structure SavedTi (P : Type) where
  nSteps : ℕ
  reference : String
  potential : P
  freeEnergy : ℝ
  displacements : List ℝ

/-- `calculator._prop` (`api_ti.py` 245): the calculator with a general reference has no such attribute. -/
def tiPotential : Kind S P F → Except Err P
  | .plain p => .ok p
  | .fc2 _ _ p => .ok p
  | .ref p _ => .ok p
  | .general .. => .error .attributeError

/-- `save_ti_yaml` (`api_ti.py` 211-277): `os.path.abspath(None)` and `np.round(None)` raise `TypeError`. -/
noncomputable def saveTi (s : Session S A P F G) (r : TiResult) : Except Err (SavedTi P) :=
  match s.integ, s.clc with
  | some i, some c => do
    let f ← orErr .typeError s.fc2file
    let p ← tiPotential c.kind
    let ds ← orErr .typeError (r.log.mapM (·.displacement))
    return ⟨i.args.nSteps, f, p, r.freeEnergy, ds⟩
  | _, _ => .error .attributeError

end Verif.MdApi
