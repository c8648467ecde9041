import Verif.Model.CalcApi

/-!
# The command line for calculating properties

`/repo/src/pypolymlp/api/run_polymlp_calc.py` 23-246 with the options of `api/common_args.py` 6-246, as a
program that calls the object of `Model/CalcApi`.  What is written is kept when an exception is raised.  Not modelled:
the text that is printed, the thermal conductivity of phono3py (`--run_ltc`).
-/

namespace Verif.CalcCli
open Verif.CalcApi

/-- The arguments of the calls that the command line makes. -/
inductive Arg where
  /-- `init_geometry_optimization(with_sym, relax_cell, relax_volume, relax_positions, pressure)`. -/
  | relax (withSym cell volume positions : Bool) (pressure : ℚ)
  /-- `run_geometry_optimization(method, gtol)`. -/
  | minimize (method : String) (gtol : ℚ)
  /-- `run_eos(eps_min, eps_max, eps_step, fine_grid, eos_fit)`. -/
  | eos (lo hi step : ℚ) (fine fit : Bool)
  /-- `run_elastic_constants()`. -/
  | elastic
  /-- `init_fc(supercell_matrix, cutoff)` and `run_fc(n_samples, distance, is_plusminus, orders, batch_size, ...)`. -/
  | fc (supercell : ℕ × ℕ × ℕ) (cutoff : List (ℕ × Option ℚ)) (nSamples : Option ℕ) (distance : ℚ) (plusminus : Bool)
      (orders : List ℕ) (batch : ℕ) (gradient : Bool)
  /-- `init_phonon(supercell_matrix)`. -/
  | cell (supercell : ℕ × ℕ × ℕ)
  /-- `run_phonon(distance, mesh, t_min, t_max, t_step, ..., with_pdos)`. -/
  | phonon (distance : ℚ) (mesh : ℕ × ℕ × ℕ) (tmin tmax tstep : ℚ) (pdos : Bool)
  /-- `run_qha(supercell_matrix, distance, mesh, t_min, t_max, t_step, eps_min, eps_max, eps_step)`. -/
  | qha (supercell : ℕ × ℕ × ℕ) (distance : ℚ) (mesh : ℕ × ℕ × ℕ) (tmin tmax tstep lo hi step : ℚ)
  deriving DecidableEq

/-- The options (`common_args.py`, `run_polymlp_calc.py` 198-233); defaults as declared there. -/
structure Args where
  pot : Option (List String) := none
  infile : Option String := none
  poscar : Option String := none
  poscars : Option (List String) := none
  vaspruns : Option (List String) := none
  strYaml : Option String := none
  supercell : ℕ × ℕ × ℕ := (2, 2, 2)
  properties : Bool := false
  geometry : Bool := false
  eos : Bool := false
  elastic : Bool := false
  forceConstants : Bool := false
  phonon : Bool := false
  features : Bool := false
  precision : Bool := false
  pressure : ℚ := 0
  noSymmetry : Bool := false
  fixCell : Bool := false
  fixVolume : Bool := false
  fixAtom : Bool := false
  method : String := "BFGS"
  gtol : ℚ := 1 / 10000
  fcSamples : Option ℕ := none
  disp : ℚ := 1 / 100
  plusminus : Bool := false
  batch : ℕ := 200
  cutoff2 : Option ℚ := none
  cutoff3 : Option ℚ := none
  cutoff4 : Option ℚ := none
  fcOrders : List ℕ := [2, 3]
  gradientSolver : Bool := false
  mesh : ℕ × ℕ × ℕ := (10, 10, 10)
  tmin : ℚ := 0
  tmax : ℚ := 1000
  tstep : ℚ := 10
  pdos : Bool := false

/-- The files that are written, by what is in them.  `properties` are `polymlp_energies.npy`,
`polymlp_stress_tensors.npy` and `polymlp_forces*.npy`; `relaxed` is `POSCAR_eqm`; `poscar i` is `POSCAR` with the number
`i`; `eos`, `elastic` are the yaml files; `fc`, `phonon`, `qha` stand for the files of these calculations; `features` is
`features.npy`; `precision` is printed. -/
inductive Name where
  | properties | relaxed | poscar (i : ℕ) | eos | elastic | fc | phonon | qha | features | precision
  deriving DecidableEq

/-- What is in a file: a structure, values of structures, or a result. -/
inductive Content (St V R : Type) where
  | structure_ (s : St)
  | values (ss : List St) (vs : List V)
  | result (r : R)

/-- The code that is not modelled: reading of structures, the calculations, force constants of a unit cell, and the
precision of features. -/
structure CliExt (St V R : Type) where
  poscar : String → Except Err St
  vasprun : String → Except Err St
  api : Option (List String) → Option String → Ext St V R Arg
  fcInit : Option St → Arg → Except Err Unit
  fc : Option St → Arg → Prog St V R
  precision : R → R

variable {St V R : Type}

/-- The object and the files by their names. -/
structure World (St V R : Type) where
  obj : Calc St V R Arg
  files : Name → Option (Content St V R)

/-- A part of the program; the world is kept when an exception is raised. -/
abbrev Act (St V R : Type) := World St V R → World St V R × Except Err Unit

/-- One part after another. -/
def andThen (a b : Act St V R) : Act St V R := fun w =>
  match a w with
  | (w, .error e) => (w, .error e)
  | (w, .ok _) => b w

/-- A part under a condition. -/
def when (c : Bool) (a : Act St V R) : Act St V R := fun w => if c then a w else (w, .ok ())

/-- A call of the object. -/
def call (ext : Ext St V R Arg) (x : Call St Arg) : Act St V R := fun w =>
  let r := step ext w.obj x
  ({ w with obj := r.1 }, r.2.map fun _ => ())

/-- Writing of a file that replaces an older one. -/
def put (n : Name) (c : Content St V R) : Act St V R := fun w =>
  ({ w with files := fun n' => if n' = n then some c else w.files n' }, .ok ())

/-- Writing of something that may be missing; a missing result is an `AttributeError` or a `TypeError`. -/
def putSome (n : Name) (o : World St V R → Option (Content St V R)) : Act St V R := fun w =>
  match o w with
  | none => (w, .error .attributeError)
  | some c => put n c w

/-- The files that `load_poscars` gets: one name, or a list of names. -/
inductive Files where
  | one (f : String)
  | many (l : List String)

/-- `parse_structures_from_poscars` (`core/interface_vasp.py` 86-90); opening `None` is a `TypeError`. -/
def readPoscars (ext : CliExt St V R) : Option Files → Except Err (List St)
  | none => .error .typeError
  | some (.one f) => (ext.poscar f).map fun s => [s]
  | some (.many l) => l.mapM ext.poscar

/-- `args.poscar` after `check_variables` (`run_polymlp_calc.py` 23-29). -/
def poscarOf (a : Args) : Option Files :=
  match a.poscar, a.poscars with
  | some f, _ => some (.one f)
  | none, some l => some (.many l)
  | none, none => none

/-- `args.poscars` after `check_variables`. -/
def poscarsOf (a : Args) : Option Files :=
  match a.poscars, a.poscar with
  | some l, _ => some (.many l)
  | none, some f => some (.one f)
  | none, none => none

/-- `load_structures_from_files` (`pypolymlp_calc.py` 96-116). -/
def readFiles (ext : CliExt St V R) (a : Args) : Except Err (List St) :=
  match poscarsOf a, a.vaspruns with
  | some f, _ => readPoscars ext (some f)
  | none, some l => l.mapM ext.vasprun
  | none, none => .error .runtimeError

/-- `save_poscars(filename="POSCAR_eqm")` (`pypolymlp_calc.py` 124-132). -/
def savePoscars : Act St V R := fun w =>
  match w.obj.structures with
  | none => (w, .error .typeError)
  | some [s] => put .relaxed (.structure_ s) w
  | some l => l.zipIdx.foldl (fun (r : World St V R × Except Err Unit) p => put (.poscar p.2) (.structure_ p.1) r.1) (w, .ok ())

/-- Property calculations (`run_polymlp_calc.py` 34-50); without a potential `eval` is an attribute of `None`. -/
def properties (ext : CliExt St V R) (a : Args) : Act St V R :=
  andThen (call (ext.api a.pot a.infile) (.load (readFiles ext a)))
    (andThen (fun w => if a.pot.isNone then (w, .error .attributeError) else call (ext.api a.pot a.infile) (.eval none) w)
      (putSome .properties fun w => w.obj.last.map fun l => .values l.structs l.values))

/-- Geometry optimization (`run_polymlp_calc.py` 52-69). -/
def geometry (ext : CliExt St V R) (a : Args) : Act St V R :=
  andThen (call (ext.api a.pot a.infile) (.load (readPoscars ext (poscarOf a))))
    (andThen (call (ext.api a.pot a.infile) (.optInit none
        (.relax (!a.noSymmetry) (!a.fixCell) (!a.fixCell && !a.fixVolume) (!a.fixAtom) a.pressure)))
      (andThen (call (ext.api a.pot a.infile) (.opt (.minimize a.method a.gtol))) savePoscars))

/-- Equations of state (`run_polymlp_calc.py` 71-83). -/
def eosMode (ext : CliExt St V R) (a : Args) : Act St V R :=
  andThen (call (ext.api a.pot a.infile) (.load (readPoscars ext (poscarOf a))))
    (andThen (call (ext.api a.pot a.infile) (.job .eos none (.eos (7 / 10) 2 (3 / 100) true true)))
      (putSome .eos fun w => (jobResult w.obj .eos).map .result))

/-- Elastic constants (`run_polymlp_calc.py` 85-89). -/
def elasticMode (ext : CliExt St V R) (a : Args) : Act St V R :=
  andThen (call (ext.api a.pot a.infile) (.load (readPoscars ext (poscarOf a))))
    (andThen (call (ext.api a.pot a.infile) (.job .elastic none .elastic))
      (putSome .elastic fun w => (jobResult w.obj .elastic).map .result))

/-- The arguments of force constants (`run_polymlp_calc.py` 93, 105-116). -/
def fcArg (a : Args) : Arg :=
  .fc a.supercell [(2, a.cutoff2), (3, a.cutoff3), (4, a.cutoff4)] a.fcSamples a.disp a.plusminus a.fcOrders a.batch a.gradientSolver

/-- `init_fc`, `run_fc` and `save_fc` (`pypolymlp_calc.py` 517-603): the unit cell is the first structure. -/
def runFc (ext : CliExt St V R) (a : Args) : Act St V R := fun w =>
  match first w.obj with
  | .error e => (w, .error e)
  | .ok u =>
    match ext.fcInit u (fcArg a) with
    | .error e => ({ w with obj := { w.obj with unitcell := u } }, .error e)
    | .ok _ =>
      match runProg (ext.api a.pot a.infile).pot w.obj.last (ext.fc u (fcArg a)) with
      | (last', .error e) => ({ w with obj := { w.obj with unitcell := u, last := last' } }, .error e)
      | (last', .ok r) => put .fc (.result r) { w with obj := { w.obj with unitcell := u, last := last' } }

/-- The optimization before force constants (`run_polymlp_calc.py` 95-102): the defaults of the two calls. -/
def relaxFc (ext : CliExt St V R) (a : Args) : Act St V R :=
  andThen (call (ext.api a.pot a.infile) (.optInit none (.relax true false false true 0)))
    (call (ext.api a.pot a.infile) (.opt (.minimize "BFGS" (1 / 10000))))

/-- Force constants (`run_polymlp_calc.py` 91-118). -/
def fcMode (ext : CliExt St V R) (a : Args) : Act St V R :=
  andThen (call (ext.api a.pot a.infile) (.load (readPoscars ext (poscarOf a))))
    (andThen (when a.geometry (relaxFc ext a)) (runFc ext a))

/-- Phonons and quasi-harmonic calculations (`run_polymlp_calc.py` 136-167). -/
def phononMode (ext : CliExt St V R) (a : Args) : Act St V R :=
  andThen (call (ext.api a.pot a.infile) (.load (readPoscars ext (poscarOf a))))
    (andThen (call (ext.api a.pot a.infile) (.phononInit none (.cell a.supercell)))
      (andThen (call (ext.api a.pot a.infile) (.phonon (.phonon a.disp a.mesh a.tmin a.tmax a.tstep a.pdos)))
        (andThen (putSome .phonon fun w => (phononResult w.obj).map .result)
          (andThen (call (ext.api a.pot a.infile) (.job .qha none
              (.qha a.supercell a.disp a.mesh a.tmin a.tmax a.tstep (8 / 10) (12 / 10) (2 / 100))))
            (putSome .qha fun w => (jobResult w.obj .qha).map .result)))))

/-- Features and their precision (`run_polymlp_calc.py` 169-195). -/
def featuresMode (ext : CliExt St V R) (a : Args) : Act St V R :=
  andThen (call (ext.api a.pot a.infile) (.load (readFiles ext a)))
    (andThen (call (ext.api a.pot a.infile) (.features none))
      (andThen (when a.features (putSome .features fun w => w.obj.features.map .result))
        (when a.precision (putSome .precision fun w => w.obj.features.map fun r => .result (ext.precision r)))))

/-- `run_calculations` (`run_polymlp_calc.py` 32-195). -/
def runCalculations (ext : CliExt St V R) (a : Args) : Act St V R :=
  andThen (when a.properties (properties ext a))
    (andThen (when a.geometry (geometry ext a))
      (andThen (when a.eos (eosMode ext a))
        (andThen (when a.elastic (elasticMode ext a))
          (andThen (when a.forceConstants (fcMode ext a))
            (andThen (when a.phonon (phononMode ext a))
              (when (a.features || a.precision) (featuresMode ext a)))))))

/-- `run` (`run_polymlp_calc.py` 198-246) on the files that are there. -/
def run (ext : CliExt St V R) (a : Args) (files : Name → Option (Content St V R)) : World St V R × Except Err Unit :=
  if a.pot.isNone && a.infile.isNone then (⟨Calc.new, files⟩, .error .runtimeError)
  else runCalculations ext a ⟨Calc.new, files⟩

end Verif.CalcCli
