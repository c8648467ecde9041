import Verif.Model.Py
import Verif.Model.Dict
import Verif.Model.Polyfit

/-!
# Thermodynamic properties on a grid of volumes and temperatures

`/repo/src/pypolymlp/calculator/thermodynamics/thermodynamics_parser.py` (loading of data and their common grid),
`thermodynamics_grid.py` (grid points, sums, fits), `thermodynamics_ref.py` (reference states),
`thermodynamics_utils.py` and `api_thermodynamics.py` (equilibrium properties) and
`/repo/src/pypolymlp/api/pypolymlp_thermodynamics.py` 25-112.

Volumes and temperatures are rational numbers, properties are real numbers.  The contents of the yaml files are
given.  Harmonic properties (phonopy) and the fit of an equation of state (phonopy) are parameters.  The point for
missing data is one object shared by all such grid points; its `restart` and `path_fc2`, which sums of grids can
change, are not modelled.
-/

namespace Verif.Thermo

/-- What `Restart` reads from `sscha_results.yaml` (`sscha_restart.py` 44-79): energies in kJ/mol and the entropy in
J/K/mol, for the unit cell. -/
structure SschaFile where
  path : String
  volume : ℚ
  nAtom : ℕ
  temperature : ℚ
  static : ℝ
  free : ℝ
  entropy : ℝ
  converge : Bool
  imaginary : Bool

/-- The properties in an `electron.yaml` (eV and eV/K for the cell) at one temperature. -/
structure ElectronProp where
  temperature : ℚ
  free : ℝ
  entropy : ℝ

/-- The contents of an `electron.yaml`. -/
structure ElectronFile where
  path : String
  volume : ℚ
  nAtom : ℕ
  props : List ElectronProp

/-- `DataTI` (`ti_utils.py` 155-164), without the log. -/
structure DataTI where
  volume : ℚ
  temperature : ℚ
  free : ℝ
  energy : ℝ
  entropy : ℝ

/-- A file of thermodynamic integration: `load_ti_yaml` returns two results, `None`, or raises an exception. -/
structure TiFile where
  path : String
  result : Except Err (Option (DataTI × DataTI))

/-- The attributes that are summed (`thermodynamics_grid.py` 43-49). -/
inductive Attr where
  | freeEnergy | entropy | heatCapacity | energy | static
  deriving DecidableEq

/-- `GridPointData` (`thermodynamics_grid.py` 15-31). -/
structure Point where
  volume : Option ℚ
  temperature : Option ℚ
  restart : Option SschaFile
  val : Attr → Option ℝ
  pathYaml : Option String
  pathFc2 : Option String

/-- `GridPointData(volume=None, temperature=None)`. -/
def emptyPoint : Point := ⟨none, none, none, fun _ => none, none, none⟩

/-- `EVtoKJmol` and `EVtoJmol` (`core/units.py`): `kj` is the first, and the second is 1000 times it. -/
structure Units where
  kj : ℝ

/-- `load_sscha_yamls` (`thermodynamics_parser.py` 16-35) for one file, with `unit="eV/atom"`
(`sscha_restart.py` 103-106). -/
noncomputable def sschaPoint (u : Units) (f : SschaFile) : Point where
  volume := some (f.volume / f.nAtom)
  temperature := some f.temperature
  restart := some f
  val := fun a =>
    if f.converge && !f.imaginary then
      match a with
      | .static => some (f.static * (1 / (u.kj * f.nAtom)))
      | .freeEnergy => some (f.free * (1 / (u.kj * f.nAtom)) + f.static * (1 / (u.kj * f.nAtom)))
      | .entropy => some (f.entropy * (1 / (u.kj * 1000 * f.nAtom)))
      | _ => none
    else none
  pathYaml := some f.path
  pathFc2 := some (f.path ++ "/fc2.hdf5")

/-- `load_electron_yamls` (`thermodynamics_parser.py` 38-58) for one file. -/
noncomputable def electronPoints (f : ElectronFile) : List Point :=
  f.props.map fun p =>
    { volume := some (f.volume / f.nAtom)
      temperature := some p.temperature
      restart := none
      val := fun a => match a with
        | .freeEnergy => some (p.free / f.nAtom)
        | .entropy => some (p.entropy / f.nAtom)
        | _ => none
      pathYaml := some f.path
      pathFc2 := none }

/-- A point of `load_ti_yamls` (`thermodynamics_parser.py` 73-80, 82-89). -/
def tiPoint (path : String) (d : DataTI) : Point where
  volume := some d.volume
  temperature := some d.temperature
  restart := none
  val := fun a => match a with
    | .freeEnergy => some d.free
    | .entropy => some d.entropy
    | .energy => some d.energy
    | _ => none
  pathYaml := some path
  pathFc2 := none

/-- `load_ti_yamls` (`thermodynamics_parser.py` 61-91): files that fail or were eliminated are skipped. -/
def tiPoints (files : List TiFile) : List Point × List Point :=
  let ok := files.filterMap fun f => match f.result with
    | .ok (some r) => some (f.path, r)
    | _ => none
  (ok.map fun p => tiPoint p.1 p.2.1, ok.map fun p => tiPoint p.1 p.2.2)

/-- `np.round(x, 3)`. -/
def round3 (x : ℚ) : ℚ := roundHalfEven (x * 1000) / 1000

/-- `d[key] += 1` for a `defaultdict(int)`. -/
def bump {κ : Type} [DecidableEq κ] (d : Dict κ ℕ) (k : κ) : Dict κ ℕ := d.set k ((d.get? k).getD 0 + 1)

/-- `_count_data_size` (`thermodynamics_parser.py` 94-104).  Loaded points have a volume and a temperature. -/
def countSize (data : List Point) : Dict ℚ ℕ × Dict ℤ ℕ :=
  data.foldl (fun c d =>
    if (d.val .freeEnergy).isSome then
      (bump c.1 (round3 (d.volume.getD 0)), bump c.2 (roundHalfEven (d.temperature.getD 0)))
    else c) ([], [])

/-- The loops over keys in `_count_data_minimum_size` (`thermodynamics_parser.py` 120-130): keys that are not in the
other dictionary are deleted, and larger counts are lowered. -/
def meet {κ : Type} [DecidableEq κ] (a b : Dict κ ℕ) : Dict κ ℕ :=
  a.filterMap fun p => (b.get? p.1).map fun n => (p.1, if n < p.2 then n else p.2)

/-- `_count_data_minimum_size` (`thermodynamics_parser.py` 107-132) for the data that are given.  The data of SSCHA
are always given. -/
def minimumSize : List (List Point) → Dict ℚ ℕ × Dict ℤ ℕ
  | [] => ([], [])
  | first :: rest =>
    rest.foldl (fun c data => (meet c.1 (countSize data).1, meet c.2 (countSize data).2)) (countSize first)

/-- `_get_common_grid` (`thermodynamics_parser.py` 135-140). -/
def commonGrid (given : List (List Point)) (nRequire : ℕ) : List ℚ × List ℤ :=
  let c := minimumSize given
  ((c.1.filter fun p => nRequire ≤ p.2).map Prod.fst |>.mergeSort (· ≤ ·), (c.2.map Prod.fst).mergeSort (· ≤ ·))

/-- `GridVT` (`thermodynamics_grid.py` 84-98): rows are volumes and columns are temperatures. -/
structure Grid where
  volumes : List ℚ
  temps : List ℤ
  cell : ℕ → ℕ → Point

/-- `_get_grid_data` (`thermodynamics_parser.py` 143-168). -/
def gridData (volumes : List ℚ) (temps : List ℤ) (data : List Point) : Grid where
  volumes := volumes
  temps := temps
  cell := fun i j =>
    (data.foldl (fun (arr : ℕ → ℕ → Option Point) d =>
      match volumes.idxOf? (round3 (d.volume.getD 0)),
          (temps.map fun (t : ℤ) => (t : ℚ)).idxOf? (round3 (d.temperature.getD 0)) with
      | some i0, some j0 => fun i j => if i = i0 ∧ j = j0 then some d else arr i j
      | _, _ => arr) (fun _ _ => none) i j).getD emptyPoint

/-- The grid points in the order of `__iter__` (`thermodynamics_grid.py` 100-104). -/
def Grid.points (g : Grid) : List (ℕ × ℕ) :=
  (List.range g.volumes.length).flatMap fun i => (List.range g.temps.length).map fun j => (i, j)

/-- `copy_static_data` (`thermodynamics_grid.py` 137-147): `d.restart.static_potential` fails without a restart.
Shapes are equal because all grids are made for the same volumes and temperatures. -/
noncomputable def copyStatic (u : Units) (ti sscha : Grid) : Except Err Grid :=
  if ti.points.any fun p => ((ti.cell p.1 p.2).volume.isSome && (sscha.cell p.1 p.2).restart.isNone) then
    .error .attributeError
  else .ok { ti with cell := fun i j =>
    let d := ti.cell i j
    if d.volume.isNone then d
    else
      let r := (sscha.cell i j).restart
      { d with
        restart := r
        val := fun a => if a = .static then r.map (fun f => f.static * (1 / (u.kj * f.nAtom))) else d.val a } }

/-- `set_reference_paths` (`thermodynamics_ref.py` 16-44).  `refPath` is the choice of the file for a grid point, if
there is one, from its volume and the path of its yaml file. -/
def setReferencePaths (refPath : ℚ → String → Option String) (g : Grid) : Grid :=
  { g with cell := fun i j =>
      let d := g.cell i j
      if d.volume.isNone then d
      else match refPath (d.volume.getD 0) (d.pathYaml.getD "") with
        | some p => { d with pathFc2 := some p }
        | none => d }

/-- Free energy (kJ/mol), entropy and heat capacity (J/K/mol) of the unit cell:
`calculate_harmonic_properties_from_fc2`, from the unit cell and supercell of an SSCHA file, the path of the force
constants and the temperature. -/
abbrev Harmonic := SschaFile → Option String → ℚ → ℝ × ℝ × ℝ

/-- `calculate_reference_grid` (`thermodynamics_ref.py` 47-90), after `copy_static_data`. -/
noncomputable def referenceGrid (u : Units) (harm : Harmonic) (ti : Grid) : Grid :=
  { ti with cell := fun i j =>
      let d := ti.cell i j
      if d.volume.isNone then d
      else match d.restart, d.temperature with
        | some f, some t =>
          let h := harm f d.pathFc2 t
          { volume := d.volume
            temperature := d.temperature
            restart := none
            val := fun a => match a with
              | .freeEnergy => (d.val .static).map fun s => h.1 / u.kj / f.nAtom + s
              | .entropy => some (h.2.1 / (1000 * u.kj) / f.nAtom)
              | .heatCapacity => some (h.2.2 / f.nAtom)
              | _ => none
            pathYaml := none
            pathFc2 := none }
        | _, _ => d }

/-- `add` (`thermodynamics_grid.py` 33-56). -/
def Point.add (p q : Point) : Point :=
  { p with
    val := fun a => match p.val a, q.val a with
      | some x, some y => some (x + y)
      | _, _ => none
    restart := p.restart.or q.restart
    pathFc2 := p.pathFc2.or q.pathFc2 }

/-- `sum_grids` (`thermodynamics_grid.py` 271-287).  Volumes and temperatures that are close are equal here. -/
def sumGrids : List Grid → Except Err Grid
  | [] => .error .indexError
  | [g] => .ok g
  | g0 :: rest =>
    if rest.any fun g => (g.volumes ≠ g0.volumes || g.temps ≠ g0.temps) then .error .runtimeError
    else .ok (rest.foldl (fun s g => { s with cell := fun i j => (s.cell i j).add (g.cell i j) }) g0)

/-- The files given by the user. -/
structure Files where
  sscha : List SschaFile
  electron : Option (List ElectronFile)
  ti : Option (List TiFile)
  electronPhonon : Option (List ElectronFile)

/-- The grids of `ThermodynamicsData` (`api_thermodynamics.py` 215-227). -/
structure Sums where
  sscha : Grid
  sschaEl : Option Grid
  sschaElPh : Option Grid
  ti : Option Grid
  tiEl : Option Grid
  tiElPh : Option Grid
  tiExt : Option Grid
  tiExtEl : Option Grid
  tiExtElPh : Option Grid

/-- The data loaded from the files (`thermodynamics_parser.py` 181-203). -/
noncomputable def loadSscha (u : Units) (f : Files) : List Point := f.sscha.map (sschaPoint u)

/-- The data of electrons. -/
noncomputable def loadElectron (fs : List ElectronFile) : List Point := fs.flatMap electronPoints

/-- `data_all` without the entries that are `None` (`thermodynamics_parser.py` 205). -/
noncomputable def given (u : Units) (f : Files) : List (List Point) :=
  [loadSscha u f] ++ (f.electron.map loadElectron).toList ++ (f.ti.map fun t => (tiPoints t).1).toList ++
    (f.electronPhonon.map loadElectron).toList

/-- The sum of grids that are all given, and `None` otherwise. -/
def sumOpt (gs : List (Option Grid)) : Except Err (Option Grid) :=
  match gs.mapM id with
  | none => .ok none
  | some l => (sumGrids l).map some

/-- The grids of a run of thermodynamic integration with its reference
(`pypolymlp_thermodynamics.py` 67-76). -/
noncomputable def tiGrids (u : Units) (harm : Harmonic) (refPath : ℚ → String → Option String) (sscha ti ext : Grid) :
    Except Err (Grid × Grid × Grid) := do
  let ti ← copyStatic u (setReferencePaths refPath ti) sscha
  let ext ← copyStatic u (setReferencePaths refPath ext) sscha
  pure (referenceGrid u harm ti, ti, ext)

/-- `PypolymlpThermodynamics.__init__` (`pypolymlp_thermodynamics.py` 25-112), with `n_require = 10`. -/
noncomputable def initGrids (u : Units) (harm : Harmonic) (refPath : ℚ → String → Option String) (f : Files) :
    Except Err Sums := do
  if f.electron.isNone && f.electronPhonon.isSome then throw .runtimeError
  let vt := commonGrid (given u f) 10
  let sscha := gridData vt.1 vt.2 (loadSscha u f)
  let el := f.electron.map fun d => gridData vt.1 vt.2 (loadElectron d)
  let elPh := f.electronPhonon.map fun d => gridData vt.1 vt.2 (loadElectron d)
  let t ← (match f.ti with
    | none => .ok none
    | some d => (tiGrids u harm refPath sscha (gridData vt.1 vt.2 (tiPoints d).1)
        (gridData vt.1 vt.2 (tiPoints d).2)).map some : Except Err (Option (Grid × Grid × Grid)))
  let ref := t.map fun x => x.1
  let ti := t.map fun x => x.2.1
  let ext := t.map fun x => x.2.2
  pure {
    sscha := sscha
    sschaEl := ← sumOpt [some sscha, el]
    sschaElPh := ← sumOpt [some sscha, el, elPh]
    ti := ← sumOpt [ref, ti]
    tiExt := ← sumOpt [ref, ext]
    tiEl := ← sumOpt [ref, ti, el]
    tiExtEl := ← sumOpt [ref, ext, el]
    tiElPh := ← sumOpt [ref, ti, el, elPh]
    tiExtElPh := ← sumOpt [ref, ext, el, elPh] }

/-- A fitted equation of state: energy, bulk modulus (eV per cubic angstrom) and volume at equilibrium. -/
structure Eos where
  e0 : ℝ
  b0 : ℝ
  v0 : ℝ

/-- `get_volumes_properties` (`thermodynamics_grid.py` 157-166) for one temperature. -/
def Grid.column (g : Grid) (a : Attr) (j : ℕ) : List (ℚ × ℝ) :=
  (List.range g.volumes.length).filterMap fun i =>
    match (g.cell i j).volume, (g.cell i j).val a with
    | some v, some x => some (v, x)
    | _, _ => none

/-- The fits of the free energy (`thermodynamics_grid.py` 181-190): `eos` is `None` if the fit fails. -/
def fitFreeEnergy (eos : List (ℚ × ℝ) → Option Eos) (g : Grid) : List (Option Eos) :=
  (List.range g.temps.length).map fun j => eos (g.column .freeEnergy j)

/-- The fit of the entropy at one temperature (`thermodynamics_grid.py` 195-197). -/
noncomputable def fitEntropyAt (g : Grid) (maxOrder j : ℕ) : Except Err Polyfit.Fitted :=
  let d := g.column .entropy j
  Polyfit.fit (n := d.length) (fun i => ((d.get i).1 : ℝ)) (fun i => (d.get i).2) none maxOrder
    ⟨true, true, false, false, false⟩ (some false)

/-- `fit_entropy_volume` (`thermodynamics_grid.py` 192-203). -/
noncomputable def fitEntropy (g : Grid) (maxOrder : ℕ) : Except Err (List Polyfit.Fitted) :=
  (List.range g.temps.length).mapM (fitEntropyAt g maxOrder)

/-- The largest volume (`max(self.volumes)`, `thermodynamics_utils.py` 27). -/
def maxVolume (g : Grid) : Except Err ℚ :=
  match g.volumes with
  | [] => .error .valueError
  | v :: vs => .ok (vs.foldl max v)

/-- `_check_errors` (`thermodynamics_utils.py` 37-47). -/
noncomputable def eqOk (vmax : ℚ) (e : Option Eos) : Option Eos :=
  open Classical in
  match e with
  | none => none
  | some e => if (vmax : ℝ) * (12 / 10) < e.v0 then none else if e.b0 < 1 / 1000 then none else some e

/-- `eval_eq_free_energy` and `eval_eq_entropy` at one temperature (`thermodynamics_utils.py` 49-66). -/
noncomputable def eqProps (vmax : ℚ) (e : Option Eos) (s : Polyfit.Fitted) : Option (ℝ × ℝ) :=
  (eqOk vmax e).map fun e => (e.e0, s.eval e.v0)

/-- `eval_cp_numerical` (`api_thermodynamics.py` 94-109): `nan` is `none`.  A difference with `None` raises a
TypeError, and an empty array has no last element. -/
noncomputable def cpNumerical (kj : ℝ) (temps : List ℤ) (s : List (Option ℝ)) : Except Err (List (Option ℝ)) :=
  if temps = [] then .error .indexError
  else (List.range temps.length).mapM fun i =>
    if 1 ≤ i ∧ i + 1 < temps.length then
      match s[i + 1]?, s[i - 1]? with
      | some (some b), some (some a) =>
        .ok (some ((b - a) / ((temps.getD (i + 1) 0 : ℝ) - (temps.getD (i - 1) 0 : ℝ)) * (temps.getD i 0 : ℝ) *
          (1000 * kj)))
      | _, _ => .error .typeError
    else if i + 1 = temps.length then .ok none
    else if temps.headD 0 = 0 then .ok (some 0) else .ok none

/-- What `_run_standard` computes for a grid. -/
structure Standard where
  fv : List (Option Eos)
  sv : List Polyfit.Fitted
  eqEntropies : List (Option ℝ)
  cp : List (Option ℝ)

/-- `_run_standard` (`api_thermodynamics.py` 233-239). -/
noncomputable def runStandard (u : Units) (eos : List (ℚ × ℝ) → Option Eos) (g : Grid) : Except Err Standard := do
  let vmax ← maxVolume g
  let fv := fitFreeEnergy eos g
  let sv ← fitEntropy g 6
  let s := List.zipWith (fun e p => (eqProps vmax e p).map Prod.snd) fv sv
  let cp ← cpNumerical u.kj g.temps s
  pure ⟨fv, sv, s, cp⟩

end Verif.Thermo
