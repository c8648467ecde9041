import Verif.Model.YamlData
import Mathlib.Data.Fin.VecNotation

/-!
# Files of results of SSCHA

`/repo/src/pypolymlp/calculator/sscha/sscha_io.py` 17-149 (`save_sscha_yaml`), `sscha_data.py` (`SSCHAData`), `sscha_utils.py`
(`symmetrize_properties`), `sscha_restart.py` (`Restart`) and `/repo/src/pypolymlp/core/interface_yaml.py` 33-95
(`parse_sscha_yamls`, `split_imaginary`).

Files are trees as in `YamlData`.  The projectors to symmetric forces and stresses (symfc) are parameters.  Left out:
parameters other than the potential and the temperature, logs other than free energies, the file of force constants.
-/

namespace Verif.SschaFiles
open Verif.YamlData

/-- `EVtoKJmol` (`core/units.py`). -/
def evToKJ : ℚ := 9648533212331002 / 100000000000000

/-- `SSCHAData` (`sscha_data.py` 10-52): stresses have the components xx, yy, zz, xy, yz, zx. -/
structure Data where
  temperature : ℚ
  static : ℚ
  harmonic : ℚ
  anharmonic : ℚ
  free : ℚ
  entropy : ℚ
  heat : ℚ
  staticForces : List (V3 ℚ)
  averageForces : List (V3 ℚ)
  staticStress : Fin 6 → ℚ
  averageStress : Fin 6 → ℚ
  delta : Option ℚ
  converge : Option Bool
  imaginary : Option Bool

/-- `__post_init__` (`sscha_data.py` 54-66): the free energy, if it is not given. -/
def postInit (free harmonic anharmonic : Option ℚ) : Option ℚ :=
  match free, harmonic, anharmonic with
  | some f, _, _ => some f
  | none, some h, some a => some (h + a)
  | none, _, _ => none

/-- The parameters that are saved (`SSCHAParams`). -/
structure Params where
  pot : String
  unitcell : Cell
  supercell : Cell
  matrix : M3 ℤ
  nUnitcells : ℕ

/-- A value that may be None: `print` writes `None`, which yaml reads as text. -/
def writeOpt (f : α → Yaml) : Option α → Yaml
  | none => .str "None"
  | some a => f a

/-- `_print_forces` (`sscha_io.py` 130-133): one row per atom. -/
def writeForces (plain : ℚ → Bool) (f : List (V3 ℚ)) : Yaml := .list (f.map (writeRow plain))

/-- `_print_stress` (`sscha_io.py` 136-144). -/
def writeStress (plain : ℚ → Bool) (s : Fin 6 → ℚ) : Yaml :=
  .list [writeRow plain ⟨s 0, s 3, s 5⟩, writeRow plain ⟨s 3, s 1, s 4⟩, writeRow plain ⟨s 5, s 4, s 2⟩]

/-- Every `n`-th atom (`sscha_utils.py` 17-18): index modulo `n` is zero. -/
def everyNth {α : Type} (n : ℕ) (l : List α) : List α :=
  (List.range l.length).filterMap fun (i : ℕ) => if i % n = 0 then l[i]? else none

/-- `symmetrize_properties` (`sscha_utils.py` 6-24): projected forces of the representatives of the atoms of the unit cell,
and the components 0, 4, 8, 1, 5, 6 of the projected tensor. -/
def symmetrize (projF : List (V3 ℚ) → List (V3 ℚ)) (projS : M3 ℚ → M3 ℚ) (n : ℕ) (f : List (V3 ℚ)) (s : Fin 6 → ℚ) :
    List (V3 ℚ) × (Fin 6 → ℚ) :=
  let t := projS ⟨⟨s 0, s 3, s 5⟩, ⟨s 3, s 1, s 4⟩, ⟨s 5, s 4, s 2⟩⟩
  (everyNth n (projF f), ![t.r0.x, t.r1.y, t.r2.z, t.r0.y, t.r1.z, t.r2.x])

/-- `average + static` of arrays of equal lengths. -/
def addForces (a b : List (V3 ℚ)) : List (V3 ℚ) :=
  List.zipWith (fun u v => ⟨u.x + v.x, u.y + v.y, u.z + v.z⟩) a b

/-- The entries of symmetrized properties (`sscha_io.py` 90-113). -/
def symEntries (plain : ℚ → Bool) (projF : List (V3 ℚ) → List (V3 ℚ)) (projS : M3 ℚ → M3 ℚ) (p : Params) (d : Data) :
    List (String × Yaml) :=
  let a := symmetrize projF projS p.nUnitcells d.averageForces d.averageStress
  let t := symmetrize projF projS p.nUnitcells (addForces d.averageForces d.staticForces)
    fun i => d.averageStress i + d.staticStress i
  [("symmetrized_average_forces", writeForces plain a.1), ("symmetrized_average_stress_tensor", writeStress plain a.2),
    ("symmetrized_total_forces", writeForces plain t.1), ("symmetrized_total_stress_tensor", writeStress plain t.2)]

/-- `save_sscha_yaml` (`sscha_io.py` 17-127): the document for a log of iterations, of which the last one counts. -/
def save (plain : ℚ → Bool) (projF : List (V3 ℚ) → List (V3 ℚ)) (projS : M3 ℚ → M3 ℚ) (p : Params) (log : List Data)
    (sym : Bool) : Except Err (List (String × Yaml)) := do
  let d ← orErr .indexError log.getLast?
  let u ← saveCell plain p.unitcell "unitcell"
  let s ← saveCell plain p.supercell "supercell"
  return [("parameters", .dict [("pot", .str p.pot), ("temperature", write plain d.temperature)]),
    ("properties", .dict [("free_energy", write plain d.free), ("harmonic_free_energy", write plain d.harmonic),
      ("anharmonic_free_energy", write plain d.anharmonic), ("static_potential", write plain d.static),
      ("entropy", write plain d.entropy), ("harmonic_heat_capacity", write plain d.heat)]),
    ("properties_eV", .dict [("free_energy", write plain (d.free / evToKJ)),
      ("harmonic_free_energy", write plain (d.harmonic / evToKJ)),
      ("anharmonic_free_energy", write plain (d.anharmonic / evToKJ)),
      ("static_potential", write plain (d.static / evToKJ))]),
    ("status", .dict [("delta_fc", writeOpt (write plain) d.delta), ("converge", writeOpt .bool d.converge),
      ("imaginary", writeOpt .bool d.imaginary)]),
    u, ("supercell_matrix", .list [writeInts p.matrix.r0, writeInts p.matrix.r1, writeInts p.matrix.r2]), s,
    ("average_forces", writeForces plain d.averageForces),
    ("average_stress_tensor", writeStress plain d.averageStress),
    ("total_forces", writeForces plain (addForces d.averageForces d.staticForces)),
    ("total_stress_tensor", writeStress plain fun i => d.averageStress i + d.staticStress i)] ++
    (if sym then symEntries plain projF projS p d else []) ++
    [("logs", .dict [("free_energy", .list (log.map fun e => write plain e.free))])]

/-! ## Data sets -/

/-- Truth of a value in a condition. -/
def truthy : Yaml → Bool
  | .num q => decide (q ≠ 0)
  | .sci _ => true
  | .str s => decide (s ≠ "")
  | .bool b => b
  | .list l => !l.isEmpty
  | .dict d => !d.isEmpty

/-- A square array of three rows. -/
def array33 (y : Yaml) : Except Err (M3 Yaml) := do
  let l ← asList y
  let rows ← l.mapM row3
  three rows

/-- `np.array(…) * n` needs numbers; text raises TypeError. -/
def times (n : ℕ) : Yaml → Except Err Yaml
  | .num q => .ok (.num (q * n))
  | _ => .error .typeError

/-- A row of an array times a number. -/
def times3 (n : ℕ) (v : V3 Yaml) : Except Err (V3 Yaml) := do
  let x ← times n v.x
  let y ← times n v.y
  let z ← times n v.z
  return ⟨x, y, z⟩

/-- An array times a number. -/
def times33 (n : ℕ) (a : M3 Yaml) : Except Err (M3 Yaml) := do
  let r0 ← times3 n a.r0
  let r1 ← times3 n a.r1
  let r2 ← times3 n a.r2
  return ⟨r0, r1, r2⟩

/-- What `parse_sscha_yamls` collects of a file. -/
structure Record where
  cell : Cell
  energy : ℚ
  forces : List (V3 Yaml)
  stress : M3 Yaml

/-- `_get_sscha_properties` (`interface_yaml.py` 56-76). -/
def getProperties (name : String) (doc : List (String × Yaml)) (symmetrized : Bool) : Except Err Record := do
  let p ← get doc "properties"
  let pd ← asDict p
  let f ← get pd "free_energy"
  let fvib ← asFloat f
  if symmetrized && has doc "symmetrized_average_forces" then do
    let c ← loadCell doc "unitcell"
    let a ← get doc "symmetrized_average_forces"
    let al ← asList a
    let forces ← al.mapM row3
    let s ← get doc "symmetrized_average_stress_tensor"
    let stress ← array33 s
    return ⟨c.named name, fvib / evToKJ, forces, stress⟩
  else do
    let c ← loadCell doc "supercell"
    let s ← get doc "supercell"
    let sd ← asDict s
    let n ← get sd "n_unitcells"
    let nc ← asNat n
    let a ← get doc "average_forces"
    let al ← asList a
    let forces ← al.mapM row3
    let s ← get doc "average_stress_tensor"
    let st ← array33 s
    let stress ← times33 nc st
    return ⟨c.named name, fvib * nc / evToKJ, forces, stress⟩

/-- One file of `parse_sscha_yamls` (`interface_yaml.py` 36-51): none if it is skipped. -/
def parseFile (symmetrized : Bool) (file : String × List (String × Yaml)) : Except Err (Option Record) := do
  let s ← get file.2 "status"
  let sd ← asDict s
  let c ← get sd "converge"
  if truthy c = false then return none
  else if has file.2 "supercell" = false then return none
  else if has file.2 "average_forces" = false then return none
  else if has file.2 "average_stress_tensor" = false then return none
  else do
    let r ← getProperties file.1 file.2 symmetrized
    return some r

/-- `parse_sscha_yamls` (`interface_yaml.py` 33-53). -/
def parse (symmetrized : Bool) (files : List (String × List (String × Yaml))) : Except Err (List Record) := do
  let l ← files.mapM (parseFile symmetrized)
  return l.filterMap id

/-- `split_imaginary` (`interface_yaml.py` 79-95): empty lists are None. -/
def splitImaginary (files : List (String × List (String × Yaml))) :
    Except Err (Option (List String) × Option (List String)) := do
  let l ← files.mapM fun f => do
    let s ← get f.2 "status"
    let sd ← asDict s
    let i ← get sd "imaginary"
    return (f.1, truthy i)
  let no := (l.filter fun p => !p.2).map (·.1)
  let yes := (l.filter fun p => p.2).map (·.1)
  return (if no.length = 0 then none else some no, if yes.length = 0 then none else some yes)

/-! ## Restart -/

/-- `Restart` (`sscha_restart.py` 17-79): values of the file are not converted. -/
structure Restart where
  pot : Yaml
  unit : String
  unitEnergy : ℚ
  unitEntropy : ℚ
  unitVolume : ℚ
  temperature : Yaml
  static : Yaml
  harmonic : Option Yaml
  anharmonic : Option Yaml
  free : Yaml
  entropy : Yaml
  heat : Yaml
  delta : Yaml
  converge : Yaml
  imaginary : Yaml
  unitcell : Cell
  matrix : M3 ℤ
  volume : ℚ

/-- `_set_unit_conversion` (`sscha_restart.py` 92-109): the three factors. -/
def factors (unit : String) (n : ℕ) : Except Err (ℚ × ℚ × ℚ) :=
  if unit = "kJ/mol" then .ok (1, 1, 1)
  else if unit = "eV/cell" then .ok (1 / evToKJ, 1 / (evToKJ * 1000), 1)
  else if unit = "eV/atom" then .ok (1 / (evToKJ * n), 1 / (evToKJ * 1000 * n), 1 / n)
  else .error .runtimeError

/-- A matrix of integers. -/
def intMatrix (y : Yaml) : Except Err (M3 ℤ) := do
  let l ← asList y
  let rows ← l.mapM ints3
  three rows

/-- `__init__` and `_load_sscha_yaml` (`sscha_restart.py` 20-79). -/
def open' (doc : List (String × Yaml)) (pot : Option Yaml) (unit : String) : Except Err Restart := do
  let pa ← get doc "parameters"
  let pd ← asDict pa
  let po ← pot.elim (get pd "pot") fun (p : Yaml) => .ok p
  let pr ← get doc "properties"
  let props ← asDict pr
  let st ← get doc "status"
  let status ← asDict st
  let _ ← get doc "logs"
  let h ← opt props "harmonic_free_energy" fun (y : Yaml) => .ok y
  let a ← opt props "anharmonic_free_energy" fun (y : Yaml) => .ok y
  let t ← get pd "temperature"
  let s ← get props "static_potential"
  let f ← get props "free_energy"
  let e ← get props "entropy"
  let c ← get props "harmonic_heat_capacity"
  let u ← loadCell doc "unitcell"
  let m ← get doc "supercell_matrix"
  let mat ← intMatrix m
  let fac ← factors unit u.st.elements.length
  let de ← get status "delta_fc"
  let co ← get status "converge"
  let im ← get status "imaginary"
  return ⟨po, unit, fac.1, fac.2.1, fac.2.2, t, s, h, a, f, e, c, de, co, im, u, mat, u.st.axis.det⟩

/-- The setter `unit` (`sscha_restart.py` 86-90): the unit is set before it is checked. -/
def setUnit (r : Restart) (unit : String) : Restart × Except Err Unit :=
  match factors unit r.unitcell.st.elements.length with
  | .error e => ({ r with unit := unit }, .error e)
  | .ok f => ({ r with unit := unit, unitEnergy := f.1, unitEntropy := f.2.1, unitVolume := f.2.2 }, .ok ())

/-- A value times a factor; text raises TypeError. -/
def scaled (y : Yaml) (f : ℚ) : Except Err ℚ :=
  match y with
  | .num q => .ok (q * f)
  | _ => .error .typeError

/-- `free_energy` (`sscha_restart.py` 121-124). -/
def Restart.freeEnergy (r : Restart) : Except Err ℚ := scaled r.free r.unitEnergy

/-- `static_potential` (`sscha_restart.py` 126-129). -/
def Restart.staticPotential (r : Restart) : Except Err ℚ := scaled r.static r.unitEnergy

/-- `harmonic_free_energy` (`sscha_restart.py` 131-134); None times a number raises TypeError. -/
def Restart.harmonicFreeEnergy (r : Restart) : Except Err ℚ := do
  let y ← orErr .typeError r.harmonic
  scaled y r.unitEnergy

/-- `anharmonic_free_energy` (`sscha_restart.py` 136-139). -/
def Restart.anharmonicFreeEnergy (r : Restart) : Except Err ℚ := do
  let y ← orErr .typeError r.anharmonic
  scaled y r.unitEnergy

/-- `entropy` (`sscha_restart.py` 141-144). -/
def Restart.entropyValue (r : Restart) : Except Err ℚ := scaled r.entropy r.unitEntropy

/-- `harmonic_heat_capacity` (`sscha_restart.py` 146-149). -/
def Restart.heatCapacity (r : Restart) : Except Err ℚ := scaled r.heat r.unitEntropy

/-- `volume` (`sscha_restart.py` 223-226). -/
def Restart.volumeValue (r : Restart) : ℚ := r.volume * r.unitVolume

/-- `n_unitcells` (`sscha_restart.py` 218-221): the determinant of a matrix of integers. -/
def Restart.nUnitcells (r : Restart) : ℤ := r.matrix.det

end Verif.SschaFiles
