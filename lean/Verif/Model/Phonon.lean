import Verif.Model.Py
import Verif.Model.Eos
import Verif.Model.SschaApi

/-!
# Phonons and quasi-harmonic calculations

`/repo/src/pypolymlp/calculator/compute_phonon.py`, `/repo/src/pypolymlp/calculator/utils/phonon_utils.py` 41-50 and
`/repo/src/pypolymlp/api/pypolymlp_calc.py` 324-428.

phonopy is not part of the repository: its functions are parameters (`Engine`), and the state of its object that the code
reads later (force constants, densities of states, thermal properties) is part of the modelled object.  The potential is an
arbitrary function that may fail.  A file is the data written to it; the text of files is not modelled.
-/

namespace Verif.Phonon

/-- Thermal properties at a list of temperatures (`get_thermal_properties_dict` of phonopy). -/
structure Tables where
  temps : List ℝ
  free : List ℝ
  entropy : List ℝ
  cv : List ℝ

/-- What is used of phonopy, and the conversions of cells.  `displaced` are the supercells with displacements of a given
distance, `fc` the force constants from the forces (atom, component) on them, `mesh` the run on a mesh of q-points with
or without eigenvectors and symmetry. -/
structure Engine (St Cell Mat FC M P : Type) where
  toCell : St → Cell
  toSt : Cell → St
  super : Cell → Mat → Except Err Cell
  displaced : Cell → Mat → ℝ → List Cell
  fc : Cell → Mat → ℝ → List (ℕ → Fin 3 → ℝ) → Except Err FC
  mesh : Cell → Mat → FC → ℕ × ℕ × ℕ → Bool → Bool → Except Err M
  dos : M → List (ℝ × ℝ)
  thermal : M → ℝ × ℝ × ℝ → Tables
  pdos : M → Except Err P

/-- A potential: the energy and the forces (component, atom) of a structure. -/
abbrev Pot (St : Type) := St → Except Err (ℝ × (Fin 3 → ℕ → ℝ))

/-- The attributes of `PolymlpPhonon` and of its phonopy object (`compute_phonon.py` 40-53, 88).  `meshDict` does not
exist before the first call of `compute_properties`. -/
structure Obj (St Cell Mat FC M P : Type) where
  unit : St
  mat : Mat
  super : Cell
  fc : Option FC
  mesh : Option M
  dos : Option (List (ℝ × ℝ))
  thermal : Option Tables
  pdos : Option P
  meshDict : Option M
  withPdos : Bool

variable {St Cell Mat FC M P : Type}

/-- `PolymlpPhonon.__init__` (`compute_phonon.py` 25-53). -/
def init (eng : Engine St Cell Mat FC M P) (unit : St) (mat : Mat) : Except Err (Obj St Cell Mat FC M P) :=
  (eng.super (eng.toCell unit) mat).map fun s => ⟨unit, mat, s, none, none, none, none, none, none, false⟩

/-- The forces on the displaced supercells, transposed (`compute_phonon.py` 57-63). -/
def forcesOf (eng : Engine St Cell Mat FC M P) (pot : Pot St) (unit : St) (mat : Mat) (d : ℝ) :
    Except Err (List (ℕ → Fin 3 → ℝ)) :=
  (eng.displaced (eng.toCell unit) mat d).mapM fun c => (pot (eng.toSt c)).map fun v => fun a i => v.2 i a

/-- `produce_force_constants` (`compute_phonon.py` 55-66). -/
def produce (eng : Engine St Cell Mat FC M P) (pot : Pot St) (o : Obj St Cell Mat FC M P) (d : ℝ) :
    Obj St Cell Mat FC M P × Except Err Unit :=
  match (forcesOf eng pot o.unit o.mat d).bind (eng.fc (eng.toCell o.unit) o.mat d) with
  | .error e => (o, .error e)
  | .ok fc => ({ o with fc := some fc }, .ok ())

/-- `run_mesh` of phonopy; it needs force constants. -/
def runMesh (eng : Engine St Cell Mat FC M P) (o : Obj St Cell Mat FC M P) (ms : ℕ × ℕ × ℕ) (eig sym : Bool) :
    Except Err M :=
  match o.fc with
  | none => .error .runtimeError
  | some fc => eng.mesh (eng.toCell o.unit) o.mat fc ms eig sym

/-- The arguments of `compute_properties` (`compute_phonon.py` 68-77). -/
structure Args where
  mesh : ℕ × ℕ × ℕ
  temps : ℝ × ℝ × ℝ
  eig : Bool
  sym : Bool
  pdos : Bool

/-- The projected density of states (`compute_phonon.py` 89-92); `o` has the results of the lines before. -/
def computePdos (eng : Engine St Cell Mat FC M P) (o : Obj St Cell Mat FC M P) (a : Args) :
    Obj St Cell Mat FC M P × Except Err Unit :=
  let o := { o with withPdos := true }
  match runMesh eng o a.mesh true false with
  | .error e => (o, .error e)
  | .ok m =>
    match eng.pdos m with
    | .error e => ({ o with mesh := some m }, .error e)
    | .ok p => ({ o with mesh := some m, pdos := some p }, .ok ())

/-- `compute_properties` (`compute_phonon.py` 68-93). -/
def compute (eng : Engine St Cell Mat FC M P) (o : Obj St Cell Mat FC M P) (a : Args) :
    Obj St Cell Mat FC M P × Except Err Unit :=
  match runMesh eng o a.mesh a.eig a.sym with
  | .error e => (o, .error e)
  | .ok m =>
    let o := { o with
      mesh := some m
      dos := some (eng.dos m)
      thermal := some (eng.thermal m a.temps)
      meshDict := some m }
    if a.pdos then computePdos eng o a else (o, .ok ())

/-- `run_phonon` (`pypolymlp_calc.py` 324-363). -/
def run (eng : Engine St Cell Mat FC M P) (pot : Pot St) (o : Obj St Cell Mat FC M P) (d : ℝ) (a : Args) :
    Obj St Cell Mat FC M P × Except Err Unit :=
  match produce eng pot o d with
  | (o', .error e) => (o', .error e)
  | (o', .ok _) => compute eng o' a

/-- The files of `write_properties`: `phonon_mesh_qpoints.txt`, `phonon_total_dos.dat`, `phonon_thermal_properties.yaml`,
`phonon_proj_dos.dat`, `polymlp_phonon.yaml` and `fc2.hdf5`. -/
structure Files (St Mat FC M P : Type) where
  mesh : M
  dos : List (ℝ × ℝ)
  thermal : Tables
  pdos : Option P
  cells : St × St × Mat
  fc2 : Option FC

/-- The file of the projected density of states, if there is one (`compute_phonon.py` 107-108). -/
def pdosFile (o : Obj St Cell Mat FC M P) : Except Err (Option P) :=
  if o.withPdos then
    match o.pdos with
    | none => .error .runtimeError
    | some p => .ok (some p)
  else .ok none

/-- An attribute of the phonopy object that is not there. -/
def need {α : Type} (e : Err) : Option α → Except Err α
  | none => .error e
  | some a => .ok a

/-- `write_properties` (`compute_phonon.py` 95-119); files written before an exception are not modelled. -/
def write (eng : Engine St Cell Mat FC M P) (o : Obj St Cell Mat FC M P) (writeFc2 : Bool) :
    Except Err (Files St Mat FC M P) := do
  let m ← need .attributeError o.meshDict
  let d ← need .runtimeError o.dos
  let t ← need .runtimeError o.thermal
  let p ← pdosFile o
  let f ← need .runtimeError o.fc
  pure ⟨m, d, t, p, (o.unit, eng.toSt o.super, o.mat), if writeFc2 then some f else none⟩

/-- Several calls of `run_phonon` one after another, whether they fail or not. -/
def runs (eng : Engine St Cell Mat FC M P) (pot : Pot St) (o : Obj St Cell Mat FC M P) (l : List (ℝ × Args)) :
    Obj St Cell Mat FC M P :=
  l.foldl (fun o x => (run eng pot o x.1 x.2).1) o

open Classical in
/-- `is_imaginary` (`phonon_utils.py` 41-50) with its default tolerance. -/
noncomputable def isImaginary (dos : List (ℝ × ℝ)) : Prop :=
  ((dos.filter fun x => decide (x.1 < -(1 / 100))).map Prod.snd).sum > 1 / 10 ^ 6

/-- The arguments of the quasi-harmonic calculation (`compute_phonon.py` 166-176). -/
structure QArgs where
  distance : ℝ
  mesh : ℕ × ℕ × ℕ
  temps : ℝ × ℝ × ℝ
  lo : ℝ
  hi : ℝ
  step : ℝ

/-- What `PhonopyQHA` is given (`compute_phonon.py` 203-210): tables have a row for each temperature. -/
structure QData where
  volumes : List ℝ
  energies : List ℝ
  temps : List ℝ
  free : List (List ℝ)
  entropy : List (List ℝ)
  cv : List (List ℝ)

/-- The thermal properties of one cell (`compute_phonon.py` 186-196). -/
noncomputable def point (eng : Engine Eos.Cell Cell Mat FC M P) (pot : Pot Eos.Cell) (mat : Mat) (a : QArgs)
    (c : Eos.Cell) : Except Err Tables := do
  let o ← init eng c mat
  let o' ← (produce eng pot o a.distance).2.map fun _ => (produce eng pot o a.distance).1
  let m ← runMesh eng o' a.mesh false true
  pure (eng.thermal m a.temps)

/-- `np.array(columns).T` for `n` rows. -/
def rows (n : ℕ) (cols : List (List ℝ)) : List (List ℝ) := (List.range n).map fun i => cols.map fun c => c.getD i 0

/-- The temperatures of the last cell; the name is not bound if there is no cell (`compute_phonon.py` 193, 206). -/
def lastTemps (ts : List Tables) : Except Err (List ℝ) :=
  match ts.getLast? with
  | none => .error .nameError
  | some t => .ok t.temps

/-- `PolymlpPhononQHA.run` (`compute_phonon.py` 166-211) up to the construction of `PhonopyQHA`. -/
noncomputable def qha (eng : Engine Eos.Cell Cell Mat FC M P) (pot : Pot Eos.Cell) (unit : Eos.Cell) (mat : Mat)
    (a : QArgs) : Except Err QData := do
  let eps ← SschaApi.arange a.lo (a.hi + 1 / 1000) a.step
  let cells := eps.map (Eos.volumeChange unit)
  let es ← cells.mapM pot
  let ts ← cells.mapM (point eng pot mat a)
  let temps ← lastTemps ts
  pure ⟨cells.map fun c => c.st.volume, es.map Prod.fst, temps, rows temps.length (ts.map Tables.free),
    rows temps.length (ts.map Tables.entropy), rows temps.length (ts.map Tables.cv)⟩

/-- The force constants that `calculate_harmonic_properties_from_fc2` uses (`compute_phonon.py` 247-251); `read` is the
content of a file. -/
def fc2Of (read : List Char → Except Err FC) (path : Option (List Char)) (fc2 : Option FC) : Except Err FC :=
  match path with
  | some p => read p
  | none =>
    match fc2 with
    | none => .error .runtimeError
    | some f => .ok f

/-- `calculate_harmonic_properties_from_fc2` (`compute_phonon.py` 234-259). -/
def harmonicFromFc2 (eng : Engine St Cell Mat FC M P) (read : List Char → Except Err FC) (unit : St) (mat : Mat)
    (path : Option (List Char)) (fc2 : Option FC) (ms : ℕ × ℕ × ℕ) (temps : ℝ × ℝ × ℝ) : Except Err Tables := do
  let f ← fc2Of read path fc2
  let o ← init eng unit mat
  let m ← runMesh eng { o with fc := some f } ms false true
  pure (eng.thermal m temps)

end Verif.Phonon
