import Verif.Model.Py
import Mathlib.Data.Rat.Defs
import Mathlib.Algebra.Order.Ring.Rat

/-!
# Estimation of computational costs

`/repo/src/pypolymlp/postproc/count_time.py` 15-181 with `find_mlps` of `core/io_polymlp.py` 107-117.  Reading of files,
supercells and the evaluation with its time are parameters; the time is a function of the potential, the structure,
the number of evaluations and their mode.  What is written is kept when an exception is raised.  Not modelled: printing,
and paths that are not an array (a `RuntimeError`, lines 29-31).
-/

namespace Verif.Cost

variable {S : Type}

/-- The default structure (`count_time.py` 70-104): four sites in a cube; the number of atoms and the types. -/
structure Default where
  nAtoms : List ℕ
  types : List ℕ
  elements : List String
  deriving DecidableEq

/-- The code that is not modelled. -/
structure Ext (S : Type) where
  /-- `find_mlps`: the files of a potential in a directory. -/
  find : String → Option (List String)
  /-- The elements of a potential file (`load_mlps`). -/
  elements : String → Except Err (List String)
  poscar : String → Except Err S
  build : Default → S
  supercell : S → ℕ × ℕ × ℕ → Except Err S
  nAtoms : S → ℕ
  /-- Seconds that a number of evaluations takes; `true` is `eval_multiple` with all cores. -/
  time : List String → S → ℕ → Bool → Except Err ℚ
  sorted : List String → List String

/-- The object. -/
structure Obj (S : Type) where
  pot : Option (List String)
  dirs : Option (List String)
  elements : List String
  cell : S

/-- The first directory decides: `find_mlps(path)[0]` of a directory without files is a `TypeError`
(`count_time.py` 50-53). -/
def firstOfDirs (ext : Ext S) : List String → Except Err (Option String)
  | [] => .ok none
  | d :: _ =>
    match ext.find d with
    | none => .error .typeError
    | some [] => .error .indexError
    | some (f :: _) => .ok (some f)

/-- The file that gives the elements (`count_time.py` 43-56); an empty list of files is an `IndexError`. -/
def elementsFile (ext : Ext S) (pot dirs : Option (List String)) : Except Err (Option String) :=
  match dirs, pot with
  | none, none => .ok none
  | none, some [] => .error .indexError
  | none, some (f :: _) => .ok (some f)
  | some ds, _ => firstOfDirs ext ds

/-- `_parse_elements_from_pot` (`count_time.py` 41-62). -/
def parseElements (ext : Ext S) (pot dirs : Option (List String)) : Except Err (List String) :=
  match elementsFile ext pot dirs with
  | .error e => .error e
  | .ok none => .error .runtimeError
  | .ok (some f) => ext.elements f

/-- The default structure for elements (`count_time.py` 69-104). -/
def defaultCell (els : List String) : Except Err Default :=
  match els with
  | [a] => .ok ⟨[4], [0, 0, 0, 0], [a, a, a, a]⟩
  | [a, b] => .ok ⟨[2, 2], [0, 0, 1, 1], [a, a, b, b]⟩
  | [a, b, c] => .ok ⟨[1, 1, 2], [0, 1, 2, 2], [a, b, c, c]⟩
  | [a, b, c, d] => .ok ⟨[1, 1, 1, 1], [0, 1, 2, 3], [a, b, c, d]⟩
  | _ => .error .runtimeError

/-- `_set_structure` (`count_time.py` 64-107). -/
def unitcell (ext : Ext S) (poscar : Option String) (els : List String) : Except Err S :=
  match poscar with
  | some p => ext.poscar p
  | none => (defaultCell els).map ext.build

/-- `__init__` (`count_time.py` 18-39). -/
def create (ext : Ext S) (pot dirs : Option (List String)) (poscar : Option String) (size : ℕ × ℕ × ℕ) :
    Except Err (Obj S) := do
  let els ← parseElements ext pot dirs
  let u ← unitcell ext poscar els
  let s ← ext.supercell u size
  pure ⟨pot, dirs, els, s⟩

/-- The costs of a file `polymlp_cost.yaml` (`count_time.py` 169-181); the elements are joined with `-` in the file. -/
structure File where
  system : List String
  single : ℚ
  openmp : ℚ
  deriving DecidableEq

/-- Milliseconds for an atom and an evaluation (`count_time.py` 122, 136). -/
def perAtom (seconds : ℚ) (nAtoms n : ℕ) : Except Err ℚ :=
  if nAtoms = 0 ∨ n = 0 then .error .zeroDivision else .ok (seconds * 1000 / nAtoms / n)

/-- `_run_single` (`count_time.py` 109-144): ten times as many evaluations with all cores, then those with one core. -/
def runSingle (ext : Ext S) (o : Obj S) (pot : List String) (n : ℕ) : Except Err (ℚ × ℚ) := do
  let t2 ← ext.time pot o.cell (n * 10) true
  let c2 ← perAtom t2 (ext.nAtoms o.cell) (n * 10)
  let t1 ← ext.time pot o.cell n false
  let c1 ← perAtom t1 (ext.nAtoms o.cell) n
  pure (c1, c2)

/-- The files `polymlp_cost.yaml` of the directories; `none` is the current one. -/
abbrev Files := Option String → Option File

/-- Writing of a file. -/
def put (fs : Files) (d : Option String) (f : File) : Files := fun d' => if d' = d then some f else fs d'

/-- The loop over directories (`count_time.py` 153-167). -/
def runDirs (ext : Ext S) (o : Obj S) (n : ℕ) (save : Bool) : List String → Files → Files × Except Err Unit
  | [], fs => (fs, .ok ())
  | d :: ds, fs =>
    match ext.find d with
    | none => runDirs ext o n save ds fs
    | some p =>
      match runSingle ext o p n with
      | .error e => (fs, .error e)
      | .ok c => runDirs ext o n save ds (if save then put fs (some d) ⟨o.elements, c.1, c.2⟩ else fs)

/-- `run` (`count_time.py` 146-167); no potential is a `TypeError` of `Properties` that the constructor excludes. -/
def run (ext : Ext S) (o : Obj S) (n : ℕ) (save : Bool) (fs : Files) : Files × Except Err Unit :=
  match o.dirs with
  | some ds => runDirs ext o n save (ext.sorted ds) fs
  | none =>
    match o.pot with
    | none => (fs, .error .typeError)
    | some p =>
      match runSingle ext o p n with
      | .error e => (fs, .error e)
      | .ok c => (if save then put fs none ⟨o.elements, c.1, c.2⟩ else fs, .ok ())

end Verif.Cost
