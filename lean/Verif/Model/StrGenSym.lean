import Verif.Model.StrGen
import Verif.Model.OptGeom

/-!
# Random structures that keep the symmetry

`/repo/src/pypolymlp/core/strgen_sym.py` and `/repo/src/pypolymlp/api/pypolymlp_sscha_str.py`.  The
standardization of cells (see `Model/SymCell`), the number of the space group and the basis of the symmetric
displacements are parameters.  Real arithmetic; `rand k r s` is the entry of row `r` and column `s` of the array that
the `k`-th call of `np.random.rand` returns.  An exception discards the state; the structures added before it are not
modelled.
-/

namespace Verif.StrGenSym
open Verif.StrGen (Str Vec Mat inv volumeChange)
open Verif.OptGeom (Axis basisCell colEntry initialCoeffs)

/-- A basis of displacements: the number of columns and the entries (row, column). -/
abbrev Basis := ℕ × (ℕ → ℕ → ℝ)

/-- What spglib and symfc do: `standardize_cell`, `get_symmetry_dataset(cell).number` (`None` for no dataset) and
`construct_basis_cartesian` (`None` without degrees of freedom). -/
structure Ext where
  standardize : Str → Except Err Str
  spaceGroup : Str → Option ℕ
  basisCartesian : Str → Option Basis

/-- The members of `StructureGeneratorSym`.  `none` is a member that is not set; `basisCartesian = some none` is
the value `None`. -/
structure Gen where
  cell : Str
  fixAxis : Bool
  fixPositions : Bool
  basisAxis : Option (List (List ℝ))
  basisCartesian : Option (Option Basis)
  structures : List Str

/-- The cell and the basis of the axis (`strgen_sym.py` 33-38, `spglib_utils.py` 147-211). -/
noncomputable def basisOfAxis (e : Ext) (cell : Str) (fixAxis : Bool) : Except Err (Str × Option (List (List ℝ))) :=
  if fixAxis then .ok (cell, none)
  else do
    let c ← e.standardize cell
    let n ← orErr .attributeError (e.spaceGroup c)
    return (c, some (basisCell n))

/-- `StructureGeneratorSym.__init__` (`strgen_sym.py` 17-46). -/
noncomputable def init (e : Ext) (cell : Str) (fixAxis fixPositions : Bool) : Except Err Gen :=
  if fixAxis && fixPositions then .error .runtimeError
  else do
    let b ← basisOfAxis e cell fixAxis
    if fixPositions then return ⟨b.1, fixAxis, fixPositions, b.2, none, []⟩
    else if fixAxis && (e.basisCartesian b.1).isNone then .error .runtimeError
    else return ⟨b.1, fixAxis, fixPositions, b.2, some (e.basisCartesian b.1), []⟩

/-- `(rand - 0.5) * 2 * size` (`strgen_sym.py` 57-58, 63-64). -/
noncomputable def coeff (r size : ℝ) : ℝ := (r - 1 / 2) * 2 * size

/-- `_recover_axis` for one column of coefficients (`strgen_sym.py` 48-49). -/
def recoverAxis (cols : List (List ℝ)) (x : ℕ → ℝ) : Axis := Matrix.of fun r s =>
  ((List.range cols.length).map fun k => colEntry cols (3 * r + s) k * x k).sum

/-- `_recover_displacements` for one column of coefficients (`strgen_sym.py` 51-53): one vector per atom. -/
def recoverDisps (b : Basis) (x : ℕ → ℝ) : ℕ → Vec := fun i a =>
  ((List.range b.1).map fun k => b.2 (3 * i + a) k * x k).sum

/-- The axes of the samples and the number of calls of the random numbers (`strgen_sym.py` 55-59, 74-80). -/
noncomputable def axes (rand : ℕ → ℕ → ℕ → ℝ) (calls : ℕ) (g : Gen) (maxDeform : ℝ) : (ℕ → Axis) × ℕ :=
  match g.basisAxis with
  | some cols => (fun s => recoverAxis cols fun k => coeff (rand calls k s) maxDeform + initialCoeffs cols g.cell.axis k,
      calls + 1)
  | none => (fun _ => g.cell.axis, calls)

/-- The displacements of the samples and the number of calls (`strgen_sym.py` 61-65, 82-89). -/
noncomputable def displacements (rand : ℕ → ℕ → ℕ → ℝ) (calls : ℕ) (g : Gen) (maxDistance : ℝ) : (ℕ → ℕ → Vec) × ℕ :=
  match g.basisCartesian with
  | some (some b) => (fun s => recoverDisps b fun k => coeff (rand calls k s) maxDistance, calls + 1)
  | _ => (fun _ _ => 0, calls)

/-- One sample (`strgen_sym.py` 92-101).  `tol` is `1e-13`. -/
noncomputable def sample (tol : ℝ) (cell : Str) (axis : Axis) (disps : ℕ → Vec) : Except Err Str := do
  let ai ← inv axis
  return { axis := axis
           positions := cell.positions.mapIdx fun i p a => Supercell.refine1 tol (p a + ai.mulVec (disps i) a)
           nAtoms := cell.nAtoms, elements := cell.elements, types := cell.types, volume := axis.det
           name := none, base := none, mode := none }

/-- `run(n_samples, max_deform, max_distance)` (`strgen_sym.py` 67-102). -/
noncomputable def run (tol : ℝ) (rand : ℕ → ℕ → ℕ → ℝ) (calls : ℕ) (g : Gen) (n : ℕ) (maxDeform maxDistance : ℝ) :
    Except Err (Gen × ℕ) := do
  let a := axes rand calls g maxDeform
  let d := displacements rand a.2 g maxDistance
  let sts ← (List.range n).mapM fun (s : ℕ) => sample tol g.cell (a.1 s) (d.1 s)
  return ({ g with structures := g.structures ++ sts }, d.2)

/-- `basis_sets` (`strgen_sym.py` 116-135): reading a member that is not set is an `AttributeError`. -/
noncomputable def basisSets (g : Gen) : Except Err (List Mat × Option (List (ℕ → Vec))) := do
  let b ← orErr .attributeError g.basisCartesian
  let a ← orErr .attributeError g.basisAxis
  return ((List.range a.length).map fun (k : ℕ) => Matrix.of fun r s : Fin 3 => colEntry a (3 * r + s) k,
    b.map fun b => (List.range b.1).map fun (k : ℕ) => fun i a => b.2 (3 * i + a) k)

/-! ## The API -/

/-- The members of `PypolymlpSSCHAStructureGenerator`; `calls` counts the calls of the random numbers. -/
structure Api where
  structure_ : Option Str
  strgen : Option Gen
  samples : Option (List Str)
  calls : ℕ

/-- `__init__` (`pypolymlp_sscha_str.py` 21-39): without a structure the member is not set. -/
def Api.new (st : Option Str) : Api := ⟨st, none, none, 0⟩

/-- `load_poscar` (`pypolymlp_sscha_str.py` 41-49); `r` is what reading the file gives. -/
def loadPoscar (s : Api) (r : Except Err Str) : Except Err Api := do
  let st ← r
  return { s with structure_ := some st }

/-- `multiple_random_deformation` (`structure_utils.py` 221-230); the entries of the random array of shape
`(n, 3, 3)` are `rand call (3 i + r) (3 s + t)` for the sample `s`, row `r` and column `t`, with `i = 0`. -/
noncomputable def randomDeformation (rand : ℕ → ℕ → ℕ → ℝ) (calls : ℕ) (sts : List Str) (maxDeform : ℝ) : List Str :=
  sts.mapIdx fun s st => { st with axis := st.axis + Matrix.of fun r t : Fin 3 => coeff (rand calls r (3 * s + t)) maxDeform }

/-- `sample_volumes` (`pypolymlp_sscha_str.py` 51-84). -/
noncomputable def sampleVolumes (rand : ℕ → ℕ → ℕ → ℝ) (s : Api) (n : ℕ) (lo hi : ℝ) (fixAxis : Bool) (maxDeform : ℝ) :
    Except Err Api := do
  let st ← orErr .attributeError s.structure_
  let sts := (Verif.StrGen.linspace lo hi n).map (volumeChange st)
  if fixAxis then return { s with samples := some sts }
  else return { s with samples := some (randomDeformation rand s.calls sts maxDeform), calls := s.calls + 1 }

/-- `sample_sym` (`pypolymlp_sscha_str.py` 86-114). -/
noncomputable def sampleSym (tol : ℝ) (e : Ext) (rand : ℕ → ℕ → ℕ → ℝ) (s : Api) (n : ℕ) (fixAxis fixPositions : Bool)
    (maxDeform maxDistance : ℝ) : Except Err Api := do
  let st ← orErr .attributeError s.structure_
  let g ← init e st fixAxis fixPositions
  let r ← run tol rand s.calls g n maxDeform maxDistance
  return { s with strgen := some r.1, samples := some r.1.structures, calls := r.2 }

/-- `path + "/POSCAR-" + str(i + 1).zfill(4)` (`pypolymlp_sscha_str.py` 120). -/
def fileName (path : List Char) (i : ℕ) : List Char :=
  let digits := Nat.toDigits 10 (i + 1)
  path ++ "/POSCAR-".toList ++ (List.replicate (4 - digits.length) '0' ++ digits)

/-- `save_structures` (`pypolymlp_sscha_str.py` 116-121): the files that are written, in order, on the files that are
there.  `text` is what `write_poscar_file` writes; iterating over `None` is a `TypeError`. -/
def saveStructures (text : Str → String) (s : Api) (path : List Char) (files : List Char → Option String) :
    Except Err (List Char → Option String) := do
  let sts ← orErr .typeError s.samples
  return (sts.zipIdx.foldl fun f p => Function.update f (fileName path p.2) (some (text p.1))) files

/-- `basis_sets` (`pypolymlp_sscha_str.py` 128-131). -/
noncomputable def apiBasisSets (s : Api) : Except Err (List Mat × Option (List (ℕ → Vec))) := do
  let g ← orErr .attributeError s.strgen
  basisSets g

end Verif.StrGenSym
