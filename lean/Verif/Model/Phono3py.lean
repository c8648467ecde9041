import Verif.Model.Dataset
import Verif.Model.StrUtils
import Verif.Model.DataLines
import Mathlib.Algebra.Field.Defs

/-!
# Data sets of displacements

`/repo/src/pypolymlp/core/interface_phono3py.py` 15-121, `core/displacements.py` 10-67,
`Pypolymlp.set_datasets_displacements` (`mlp_dev/pypolymlp.py` 500-556) and `Dataset(strings=...)` for the type phono3py
(`core/dataset.py` 58-110).  Reading `phono3py.yaml` is phono3py's: a file is what the object `Phono3py` has.  Arrays are
given by samples, and for each sample by the columns of the `(3, n_atom)` array.
-/

namespace Verif.Phono3py
open Verif.Dataset Verif.StrUtils

variable {K : Type}

/-- The attributes of `Phono3py` that are used (`interface_phono3py.py` 86, 102-121). -/
structure File (K : Type) where
  supercell : PhCell K
  displacements : Option (List (List (V3 K)))
  forces : Option (List (List (V3 K)))
  energies : Option (List K)
  /-- `phonon_dataset["displacements"]` and `phonon_dataset["forces"]`. -/
  phonon : Option (List (List (V3 K)) × List (List (V3 K)))

/-- `a @ v`. -/
def act [CommRing K] (a : M3 K) (v : V3 K) : V3 K :=
  ⟨a.r0.x * v.x + a.r0.y * v.y + a.r0.z * v.z, a.r1.x * v.x + a.r1.y * v.y + a.r1.z * v.z,
    a.r2.x * v.x + a.r2.y * v.y + a.r2.z * v.z⟩

/-- Sum of two columns. -/
def plus [CommRing K] (u v : V3 K) : V3 K := ⟨u.x + v.x, u.y + v.y, u.z + v.z⟩

/-- `np.linalg.inv` by cofactors; a singular matrix is a `LinAlgError`, a subclass of `ValueError`. -/
def inverse [Field K] [DecidableEq K] (a : M3 K) : Except Err (M3 K) :=
  if a.det = 0 then .error .valueError
  else .ok
    ⟨⟨(a.r1.y * a.r2.z - a.r1.z * a.r2.y) / a.det, (a.r0.z * a.r2.y - a.r0.y * a.r2.z) / a.det,
        (a.r0.y * a.r1.z - a.r0.z * a.r1.y) / a.det⟩,
      ⟨(a.r1.z * a.r2.x - a.r1.x * a.r2.z) / a.det, (a.r0.x * a.r2.z - a.r0.z * a.r2.x) / a.det,
        (a.r0.z * a.r1.x - a.r0.x * a.r1.z) / a.det⟩,
      ⟨(a.r1.x * a.r2.y - a.r1.y * a.r2.x) / a.det, (a.r0.y * a.r2.x - a.r0.x * a.r2.y) / a.det,
        (a.r0.x * a.r1.y - a.r0.y * a.r1.x) / a.det⟩⟩

/-- One structure (`displacements.py` 23, 39-43).  Simplification: a displacement with another number of atoms is a
`ValueError`, also when numpy would broadcast a single atom. -/
def displace [CommRing K] (ai : M3 K) (st : Structure K) (p : List (V3 K) × ℕ) : Except Err (Structure K) :=
  if p.1.length = st.positions.length then
    .ok { st with positions := List.zipWith (fun x u => plus x (act ai u)) st.positions p.1, name := some ("disp-" ++ toString (p.2 + 1)) }
  else .error .valueError

/-- `get_structures_from_displacements` (`displacements.py` 47-67) for an array with three axes. -/
def convert [Field K] [DecidableEq K] (disps : List (List (V3 K))) (st : Structure K) : Except Err (List (Structure K)) := do
  let ai ← inverse st.axis
  disps.zipIdx.mapM (displace ai st)

/-- `_set_properties` (`interface_phono3py.py` 102-121): arrays that are missing have no `transpose`; the energies are
those of the other data also for the phonon data. -/
def properties (f : File K) (usePhonon : Bool) : Except Err (List (List (V3 K)) × List (List (V3 K)) × Option (List K)) :=
  match usePhonon, f.phonon, f.displacements, f.forces with
  | true, none, _, _ => .error .typeError
  | true, some (u, fr), _, _ => .ok (u, fr, f.energies)
  | false, _, some u, some fr => .ok (u, fr, f.energies)
  | false, _, _, _ => .error .attributeError

/-- The check of the elements (`interface_phono3py.py` 36-37): `np.isin(None, ...)` is false. -/
def checkElements (elements : Option (List String)) (symbols : List String) : Except Err (List String) :=
  match elements with
  | none => .error .valueError
  | some els => if ∀ e ∈ els, e ∈ symbols then .ok els else .error .valueError

/-- `parse_phono3py_yaml` (`interface_phono3py.py` 15-48, 78-90). -/
def parse [Field K] [DecidableEq K] (f : File K) (elements : Option (List String)) (usePhonon : Bool) : Except Err (DFT K) := do
  let p ← properties f usePhonon
  let st ← fromPhonopy f.supercell
  let sts ← convert p.1 st
  let en ← orErr .runtimeError p.2.2
  let els ← checkElements elements f.supercell.symbols
  setProperties sts en (some p.2.1) none els

/-- One half of `set_datasets_displacements` (`pypolymlp.py` 524-555, `core/dataset.py` 677-690): the shapes are
asserted, and the data have no stress. -/
def displacementSet [Field K] [DecidableEq K] (disps forces : List (List (V3 K))) (energies : List K) (st : Structure K)
    (els : List String) : Except Err (DFT K) := do
  if disps.length ≠ energies.length ∨ disps.map List.length ≠ forces.map List.length then throw .assertionError
  let sts ← convert disps st
  setProperties sts energies (some forces) none els

/-- `Dataset(strings=..., dataset_type="phono3py")` (`core/dataset.py` 67-74, 91-110): the first string is the file, and
with a file the other strings are not read. -/
def lineOf [One K] (strings : List Infile.PStr) : Except Err (Infile.DataLine K) := do
  let _ ← orErr .indexError strings.head?
  return ⟨"Data_from_files".toList, true, true, 1⟩

end Verif.Phono3py
