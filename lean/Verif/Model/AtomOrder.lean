import Verif.Model.Structure
import Mathlib.Data.List.Sort

/-!
# Grouping and renumbering atoms

`/repo/src/pypolymlp/core/dataset_utils.py` 11-149 and `core/data_format.py` 66-89.
-/

namespace Verif.AtomOrder
variable {K : Type}

/-- `xs[match]` where `match = (elements == ele)` is a boolean mask of the same length. -/
def maskSelect {α : Type} (elements : List String) (ele : String) (xs : List α) : List α :=
  (elements.zip xs).filterMap fun p => if p.1 = ele then some p.2 else none

/-- `np.count_nonzero(elements == ele)`. -/
def countEle (elements : List String) (ele : String) : ℕ := elements.count ele

/-- The loop of `permute_atoms` (`dataset_utils.py` 67-80).  The arrays `positions`, `types`,
`force_permute` are pre-allocated with the input shape and zeros and are filled from `begin`;
what is not filled stays zero.  The model therefore collects the filled prefixes; `fillTo` below
pads them.  The accumulator is (positions, types, elements, n_atoms, forces). -/
structure Acc (K : Type) where
  positions : List (V3 K) := []
  types : List ℕ := []
  elements : List String := []
  nAtoms : List ℕ := []
  forces : List (V3 K) := []

/-- One iteration for `(atomtype, ele)` (`dataset_utils.py` 69-80). -/
def permuteStep (st : Structure K) (force : List (V3 K)) (acc : Acc K) (p : ℕ × String) : Acc K :=
  let n := countEle st.elements p.2
  { positions := acc.positions ++ maskSelect st.elements p.2 st.positions
    types := acc.types ++ List.replicate n p.1
    elements := acc.elements ++ List.replicate n p.2
    nAtoms := acc.nAtoms ++ [n]
    forces := acc.forces ++ maskSelect st.elements p.2 force }

/-- Zero padding up to the pre-allocated size (`np.zeros(shape)`, lines 61-65). -/
def fillTo {α : Type} (n : ℕ) (zero : α) (xs : List α) : List α :=
  xs ++ List.replicate (n - xs.length) zero

/-- `permute_atoms(st, elements_string, force)` (`dataset_utils.py` 49-91), with forces.
A repeated element in `elements_string` would overflow the pre-allocated arrays
(numpy `ValueError`, "could not broadcast").  Simplification: for an element without atoms
numpy assigns an empty slice, which is a no-op also in the model.  The returned structure is
built by the constructor, which checks the lengths and recomputes the volume from the axis. -/
def permuteAtoms [CommRing K] (st : Structure K) (elems : List String) (force : List (V3 K)) :
    Except Err (Structure K × List (V3 K)) := do
  let acc := (elems.zipIdx.map fun p => (p.2, p.1)).foldl (permuteStep st force) {}
  if acc.positions.length ≤ st.positions.length then
    let z : V3 K := ⟨0, 0, 0⟩
    let stNew ← Structure.mk' st.axis (fillTo st.positions.length z acc.positions) acc.nAtoms
      acc.elements (fillTo st.types.length 0 acc.types)
    return (stNew, fillTo force.length z acc.forces)
  else .error .valueError

/-- The unique-element branch of `replace_types` (`dataset_utils.py` 20-24): for each
`(atomtype, ele)`, atoms whose element is `ele` get type `atomtype`; `count` counts matches. -/
def replaceStep (elements : List String) (s : List ℕ × ℕ) (p : String × ℕ) : List ℕ × ℕ :=
  ((elements.zip s.1).map fun q => if q.1 = p.1 then p.2 else q.2, s.2 + elements.count p.1)

/-- `replace_types(st, elements_string)` (`dataset_utils.py` 11-46), branch for a duplicate-free
`elements_string` (line 20).  The function mutates and returns its argument; the model returns
the updated structure. -/
def replaceTypesUnique (st : Structure K) (elems : List String) : Except Err (Structure K) :=
  let r := elems.zipIdx.foldl (replaceStep st.elements) (st.types, 0)
  if r.2 ≠ st.elements.length then .error .runtimeError
  else .ok { st with types := r.1 }

/-- `sorted(set(xs))` / `np.unique(xs)` for natural numbers. -/
def uniqSorted (xs : List ℕ) : List ℕ := xs.dedup.insertionSort (· ≤ ·)

/-- `PolymlpStructure.reorder` (`data_format.py` 66-84).  `map_elements` is a dict filled in atom
order, so the last atom of a type decides; `none` models the missing key (cannot happen). -/
def mapElements (types : List ℕ) (elements : List String) (t : ℕ) : Option String :=
  ((types.zip elements).reverse.find? fun p => p.1 = t).map (·.2)

/-- Boolean-mask selection by type (`ids = types == i`, line 74). -/
def typeSelect {α : Type} (types : List ℕ) (t : ℕ) (xs : List α) : List α :=
  (types.zip xs).filterMap fun p => if p.1 = t then some p.2 else none

/-- `PolymlpStructure.reorder` (`data_format.py` 66-84). -/
def reorder (st : Structure K) : Except Err (Structure K) := do
  let keys := uniqSorted st.types
  let nAtoms := keys.map fun t => st.types.count t
  let positions := keys.flatMap fun t => typeSelect st.types t st.positions
  let types := keys.flatMap fun t => typeSelect st.types t st.types
  let elements ← types.mapM fun t => orErr .keyError (mapElements st.types st.elements t)
  return { st with positions, nAtoms, types, elements }

end Verif.AtomOrder
