import Verif.Model.Structure
import Verif.Model.AtomOrder
import Mathlib.Data.Matrix.Mul
import Mathlib.Algebra.Order.Field.Basic

/-!
# Compositions and formation energies

`/repo/src/pypolymlp/calculator/utils/composition_utils.py` 6-108 and
`/repo/src/pypolymlp/calculator/compute_formation_energies.py` 42-258.  Exact arithmetic; `np.allclose`
and `np.isclose` are equality.
-/

namespace Verif.Formation
variable {K : Type} [Field K] {t e : ℕ}

/-- `Composition` (`composition_utils.py` 9-30).  `inv` is `np.linalg.pinv(axis)`, `proj` is
`axis @ inv`; `energies` is `None` until they are set. -/
structure Composition (t e : ℕ) (K : Type) where
  axis : Matrix (Fin t) (Fin e) K
  inv : Matrix (Fin e) (Fin t) K
  energies : Option (Fin e → K)

/-- `Composition.__init__(chemical_comps_end_members)` (`composition_utils.py` 9-30); `pinv` stands
for `np.linalg.pinv`. -/
def Composition.new (pinv : Matrix (Fin t) (Fin e) K → Matrix (Fin e) (Fin t) K)
    (comps : Fin e → Fin t → K) : Composition t e K :=
  let axis := Matrix.of fun i j => comps j i
  ⟨axis, pinv axis, none⟩

/-- The setter of `energies_end_members` (`composition_utils.py` 90-98). -/
def Composition.setEnergies (c : Composition t e K) (es : List K) : Except Err (Composition t e K) :=
  if h : e ≠ es.length then .error .runtimeError
  else .ok { c with energies := some fun i => es[i] }

variable [DecidableEq K]

/-- `Composition.get_composition(n_atoms)` (`composition_utils.py` 32-44). -/
def Composition.getComposition (c : Composition t e K) (n : Fin t → K) :
    Except Err ((Fin e → K) × (Fin e → K)) :=
  if (c.axis * c.inv).mulVec n ≠ n then .error .runtimeError
  else
    let partition := c.inv.mulVec n
    .ok (fun i => partition i / ∑ j, partition j, partition)

/-- `Composition.compute_formation_energy(energy, n_atoms)` (`composition_utils.py` 61-71).
`None @ partition` raises `TypeError`, after `get_composition`. -/
def Composition.formationEnergy (c : Composition t e K) (energy : K) (n : Fin t → K) : Except Err K := do
  let r ← c.getComposition n
  let es ← orErr .typeError c.energies
  return (energy - ∑ i, es i * r.2 i) / ∑ i, r.2 i

/-- `Composition.get_compositions(n_atoms_array)` (`composition_utils.py` 46-59). -/
def Composition.getCompositions (c : Composition t e K) (ns : List (Fin t → K)) :
    Except Err (List ((Fin e → K) × (Fin e → K))) :=
  if ns.any fun n => decide ((c.axis * c.inv).mulVec n ≠ n) then .error .runtimeError
  else .ok (ns.map fun n =>
    let partition := c.inv.mulVec n
    (fun i => partition i / ∑ j, partition j, partition))

/-- `Composition.compute_formation_energies(energies, n_atoms_array)` (`composition_utils.py` 73-87)
with `compositions` (lines 100-103).  Broadcasting arrays of different lengths raises `ValueError`
(the caller checks the lengths; length one against `n` would broadcast and is not modelled). -/
def Composition.formationEnergies (c : Composition t e K) (energies : List K) (ns : List (Fin t → K)) :
    Except Err (List ((Fin e → K) × K)) := do
  let rs ← c.getCompositions ns
  let es ← orErr .typeError c.energies
  let _ ← orErr .valueError (if energies.length = ns.length then some () else none)
  return List.zipWith (fun energy r => (r.1, (energy - ∑ i, es i * r.2 i) / ∑ i, r.2 i)) energies rs

/-- One row of `_get_n_atoms(structures, elements)` (`compute_formation_energies.py` 177-191): the
number of atoms of each element, zero if absent. -/
def nAtomsOf (elements : List String) (stElements : List String) : Fin elements.length → K :=
  fun i => (stElements.count elements[i] : K)

/-- `define_end_members(structures=None, energies)` (`compute_formation_energies.py` 42-65, 204-208):
energies per atom of the elements. -/
def defineByEnergies (pinv : (e : ℕ) → Matrix (Fin e) (Fin e) K → Matrix (Fin e) (Fin e) K) (energies : List K) :
    Except Err (Composition energies.length energies.length K) :=
  (Composition.new (pinv energies.length) fun i j => if i = j then 1 else 0).setEnergies energies

/-- `define_end_members(structures, energies)` (`compute_formation_energies.py` 209-231) with given
energies; `ends` are the element lists of the end structures. -/
def defineByStructures (elements : List String)
    (pinv : Matrix (Fin elements.length) (Fin elements.length) K → Matrix (Fin elements.length) (Fin elements.length) K)
    (ends : List (List String)) (energies : List K) :
    Except Err (Composition elements.length elements.length K) :=
  if h : ends.length ≠ elements.length then .error .runtimeError
  else if energies.length ≠ elements.length then .error .runtimeError
  else (Composition.new pinv fun i =>
    nAtomsOf elements (ends[i]'(by have := i.2; omega))).setEnergies energies

/-- `PolymlpFormationEnergies.compute(structures, energies)` (`compute_formation_energies.py` 67-102)
with given energies: rows of compositions and formation energies. -/
def compute (elements : List String) (c : Option (Composition elements.length e K))
    (structures : List (List String)) (energies : List K) : Except Err (List ((Fin e → K) × K)) := do
  let c ← orErr .runtimeError c
  let _ ← orErr .runtimeError (if energies.length = structures.length then some () else none)
  c.formationEnergies energies (structures.map (nAtomsOf elements))

/-! ## End members from a list of structures -/

/-- A structure as seen by `find_endmembers`: the numbers of atoms and the elements. -/
structure Cand where
  nAtoms : List ℕ
  elements : List String
  deriving DecidableEq, Repr

/-- The inner loop of `find_endmembers` (`compute_formation_energies.py` 244-253) for one element:
`min_e`, `min_st`.  `st.elements[0]` of an empty list raises `IndexError`. -/
def endStep [LinearOrder K] (ele : String) (s : K × Option Cand) (p : Cand × K) : Except Err (K × Option Cand) :=
  if p.1.nAtoms.length > 1 then .ok s
  else
    match p.1.elements with
    | [] => .error .indexError
    | a :: _ =>
      if a ≠ ele then .ok s
      else
        let epa := p.2 / (p.1.elements.length : K)
        if epa < s.1 then .ok (epa, some p.1) else .ok s

/-- `find_endmembers(structures, energies, element_strings)` (`compute_formation_energies.py`
235-258); `big` is `1e10`. -/
def findEndmembers [LinearOrder K] (big : K) (cands : List (Cand × K)) (elements : List String) :
    Except Err (List (Cand × K)) :=
  elements.mapM fun ele => do
    let s ← cands.foldlM (endStep ele) (big, none)
    let st ← orErr .runtimeError s.2
    return (st, s.1)

/-! ## Names on the convex hull -/

/-- A structure name: the index of a structure or `End-i`. -/
inductive Name where
  | index (i : ℕ)
  | ends (i : ℕ)
  deriving DecidableEq, Repr

/-- `_data` and `_structure_names` of `PolymlpFormationEnergies`; a row is the composition followed by
the formation energy. -/
structure Hull (K : Type) where
  data : List (List K)
  names : Option (List Name)
  deriving DecidableEq, Repr

/-- The end of `compute` (`compute_formation_energies.py` 99-102): names are set only if the argument
`structure_names` is `None`; a given list is ignored and the old value stays. -/
def setData (h : Hull K) (rows : List (List K)) (namesGiven : Bool) : Hull K :=
  ⟨rows, if namesGiven then h.names else some ((List.range rows.length).map .index)⟩

/-- The row of an end member: `target[i] = 1` (`compute_formation_energies.py` 114-115). -/
def target (nEle i : ℕ) : List K := (List.range (nEle + 1)).map fun j => if j = i then 1 else 0

/-- `_append_end_members` (`compute_formation_energies.py` 110-122). -/
def appendEnds (nEle : ℕ) (h : Hull K) : Hull K :=
  (List.range nEle).foldl (fun (s : Hull K) i =>
    if h.data.any fun row => decide (row = target nEle i) then s
    else ⟨s.data ++ [target nEle i], s.names.map (· ++ [.ends (i + 1)])⟩) h

/-- Lines 127-130 of `_slice`. -/
def sliceNames (names : Option (List Name)) (ids : List ℕ) : Except Err (Option (List Name)) :=
  match names with
  | none => .ok none
  | some ns => (gather ns ids).map some

/-- `_slice(data, structure_names, indices)` (`compute_formation_energies.py` 124-131). -/
def sliceHull (h : Hull K) (ids : List ℕ) : Except Err (Hull K) := do
  let data ← gather h.data ids
  let names ← sliceNames h.names ids
  return ⟨data, names⟩

/-- Lines 139-142 of `convex_hull`. -/
def sliceConvex (hull : List (List K) → List ℕ) (nEle : ℕ) (h : Hull K) : Except Err (Hull K) :=
  if h.data.length > nEle then sliceHull h (hull h.data) else .ok h

/-- `convex_hull(tol)` (`compute_formation_energies.py` 133-148): the new state and the rows and names
on the hull.  `hull` stands for `np.unique(ConvexHull(data[:, 1:]).simplices)` and `lexsort` for the
sorted indices. -/
def convexHull [LinearOrder K] (hull lexsort : List (List K) → List ℕ) (nEle : ℕ) (tol : K) (h : Hull K) :
    Except Err (Hull K × Hull K) := do
  let h1 := appendEnds nEle h
  let neg := whereTrue (h1.data.map fun row => decide (row.getLast?.getD 0 < tol))
  let h2 ← sliceHull h1 neg
  let h3 ← sliceConvex hull nEle h2
  let h4 ← sliceHull h3 (lexsort h3.data)
  return (h1, h4)

end Verif.Formation
