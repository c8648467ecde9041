import Verif.Model.Split
import Verif.Model.AtomOrder

/-!
# DFT data sets

`/repo/src/pypolymlp/core/dataset_utils.py` 152-387, `core/dataset.py` 22-719 and
`mlp_dev/core/utils_sequential.py` 28-37.
-/

namespace Verif.Dataset
variable {K : Type}

/-- `DatasetDFT` (`dataset_utils.py` 152-198, attributes 246-260): parallel flat arrays.
`forces` has three entries per atom, `stresses` six per structure. -/
structure DFT (K : Type) where
  structures : List (Structure K)
  energies : List K
  forces : List K
  stresses : List K
  volumes : List K
  totalNAtoms : List ℕ
  elements : List String
  files : List (Option String)
  existForce : Bool
  existStress : Bool
  deriving DecidableEq

/-- `np.ravel(force, order="F")` of a `(3, n)` array given by columns (`dataset_utils.py` 233). -/
def ravelF (f : List (V3 K)) : List K := f.flatMap fun v => [v.x, v.y, v.z]

/-- Six stress components in the order of `dataset_utils.py` 235-244. -/
def stress6 (s : M3 K) : List K := [s.r0.x, s.r1.y, s.r2.z, s.r0.y, s.r1.z, s.r2.x]

/-- `_check_errors` (`dataset_utils.py` 265-272). -/
def checkErrors (d : DFT K) : Except Err (DFT K) :=
  if d.energies.length * 6 = d.stresses.length ∧ d.energies.length = d.volumes.length ∧
      d.energies.length = d.structures.length ∧ d.energies.length = d.totalNAtoms.length ∧
      d.forces.length = d.totalNAtoms.sum * 3 then .ok d
  else .error .assertionError

/-- `DatasetDFT._set_properties` (`dataset_utils.py` 200-263) for given `elements` and
`enable_spins=None` (the branch used for every non-magnetic data set). -/
def setProperties [CommRing K] (structures : List (Structure K)) (energies : List K)
    (forces : Option (List (List (V3 K)))) (stresses : Option (List (M3 K)))
    (elems : List String) : Except Err (DFT K) := do
  if structures.length ≠ energies.length then throw .assertionError
  if forces.any (fun f => f.length ≠ structures.length) then throw .assertionError
  if stresses.any (fun s => s.length ≠ structures.length) then throw .assertionError
  let z : V3 K := ⟨0, 0, 0⟩
  let fs := match forces with
    | some f => f
    | none => structures.map fun st => List.replicate st.elements.length z
  let ss := match stresses with
    | some s => s
    | none => energies.map fun _ => ⟨z, z, z⟩
  let permuted ← (structures.zip fs).mapM fun p => AtomOrder.permuteAtoms p.1 elems p.2
  checkErrors
    { structures := permuted.map (·.1)
      energies := energies
      forces := permuted.flatMap fun p => ravelF p.2
      stresses := (ss.take permuted.length).flatMap stress6
      volumes := permuted.map (·.1.volume)
      totalNAtoms := permuted.map (·.1.nAtoms.sum)
      elements := elems
      files := permuted.map (·.1.name)
      existForce := forces.isSome
      existStress := stresses.isSome }

/-- `n_atoms @ atom_e` (`dataset_utils.py` 304); numpy raises `ValueError` for different
lengths. -/
def dotNat [Semiring K] (n : List ℕ) (ae : List K) : Except Err K :=
  if n.length = ae.length then .ok ((n.zip ae).map fun p => (p.1 : K) * p.2).sum
  else .error .valueError

/-- `apply_atomic_energy` (`dataset_utils.py` 300-305). -/
def applyAtomicEnergy [Ring K] (d : DFT K) (ae : List K) : Except Err (DFT K) := do
  let es ← (d.energies.zip d.structures).mapM fun p => do
    let s ← dotNat p.2.nAtoms ae
    return p.1 - s
  return { d with energies := es }

/-- `DatasetDFT.slice` (`dataset_utils.py` 307-325) for non-negative bounds. -/
def sliceDFT (d : DFT K) (b e : ℕ) : DFT K :=
  let bf := (d.totalNAtoms.take b).sum * 3
  let ef := (d.totalNAtoms.take e).sum * 3
  { structures := slice d.structures b e
    energies := slice d.energies b e
    forces := slice d.forces bf ef
    stresses := slice d.stresses (b * 6) (e * 6)
    volumes := slice d.volumes b e
    totalNAtoms := slice d.totalNAtoms b e
    elements := d.elements
    files := slice d.files b e
    existForce := d.existForce
    existStress := d.existStress }

/-- `np.cumsum` starting from `acc`. -/
def cumsumFrom (acc : ℕ) : List ℕ → List ℕ
  | [] => []
  | a :: l => (acc + a) :: cumsumFrom (acc + a) l

/-- `_force_stress_ids` (`dataset_utils.py` 327-335). -/
def forceStressIds (d : DFT K) (ids : List ℕ) : Except Err (List ℕ × List ℕ) := do
  let forceEnd := cumsumFrom 0 (d.totalNAtoms.map (· * 3))
  let forceBegin := 0 :: forceEnd.dropLast
  let bs ← gather forceBegin ids
  let es ← gather forceEnd ids
  let idsForce := (bs.zip es).flatMap fun p => List.range' p.1 (p.2 - p.1)
  let idsStress := ids.flatMap fun i => (List.range 6).map fun k => i * 6 + k
  return (idsForce, idsStress)

/-- Indexing with `np.array([...])` built from a Python list (`dataset_utils.py` 331-333): an
empty list makes a float array, and numpy refuses to index with it (`IndexError`). -/
def gatherPy {α : Type} (xs : List α) (ids : List ℕ) : Except Err (List α) :=
  if ids = [] then .error .indexError else gather xs ids

/-- The common body of `sort` and `split`: select the structures `ids` with all their data
(`dataset_utils.py` 340-348, 358-371, 373-386). -/
def select (d : DFT K) (ids : List ℕ) : Except Err (DFT K) := do
  let (idsForce, idsStress) ← forceStressIds d ids
  let structures ← gather d.structures ids
  let energies ← gather d.energies ids
  let forces ← gatherPy d.forces idsForce
  let stresses ← gather d.stresses idsStress
  let volumes ← gather d.volumes ids
  let totalNAtoms ← gather d.totalNAtoms ids
  let files ← gather d.files ids
  return { structures, energies, forces, stresses, volumes, totalNAtoms, elements := d.elements
           files, existForce := d.existForce, existStress := d.existStress }

/-- `sort` (`dataset_utils.py` 337-349).  `argsort` stands for `np.argsort` (default kind
"quicksort", not stable): any function that returns some sorting permutation. -/
def sortDFT (argsort : List ℕ → List ℕ) (d : DFT K) : Except Err (DFT K) :=
  select d (argsort d.totalNAtoms)

/-- `if len(ids) > 0: ... assign(...)`, else `None` (`dataset_utils.py` 356-386). -/
def selectOpt (d : DFT K) (ids : List ℕ) : Except Err (Option (DFT K)) :=
  if ids.length > 0 then (select d ids).map some else .ok none

/-- `split` (`dataset_utils.py` 351-387). -/
def splitDFT (d : DFT K) (r : ℚ) : Except Err (Option (DFT K) × Option (DFT K)) := do
  let (train, test) ← Split.splitIds d.energies.length r
  let a ← selectOpt d train
  let b ← selectOpt d test
  return (a, b)

/-- `list(range(0, n, b))` for `b ≥ 1` (`utils_sequential.py` 30). -/
def rangeStep (n b : ℕ) : List ℕ := (List.range ((n + b - 1) / b)).map (· * b)

/-- `get_batch_slice(n_data, batch_size)` (`utils_sequential.py` 28-35), consumed as
`zip(begin, end)`.  `range` with step 0 raises `ValueError`. -/
def batchSlice (n b : ℕ) : Except Err (List ℕ × List ℕ) :=
  if b = 0 then .error .valueError
  else
    let begins := rangeStep n b
    if begins.length > 1 then .ok (begins, begins.tail ++ [n]) else .ok (begins, [n])

end Verif.Dataset
