import Verif.Model.Split
import Verif.Model.Dict
import Mathlib.Algebra.Order.Field.Basic
import Mathlib.Algebra.BigOperators.Group.List.Defs

/-!
# Automatic division of data sets

`/repo/src/pypolymlp/utils/dataset_divide_utils.py` 15-150 and `utils/dataset_divide.py` 39-121.
-/

namespace Verif.Divide
open Verif.Split
variable {K : Type} [Field K] [LinearOrder K]

/-- `_extract_properties_from_dataset(dft)` (`dataset_divide_utils.py` 15-27): energies per atom and
standard deviations of the forces of each structure.  `std` stands for `np.std`; the loop takes
consecutive slices of `3 * n` force components.  Volumes are not used afterwards. -/
def extract (std : List K → K) (energies : List K) (natoms : List ℕ) (forces : List K) : List K × List K :=
  ((energies.zip natoms).map fun p => p.1 / (p.2 : K),
    (natoms.foldl (fun (s : List K × ℕ) n =>
      (s.1 ++ [std (slice forces s.2 (s.2 + 3 * n))], s.2 + 3 * n)) ([], 0)).1)

/-- `np.min(e_all)`; raises `ValueError` on an empty array (`dataset_divide_utils.py` 50). -/
def minOf : List K → Except Err K
  | [] => .error .valueError
  | x :: xs => .ok (xs.foldl min x)

/-- `np.average`. -/
def average (xs : List K) : K := xs.sum / (xs.length : K)

/-- Energy threshold of loop index `i`: `e_min * np.linspace(0, 1, n_divide)[i]` (lines 53, 65). -/
def eThreshold (n : ℕ) (eMin : K) (i : ℕ) : K := eMin * ((i : K) / ((n - 1 : ℕ) : K))

/-- Force threshold: `f_std_average * 2 ** np.linspace(2, -4, n_divide)[i]` (lines 54, 66).  `pow2`
stands for `2 ** x`. -/
def fThreshold (pow2 : K → K) (n : ℕ) (fAve : K) (i : ℕ) : K :=
  fAve * pow2 (2 + (i : K) * ((-4 - 2) / ((n - 1 : ℕ) : K)))

/-- `group[values <= th] = i + 1` (lines 67-68). -/
def assign (values : List K) (th : K) (i : ℕ) (group : List ℕ) : List ℕ :=
  (values.zip group).map fun p => if p.1 ≤ th then i + 1 else p.2

/-- `_split(e_all, f_std_all, n_divide)` (`dataset_divide_utils.py` 43-71). The ratios have
`n_divide - 1` entries (`[:-1]`; also empty for `n_divide` 0 and 1). -/
def split (pow2 : K → K) (eAll fAll : List K) (n : ℕ) : Except Err (List ℕ) := do
  let eMin ← minOf eAll
  let fAve := average fAll
  let z := List.replicate eAll.length 0
  let g := (List.range (n - 1)).foldl (fun (g : List ℕ × List ℕ) i =>
    (assign eAll (eThreshold n eMin i) i g.1, assign fAll (fThreshold pow2 n fAve i) i g.2)) (z, z)
  return (g.1.zip g.2).map fun p => max p.1 p.2

/-- `np.where(groups == g)[0]`. -/
def whereEq (groups : List ℕ) (g : ℕ) : List ℕ := whereTrue (groups.map fun x => decide (x = g))

/-- What the two dividing functions return per group: a bare tuple (line 92) or a `DatasetAttr`. -/
inductive Part where
  | tuple (train test : List ℕ)
  | attr (train test : List ℕ)
  deriving DecidableEq, Repr

/-- `DatasetAttr(*split_train_test(np.where(groups == g)[0]))` (lines 99-105, 142-149). -/
def groupPart (ratio : ℚ) (groups : List ℕ) (g : ℕ) : Except Err Part := do
  let r ← splitTrainTest (whereEq groups g) ratio
  return .attr r.1 r.2

/-- `split_datasets(dft, n_divide)` (`dataset_divide_utils.py` 87-106) on the extracted properties;
`ratio` is the default train ratio 0.9 of `split_train_test`. -/
def splitDatasets (pow2 : K → K) (ratio : ℚ) (eAll fAll : List K) (n : ℕ) : Except Err (List Part) :=
  if n < 2 then do
    let r ← splitTrainTest (List.range eAll.length) ratio
    return [.tuple r.1 r.2]
  else do
    let groups ← split pow2 eAll fAll n
    (List.range n).mapM (groupPart ratio groups)

variable {κ : Type} [DecidableEq κ]

/-- `comp_ids[key].append(i)` for every structure (`dataset_divide_utils.py` 34-38); `keys` are the
rounded compositions. -/
def compIds (keys : List κ) : Dict κ (List ℕ) :=
  keys.zipIdx.foldl (fun d p => d.set p.1 (((d.get? p.1).getD []) ++ [p.2])) []

/-- The first group number of each end composition (lines 118-125): `n, 2n, ...`. -/
def endComp (isEnd : κ → Bool) (n : ℕ) (comps : List κ) : Dict κ ℕ :=
  (comps.foldl (fun (s : Dict κ ℕ × ℕ) c =>
    if isEnd c then (if (s.1.get? c).isSome then s else (s.1.set c s.2, s.2 + n)) else s) ([], n)).1

/-- `groups[ids] = local` (line 138). -/
def scatter (groups : List ℕ) (ids vals : List ℕ) : List ℕ :=
  (ids.zip vals).foldl (fun g p => g.set p.1 p.2) groups

/-- The loop body for one composition (lines 128-138). -/
def alloyStep (pow2 : K → K) (eAll fAll : List K) (n : ℕ) (ends : Dict κ ℕ) (groups : List ℕ)
    (p : κ × List ℕ) : Except Err (List ℕ) := do
  let e ← gather eAll p.2
  let f ← gather fAll p.2
  let loc ← split pow2 e f n
  return scatter groups p.2 (loc.map (· + ((ends.get? p.1).getD 0)))

/-- The `groups` array of `split_datasets_alloy` (lines 116-138). -/
def alloyGroups (pow2 : K → K) (isEnd : κ → Bool) (eAll fAll : List K) (keys : List κ) (n : ℕ) :
    Except Err (List ℕ) :=
  let comps := compIds keys
  let ends := endComp isEnd n comps.keys
  comps.foldlM (alloyStep pow2 eAll fAll n ends) (List.replicate eAll.length 0)

/-- `split_datasets_alloy(dft, elements, n_divide)` (`dataset_divide_utils.py` 109-150); `isEnd` is
the test on lines 121-122.  `np.max` of an empty array raises `ValueError`. -/
def splitDatasetsAlloy (pow2 : K → K) (ratio : ℚ) (isEnd : κ → Bool) (eAll fAll : List K)
    (keys : List κ) (n : ℕ) : Except Err (List Part) := do
  let groups ← alloyGroups pow2 isEnd eAll fAll keys n
  let m ← orErr .valueError (groups.foldl (fun (a : Option ℕ) g => some (max (a.getD 0) g)) none)
  (List.range (m + 1)).mapM (groupPart ratio groups)

/-- `_get_dataset_attrs(n_divide)` (`dataset_divide.py` 39-50): the weights, as ten times their
value, so that they are natural numbers.  All force flags are `True` and at least as many, so that
indexing them does not fail before the weights do. -/
def weights (n : ℕ) : List ℕ :=
  if n = 1 then [10] else if n = 2 then [1, 10] else 1 :: List.replicate (n - 1) 10

/-- `np.tile(xs, k)`. -/
def tile {α : Type} (k : ℕ) (xs : List α) : List α := (List.replicate k xs).flatten

/-- A line of `polymlp.in.append` with the files copied for it (`dataset_divide.py` 103-120). -/
structure Line (α : Type) where
  train : Bool
  group : ℕ
  files : List α
  weight : ℕ
  deriving DecidableEq, Repr

/-- The lines written for one group (`dataset_divide.py` 103-120); `attr.train` on a tuple raises
`AttributeError` (already at lines 74-79 when `verbose`). -/
def writeGroup {α : Type} (files : List α) (ws : List ℕ) (i : ℕ) : Part → Except Err (List (Line α))
  | .tuple _ _ => do
    let _ ← orErr .indexError ws[i]?
    .error .attributeError
  | .attr train test => do
    let w ← orErr .indexError ws[i]?
    let a ← gather files train
    let b ← gather files test
    return (if train = [] then [] else [⟨true, i + 1, a, w⟩]) ++
      (if test = [] then [] else [⟨false, i + 1, b, w⟩])

/-- The weights of all groups (`dataset_divide.py` 81-101): `n_repeat = len(split_attrs) // n_divide`
in the alloy case, where `n_divide = 0` divides by zero.  `alloy` is `len(elements) > 1`. -/
def allWeights (alloy : Bool) (n nParts : ℕ) : Except Err (List ℕ) :=
  if alloy then (if n = 0 then .error .zeroDivision else .ok (tile (nParts / n) (weights n)))
  else .ok (weights n)

/-- The tail of `auto_divide_vaspruns` (`dataset_divide.py` 81-120): all lines. -/
def writeAll {α : Type} (files : List α) (alloy : Bool) (n : ℕ) (parts : List Part) :
    Except Err (List (Line α)) := do
  let ws ← allWeights alloy n parts.length
  let ls ← parts.zipIdx.mapM fun p => writeGroup files ws p.2 p.1
  return ls.flatten

end Verif.Divide
