import Verif.Model.Py
import Verif.Model.Dict
import Mathlib.Data.List.Sort
import Mathlib.Data.List.Dedup
import Mathlib.Data.List.ProdSigma

/-!
# Parameters of a potential

`/repo/src/pypolymlp/core/data_format.py` 187-198 and 263-327, `core/params_utils.py` 71-136,
`core/params.py` 11-162.
-/

namespace Verif.Params
variable {K V : Type}

/-! ## Spins -/

/-- `tuple(sorted([t1, t2]))`. -/
def sortedPair (a b : ℕ) : ℕ × ℕ := if b < a then (b, a) else (a, b)

/-- The state of the loop of `_set_params_spins` (`data_format.py` 300-318). -/
structure SpinAcc (K : Type) where
  nType : ℕ := 0
  elements : List String := []
  atomicEnergy : List K := []
  enableSpins : List Bool := []
  mapTypes : Dict ℕ (List ℕ) := []

/-- One iteration (`data_format.py` 305-316): element `i` is appended once, and a second time if
its spin flag is set. -/
def spinStep (acc : SpinAcc K) (x : ℕ × String × K × Bool) : SpinAcc K :=
  let i := x.1; let ele := x.2.1; let e := x.2.2.1; let spin := x.2.2.2
  let old := (acc.mapTypes.get? i).getD []
  let acc1 : SpinAcc K :=
    ⟨acc.nType + 1, acc.elements ++ [ele], acc.atomicEnergy ++ [e], acc.enableSpins ++ [spin],
      acc.mapTypes.set i (old ++ [acc.nType])⟩
  if spin then
    ⟨acc1.nType + 1, acc1.elements ++ [ele], acc1.atomicEnergy ++ [e],
      acc1.enableSpins ++ [spin],
      acc1.mapTypes.set i (old ++ [acc.nType] ++ [acc1.nType])⟩
  else acc1

/-- `revise_params(map_types)` (`data_format.py` 187-198).  `map_types` is a `defaultdict(list)`:
a missing key gives an empty list. -/
def reviseParams (mapTypes : Dict ℕ (List ℕ)) (pairs : Dict (ℕ × ℕ) V) : Dict (ℕ × ℕ) V :=
  Dict.setAll [] (pairs.flatMap fun kv =>
    (((mapTypes.get? kv.1.1).getD []) ×ˢ ((mapTypes.get? kv.1.2).getD [])).map fun t =>
      (sortedPair t.1 t.2, kv.2))

/-- The fields of `PolymlpParamsSingle` that spins change. -/
structure Single (K V : Type) where
  nType : ℕ
  elements : List String
  atomicEnergy : Option (List K)
  enableSpins : Option (List Bool)
  pairs : Dict (ℕ × ℕ) V
  deriving DecidableEq

/-- `check_errors` (`data_format.py` 275-281). -/
def checkErrors (p : Single K V) : Bool :=
  p.elements.length == p.nType &&
  (p.atomicEnergy.all fun a => a.length == p.nType) &&
  (p.enableSpins.all fun s => s.length == p.nType)

/-- The part of `_set_params_spins` after the two early returns (`data_format.py` 300-327). -/
def doubleSpins (p : Single K V) (energy : List K) (spins : List Bool) : Single K V :=
  let items := p.elements.zip (energy.zip spins)
  let acc := (items.zipIdx.map fun x => (x.2, x.1)).foldl spinStep {}
  ⟨acc.nType, acc.elements, some acc.atomicEnergy, some acc.enableSpins,
    reviseParams acc.mapTypes p.pairs⟩

/-- `_set_params_spins` (`data_format.py` 291-327); without atomic energies `zip(…, None, …)`
raises `TypeError`. -/
def setParamsSpins (p : Single K V) : Except Err (Single K V) :=
  match p.enableSpins with
  | none => .ok p
  | some spins =>
    if spins.count true = 0 then .ok p
    else match p.atomicEnergy with
      | none => .error .typeError
      | some energy => .ok (doubleSpins p energy spins)

/-- `PolymlpParamsSingle(…)` (`__post_init__`, `data_format.py` 263-266). -/
def mkSingle (p : Single K V) : Except Err (Single K V) :=
  if checkErrors p then setParamsSpins p else .error .assertionError

/-! ## Gaussians -/

/-- `set_gaussian_params` with `n_gaussians=None` (`params_utils.py` 79-83 and 93-94).
Simplification: exact rationals. -/
def gaussianGrid (p1 p2 : ℚ × ℚ × ℤ) : Except Err (List (ℚ × ℚ)) := do
  let g1 ← linspace p1.1 p1.2.1 p1.2.2
  let g2 ← linspace p2.1 p2.2.1 p2.2.2
  return (g1 ×ˢ g2) ++ [(0, 0)]

/-- `set_gaussian_params` with `n_gaussians` given (`params_utils.py` 84-94). -/
def gaussianAuto (n : ℤ) (cutoff : Option ℚ) : Except Err (List (ℚ × ℚ)) := do
  let c ← orErr .runtimeError cutoff
  let g ← linspace 0 1 (n - 1)
  let g2 := g.map (· * (c - 1))
  let x1 ← orErr .indexError g2[1]?
  let x0 ← orErr .indexError g2[0]?
  return (g2.map fun p2 => (max 1 (x1 - x0), p2)) ++ [(0, 0)]

variable [Field K] [LinearOrder K]

/-- `dis < p[1] + 1 / p[0] and dis > p[1] - 1 / p[0]` (`params_utils.py` 131).  For `p[0] = 0`
numpy gives an infinite half width (with a warning), so every distance matches. -/
def inWindow (p : K × K) (dis : K) : Bool :=
  if p.1 = 0 then true else decide (dis < p.2 + 1 / p.1) && decide (p.2 - 1 / p.1 < dis)

/-- `sorted(set(match))` with `match` collected by the two loops (`params_utils.py` 127-133). -/
def activeIndices (params : List (K × K)) (dis : List K) : List ℕ :=
  let hits := dis.flatMap fun d =>
    (params.dropLast.zipIdx.filter fun p => inWindow p.1 d).map (·.2)
  ((params.length - 1) :: hits).dedup.insertionSort (· ≤ ·)

/-- `sorted(ele_pair, key=lambda x: elements.index(x))` for two elements; a missing element
raises `ValueError` (`params_utils.py` 112). -/
def sortElementPair (elements : List String) (p : List String) : Except Err (String × String) :=
  match p with
  | [a, b] =>
    if a ∈ elements ∧ b ∈ elements then
      .ok (if elements.idxOf b < elements.idxOf a then (b, a) else (a, b))
    else .error .valueError
  | _ => .error .runtimeError

/-- The normalised `distance` dict (`params_utils.py` 103-117).  Simplification: keys are checked
for two elements in the same loop in which they are sorted, so that with several bad keys another
exception may come first. -/
def normDistance (elements : List String) (distance : Dict (List String) (List K)) :
    Except Err (Dict (String × String) (List K)) := do
  let items ← distance.mapM fun kv => (sortElementPair elements kv.1).map fun k => (k, kv.2)
  return Dict.setAll [] items

/-- `itertools.combinations_with_replacement(elements, 2)`. -/
def pairsWithReplacement {α : Type} : List α → List (α × α)
  | [] => []
  | a :: l => (a :: l).map (fun b => (a, b)) ++ pairsWithReplacement l

/-- `atomtypes[ele]`: a dict filled in order, the last position of `ele` wins
(`params_utils.py` 119-121). -/
def atomType (elements : List String) (ele : String) : ℕ :=
  ((Dict.setAll [] (elements.zipIdx)).get? ele).getD 0

/-- The loop over pairs (`params_utils.py` 123-133). -/
def activePairs (params : List (K × K)) (elements : List String)
    (distance : Dict (String × String) (List K)) : Dict (ℕ × ℕ) (List ℕ) :=
  Dict.setAll [] ((pairsWithReplacement elements).map fun pr =>
    ((atomType elements pr.1, atomType elements pr.2),
      match distance.get? pr with
      | none => List.range params.length
      | some dis => activeIndices params dis))

/-- `set_active_gaussian_params` (`params_utils.py` 98-136). -/
def setActive (params : List (K × K)) (elements : List String)
    (distance : Option (Dict (List String) (List K))) :
    Except Err (Dict (ℕ × ℕ) (List ℕ) × Bool) :=
  match distance with
  | none => .ok (activePairs params elements [], false)
  | some d => do
    let nd ← normDistance elements d
    return (activePairs params elements nd, true)

end Verif.Params
