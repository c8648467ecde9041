import Verif.Model.Params

/-!
# Parameters of hybrid potentials

`/repo/src/pypolymlp/core/params.py` 11-162.
-/

namespace Verif.Params
variable {K V : Type}

/-- A sub-model: its parameters and the two fields set by `_set_unique_types`. -/
structure Sub (K V : Type) extends Single K V where
  typeFull : Option Bool := none
  typeIndices : List ℕ := []
  deriving DecidableEq

/-- `_get_variable_with_max_length` (`params.py` 11-22): `None` is skipped, a strictly longer list
replaces the current one. -/
def maxLength {α : Type} (xs : List (Option (List α))) : List α :=
  xs.foldl (fun array target =>
    match target with
    | none => array
    | some t => if array.length < t.length then t else array) []

/-- The common parameters. -/
structure Common (K : Type) where
  nType : ℕ
  elements : List String
  atomicEnergy : List K
  enableSpins : Option (List Bool)
  deriving DecidableEq

/-- `set_common_params` (`params.py` 25-43). -/
def setCommon (ps : List (Sub K V)) : Common K :=
  let spins := maxLength (ps.map fun p => p.enableSpins)
  ⟨(ps.map fun p => p.nType).foldl max 0, maxLength (ps.map fun p => some p.elements),
    maxLength (ps.map fun p => p.atomicEnergy), if spins.length = 0 then none else some spins⟩

/-- `enable_spins is None or np.all(np.array(enable_spins) == False)` (`params.py` 98-103). -/
def noSpins (p : Sub K V) : Bool :=
  match p.enableSpins with
  | none => true
  | some s => s.all fun b => !b

/-- `[(ele, spin) for p in params for ele, spin in zip(p.elements, p.enable_spins)]`
(`params.py` 113-117). -/
def spinCombs (ps : List (Sub K V)) : List (String × Bool) :=
  ps.flatMap fun p => p.elements.zip (p.enableSpins.getD [])

/-- `_check_errors` for more than one sub-model (`params.py` 92-119). -/
def checkSpins (ps : List (Sub K V)) (common : Common K) : Except Err Unit :=
  let n := (ps.filter noSpins).length
  if n = ps.length then .ok ()
  else if n ≠ 0 then .error .runtimeError
  else if (spinCombs ps).dedup.length ≠ common.elements.dedup.length then .error .runtimeError
  else .ok ()

/-- `sorted(single.elements, key=lambda x: elements.index(x))` (`params.py` 137-138); an element
that is not in the list raises `ValueError`. -/
def sortElements (elements : List String) (own : List String) : Except Err (List String) :=
  if own.all fun e => decide (e ∈ elements) then
    .ok (own.insertionSort fun a b => elements.idxOf a ≤ elements.idxOf b)
  else .error .valueError

/-- The second loop of `_set_unique_types` (`params.py` 140-146). -/
def setTypeIndices (common : Common K) (p : Sub K V) : Sub K V :=
  if p.nType = common.nType then
    { p with typeFull := some true, typeIndices := List.range common.nType }
  else
    { p with typeFull := some false, typeIndices := p.elements.map (common.elements.idxOf ·) }

/-- `_set_unique_types` (`params.py` 129-147). -/
def setUniqueTypes (common : Common K) (ps : List (Sub K V)) : Except Err (List (Sub K V)) := do
  let sorted ← ps.mapM fun p =>
    (sortElements common.elements p.elements).map fun es => { p with elements := es }
  return sorted.map (setTypeIndices common)

/-- `PolymlpParams._initialize` for more than one sub-model (`params.py` 60-68).
Simplification: `_set_tags` only acts for the data-set types `sscha`, `phono3py`, `openmx` and
`electron`; the model is for the others. -/
def initHybrid (ps : List (Sub K V)) : Except Err (Common K × List (Sub K V)) := do
  let common := setCommon ps
  checkSpins ps common
  let ps' ← setUniqueTypes common ps
  return (common, ps')

end Verif.Params
