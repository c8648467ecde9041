import Verif.Model.Infile

/-!
# Data sets declared in an input file

`ParamsParserSingle._get_force_tags`, `set_datasets`
(`/repo/src/pypolymlp/core/parser_polymlp_params.py` 78-92 and 228-285) and
`Dataset._set_attr` for `strings` (`core/dataset.py` 119-138).
-/

namespace Verif.Infile
variable {α : Type}

/-- The attributes of a `Dataset` given by one line of the input file. -/
structure DataLine (α : Type) where
  name : PStr
  includeForce : Bool
  includeStress : Bool
  weight : α
  deriving DecidableEq

/-- `strtobool(strings[1]) if len(strings) > 1 else include_force` (`dataset.py` 125-128), the
default being `True`. -/
def lineForce (strings : List PStr) : Except Err Bool :=
  match strings[1]? with
  | some s => strtobool s
  | none => .ok true

/-- `float(strings[2]) if len(strings) > 2 else weight` (`dataset.py` 135-138), the default being
`1.0`. -/
def lineWeight [One α] (conv : PStr → Except Err α) (strings : List PStr) : Except Err α :=
  match strings[2]? with
  | some s => conv s
  | none => .ok 1

/-- `Dataset(strings=strings)` (`dataset.py` 119-138).  Simplification: the files matching the
name are not listed. -/
def datasetOfStrings [One α] (conv : PStr → Except Err α) (strings : List PStr) :
    Except Err (DataLine α) := do
  let name ← orErr .indexError strings.head?
  let force ← lineForce strings
  let weight ← lineWeight conv strings
  return ⟨name, force, if force then true else false, weight⟩

/-- `if not params.include_force: dataset.include_force = False` and the same for the stress
(`parser_polymlp_params.py` 249-252). -/
def restrict (paramForce paramStress : Bool) (d : DataLine α) : DataLine α :=
  { d with
    includeForce := if paramForce then d.includeForce else false
    includeStress := if paramStress then d.includeStress else false }

/-- The three lists filled by the loop: training, test, and data sets to be split (the model
keeps `data` and `data_md` together; whether a `data` set is split before or after its files
are read is decided by the kind of files). -/
structure DataSets (α : Type) where
  train : List (DataLine α) := []
  test : List (DataLine α) := []
  split : List (DataLine α) := []
  deriving DecidableEq

/-- Appending by tag (`parser_polymlp_params.py` 254-266); other tags are ignored. -/
def addByTag (tag : PStr) (d : DataLine α) (s : DataSets α) : DataSets α :=
  if tag = "train_data".toList then { s with train := s.train ++ [d] }
  else if tag = "test_data".toList then { s with test := s.test ++ [d] }
  else if tag = "data".toList then { s with split := s.split ++ [d] }
  else if tag = "data_md".toList then { s with split := s.split ++ [d] }
  else s

/-- One iteration of the loop of `set_datasets` (`parser_polymlp_params.py` 241-266). -/
def dataStep [One α] (conv : PStr → Except Err α) (paramForce paramStress : Bool)
    (s : DataSets α) (line : List PStr) : Except Err (DataSets α) := do
  let tag ← orErr .indexError line.head?
  let d ← datasetOfStrings conv line.tail
  return addByTag tag (restrict paramForce paramStress d) s

/-- The loop of `set_datasets` (`parser_polymlp_params.py` 238-270). -/
def setDatasets [One α] (conv : PStr → Except Err α) (paramForce paramStress : Bool)
    (p : Parsed) : Except Err (DataSets α) :=
  p.datasetStrings.foldlM (dataStep conv paramForce paramStress) {}

/-- The boolean read by `get_params(tag, default=True, dtype=bool)`. -/
def boolOf : Value Bool Bool → Bool
  | .scalar b => b
  | .array _ => true
  | .default b => b

/-- The stress flag: read only if forces are used (`parser_polymlp_params.py` 84-89). -/
def stressTag (p : Parsed) (force : Bool) : Except Err Bool :=
  if force then
    (getParams strtobool p "include_stress".toList 1 true false false).map boolOf
  else .ok false

/-- `_get_force_tags` (`parser_polymlp_params.py` 78-92). -/
def getForceTags (p : Parsed) : Except Err (Bool × Bool) := do
  let force ← (getParams strtobool p "include_force".toList 1 true false false).map boolOf
  let stress ← stressTag p force
  return (force, stress)

end Verif.Infile
