import Verif.Model.Dataset

/-!
# `Dataset` objects and the "subtract atomic energies once" flag

`/repo/src/pypolymlp/core/dataset.py` 22-310 and 527-719.
-/

namespace Verif.Dataset
variable {K : Type}

/-- `Dataset` (`core/dataset.py` 25-89): only the DFT data and `_finished_atomic_energy` matter
here; names, weights and include flags are dropped. -/
structure Obj (K : Type) where
  dft : Option (DFT K)
  finished : Bool := false

/-- `subtract_atomic_energy` (`core/dataset.py` 295-310). -/
def subtract [Ring K] (o : Obj K) (ae : List K) : Except Err (Obj K) :=
  match o.dft with
  | none => .error .runtimeError
  | some d =>
    if o.finished then .ok o
    else do
      let d' ← applyAtomicEnergy d ae
      return { dft := some d', finished := true }

/-- `split_dft` (`core/dataset.py` 176-206): two fresh `Dataset` objects, whose flag is `False`
(line 89). -/
def splitObj (o : Obj K) (r : ℚ) : Except Err (Obj K × Obj K) :=
  match o.dft with
  | none => .error .runtimeError
  | some d => do
    let (a, b) ← splitDFT d r
    return ({ dft := a }, { dft := b })

/-- `slice_dft` (`core/dataset.py` 208-222): a fresh object; `None.slice` is an
`AttributeError`. -/
def sliceObj (o : Obj K) (b e : ℕ) : Except Err (Obj K) :=
  match o.dft with
  | none => .error .attributeError
  | some d => .ok { dft := some (sliceDFT d b e) }

/-- `sort_dft` (`core/dataset.py` 224-227). -/
def sortObj (argsort : List ℕ → List ℕ) (o : Obj K) : Except Err (Obj K) :=
  match o.dft with
  | none => .error .attributeError
  | some d => do
    let d' ← sortDFT argsort d
    return { o with dft := some d' }

/-- `parse_files` (`core/dataset.py` 229-247): load the raw data (`raw`, the result of the
file-format specific parser) and subtract; the flag is not reset by loading. -/
def parse [Ring K] (o : Obj K) (raw : DFT K) (ae : List K) : Except Err (Obj K) :=
  subtract { o with dft := some raw } ae

/-- `set_datasets_from_single_fileset` with one data file given as a string
(`core/dataset.py` 597-611 and 625-637; `dataset_type` other than "sscha"): parse, split the DFT
data, then `subtract_atomic_energy` on the two new objects. -/
def fromSingleFile [Ring K] (raw : DFT K) (ae : List K) (r : ℚ) : Except Err (Obj K × Obj K) := do
  let data ← parse { dft := none } raw ae
  let (train, test) ← splitObj data r
  let train ← subtract train ae
  let test ← subtract test ae
  return (train, test)

/-- `set_datasets_from_single_fileset` with a list of files (`core/dataset.py` 612-637): the file
list is split first, both sides are parsed (`load` is the parser) and subtraction is requested once
more. -/
def fromFileList [Ring K] {F : Type} (load : List F → Except Err (DFT K)) (files : List F)
    (ae : List K) (r : ℚ) : Except Err (Obj K × Obj K) := do
  let (ftrain, ftest) ← Split.splitTrainTest files r
  let rawTrain ← load ftrain
  let train ← parse { dft := none } rawTrain ae
  let rawTest ← load ftest
  let test ← parse { dft := none } rawTest ae
  let train ← subtract train ae
  let test ← subtract test ae
  return (train, test)

/-- `set_datasets_from_structures`, first branch (`core/dataset.py` 659-678 and 714-719): `dft` is
the `DatasetDFT` built from the arguments. -/
def fromStructures [Ring K] (dft : DFT K) (ae : List K) (r : ℚ) :
    Except Err (Obj K × Obj K) := do
  let (train, test) ← splitObj { dft := some dft } r
  let train ← subtract train ae
  let test ← subtract test ae
  return (train, test)

/-- Operations a user can perform on (a branch of) a data set.  `splitTrain`/`splitTest` follow one
of the two objects returned by `split_dft`. -/
inductive Op where
  | subtract
  | sort
  | slice (b e : ℕ)
  | splitTrain (r : ℚ)
  | splitTest (r : ℚ)

/-- Effect of one operation. -/
def step [Ring K] (argsort : List ℕ → List ℕ) (ae : List K) (o : Obj K) : Op → Except Err (Obj K)
  | .subtract => subtract o ae
  | .sort => sortObj argsort o
  | .slice b e => sliceObj o b e
  | .splitTrain r => (splitObj o r).map (·.1)
  | .splitTest r => (splitObj o r).map (·.2)

/-- A history of operations, stopping at the first exception. -/
def run [Ring K] (argsort : List ℕ → List ℕ) (ae : List K) : Obj K → List Op → Except Err (Obj K)
  | o, [] => .ok o
  | o, op :: ops => match step argsort ae o op with
    | .ok o' => run argsort ae o' ops
    | .error e => .error e

end Verif.Dataset
