import Verif.Model.Py

/-!
# The object for developing potentials

`/repo/src/pypolymlp/mlp_dev/pypolymlp.py` 34-837 (`Pypolymlp`), `/repo/src/pypolymlp/core/params.py` 45-383
(`PolymlpParams`), `/repo/src/pypolymlp/mlp_dev/core/dataclass.py` 12-66 (`PolymlpDataMLP`) and
`/repo/src/pypolymlp/core/io_polymlp.py` 25-51 (`save_mlps`).

Parameters are mutable objects and are shared: the object for developing potentials, the potential that it made and the
caller hold references.  Therefore they are kept in a heap.

Not modelled: reading of data, regression, prediction, reading of files (arbitrary functions that may fail, see C05,
C12, C35, C79 and others), messages, the order of elements inside components (C38), the temperature and the property of
electronic data.
-/

namespace Verif.DevApi

/-- `dataset_type`. -/
inductive DType where
  | vasp | phono3py | sscha | openmx | electron
  deriving DecidableEq, Repr

/-- `PolymlpParamsSingle` (`core/data_format.py`): the attributes that the object changes, and all others (`spec`). -/
structure Single (σ : Type) where
  spec : σ
  force : Bool
  stress : Bool
  dtype : DType
  spins : Option (List Bool)

/-- `PolymlpParams`: references to the components (`_params`) and, for more than one, the common parameters
(`_common_params`, `params.py` 119-125; of a single component they are the component itself). -/
structure PObj (σ : Type) where
  refs : List ℕ
  own : Single σ

/-- The objects that exist: `nS` components and `nO` parameter objects. -/
structure Heap (σ : Type) where
  singles : ℕ → Single σ
  nS : ℕ
  objs : ℕ → PObj σ
  nO : ℕ

/-- What reading a parameter object shows: the common parameters and the components. -/
structure View (σ : Type) where
  common : Single σ
  parts : List (Single σ)

/-- `_common_params` (`params.py` 119-125). -/
def common {σ : Type} (h : Heap σ) (r : ℕ) : Single σ :=
  match (h.objs r).refs with
  | [i] => h.singles i
  | _ => (h.objs r).own

/-- All that can be read from a parameter object. -/
def view {σ : Type} (h : Heap σ) (r : ℕ) : View σ := ⟨common h r, (h.objs r).refs.map h.singles⟩

/-- The pattern of all setters (`params.py` 193-328): change the common parameters and every component. -/
def setAll {σ : Type} (h : Heap σ) (r : ℕ) (f : Single σ → Single σ) : Heap σ :=
  { h with
    singles := fun i => if i ∈ (h.objs r).refs then f (h.singles i) else h.singles i
    objs := fun k => if k = r then { (h.objs r) with own := f (h.objs r).own } else h.objs k }

/-- `include_force = False` (`params.py` 212-223; the exception is only for True). -/
def noForce {σ : Type} (h : Heap σ) (r : ℕ) : Heap σ := setAll h r fun s => { s with force := false }

/-- `include_stress = False` (`params.py` 230-242). -/
def noStress {σ : Type} (h : Heap σ) (r : ℕ) : Heap σ := setAll h r fun s => { s with stress := false }

/-- `enable_spins = None` (`params.py` 193-205). -/
def noSpins {σ : Type} (h : Heap σ) (r : ℕ) : Heap σ := setAll h r fun s => { s with spins := none }

/-- `_set_tags` (`params.py` 369-383). -/
def setTags {σ : Type} (h : Heap σ) (r : ℕ) : Heap σ :=
  match (common h r).dtype with
  | .sscha => noSpins h r
  | .phono3py => noSpins (noStress h r) r
  | .openmx => noSpins (noStress h r) r
  | .electron => noSpins (noStress (noForce h r) r) r
  | .vasp => h

/-- `dataset_type = t` (`params.py` 249-258). -/
def setDType {σ : Type} (h : Heap σ) (r : ℕ) (t : DType) : Heap σ :=
  setTags (setAll h r fun s => { s with dtype := t }) r

/-- A regression result (`PolymlpDataMLP`, `dataclass.py` 22-24, 33). -/
structure Fit where
  coeffs : List ℚ
  scales : List ℚ
  cumulative : Option (List ℕ)

/-- Which regression: `fit`, `fit_standard` or `fit_cg`. -/
inductive Method where
  | sequential | standard | cg
  deriving DecidableEq

/-- The code that is not modelled here.  `mergeSpec`: `set_common_params` for the other attributes (`params.py` 25-42);
`consistent`: `_check_errors` for more than one component (`params.py` 91-117); `load`: the functions
`set_datasets_from_…` of `core/dataset.py`; `regress`: `standard/fit.py`, `gradient/fit_cg.py`; `errors`:
`PolymlpEvalAccuracy`; `curve`: `fit_learning_curve`; `read`: `load_mlp`; `nfeat`: `get_num_features` of a component. -/
structure Ext (σ D S F E : Type) where
  mergeSpec : List σ → σ
  consistent : List (Single σ) → Bool
  load : View σ → S → Except Err (D × D)
  regress : Method → View σ → D → D → Except Err Fit
  errors : View σ → List (List ℚ) → D → Except Err E
  curve : View σ → D → D → Except Err (List (ℕ × E))
  read : F → Except Err (Single σ × List ℚ)
  nfeat : σ → ℕ

/-- `_get_variable_with_max_length` for `enable_spins` (`params.py` 11-22, 33, 38-41). -/
def longestSpins {σ : Type} (l : List (Single σ)) : Option (List Bool) :=
  let a := l.foldl (fun (acc : List Bool) s => match s.spins with
    | none => acc
    | some t => if t.length > acc.length then t else acc) []
  if a.length = 0 then none else some a

/-- `set_common_params` (`params.py` 25-42): a copy of the first component with merged attributes. -/
def mergeCommon {σ D S F E : Type} (ext : Ext σ D S F E) (s : Single σ) (l : List (Single σ)) : Single σ :=
  { s with spec := ext.mergeSpec (l.map fun p => p.spec), spins := longestSpins l }

/-- New component objects. -/
def alloc {σ : Type} (h : Heap σ) (l : List (Single σ)) : Heap σ × List ℕ :=
  ({ h with
      singles := fun i => if h.nS ≤ i then (l[i - h.nS]?).getD (h.singles i) else h.singles i
      nS := h.nS + l.length },
    (List.range l.length).map fun (k : ℕ) => h.nS + k)

/-- `_check_errors` (`params.py` 91-117). -/
def check {σ D S F E : Type} (ext : Ext σ D S F E) (l : List (Single σ)) : Bool :=
  if l.length = 1 then true else ext.consistent l

/-- `PolymlpParams(params)` (`params.py` 48-67) for components that exist; no component raises IndexError (29). -/
def construct {σ D S F E : Type} (ext : Ext σ D S F E) (h : Heap σ) (refs : List ℕ) : Heap σ × Except Err ℕ :=
  match refs with
  | [] => (h, .error .indexError)
  | i :: rest =>
    let l := (i :: rest).map h.singles
    if check ext l = false then (h, .error .runtimeError)
    else
      (setTags { h with
          objs := fun k => if k = h.nO then ⟨i :: rest, mergeCommon ext (h.singles i) l⟩ else h.objs k
          nO := h.nO + 1 } h.nO,
        .ok h.nO)

/-- `append` (`params.py` 86-89): the list is extended before the checks. -/
def appendPart {σ D S F E : Type} (ext : Ext σ D S F E) (h : Heap σ) (r : ℕ) (s : Single σ) :
    Heap σ × Except Err Unit :=
  let a := alloc h [s]
  let refs := (h.objs r).refs ++ a.2
  let l := refs.map a.1.singles
  let h' : Heap σ := { a.1 with
    objs := fun k => if k = r then ⟨refs, mergeCommon ext (l.headD s) l⟩ else a.1.objs k }
  if check ext l = false then (h', .error .runtimeError) else (setTags h' r, .ok ())

/-- `PolymlpDataMLP` (`dataclass.py`): the regression, `scaled_coeffs`, a reference to the parameters and the prediction
errors that `estimate_error` adds (they are no fields of the class, 29-30). -/
structure Mlp (E : Type) where
  fit : Fit
  scaled : List (List ℚ)
  params : ℕ
  errTrain : Option E
  errTest : Option E

/-- `Pypolymlp.__init__` (`pypolymlp.py` 37-44). -/
structure Obj (D E : Type) where
  params : Option ℕ
  train : Option D
  test : Option D
  model : Option (Mlp E)
  log : Option (List (ℕ × E))

/-- A new object. -/
def Obj.new {D E : Type} : Obj D E := ⟨none, none, none, none, none⟩

/-- `hybrid_division` (`dataclass.py` 58-66) of `n` components. -/
def hybridDivision (cum : List ℕ) (n : ℕ) (xs : List ℚ) : Except Err (List (List ℚ)) :=
  (List.range n).mapM fun (i : ℕ) =>
    match (if i = 0 then some 0 else cum[i - 1]?), cum[i]? with
    | some b, some e => .ok (slice xs b e)
    | _, _ => .error .indexError

/-- `__post_init__` (`dataclass.py` 37-44) with `n` components. -/
def scaledCoeffs (f : Fit) (n : ℕ) : Except Err (List (List ℚ)) :=
  match f.cumulative with
  | none => .ok [List.zipWith (· / ·) f.coeffs f.scales]
  | some c =>
    match hybridDivision c n f.coeffs, hybridDivision c n f.scales with
    | .ok a, .ok b => .ok (List.zipWith (List.zipWith (· / ·)) a b)
    | .error e, _ => .error e
    | _, .error e => .error e

/-- The object together with the heap. -/
structure State (σ D E : Type) where
  h : Heap σ
  o : Obj D E

/-- The ways to set data: files of a type (`set_datasets_electron`, `_sscha`, `_vasp`, `set_multiple_datasets_vasp`,
`_phono3py`, `_property_yamls`; `pypolymlp.py` 273-422), structures with or without forces and stresses of training
and test data (424-498; automatic division has the same for both), displacements, whose shapes agree or not (500-548). -/
inductive Source (S : Type) where
  | files (t : DType) (s : S)
  | structures (trainForces trainStresses testForces testStresses : Bool) (s : S)
  | displacements (shapes : Bool) (s : S)

/-- The data of a source. -/
def Source.data {S : Type} : Source S → S
  | .files _ s => s
  | .structures _ _ _ _ s => s
  | .displacements _ s => s

/-- `_disable_derivative_flags` (`pypolymlp.py` 264-271). -/
def disableFlags {σ : Type} (h : Heap σ) (r : ℕ) (forces stresses : Bool) : Heap σ :=
  let h := if forces = false then noStress (noForce h r) r else h
  if stresses = false then noStress h r else h

/-- What is done to the parameters before the data are made. -/
def prepare {σ S : Type} (h : Heap σ) (r : ℕ) : Source S → Heap σ
  | .files t _ => setDType h r t
  | .structures f s f' s' _ => disableFlags (disableFlags h r f s) r f' s'
  | .displacements false _ => noStress h r
  | .displacements true _ => disableFlags (disableFlags (noStress h r) r true false) r true false

/-- Whether the assertions of `set_datasets_displacements` hold. -/
def Source.valid {S : Type} : Source S → Bool
  | .displacements ok _ => ok
  | _ => true

/-- The calls of the object.  `setParams` makes new components from arguments (`set_params`, 68-150), `setShared` uses
components that the caller holds (`params=`, 125-127), `paramFile` is `load_parameter_file` (52-66). -/
inductive Call (σ S F : Type) where
  | setParams (l : List (Single σ))
  | setShared (refs : List ℕ)
  | paramFile (l : List (Single σ)) (s : S)
  | append (s : Single σ)
  | setData (src : Source S)
  | fit (m : Method)
  | run (m : Method)
  | estimate
  | curve
  | load (f : F)

variable {σ D S F E : Type}

/-- `set_params` (`pypolymlp.py` 68-150). -/
def setParams (ext : Ext σ D S F E) (st : State σ D E) (h : Heap σ) (refs : List ℕ) : State σ D E × Except Err Unit :=
  match construct ext h refs with
  | (h', .ok r) => (⟨h', { st.o with params := some r }⟩, .ok ())
  | (h', .error e) => (⟨h', st.o⟩, .error e)

/-- `load_parameter_file` (`pypolymlp.py` 52-66): parameters and data are set together after both were made. -/
def paramFile (ext : Ext σ D S F E) (st : State σ D E) (l : List (Single σ)) (s : S) : State σ D E × Except Err Unit :=
  let a := alloc st.h l
  match construct ext a.1 a.2 with
  | (h', .error e) => (⟨h', st.o⟩, .error e)
  | (h', .ok r) =>
    match ext.load (view h' r) s with
    | .error e => (⟨h', st.o⟩, .error e)
    | .ok d => (⟨h', { st.o with params := some r, train := some d.1, test := some d.2 }⟩, .ok ())

/-- `append_hybrid_params` (`pypolymlp.py` 152-237); without parameters it prints a message (210-211) and then calls a
method of None. -/
def append (ext : Ext σ D S F E) (st : State σ D E) (s : Single σ) : State σ D E × Except Err Unit :=
  match st.o.params with
  | none => (st, .error .attributeError)
  | some r => (⟨(appendPart ext st.h r s).1, st.o⟩, (appendPart ext st.h r s).2)

/-- `set_datasets_…` (`pypolymlp.py` 273-548). -/
def setData (ext : Ext σ D S F E) (st : State σ D E) (src : Source S) : State σ D E × Except Err Unit :=
  match st.o.params with
  | none => (st, .error .runtimeError)
  | some r =>
    let h := prepare st.h r src
    if src.valid = false then (⟨h, st.o⟩, .error .assertionError)
    else
      match ext.load (view h r) src.data with
      | .error e => (⟨h, st.o⟩, .error e)
      | .ok d => (⟨h, { st.o with train := some d.1, test := some d.2 }⟩, .ok ())

/-- `fit`, `fit_standard`, `fit_cg` (`pypolymlp.py` 550-614). -/
def fit (ext : Ext σ D S F E) (st : State σ D E) (m : Method) : State σ D E × Except Err Unit :=
  match st.o.params with
  | none => (st, .error .runtimeError)
  | some r =>
    match st.o.train, st.o.test with
    | some tr, some te =>
      match ext.regress m (view st.h r) tr te with
      | .error e => (st, .error e)
      | .ok f =>
        match scaledCoeffs f (st.h.objs r).refs.length with
        | .error e => (st, .error e)
        | .ok sc => (⟨st.h, { st.o with model := some ⟨f, sc, r, none, none⟩ }⟩, .ok ())
    | _, _ => (st, .error .runtimeError)

/-- `estimate_error` (`pypolymlp.py` 633-658); iterating over missing data raises TypeError. -/
def estimate (ext : Ext σ D S F E) (st : State σ D E) : State σ D E × Except Err Unit :=
  match st.o.model with
  | none => (st, .error .runtimeError)
  | some m =>
    match st.o.train with
    | none => (st, .error .typeError)
    | some tr =>
      match ext.errors (view st.h m.params) m.scaled tr with
      | .error e => (st, .error e)
      | .ok e1 =>
        let st1 : State σ D E := ⟨st.h, { st.o with model := some { m with errTrain := some e1 } }⟩
        match st.o.test with
        | none => (st1, .error .typeError)
        | some te =>
          match ext.errors (view st.h m.params) m.scaled te with
          | .error e => (st1, .error e)
          | .ok e2 =>
            (⟨st.h, { st.o with model := some { m with errTrain := some e1, errTest := some e2 } }⟩, .ok ())

/-- `run` (`pypolymlp.py` 660-688). -/
def runFit (ext : Ext σ D S F E) (st : State σ D E) (m : Method) : State σ D E × Except Err Unit :=
  match fit ext st m with
  | (st', .error e) => (st', .error e)
  | (st', .ok _) => estimate ext st'

/-- `fit_learning_curve` (`pypolymlp.py` 690-703). -/
def learningCurve (ext : Ext σ D S F E) (st : State σ D E) : State σ D E × Except Err Unit :=
  match st.o.params with
  | none => (st, .error .runtimeError)
  | some r =>
    match st.o.train, st.o.test with
    | some tr, some te =>
      match ext.curve (view st.h r) tr te with
      | .error e => (st, .error e)
      | .ok l => (⟨st.h, { st.o with log := some l }⟩, .ok ())
    | _, _ => (st, .error .runtimeError)

/-- `load_mlp` (`pypolymlp.py` 721-732) of one file. -/
def loadMlp (ext : Ext σ D S F E) (st : State σ D E) (f : F) : State σ D E × Except Err Unit :=
  match ext.read f with
  | .error e => (st, .error e)
  | .ok p =>
    let a := alloc st.h [p.1]
    match construct ext a.1 a.2 with
    | (h', .error e) => (⟨h', st.o⟩, .error e)
    | (h', .ok r) =>
      let ones := List.replicate p.2.length 1
      (⟨h', { st.o with params := some r, model := some ⟨⟨p.2, ones, none⟩, [List.zipWith (· / ·) p.2 ones], r, none, none⟩ }⟩, .ok ())

/-- One call: the state after it, and whether it raised an exception. -/
def step (ext : Ext σ D S F E) (st : State σ D E) : Call σ S F → State σ D E × Except Err Unit
  | .setParams l => setParams ext st (alloc st.h l).1 (alloc st.h l).2
  | .setShared refs => setParams ext st st.h refs
  | .paramFile l s => paramFile ext st l s
  | .append s => append ext st s
  | .setData src => setData ext st src
  | .fit m => fit ext st m
  | .run m => runFit ext st m
  | .estimate => estimate ext st
  | .curve => learningCurve ext st
  | .load f => loadMlp ext st f

/-- A history of calls; exceptions are caught by the caller. -/
def exec (ext : Ext σ D S F E) (st : State σ D E) (cs : List (Call σ S F)) : State σ D E :=
  cs.foldl (fun s c => (step ext s c).1) st

/-- Several objects of one process: calls with the number of the object. -/
def execMany (ext : Ext σ D S F E) (p : Heap σ × (ℕ → Obj D E)) (cs : List (ℕ × Call σ S F)) : Heap σ × (ℕ → Obj D E) :=
  cs.foldl (fun p c =>
    let s := step ext ⟨p.1, p.2 c.1⟩ c.2
    (s.1.h, fun j => if j = c.1 then s.1.o else p.2 j)) p

/-- `coeffs` (`pypolymlp.py` 804-810). -/
def coeffs (st : State σ D E) : Except Err (List (List ℚ)) :=
  match st.o.model with
  | none => .error .attributeError
  | some m => .ok m.scaled

/-- `n_features` (`pypolymlp.py` 817-822). -/
def nFeatures (ext : Ext σ D S F E) (st : State σ D E) : Except Err ℕ :=
  match st.o.model with
  | some m => .ok m.fit.coeffs.length
  | none =>
    match st.o.params with
    | none => .error .typeError
    | some r => .ok (((view st.h r).parts.map fun p => ext.nfeat p.spec).sum)

/-- `save_mlps` (`io_polymlp.py` 25-51): the content of the files. -/
def saveMlps (v : View σ) (f : Fit) : Except Err (List (Single σ × List ℚ × List ℚ)) :=
  match v.parts with
  | [s] => .ok [(s, f.coeffs, f.scales)]
  | ps =>
    match f.cumulative with
    | none => .error .typeError
    | some cum =>
      (List.range ps.length).mapM fun (i : ℕ) =>
        match ps[i]?, (if i = 0 then some 0 else cum[i - 1]?), cum[i]? with
        | some s, some b, some e => .ok (s, slice f.coeffs b e, slice f.scales b e)
        | _, _, _ => .error .indexError

/-- `save_mlp` (`pypolymlp.py` 710-719). -/
def saveMlp (st : State σ D E) : Except Err (List (Single σ × List ℚ × List ℚ)) :=
  match st.o.model with
  | none => .error .runtimeError
  | some m => saveMlps (view st.h m.params) m.fit

/-- `save_errors` (`pypolymlp.py` 745-756); the attributes do not exist before `estimate_error`. -/
def saveErrors (st : State σ D E) : Except Err (E × E) :=
  match st.o.model with
  | none => .error .attributeError
  | some m =>
    match m.errTrain, m.errTest with
    | some a, some b => .ok (a, b)
    | _, _ => .error .attributeError

end Verif.DevApi
