import Mathlib.Data.Rat.Defs
import Verif.Model.Py

/-!
# The object for calculating properties

`/repo/src/pypolymlp/api/pypolymlp_calc.py` 25-847 (`PypolymlpCalc`) and
`/repo/src/pypolymlp/calculator/properties.py` 15-169 (`Properties`).

The potential is an arbitrary function of structures that may fail.  Elastic constants, equations of state, phonons and
optimizations are arbitrary programs that evaluate lists of structures one after another (`Prog`) and then give a result
or fail.  Not modelled: files, formation energies (C48), force constants (C82), messages.
-/

namespace Verif.CalcApi

/-- A calculation: it ends, or it evaluates structures and goes on with the values that it was given (it does not
use the attributes of the shared `Properties`: `compute_elastic.py` 105-133, `compute_eos.py` 131, `compute_phonon.py` 59,
174-179, `opt_geometry.py` 81, 138, 165). -/
inductive Prog (St V R : Type) where
  | ret (r : Except Err R)
  | ask (ss : List St) (k : List V → Prog St V R)

/-- The attributes of `Properties` that an evaluation sets (`properties.py` 60-90): `_e`, `_f`, `_s` and `_structures`. -/
structure Last (St V : Type) where
  values : List V
  structs : List St

/-- `eval_multiple` (`properties.py` 67-71): the attributes are set after all structures were evaluated. -/
def evalMultiple {St V : Type} (pot : St → Except Err V) (last : Option (Last St V)) (ss : List St) :
    Option (Last St V) × Except Err (List V) :=
  match ss.mapM pot with
  | .error e => (last, .error e)
  | .ok vs => (some ⟨vs, ss⟩, .ok vs)

/-- Running a calculation: an exception in an evaluation ends it. -/
def runProg {St V R : Type} (pot : St → Except Err V) (last : Option (Last St V)) :
    Prog St V R → Option (Last St V) × Except Err R
  | .ret r => (last, r)
  | .ask ss k =>
    match evalMultiple pot last ss with
    | (last', .error e) => (last', .error e)
    | (last', .ok vs) => runProg pot last' (k vs)

/-- The calculations that make a new object and run it in one call. -/
inductive Kind where
  | elastic | eos | qha
  deriving DecidableEq

/-- The result of an optimization (`pypolymlp_calc.py` 496-515). -/
structure Opt (St : Type) where
  final : St
  energy : ℚ
  nIter : ℕ
  success : Bool

/-- The code that is not modelled.  Arguments are of type `A`; unit cells are None if no structure is set. -/
structure Ext (St V R A : Type) where
  pot : St → Except Err V
  feat : List St → Except Err R
  jobInit : Kind → Option St → A → Except Err Unit
  job : Kind → Option St → A → Prog St V R
  phononInit : Option St → A → Except Err Unit
  phonon : Option St → A → A → Prog St V R
  optInit : Option St → A → Prog St V Unit
  opt : Option St → A → List A → Prog St V (Opt St)

/-- The attributes of `PypolymlpCalc` (`pypolymlp_calc.py` 47-70) and of its `Properties`. -/
structure Calc (St V R A : Type) where
  structures : Option (List St)
  unitcell : Option St
  last : Option (Last St V)
  features : Option R
  jobs : Kind → Option (Option R)
  phonon : Option (Option St × A × Option R)
  opt : Option (Option St × A × List A × Option (Opt St))

/-- A new object. -/
def Calc.new {St V R A : Type} : Calc St V R A := ⟨none, none, none, none, fun _ => none, none, none⟩

/-- The calls: reading structures (a failed reading is an error), evaluation, features, elastic constants, equations of
state and quasi-harmonic calculations, phonons, optimizations.  Structures are None if they are not given. -/
inductive Call (St A : Type) where
  | load (l : Except Err (List St))
  | eval (s : Option (List St))
  | features (s : Option (List St))
  | job (k : Kind) (s : Option (List St)) (a : A)
  | phononInit (s : Option (List St)) (a : A)
  | phonon (a : A)
  | optInit (s : Option (List St)) (a : A)
  | opt (a : A)

/-- What a call returns. -/
inductive Out (V R : Type) where
  | done
  | values (v : List V)
  | result (r : R)
  | optimized (o : Option (ℚ × ℕ × Bool))

variable {St V R A : Type}

/-- `structures` if given (`pypolymlp_calc.py` 144-145, 191-192, 274-275, 313-314, 404-405, 454-455, 724-734). -/
def setStructs (c : Calc St V R A) : Option (List St) → Calc St V R A
  | none => c
  | some l => { c with structures := some l }

/-- `first_structure` (`pypolymlp_calc.py` 712-717). -/
def first (c : Calc St V R A) : Except Err (Option St) :=
  match c.structures with
  | none => .ok none
  | some [] => .error .indexError
  | some (s :: _) => .ok (some s)

/-- `eval` (`pypolymlp_calc.py` 131-154); iterating over None raises TypeError. -/
def eval (ext : Ext St V R A) (c : Calc St V R A) (s : Option (List St)) : Calc St V R A × Except Err (Out V R) :=
  let c := setStructs c s
  match c.structures with
  | none => (c, .error .typeError)
  | some l =>
    match evalMultiple ext.pot c.last l with
    | (last', .error e) => ({ c with last := last' }, .error e)
    | (last', .ok vs) => ({ c with last := last' }, .ok (.values vs))

/-- `run_features` (`pypolymlp_calc.py` 172-210). -/
def features (ext : Ext St V R A) (c : Calc St V R A) (s : Option (List St)) : Calc St V R A × Except Err (Out V R) :=
  let c := setStructs c s
  match c.structures with
  | none => (c, .error .typeError)
  | some l =>
    match ext.feat l with
    | .error e => (c, .error e)
    | .ok r => ({ c with features := some r }, .ok (.result r))

/-- `run_elastic_constants`, `run_eos`, `run_qha` (`pypolymlp_calc.py` 216-238, 244-290, 370-423): the unit cell is the
first structure, a new object replaces the old one, and is run.  Simplification: after a failure the object has no
result; in the code it has those parts that were computed. -/
def job (ext : Ext St V R A) (c : Calc St V R A) (k : Kind) (s : Option (List St)) (a : A) :
    Calc St V R A × Except Err (Out V R) :=
  let c := setStructs c s
  match first c with
  | .error e => (c, .error e)
  | .ok u =>
    match ext.jobInit k u a with
    | .error e => ({ c with unitcell := u }, .error e)
    | .ok _ =>
      match runProg ext.pot c.last (ext.job k u a) with
      | (last', .error e) =>
        ({ c with unitcell := u, last := last', jobs := fun k' => if k' = k then some none else c.jobs k' }, .error e)
      | (last', .ok r) =>
        ({ c with unitcell := u, last := last', jobs := fun k' => if k' = k then some (some r) else c.jobs k' },
          .ok (.result r))

/-- `init_phonon` (`pypolymlp_calc.py` 296-322). -/
def phononInit (ext : Ext St V R A) (c : Calc St V R A) (s : Option (List St)) (a : A) :
    Calc St V R A × Except Err (Out V R) :=
  let c := setStructs c s
  match first c with
  | .error e => (c, .error e)
  | .ok u =>
    match ext.phononInit u a with
    | .error e => ({ c with unitcell := u }, .error e)
    | .ok _ => ({ c with unitcell := u, phonon := some (u, a, none) }, .ok .done)

/-- `run_phonon` (`pypolymlp_calc.py` 324-363).  Simplification: after a failure the object has no result; in the code
it has those parts that were computed. -/
def phonon (ext : Ext St V R A) (c : Calc St V R A) (a : A) : Calc St V R A × Except Err (Out V R) :=
  match c.phonon with
  | none => (c, .error .runtimeError)
  | some (u, a0, _) =>
    match runProg ext.pot c.last (ext.phonon u a0 a) with
    | (last', .error e) => ({ c with last := last', phonon := some (u, a0, none) }, .error e)
    | (last', .ok r) => ({ c with last := last', phonon := some (u, a0, some r) }, .ok .done)

/-- `init_geometry_optimization` (`pypolymlp_calc.py` 430-473): a ValueError means that there is nothing to optimize. -/
def optInit (ext : Ext St V R A) (c : Calc St V R A) (s : Option (List St)) (a : A) :
    Calc St V R A × Except Err (Out V R) :=
  let c := setStructs c s
  match first c with
  | .error e => (c, .error e)
  | .ok u =>
    match runProg ext.pot c.last (ext.optInit u a) with
    | (last', .error .valueError) => ({ c with last := last', opt := none }, .ok .done)
    | (last', .error e) => ({ c with last := last' }, .error e)
    | (last', .ok _) => ({ c with last := last', opt := some (u, a, [], none) }, .ok .done)

/-- `run_geometry_optimization` (`pypolymlp_calc.py` 475-515).  A second run continues from the first: its result depends
on all runs of the object. -/
def opt (ext : Ext St V R A) (c : Calc St V R A) (a : A) : Calc St V R A × Except Err (Out V R) :=
  match c.opt with
  | none => (c, .ok (.optimized none))
  | some (u, a0, as, old) =>
    match runProg ext.pot c.last (ext.opt u a0 (as ++ [a])) with
    | (last', .error e) => ({ c with last := last', opt := some (u, a0, as ++ [a], old) }, .error e)
    | (last', .ok o) =>
      ({ c with last := last', opt := some (u, a0, as ++ [a], some o), structures := some [o.final] },
        .ok (.optimized (some (o.energy, o.nIter, o.success))))

/-- One call. -/
def step (ext : Ext St V R A) (c : Calc St V R A) : Call St A → Calc St V R A × Except Err (Out V R)
  | .load (.ok l) => ({ c with structures := some l }, .ok .done)
  | .load (.error e) => (c, .error e)
  | .eval s => eval ext c s
  | .features s => features ext c s
  | .job k s a => job ext c k s a
  | .phononInit s a => phononInit ext c s a
  | .phonon a => phonon ext c a
  | .optInit s a => optInit ext c s a
  | .opt a => opt ext c a

/-- A history; exceptions are caught by the caller. -/
def exec (ext : Ext St V R A) (c : Calc St V R A) (cs : List (Call St A)) : Calc St V R A :=
  cs.foldl (fun c x => (step ext c x).1) c

/-- `energies`, `forces`, `stresses` (`pypolymlp_calc.py` 675-697). -/
def reported (c : Calc St V R A) : Option (List V) := c.last.map fun l => l.values

/-- `stresses_gpa` (`pypolymlp_calc.py` 699-705, `properties.py` 166-169, `calculator/utils/properties_utils.py` 48-66): the stress of a
structure divided by its volume; a different number of structures raises an exception, which gives None. -/
def stressesGpa (stress : V → List ℚ) (vol : St → ℚ) (c : Calc St V R A) : Option (List (List ℚ)) :=
  match c.last with
  | none => none
  | some l =>
    if l.values.length = l.structs.length then
      some (List.zipWith (fun v s => (stress v).map fun (x : ℚ) => x * 16021766208 / 10 ^ 8 / vol s) l.values l.structs)
    else none

/-- `elastic_constants`, `eos_fit_data`, `temperatures`, ... (`pypolymlp_calc.py` 751-784, 825-847): None without an
object, and if the object has no result. -/
def jobResult (c : Calc St V R A) (k : Kind) : Option R := (c.jobs k).join

/-- `instance_phonopy`, `phonon_dos`, ... (`pypolymlp_calc.py` 801-823). -/
def phononResult (c : Calc St V R A) : Option R :=
  match c.phonon with
  | some (_, _, r) => r
  | none => none

/-- `go_data` (`pypolymlp_calc.py` 786-799). -/
def goData (c : Calc St V R A) : Option (ℚ × ℕ × Bool) :=
  match c.opt with
  | some (_, _, _, some o) => some (o.energy, o.nIter, o.success)
  | _ => none

/-- `converged_structure` (`pypolymlp_calc.py` 719-722). -/
def converged (c : Calc St V R A) : Except Err (Option St) := first c

/-- Coefficients as a caller gives them: one array, or a list of arrays. -/
inductive Coeffs where
  | flat (c : List ℚ)
  | nested (c : List (List ℚ))

/-- What the evaluation is given: an array, a list of arrays, or a number. -/
inductive Given where
  | array (c : List ℚ)
  | arrays (c : List (List ℚ))
  | number (c : ℚ)

/-- `len`. -/
def Coeffs.len : Coeffs → ℕ
  | .flat c => c.length
  | .nested c => c.length

/-- `coeffs[0]`. -/
def Coeffs.head : Coeffs → Except Err Given
  | .flat (x :: _) => .ok (.number x)
  | .nested (x :: _) => .ok (.array x)
  | _ => .error .indexError

/-- The coefficients as they are. -/
def Coeffs.whole : Coeffs → Given
  | .flat c => .array c
  | .nested c => .arrays c

/-- `Properties.__init__` and `initialize_polymlp_calculator` with parameters of `n` models and coefficients
(`properties.py` 46-58, 190-202). -/
def givenCoeffs (n : ℕ) (c : Option Coeffs) : Except Err Given :=
  match c with
  | none => .error .runtimeError
  | some c =>
    if 1 < n ∧ n ≠ c.len then .error .runtimeError
    else if n = 1 then
      if c.len ≠ 1 then .ok c.whole else c.head
    else if n ≠ c.len then .error .runtimeError
    else .ok c.whole

end Verif.CalcApi
