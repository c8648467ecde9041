import Verif.Model.Py
import Mathlib.Analysis.SpecialFunctions.Trigonometric.Basic
import Mathlib.Analysis.SpecialFunctions.Pow.Real

/-!
# Parameters and sessions of SSCHA calculations

`/repo/src/pypolymlp/calculator/sscha/sscha_params.py`, `/repo/src/pypolymlp/api/pypolymlp_sscha.py`,
`/repo/src/pypolymlp/calculator/sscha/sscha_core.py` 78-86 and 105-137, `/repo/src/pypolymlp/calculator/sscha/api_sscha.py`
12-129 and `/repo/src/pypolymlp/calculator/sscha/api_properties.py` 80-135.

Exact arithmetic.  Cells, force constants, potentials and results are arbitrary types; a calculation is an arbitrary program.
Printing, the parameters that are only handed on, the types of numbers (integers or floats) and `nac_params` are left out.
-/

namespace Verif.SschaApi

/-- `round` and `np.round`: to the nearest integer, halves to the even one. -/
noncomputable def rint (x : ℝ) : ℤ :=
  if x - ⌊x⌋ < 1 / 2 then ⌊x⌋
  else if 1 / 2 < x - ⌊x⌋ then ⌊x⌋ + 1
  else if ⌊x⌋ % 2 = 0 then ⌊x⌋ else ⌊x⌋ + 1

/-- `np.isclose(a, b)`. -/
def IsClose (a b : ℝ) : Prop := |a - b| ≤ 1e-8 + 1e-5 * |b|

open Classical in
/-- `_round_temperature` (`sscha_params.py` 99-103). -/
noncomputable def roundTemp (t : ℝ) : ℝ := if IsClose t (rint t) then rint t else t

/-- `np.arange(start, stop, step)`. -/
noncomputable def arange (start stop step : ℝ) : Except Err (List ℝ) :=
  if step = 0 then .error .zeroDivision
  else .ok ((List.range ⌈(stop - start) / step⌉.toNat).map fun (i : ℕ) => start + i * step)

/-- `np.cos(np.linspace(np.pi, 0, n))`. -/
noncomputable def nodes (n : ℕ) : List ℝ :=
  (List.range n).map fun (i : ℕ) => Real.cos (Real.pi + i * ((0 - Real.pi) / (n - 1 : ℕ)))

/-- The arguments for temperatures. -/
structure TempArgs where
  temp : Option ℝ := none
  tmin : ℝ := 0
  tmax : ℝ := 2000
  step : ℝ := 50
  nTemp : Option ℕ := none
  ascending : Bool := false

/-- The temperatures of an arithmetic progression (`sscha_params.py` 126-134). -/
noncomputable def progression (a : TempArgs) : Except Err (List ℝ) :=
  (arange (roundTemp a.tmin) (roundTemp a.tmax + 1) (roundTemp a.step)).map fun l => if a.ascending then l else l.reverse

open Classical in
/-- `set_temperatures` (`sscha_params.py` 105-134). -/
noncomputable def setTemperatures (a : TempArgs) : Except Err (List ℝ) :=
  match a.temp, a.nTemp with
  | some t, _ => .ok [roundTemp t]
  | none, some n =>
    if IsClose a.tmax a.tmin then .ok [roundTemp a.tmax]
    else .ok ((nodes n).map fun x => roundTemp (rint ((a.tmax - a.tmin) * (x + 1) / 2 + a.tmin)))
  | none, none => progression a

/-- A supercell matrix as given: three numbers or a matrix by rows. -/
inductive MatArg where
  | diag (a b c : ℤ)
  | full (m : Fin 3 → Fin 3 → ℤ)

/-- `supercell_matrix` (`sscha_params.py` 244-247). -/
def MatArg.matrix : MatArg → Fin 3 → Fin 3 → ℤ
  | .diag a b c, i, j => if i = j then (if i = 0 then a else if i = 1 then b else c) else 0
  | .full m, i, j => m i j

/-- `np.linalg.det`. -/
def det3 (m : Fin 3 → Fin 3 → ℤ) : ℤ :=
  m 0 0 * (m 1 1 * m 2 2 - m 1 2 * m 2 1) - m 0 1 * (m 1 0 * m 2 2 - m 1 2 * m 2 0) + m 0 2 * (m 1 0 * m 2 1 - m 1 1 * m 2 0)

/-- The arguments of a run besides temperatures (`pypolymlp_sscha.py` 112-134). -/
structure RunArgs where
  temps : TempArgs := {}
  nInit : Option ℤ := none
  nFinal : Option ℤ := none
  tol : ℝ := 0.005
  algorithm : String := "harmonic"
  fcFile : Option String := none
  cutoff : Option ℝ := none
  precondition : Bool := true
  temporal : Bool := false

/-- `SSCHAParams` (`sscha_params.py` 69-97). -/
structure Params (C F : Type) where
  unitcell : C
  matrix : Fin 3 → Fin 3 → ℤ
  nUnitcells : ℤ
  nAtom : ℤ
  temperatures : List ℝ
  nInit : Option ℤ
  nFinal : Option ℤ
  tol : ℝ
  algorithm : String
  fcFile : Option String
  cutoff : Option ℝ
  fc2 : Option F

/-- What is not modelled. -/
structure Ext (C F V P D : Type) where
  nElements : C → ℕ
  nBasis : Params C F → ℕ
  readFc : String → Except Err F
  harmonic : Params C F → V → Except Err F
  fixed : Params C F → F
  random : Params C F → F
  calculator : P → Except Err V
  poscar : String → Except Err C
  restart : String → Option String → Except Err (C × MatArg × P × Option F)
  /-- Iterations at the temperatures after preconditioning: the last force constants and the results. -/
  iterate : Params C F → V → F → Bool → List ℝ → Except Err (F × D)

variable {C F V P D : Type}

/-- `SSCHAParams.__init__` (`sscha_params.py` 69-97, 232-249). -/
noncomputable def mkParams (ext : Ext C F V P D) (cell : C) (mat : MatArg) (fc2 : Option F) (a : RunArgs) :
    Except Err (Params C F) := do
  let temps ← setTemperatures a.temps
  return {
    unitcell := cell
    matrix := mat.matrix
    nUnitcells := det3 mat.matrix
    nAtom := ext.nElements cell * det3 mat.matrix
    temperatures := temps
    nInit := a.nInit
    nFinal := a.nFinal
    tol := a.tol
    algorithm := a.algorithm
    fcFile := a.fcFile
    cutoff := a.cutoff
    fc2 := fc2 }

/-- `set_n_samples_from_basis` (`sscha_params.py` 156-168): a power of a negative number is complex and has no `round`. -/
noncomputable def fromBasis (p : Params C F) (nBasis : ℕ) : Except Err (Params C F) :=
  if p.nAtom = 0 then .error .runtimeError
  else if p.tol = 0 then .error .zeroDivision
  else if p.tol < 0 then .error .typeError
  else
    let n := rint (450 * (0.01 / p.tol) ^ (2.5 : ℝ) * nBasis / p.nAtom)
    .ok { p with nInit := some n, nFinal := some (3 * n) }

/-- `_set_num_samples` (`sscha_core.py` 78-86). -/
noncomputable def setNumSamples (ext : Ext C F V P D) (p : Params C F) : Except Err (Params C F) :=
  match p.nInit with
  | none => fromBasis p (ext.nBasis p)
  | some _ => .ok p

/-- `set_initial_force_constants` (`sscha_core.py` 105-137): a missing file name gives TypeError. -/
def initialFc (ext : Ext C F V P D) (p : Params C F) (prop : V) (fc2 : Option F) : Except Err F :=
  match fc2 with
  | some f => .ok f
  | none =>
    if p.algorithm = "harmonic" then ext.harmonic p prop
    else if p.algorithm = "const" then .ok (ext.fixed p)
    else if p.algorithm = "random" then .ok (ext.random p)
    else if p.algorithm = "file" then
      match p.fcFile with
      | some f => ext.readFc f
      | none => .error .typeError
    else .error .runtimeError

/-- `run_sscha_standard` (`api_sscha.py` 49-77): the parameters that were used, the force constants and the results. -/
noncomputable def runStandard (ext : Ext C F V P D) (p : Params C F) (prop : V) (prec : Bool) :
    Except Err (Params C F × F × D) := do
  let p ← setNumSamples ext p
  let fc ← initialFc ext p prop p.fc2
  let r ← ext.iterate p prop fc prec p.temperatures
  return (p, r)

/-- The cutoff is absent or above 7 (`api_sscha.py` 96). -/
noncomputable def long (c : Option ℝ) : Bool :=
  match c with
  | none => true
  | some c => decide (7 < c)

/-- `run_sscha_large_system` (`api_sscha.py` 80-129).  The first component is the state of the parameters that were given; the
calculation uses a copy. -/
noncomputable def runLarge (ext : Ext C F V P D) (p : Params C F) (prop : V) (prec : Bool) :
    Except Err (Params C F × F × D) :=
  if long p.cutoff then do
    let q ← setNumSamples ext { p with cutoff := some 6 }
    let fc ← initialFc ext q prop q.fc2
    let t ← orErr .indexError q.temperatures.head?
    let first ← ext.iterate q prop fc prec [t]
    let target ← setNumSamples ext p
    let r ← ext.iterate target prop first.1 false target.temperatures
    return ({ q with cutoff := p.cutoff }, r)
  else runStandard ext p prop prec

/-- `run_sscha` (`api_sscha.py` 12-46). -/
noncomputable def runSscha (ext : Ext C F V P D) (p : Params C F) (prop : V) (prec temporal : Bool) :
    Except Err (Params C F × F × D) :=
  if temporal then runLarge ext p prop prec else runStandard ext p prop prec

/-- `PypolymlpSSCHA` (`pypolymlp_sscha.py` 24-36). -/
structure Session (C F V P D : Type) where
  unitcell : Option C := none
  matrix : Option MatArg := none
  pot : Option P := none
  prop : Option V := none
  fc2 : Option F := none
  params : Option (Params C F) := none
  result : Option D := none

/-- `"/".join(yaml.split("/")[:-1])`. -/
def directory (path : List Char) : List Char := (path.reverse.dropWhile (· ≠ '/')).tail.reverse

/-- The file of force constants (`pypolymlp_sscha.py` 86-89). -/
def fcPath (yaml : List Char) (parse : Bool) : Option (List Char) :=
  if parse then some (directory yaml ++ "/fc2.hdf5".toList) else none

/-- What a user can do.  Runs of geometry optimizations and elastic constants are left out. -/
inductive Op (C P : Type) where
  | loadPoscar (file : String) (m : MatArg)
  | setPolymlp (pot : P)
  | loadRestart (yaml : String) (parseFc parseMlp : Bool) (pot : Option P)
  | setUnitcell (c : C)
  | setMatrix (m : MatArg)
  | run (a : RunArgs)

/-- `run` of the session (`pypolymlp_sscha.py` 112-204).  The parameters are stored before the calculation starts. -/
noncomputable def runOp (ext : Ext C F V P D) (s : Session C F V P D) (a : RunArgs) : Except Err Unit × Session C F V P D :=
  match s.prop, s.unitcell, s.matrix with
  | none, _, _ => (.error .runtimeError, s)
  | some _, none, _ => (.error .runtimeError, s)
  | some _, some _, none => (.error .runtimeError, s)
  | some v, some c, some m =>
    match mkParams ext c m s.fc2 a with
    | .error e => (.error e, s)
    | .ok p =>
      match runSscha ext p v a.precondition a.temporal with
      | .error e => (.error e, { s with params := some p })
      | .ok (q, f, d) => (.ok (), { s with params := some q, fc2 := some f, result := some d })

/-- The operations (`pypolymlp_sscha.py` 41-97, 414-427).  `set_polymlp` stores the potential before it is read. -/
noncomputable def step (ext : Ext C F V P D) (s : Session C F V P D) : Op C P → Except Err Unit × Session C F V P D
  | .loadPoscar f m =>
    match ext.poscar f with
    | .error e => (.error e, s)
    | .ok c => (.ok (), { s with unitcell := some c, matrix := some m })
  | .setPolymlp p =>
    match ext.calculator p with
    | .error e => (.error e, { s with pot := some p })
    | .ok v => (.ok (), { s with pot := some p, prop := some v })
  | .loadRestart y pf pm pot =>
    match ext.restart y ((fcPath y.toList pf).map String.ofList) with
    | .error e => (.error e, s)
    | .ok (c, m, rp, f) =>
      let s := { s with unitcell := some c, matrix := some m }
      if pm then
        match ext.calculator (pot.getD rp) with
        | .error e => (.error e, { s with pot := some (pot.getD rp) })
        | .ok v => (.ok (), { s with pot := some (pot.getD rp), prop := some v, fc2 := f })
      else (.ok (), { s with fc2 := f })
  | .setUnitcell c => (.ok (), { s with unitcell := some c })
  | .setMatrix m => (.ok (), { s with matrix := some m })
  | .run a => runOp ext s a

/-- A history of operations; exceptions are caught. -/
noncomputable def history (ext : Ext C F V P D) (s : Session C F V P D) (ops : List (Op C P)) : Session C F V P D :=
  ops.foldl (fun s o => (step ext s o).2) s

/-- `PropertiesSSCHA.eval` (`api_properties.py` 80-115) without the symmetrization, for a calculation with the given results:
static potential and free energy in kJ/mol.  The arguments `precondition` and `use_temporal_cutoff` of the constructor are not
used. -/
noncomputable def evalProps (ext : Ext C F V P D) (static free : D → ℝ) (prop : V) (p : Params C F) (cell : C)
    (_prec _temporal : Bool) : Except Err (ℝ × Params C F × F × D) := do
  let r ← runSscha ext { p with unitcell := cell } prop true false
  return ((static r.2.2 + free r.2.2) / 96.48533212331002, r)

/-- `eval_multiple` (`api_properties.py` 117-135): energies; the parameters are kept from one structure to the next. -/
noncomputable def evalMultiple (ext : Ext C F V P D) (static free : D → ℝ) (prop : V) :
    Params C F → List C → Except Err (List ℝ × Params C F)
  | p, [] => .ok ([], p)
  | p, c :: cs => do
    let r ← evalProps ext static free prop p c true false
    let t ← evalMultiple ext static free prop r.2.1 cs
    return (r.1 :: t.1, t.2)

end Verif.SschaApi
