import Verif.Model.Py
import Verif.Model.Dict
import Mathlib.Analysis.SpecialFunctions.Trigonometric.Inverse
import Mathlib.Analysis.SpecialFunctions.Sqrt

/-!
# Prediction errors

`/repo/src/pypolymlp/mlp_dev/core/eval_accuracy.py` 15-268 and `core/utils.py` 37-39.

Real arithmetic; the mean of no values is zero here (`nan` in numpy).  The potential is an arbitrary function of the
structure.  Arrays of different lengths raise an error (numpy also accepts an array of length one).  Text of reports is
left out; a file of predictions is the list of its rows.  Strings are lists of characters.
-/

namespace Verif.Accuracy

/-- A structure: what the potential sees, the numbers of atoms of the elements, and the volume. -/
structure Str (S : Type) where
  input : S
  nAtoms : List ℕ
  volume : ℝ

/-- Prediction for a structure: energy, forces (one column for each atom) and stress (`calculator/properties.py`). -/
structure Pred where
  energy : ℝ
  forces : List (Fin 3 → ℝ)
  stress : Fin 6 → ℝ

/-- The attributes of a data set that are used (`core/dataset.py`). -/
structure DataSet (S : Type) where
  name : List Char
  structures : List (Str S)
  energies : List ℝ
  forces : List ℝ
  stresses : List ℝ
  existForce : Bool
  existStress : Bool
  files : List String

/-- A difference, product or quotient of two arrays. -/
def zipArr (f : ℝ → ℝ → ℝ) (a b : List ℝ) : Except Err (List ℝ) :=
  if a.length = b.length then .ok (List.zipWith f a b) else .error .valueError

/-- `np.mean`. -/
noncomputable def mean (l : List ℝ) : ℝ := l.sum / l.length

/-- `rmse` (`core/utils.py` 37-39). -/
noncomputable def rmse (t p : List ℝ) : Except Err ℝ := do
  let d ← zipArr (· - ·) t p
  return Real.sqrt (mean (d.map fun x => x ^ 2))

/-- The normalisation in `_compute_rmse` and `_compute_mae` (`eval_accuracy.py` 185-190, 201-206). -/
noncomputable def normalized (normalize : Option (List ℝ)) (v : List ℝ) : Except Err (List ℝ) :=
  match normalize with
  | none => .ok v
  | some n => zipArr (· / ·) v n

/-- `_compute_rmse` (`eval_accuracy.py` 178-192). -/
noncomputable def computeRmse (t p : List ℝ) (normalize : Option (List ℝ)) : Except Err (ℝ × List ℝ × List ℝ) := do
  let t' ← normalized normalize t
  let p' ← normalized normalize p
  let r ← rmse t' p'
  return (r, t', p')

/-- `_compute_mae` (`eval_accuracy.py` 194-209). -/
noncomputable def computeMae (t p : List ℝ) (normalize : Option (List ℝ)) : Except Err ℝ := do
  let t' ← normalized normalize t
  let p' ← normalized normalize p
  let d ← zipArr (· - ·) t' p'
  return mean (d.map fun x => |x|)

/-- The dictionary of errors (`eval_accuracy.py` 127-136). -/
structure Errors where
  energy : ℝ
  force : Option ℝ
  stress : Option ℝ
  energyMae : ℝ
  forceMae : Option ℝ
  stressMae : Option ℝ
  percentForceNorm : Option ℝ
  forceDirection : Option ℝ

/-- `reshape((-1, 3))`. -/
def rows3 : List ℝ → List (Fin 3 → ℝ)
  | a :: b :: c :: rest => ![a, b, c] :: rows3 rest
  | _ => []

/-- The norm of a force. -/
noncomputable def norm3 (v : Fin 3 → ℝ) : ℝ := Real.sqrt (v 0 ^ 2 + v 1 ^ 2 + v 2 ^ 2)

/-- Errors of the norms and directions of forces (`eval_accuracy.py` 88-100): the average relative error of the norm, and
the angle in degrees. -/
noncomputable def forceDirection (t p : List ℝ) : ℝ × ℝ :=
  let pairs := (rows3 t).zip (rows3 p)
  let percent := mean (pairs.map fun q => |(norm3 q.2 - norm3 q.1) / norm3 q.1|)
  let cosine := pairs.map fun q =>
    q.1 0 / norm3 q.1 * (q.2 0 / norm3 q.2) + q.1 1 / norm3 q.1 * (q.2 1 / norm3 q.2) +
      q.1 2 / norm3 q.1 * (q.2 2 / norm3 q.2)
  (percent, Real.arccos (mean (cosine.map fun x => |x|)) * 180 / Real.pi)

/-- What `compute_error_single` computes before it writes files (`eval_accuracy.py` 60-136). -/
structure Result where
  errors : Errors
  trueE : List ℝ
  predE : List ℝ
  force : Option (List ℝ × List ℝ)
  stress : Option (List ℝ × List ℝ)

/-- The normalisation of stresses (`eval_accuracy.py` 105-110): no value for any other unit. -/
noncomputable def stressNormalize {S : Type} (unit : String) (strs : List (Str S)) : Option (List ℝ) :=
  if unit = "eV" then some (strs.flatMap fun st => List.replicate 6 (st.nAtoms.sum : ℝ))
  else if unit = "GPa" then some (strs.flatMap fun st => List.replicate 6 (st.volume / (16021766208 / 100000000)))
  else none

/-- The part of `compute_error_single` for forces (`eval_accuracy.py` 80-103). -/
noncomputable def forcePart {S : Type} (d : DataSet S) (forces : List ℝ) (direction : Bool) :
    Except Err (Option (ℝ × ℝ × Option (ℝ × ℝ) × List ℝ × List ℝ)) :=
  if d.existForce = false then .ok none
  else do
    let r ← computeRmse d.forces forces none
    let m ← computeMae d.forces forces none
    return some (r.1, m, (if direction then some (forceDirection d.forces forces) else none), r.2)

/-- The part of `compute_error_single` for stresses (`eval_accuracy.py` 112-125). -/
noncomputable def stressPart {S : Type} (d : DataSet S) (stresses : List ℝ) (unit : String) :
    Except Err (Option (ℝ × ℝ × List ℝ × List ℝ)) :=
  if d.existStress = false then .ok none
  else
    match stressNormalize unit d.structures with
    | none => .error .nameError
    | some n => do
      let r ← computeRmse d.stresses stresses (some n)
      let m ← computeMae d.stresses stresses (some n)
      return some (r.1, m, r.2)

/-- `compute_error_single` up to the dictionary (`eval_accuracy.py` 49-136). -/
noncomputable def evaluate {S : Type} (eval : S → Pred) (d : DataSet S) (unit : String) (direction : Bool) :
    Except Err Result := do
  let preds := d.structures.map fun st => eval st.input
  let energies := preds.map Pred.energy
  let forces := preds.flatMap fun p => p.forces.flatMap fun v => [v 0, v 1, v 2]
  let stresses := preds.flatMap fun p => [p.stress 0, p.stress 1, p.stress 2, p.stress 3, p.stress 4, p.stress 5]
  let n := d.structures.map fun st => (st.nAtoms.sum : ℝ)
  let e ← computeRmse d.energies energies (some n)
  let me ← computeMae d.energies energies (some n)
  let f ← forcePart d forces direction
  let s ← stressPart d stresses unit
  return { errors :=
             { energy := e.1, force := f.map fun x => x.1, stress := s.map fun x => x.1, energyMae := me
               forceMae := f.map fun x => x.2.1, stressMae := s.map fun x => x.2.1
               percentForceNorm := f.bind fun x => x.2.2.1.map Prod.fst
               forceDirection := f.bind fun x => x.2.2.1.map Prod.snd }
           trueE := e.2.1, predE := e.2.2
           force := f.map fun x => x.2.2.2
           stress := s.map fun x => x.2.2 }

/-- `str.replace` with a pattern that is not empty: occurrences from the left that do not overlap.  `skip` characters
belong to an occurrence that was replaced. -/
def replaceGo (pat rep : List Char) : ℕ → List Char → List Char
  | _, [] => []
  | skip + 1, _ :: s => replaceGo pat rep skip s
  | 0, c :: s => if pat.isPrefixOf (c :: s) then rep ++ replaceGo pat rep (pat.length - 1) s else c :: replaceGo pat rep 0 s

/-- `str.replace`. -/
def replace (pat rep : List Char) (s : List Char) : List Char := replaceGo pat rep 0 s

/-- `_generate_output_key` (`eval_accuracy.py` 211-221). -/
def outputKey (name tag : List Char) : List Char :=
  let k := replace ['.', '.', '/'] [] (replace ['*'] ['-'] name)
  let k := replace ['/'] ['-'] (replace ['.'] ['-'] k)
  replace ['-', '-'] ['-'] (replace ['-', '-', '-'] ['-'] (tag ++ '-' :: k))

/-- A row of a file of predictions: true value, predicted value, difference, and the name of the file it is from. -/
abbrev Row := ℝ × ℝ × ℝ × String

/-- Files by name. -/
abbrev Files := Dict (List Char) (List Row)

/-- `_write_energies` (`eval_accuracy.py` 223-237): the rows are paired with the names of the files. -/
def energyRows (t p : List ℝ) (files : List String) : List Row :=
  ((t.zip p).zip files).map fun q => (q.1.1, q.1.2, (q.1.1 - q.1.2) * 1000, q.2)

/-- `_write_forces`, `_write_stresses` (`eval_accuracy.py` 239-268). -/
def valueRows (t p : List ℝ) : List Row := (t.zip p).map fun q => (q.1, q.2, q.1 - q.2, "")

/-- The name of a file of predictions. -/
def fileName (path kind key : List Char) : List Char :=
  path ++ "/predictions/".toList ++ kind ++ '.' :: key ++ ".dat".toList

/-- Writing a file of forces or stresses: the values do not exist (`UnboundLocalError`) if the data set has none. -/
def writeValues (path kind key : List Char) (log : Bool) (v : Option (List ℝ × List ℝ)) (fs : Files) : Files × Option Err :=
  if log = false then (fs, none)
  else match v with
    | none => (fs, some .nameError)
    | some (t, p) => (fs.set (fileName path kind key) (valueRows t p), none)

/-- Which files are written. -/
structure Logs where
  energy : Bool
  force : Bool
  stress : Bool

/-- `compute_error_single` (`eval_accuracy.py` 49-149): files and errors, or the exception. -/
noncomputable def computeErrorSingle {S : Type} (eval : S → Pred) (d : DataSet S) (key : List Char) (unit : String)
    (logs : Logs) (path : List Char) (direction : Bool) (fs : Files) : Files × Except Err Errors :=
  match evaluate eval d unit direction with
  | .error e => (fs, .error e)
  | .ok r =>
    let fs1 := if logs.energy then fs.set (fileName path "energy".toList key) (energyRows r.trueE r.predE d.files) else fs
    match writeValues path "force".toList key logs.force r.force fs1 with
    | (fs2, some e) => (fs2, .error e)
    | (fs2, none) =>
      match writeValues path "stress".toList key logs.stress r.stress fs2 with
      | (fs3, some e) => (fs3, .error e)
      | (fs3, none) => (fs3, .ok r.errors)

/-- `compute_error` (`eval_accuracy.py` 24-47): errors by the names of data sets. -/
noncomputable def computeError {S : Type} (eval : S → Pred) (unit : String) (logs : Logs) (path tag : List Char) :
    List (DataSet S) → Files → Dict (List Char) Errors → Files × Except Err (Dict (List Char) Errors)
  | [], fs, errors => (fs, .ok errors)
  | d :: ds, fs, errors =>
    match computeErrorSingle eval d (outputKey d.name tag) unit logs path false fs with
    | (fs', .error e) => (fs', .error e)
    | (fs', .ok er) => computeError eval unit logs path tag ds fs' (errors.set d.name er)

end Verif.Accuracy
