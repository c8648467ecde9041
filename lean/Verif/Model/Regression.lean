import Verif.Model.Sequential
import Mathlib.Algebra.BigOperators.Fin

/-!
# Ridge path, errors, model selection, conjugate gradients

`/repo/src/pypolymlp/mlp_dev/standard/solvers.py`, `mlp_dev/core/utils_model_selection.py`,
`mlp_dev/core/dataclass.py`, `mlp_dev/standard/fit.py`, `mlp_dev/gradient/solvers_cg.py`.
-/

namespace Verif.Regression
open Verif.Sequential
variable {p : ℕ} {K : Type}

/-- `u @ v`. -/
def dot [Semiring K] (u v : Vec p K) : K := ∑ a, u a * v a
/-- `A @ v`. -/
def mulVec [Semiring K] (A : Mat p K) (v : Vec p K) : Vec p K := fun a => ∑ b, A a b * v b

/-- `compute_mse` (`utils_model_selection.py` 37-47). -/
def computeMse [Field K] (xtx : Mat p K) (xty : Vec p K) (ySq : K) (size : ℕ) (c : Vec p K) : K :=
  let v1 := dot c (mulVec xtx c)
  let v2 := dot (fun a => -2 * c a) xty
  (v1 + v2 + ySq) / (size : K)

/-- A numpy scalar that may be NaN.  Only the results of `np.sqrt` are wrapped. -/
inductive NF (K : Type) where
  | nan
  | val (x : K)
  deriving DecidableEq, Repr

/-- `np.sqrt` on one number: NaN (with a warning, no exception) for a negative argument, so the
`except` at `utils_model_selection.py` 67-68 is never taken. -/
def npSqrt [Field K] [LinearOrder K] (sqrt : K → K) (x : K) : NF K :=
  if x < 0 then .nan else .val (sqrt x)

/-- `_check_singular` (`utils_model_selection.py` 13-20); a comparison with NaN is false. -/
def checkSingular [Field K] [LinearOrder K] (rs : List (NF K)) (threshold : K) : Except Err Unit :=
  if rs.all (fun r => match r with | .nan => false | .val x => decide (threshold < x))
  then .error .runtimeError else .ok ()

/-- `compute_rmse_standard` (`utils_model_selection.py` 23-34) with `rmse` of `core/utils.py` 37-39:
`sqrt(mean((y - x c)^2))` for each column of coefficients. -/
def computeRmseStandard [Field K] [LinearOrder K] (sqrt : K → K) (cs : List (Vec p K))
    (X : List (Vec p K × K)) (check : Bool) : Except Err (List (NF K)) := do
  let rs := cs.map fun c =>
    npSqrt sqrt ((X.map fun r => (r.2 - dot r.1 c) * (r.2 - dot r.1 c)).sum / (X.length : K))
  if check then
    checkSingular rs 1000000
    return rs
  else return rs

/-- `compute_rmse_seq` (`utils_model_selection.py` 50-72). -/
def computeRmseSeq [Field K] [LinearOrder K] (sqrt : K → K) (cs : List (Vec p K))
    (N : Normal p K) (check : Bool) : Except Err (List (NF K)) := do
  let rs := cs.map fun c => npSqrt sqrt (computeMse N.xtx N.xty N.ySq N.nData c)
  if check then
    checkSingular rs 1000000
    return rs
  else return rs

/-- The two forms of `PolymlpDataXY` that reach `compute_rmse`: rows kept, or products kept. -/
inductive DataXY (p : ℕ) (K : Type) where
  | rows (X : List (Vec p K × K))
  | products (N : Normal p K)

/-- `compute_rmse` (`utils_model_selection.py` 75-88).  The flag `check_singular` is accepted but
not passed on (lines 85-88), exactly as in the source. -/
def computeRmse [Field K] [LinearOrder K] (sqrt : K → K) (cs : List (Vec p K)) (d : DataXY p K)
    (_checkSingular : Bool) : Except Err (List (NF K)) :=
  match d with
  | .rows X => computeRmseStandard sqrt cs X false
  | .products N => computeRmseSeq sqrt cs N false

/-- `solve_linear_equation` (`standard/solvers.py` 9-45): LAPACK `posv` is the parameter `posv`
(`none` when `info != 0`); on failure every coefficient is `1e30`. -/
def solveLinear [Field K] (posv : Mat p K → Vec p K → Option (Vec p K)) (A : Mat p K) (b : Vec p K) :
    Vec p K := (posv A b).getD fun _ => 10 ^ 30

/-- `xtx.flat[:: n_features + 1] += add` (`standard/solvers.py` 78, 83): every flat (row-major)
position that is a multiple of `n_features + 1`. -/
def addFlat [Add K] (A : Mat p K) (add : K) : Mat p K := fun r c =>
  if (r.val * p + c.val) % (p + 1) = 0 then A r c + add else A r c

/-- Loop of `solver_ridge` (`standard/solvers.py` 70-82): the matrix object is updated in place and
carried along; returns the matrix, the last alpha and the columns computed. -/
def ridgeLoop [Field K] (posv : Mat p K → Vec p K → Option (Vec p K)) (b : Vec p K) :
    Mat p K → K → List K → Mat p K × List (Vec p K)
  | A, _, [] => (A, [])
  | A, prev, α :: rest =>
    let A' := addFlat A (α - prev)
    let c := solveLinear posv A' b
    let r := ridgeLoop posv b A' α rest
    (r.1, c :: r.2)

/-- `solver_ridge` (`standard/solvers.py` 48-84): coefficient columns and the caller's matrix after
the call.  With no alphas, line 83 refers to the unbound name `alpha`
(`UnboundLocalError`, a `NameError`). -/
def solverRidge [Field K] (posv : Mat p K → Vec p K → Option (Vec p K)) (A : Mat p K) (b : Vec p K)
    (alphas : List K) : Except Err (List (Vec p K) × Mat p K) :=
  let r := ridgeLoop posv b A 0 alphas
  match alphas.getLast? with
  | none => .error .nameError
  | some α => .ok (r.2, addFlat r.1 (-α))

/-- Inner loop of `np.argmin`: `best` at position `idx`; a NaN ends the search. -/
def argminFrom [LinearOrder K] (best : K) (idx : ℕ) : ℕ → List (NF K) → ℕ
  | _, [] => idx
  | i, .nan :: _ => i
  | i, .val x :: rest =>
    if x < best then argminFrom x i (i + 1) rest else argminFrom best idx (i + 1) rest

/-- `np.argmin`: first smallest entry, a NaN counts as smallest, `ValueError` on empty input. -/
def argmin [LinearOrder K] : List (NF K) → Except Err ℕ
  | [] => .error .valueError
  | .nan :: _ => .ok 0
  | .val x :: rest => .ok (argminFrom x 0 1 rest)

/-- The part of `PolymlpDataMLP` filled by `get_best_model` (`utils_model_selection.py` 108-116). -/
structure Best (p : ℕ) (K : Type) where
  coeffs : Vec p K
  rmseTrain : NF K
  rmseTest : NF K
  alpha : K

/-- `get_best_model` (`utils_model_selection.py` 91-117). -/
def getBestModel [LinearOrder K] (alphas : List K) (cs : List (Vec p K)) (train test : List (NF K)) :
    Except Err (Best p K) :=
  if alphas.length ≠ cs.length then .error .runtimeError
  else if alphas.length ≠ train.length then .error .runtimeError
  else if alphas.length ≠ test.length then .error .runtimeError
  else do
    let i ← argmin test
    let c ← orErr .indexError cs[i]?
    let rt ← orErr .indexError train[i]?
    let re ← orErr .indexError test[i]?
    let a ← orErr .indexError alphas[i]?
    return ⟨c, rt, re, a⟩

/-- `fit` (`standard/fit.py` 12-63) from the products of the training and the test data on. -/
def fit [Field K] [LinearOrder K] (sqrt : K → K) (posv : Mat p K → Vec p K → Option (Vec p K))
    (alphas : List K) (train test : Normal p K) : Except Err (Best p K) := do
  let s ← solverRidge posv train.xtx train.xty alphas
  let rt ← computeRmse sqrt s.1 (.products { train with xtx := s.2 }) true
  let re ← computeRmse sqrt s.1 (.products test) false
  getBestModel alphas s.1 rt re

/-- `fit_standard` (`standard/fit.py` 66-114) from the weighted rows on; the products are computed
inside `solver_ridge` (`standard/solvers.py` 63-64). -/
def fitStandard [Field K] [LinearOrder K] (sqrt : K → K)
    (posv : Mat p K → Vec p K → Option (Vec p K))
    (alphas : List K) (train test : List (Vec p K × K)) : Except Err (Best p K) := do
  let s ← solverRidge posv (xtxOf train) (xtyOf train) alphas
  let rt ← computeRmse sqrt s.1 (.rows train) true
  let re ← computeRmse sqrt s.1 (.rows test) false
  getBestModel alphas s.1 rt re

/-- `PolymlpDataMLP.scaled_coeffs` of a single model (`dataclass.py` 43). -/
def scaledCoeffs [Field K] (c s : Vec p K) : Vec p K := fun a => c a / s a

/-! ## Conjugate gradients -/

/-- `(X.T @ X + alpha I) @ v` (`solvers_cg.py` 10-19) with `xtx` given. -/
def evalDot [Field K] (A : Mat p K) (α : K) (v : Vec p K) : Vec p K := fun a => mulVec A v a + α * v a

/-- State of the loop of `solver_cg` (`solvers_cg.py` 64-93).  `coef` is *one* numpy array updated in
place (line 79), and `coef_min = coef` (line 89) stores a reference to that array, so the variable
`coef_min` is represented by whether it refers to the array.  Norms are represented by their squares. -/
structure CG (p : ℕ) (K : Type) where
  coef : Vec p K
  residuals : Vec p K
  directions : Vec p K
  normMinSq : K
  minSet : Bool

/-- Body of the loop after the convergence test (`solvers_cg.py` 77-89).  A zero denominator
`t @ directions` (NaN in numpy) is reported as `zeroDivision`. -/
def cgStep [Field K] [LinearOrder K] (A : Mat p K) (α : K) (s : CG p K) : Except Err (CG p K) :=
  let t := evalDot A α s.directions
  let nsq := dot s.residuals s.residuals
  if dot t s.directions = 0 then .error .zeroDivision
  else
    let rate := nsq / dot t s.directions
    let coef : Vec p K := fun a => s.coef a + rate * s.directions a
    let res : Vec p K := fun a => s.residuals a - rate * t a
    let nsq' := dot res res
    let beta := nsq' / nsq
    .ok { coef := coef
          residuals := res
          directions := fun a => res a + beta * s.directions a
          normMinSq := if nsq' < s.normMinSq then nsq' else s.normMinSq
          minSet := s.minSet || decide (nsq' < s.normMinSq) }

/-- `i > 100 and norm_check < gtol` (`solvers_cg.py` 71), squared (`gtol ≥ 0`). -/
def cgConverged [Field K] [LinearOrder K] (gtol : K) (i : ℕ) (s : CG p K) : Bool :=
  decide (100 < i) && decide (dot s.residuals s.residuals / (p : K) < gtol * gtol)

/-- The loop: `fuel` iterations are left, the counter is `i`; returns the final state and whether the
loop was left through `break`. -/
def cgLoop [Field K] [LinearOrder K] (A : Mat p K) (α gtol : K) :
    ℕ → ℕ → CG p K → Except Err (CG p K × Bool)
  | 0, _, s => .ok (s, false)
  | fuel + 1, i, s =>
    if cgConverged gtol i s then .ok (s, true)
    else match cgStep A α s with
      | .error e => .error e
      | .ok s' => cgLoop A α gtol fuel (i + 1) s'

/-- Starting state (`solvers_cg.py` 55-65). -/
def cgInit [Field K] (A : Mat p K) (b : Vec p K) (α : K) (coef0 : Vec p K) : CG p K :=
  let r : Vec p K := fun a => b a - evalDot A α coef0 a
  { coef := coef0, residuals := r, directions := r, normMinSq := (10 ^ 10) * (10 ^ 10)
    minSet := false }

/-- `solver_cg` (`solvers_cg.py` 32-93) with `xtx`, `xty` given: `none` when `coef_min` is still
`None`. -/
def solverCG [Field K] [LinearOrder K] (A : Mat p K) (b : Vec p K) (α gtol : K) (maxIter : ℕ)
    (coef0 : Option (Vec p K)) : Except Err (Option (Vec p K)) := do
  let r ← cgLoop A α gtol maxIter 0 (cgInit A b α (coef0.getD fun _ => 0))
  return if r.1.minSet then some r.1.coef else none

end Verif.Regression
