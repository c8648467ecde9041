import Verif.Model.Regression

/-!
# Model of the regression with conjugate gradients over all penalties

Models `mlp_dev/gradient/fit_cg.py` `fit_cg` between the features and the selection of the model (both of
which are those of the standard regression, `Model/Regression.lean`).
-/

namespace Verif.Regression
open Verif.Sequential
variable {p : ℕ} {K : Type}

/-- `max_iter = max(n_features * 3, 50000)` when it is not given (`fit_cg.py` 40-41). -/
def cgMaxIter (p : ℕ) (maxIter : Option ℕ) : ℕ := maxIter.getD (max (p * 3) 50000)

/-- The loop over the reversed penalties (`fit_cg.py` 43-57): the result of one penalty is the start for
the next one; the results are collected in the order of the calls. -/
def cgSweep [Field K] [LinearOrder K] (A : Mat p K) (b : Vec p K) (gtol : K) (maxIter : ℕ) :
    Option (Vec p K) → List K → Except Err (List (Option (Vec p K)))
  | _, [] => .ok []
  | c0, α :: rest => do
    let c ← solverCG A b α gtol maxIter c0
    let cs ← cgSweep A b gtol maxIter c rest
    return c :: cs

/-- The columns of `coefs` (`fit_cg.py` 43-58), one for each penalty in the order of `params.alphas`.  When
the solver returned `None` for some penalty, `np.array` or the use of its result fails; simplification: the
failure is reported as `valueError` here. -/
def fitCGCoefs [Field K] [LinearOrder K] (A : Mat p K) (b : Vec p K) (alphas : List K) (gtol : K)
    (maxIter : Option ℕ) : Except Err (List (Vec p K)) := do
  let cs ← cgSweep A b gtol (cgMaxIter p maxIter) none alphas.reverse
  cs.reverse.mapM fun c => match c with
    | some c => .ok c
    | none => .error .valueError

end Verif.Regression
