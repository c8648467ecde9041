import Verif.Model.Py
import Mathlib.Algebra.Order.Field.Basic
import Mathlib.Analysis.SpecialFunctions.Log.Base

/-!
# Regression weights

`/repo/src/pypolymlp/mlp_dev/core/utils_weights.py` 10-47 and `mlp_dev/core/utils.py` 10-21, entry by
entry; floats are elements of an ordered field (real numbers for the stress weights).
-/

namespace Verif.Weights

/-- `_set_weight_energy_data` (`utils_weights.py` 10-22) for one structure with `n` atoms and given
`min_e`. -/
def weightEnergy {K : Type} [Field K] [LinearOrder K] (minE e : K) (n : ℕ) : K :=
  let epa := e / (n : K)
  let th1 := minE * (3 / 4)
  let th2 := minE * (1 / 2)
  let w := 1
  let w := if epa > th1 then 1 / 2 else w
  let w := if epa > th2 then 3 / 10 else w
  if epa > 0 then 1 / 10 else w

/-- `_set_weight_force_data` (`utils_weights.py` 25-31); `tol = 1e-12` in the code. -/
def weightForce {K : Type} [Field K] [LinearOrder K] (tol f : K) : K :=
  let a := |f|
  let a := if a < tol then tol else a
  let r := a⁻¹
  if r > 1 then 1 else r

/-- `_set_weight_stress_data` (`utils_weights.py` 34-47); `tol = 1e-12` in the code. -/
noncomputable def weightStress (tol c s : ℝ) : ℝ :=
  let log1 := if |s| > tol then Real.logb 10 |s| else Real.logb 10 tol
  let w := (5 : ℝ) ^ (-log1)
  let w := if w > 1 then 1 else w
  w * c

/-- Inner minimum of `get_min_energy` (`utils.py` 17-18): `np.min(energies / total_n_atoms)`. -/
def minPerAtom {K : Type} [Field K] [LinearOrder K] : List (K × ℕ) → Except Err K
  | [] => .error .runtimeError
  | (e, n) :: l => .ok (l.foldl (fun m q => min m (q.1 / (q.2 : K))) (e / (n : K)))

/-- `get_min_energy` (`utils.py` 10-21); a data set is the list of its (energy, atoms) pairs. -/
def getMinEnergy {K : Type} [Field K] [LinearOrder K] (datasets : List (List (K × ℕ))) : Except Err K :=
  datasets.foldlM (fun m d => do
    let t ← minPerAtom d
    return if t < m then t else m) ((10 : K) ^ 10)

end Verif.Weights
