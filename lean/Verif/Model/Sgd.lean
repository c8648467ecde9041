import Mathlib.Analysis.Real.Sqrt
import Mathlib.Data.Matrix.Mul

/-!
# Regression by stochastic gradients

`/repo/src/pypolymlp/mlp_dev/gradient/solvers_sgd.py`, called by `fit_sgd` (`mlp_dev/gradient/fit_sgd.py` 13-51).
Exact real arithmetic; `none` stands for coefficients that are not all finite numbers: a zero in the denominator
gives NaN or infinity in the code, every later pass then gives NaN for all coefficients and no test for
convergence succeeds.  Printed output is left out.  `x` has at least one column.
-/

namespace Verif.Sgd
open Matrix
variable {N n : ℕ}

/-- `grad` and `sq_grad`. -/
structure Moments (n : ℕ) where
  grad : Fin n → ℝ
  sq : Fin n → ℝ

/-- `grad_add` (`solvers_sgd.py` 28). -/
def gradAdd (x : Matrix (Fin N) (Fin n) ℝ) (xty : Fin n → ℝ) (alpha : ℝ) (coef : Fin n → ℝ) : Fin n → ℝ :=
  xᵀ *ᵥ (x *ᵥ coef) + alpha • coef - xty

/-- `grad_new` and `sq_grad_new` (`solvers_sgd.py` 29-38). -/
def moments (beta1 beta2 : ℝ) (g : Fin n → ℝ) : Option (Moments n) → Moments n
  | none => ⟨g, fun j => g j ^ 2⟩
  | some m => ⟨fun j => beta1 * m.grad j + (1 - beta1) * g j, fun j => beta2 * m.sq j + (1 - beta2) * g j ^ 2⟩

open Classical in
/-- `_func_adam` (`solvers_sgd.py` 16-43). -/
noncomputable def adamStep (x : Matrix (Fin N) (Fin n) ℝ) (xty : Fin n → ℝ) (alpha beta1 beta2 lr : ℝ)
    (coef : Fin n → ℝ) (mom : Option (Moments n)) : Option ((Fin n → ℝ) × Moments n) :=
  let m := moments beta1 beta2 (gradAdd x xty alpha coef) mom
  if ∃ j, m.sq j = 0 then none else some (fun j => coef j - lr * (m.grad j / √(m.sq j)), m)

/-- `np.linalg.norm(grad) / x.shape[1]`. -/
noncomputable def meanNorm (g : Fin n → ℝ) : ℝ := √(∑ j, g j ^ 2) / n

open Classical in
/-- One of the four loops (`solvers_sgd.py` 76-95, 99-108, 112-130, 134-152) with its threshold and its learning
rate; returns coefficients and the last `norm`. -/
noncomputable def stage (x : Matrix (Fin N) (Fin n) ℝ) (xty : Fin n → ℝ) (alpha beta1 beta2 thr lr : ℝ) :
    ℕ → (Fin n → ℝ) → ℝ → Option (Moments n) → Option ((Fin n → ℝ) × ℝ)
  | 0, coef, norm, _ => some (coef, norm)
  | k + 1, coef, norm, mom =>
    if norm < thr then some (coef, norm)
    else
      match adamStep x xty alpha beta1 beta2 lr coef mom with
      | none => none
      | some (c, m) => stage x xty alpha beta1 beta2 thr lr k c (meanNorm m.grad) (some m)

/-- The four loops of `solver_sgd` (`solvers_sgd.py` 73-152); the arguments `learning_rate` and `gtol` are not used
by the code. -/
noncomputable def stages (x : Matrix (Fin N) (Fin n) ℝ) (y : Fin N → ℝ) (alpha beta1 beta2 : ℝ) (maxIter : ℕ)
    (coef0 : Option (Fin n → ℝ)) : Option ((Fin n → ℝ) × ℝ) :=
  let xty := xᵀ *ᵥ y
  let coef := coef0.getD (fun _ => 0)
  (stage x xty alpha beta1 beta2 1 (3 / 10) maxIter coef (10 ^ 10) none).bind fun r1 =>
    (stage x xty alpha beta1 beta2 (1 / 10) (1 / 100) maxIter r1.1 r1.2 none).bind fun r2 =>
      (stage x xty alpha beta1 beta2 (1 / 100) (1 / 1000) maxIter r2.1 r2.2 none).bind fun r3 =>
        stage x xty alpha beta1 beta2 (1 / 1000) (1 / 10000) maxIter r3.1 r3.2 none

/-- `solver_sgd` (`solvers_sgd.py` 46-172). -/
noncomputable def solverSgd (x : Matrix (Fin N) (Fin n) ℝ) (y : Fin N → ℝ) (alpha beta1 beta2 : ℝ) (maxIter : ℕ)
    (coef0 : Option (Fin n → ℝ)) : Option (Fin n → ℝ) :=
  (stages x y alpha beta1 beta2 maxIter coef0).map Prod.fst

end Verif.Sgd
